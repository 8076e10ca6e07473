import Verif.Lemmas.IntoCompact
/-! A well-formed compact heightfield seen as a graph: columns of spans, neighbour function, and scans over all spans. -/
set_option linter.unusedVariables false
namespace Rerecast
namespace CompactHeightfield

/-- Column number of a span. -/
def colOf (chf : CompactHeightfield) (i : Nat) : Nat := chf.cells.findIdx fun c => decide (i ∈ c.indexRange)

/-- Neighbour of a span. -/
def nbr (chf : CompactHeightfield) (i d : Nat) : Option Nat :=
  (chf.spans[i]?).bind fun s => (s.con d).bind fun con =>
    (neighbourCell chf.width chf.height (chf.colOf i % chf.width) (chf.colOf i / chf.width) d).bind fun p =>
      (chf.cells[p.1 + p.2 * chf.width]?).map fun c => c.index + con

def xOf (chf : CompactHeightfield) (i : Nat) : Nat := chf.colOf i % chf.width
def zOf (chf : CompactHeightfield) (i : Nat) : Nat := chf.colOf i / chf.width

section
variable {chf : CompactHeightfield} (hwf : chf.WellFormed)
include hwf

theorem col_spec {i : Nat} (hi : i < chf.spans.length) : chf.colOf i < chf.width * chf.height ∧
    ∃ cell, chf.cells[chf.colOf i]? = some cell ∧ i ∈ cell.indexRange := by
  have h1 : i ∈ chf.cells.flatMap CompactCell.indexRange := by rw [hwf.partition]; exact List.mem_range.2 hi
  obtain ⟨cell, hc, hic⟩ := List.mem_flatMap.1 h1
  have h2 : chf.colOf i < chf.cells.length := List.findIdx_lt_length_of_exists ⟨cell, hc, by simpa using hic⟩
  refine ⟨by rw [← hwf.cells_len]; exact h2, chf.cells[chf.colOf i], List.getElem?_eq_getElem h2, ?_⟩
  exact of_decide_eq_true (List.findIdx_getElem (w := h2))

theorem cells_sorted : chf.cells.Pairwise fun a b => ∀ i ∈ a.indexRange, ∀ j ∈ b.indexRange, i < j := by
  have h : (chf.cells.flatMap CompactCell.indexRange).Pairwise (· < ·) := by
    rw [hwf.partition]; exact List.pairwise_lt_range
  exact (List.pairwise_flatMap.1 h).2

theorem col_lt_of_cells {c c' : Nat} {cell cell' : CompactCell} (hc : chf.cells[c]? = some cell) (hc' : chf.cells[c']? = some cell')
    (hlt : c < c') {i j : Nat} (hi : i ∈ cell.indexRange) (hj : j ∈ cell'.indexRange) : i < j := by
  obtain ⟨h1, e1⟩ := List.getElem?_eq_some_iff.1 hc
  obtain ⟨h2, e2⟩ := List.getElem?_eq_some_iff.1 hc'
  have := List.pairwise_iff_getElem.1 (cells_sorted hwf) c c' h1 h2 hlt
  rw [e1, e2] at this
  exact this i hi j hj

theorem mem_cell_lt {c : Nat} {cell : CompactCell} (hc : chf.cells[c]? = some cell) {i : Nat} (hi : i ∈ cell.indexRange) :
    i < chf.spans.length := by
  have : i ∈ chf.cells.flatMap CompactCell.indexRange := List.mem_flatMap.2 ⟨cell, List.mem_of_getElem? hc, hi⟩
  rw [hwf.partition] at this
  exact List.mem_range.1 this

theorem col_unique {c : Nat} {cell : CompactCell} (hc : chf.cells[c]? = some cell) {i : Nat} (hi : i ∈ cell.indexRange) :
    chf.colOf i = c := by
  obtain ⟨_, cell', h1, h2⟩ := col_spec hwf (mem_cell_lt hwf hc hi)
  rcases Nat.lt_trichotomy (chf.colOf i) c with h | h | h
  · have := col_lt_of_cells hwf h1 hc h h2 hi; omega
  · exact h
  · have := col_lt_of_cells hwf hc h1 h hi h2; omega

theorem lt_of_col_lt {i j : Nat} (hi : i < chf.spans.length) (hj : j < chf.spans.length)
    (h : chf.colOf i < chf.colOf j) : i < j := by
  obtain ⟨_, ci, h1, h2⟩ := col_spec hwf hi
  obtain ⟨_, cj, h3, h4⟩ := col_spec hwf hj
  exact col_lt_of_cells hwf h1 h3 h h2 h4

theorem xz_spec {i : Nat} (hi : i < chf.spans.length) : chf.xOf i < chf.width ∧ chf.zOf i < chf.height ∧
    chf.xOf i + chf.zOf i * chf.width = chf.colOf i := col_div (col_spec hwf hi).1

theorem at_spec {i : Nat} {s : CompactSpan} (hs : chf.spans[i]? = some s) : chf.At (chf.xOf i) (chf.zOf i) i s := by
  have hi : i < chf.spans.length := (List.getElem?_eq_some_iff.1 hs).1
  obtain ⟨h1, h2, h3⟩ := xz_spec hwf hi
  obtain ⟨_, cell, h4, h5⟩ := col_spec hwf hi
  exact ⟨h1, h2, hs, cell, by rw [h3]; exact h4, h5⟩

theorem at_unique {x z i : Nat} {s : CompactSpan} (h : chf.At x z i s) : x = chf.xOf i ∧ z = chf.zOf i := by
  obtain ⟨hx, hz, hs, cell, hc, hi⟩ := h
  have e := col_unique hwf hc hi
  have := xz_spec hwf (mem_cell_lt hwf hc hi)
  exact col_inj hx this.1 (by omega)

theorem nbr_of_con {i d con : Nat} {s : CompactSpan} (hs : chf.spans[i]? = some s) (hd : d < 4) (hc : s.con d = some con) :
    ∃ k, chf.nbr i d = some k ∧ k < chf.spans.length ∧
      neighbourCell chf.width chf.height (chf.xOf i) (chf.zOf i) d = some (chf.xOf k, chf.zOf k) ∧
      chf.neighbour (chf.xOf i) (chf.zOf i) d con = .ok (chf.xOf k, chf.zOf k, k) := by
  obtain ⟨hx, hz, _, cell, hcell, hi⟩ := at_spec hwf hs
  obtain ⟨nx, nz, nb, h1, h2, h3⟩ := hwf.con _ hx _ hz cell hcell i hi s hs d hd con hc
  have hk : nb.index + con ∈ nb.indexRange := by simp [CompactCell.indexRange, List.mem_range']; omega
  have hkl := mem_cell_lt hwf h2 hk
  have hcol := col_unique hwf h2 hk
  obtain ⟨hnx, hnz⟩ := neighbourCell_lt hx hz h1
  have e1 : chf.xOf (nb.index + con) = nx := by unfold xOf; rw [hcol]; exact (col_divmod hnx).1
  have e2 : chf.zOf (nb.index + con) = nz := by unfold zOf; rw [hcol]; exact (col_divmod hnx).2
  refine ⟨nb.index + con, ?_, hkl, by rw [e1, e2]; exact h1, ?_⟩
  · have h1' : neighbourCell chf.width chf.height (chf.colOf i % chf.width) (chf.colOf i / chf.width) d = some (nx, nz) := h1
    unfold nbr
    rw [hs, Option.bind_some, hc, Option.bind_some, h1', Option.bind_some, h2]; rfl
  · have hw := hwf.width_u16
    have hh := hwf.height_u16
    have ex : asU16 ((chf.xOf i : Int) + dirOffsetX d) = nx ∧ asU16 ((chf.zOf i : Int) + dirOffsetZ d) = nz := by
      have h4 : d = 0 ∨ d = 1 ∨ d = 2 ∨ d = 3 := by omega
      rcases h4 with rfl | rfl | rfl | rfl <;> simp only [neighbourCell] at h1 <;> split at h1 <;> cases h1 <;>
        simp only [asU16, dirOffsetX, dirOffsetZ] <;> omega
    unfold neighbour
    rw [ex.1, ex.2, e1, e2]
    simp only [cellAt, columnIndex, idx_some h2, bind_ok]

theorem nbr_con {i d k : Nat} (h : chf.nbr i d = some k) (hd : d < 4) : ∃ s con, chf.spans[i]? = some s ∧ s.con d = some con ∧
    k < chf.spans.length ∧ neighbourCell chf.width chf.height (chf.xOf i) (chf.zOf i) d = some (chf.xOf k, chf.zOf k) ∧
      chf.neighbour (chf.xOf i) (chf.zOf i) d con = .ok (chf.xOf k, chf.zOf k, k) := by
  have h' := h
  unfold nbr at h'
  obtain ⟨s, hs, h2⟩ := Option.bind_eq_some_iff.1 h'
  obtain ⟨con, hc, _⟩ := Option.bind_eq_some_iff.1 h2
  obtain ⟨k', e, h3⟩ := nbr_of_con hwf hs hd hc
  rw [h] at e; cases e
  exact ⟨s, con, hs, hc, h3⟩

theorem nbr_none {i d : Nat} {s : CompactSpan} (hs : chf.spans[i]? = some s) (hd : d < 4) (h : chf.nbr i d = none) :
    s.con d = none := by
  cases hc : s.con d with
  | none => rfl
  | some con => obtain ⟨k, e, _⟩ := nbr_of_con hwf hs hd hc; rw [h] at e; cases e

theorem nbr_iff_link {i d k : Nat} (hd : d < 4) : chf.nbr i d = some k ↔ chf.Link i d k := by
  constructor
  · intro h
    obtain ⟨s, con, hs, hc, hk, hn, hm⟩ := nbr_con hwf h hd
    have hat := at_spec hwf hs
    obtain ⟨cx, cz, _, cell, hcell, _⟩ := at_spec hwf (List.getElem?_eq_getElem hk)
    refine ⟨_, _, s, con, _, _, cell, hat, hc, hn, hcell, ?_⟩
    simp only [neighbour] at hm
    have hw := hwf.width_u16
    have hh := hwf.height_u16
    cases hcc : chf.cellAt (asU16 ((chf.xOf i : Int) + dirOffsetX d)) (asU16 ((chf.zOf i : Int) + dirOffsetZ d)) with
    | error e => rw [hcc] at hm; cases hm
    | ok c =>
      rw [hcc, bind_ok] at hm
      simp only [Except.ok.injEq, Prod.mk.injEq] at hm
      obtain ⟨e1, e2, e3⟩ := hm
      rw [e1, e2] at hcc
      have := idx_eq_ok.1 hcc
      rw [columnIndex, hcell] at this
      cases this
      exact e3.symm
  · rintro ⟨x, z, s, l, nx, nz, nb, hat, hc, hn, hnb, rfl⟩
    obtain ⟨rfl, rfl⟩ := at_unique hwf hat
    unfold nbr
    have h1' : neighbourCell chf.width chf.height (chf.colOf i % chf.width) (chf.colOf i / chf.width) d = some (nx, nz) := hn
    rw [hat.2.2.1, Option.bind_some, hc, Option.bind_some, h1', Option.bind_some, hnb]; rfl

theorem nbr_lt {i d k : Nat} (hd : d < 4) (h : chf.nbr i d = some k) : i < chf.spans.length ∧ k < chf.spans.length := by
  obtain ⟨s, con, hs, _, hk, _⟩ := nbr_con hwf h hd
  exact ⟨(List.getElem?_eq_some_iff.1 hs).1, hk⟩

/-- A scan over the spans in row order is a loop over the span indices. -/
theorem forSpans_eq (f : σ → Nat → Nat → Nat → Res σ) (init : σ) :
    chf.forSpans (gridCells chf.width chf.height) f init =
      (List.range chf.spans.length).foldlM (fun st i => f st (chf.xOf i) (chf.zOf i) i) init := by
  rw [← hwf.partition, gridCells_eq, ← hwf.cells_len]
  unfold forSpans
  rw [foldlM_map_res]
  have key : ∀ (n : Nat), n ≤ chf.cells.length → ∀ s, (List.range n).foldlM (fun st c => do
      let cell ← chf.cellAt (c % chf.width) (c / chf.width)
      cell.indexRange.foldlM (fun st i => f st (c % chf.width) (c / chf.width) i) st) s =
      ((chf.cells.take n).flatMap CompactCell.indexRange).foldlM (fun st i => f st (chf.xOf i) (chf.zOf i) i) s := by
    intro n hn s
    induction n with
    | zero => rfl
    | succ n ih =>
      rw [List.range_succ, List.foldlM_append, ih (by omega), List.take_succ_eq_append_getElem (by omega),
        List.flatMap_append, List.foldlM_append]
      congr 1
      funext s'
      have hc : chf.cells[n]? = some chf.cells[n] := List.getElem?_eq_getElem (by omega)
      have hd := col_div (c := n) (w := chf.width) (h := chf.height) (by rw [← hwf.cells_len]; omega)
      simp only [List.foldlM_cons, List.foldlM_nil, List.flatMap_cons, List.flatMap_nil, List.append_nil,
        cellAt, columnIndex, hd.2.2, idx_some hc, bind_ok]
      have e : ∀ (l : List Nat), (∀ i ∈ l, i ∈ chf.cells[n].indexRange) → ∀ s : σ,
          l.foldlM (fun st i => f st (n % chf.width) (n / chf.width) i) s =
          l.foldlM (fun st i => f st (chf.xOf i) (chf.zOf i) i) s := by
        intro l
        induction l with
        | nil => intro _ _; rfl
        | cons a l ihl =>
          intro hl s
          have := col_unique hwf hc (hl a (by simp))
          simp only [List.foldlM_cons, xOf, zOf, this]
          congr 1; funext s2
          exact ihl (fun i hi => hl i (by simp [hi])) s2
      rw [e _ (fun i hi => hi)]
      cases chf.cells[n].indexRange.foldlM (fun st i => f st (chf.xOf i) (chf.zOf i) i) s' <;> rfl
  have := key chf.cells.length (by omega) init
  rw [List.take_length] at this
  exact this

end

/-- Span indices in the order of the backward scans: columns in reverse, spans of a column from the lowest. -/
def revOrder (chf : CompactHeightfield) : List Nat := chf.cells.reverse.flatMap CompactCell.indexRange

theorem gridCellsRev_eq (w h : Nat) : gridCellsRev w h = (gridCells w h).reverse := by
  unfold gridCellsRev gridCells
  rw [List.reverse_flatMap]
  congr 1
  funext z; simp [Function.comp]

section
variable {chf : CompactHeightfield} (hwf : chf.WellFormed)
include hwf

theorem forSpansRev_eq (f : σ → Nat → Nat → Nat → Res σ) (init : σ) :
    chf.forSpans (gridCellsRev chf.width chf.height) f init =
      chf.revOrder.foldlM (fun st i => f st (chf.xOf i) (chf.zOf i) i) init := by
  rw [gridCellsRev_eq, gridCells_eq, ← hwf.cells_len]
  unfold forSpans revOrder
  rw [← List.map_reverse, foldlM_map_res]
  have key : ∀ (n : Nat), n ≤ chf.cells.length → ∀ s, (List.range n).reverse.foldlM (fun st c => do
      let cell ← chf.cellAt (c % chf.width) (c / chf.width)
      cell.indexRange.foldlM (fun st i => f st (c % chf.width) (c / chf.width) i) st) s =
      ((chf.cells.take n).reverse.flatMap CompactCell.indexRange).foldlM (fun st i => f st (chf.xOf i) (chf.zOf i) i) s := by
    intro n hn
    induction n with
    | zero => intro s; rfl
    | succ n ih =>
      intro s
      rw [List.range_succ, List.take_succ_eq_append_getElem (by omega), List.reverse_append, List.reverse_append,
        List.reverse_singleton, List.reverse_singleton, List.singleton_append, List.singleton_append,
        List.flatMap_cons, List.foldlM_append, List.foldlM_cons]
      have hc : chf.cells[n]? = some chf.cells[n] := List.getElem?_eq_getElem (by omega)
      have hd := col_div (c := n) (w := chf.width) (h := chf.height) (by rw [← hwf.cells_len]; omega)
      simp only [cellAt, columnIndex, hd.2.2, idx_some hc, bind_ok]
      have e : ∀ (l : List Nat), (∀ i ∈ l, i ∈ chf.cells[n].indexRange) → ∀ s : σ,
          l.foldlM (fun st i => f st (n % chf.width) (n / chf.width) i) s =
          l.foldlM (fun st i => f st (chf.xOf i) (chf.zOf i) i) s := by
        intro l
        induction l with
        | nil => intro _ _; rfl
        | cons a l ihl =>
          intro hl s
          have := col_unique hwf hc (hl a (by simp))
          simp only [List.foldlM_cons, xOf, zOf, this]
          congr 1; funext s2
          exact ihl (fun i hi => hl i (by simp [hi])) s2
      rw [e _ (fun i hi => hi)]
      congr 1
      funext s'
      exact ih (by omega) s'
  have := key chf.cells.length (by omega) init
  rw [List.take_length] at this
  exact this

theorem mem_revOrder {i : Nat} : i ∈ chf.revOrder ↔ i < chf.spans.length := by
  have : i ∈ chf.revOrder ↔ i ∈ chf.cells.flatMap CompactCell.indexRange := by
    unfold revOrder; simp [List.mem_flatMap]
  rw [this, hwf.partition, List.mem_range]

theorem revOrder_nodup : chf.revOrder.Nodup := by
  have h : (chf.cells.flatMap CompactCell.indexRange).Nodup := by rw [hwf.partition]; exact List.nodup_range
  have hp : chf.revOrder.Perm (chf.cells.flatMap CompactCell.indexRange) := by
    unfold revOrder; exact List.Perm.flatMap_right _ (List.reverse_perm _)
  exact hp.nodup_iff.2 h

/-- A span of a later column is visited earlier by the backward scan. -/
theorem revOrder_before {i j : Nat} (hj : j < chf.spans.length) (h : chf.colOf i < chf.colOf j) {pre post : List Nat}
    (he : chf.revOrder = pre ++ i :: post) : j ∈ pre := by
  have hi : i < chf.spans.length := (mem_revOrder hwf).1 (by rw [he]; simp)
  have hj' : j ∈ chf.revOrder := (mem_revOrder hwf).2 hj
  rw [he] at hj'
  rcases List.mem_append.1 hj' with h1 | h1
  · exact h1
  · exfalso
    have hpw : chf.revOrder.Pairwise fun a b => chf.colOf b ≤ chf.colOf a := by
      unfold revOrder
      rw [List.pairwise_flatMap]
      constructor
      · intro c hc
        refine List.Pairwise.imp_of_mem (R := fun _ _ => True) ?_ (List.pairwise_of_forall (by intros; trivial))
        intro a b ha hb _
        obtain ⟨n, hn⟩ := List.mem_iff_getElem?.1 (List.mem_reverse.1 hc)
        rw [col_unique hwf hn ha, col_unique hwf hn hb]
        exact Nat.le_refl _
      · rw [List.pairwise_reverse]
        refine List.pairwise_iff_getElem.2 ?_
        intro a b ha hb hab x hx y hy
        rw [col_unique hwf (List.getElem?_eq_getElem ha) hy, col_unique hwf (List.getElem?_eq_getElem hb) hx]
        omega
    rw [he, List.pairwise_append] at hpw
    rcases List.mem_cons.1 h1 with rfl | h1
    · omega
    · have := (List.pairwise_cons.1 hpw.2.1).1 j h1; omega

theorem range_before {i j : Nat} (hi : i < chf.spans.length) (hj : j < chf.spans.length) (h : chf.colOf j < chf.colOf i) {pre post : List Nat}
    (he : List.range chf.spans.length = pre ++ i :: post) : j ∈ pre := by
  have hlt := lt_of_col_lt hwf hj hi h
  have hj' : j ∈ List.range chf.spans.length := List.mem_range.2 hj
  rw [he] at hj'
  rcases List.mem_append.1 hj' with h1 | h1
  · exact h1
  · exfalso
    have hpw := List.pairwise_lt_range (n := chf.spans.length)
    rw [he, List.pairwise_append] at hpw
    rcases List.mem_cons.1 h1 with rfl | h1
    · omega
    · have := (List.pairwise_cons.1 hpw.2.1).1 j h1; omega

end
end CompactHeightfield
end Rerecast
