import Verif.Lemmas.HeightPatch
import Verif.Lemmas.IntoPolyMesh
/-! Where the flood of a height patch starts. -/
set_option linter.unusedVariables false
namespace Rerecast
variable {A : Fault → Prop}
namespace HeightPatch
open CompactHeightfield
variable {chf : CompactHeightfield} {bs : Nat}

theorem FloodInv.congr {root C C' : Nat → Prop} {hp : HeightPatch} (h : FloodInv chf bs root C hp) (e : ∀ i, C i ↔ C' i) : FloodInv chf bs root C' hp := by
  have : C = C' := by funext i; exact propext (e i)
  rwa [← this]

theorem fill_out {hp : HeightPatch} {v : Nat} (hlen : hp.dataLen ≤ hp.data.length) :
    ∃ hp', hp.fill v = .ok hp' ∧ Alike hp hp' ∧ (∀ k < hp.dataLen, hp'.data[k]? = some v) := by
  unfold fill
  rw [if_pos hlen]
  refine ⟨_, rfl, ⟨rfl, rfl, rfl, rfl, by simp; omega⟩, ?_⟩
  intro k hk
  show (List.replicate _ _ ++ _)[k]? = _
  rw [List.getElem?_append_left (by simpa using hk), List.getElem?_replicate_of_lt hk]

theorem floodInv_empty {root : Nat → Prop} {hp : HeightPatch} (h : ∀ k < hp.dataLen, hp.data[k]? = some UNSET_HEIGHT) :
    FloodInv chf bs root (fun _ => False) hp := by
  refine ⟨fun _ h => h.elim, fun _ h => h.elim, fun _ _ h => h.elim, ?_, fun _ h => h.elim⟩
  intro x z v
  rw [has_nat]
  constructor
  · rintro ⟨hx, hz, hv, hd⟩
    rw [h _ (col_lt hx hz)] at hd
    exact absurd (Option.some.inj hd).symm hv
  · rintro ⟨_, _, h, _⟩
    exact h.elim

/-! ### Copying the heights of the region -/

section
variable (chf bs) (region : Nat) (hp : HeightPatch)

/-- The lowest span of the region in its cell, inside the patch. -/
def Lowest (i : Nat) : Prop :=
  (∃ s, chf.spans[i]? = some s ∧ s.region = region) ∧ hp.InPatch bs (chf.xOf i) (chf.zOf i) ∧
    ∀ j t, chf.spans[j]? = some t → t.region = region → chf.xOf j = chf.xOf i → chf.zOf j = chf.zOf i → i ≤ j
end
variable {region : Nat}

theorem Alike.lowest {a b : HeightPatch} (h : Alike a b) {i : Nat} : Lowest chf bs region b i ↔ Lowest chf bs region a i := by
  unfold Lowest; rw [h.inPatch]

theorem conIndices_ok (hwf : chf.WellFormed) {i d con : Nat} {s : CompactSpan} (hs : chf.spans[i]? = some s) (hd : d < 4) (hc : s.con d = some con) :
    ∃ k t, chf.nbr i d = some k ∧ chf.spans[k]? = some t ∧
      chf.conIndices (chf.xOf i) (chf.zOf i) d con = .ok ((chf.xOf k : Int), (chf.zOf k : Int), k) := by
  obtain ⟨nb, k, t, hnbr, hk, hcell, ht, hx, hz⟩ := step_of_con hwf hs hd hc
  refine ⟨k, t, hnbr, ht, ?_⟩
  unfold conIndices
  dsimp only
  rw [← hx, ← hz]
  rw [if_neg (by have : (0 : Int) ≤ (chf.zOf k : Int) * chf.width := mul_nonneg (by omega) (by omega); omega)]
  rw [show ((chf.xOf k : Int) + (chf.zOf k : Int) * chf.width).toNat = chf.xOf k + chf.zOf k * chf.width by omega, idx_some hcell, bind_ok, hk]

theorem regionBorder_out (hwf : chf.WellFormed) {i : Nat} {s : CompactSpan} (hs : chf.spans[i]? = some s) : ∀ ds : List Nat, (∀ d ∈ ds, d < 4) →
    Outs A (regionBorder chf s (chf.xOf i) (chf.zOf i) region ds) fun b => b = false →
      ∀ d ∈ ds, ∀ k, chf.nbr i d = some k → ∃ t, chf.spans[k]? = some t ∧ t.region = region
  | [], _ => Outs.ok (fun _ => by simp)
  | d :: ds, hds => by
    have ih := regionBorder_out hwf hs ds (fun d hd => hds d (List.mem_cons_of_mem _ hd))
    have hd := hds d (by simp)
    unfold regionBorder
    cases hc : s.con d with
    | none =>
      refine ih.mono ?_
      intro b hb hbf d' hd' k hk
      rcases List.mem_cons.1 hd' with rfl | h
      · obtain ⟨s', con, hs', hc', _⟩ := nbr_con hwf hk hd
        rw [hs] at hs'; cases hs'
        rw [hc] at hc'; cases hc'
      · exact hb hbf d' h k hk
    | some con =>
      obtain ⟨k, t, hnbr, ht, hci⟩ := conIndices_ok hwf hs hd hc
      dsimp only
      rw [hci, bind_ok]
      dsimp only
      rw [idx_some ht, bind_ok]
      split
      · exact Outs.ok (fun h => by cases h)
      · rename_i hr
        rw [not_not] at hr
        refine ih.mono ?_
        intro b hb hbf d' hd' k' hk'
        rcases List.mem_cons.1 hd' with rfl | h
        · rw [hnbr] at hk'; cases hk'
          exact ⟨t, ht, hr⟩
        · exact hb hbf d' h k' hk'

/-- The state after the cells `pre` of the patch. -/
structure GatherInv (chf : CompactHeightfield) (bs region : Nat) (hp0 : HeightPatch) (pre : List (Nat × Nat)) (g : Gather) : Prop where
  inv : FloodInv chf bs (Lowest chf bs region hp0)
    (fun i => Lowest chf bs region hp0 i ∧ ∃ p ∈ pre, chf.xOf i = p.1 + hp0.xmin + bs ∧ chf.zOf i = p.2 + hp0.zmin + bs) g.hp
  alike : Alike hp0 g.hp
  queue : ∃ is : List Nat, g.queue = is.map (seedOf chf) ∧ (∀ i ∈ is, Lowest chf bs region hp0 i) ∧
    ∀ i, Lowest chf bs region hp0 i → (∃ p ∈ pre, chf.xOf i = p.1 + hp0.xmin + bs ∧ chf.zOf i = p.2 + hp0.zmin + bs) →
      i ∈ is ∨ ∀ d < 4, ∀ k, chf.nbr i d = some k → ∃ t, chf.spans[k]? = some t ∧ t.region = region
  empty : g.empty = true ↔ ∀ i, Lowest chf bs region hp0 i →
    ¬ ∃ p ∈ pre, chf.xOf i = p.1 + hp0.xmin + bs ∧ chf.zOf i = p.2 + hp0.zmin + bs

theorem gatherCell_out (hwf : chf.WellFormed) (hy : ∀ s ∈ chf.spans, s.y ≠ 0xFFFF) {hp0 : HeightPatch} (hlen : hp0.dataLen ≤ hp0.data.length)
    {pre : List (Nat × Nat)} {x z : Nat} (hx : x < hp0.width) (hz : z < hp0.height) (hnew : (x, z) ∉ pre)
    {g : Gather} (h : GatherInv chf bs region hp0 pre g) : ∀ (is done : List Nat), (done ++ is).Pairwise (· < ·) →
    (∀ i, i ∈ done ++ is ↔ i < chf.spans.length ∧ chf.xOf i = x + hp0.xmin + bs ∧ chf.zOf i = z + hp0.zmin + bs) →
    (∀ i ∈ done, ∀ s, chf.spans[i]? = some s → s.region ≠ region) →
    Outs A (gatherCell chf region (hp0.xmin + x + bs) (hp0.zmin + z + bs) x z g is) (GatherInv chf bs region hp0 (pre ++ [(x, z)])) := by
  have hcells : ∀ i, (∃ p ∈ pre ++ [(x, z)], chf.xOf i = p.1 + hp0.xmin + bs ∧ chf.zOf i = p.2 + hp0.zmin + bs) ↔
      (∃ p ∈ pre, chf.xOf i = p.1 + hp0.xmin + bs ∧ chf.zOf i = p.2 + hp0.zmin + bs) ∨
      (chf.xOf i = x + hp0.xmin + bs ∧ chf.zOf i = z + hp0.zmin + bs) := by
    intro i
    simp only [List.mem_append, List.mem_singleton]
    constructor
    · rintro ⟨p, hp | rfl, e⟩
      · exact Or.inl ⟨p, hp, e⟩
      · exact Or.inr e
    · rintro (⟨p, hp, e⟩ | e)
      · exact ⟨p, Or.inl hp, e⟩
      · exact ⟨(x, z), Or.inr rfl, e⟩
  intro is
  induction is with
  | nil =>
    intro done hs hmem hdone
    rw [List.append_nil] at hmem
    have hno : ∀ i, Lowest chf bs region hp0 i → ¬ (chf.xOf i = x + hp0.xmin + bs ∧ chf.zOf i = z + hp0.zmin + bs) := by
      rintro i ⟨⟨s, hs, hr⟩, _, _⟩ he
      exact hdone i ((hmem i).2 ⟨(List.getElem?_eq_some_iff.1 hs).1, he⟩) s hs hr
    have hiff : ∀ i, Lowest chf bs region hp0 i → ((∃ p ∈ pre ++ [(x, z)], chf.xOf i = p.1 + hp0.xmin + bs ∧ chf.zOf i = p.2 + hp0.zmin + bs) ↔
        ∃ p ∈ pre, chf.xOf i = p.1 + hp0.xmin + bs ∧ chf.zOf i = p.2 + hp0.zmin + bs) := by
      intro i hi
      rw [hcells]
      exact ⟨fun h => h.resolve_right (hno i hi), Or.inl⟩
    obtain ⟨is, e1, e2, e3⟩ := h.queue
    refine Outs.ok ⟨h.inv.congr fun i => ?_, h.alike, ⟨is, e1, e2, fun i hi hp => e3 i hi ((hiff i hi).1 hp)⟩, ?_⟩
    · exact ⟨fun ⟨a, b⟩ => ⟨a, (hiff i a).2 b⟩, fun ⟨a, b⟩ => ⟨a, (hiff i a).1 b⟩⟩
    · rw [h.empty]
      exact forall₂_congr fun i hi => not_congr (hiff i hi).symm
  | cons i is ih =>
    intro done hs hmem hdone
    unfold gatherCell
    have hi := (hmem i).1 (by simp)
    have hspan := List.getElem?_eq_getElem hi.1
    rw [idx_ok hi.1, bind_ok]
    generalize chf.spans[i] = s at hspan ⊢
    split
    · rename_i hr
      have hlow : Lowest chf bs region hp0 i := by
        refine ⟨⟨s, hspan, hr⟩, by unfold InPatch; omega, ?_⟩
        intro j t ht hrt e1 e2
        have hj := (hmem j).2 ⟨(List.getElem?_eq_some_iff.1 ht).1, by omega, by omega⟩
        rcases List.mem_append.1 hj with h1 | h1
        · exact absurd hrt (hdone j h1 t ht)
        · rcases List.mem_cons.1 h1 with rfl | h2
          · omega
          · have := (List.pairwise_cons.1 (List.pairwise_append.1 hs).2.1).1 j h2
            omega
      have hone : ∀ j, Lowest chf bs region hp0 j → chf.xOf j = x + hp0.xmin + bs → chf.zOf j = z + hp0.zmin + bs → j = i := by
        intro j hj e1 e2
        obtain ⟨⟨t, ht, hrt⟩, _, hmin⟩ := hj
        have h1 := hmin i s hspan hr (by omega) (by omega)
        have h2 := hlow.2.2 j t ht hrt (by omega) (by omega)
        omega
      have hlen' : g.hp.dataLen ≤ g.hp.data.length := by
        rw [h.alike.len]; unfold dataLen; rw [h.alike.width, h.alike.height]; exact hlen
      have hxw : x < g.hp.width := by rw [h.alike.width]; exact hx
      have hzh : z < g.hp.height := by rw [h.alike.height]; exact hz
      rw [setDataAt_eq hlen' hxw hzh, bind_ok]
      have hbr := regionBorder_out (A := A) (region := region) hwf hspan [0, 1, 2, 3] (by simp)
      rw [hi.2.1, hi.2.2, show x + hp0.xmin + bs = hp0.xmin + x + bs by omega, show z + hp0.zmin + bs = hp0.zmin + z + bs by omega] at hbr
      refine hbr.bind ?_
      intro border hborder
      have hlt : x + z * g.hp.width < g.hp.dataLen := col_lt hxw hzh
      have hold : g.hp.data[x + z * g.hp.width]? = some UNSET_HEIGHT := by
        have hl2 : x + z * g.hp.width < g.hp.data.length := by omega
        rw [List.getElem?_eq_getElem hl2]
        by_contra hne
        obtain ⟨j, ⟨hj, p, hp, e1, e2⟩, e3, e4⟩ := h.inv.unset_iff hwf hlen' hxw hzh (List.getElem?_eq_getElem hl2) (fun e => hne (by rw [e]))
        rw [h.alike.xmin] at e3
        rw [h.alike.zmin] at e4
        have : p = (x, z) := Prod.ext (by dsimp only; omega) (by dsimp only; omega)
        exact hnew (this ▸ hp)
      have hadd := h.inv.add (k := i) (t := s) (x := x) (z := z) hwf hlen' (Or.inl hlow) hspan (by rw [h.alike.xmin]; exact hi.2.1)
        (by rw [h.alike.zmin]; exact hi.2.2) hxw hzh hold (hy s (List.mem_of_getElem? hspan))
      have hiff : ∀ j, Lowest chf bs region hp0 j → ((∃ p ∈ pre ++ [(x, z)], chf.xOf j = p.1 + hp0.xmin + bs ∧ chf.zOf j = p.2 + hp0.zmin + bs) ↔
          (∃ p ∈ pre, chf.xOf j = p.1 + hp0.xmin + bs ∧ chf.zOf j = p.2 + hp0.zmin + bs) ∨ j = i) := by
        intro j hj
        rw [hcells]
        constructor
        · rintro (h | ⟨e1, e2⟩)
          · exact Or.inl h
          · exact Or.inr (hone j hj e1 e2)
        · rintro (h | rfl)
          · exact Or.inl h
          · exact Or.inr hi.2
      obtain ⟨is', e1, e2, e3⟩ := h.queue
      refine Outs.ok ⟨hadd.congr fun j => ?_, h.alike.trans ⟨rfl, rfl, rfl, rfl, by simp⟩, ?_, ?_⟩
      · constructor
        · rintro (⟨a, b⟩ | rfl)
          · exact ⟨a, (hiff j a).2 (Or.inl b)⟩
          · exact ⟨hlow, (hiff j hlow).2 (Or.inr rfl)⟩
        · rintro ⟨a, b⟩
          rcases (hiff j a).1 b with h1 | h1
          · exact Or.inl ⟨a, h1⟩
          · exact Or.inr h1
      · refine ⟨if border then is' ++ [i] else is', ?_, ?_, ?_⟩
        · dsimp only
          cases border with
          | false => simpa using e1
          | true =>
            simp only [if_true, List.map_append, e1, List.map_cons, List.map_nil, seedOf, hi.2.1, hi.2.2]
            congr 1
            simp only [List.cons.injEq, and_true, Prod.mk.injEq]
            omega
        · intro j hj
          cases border with
          | false => exact e2 j (by simpa using hj)
          | true =>
            simp only [if_true, List.mem_append, List.mem_singleton] at hj
            rcases hj with h1 | rfl
            · exact e2 j h1
            · exact hlow
        · intro j hj hp
          rcases (hiff j hj).1 hp with h1 | rfl
          · rcases e3 j hj h1 with h2 | h2
            · left; split <;> simp [h2]
            · exact Or.inr h2
          · cases border with
            | false =>
              right
              intro d hd
              exact hborder rfl d (by simp; omega)
            | true => left; simp
      · simp only [Bool.false_eq_true, false_iff]
        intro hcon
        exact hcon i hlow ((hiff i hlow).2 (Or.inr rfl))
    · rename_i hr
      refine ih (done ++ [i]) (by simpa using hs) (by simpa using hmem) ?_
      intro j hj t ht
      rcases List.mem_append.1 hj with h1 | h1
      · exact hdone j h1 t ht
      · rw [List.mem_singleton] at h1
        subst h1
        rw [hspan] at ht
        cases ht
        exact hr

theorem gatherStep_out (hwf : chf.WellFormed) (hy : ∀ s ∈ chf.spans, s.y ≠ 0xFFFF) {hp0 : HeightPatch} (hlen : hp0.dataLen ≤ hp0.data.length)
    (hxf : hp0.xmin + hp0.width + bs ≤ chf.width) (hzf : hp0.zmin + hp0.height + bs ≤ chf.height)
    {pre : List (Nat × Nat)} {p : Nat × Nat} (hx : p.1 < hp0.width) (hz : p.2 < hp0.height) (hnew : p ∉ pre)
    {g : Gather} (h : GatherInv chf bs region hp0 pre g) : Outs A (gatherStep chf bs region g p) (GatherInv chf bs region hp0 (pre ++ [p])) := by
  obtain ⟨x, z⟩ := p
  dsimp only at hx hz
  have hw := hwf.width_u16
  have hh := hwf.height_u16
  have hadd : ∀ a b, a + b ≤ 65535 → addU16 a b = .ok (a + b) := fun a b h => by unfold addU16; rw [if_pos h]
  unfold gatherStep
  dsimp only
  rw [h.alike.zmin, h.alike.xmin, hadd _ _ (by omega), bind_ok, hadd _ _ (by omega), bind_ok, hadd _ _ (by omega), bind_ok, hadd _ _ (by omega), bind_ok]
  have hcol : hp0.xmin + x + bs + (hp0.zmin + z + bs) * chf.width < chf.cells.length := by
    rw [hwf.cells_len]; exact col_lt (by omega) (by omega)
  rw [idx_ok hcol, bind_ok]
  have hc := List.getElem?_eq_getElem hcol
  generalize chf.cells[hp0.xmin + x + bs + (hp0.zmin + z + bs) * chf.width] = c at hc ⊢
  refine gatherCell_out hwf hy hlen hx hz hnew h c.indexRange [] ?_ ?_ (by simp)
  · simpa [CompactCell.indexRange] using List.pairwise_lt_range'
  · intro i
    rw [List.nil_append]
    constructor
    · intro hi
      have hl := mem_cell_lt hwf hc hi
      have hat : chf.At (hp0.xmin + x + bs) (hp0.zmin + z + bs) i _ := ⟨by omega, by omega, List.getElem?_eq_getElem hl, c, hc, hi⟩
      have := at_unique hwf hat
      exact ⟨hl, by omega, by omega⟩
    · rintro ⟨hl, e1, e2⟩
      obtain ⟨_, _, _, cell, hcell, hi⟩ := at_spec hwf (List.getElem?_eq_getElem hl)
      rw [e1, e2, show x + hp0.xmin + bs = hp0.xmin + x + bs by omega, show z + hp0.zmin + bs = hp0.zmin + z + bs by omega, hc] at hcell
      cases hcell
      exact hi

theorem gather_out (hwf : chf.WellFormed) (hy : ∀ s ∈ chf.spans, s.y ≠ 0xFFFF) {hp0 : HeightPatch} (hlen : hp0.dataLen ≤ hp0.data.length)
    (hxf : hp0.xmin + hp0.width + bs ≤ chf.width) (hzf : hp0.zmin + hp0.height + bs ≤ chf.height) (hun : ∀ k < hp0.dataLen, hp0.data[k]? = some UNSET_HEIGHT) :
    Outs A (gather chf bs region ⟨hp0, [], true⟩) fun g =>
      (region ≠ REGION_NONE ∧ GatherInv chf bs region hp0 (gridCells hp0.width hp0.height) g) ∨ (region = REGION_NONE ∧ g = ⟨hp0, [], true⟩) := by
  unfold gather
  split
  · rename_i hr
    dsimp only
    refine (Outs.foldlM (fun pre g => GatherInv chf bs region hp0 pre g) _ _ ?_ ?_).mono fun g hg => Or.inl ⟨hr, hg⟩
    · exact ⟨(floodInv_empty hun).congr fun i => by simp, Alike.refl _, ⟨[], rfl, by simp, by simp⟩, by simp⟩
    · intro pre p post g hl hg
      have hp : p ∈ gridCells hp0.width hp0.height := by rw [hl]; simp
      obtain ⟨h1, h2⟩ := mem_gridCells'.1 hp
      refine gatherStep_out hwf hy hlen hxf hzf h1 h2 ?_ hg
      have := gridCells_nodup hp0.width hp0.height
      rw [hl] at this
      exact fun hm => (List.nodup_append.1 this).2.2 p hm p (by simp) rfl
  · rename_i hr
    exact Outs.ok (Or.inr ⟨not_not.1 hr, rfl⟩)

end HeightPatch
end Rerecast
