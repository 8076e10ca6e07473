import Verif.Lemmas.Graph
/-! Flat test fields: `n` floors above each other over a full grid, every span joined to its four neighbours on its floor. -/
namespace Rerecast

/-- The span of floor `l` at `(x, z)`. -/
def layerSpan (w h x z l : Nat) : CompactSpan :=
  ((((({ CompactSpan.default with y := 20 * l } : CompactSpan).setHeight 15).setCon 0 (if 0 < x then some l else none)).setCon 1
    (if z + 1 < h then some l else none)).setCon 2 (if x + 1 < w then some l else none)).setCon 3 (if 0 < z then some l else none)

/-- `n` full floors over a `w × h` grid, with these areas (column by column, lowest floor first). -/
def layers (w h n : Nat) (areas : List Nat) : CompactHeightfield :=
  ⟨w, h, 3, 1, 0, 0, 0, (List.range (w * h)).map fun c => ⟨n * c, n⟩,
    (List.range (w * h * n)).map fun k => layerSpan w h (k / n % w) (k / n / w) (k % n), [], areas⟩

theorem layerSpan_con {w h x z l d : Nat} (hl : l ≤ 62) (hd : d < 4) :
    (layerSpan w h x z l).con d = (neighbourCell w h x z d).map fun _ => l := by
  have hv : ∀ (p : Prop) [Decidable p] n, (if p then some l else none) = some n → n < 63 := by
    intro p _ n h
    split at h
    · cases h; omega
    · cases h
  unfold layerSpan neighbourCell
  have h4 : d = 0 ∨ d = 1 ∨ d = 2 ∨ d = 3 := by omega
  rcases h4 with rfl | rfl | rfl | rfl
  · rw [con_setCon_other _ (by omega) (by omega) (by omega), con_setCon_other _ (by omega) (by omega) (by omega),
      con_setCon_other _ (by omega) (by omega) (by omega), con_setCon_same _ (by omega) _ (hv _)]
    split <;> rfl
  · rw [con_setCon_other _ (by omega) (by omega) (by omega), con_setCon_other _ (by omega) (by omega) (by omega),
      con_setCon_same _ (by omega) _ (hv _)]
    split <;> rfl
  · rw [con_setCon_other _ (by omega) (by omega) (by omega), con_setCon_same _ (by omega) _ (hv _)]
    split <;> rfl
  · rw [con_setCon_same _ (by omega) _ (hv _)]
    split <;> rfl

theorem flatMap_blocks (n : Nat) : ∀ m, ((List.range m).map fun c => (⟨n * c, n⟩ : CompactCell)).flatMap CompactCell.indexRange =
    List.range (m * n) := by
  intro m
  induction m with
  | zero => simp
  | succ m ih =>
    rw [List.range_succ, List.map_append, List.flatMap_append, ih]
    simp only [List.map_cons, List.map_nil, List.flatMap_cons, List.flatMap_nil, List.append_nil, CompactCell.indexRange]
    rw [List.range_eq_range', List.range_eq_range', Nat.mul_comm n m]
    have := List.range'_append (s := 0) (m := m * n) (n := n) (step := 1)
    simp only [Nat.zero_add, Nat.one_mul] at this
    rw [this]
    congr 1
    rw [Nat.succ_mul]

theorem layers_wellFormed {w h n : Nat} {areas : List Nat} (hw : w ≤ 65535) (hh : h ≤ 65535) (hn : n ≤ 63) (ha : areas.length = w * h * n) :
    (layers w h n areas).WellFormed where
  width_u16 := hw
  height_u16 := hh
  cells_len := by simp [layers]
  areas_len := by simp [layers, ha]
  partition := by
    have := flatMap_blocks n (w * h)
    simpa [layers] using this
  con := by
    intro x hx z hz cell hc i hi s hs d hd k hk
    change x < w at hx
    change z < h at hz
    have hlt := col_lt hx hz
    simp only [layers] at hc hs ⊢
    rw [List.getElem?_map, List.getElem?_range hlt] at hc
    simp only [Option.map_some, Option.some.injEq] at hc
    subst hc
    simp only [CompactCell.indexRange, List.mem_range'_1] at hi
    rw [List.getElem?_map] at hs
    have hil : i < w * h * n := by
      by_contra h'
      rw [List.getElem?_eq_none (by simpa using h')] at hs
      cases hs
    rw [List.getElem?_range hil] at hs
    simp only [Option.map_some, Option.some.injEq] at hs
    subst hs
    have hn0 : 0 < n := by omega
    have e1 : i / n = x + z * w := by
      rw [Nat.div_eq_iff hn0]
      constructor
      · rw [Nat.mul_comm]; omega
      · have : n * (x + z * w) = (x + z * w) * n := Nat.mul_comm _ _
        omega
    rw [e1, (col_divmod hx).1, (col_divmod hx).2, layerSpan_con (by have := Nat.mod_lt i hn0; omega) hd] at hk
    cases hnc : neighbourCell w h x z d with
    | none => rw [hnc] at hk; cases hk
    | some p =>
      obtain ⟨nx, nz⟩ := p
      rw [hnc] at hk
      simp only [Option.map_some, Option.some.injEq] at hk
      obtain ⟨h1, h2⟩ := neighbourCell_lt hx hz hnc
      refine ⟨nx, nz, ⟨n * (nx + nz * w), n⟩, rfl, ?_, ?_⟩
      · rw [List.getElem?_map, List.getElem?_range (col_lt h1 h2)]; rfl
      · rw [← hk]; exact Nat.mod_lt _ hn0

/-- Executable test of `WellFormed`. -/
def wfCheck (chf : CompactHeightfield) : Bool :=
  decide (chf.width ≤ 65535) && decide (chf.height ≤ 65535) && decide (chf.cells.length = chf.width * chf.height) &&
  decide (chf.areas.length = chf.spans.length) && decide (chf.cells.flatMap CompactCell.indexRange = List.range chf.spans.length) &&
  (List.range chf.width).all fun x => (List.range chf.height).all fun z => (chf.cells[x + z * chf.width]?).all fun cell =>
    cell.indexRange.all fun i => (chf.spans[i]?).all fun s => (List.range 4).all fun d => (s.con d).all fun k =>
      (neighbourCell chf.width chf.height x z d).any fun p => (chf.cells[p.1 + p.2 * chf.width]?).any fun nb => decide (k < nb.count)

theorem wellFormed_of_check {chf : CompactHeightfield} (h : wfCheck chf = true) : chf.WellFormed := by
  unfold wfCheck at h
  simp only [Bool.and_eq_true, decide_eq_true_eq] at h
  obtain ⟨⟨⟨⟨⟨h1, h2⟩, h3⟩, h4⟩, h5⟩, h6⟩ := h
  refine ⟨h1, h2, h3, h4, h5, ?_⟩
  intro x hx z hz cell hc i hi s hs d hd k hk
  have a := List.all_eq_true.1 (List.all_eq_true.1 h6 x (List.mem_range.2 hx)) z (List.mem_range.2 hz)
  rw [hc, Option.all_some] at a
  have a2 := List.all_eq_true.1 a i hi
  rw [hs, Option.all_some] at a2
  have a3 := List.all_eq_true.1 a2 d (List.mem_range.2 hd)
  rw [hk, Option.all_some] at a3
  obtain ⟨⟨nx, nz⟩, hp, a4⟩ := (Option.any_eq_true _ _).1 a3
  obtain ⟨nb, hnb, a5⟩ := (Option.any_eq_true _ _).1 a4
  exact ⟨nx, nz, nb, hp, hnb, by simpa using a5⟩

end Rerecast
