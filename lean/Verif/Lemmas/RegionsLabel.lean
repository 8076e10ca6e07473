import Verif.Lemmas.RegionsComplete
import Mathlib.Order.Interval.Finset.Nat
/-! The labelling phase of `build_regions`. -/
set_option linter.unusedVariables false
set_option linter.unusedSectionVars false
namespace Rerecast
namespace CompactHeightfield
variable {chf : CompactHeightfield}

/-- Every id given out to a region is used by a span. -/
def Used (chf : CompactHeightfield) (next : Nat) (reg : List Nat) : Prop :=
  ∀ r, 5 ≤ r → r < next → ∃ i < chf.spans.length, reg.getD i 0 = r

theorem Used.next_le {next : Nat} {reg : List Nat} (h : Used chf next reg) : next ≤ chf.spans.length + 5 := by
  have : (Finset.Ico 5 next).card ≤ (Finset.range chf.spans.length).card := by
    refine (Finset.card_le_card (t := (Finset.range chf.spans.length).image fun i => reg.getD i 0) fun r hr => ?_).trans Finset.card_image_le
    obtain ⟨h1, h2⟩ := Finset.mem_Ico.1 hr
    obtain ⟨i, hi, e⟩ := h r h1 h2
    exact Finset.mem_image.2 ⟨i, Finset.mem_range.2 hi, e⟩
  simp at this
  omega

section
variable (hwf : chf.WellFormed)
include hwf

theorem paintRect_out {bad : Prop} {minX maxX minZ maxZ region : Nat} (hX : maxX ≤ chf.width) (hZ : maxZ ≤ chf.height) {reg : List Nat}
    (hr : reg.length = chf.spans.length) : Out bad (chf.paintRectRegion minX maxX minZ maxZ region reg) fun out =>
      out.length = chf.spans.length ∧
      (∀ i < chf.spans.length, chf.WalkableAt i ∧ minX ≤ chf.xOf i ∧ chf.xOf i < maxX ∧ minZ ≤ chf.zOf i ∧ chf.zOf i < maxZ →
        out.getD i 0 = region) ∧
      (∀ i < chf.spans.length, ¬ (chf.WalkableAt i ∧ minX ≤ chf.xOf i ∧ chf.xOf i < maxX ∧ minZ ≤ chf.zOf i ∧ chf.zOf i < maxZ) →
        out.getD i 0 = reg.getD i 0) := by
  classical
  have hmem : ∀ x z, (x, z) ∈ rectCells minX maxX minZ maxZ ↔ minX ≤ x ∧ x < maxX ∧ minZ ≤ z ∧ z < maxZ := by
    intro x z
    unfold rectCells
    simp only [List.mem_flatMap, List.mem_map, List.mem_range'_1, Prod.mk.injEq]
    constructor
    · rintro ⟨z', hz', x', hx', rfl, rfl⟩; omega
    · rintro h; exact ⟨z, by omega, x, by omega, rfl, rfl⟩
  unfold paintRectRegion forSpans
  refine Out.mono (Out.foldlM (fun pre (out : List Nat) => out.length = chf.spans.length ∧
    ∀ i < chf.spans.length, out.getD i 0 = if chf.WalkableAt i ∧ (chf.xOf i, chf.zOf i) ∈ pre then region else reg.getD i 0)
    (rectCells minX maxX minZ maxZ) reg ⟨hr, by simp⟩ ?_) ?_
  · rintro pre ⟨x, z⟩ post s he ⟨hs1, hs2⟩
    have hin := (hmem x z).1 (by rw [he]; simp)
    have hcl : x + z * chf.width < chf.cells.length := by
      rw [hwf.cells_len, Nat.mul_comm chf.width]
      have : (z + 1) * chf.width ≤ chf.height * chf.width := Nat.mul_le_mul_right _ (by omega)
      have e : (z + 1) * chf.width = z * chf.width + chf.width := Nat.succ_mul _ _
      omega
    have hcell := List.getElem?_eq_getElem hcl
    simp only [cellAt, columnIndex]
    rw [idx_some hcell, bind_ok]
    have hcol : ∀ j ∈ (chf.cells[x + z * chf.width]).indexRange, j < chf.spans.length ∧ chf.xOf j = x ∧ chf.zOf j = z := by
      intro j hj
      have h1 := mem_cell_lt hwf hcell hj
      have h2 := col_unique hwf hcell hj
      have h3 := xz_spec hwf h1
      have := col_inj (w := chf.width) (x := chf.xOf j) (z := chf.zOf j) (x' := x) (z' := z) h3.1 (by omega) (by rw [h3.2.2, h2])
      exact ⟨h1, this.1, this.2⟩
    have hcol' : ∀ j < chf.spans.length, chf.xOf j = x → chf.zOf j = z → j ∈ (chf.cells[x + z * chf.width]).indexRange := by
      intro j hj e1 e2
      obtain ⟨_, cell, hc, hm⟩ := col_spec hwf hj
      have h3 := xz_spec hwf hj
      rw [← h3.2.2, e1, e2, hcell] at hc
      cases hc; exact hm
    refine Out.mono (Out.foldlM (fun preI (out : List Nat) => out.length = chf.spans.length ∧
      ∀ i < chf.spans.length, out.getD i 0 = if chf.WalkableAt i ∧ ((chf.xOf i, chf.zOf i) ∈ pre ∨ i ∈ preI) then region else reg.getD i 0)
      _ s ⟨hs1, fun i hi => by rw [hs2 i hi]; simp⟩ ?_) ?_
    · rintro preI j postI t hj ⟨ht1, ht2⟩
      have hjm := hcol j (by rw [hj]; simp)
      rw [idx_area hwf hjm.1, bind_ok]
      have hwj := walkableAt_iff hwf hjm.1
      by_cases hwk : isWalkable (chf.areaAt j) = true
      · rw [if_pos hwk, setIdx_ok (by rw [ht1]; exact hjm.1)]
        refine Out.ok ⟨by simpa using ht1, fun i hi => ?_⟩
        rw [getD_set (by rw [ht1]; exact hjm.1)]
        by_cases hij : i = j
        · subst hij; rw [if_pos rfl, if_pos ⟨hwj.2 hwk, Or.inr (by simp)⟩]
        · rw [if_neg hij, ht2 i hi]; simp [hij]
      · rw [if_neg hwk]
        refine Out.ok ⟨ht1, fun i hi => ?_⟩
        rw [ht2 i hi]
        by_cases hij : i = j
        · subst hij
          have : ¬ chf.WalkableAt i := fun h => hwk (hwj.1 h)
          simp [this]
        · simp [hij]
    · rintro out ⟨ho1, ho2⟩
      refine ⟨ho1, fun i hi => ?_⟩
      rw [ho2 i hi]
      have : ((chf.xOf i, chf.zOf i) ∈ pre ∨ i ∈ (chf.cells[x + z * chf.width]).indexRange) ↔ (chf.xOf i, chf.zOf i) ∈ pre ++ [(x, z)] := by
        simp only [List.mem_append, List.mem_singleton, Prod.mk.injEq]
        constructor
        · rintro (h | h)
          · exact Or.inl h
          · exact Or.inr ⟨(hcol i h).2.1, (hcol i h).2.2⟩
        · rintro (h | ⟨h1, h2⟩)
          · exact Or.inl h
          · exact Or.inr (hcol' i hi h1 h2)
      simp only [this]
  · rintro out ⟨ho1, ho2⟩
    refine ⟨ho1, fun i hi h => ?_, fun i hi h => ?_⟩
    · rw [ho2 i hi, if_pos ⟨h.1, (hmem _ _).2 h.2⟩]
    · rw [ho2 i hi, if_neg fun h' => h ⟨h'.1, (hmem _ _).1 h'.2⟩]

theorem paintBorder_out {bad : Prop} (b : Nat) : Out bad (chf.paintBorder b (List.replicate chf.spans.length REGION_NONE)) fun o =>
    LabInv chf b o.2 ⟨o.1, List.replicate chf.spans.length 0⟩ ∧ o.2 ≤ 5 ∧ ∀ k, ¬ ProperRegion (o.1.getD k 0) := by
  -- from the values to the invariant
  have fin : ∀ (reg : List Nat) (next : Nat), reg.length = chf.spans.length → next ≠ 0 →
      (∀ i < chf.spans.length, chf.WalkableAt i ∧ chf.Strip b i → chf.SideStrip b i (reg.getD i 0) ∧ reg.getD i 0 < 65536) →
      (∀ i < chf.spans.length, ¬ (chf.WalkableAt i ∧ chf.Strip b i) → reg.getD i 0 = 0) →
      LabInv chf b next ⟨reg, List.replicate chf.spans.length 0⟩ ∧ ∀ k, ¬ ProperRegion (reg.getD k 0) := by
    intro reg next hlen hn h1' h2
    have h1 : ∀ i < chf.spans.length, chf.WalkableAt i ∧ chf.Strip b i → isBorderRegion (reg.getD i 0) = true ∧ reg.getD i 0 < 65536 :=
      fun i hi h => ⟨(h1' i hi h).1.border, (h1' i hi h).2⟩
    have hnp : ∀ i < chf.spans.length, ¬ ProperRegion (reg.getD i 0) := by
      intro i hi hp
      by_cases h : chf.WalkableAt i ∧ chf.Strip b i
      · have := (h1 i hi h).1; rw [hp.2] at this; cases this
      · exact hp.1 (h2 i hi h)
    refine ⟨⟨⟨hlen, by simp, ?_⟩, hn, ?_, ?_, ?_, ?_, ?_, fun i hi hw hs => (h1' i hi ⟨hw, hs⟩).1, ?_, ?_⟩, fun k => ?_⟩
    rotate_right
    · by_cases hk : k < chf.spans.length
      · exact hnp k hk
      · rw [getD_of_ge (by rw [hlen]; omega)]; exact not_proper_zero
    · intro i hi _; exact getD_replicate hi
    · intro i hi h
      by_contra hc
      exact h (h2 i hi fun h' => hc h'.1)
    · intro i hi
      by_cases h : chf.WalkableAt i ∧ chf.Strip b i
      · exact Or.inr (h1 i hi h)
      · left; simp only; rw [h2 i hi h]; omega
    · intro i hi j hj _ hp; exact absurd hp (hnp i hi)
    · intro i hi j hj _ hp; exact absurd hp (hnp i hi)
    · intro _ i hi
      constructor
      · intro h
        by_contra hc
        simp only at h
        rw [h2 i hi hc] at h
        exact absurd h (by decide)
      · exact fun h => (h1 i hi h).1
    · intro i hi; simp only; rw [getD_replicate hi]; omega
    · intro i hi; simp only; rw [getD_replicate hi]
  unfold paintBorder
  by_cases hb : b > 0
  · rw [if_pos hb]
    simp only
    refine Out.bind (paintRect_out hwf (by omega) (by omega) (by simp)) fun r1 ⟨l1, p1, n1⟩ => ?_
    refine Out.bind (paintRect_out hwf (by omega) (by omega) l1) fun r2 ⟨l2, p2, n2⟩ => ?_
    refine Out.bind (paintRect_out hwf (by omega) (by omega) l2) fun r3 ⟨l3, p3, n3⟩ => ?_
    refine Out.bind (paintRect_out hwf (by omega) (by omega) l3) fun r4 ⟨l4, p4, n4⟩ => ?_
    refine Out.ok ((fun h => ⟨h.1, by simp, h.2⟩) (fin r4 5 l4 (by omega) ?_ ?_))
    · rintro i hi ⟨hw, hs⟩
      obtain ⟨hx, hz, _⟩ := xz_spec hwf hi
      unfold Strip at hs
      by_cases h4 : chf.height ≤ chf.zOf i + b
      · rw [p4 i hi ⟨hw, by omega, by omega, by omega, by omega⟩]; exact ⟨Or.inr (Or.inr (Or.inr ⟨rfl, h4⟩)), by decide⟩
      · rw [n4 i hi (by rintro ⟨_, h⟩; omega)]
        by_cases h3 : chf.zOf i < b
        · rw [p3 i hi ⟨hw, by omega, by omega, by omega, by omega⟩]; exact ⟨Or.inr (Or.inr (Or.inl ⟨rfl, h3⟩)), by decide⟩
        · rw [n3 i hi (by rintro ⟨_, h⟩; omega)]
          by_cases h2 : chf.width ≤ chf.xOf i + b
          · rw [p2 i hi ⟨hw, by omega, by omega, by omega, by omega⟩]; exact ⟨Or.inr (Or.inl ⟨rfl, h2⟩), by decide⟩
          · rw [n2 i hi (by rintro ⟨_, h⟩; omega), p1 i hi ⟨hw, by omega, by omega, by omega, by omega⟩]; exact ⟨Or.inl ⟨rfl, by omega⟩, by decide⟩
    · intro i hi hs
      obtain ⟨hx, hz, _⟩ := xz_spec hwf hi
      have hs' : ∀ (P : Prop), (P → chf.Strip b i) → ¬ (chf.WalkableAt i ∧ P) := fun P hP h => hs ⟨h.1, hP h.2⟩
      unfold Strip at hs'
      rw [n4 i hi (hs' _ (by intro h; omega)), n3 i hi (hs' _ (by intro h; omega)), n2 i hi (hs' _ (by intro h; omega)),
        n1 i hi (hs' _ (by intro h; omega)), getD_replicate hi]; rfl
  · rw [if_neg hb]
    refine Out.ok ((fun h => ⟨h.1, by simp, h.2⟩) (fin _ 1 (by simp) (by omega) ?_ ?_))
    · rintro i hi ⟨_, hs⟩
      obtain ⟨hx, hz, _⟩ := xz_spec hwf hi
      unfold Strip at hs
      omega
    · intro i hi _; rw [getD_replicate hi]; rfl

variable (hdl : chf.dist.length = chf.spans.length)
include hdl

theorem entryOf_ok {i : Nat} (hi : i < chf.spans.length) (hw : chf.WalkableAt i) : EntriesOk chf [⟨chf.xOf i, chf.zOf i, some i⟩] := by
  intro e he j hj
  simp at he; subst he
  simp at hj; subst hj
  exact ⟨hi, rfl, rfl, hw⟩

omit hwf hdl in
theorem EntriesOk.append {s t : List LevelEntry} (h1 : EntriesOk chf s) (h2 : EntriesOk chf t) : EntriesOk chf (s ++ t) := by
  intro e he
  rcases List.mem_append.1 he with he | he
  · exact h1 e he
  · exact h2 e he

/-- All sks hold proper entries. -/
def StacksOk (chf : CompactHeightfield) (sks : List (List LevelEntry)) : Prop :=
  sks.length = 8 ∧ ∀ s ∈ sks, EntriesOk chf s

omit hwf hdl in
theorem StacksOk.replicate : StacksOk chf (List.replicate 8 []) := by
  refine ⟨by simp, ?_⟩
  intro s hs
  have := List.eq_of_mem_replicate hs
  subst this
  intro e he; cases he

omit hwf hdl in
theorem StacksOk.set {sks : List (List LevelEntry)} (h : StacksOk chf sks) {k : Nat} {s : List LevelEntry} (hs : EntriesOk chf s) :
    StacksOk chf (sks.set k s) := by
  refine ⟨by simpa using h.1, ?_⟩
  intro t ht
  rcases List.mem_or_eq_of_mem_set ht with ht | rfl
  · exact h.2 t ht
  · exact hs

/-- Every walkable span without a label that belongs to one of the stacks is in a stack from `sId` on, at most at its own
level. -/
def Covers (chf : CompactHeightfield) (start sId : Nat) (reg : List Nat) (sks : List (List LevelEntry)) : Prop :=
  ∀ i < chf.spans.length, chf.WalkableAt i → reg.getD i 0 = 0 → start - chf.dist.getD i 0 / 2 < 8 →
    ∃ k, sId ≤ k ∧ k ≤ max sId (start - chf.dist.getD i 0 / 2) ∧ ∃ e ∈ sks.getD k [], e.index = some i

omit hwf hdl in
theorem stacks_set {sks : List (List LevelEntry)} {k j : Nat} {s : List LevelEntry} (h : k < sks.length) :
    (sks.set k s).getD j [] = if j = k then s else sks.getD j [] := by
  simp only [List.getD_eq_getElem?_getD, List.getElem?_set]
  by_cases hjk : k = j
  · subst hjk; simp [h]
  · have : j ≠ k := fun e => hjk e.symm
    simp [hjk, this]

theorem sortCells_covers {level : Nat} {reg : List Nat} (hr : reg.length = chf.spans.length) :
    Holds (chf.sortCellsByLevel level reg) (Covers chf (level / 2) 0 reg) := by
  unfold sortCellsByLevel
  rw [forSpans_eq hwf]
  refine Holds.mono (Out.holds (Out.foldlM (bad := False) (fun pre (sks : List (List LevelEntry)) => sks.length = 8 ∧
    ∀ i ∈ pre, chf.WalkableAt i → reg.getD i 0 = 0 → level / 2 - chf.dist.getD i 0 / 2 < 8 →
      ∃ e ∈ sks.getD (level / 2 - chf.dist.getD i 0 / 2) [], e.index = some i) _ _ ⟨by simp, by simp⟩ ?_)) ?_
  · rintro pre i post sks he ⟨hl, hc⟩
    have hi' : i < chf.spans.length := List.mem_range.1 (by rw [he]; simp)
    have old : ∀ (sks' : List (List LevelEntry)), sks'.length = 8 → (∀ k, ∀ e ∈ sks.getD k [], e ∈ sks'.getD k []) →
        (chf.WalkableAt i → reg.getD i 0 = 0 → level / 2 - chf.dist.getD i 0 / 2 < 8 →
          ∃ e ∈ sks'.getD (level / 2 - chf.dist.getD i 0 / 2) [], e.index = some i) →
        sks'.length = 8 ∧ ∀ j ∈ pre ++ [i], chf.WalkableAt j → reg.getD j 0 = 0 → level / 2 - chf.dist.getD j 0 / 2 < 8 →
          ∃ e ∈ sks'.getD (level / 2 - chf.dist.getD j 0 / 2) [], e.index = some j := by
      intro sks' hl' hsub hnew
      refine ⟨hl', fun j hj h1 h2 h3 => ?_⟩
      rcases List.mem_append.1 hj with hj | hj
      · obtain ⟨e, he, hi⟩ := hc j hj h1 h2 h3
        exact ⟨e, hsub _ e he, hi⟩
      · rw [List.mem_singleton] at hj; subst hj; exact hnew h1 h2 h3
    unfold sortSpan
    rw [idx_area hwf hi', bind_ok]
    by_cases hw : isWalkable (chf.areaAt i) = true
    · simp only [hw, Bool.not_true, Bool.false_eq_true, if_false]
      rw [idx_getD (by rw [hr]; exact hi'), bind_ok]
      split
      · rename_i h
        exact Out.ok (old sks hl (fun _ _ h => h) fun _ h' => absurd h' h)
      · rw [idx_getD (by rw [hdl]; exact hi'), bind_ok]
        split
        · rename_i h
          exact Out.ok (old sks hl (fun _ _ h => h) fun _ _ h' => by omega)
        · rename_i h8
          have hlt : level / 2 - chf.dist.getD i 0 / 2 < sks.length := by rw [hl]; omega
          have hget := List.getElem?_eq_getElem hlt
          rw [idx_some hget, bind_ok, setIdx_ok hlt]
          refine Out.ok (old _ (by simp [hl]) ?_ ?_)
          · intro k e he
            rw [stacks_set hlt]
            split
            · rename_i hk
              subst hk
              rw [List.getD_eq_getElem?_getD, hget] at he
              exact List.mem_append.2 (Or.inl he)
            · exact he
          · intro _ _ _
            refine ⟨⟨chf.xOf i, chf.zOf i, some i⟩, ?_, rfl⟩
            rw [stacks_set hlt, if_pos rfl]
            simp
    · simp only [Bool.not_eq_true] at hw
      simp only [hw, Bool.not_false, if_true]
      refine Out.ok (old sks hl (fun _ _ h => h) fun h' => ?_)
      rw [walkableAt_iff hwf hi', hw] at h'; cases h'
  · rintro sks ⟨hl, hc⟩ i hi h1 h2 h3
    exact ⟨_, Nat.zero_le _, by omega, hc i (List.mem_range.2 hi) h1 h2 h3⟩

theorem sortCells_out {bad : Prop} {level : Nat} {reg : List Nat} (hr : reg.length = chf.spans.length) :
    Out bad (chf.sortCellsByLevel level reg) (StacksOk chf) := by
  unfold sortCellsByLevel
  rw [forSpans_eq hwf]
  refine Out.foldlM_inv _ _ _ StacksOk.replicate ?_
  intro i hi sks hst
  have hi' := List.mem_range.1 hi
  unfold sortSpan
  rw [idx_area hwf hi', bind_ok]
  by_cases hw : isWalkable (chf.areaAt i) = true
  · simp only [hw, Bool.not_true, Bool.false_eq_true, if_false]
    rw [idx_getD (by rw [hr]; exact hi'), bind_ok]
    split
    · exact Out.ok hst
    · rw [idx_getD (by rw [hdl]; exact hi'), bind_ok]
      split
      · exact Out.ok hst
      · rename_i h8
        have hlt : level / 2 - chf.dist.getD i 0 / 2 < sks.length := by rw [hst.1]; omega
        have hget := List.getElem?_eq_getElem hlt
        rw [idx_some hget, bind_ok, setIdx_ok hlt]
        refine Out.ok (hst.set ((hst.2 _ (List.getElem_mem hlt)).append ?_))
        exact entryOf_ok hwf hdl hi' ((walkableAt_iff hwf hi').2 hw)
  · simp only [Bool.not_eq_true] at hw
    simp only [hw, Bool.not_false, if_true]
    exact Out.ok hst

omit hwf hdl in
theorem appendStacks_out {bad : Prop} {src dst : List LevelEntry} {reg : List Nat} (hr : reg.length = chf.spans.length)
    (h1 : EntriesOk chf src) (h2 : EntriesOk chf dst) : Out bad (appendStacks src dst reg) (EntriesOk chf) := by
  unfold appendStacks
  refine Out.foldlM_inv _ _ _ h2 ?_
  rintro ⟨x, z, index⟩ he s hs
  cases index with
  | none => exact Out.ok hs
  | some i =>
    simp only
    have hi := (h1 _ he i rfl).1
    rw [idx_getD (by rw [hr]; exact hi), bind_ok]
    split
    · exact Out.ok hs
    · refine Out.ok (hs.append ?_)
      intro e' he'
      simp at he'; subst he'
      exact h1 _ he

omit hwf hdl in
theorem appendStacks_covers {src dst : List LevelEntry} {reg : List Nat} : Holds (appendStacks src dst reg) fun o =>
    (∀ e ∈ dst, e ∈ o) ∧ ∀ e ∈ src, ∀ i, e.index = some i → reg.getD i 0 = 0 → e ∈ o := by
  unfold appendStacks
  induction src generalizing dst with
  | nil => exact Holds.ok ⟨fun _ h => h, by simp⟩
  | cons e src ih =>
    rw [List.foldlM_cons]
    intro o ho
    obtain ⟨d1, h1, ho⟩ := bind_inv ho
    obtain ⟨a1, a2⟩ := ih o ho
    have hs : (∀ e ∈ dst, e ∈ d1) ∧ ∀ i, e.index = some i → reg.getD i 0 = 0 → e ∈ d1 := by
      cases he : e.index with
      | none =>
        rw [he] at h1; cases h1
        exact ⟨fun _ h => h, by simp⟩
      | some i =>
        rw [he] at h1
        obtain ⟨r, hr, h1⟩ := bind_inv h1
        have hr' := idx_eq_ok.1 hr
        split at h1
        · rename_i hne
          cases h1
          refine ⟨fun _ h => h, ?_⟩
          intro j hj h0
          cases hj
          rw [List.getD_eq_getElem?_getD, hr'] at h0
          exact absurd h0 hne
        · cases h1
          exact ⟨fun e h => by simp [h], fun _ _ _ => by simp⟩
    refine ⟨fun e' h => a1 e' (hs.1 e' h), ?_⟩
    intro e' he' i hi h0
    rcases List.mem_cons.1 he' with rfl | h
    · exact a1 e' (hs.2 i hi h0)
    · exact a2 e' h i hi h0

omit hwf hdl in
/-- Marking only drops entries that have a label. -/
theorem expandMark_covers {stack : List LevelEntry} {reg : List Nat} : Holds (expandMark reg stack) fun s =>
    ∀ e ∈ stack, ∀ i, e.index = some i → reg.getD i 0 = 0 → ∃ e' ∈ s, e'.index = some i := by
  unfold expandMark
  induction stack with
  | nil => exact Holds.ok (by simp)
  | cons e stack ih =>
    rw [List.mapM_cons]
    intro o ho
    obtain ⟨e1, h1, ho⟩ := bind_inv ho
    obtain ⟨s1, h2, ho⟩ := bind_inv ho
    cases ho
    intro e' he' i hi h0
    rcases List.mem_cons.1 he' with rfl | h
    · refine ⟨e1, by simp, ?_⟩
      rw [hi] at h1
      obtain ⟨r, hr, h1⟩ := bind_inv h1
      have hr' := idx_eq_ok.1 hr
      split at h1
      · rename_i hne
        rw [List.getD_eq_getElem?_getD, hr'] at h0
        exact absurd h0 hne
      · cases h1; exact hi
    · obtain ⟨e2, h3, h4⟩ := ih s1 h2 e' h i hi h0
      exact ⟨e2, by simp [h3], h4⟩

omit hwf hdl in
theorem expandMark_out {bad : Prop} {stack : List LevelEntry} {reg : List Nat} (hr : reg.length = chf.spans.length)
    (h1 : EntriesOk chf stack) : Out bad (expandMark reg stack) fun s => EntriesOk chf s ∧ EntriesFree reg s := by
  unfold expandMark
  refine Out.mono (Out.mapM (R := fun _ (e : LevelEntry) => EntriesOk chf [e] ∧ EntriesFree reg [e]) stack ?_) ?_
  · rintro ⟨x, z, index⟩ he
    cases index with
    | none =>
      refine Out.ok ⟨?_, ?_⟩ <;> (intro e' he' i hi; simp at he'; subst he'; cases hi)
    | some i =>
      simp only
      have hi := h1 _ he i rfl
      rw [idx_getD (by rw [hr]; exact hi.1), bind_ok]
      split
      · refine Out.ok ⟨?_, ?_⟩ <;> (intro e' he' i hi; simp at he'; subst he'; cases hi)
      · rename_i h0
        refine Out.ok ⟨?_, ?_⟩
        · intro e' he' j hj; simp at he'; subst he'; simp at hj; subst hj; exact hi
        · intro e' he' j hj; simp at he'; subst he'; simp at hj; subst hj; simpa [REGION_NONE] using h0
  · intro s hs
    have : ∀ e ∈ s, EntriesOk chf [e] ∧ EntriesFree reg [e] := by
      intro e he
      obtain ⟨k, hk, rfl⟩ := List.mem_iff_getElem.1 he
      have := hs.get (i := k) (by rw [hs.length_eq]; exact hk) hk
      simpa using this
    exact ⟨fun e he => (this e he).1 e (by simp), fun e he => (this e he).2 e (by simp)⟩

theorem expandFill_out {bad : Prop} {level : Nat} {reg : List Nat} (hr : reg.length = chf.spans.length) :
    Out bad (chf.expandFill level reg) fun s => EntriesOk chf s ∧ EntriesFree reg s ∧
      ∀ i < chf.spans.length, chf.WalkableAt i → reg.getD i 0 = 0 → level ≤ chf.dist.getD i 0 → ∃ e ∈ s, e.index = some i := by
  unfold expandFill
  rw [forSpans_eq hwf]
  refine Out.mono (Out.foldlM (fun pre (s : List LevelEntry) => EntriesOk chf s ∧ EntriesFree reg s ∧
    ∀ i ∈ pre, chf.WalkableAt i → reg.getD i 0 = 0 → level ≤ chf.dist.getD i 0 → ∃ e ∈ s, e.index = some i)
    (List.range chf.spans.length) [] ⟨(fun e he => by cases he), (fun e he => by cases he), by simp⟩ ?_) ?_
  · rintro pre i post s he ⟨h1, h2, h3⟩
    have hi : i < chf.spans.length := List.mem_range.1 (by rw [he]; simp)
    rw [idx_getD (by rw [hdl]; exact hi), bind_ok, idx_getD (by rw [hr]; exact hi), bind_ok, idx_area hwf hi, bind_ok]
    have hwi := walkableAt_iff hwf hi
    by_cases hc : chf.dist.getD i 0 ≥ level ∧ reg.getD i 0 = REGION_NONE ∧ isWalkable (chf.areaAt i) = true
    · rw [if_pos hc]
      refine Out.ok ⟨h1.append (entryOf_ok hwf hdl hi (hwi.2 hc.2.2)), ?_, ?_⟩
      · intro e he'
        rcases List.mem_append.1 he' with he' | he'
        · exact h2 e he'
        · simp at he'; subst he'; intro j hj; simp at hj; subst hj; exact hc.2.1
      · intro j hj w z l
        rcases List.mem_append.1 hj with hj | hj
        · obtain ⟨e, he, hi⟩ := h3 j hj w z l; exact ⟨e, by simp [he], hi⟩
        · simp at hj; subst hj; exact ⟨⟨chf.xOf j, chf.zOf j, some j⟩, by simp, rfl⟩
    · rw [if_neg hc]
      refine Out.ok ⟨h1, h2, ?_⟩
      intro j hj w z l
      rcases List.mem_append.1 hj with hj | hj
      · exact h3 j hj w z l
      · simp at hj; subst hj; exact absurd ⟨l, z, hwi.1 w⟩ hc
  · rintro s ⟨h1, h2, h3⟩
    exact ⟨h1, h2, fun i hi => h3 i (List.mem_range.2 hi)⟩

theorem LabInv.flood {b next seed level : Nat} {lab lab' : Labels} {acc : List Nat} (hl : LabInv chf b next lab)
    (hf : FloodInv chf lab next (chf.areaAt seed) seed level acc [] lab') (hseed : seed < chf.spans.length)
    (hw : chf.WalkableAt seed) : (acc = [] → LabInv chf b next lab') ∧ (acc ≠ [] → LabInv chf b (next + 1) lab') := by
  have hreg : ∀ i, lab'.reg.getD i 0 = if i ∈ acc then next else lab.reg.getD i 0 := by
    intro i; simpa using hf.reg i
  have hmem : ∀ i ∈ acc, i < chf.spans.length ∧ lab.reg.getD i 0 = 0 ∧ chf.areaAt i = chf.areaAt seed := fun i hi => hf.mem i (by simp [hi])
  have hfresh : ProperRegion next → ∀ i < chf.spans.length, lab.reg.getD i 0 ≠ next := by
    intro hp i hi e
    rcases hl.bound i hi with h | ⟨h, _⟩
    · omega
    · rw [e, hp.2] at h; cases h
  have base : ∀ n, n ≠ 0 → (∀ i < chf.spans.length, lab'.reg.getD i 0 < n ∨ (isBorderRegion (lab'.reg.getD i 0) = true ∧ lab'.reg.getD i 0 < 65536)) →
      (n ≤ 0x8000 → ∀ i < chf.spans.length, isBorderRegion (lab'.reg.getD i 0) = true ↔ chf.WalkableAt i ∧ chf.Strip b i) →
      LabInv chf b n lab' := by
    intro n hn hb hs
    refine ⟨⟨hf.len, by rw [hf.dist]; exact hl.shape.dist_len, ?_⟩, hn, ?_, hb, ?_, ?_, hs, ?_, ?_, ?_⟩
    · intro i hi h0
      rw [hf.dist]
      rw [hreg i] at h0
      split at h0
      · exact absurd h0 hl.next0
      · exact hl.shape.zero i hi h0
    · intro i hi h0
      rw [hreg i] at h0
      split at h0
      · rename_i hm
        rw [walkableAt_iff hwf hi, (hmem i hm).2.2, ← walkableAt_iff hwf hseed]; exact hw
      · exact hl.walk i hi h0
    · exact fresh_uniform hl.unif hreg hfresh fun i hi => (hmem i hi).2.2
    · exact fresh_connected hl.conn hreg hfresh (fun i hi => (hmem i hi).2.1) hf.reach
    · intro i hi hw' hs'
      have h := hl.painted i hi hw' hs'
      rw [hreg, if_neg]
      · exact hl.sided i hi hw' hs'
      · intro hm
        rw [(hmem i hm).2.1] at h
        exact absurd h (by decide)
    · rw [hf.dist]; exact hl.distb
    · rw [hf.dist]; exact hl.even
  constructor
  · intro he
    subst he
    have hreg' : ∀ i, lab'.reg.getD i 0 = lab.reg.getD i 0 := by intro i; simpa using hreg i
    refine base next hl.next0 ?_ ?_
    · intro i hi; rw [hreg']; exact hl.bound i hi
    · intro hn i hi; rw [hreg']; exact hl.strip hn i hi
  · intro hne
    refine base (next + 1) (by omega) ?_ ?_
    · intro i hi; rw [hreg]
      split
      · left; omega
      · rcases hl.bound i hi with h | h
        · left; omega
        · exact Or.inr h
    · intro hn i hi
      rw [← hl.strip (by omega) i hi, hreg]
      split
      · rename_i hm
        rw [(hmem i hm).2.1]
        have : isBorderRegion next = false := by
          unfold isBorderRegion
          exact Nat.testBit_lt_two_pow (by omega)
        rw [this]; decide
      · rfl

theorem seedEntry_out {b level : Nat} {e : LevelEntry} (he : EntriesOk chf [e]) (st : Labels × Nat)
    (hl : LabInv chf b st.2 st.1) (hu : Used chf st.2 st.1.reg) (hn : st.2 ≤ 65535) :
    Out (32766 < chf.spans.length) (chf.seedEntry level st e) fun o =>
      LabInv chf b o.2 o.1 ∧ Used chf o.2 o.1.reg ∧ o.2 ≤ 65535 := by
  obtain ⟨lab, next⟩ := st
  obtain ⟨x, z, index⟩ := e
  simp only at hl hu hn
  unfold seedEntry
  cases index with
  | none => exact Out.ok ⟨hl, hu, hn⟩
  | some i =>
    obtain ⟨hi, hx, hz, hw⟩ := he ⟨x, z, some i⟩ (List.mem_singleton.2 rfl) i rfl
    simp only at hx hz
    subst hx hz
    simp only
    rw [idx_getD (by rw [hl.shape.reg_len]; exact hi), bind_ok]
    split
    · exact Out.ok ⟨hl, hu, hn⟩
    · rename_i h0
      have h0' : lab.reg.getD i 0 = 0 := by simpa [REGION_NONE] using h0
      refine Out.bind (floodRegion_out hwf hdl hl.shape hi h0' hl.next0) ?_
      rintro ⟨lab', grown⟩ ⟨acc, hg, hf⟩
      simp only at hg hf
      obtain ⟨f1, f2⟩ := hl.flood hwf hdl hf hi hw
      have hkeep : ∀ k, lab.reg.getD k 0 ≠ 0 → lab'.reg.getD k 0 = lab.reg.getD k 0 := by
        intro k hk
        have := hf.reg k
        split at this
        · rename_i hm; exact absurd (hf.mem k hm).2.1 hk
        · exact this
      simp only
      by_cases hgt : grown = true
      · rw [if_pos hgt]
        have hne := hg.1 hgt
        by_cases hov : next = 65535
        · rw [if_pos hov]
          have := hu.next_le
          exact Or.inr ⟨by omega, .err, rfl, by simp⟩
        · rw [if_neg hov]
          refine Out.ok ⟨f2 hne, ?_, by simp only; omega⟩
          intro r h1 h2
          simp only at h2
          by_cases hr : r = next
          · subst hr
            obtain ⟨a, ha⟩ := List.exists_mem_of_ne_nil acc hne
            refine ⟨a, (hf.mem a (by simp [ha])).1, ?_⟩
            have := hf.reg a; rw [if_pos (by simp [ha])] at this; exact this
          · obtain ⟨k, hk, e⟩ := hu r h1 (by omega)
            exact ⟨k, hk, by simp only; rw [hkeep k (by rw [e]; omega), e]⟩
      · rw [if_neg hgt]
        have hnil : acc = [] := by
          by_contra hc; exact hgt (hg.2 hc)
        refine Out.ok ⟨f1 hnil, ?_, hn⟩
        intro r h1 h2
        obtain ⟨k, hk, e⟩ := hu r h1 h2
        exact ⟨k, hk, by simp only; rw [hkeep k (by rw [e]; omega), e]⟩

theorem Expanded.used {b next level : Nat} {lab : Labels} {stack : List LevelEntry} {o : Labels × List LevelEntry}
    (h : Expanded chf b next level lab stack o) (hu : Used chf next lab.reg) : Used chf next o.1.reg := by
  intro r h1 h2
  obtain ⟨k, hk, e⟩ := hu r h1 h2
  exact ⟨k, hk, by rw [h.keep k hk (by rw [e]; omega), e]⟩

omit hdl in
theorem filter_lt (stack : List LevelEntry) : (stack.filter (·.index.isSome)).length < stack.length + 1 := by
  have := List.length_filter_le (fun e : LevelEntry => e.index.isSome) stack
  omega

/-- A seed gets a label or is refused; labels stay. -/
theorem seedEntry_more {b level : Nat} {e : LevelEntry} (he : EntriesOk chf [e]) (st : Labels × Nat)
    (hl : LabInv chf b st.2 st.1) : Holds (chf.seedEntry level st e) fun o =>
      (∀ k, st.1.reg.getD k 0 ≠ 0 → o.1.reg.getD k 0 ≠ 0) ∧
      ∀ i, e.index = some i → o.1.reg.getD i 0 = 0 → chf.Refused b o.1.reg i := by
  obtain ⟨lab, next⟩ := st
  obtain ⟨x, z, index⟩ := e
  simp only at hl
  unfold seedEntry
  cases index with
  | none => exact Holds.ok ⟨fun _ h => h, by simp⟩
  | some i =>
    obtain ⟨hi, hx, hz, hw⟩ := he ⟨x, z, some i⟩ (List.mem_singleton.2 rfl) i rfl
    simp only at hx hz
    subst hx hz
    simp only
    rw [idx_getD (by rw [hl.shape.reg_len]; exact hi), bind_ok]
    split
    · rename_i h0
      refine Holds.ok ⟨fun _ h => h, ?_⟩
      intro j hj h
      simp at hj; subst hj
      exact absurd h h0
    · rename_i h0
      have h0' : lab.reg.getD i 0 = 0 := by simpa [REGION_NONE] using h0
      intro o ho
      obtain ⟨⟨lab', grown⟩, hfl, ho⟩ := bind_inv ho
      obtain ⟨acc, hg, hf⟩ := (floodRegion_out hwf hdl (bad := False) hl.shape hi h0' hl.next0).holds _ hfl
      have href := floodRegion_refused hwf hdl (b := b) hl.shape hi h0' hl.next0 hw hl.painted _ hfl
      simp only at href hf
      have hkeep : ∀ k, lab.reg.getD k 0 ≠ 0 → lab'.reg.getD k 0 ≠ 0 := by
        intro k hk
        have := hf.reg k
        split at this
        · rename_i hm; exact absurd (hf.mem k hm).2.1 hk
        · rw [this]; exact hk
      have fin : o.1 = lab' := by
        simp only at ho
        split at ho
        · split at ho
          · cases ho
          · cases ho; rfl
        · cases ho; rfl
      rw [fin]
      refine ⟨hkeep, ?_⟩
      intro j hj h
      simp at hj; subst hj
      exact (href h).mono hkeep

theorem levelStep_out {b m sId : Nat} (hs : sId < 8) (st : LevelState) (hl : LabInv chf b st.regionId st.lab)
    (hu : Used chf st.regionId st.lab.reg) (hn : st.regionId ≤ 65535) (hst : StacksOk chf st.stacks)
    (hcov : sId = 0 ∨ Covers chf (m + sId) (sId - 1) st.lab.reg st.stacks) :
    Out (32766 < chf.spans.length) (chf.levelStep (2 * m) sId st) fun o =>
      LabInv chf b o.regionId o.lab ∧ Used chf o.regionId o.lab.reg ∧ o.regionId ≤ 65535 ∧ StacksOk chf o.stacks ∧
      Covers chf (m + sId) sId o.lab.reg o.stacks ∧
      (m = 0 → ∀ i < chf.spans.length, o.lab.reg.getD i 0 = 0 → chf.WalkableAt i → chf.Refused b o.lab.reg i) := by
  unfold levelStep
  have h1 : Out (32766 < chf.spans.length) (chf.levelStacks (2 * m) sId st) fun sks =>
      StacksOk chf sks ∧ Covers chf (m + sId) sId st.lab.reg sks := by
    unfold levelStacks
    split
    · rename_i h0
      refine Out.and_holds (sortCells_out hwf hdl hl.shape.reg_len) ?_
      have := sortCells_covers hwf hdl (level := 2 * m) hl.shape.reg_len
      rw [show 2 * m / 2 = m + sId by omega] at this
      rw [h0] at this ⊢
      exact this
    · rename_i h0
      have hcov' := hcov.resolve_left h0
      have e1 : sId - 1 < st.stacks.length := by rw [hst.1]; omega
      have e2 : sId < st.stacks.length := by rw [hst.1]; omega
      rw [idx_some (List.getElem?_eq_getElem e1), bind_ok, idx_some (List.getElem?_eq_getElem e2), bind_ok]
      refine Out.bind (Out.and_holds (appendStacks_out hl.shape.reg_len (hst.2 _ (List.getElem_mem e1)) (hst.2 _ (List.getElem_mem e2)))
        appendStacks_covers) fun d ⟨hd, hd1, hd2⟩ => ?_
      rw [setIdx_ok e2]
      refine Out.ok ⟨hst.set hd, ?_⟩
      intro i hi hw h0' h8
      obtain ⟨k, hk1, hk2, e, he, hie⟩ := hcov' i hi hw h0' h8
      by_cases hks : k = sId - 1
      · refine ⟨sId, Nat.le_refl _, by omega, e, ?_, hie⟩
        rw [stacks_set e2, if_pos rfl]
        refine hd2 e ?_ i hie h0'
        rw [hks, List.getD_eq_getElem?_getD, List.getElem?_eq_getElem e1] at he
        exact he
      · refine ⟨k, by omega, by omega, e, ?_, hie⟩
        rw [stacks_set e2]
        split
        · rename_i hkk
          rw [hkk, List.getD_eq_getElem?_getD, List.getElem?_eq_getElem e2] at he
          exact hd1 e he
        · exact he
  refine Out.bind h1 fun sks ⟨hst', hcv⟩ => ?_
  have e2 : sId < sks.length := by rw [hst'.1]; omega
  rw [idx_some (List.getElem?_eq_getElem e2), bind_ok]
  have hx : Out (32766 < chf.spans.length) (chf.expandRegions 8 (2 * m) st.lab sks[sId] false) fun o =>
      LabInv chf b st.regionId o.1 ∧ Used chf st.regionId o.1.reg ∧ EntriesOk chf o.2 ∧
      (∀ k < chf.spans.length, st.lab.reg.getD k 0 ≠ 0 → o.1.reg.getD k 0 ≠ 0) ∧
      ∀ e ∈ sks[sId], ∀ i < chf.spans.length, e.index = some i → o.1.reg.getD i 0 = 0 → ∃ e' ∈ o.2, e'.index = some i := by
    unfold expandRegions
    simp only [Bool.false_eq_true, if_false]
    refine Out.bind (Out.and_holds (expandMark_out hl.shape.reg_len (hst'.2 _ (List.getElem_mem e2))) expandMark_covers) fun s ⟨⟨h1, h2⟩, h3⟩ => ?_
    refine Out.mono (expandLoop_out hwf _ 0 st.lab s hl h1 h2 (filter_lt hwf s)) fun o ho => ?_
    refine ⟨ho.inv, ho.used hwf hdl hu, ho.ok, ?_, ?_⟩
    · intro k hk h; rw [ho.keep k hk h]; exact h
    · intro e he i hi hie h0
      have h0' : st.lab.reg.getD i 0 = 0 := by
        by_contra hc; rw [ho.keep i hi hc] at h0; exact hc h0
      obtain ⟨e', he', hie'⟩ := h3 e he i hie h0'
      rcases ho.covered e' he' i hie' with h | h
      · exact absurd h0 h
      · exact h
  refine Out.bind hx ?_
  rintro ⟨lab, stack⟩ ⟨hl', hu', hok, hkeep, hent⟩
  simp only at hl' hu' hok hkeep hent ⊢
  rw [setIdx_ok e2, bind_ok]
  refine Out.bind (Out.foldlM (fun pre (o : Labels × Nat) => (LabInv chf b o.2 o.1 ∧ Used chf o.2 o.1.reg ∧ o.2 ≤ 65535) ∧
    (∀ k, lab.reg.getD k 0 ≠ 0 → o.1.reg.getD k 0 ≠ 0) ∧
      ∀ e ∈ pre, ∀ i, e.index = some i → o.1.reg.getD i 0 = 0 → chf.Refused b o.1.reg i) stack
    (lab, st.regionId) ⟨⟨hl', hu', hn⟩, fun _ h => h, by simp⟩ ?_) ?_
  · rintro pre e post s hes ⟨⟨a1, a2, a3⟩, a4, a5⟩
    have heok : EntriesOk chf [e] := by
      intro e' he'; simp at he'; subst he'; exact hok e' (by rw [hes]; simp)
    refine Out.mono (Out.and_holds (seedEntry_out hwf hdl heok s a1 a2 a3) (seedEntry_more hwf hdl heok s a1)) ?_
    rintro o ⟨b1, b2, b3⟩
    refine ⟨b1, fun k h => b2 k (a4 k h), ?_⟩
    intro e' he' i hi h0
    rcases List.mem_append.1 he' with h | h
    · refine (a5 e' h i hi ?_).mono b2
      by_contra hc; exact b2 i hc h0
    · rw [List.mem_singleton] at h; subst h
      exact b3 i hi h0
  · rintro ⟨lab', next⟩ ⟨⟨a1, a2, a3⟩, a4, a5⟩
    -- unlabelled spans are still in the stacks
    have hcv' : Covers chf (m + sId) sId lab'.reg (sks.set sId stack) := by
      intro i hi hw h0 h8
      have h0l : lab.reg.getD i 0 = 0 := by by_contra hc; exact a4 i hc h0
      have h0s : st.lab.reg.getD i 0 = 0 := by by_contra hc; exact hkeep i hi hc h0l
      obtain ⟨k, hk1, hk2, e, he, hie⟩ := hcv i hi hw h0s h8
      by_cases hks : k = sId
      · subst hks
        rw [List.getD_eq_getElem?_getD, List.getElem?_eq_getElem e2] at he
        obtain ⟨e', he', hie'⟩ := hent e he i hi hie h0l
        exact ⟨k, hk1, hk2, e', by rw [stacks_set e2, if_pos rfl]; exact he', hie'⟩
      · exact ⟨k, hk1, hk2, e, by rw [stacks_set e2, if_neg hks]; exact he, hie⟩
    refine Out.ok ⟨a1, a2, a3, hst'.set hok, hcv', ?_⟩
    intro hm i hi h0 hw
    obtain ⟨k, hk1, hk2, e, he, hie⟩ := hcv' i hi hw h0 (by omega)
    have hks : k = sId := by omega
    rw [hks, stacks_set e2, if_pos rfl] at he
    exact a5 e he i hie h0

theorem levelLoop_out {b : Nat} : ∀ (n sId : Nat) (st : LevelState), sId < 8 → LabInv chf b st.regionId st.lab →
    Used chf st.regionId st.lab.reg → st.regionId ≤ 65535 → StacksOk chf st.stacks →
    (n = 0 ∨ sId = 0 ∨ Covers chf (n - 1 + sId) (sId - 1) st.lab.reg st.stacks) →
    Out (32766 < chf.spans.length) (chf.levelLoop n sId st) fun o =>
      LabInv chf b o.regionId o.lab ∧ Used chf o.regionId o.lab.reg ∧ o.regionId ≤ 65535 ∧
      (n ≠ 0 → ∀ i < chf.spans.length, o.lab.reg.getD i 0 = 0 → chf.WalkableAt i → chf.Refused b o.lab.reg i) ∧
      (n = 0 → o = st)
  | 0, sId, st, hs, hl, hu, hn, hst, _ => Out.ok ⟨hl, hu, hn, fun h => absurd rfl h, fun _ => rfl⟩
  | n + 1, sId, st, hs, hl, hu, hn, hst, hc => by
    rw [levelLoop]
    refine Out.bind (levelStep_out hwf hdl hs st hl hu hn hst (hc.resolve_left (by omega))) ?_
    rintro o ⟨a1, a2, a3, a4, a5, a6⟩
    by_cases hn0 : n = 0
    · subst hn0
      exact Out.ok ⟨a1, a2, a3, fun _ => a6 rfl, fun h => by omega⟩
    · refine Out.mono (levelLoop_out n _ o (by omega) a1 a2 a3 a4 (Or.inr ?_)) ?_
      · by_cases h7 : sId = 7
        · left; omega
        · right
          rw [show (sId + 1) % 8 = sId + 1 by omega, show n - 1 + (sId + 1) = n + sId by omega]
          exact a5
      · rintro o' ⟨b1, b2, b3, b4, _⟩
        exact ⟨b1, b2, b3, fun _ => b4 hn0, fun h => by omega⟩

/-- The result of the labelling phase. -/
structure Labelled (chf : CompactHeightfield) (b : Nat) (o : List Nat × Nat) : Prop where
  inv : ∃ lab, lab.reg = o.1 ∧ LabInv chf b o.2 lab
  next : o.2 ≤ 65535
  used : Used chf o.2 o.1
  stuck : ∀ i < chf.spans.length, chf.WalkableAt i → o.1.getD i 0 = 0 → ∀ j, ¬ chf.Touches o.1 i j
  complete : 1 ≤ chf.maxDistance → o.2 ≤ 0x8000 → ∀ i < chf.spans.length, chf.WalkableAt i → ¬ chf.Strip b i → o.1.getD i 0 ≠ 0
  none : chf.maxDistance = 0 → ∀ k, ¬ ProperRegion (o.1.getD k 0)

theorem labelRegions_out (b : Nat) (hm : chf.maxDistance ≤ 65535) :
    Out (32766 < chf.spans.length ∨ chf.maxDistance = 65535) (chf.labelRegions b) (Labelled chf b) := by
  unfold labelRegions addU16
  by_cases hov : chf.maxDistance + 1 ≤ 65535
  · rw [if_pos hov, bind_ok]
    refine Out.weaken (bad := 32766 < chf.spans.length) ?_ Or.inl
    refine Out.bind (paintBorder_out hwf b) ?_
    rintro ⟨reg, next⟩ ⟨hl, hn5, hnp⟩
    simp only at hl hn5 hnp ⊢
    refine Out.bind (levelLoop_out hwf hdl _ 0 ⟨⟨reg, List.replicate chf.spans.length 0⟩, next, List.replicate 8 []⟩ (by omega) hl
      (by intro r h1 h2; simp only at h2; omega) (by simp only; omega) StacksOk.replicate (Or.inr (Or.inl rfl))) ?_
    rintro st ⟨a1, a2, a3, a4, a5⟩
    unfold expandRegions
    simp only [if_true]
    refine Out.bind (P := fun o : Labels × List LevelEntry => Labelled chf b (o.1.reg, st.regionId)) ?_ ?_
    · refine Out.bind (expandFill_out hwf hdl a1.shape.reg_len) fun s ⟨h1, h2, h3⟩ => ?_
      refine Out.mono (expandLoop_out hwf _ 0 st.lab s a1 h1 h2 (filter_lt hwf s)) fun o ho => ?_
      have hstuck : ∀ i < chf.spans.length, chf.WalkableAt i → o.1.reg.getD i 0 = 0 → ∀ j, ¬ chf.Touches o.1.reg i j := ?_
      · refine ⟨⟨o.1, rfl, ho.inv⟩, a3, ho.used hwf hdl a2, hstuck, ?_, fun hz => ho.none (by rw [a5 (by omega)]; exact hnp)⟩
        intro hmax hfew i hi hw hs
        obtain ⟨c, hc, hc0⟩ := exists_label hwf hi hw hs (a4 (by omega))
        have hG : ∀ k, k < chf.spans.length ∧ chf.areaAt k = chf.areaAt i ∧ ¬ chf.Strip b k → o.1.reg.getD k 0 ≠ 0 →
            ProperRegion (o.1.reg.getD k 0) := by
          rintro k ⟨h1, h2, h3⟩ h4
          refine ⟨h4, ?_⟩
          cases hb : isBorderRegion (o.1.reg.getD k 0) with
          | false => rfl
          | true => exact absurd ((ho.inv.strip hfew k h1).1 hb).2 h3
        have key : ProperRegion (o.1.reg.getD c 0) → ProperRegion (o.1.reg.getD i 0) := by
          clear hc0
          induction hc with
          | refl _ => exact fun h => h
          | @step j k d hr hg hd hlk ih =>
            intro hp
            apply ih
            have hgj : j < chf.spans.length ∧ chf.areaAt j = chf.areaAt i ∧ ¬ chf.Strip b j := by cases hr <;> assumption
            refine hG j hgj fun h0 => ?_
            exact hstuck j hgj.1 (areaAt_walkable hwf hi hgj.1 hgj.2.1 hw) h0 k
              ⟨d, hd, (nbr_iff_link hwf hd).2 hlk, by rw [hg.2.1, hgj.2.1], hp⟩
        have hgc : c < chf.spans.length ∧ chf.areaAt c = chf.areaAt i ∧ ¬ chf.Strip b c := by cases hc <;> assumption
        exact (key (hG c hgc (by rw [ho.keep c hgc.1 hc0]; exact hc0))).1
      intro i hi hw h0 j ht
      have hold : st.lab.reg.getD i 0 = 0 := by
        by_contra hc
        have := ho.keep i hi hc
        rw [h0] at this; exact hc this.symm
      obtain ⟨e, he, hie⟩ := h3 i hi hw hold (by omega)
      rcases ho.covered e he i hie with h | ⟨e', he', hi'⟩
      · exact h h0
      · exact ho.stuck rfl e' he' i hi' j ht
    · rintro ⟨lab, s⟩ h
      exact Out.ok h
  · rw [if_neg hov]
    exact Or.inr ⟨Or.inr (by omega), .panic, rfl, by simp⟩

end
end CompactHeightfield
end Rerecast
