import Verif.Model.MarkAreaRounded
import Verif.Lemmas.MarkArea
import Verif.Lemmas.Float32
import Verif.Lemmas.ContourRounded
/-! `mark_convex_poly_area` with rounding. -/
set_option linter.unusedVariables false
set_option linter.unusedSectionVars false
namespace Rerecast

theorem pointInPolyR_ok (rnd : Rat → Rat) (p : V2) {vs : List V2} (hne : vs ≠ []) : ∃ b, pointInPolyR rnd p vs = .ok b := by
  unfold pointInPolyR
  cases hl : vs.getLast? with
  | none => simp at hl; exact absurd hl hne
  | some last => exact ⟨_, rfl⟩

/-! ### The loop -/
namespace CompactHeightfield
section
variable (rnd : Rat → Rat) {chf : CompactHeightfield} (hwf : chf.WellFormed) (fr : Frame) (vol : ConvexVolume) (hne : vol.vertices ≠ []) (minY maxY : Int)

/-- The test applied to a span. -/
def MarkHitR (rnd : Rat → Rat) (chf : CompactHeightfield) (fr : Frame) (vol : ConvexVolume) (minY maxY : Int) (i : Nat) (a : Area) : Prop :=
  isWalkable a = true ∧ (∃ s, chf.spans[i]? = some s ∧ minY ≤ s.y ∧ s.y ≤ maxY) ∧
    pointInPolyR rnd (centreR rnd fr (chf.xOf i) (chf.zOf i)) vol.vertices = .ok true

open Classical in
/-- The spans in `V` have been processed. -/
def UpdR (rnd : Rat → Rat) (chf : CompactHeightfield) (fr : Frame) (vol : ConvexVolume) (minY maxY : Int) (V : Nat → Prop) (areas : List Area) : Prop :=
  areas.length = chf.areas.length ∧ ∀ (i : Nat) a, chf.areas[i]? = some a →
    areas[i]? = some (if V i ∧ chf.MarkHitR rnd fr vol minY maxY i a then vol.area else a)

theorem UpdR.congr {V V' : Nat → Prop} {areas} (h : chf.UpdR rnd fr vol minY maxY V areas) (hV : ∀ i < chf.areas.length, (V i ↔ V' i)) :
    chf.UpdR rnd fr vol minY maxY V' areas := by
  classical
  refine ⟨h.1, fun i a ha => ?_⟩
  have hi := (List.getElem?_eq_some_iff.1 ha).1
  rw [h.2 i a ha]
  exact congrArg some (if_congr (and_congr (hV i hi) Iff.rfl) rfl rfl)

theorem UpdR.pos {V : Nat → Prop} {areas} (h : chf.UpdR rnd fr vol minY maxY V areas) {i : Nat} {a : Area} (ha : chf.areas[i]? = some a) (hV : V i)
    (hm : chf.MarkHitR rnd fr vol minY maxY i a) : areas[i]? = some vol.area := by
  rw [h.2 i a ha, if_pos ⟨hV, hm⟩]

theorem UpdR.neg {V : Nat → Prop} {areas} (h : chf.UpdR rnd fr vol minY maxY V areas) {i : Nat} {a : Area} (ha : chf.areas[i]? = some a)
    (hm : ¬ (V i ∧ chf.MarkHitR rnd fr vol minY maxY i a)) : areas[i]? = some a := by
  rw [h.2 i a ha, if_neg hm]

include hwf hne
theorem markSpanR_ok {V : Nat → Prop} {areas} (h : chf.UpdR rnd fr vol minY maxY V areas) {i : Nat} (hi : i < chf.spans.length) :
    Total (chf.markSpanR rnd fr vol minY maxY (chf.xOf i : Int) (chf.zOf i : Int) areas i) (chf.UpdR rnd fr vol minY maxY (fun j => V j ∨ j = i)) := by
  classical
  have hs : chf.spans[i]? = some chf.spans[i] := List.getElem?_eq_getElem hi
  have ha0 : i < chf.areas.length := by rw [hwf.areas_len]; exact hi
  have ha : chf.areas[i]? = some chf.areas[i] := List.getElem?_eq_getElem ha0
  have hcur := h.2 i _ ha
  have skip : (¬ chf.MarkHitR rnd fr vol minY maxY i chf.areas[i] ∨ V i) → chf.UpdR rnd fr vol minY maxY (fun j => V j ∨ j = i) areas := by
    intro hno
    refine ⟨h.1, fun j a haj => ?_⟩
    rw [h.2 j a haj]
    by_cases hj : j = i
    · subst hj
      rw [ha] at haj
      cases haj
      rcases hno with hno | hno
      · simp [hno]
      · simp [hno]
    · simp [hj]
  have stepto : chf.MarkHitR rnd fr vol minY maxY i chf.areas[i] → chf.UpdR rnd fr vol minY maxY (fun j => V j ∨ j = i) (areas.set i vol.area) := by
    intro hyes
    refine ⟨by simp [h.1], fun j a haj => ?_⟩
    rw [List.getElem?_set]
    by_cases hj : i = j
    · subst hj
      rw [ha] at haj
      cases haj
      simp [h.1, ha0, hyes]
    · rw [if_neg hj, h.2 j a haj]
      have hj' : ¬ j = i := fun e => hj e.symm
      simp [hj']
  unfold markSpanR
  rw [idx_some hs, bind_ok, idx_some hcur, bind_ok]
  obtain ⟨ins, hins⟩ := pointInPolyR_ok rnd (centreR rnd fr (chf.xOf i) (chf.zOf i)) hne
  rw [hins]
  by_cases hV : V i ∧ chf.MarkHitR rnd fr vol minY maxY i chf.areas[i]
  · rw [if_pos hV]
    split
    · exact Total.ok (skip (Or.inr hV.1))
    · split
      · exact Total.ok (skip (Or.inr hV.1))
      · rw [bind_ok]
        split
        · rw [setIdx_ok (by rw [h.1]; exact ha0)]
          exact Total.ok (stepto hV.2)
        · exact Total.ok (skip (Or.inr hV.1))
  · rw [if_neg hV]
    by_cases hw : isWalkable chf.areas[i] = true
    · rw [if_neg (by simp [hw])]
      by_cases hy : ((chf.spans[i].y : Int) < minY ∨ (chf.spans[i].y : Int) > maxY)
      · rw [if_pos hy]
        refine Total.ok (skip (Or.inl ?_))
        rintro ⟨_, ⟨s, hs', h1, h2⟩, _⟩
        rw [hs] at hs'; cases hs'
        omega
      · rw [if_neg hy, bind_ok]
        by_cases hin : pointInPolyR rnd (centreR rnd fr (chf.xOf i) (chf.zOf i)) vol.vertices = .ok true
        · rw [hins] at hin
          injection hin with hin
          rw [if_pos hin, setIdx_ok (by rw [h.1]; exact ha0)]
          exact Total.ok (stepto ⟨hw, ⟨_, hs, by omega, by omega⟩, by rw [hins, hin]⟩)
        · rw [if_neg (fun e => hin (by rw [hins, e]))]
          exact Total.ok (skip (Or.inl fun hm => hin hm.2.2))
    · rw [if_pos (by simp [hw])]
      exact Total.ok (skip (Or.inl fun hm => hw hm.1))

theorem markCellR_ok (hsz : chf.width * chf.height ≤ 2147483648) {V : Nat → Prop} {areas} (h : chf.UpdR rnd fr vol minY maxY V areas) {x z : Int}
    (hx0 : 0 ≤ x) (hx : x < chf.width) (hz0 : 0 ≤ z) (hz : z < chf.height) :
    Total (chf.markCellR rnd fr vol minY maxY z areas x) (chf.UpdR rnd fr vol minY maxY (fun j => V j ∨ ((chf.xOf j : Int) = x ∧ (chf.zOf j : Int) = z))) := by
  obtain ⟨x, rfl⟩ := Int.eq_ofNat_of_zero_le hx0
  obtain ⟨z, rfl⟩ := Int.eq_ofNat_of_zero_le hz0
  have hx' : x < chf.width := by omega
  have hz' : z < chf.height := by omega
  have hc : x + z * chf.width < chf.width * chf.height := by
    have : (z + 1) * chf.width ≤ chf.height * chf.width := Nat.mul_le_mul_right _ hz'
    rw [Nat.add_mul, Nat.one_mul, Nat.mul_comm chf.height] at this
    omega
  have hcell : x + z * chf.width < chf.cells.length := by rw [hwf.cells_len]; exact hc
  have e1 : checkI32 ((z : Int) * chf.width) = .ok ((z * chf.width : Nat) : Int) := by
    unfold checkI32
    push_cast
    rw [if_pos ⟨by have := Int.mul_nonneg (Int.natCast_nonneg z) (Int.natCast_nonneg chf.width); omega, by
      have : ((z * chf.width : Nat) : Int) ≤ 2147483647 := by omega
      push_cast at this; exact this⟩]
  have e2 : checkI32 ((x : Int) + ((z * chf.width : Nat) : Int)) = .ok ((x + z * chf.width : Nat) : Int) := by
    unfold checkI32
    rw [if_pos (by omega)]
    rfl
  unfold markCellR
  rw [e1, bind_ok, e2, bind_ok, Int.toNat_natCast, idx_ok hcell, bind_ok]
  have hget : chf.cells[x + z * chf.width]? = some chf.cells[x + z * chf.width] := List.getElem?_eq_getElem hcell
  have hcol : ∀ i ∈ (chf.cells[x + z * chf.width]).indexRange, i < chf.spans.length ∧ chf.xOf i = x ∧ chf.zOf i = z := by
    intro i hi
    have h1 := col_unique hwf hget hi
    obtain ⟨h2, h3⟩ := col_divmod (z := z) hx'
    exact ⟨mem_cell_lt hwf hget hi, by unfold xOf; rw [h1, h2], by unfold zOf; rw [h1, h3]⟩
  refine (foldlM_total (fun pre areas => chf.UpdR rnd fr vol minY maxY (fun j => V j ∨ j ∈ pre) areas) _ _ (h.congr _ _ _ _ _ (by simp)) ?_).mono ?_
  · intro pre i post s hl hP
    obtain ⟨hi, hxi, hzi⟩ := hcol i (by rw [hl]; simp)
    have := markSpanR_ok rnd hwf fr vol hne minY maxY hP hi
    rw [hxi, hzi] at this
    exact this.mono fun s hs => hs.congr _ _ _ _ _ (by intro j _; simp [or_assoc])
  · intro s hs
    refine hs.congr _ _ _ _ _ ?_
    intro j hj
    have hj' : j < chf.spans.length := by rw [← hwf.areas_len]; exact hj
    refine or_congr Iff.rfl ⟨fun hm => ?_, fun ⟨h1, h2⟩ => ?_⟩
    · obtain ⟨_, h1, h2⟩ := hcol j hm
      rw [h1, h2]; exact ⟨rfl, rfl⟩
    · have h1 : chf.xOf j = x := Int.ofNat.inj h1
      have h2 : chf.zOf j = z := Int.ofNat.inj h2
      obtain ⟨hc2, cell, hg, hm⟩ := col_spec hwf hj'
      have h3 := (col_div hc2).2.2
      unfold xOf at h1
      unfold zOf at h2
      rw [h1, h2] at h3
      rw [← h3] at hg
      rw [hget] at hg
      cases hg
      exact hm

theorem markLoopR_ok (hsz : chf.width * chf.height ≤ 2147483648) {x0 x1 z0 z1 : Int} (hx0 : 0 ≤ x0) (hx1 : x1 < chf.width) (hz0 : 0 ≤ z0)
    (hz1 : z1 < chf.height) :
    Total ((intRange z0 z1).foldlM (fun areas z => (intRange x0 x1).foldlM (chf.markCellR rnd fr vol minY maxY z) areas) chf.areas)
      (chf.UpdR rnd fr vol minY maxY (fun j => (x0 ≤ chf.xOf j ∧ (chf.xOf j : Int) ≤ x1) ∧ z0 ≤ chf.zOf j ∧ (chf.zOf j : Int) ≤ z1)) := by
  refine (foldlM_total (fun pre areas => chf.UpdR rnd fr vol minY maxY (fun j => (chf.xOf j : Int) ∈ intRange x0 x1 ∧ (chf.zOf j : Int) ∈ pre) areas) _ _
    ⟨rfl, fun i a ha => by simpa using ha⟩ ?_).mono ?_
  · intro pre z post s hl hP
    have hz : z ∈ intRange z0 z1 := by rw [hl]; simp
    rw [mem_intRange] at hz
    refine (foldlM_total (fun prex areas => chf.UpdR rnd fr vol minY maxY (fun j => ((chf.xOf j : Int) ∈ intRange x0 x1 ∧ (chf.zOf j : Int) ∈ pre) ∨
      ((chf.xOf j : Int) ∈ prex ∧ (chf.zOf j : Int) = z)) areas) _ _ (hP.congr _ _ _ _ _ (by simp)) ?_).mono ?_
    · intro prex x postx t hlx hPx
      have hx : x ∈ intRange x0 x1 := by rw [hlx]; simp
      rw [mem_intRange] at hx
      refine (markCellR_ok rnd hwf fr vol hne minY maxY hsz hPx (by omega) (by omega) (by omega) (by omega)).mono fun s hs => hs.congr _ _ _ _ _ ?_
      intro j _
      simp only [List.mem_append, List.mem_singleton, or_assoc, or_and_right]
    · intro s hs
      refine hs.congr _ _ _ _ _ ?_
      intro j _
      simp only [List.mem_append, List.mem_singleton, and_or_left]
  · intro s hs
    exact hs.congr _ _ _ _ _ (by intro j _; simp only [mem_intRange])

end
end CompactHeightfield
end Rerecast
