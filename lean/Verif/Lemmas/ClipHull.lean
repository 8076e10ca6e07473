import Verif.Lemmas.ClipGeom
import Verif.Lemmas.TriMesh
/-! Cutting keeps the hull on each side; vertex counts. -/
set_option linter.unusedVariables false
namespace Rerecast

/-- A point belongs to the hull of `L`, dually: every affine function non-negative on `L` is non-negative
there. -/
def InHull (L : List (V3 Rat)) (q : V3 Rat) : Prop :=
  ∀ f : Aff, (∀ v ∈ L, 0 ≤ f.eval v) → 0 ≤ f.eval q

/-! ### Closed tours -/

/-- Distance between integer labels. -/
def labelDist (pos : V3 Rat → Int) (x y : V3 Rat) : Nat := (pos x - pos y).natAbs

theorem tour_one (pos : V3 Rat → Int) : ∀ (l : List (V3 Rat)) (p w : V3 Rat), w = p ∨ w ∈ l →
    labelDist pos p w + labelDist pos w (lastOr p l) ≤ walk (labelDist pos) p l
  | [], p, w, h => by
    have : w = p := by simpa using h
    subst this; simp [labelDist, lastOr, walk]
  | a :: t, p, w, h => by
    simp only [walk, lastOr]
    by_cases hp : w = p
    · subst hp
      have h1 := tour_one pos t a a (Or.inl rfl)
      simp only [labelDist] at h1 ⊢; omega
    · have h1 := tour_one pos t a w (by
        rcases h with h | h
        · exact absurd h hp
        · simpa using h)
      simp only [labelDist] at h1 ⊢; omega

theorem tour_two (pos : V3 Rat → Int) : ∀ (l : List (V3 Rat)) (p u w : V3 Rat),
    (u = p ∨ u ∈ l) → (w = p ∨ w ∈ l) →
    2 * labelDist pos u w ≤ walk (labelDist pos) p l + labelDist pos (lastOr p l) p
  | [], p, u, w, hu, hw => by
    have h1 : u = p := by simpa using hu
    have h2 : w = p := by simpa using hw
    subst h1; subst h2; simp [labelDist]
  | a :: t, p, u, w, hu, hw => by
    simp only [walk, lastOr]
    by_cases hup : u = p
    · by_cases hwp : w = p
      · subst hup; subst hwp; simp [labelDist]
      · have h1 := tour_one pos t a w (by
          rcases hw with h | h
          · exact absurd h hwp
          · simpa using h)
        subst hup
        simp only [labelDist] at h1 ⊢; omega
    · have hu' : u = a ∨ u ∈ t := by
        rcases hu with h | h
        · exact absurd h hup
        · simpa using h
      by_cases hwp : w = p
      · have h1 := tour_one pos t a u hu'
        subst hwp
        simp only [labelDist] at h1 ⊢; omega
      · have hw' : w = a ∨ w ∈ t := by
          rcases hw with h | h
          · exact absurd h hwp
          · simpa using h
        have h1 := tour_two pos t a u w hu' hw'
        simp only [labelDist] at h1 ⊢; omega

theorem AllAdj.and {R S : V3 Rat → V3 Rat → Prop} : ∀ {p l}, AllAdj R p l → AllAdj S p l →
    AllAdj (fun x y => R x y ∧ S x y) p l
  | _, [], _, _ => True.intro
  | _, _ :: _, ⟨h1, h2⟩, ⟨h3, h4⟩ => ⟨⟨h1, h3⟩, h2.and h4⟩

theorem allAdj_mem : ∀ (l : List (V3 Rat)) (p : V3 Rat) (S : V3 Rat → Prop), S p → (∀ v ∈ l, S v) →
    AllAdj (fun x y => S x ∧ S y) p l
  | [], _, _, _, _ => True.intro
  | a :: t, p, S, hp, h => ⟨⟨hp, h a (by simp)⟩,
      allAdj_mem t a S (h a (by simp)) fun v hv => h v (by simp [hv])⟩

/-- Rationals separating two finite sets. -/
theorem exists_between_lists (A B : List Rat) (a0 : Rat) (h : ∀ a ∈ a0 :: A, ∀ b ∈ B, a ≤ b) :
    ∃ k, (∀ a ∈ a0 :: A, a ≤ k) ∧ ∀ b ∈ B, k ≤ b := by
  refine ⟨A.foldl max a0, ?_, ?_⟩
  · intro a ha
    rcases List.mem_cons.1 ha with rfl | ha
    · exact (le_foldl_max A a).1
    · exact (le_foldl_max A a0).2 a ha
  · intro b hb
    rcases foldl_max_mem A a0 with h1 | h1
    · rw [h1]; exact h a0 (by simp) b hb
    · exact h _ (by simp [h1]) b hb

/-- `f - k * e` -/
def Aff.subMul (f : Aff) (k : Rat) (e : Aff) : Aff :=
  ⟨f.a - k * e.a, f.b - k * e.b, f.c - k * e.c, f.d - k * e.d⟩

theorem Aff.eval_subMul (f : Aff) (k : Rat) (e : Aff) (v : V3 Rat) :
    (f.subMul k e).eval v = f.eval v - k * e.eval v := by
  simp only [Aff.subMul, Aff.eval]; ring

theorem inHull_of_mem {L : List (V3 Rat)} {q : V3 Rat} (h : q ∈ L) : InHull L q := fun _ hf => hf q h

/-- Main clipping lemma: if `S` contains the vertices on the non-negative side of `e` and, in its hull, a point on `e = 0`
of every edge that passes from one strict side to the other, then the part of the hull on the non-negative
side is in the hull of `S`. -/
theorem hull_cut {L S : List (V3 Rat)} {e : Aff} {p q : V3 Rat} (hp : L.getLast? = some p)
    (hU : Unimodal L) (hS : ∀ v ∈ L, 0 ≤ e.eval v → v ∈ S)
    (hX : AllAdj (fun x y => (0 < e.eval x ∧ e.eval y < 0 ∨ e.eval x < 0 ∧ 0 < e.eval y) →
      ∃ m, InHull S m ∧ e.eval m = 0 ∧ ∃ s, 0 ≤ s ∧ s ≤ 1 ∧ m = lerp x y s) p L)
    (hq : InHull L q) (he : 0 ≤ e.eval q) : InHull S q := by
  intro f hf
  have hpL := last_mem hp
  -- every edge crossing the cut does so where `f ≥ 0`
  have pair : ∀ u ∈ L, ∀ w ∈ L, 0 < e.eval u → e.eval w < 0 →
      f.eval w / e.eval w ≤ f.eval u / e.eval u := by
    intro u hu w hw hue hwe
    by_contra hlt
    push Not at hlt
    obtain ⟨k, hk1, hk2⟩ := exists_between hlt
    have gu : (f.subMul k e).eval u < 0 := by
      rw [Aff.eval_subMul]
      rw [div_lt_iff₀ hue] at hk1
      linarith
    have gw : (f.subMul k e).eval w < 0 := by
      rw [Aff.eval_subMul]
      rw [lt_div_iff_of_neg hwe] at hk2
      linarith
    let pos : V3 Rat → Int := fun v =>
      if 0 ≤ (f.subMul k e).eval v then 1 else if 0 < e.eval v then 0 else 2
    have hadj : AllAdj (fun x y => labelDist pos x y ≤ sgnDist (f.subMul k e) x y) p L := by
      refine AllAdj.mono ?_ (hX.and (allAdj_mem L p (· ∈ L) hpL fun v hv => hv))
      rintro x y ⟨hcross, hxL, hyL⟩
      by_cases gx : 0 ≤ (f.subMul k e).eval x
      · by_cases gy : 0 ≤ (f.subMul k e).eval y
        · simp [labelDist, pos, gx, gy]
        · simp only [labelDist, pos, sgnDist, gx, gy]
          by_cases hey : 0 < e.eval y <;> simp [hey]
      · by_cases gy : 0 ≤ (f.subMul k e).eval y
        · simp only [labelDist, pos, sgnDist, gx, gy]
          by_cases hex : 0 < e.eval x <;> simp [hex]
        · push Not at gx gy
          have nz : ∀ v ∈ L, (f.subMul k e).eval v < 0 → e.eval v ≠ 0 := by
            intro v hv hg h0
            have := hf v (hS v hv (le_of_eq h0.symm))
            rw [Aff.eval_subMul, h0] at hg
            linarith
          have nc : ∀ s : Rat, 0 ≤ s → s ≤ 1 → InHull S (lerp x y s) → e.eval (lerp x y s) = 0 → False := by
            intro s s0 s1 hm h0
            have h1 := hm f hf
            have h2 : (f.subMul k e).eval (lerp x y s) = f.eval (lerp x y s) := by
              rw [Aff.eval_subMul, h0]; ring
            have h3 : (f.subMul k e).eval (lerp x y s) =
                (f.subMul k e).eval x * (1 - s) + (f.subMul k e).eval y * s := by
              rw [Aff.eval_lerp]; ring
            rw [h2] at h3
            have h4 : (f.subMul k e).eval x * (1 - s) ≤ 0 :=
              mul_nonpos_of_nonpos_of_nonneg (le_of_lt gx) (by linarith)
            have h5 : (f.subMul k e).eval y * s ≤ 0 :=
              mul_nonpos_of_nonpos_of_nonneg (le_of_lt gy) s0
            have h6 : (f.subMul k e).eval x * (1 - s) = 0 := by linarith
            have h7 : (f.subMul k e).eval y * s = 0 := by linarith
            have h8 : 1 - s = 0 := by
              rcases mul_eq_zero.1 h6 with h | h
              · exact absurd h (ne_of_lt gx)
              · exact h
            have h9 : s = 0 := by
              rcases mul_eq_zero.1 h7 with h | h
              · exact absurd h (ne_of_lt gy)
              · exact h
            linarith
          have hx0 := nz x hxL gx
          have hy0 := nz y hyL gy
          have : (0 < e.eval x) = (0 < e.eval y) := by
            by_contra hne
            have hcr : 0 < e.eval x ∧ e.eval y < 0 ∨ e.eval x < 0 ∧ 0 < e.eval y := by
              rcases lt_or_gt_of_ne hx0 with h1 | h1 <;> rcases lt_or_gt_of_ne hy0 with h2 | h2
              · exact absurd (by simp [not_lt.2 (le_of_lt h1), not_lt.2 (le_of_lt h2)]) hne
              · exact Or.inr ⟨h1, h2⟩
              · exact Or.inl ⟨h1, h2⟩
              · exact absurd (by simp [h1, h2]) hne
            obtain ⟨m, hm, h0, s, s0, s1, rfl⟩ := hcross hcr
            exact nc s s0 s1 hm h0
          simp only [labelDist, pos, not_le.2 gx, not_le.2 gy, if_false, this]
          simp
    have h1 := tour_two pos L p u w (Or.inr hu) (Or.inr hw)
    have h2 := hadj.walk_le
    have h3 := hU (f.subMul k e) p hp
    rw [lastOr_of_getLast? hp] at h1
    have h4 : labelDist pos u w = 2 := by
      simp only [labelDist, pos, not_le.2 gu, not_le.2 gw, if_false, hue, if_true,
        not_lt.2 (le_of_lt hwe)]
      rfl
    have h5 : labelDist pos p p = 0 := by simp [labelDist]
    rw [h4, h5] at h1
    omega
  -- a multiplier separating the two sides
  obtain ⟨k, hk1, hk2⟩ := exists_between_lists
    ((L.filter fun v => decide (e.eval v < 0)).map fun v => f.eval v / e.eval v)
    ((L.filter fun v => decide (0 < e.eval v)).map fun v => f.eval v / e.eval v) 0 (by
      intro a ha b hb
      rw [List.mem_map] at hb
      obtain ⟨u, hu, rfl⟩ := hb
      simp only [List.mem_filter, decide_eq_true_eq] at hu
      rcases List.mem_cons.1 ha with rfl | ha
      · exact div_nonneg (hf u (hS u hu.1 (le_of_lt hu.2))) (le_of_lt hu.2)
      · rw [List.mem_map] at ha
        obtain ⟨w, hw, rfl⟩ := ha
        simp only [List.mem_filter, decide_eq_true_eq] at hw
        exact pair u hu.1 w hw.1 hu.2 hw.2)
  have hk0 : 0 ≤ k := hk1 0 (by simp)
  have hg : ∀ v ∈ L, 0 ≤ (f.subMul k e).eval v := by
    intro v hv
    rw [Aff.eval_subMul]
    rcases lt_trichotomy (e.eval v) 0 with h | h | h
    · have h1 := hk1 (f.eval v / e.eval v) (by
        rw [List.mem_cons, List.mem_map]
        exact Or.inr ⟨v, by simp [hv, h], rfl⟩)
      rw [div_le_iff_of_neg h] at h1
      linarith
    · rw [h]
      have := hf v (hS v hv (le_of_eq h.symm))
      linarith
    · have h1 := hk2 (f.eval v / e.eval v) (by
        rw [List.mem_map]
        exact ⟨v, by simp [hv, h], rfl⟩)
      rw [le_div_iff₀ h] at h1
      linarith
  have h1 := hq _ hg
  rw [Aff.eval_subMul] at h1
  have := mul_nonneg hk0 he
  linarith

theorem crosses_of_strict {e : Aff} {x y : V3 Rat}
    (h : 0 < e.eval x ∧ e.eval y < 0 ∨ e.eval x < 0 ∧ 0 < e.eval y) : Crosses e x y := by
  unfold Crosses
  rcases h with ⟨h1, h2⟩ | ⟨h1, h2⟩
  · simp [le_of_lt h1, not_le.2 h2]
  · simp [le_of_lt h2, not_le.2 h1]

theorem hull_keep1 {L : List (V3 Rat)} {e : Aff} {q : V3 Rat} (hU : Unimodal L) (hne : L ≠ [])
    (hq : InHull L q) (he : 0 ≤ e.eval q) : InHull (keep1 e L) q := by
  obtain ⟨p, hp⟩ : ∃ p, L.getLast? = some p := by
    cases hg : L.getLast? with
    | none => simp at hg; exact absurd hg hne
    | some p => exact ⟨p, rfl⟩
  refine hull_cut hp hU (fun v hv h => mem_keep1_of hv h) ?_ hq he
  have hadj := crossings_adj (e := e) (g := piece1 e) (S := keep1 e L)
    (by intro p a hc; unfold piece1; rw [if_pos hc]; simp) L p
    (by intro v hv; unfold keep1; rw [hp]; exact hv)
  refine hadj.mono fun x y hxy hs => ?_
  have hc := crosses_of_strict hs
  obtain ⟨s, s0, s1, h1, h2⟩ := cross_param hc
  exact ⟨_, inHull_of_mem (hxy hc), h2, s, s0, s1, h1⟩

/-- The opposite affine function. -/
def Aff.neg (e : Aff) : Aff := ⟨-e.a, -e.b, -e.c, -e.d⟩
theorem Aff.eval_neg (e : Aff) (v : V3 Rat) : e.neg.eval v = - e.eval v := by
  simp only [Aff.neg, Aff.eval]; ring

theorem hull_keep2 {L : List (V3 Rat)} {e : Aff} {q : V3 Rat} (hU : Unimodal L) (hne : L ≠ [])
    (hq : InHull L q) (he : e.eval q ≤ 0) : InHull (keep2 e L) q := by
  obtain ⟨p, hp⟩ : ∃ p, L.getLast? = some p := by
    cases hg : L.getLast? with
    | none => simp at hg; exact absurd hg hne
    | some p => exact ⟨p, rfl⟩
  refine hull_cut (e := e.neg) hp hU
    (fun v hv h => mem_keep2_of hv (by rw [Aff.eval_neg] at h; linarith)) ?_ hq
    (by rw [Aff.eval_neg]; linarith)
  have hadj := crossings_adj (e := e) (g := piece2 e) (S := keep2 e L)
    (by intro p a hc; unfold piece2; rw [if_pos hc]; simp) L p
    (by intro v hv; unfold keep2; rw [hp]; exact hv)
  refine hadj.mono fun x y hxy hs => ?_
  simp only [Aff.eval_neg] at hs ⊢
  have hc : Crosses e x y := crosses_of_strict (by
    rcases hs with ⟨h1, h2⟩ | ⟨h1, h2⟩
    · exact Or.inr ⟨by linarith, by linarith⟩
    · exact Or.inl ⟨by linarith, by linarith⟩)
  obtain ⟨s, s0, s1, h1, h2⟩ := cross_param hc
  exact ⟨_, inHull_of_mem (hxy hc), by rw [h2, neg_zero], s, s0, s1, h1⟩

/-! ### Vertex counts -/

/-- 1 on the non-negative side. -/
def sideBit (e : Aff) (v : V3 Rat) : Nat := if e.eval v ≥ 0 then 1 else 0

theorem along1_length (e : Aff) : ∀ (l : List (V3 Rat)) (p : V3 Rat),
    2 * (along (piece1 e) p l).length + sideBit e p ≤
      2 * l.length + walk (sgnDist e) p l + sideBit e (lastOr p l)
  | [], p => by simp [along, walk, lastOr]
  | a :: t, p => by
    have ih := along1_length e t a
    have step : 2 * (piece1 e p a).length + sideBit e p ≤ 2 + sgnDist e p a + sideBit e a := by
      simp only [piece1, sideBit, sgnDist, Crosses]
      rcases lt_trichotomy (e.eval a) 0 with h | h | h <;> by_cases h1 : e.eval p ≥ 0
      · simp [h1, not_lt.2 (le_of_lt h), not_le.2 h]
      · simp [h1, not_lt.2 (le_of_lt h), not_le.2 h]
      · simp [h1, h]
      · simp [h1, h]
      · simp [h1, h, le_of_lt h]
      · simp [h1, h, le_of_lt h]
    simp only [along, List.length_append, List.length_cons, walk, lastOr]
    omega

theorem along2_length (e : Aff) : ∀ (l : List (V3 Rat)) (p : V3 Rat),
    2 * (along (piece2 e) p l).length + sideBit e (lastOr p l) ≤
      2 * l.length + walk (sgnDist e) p l + sideBit e p
  | [], p => by simp [along, walk, lastOr]
  | a :: t, p => by
    have ih := along2_length e t a
    have step : 2 * (piece2 e p a).length + sideBit e a ≤ 2 + sgnDist e p a + sideBit e p := by
      simp only [piece2, sideBit, sgnDist, Crosses]
      rcases lt_trichotomy (e.eval a) 0 with h | h | h <;> by_cases h1 : e.eval p ≥ 0
      · simp [h1, h, not_le.2 h]
      · simp [h1, h, not_le.2 h]
      · simp [h1, h]
      · simp [h1, h]
      · simp [h1, not_lt.2 (le_of_lt h), le_of_lt h, ne_of_gt h]
      · simp [h1, not_lt.2 (le_of_lt h), le_of_lt h]
    simp only [along, List.length_append, List.length_cons, walk, lastOr]
    omega

theorem keep1_length {L : List (V3 Rat)} {e : Aff} (hU : Unimodal L) :
    (keep1 e L).length ≤ L.length + 1 := by
  unfold keep1
  cases hp : L.getLast? with
  | none => simp
  | some p =>
    have h1 := along1_length e L p
    have h2 := hU e p hp
    rw [lastOr_of_getLast? hp] at h1
    simp only
    omega

theorem keep2_length {L : List (V3 Rat)} {e : Aff} (hU : Unimodal L) :
    (keep2 e L).length ≤ L.length + 1 := by
  unfold keep2
  cases hp : L.getLast? with
  | none => simp
  | some p =>
    have h1 := along2_length e L p
    have h2 := hU e p hp
    rw [lastOr_of_getLast? hp] at h1
    simp only
    omega

theorem along2_count (e : Aff) : ∀ (l : List (V3 Rat)) (p : V3 Rat),
    (along (piece2 e) p l).length ≤ l.countP (fun v => decide (e.eval v ≤ 0)) + walk (sgnDist e) p l
  | [], p => by simp [along]
  | a :: t, p => by
    have ih := along2_count e t a
    have step : (piece2 e p a).length ≤ (if e.eval a ≤ 0 then 1 else 0) + sgnDist e p a := by
      simp only [piece2, sgnDist, Crosses]
      rcases lt_trichotomy (e.eval a) 0 with h | h | h <;> by_cases h1 : e.eval p ≥ 0
      · simp [h1, h, le_of_lt h, not_le.2 h]
      · simp [h1, h, le_of_lt h, not_le.2 h]
      · simp [h1, h]
      · simp [h1, h]
      · simp [h1, not_lt.2 (le_of_lt h), le_of_lt h, not_le.2 h, ne_of_gt h]
      · simp [h1, not_lt.2 (le_of_lt h), le_of_lt h, not_le.2 h]
    simp only [along, List.length_append, List.countP_cons, decide_eq_true_eq, walk]
    omega

/-- Either few sign changes and no growth, or the count by position. -/
theorem keep2_length' {L : List (V3 Rat)} {e : Aff} (hU : Unimodal L) :
    (keep2 e L).length ≤ L.length ∨
    (keep2 e L).length ≤ L.countP (fun v => decide (e.eval v ≤ 0)) + 2 := by
  unfold keep2
  cases hp : L.getLast? with
  | none => simp
  | some p =>
    have h1 := along2_length e L p
    have h2 := hU e p hp
    have h3 := along2_count e L p
    rw [lastOr_of_getLast? hp] at h1
    simp only
    omega

theorem along1_ge (e : Aff) : ∀ (l : List (V3 Rat)) (p : V3 Rat),
    l.countP (fun v => decide (e.eval v > 0)) + walk (sgnDist e) p l ≤ (along (piece1 e) p l).length ∧
    l.countP (fun v => decide (e.eval v ≥ 0)) ≤ (along (piece1 e) p l).length
  | [], p => by simp [along, walk]
  | a :: t, p => by
    obtain ⟨ih1, ih2⟩ := along1_ge e t a
    have step : (if e.eval a > 0 then 1 else 0) + sgnDist e p a ≤ (piece1 e p a).length ∧
        (if e.eval a ≥ 0 then 1 else 0) ≤ (piece1 e p a).length := by
      simp only [piece1, sgnDist, Crosses]
      rcases lt_trichotomy (e.eval a) 0 with h | h | h <;> by_cases h1 : e.eval p ≥ 0
      · simp [h1, not_lt.2 (le_of_lt h), not_le.2 h]
      · simp [h1, not_lt.2 (le_of_lt h), not_le.2 h]
      · simp [h1, h]
      · simp [h1, h]
      · simp [h1, h, le_of_lt h]
      · simp [h1, h, le_of_lt h]
    simp only [along, List.length_append, List.countP_cons, decide_eq_true_eq, walk]
    omega

theorem along2_ge (e : Aff) : ∀ (l : List (V3 Rat)) (p : V3 Rat),
    l.countP (fun v => decide (e.eval v < 0)) + walk (sgnDist e) p l ≤ (along (piece2 e) p l).length ∧
    l.countP (fun v => decide (e.eval v ≤ 0)) ≤ (along (piece2 e) p l).length
  | [], p => by simp [along, walk]
  | a :: t, p => by
    obtain ⟨ih1, ih2⟩ := along2_ge e t a
    have step : (if e.eval a < 0 then 1 else 0) + sgnDist e p a ≤ (piece2 e p a).length ∧
        (if e.eval a ≤ 0 then 1 else 0) ≤ (piece2 e p a).length := by
      simp only [piece2, sgnDist, Crosses]
      rcases lt_trichotomy (e.eval a) 0 with h | h | h <;> by_cases h1 : e.eval p ≥ 0
      · simp [h1, h, le_of_lt h, not_le.2 h]
      · simp [h1, h, le_of_lt h, not_le.2 h]
      · simp [h1, h]
      · simp [h1, h]
      · simp [h1, not_lt.2 (le_of_lt h), not_le.2 h, le_of_lt h, ne_of_gt h]
      · simp [h1, not_lt.2 (le_of_lt h), not_le.2 h, le_of_lt h]
    simp only [along, List.length_append, List.countP_cons, decide_eq_true_eq, walk]
    omega

theorem two_sides_walk {L : List (V3 Rat)} {e : Aff} {p u w : V3 Rat} (hp : L.getLast? = some p)
    (hu : u ∈ L) (hw : w ∈ L) (hue : e.eval u ≥ 0) (hwe : e.eval w < 0) : 2 ≤ walk (sgnDist e) p L := by
  let pos : V3 Rat → Int := fun v => if e.eval v ≥ 0 then 1 else 0
  have hadj : AllAdj (fun x y => labelDist pos x y ≤ sgnDist e x y) p L := by
    refine AllAdj.mono ?_ (allAdj_mem L p (fun _ => True) trivial fun _ _ => trivial)
    intro x y _
    simp only [labelDist, pos, sgnDist]
    by_cases h1 : e.eval x ≥ 0 <;> by_cases h2 : e.eval y ≥ 0 <;> simp [h1, h2]
  have h1 := tour_two pos L p u w (Or.inr hu) (Or.inr hw)
  have h2 := hadj.walk_le
  rw [lastOr_of_getLast? hp] at h1
  have h4 : labelDist pos u w = 1 := by
    simp [labelDist, pos, hue, not_le.2 hwe]
  have h5 : labelDist pos p p = 0 := by simp [labelDist]
  omega

/-- A polygon with at least three vertices keeps at least three on a side that strictly contains one of
its points. -/
theorem keep1_three {L : List (V3 Rat)} {e : Aff} {q : V3 Rat} (hU : Unimodal L) (h3 : 3 ≤ L.length)
    (hq : InHull L q) (he : 0 < e.eval q) : 3 ≤ (keep1 e L).length := by
  have hne : L ≠ [] := by rintro rfl; simp at h3
  obtain ⟨p, hp⟩ : ∃ p, L.getLast? = some p := by
    cases hg : L.getLast? with
    | none => simp at hg; exact absurd hg hne
    | some p => exact ⟨p, rfl⟩
  obtain ⟨u, hu, hue⟩ : ∃ u ∈ L, 0 < e.eval u := by
    by_contra hcon
    push Not at hcon
    have := hq e.neg (fun v hv => by rw [Aff.eval_neg]; have := hcon v hv; linarith)
    rw [Aff.eval_neg] at this
    linarith
  obtain ⟨g1, g2⟩ := along1_ge e L p
  unfold keep1
  rw [hp]
  simp only
  by_cases hN : ∃ w ∈ L, e.eval w < 0
  · obtain ⟨w, hw, hwe⟩ := hN
    have h1 := two_sides_walk hp hu hw (le_of_lt hue) hwe
    have h2 : 0 < L.countP (fun v => decide (e.eval v > 0)) :=
      List.countP_pos_iff.2 ⟨u, hu, by simpa using hue⟩
    omega
  · push Not at hN
    have h2 : L.countP (fun v => decide (e.eval v ≥ 0)) = L.length :=
      List.countP_eq_length.2 fun v hv => by simpa using hN v hv
    omega

theorem keep2_three {L : List (V3 Rat)} {e : Aff} {q : V3 Rat} (hU : Unimodal L) (h3 : 3 ≤ L.length)
    (hq : InHull L q) (he : e.eval q < 0) : 3 ≤ (keep2 e L).length := by
  have hne : L ≠ [] := by rintro rfl; simp at h3
  obtain ⟨p, hp⟩ : ∃ p, L.getLast? = some p := by
    cases hg : L.getLast? with
    | none => simp at hg; exact absurd hg hne
    | some p => exact ⟨p, rfl⟩
  obtain ⟨w, hw, hwe⟩ : ∃ w ∈ L, e.eval w < 0 := by
    by_contra hcon
    push Not at hcon
    have := hq e hcon
    linarith
  obtain ⟨g1, g2⟩ := along2_ge e L p
  unfold keep2
  rw [hp]
  simp only
  by_cases hP : ∃ u ∈ L, e.eval u ≥ 0
  · obtain ⟨u, hu, hue⟩ := hP
    have h1 := two_sides_walk hp hu hw hue hwe
    have h2 : 0 < L.countP (fun v => decide (e.eval v < 0)) :=
      List.countP_pos_iff.2 ⟨w, hw, by simpa using hwe⟩
    omega
  · push Not at hP
    have h2 : L.countP (fun v => decide (e.eval v ≤ 0)) = L.length :=
      List.countP_eq_length.2 fun v hv => by simpa using le_of_lt (hP v hv)
    omega

/-! ### Repeated cuts -/

/-- What is known about the rest `R` of a polygon `B` after cuts at levels up to `c` along `axis`. -/
structure Rest (axis : DivisionAxis) (B R : List (V3 Rat)) (c : Rat) : Prop where
  len : R.length ≤ B.length + 1
  cnt : ∀ t > c, R.countP (fun v => decide (t ≤ axis.coord v)) ≤
    B.countP (fun v => decide (t ≤ axis.coord v))
  low : R = B ∨ ∃ b ∈ B, axis.coord b ≤ c

theorem Rest.base (axis : DivisionAxis) (B : List (V3 Rat)) (c : Rat) : Rest axis B B c :=
  ⟨by omega, fun _ _ => Nat.le_refl _, Or.inl rfl⟩

theorem along2_countP {e : Aff} {P : V3 Rat → Bool}
    (hP : ∀ v, e.eval v = 0 → P v = false) : ∀ (l : List (V3 Rat)) (p : V3 Rat),
    (along (piece2 e) p l).countP P ≤ l.countP P
  | [], p => by simp [along]
  | a :: t, p => by
    have ih := along2_countP hP t a
    have step : (piece2 e p a).countP P ≤ if P a = true then 1 else 0 := by
      unfold piece2
      split
      · rename_i hc
        obtain ⟨_, _, _, _, h0⟩ := cross_param hc
        split <;> simp [List.countP_cons, hP _ h0]
      · split
        · split <;> simp [List.countP_cons]
        · simp [List.countP_cons]
    simp only [along, List.countP_append, List.countP_cons]
    omega

theorem along2_all (e : Aff) : ∀ (l : List (V3 Rat)) (p : V3 Rat), e.eval p < 0 →
    (∀ v ∈ l, e.eval v < 0) → along (piece2 e) p l = l
  | [], _, _, _ => rfl
  | a :: t, p, hp, h => by
    have ha := h a (by simp)
    have : piece2 e p a = [a] := by
      unfold piece2 Crosses
      simp [not_le.2 hp, not_le.2 ha]
    rw [along, this, along2_all e t a ha fun v hv => h v (by simp [hv])]
    rfl

theorem Rest.step {axis : DivisionAxis} {B R : List (V3 Rat)} {c c' : Rat} (h : Rest axis B R c)
    (hU : Unimodal R) (hcc : c < c') : Rest axis B (keep2 (sideAff axis c') R) c' := by
  have hev : ∀ v, (sideAff axis c').eval v = c' - axis.coord v := sideAff_eval axis c'
  refine ⟨?_, ?_, ?_⟩
  · rcases keep2_length' (e := sideAff axis c') hU with h1 | h1
    · have := h.len; omega
    · rcases h.low with rfl | ⟨b, hb, hbc⟩
      · exact keep2_length hU
      · have h2 := h.cnt c' hcc
        have h3 : R.countP (fun v => decide ((sideAff axis c').eval v ≤ 0)) =
            R.countP (fun v => decide (c' ≤ axis.coord v)) := by
          apply List.countP_congr
          intro v _
          simp only [hev, decide_eq_true_eq]
          constructor <;> intro h <;> linarith
        have h4 : B.countP (fun v => decide (c' ≤ axis.coord v)) < B.length := by
          refine lt_of_le_of_ne List.countP_le_length fun heq => ?_
          have := List.countP_eq_length.1 heq b hb
          simp only [decide_eq_true_eq] at this
          linarith
        omega
  · intro t ht
    refine Nat.le_trans ?_ (h.cnt t (by linarith))
    unfold keep2
    cases hp : R.getLast? with
    | none => simp
    | some p =>
      apply along2_countP
      intro v h0
      rw [hev] at h0
      simp only [decide_eq_false_iff_not]
      linarith
  · by_cases hex : ∃ b ∈ B, axis.coord b ≤ c'
    · exact Or.inr hex
    · left
      push Not at hex
      rcases h.low with rfl | ⟨b, hb, hbc⟩
      · unfold keep2
        cases hp : R.getLast? with
        | none => simp at hp; simp [hp]
        | some p =>
          apply along2_all
          · rw [hev]; have := hex p (last_mem hp); linarith
          · intro v hv; rw [hev]; have := hex v hv; linarith
      · have := hex b hb; linarith

end Rerecast
