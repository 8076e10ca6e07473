import Verif.Spec.Simple
import Verif.Lemmas.Winding
import Mathlib.Tactic.Linarith
import Mathlib.Tactic.FieldSimp
import Mathlib.Tactic.LinearCombination
import Mathlib.Algebra.Order.Field.Basic
/-! Moving a point without touching a polygon does not change how often the polygon winds around it. -/
namespace Rerecast.Jordan

/-- An affine function of the plane. -/
def aff (A B C : Rat) (p : Point) : Rat := A * p.1 + B * p.2 + C

/-- A line has `p` and `q` on one side and `u` and `v` not. -/
def Apart (p q u v : Point) : Prop := ∃ A B C, 0 < aff A B C p ∧ 0 < aff A B C q ∧ aff A B C u ≤ 0 ∧ aff A B C v ≤ 0

theorem Apart.symm {p q u v : Point} (h : Apart p q u v) : Apart q p u v := by
  obtain ⟨A, B, C, h1, h2, h3, h4⟩ := h
  exact ⟨A, B, C, h2, h1, h3, h4⟩

theorem Apart.flip {p q u v : Point} (h : Apart p q u v) : Apart p q v u := by
  obtain ⟨A, B, C, h1, h2, h3, h4⟩ := h
  exact ⟨A, B, C, h1, h2, h4, h3⟩

theorem aff_mix (A B C : Rat) (p q x : Point) (t : Rat) (h1 : x.1 = p.1 + t * (q.1 - p.1)) (h2 : x.2 = p.2 + t * (q.2 - p.2)) :
    aff A B C x = (1 - t) * aff A B C p + t * aff A B C q := by
  unfold aff; rw [h1, h2]; ring

theorem Apart.disjoint {p q u v x : Point} (h : Apart p q u v) (h1 : OnSeg x (p, q)) (h2 : OnSeg x (u, v)) : False := by
  obtain ⟨A, B, C, hp, hq, hu, hv⟩ := h
  obtain ⟨s, s0, s1, s2, s3⟩ := h1
  obtain ⟨t, t0, t1, t2, t3⟩ := h2
  have e1 := aff_mix A B C p q x s s2 s3
  have e2 := aff_mix A B C u v x t t2 t3
  have : 0 < aff A B C x := by
    rw [e1]
    rcases lt_or_ge s 1 with h | h
    · nlinarith [mul_pos (sub_pos.2 h) hp, mul_nonneg s0 hq.le]
    · have : s = 1 := le_antisymm s1 h
      subst this; linarith
  have : aff A B C x ≤ 0 := by
    rw [e2]
    nlinarith [mul_nonneg (sub_nonneg.2 t1) (neg_nonneg.2 hu), mul_nonneg t0 (neg_nonneg.2 hv)]
  linarith

theorem apart_pos {p q u v : Point} (h1 : 0 < turn u v p) (h2 : 0 < turn u v q) : Apart p q u v := by
  refine ⟨-(v.2 - u.2), v.1 - u.1, u.1 * (v.2 - u.2) - u.2 * (v.1 - u.1), ?_, ?_, ?_, ?_⟩ <;> unfold aff <;> unfold turn at h1 h2
  · linarith
  · linarith
  · linarith
  · apply le_of_eq; ring

theorem apart_neg {p q u v : Point} (h1 : turn u v p < 0) (h2 : turn u v q < 0) : Apart p q u v := by
  have := apart_pos (p := p) (q := q) (u := v) (v := u) (by rw [turn_swap]; linarith) (by rw [turn_swap]; linarith)
  exact this.flip

theorem apart_pos' {p q u v : Point} (h1 : 0 < turn p q u) (h2 : 0 < turn p q v) : Apart p q u v := by
  refine ⟨q.2 - p.2, -(q.1 - p.1), min (turn p q u) (turn p q v) - p.1 * (q.2 - p.2) + p.2 * (q.1 - p.1), ?_, ?_, ?_, ?_⟩ <;> unfold aff
  · have : 0 < min (turn p q u) (turn p q v) := lt_min h1 h2
    linarith
  · have : 0 < min (turn p q u) (turn p q v) := lt_min h1 h2
    linarith
  · have : min (turn p q u) (turn p q v) ≤ turn p q u := min_le_left _ _
    have e : turn p q u = (q.1 - p.1) * (u.2 - p.2) - (u.1 - p.1) * (q.2 - p.2) := rfl
    linarith
  · have : min (turn p q u) (turn p q v) ≤ turn p q v := min_le_right _ _
    have e : turn p q v = (q.1 - p.1) * (v.2 - p.2) - (v.1 - p.1) * (q.2 - p.2) := rfl
    linarith

theorem apart_neg' {p q u v : Point} (h1 : turn p q u < 0) (h2 : turn p q v < 0) : Apart p q u v :=
  (apart_pos' (p := q) (q := p) (by rw [turn_swap]; linarith) (by rw [turn_swap]; linarith)).symm

theorem turn_diff (p q u v : Point) : turn p q u - turn p q v = turn u v q - turn u v p := by unfold turn; ring

/-- The two segments have a common point if each is not strictly to one side of the other. -/
theorem common_point {p q u v : Point} (h1 : turn p q u * turn p q v ≤ 0) (h2 : turn u v p * turn u v q ≤ 0) (hne : turn p q u ≠ turn p q v) :
    ∃ x, OnSeg x (p, q) ∧ OnSeg x (u, v) := by
  have hd := turn_diff p q u v
  have hD : turn p q u - turn p q v ≠ 0 := sub_ne_zero.2 hne
  generalize hDD : turn p q u - turn p q v = D at *
  have frac : ∀ a b : Rat, a * b ≤ 0 → a - b ≠ 0 → 0 ≤ a / (a - b) ∧ a / (a - b) ≤ 1 := by
    intro a b hab hne
    rcases lt_or_gt_of_ne hne with h | h
    · constructor
      · apply div_nonneg_of_nonpos _ h.le
        by_contra hn; push Not at hn; nlinarith
      · rw [div_le_one_of_neg h]
        by_contra hn; push Not at hn; nlinarith
    · constructor
      · apply div_nonneg _ h.le
        by_contra hn; push Not at hn; nlinarith
      · rw [div_le_one h]
        by_contra hn; push Not at hn; nlinarith
  have f1 := frac _ _ h1 (by rw [hDD]; exact hD)
  have f2 := frac _ _ h2 (by
    intro h0
    apply hD; linarith)
  have e1 : turn u v p - turn u v q = -D := by linarith
  rw [hDD] at f1
  rw [e1] at f2
  refine ⟨(p.1 + turn u v p / -D * (q.1 - p.1), p.2 + turn u v p / -D * (q.2 - p.2)), ⟨_, f2.1, f2.2, rfl, rfl⟩, ⟨_, f1.1, f1.2, ?_, ?_⟩⟩
  · show p.1 + turn u v p / -D * (q.1 - p.1) = u.1 + turn p q u / D * (v.1 - u.1)
    rw [div_neg]
    field_simp
    rw [← hDD]; unfold turn; ring
  · show p.2 + turn u v p / -D * (q.2 - p.2) = u.2 + turn p q u / D * (v.2 - u.2)
    rw [div_neg]
    field_simp
    rw [← hDD]; unfold turn; ring

/-- A point of the line through `u` and `v`. -/
theorem on_line {u v p : Point} (hne : u ≠ v) (h : turn u v p = 0) : ∃ a : Rat, p.1 = u.1 + a * (v.1 - u.1) ∧ p.2 = u.2 + a * (v.2 - u.2) := by
  unfold turn at h
  by_cases h1 : v.1 - u.1 = 0
  · have h2 : v.2 - u.2 ≠ 0 := by
      intro h2
      exact hne (Prod.ext (by linarith) (by linarith))
    refine ⟨(p.2 - u.2) / (v.2 - u.2), ?_, by field_simp; ring⟩
    rw [h1] at h
    have : (p.1 - u.1) * (v.2 - u.2) = 0 := by linarith
    rcases mul_eq_zero.1 this with h | h
    · rw [h1]; linarith
    · exact absurd h h2
  · refine ⟨(p.1 - u.1) / (v.1 - u.1), by field_simp; ring, ?_⟩
    field_simp; linarith

/-- Two segments without a common point are apart. -/
theorem apart_of_disjoint {p q u v : Point} (hne : u ≠ v) (h : ∀ x, OnSeg x (p, q) → OnSeg x (u, v) → False) : Apart p q u v := by
  by_cases h1 : turn p q u * turn p q v ≤ 0
  swap
  · push Not at h1
    rcases mul_pos_iff.1 h1 with h | h
    · exact apart_pos' h.1 h.2
    · exact apart_neg' h.1 h.2
  by_cases h2 : turn u v p * turn u v q ≤ 0
  swap
  · push Not at h2
    rcases mul_pos_iff.1 h2 with h | h
    · exact apart_pos h.1 h.2
    · exact apart_neg h.1 h.2
  by_cases h3 : turn p q u = turn p q v
  swap
  · obtain ⟨x, hx1, hx2⟩ := common_point h1 h2 h3
    exact absurd hx2 (h x hx1)
  have hd := turn_diff p q u v
  have h4 : turn u v p = 0 := by
    have e : turn u v q = turn u v p := by linarith
    rw [e] at h2
    nlinarith [mul_self_nonneg (turn u v p)]
  have h5 : turn u v q = 0 := by linarith
  obtain ⟨a, ha1, ha2⟩ := on_line hne h4
  obtain ⟨b, hb1, hb2⟩ := on_line hne h5
  have hN : 0 < (v.1 - u.1) ^ 2 + (v.2 - u.2) ^ 2 := by
    by_contra hn
    push Not at hn
    have e1 : v.1 - u.1 = 0 := by nlinarith [sq_nonneg (v.1 - u.1), sq_nonneg (v.2 - u.2)]
    have e2 : v.2 - u.2 = 0 := by nlinarith [sq_nonneg (v.1 - u.1), sq_nonneg (v.2 - u.2)]
    exact hne (Prod.ext (by linarith) (by linarith))
  -- a point of both for a common parameter
  have meet : ∀ s c : Rat, 0 ≤ s → s ≤ 1 → 0 ≤ c → c ≤ 1 → a + s * (b - a) = c → False := by
    intro s c s0 s1 c0 c1 e
    refine h (u.1 + c * (v.1 - u.1), u.2 + c * (v.2 - u.2)) ⟨s, s0, s1, ?_, ?_⟩ ⟨c, c0, c1, rfl, rfl⟩
    · show u.1 + c * (v.1 - u.1) = p.1 + s * (q.1 - p.1)
      rw [← e, ha1, hb1]; ring
    · show u.2 + c * (v.2 - u.2) = p.2 + s * (q.2 - p.2)
      rw [← e, ha2, hb2]; ring
  by_cases hlow : a < 0 ∧ b < 0
  · refine ⟨-(v.1 - u.1), -(v.2 - u.2), (v.1 - u.1) * u.1 + (v.2 - u.2) * u.2, ?_, ?_, ?_, ?_⟩ <;> unfold aff
    · rw [ha1, ha2]; nlinarith [hlow.1]
    · rw [hb1, hb2]; nlinarith [hlow.2]
    · apply le_of_eq; ring
    · nlinarith
  by_cases hhigh : 1 < a ∧ 1 < b
  · refine ⟨v.1 - u.1, v.2 - u.2, -((v.1 - u.1) * v.1 + (v.2 - u.2) * v.2), ?_, ?_, ?_, ?_⟩ <;> unfold aff
    · rw [ha1, ha2]; nlinarith [hhigh.1]
    · rw [hb1, hb2]; nlinarith [hhigh.2]
    · nlinarith
    · apply le_of_eq; ring
  exfalso
  by_cases a0 : 0 ≤ a ∧ a ≤ 1
  · exact meet 0 a (by norm_num) (by norm_num) a0.1 a0.2 (by ring)
  by_cases b0 : 0 ≤ b ∧ b ≤ 1
  · exact meet 1 b (by norm_num) (by norm_num) b0.1 b0.2 (by ring)
  rcases lt_or_ge a 0 with h6 | h6
  · have h7 : 0 ≤ b := by by_contra hn; push Not at hn; exact hlow ⟨h6, hn⟩
    refine meet ((0 - a) / (b - a)) 0 (div_nonneg (by linarith) (by linarith)) ((div_le_one (by linarith)).2 (by linarith)) (by norm_num) (by norm_num) ?_
    have : b - a ≠ 0 := by intro h0; linarith
    field_simp; ring
  · have h7 : 1 < a := by by_contra hn; push Not at hn; exact a0 ⟨h6, hn⟩
    have h8 : b < 0 := by
      by_contra hn; push Not at hn
      have : 1 < b := by by_contra hn2; push Not at hn2; exact b0 ⟨hn, hn2⟩
      exact hhigh ⟨h7, this⟩
    have : b - a ≠ 0 := by intro h0; linarith
    refine meet ((0 - a) / (b - a)) 0 (div_nonneg_of_nonpos (by linarith) (by linarith)) ?_ (by norm_num) (by norm_num) ?_
    · rw [div_le_one_of_neg (by linarith)]; linarith
    · field_simp; ring

theorem Apart.same {p q u v : Point} (h : Apart p q u v) (h1 : turn p q u * turn p q v ≤ 0) (h2 : turn u v p * turn u v q ≤ 0) :
    turn p q u = turn p q v := by
  by_contra hne
  obtain ⟨x, hx1, hx2⟩ := common_point h1 h2 hne
  exact h.disjoint hx1 hx2

/-- The corner `u` is between the rays from `p` and from `q`, to the right of the segment. -/
def chi (p q u : Point) : Int := if p.2 < u.2 ∧ u.2 ≤ q.2 ∧ turn p q u < 0 then 1 else 0

theorem heights (p q u v : Point) : turn u v q * p.2 - turn u v p * q.2 + turn p q v * u.2 - turn p q u * v.2 = 0 := by unfold turn; ring

theorem crossing_up_eq {p u v : Point} (h : u.2 ≤ v.2) :
    crossing p (u, v) = if u.2 ≤ p.2 ∧ p.2 < v.2 ∧ 0 < turn u v p then 1 else 0 := by
  unfold crossing
  by_cases h1 : u.2 ≤ p.2 ∧ p.2 < v.2 ∧ 0 < turn u v p
  · rw [if_pos h1, if_pos h1]
  · rw [if_neg h1, if_neg h1, if_neg]
    rintro ⟨h2, h3, _⟩
    dsimp only at h2 h3
    linarith

theorem nonpos_of {a x b : Rat} (hx : 0 < x) (h : a * x = b) (hb : b ≤ 0) : a ≤ 0 := by
  by_contra hn
  push Not at hn
  have := mul_pos hn hx
  linarith

theorem nonneg_of {a x b : Rat} (hx : 0 < x) (h : a * x = b) (hb : 0 ≤ b) : 0 ≤ a := by
  by_contra hn
  push Not at hn
  have := mul_neg_of_neg_of_pos hn hx
  linarith

theorem step_up {p q u v : Point} (hpq : p.2 ≤ q.2) (huv : u.2 ≤ v.2) (h : Apart p q u v) :
    crossing p (u, v) - crossing q (u, v) = chi p q v - chi p q u := by
  rw [crossing_up_eq huv, crossing_up_eq huv]
  unfold chi
  have hd := turn_diff p q u v
  have hh := heights p q u v
  have hs := fun a b => h.same a b
  generalize turn p q u = d1 at *
  generalize turn p q v = d2 at *
  generalize turn u v p = d3 at *
  generalize turn u v q = d4 at *
  have g1 : d4 * (p.2 - v.2) = d3 * (q.2 - v.2) - d2 * (u.2 - v.2) := by linear_combination hh + v.2 * hd
  have g2 : d1 * (v.2 - p.2) = d2 * (u.2 - p.2) - d3 * (q.2 - p.2) := by linear_combination -hh - p.2 * hd
  have g3 : d1 * (v.2 - q.2) = d4 * (p.2 - q.2) + d2 * (u.2 - q.2) := by linear_combination -hh - q.2 * hd
  have g4 : d4 * (p.2 - u.2) = d3 * (q.2 - u.2) + d1 * (v.2 - u.2) := by linear_combination hh + u.2 * hd
  generalize p.2 = P at *
  generalize q.2 = Q at *
  generalize u.2 = U at *
  generalize v.2 = V at *
  have pp : ∀ a b : Rat, 0 ≤ a → b ≤ 0 → a * b ≤ 0 := fun a b ha hb => mul_nonpos_of_nonneg_of_nonpos ha hb
  have nn : ∀ a b : Rat, a ≤ 0 → 0 ≤ b → a * b ≤ 0 := fun a b ha hb => mul_nonpos_of_nonpos_of_nonneg ha hb
  rcases le_or_gt U P with hU | hU
  · rcases lt_or_ge Q V with hV | hV
    · -- the side passes both rays
      have e : 0 < d3 ↔ 0 < d4 := by
        constructor
        · intro h3
          by_contra h4
          push Not at h4
          have : d1 = d2 := by
            apply hs _ (pp _ _ h3.le h4)
            rcases le_or_gt d2 0 with h2 | h2
            · exact pp _ _ (nonneg_of (by linarith) g3 (add_nonneg (mul_nonneg_of_nonpos_of_nonpos h4 (by linarith)) (mul_nonneg_of_nonpos_of_nonpos h2 (by linarith)))) h2
            · exact nn _ _ (nonpos_of (by linarith : 0 < V - P) g2 (by
                have := pp _ _ h2.le (by linarith : U - P ≤ 0)
                have := mul_nonneg h3.le (by linarith : 0 ≤ Q - P)
                linarith)) h2.le
          linarith
        · intro h4
          by_contra h3
          push Not at h3
          have : d1 = d2 := by
            apply hs _ (nn _ _ h3 h4.le)
            rcases le_or_gt 0 d2 with h2 | h2
            · exact nn _ _ (nonpos_of (by linarith) g3 (by
                have := pp _ _ h2 (by linarith : U - Q ≤ 0)
                have := pp _ _ h4.le (by linarith : P - Q ≤ 0)
                linarith)) h2
            · exact pp _ _ (nonneg_of (by linarith : 0 < V - P) g2 (by
                have := mul_nonneg_of_nonpos_of_nonpos h2.le (by linarith : U - P ≤ 0)
                have := nn _ _ h3 (by linarith : 0 ≤ Q - P)
                linarith)) h2.le
          linarith
      have n1 : ¬ (P < V ∧ V ≤ Q ∧ d2 < 0) := by rintro ⟨_, h, _⟩; linarith
      have n2 : ¬ (P < U ∧ U ≤ Q ∧ d1 < 0) := by rintro ⟨h, _, _⟩; linarith
      rw [if_neg n1, if_neg n2]
      have m1 : (U ≤ P ∧ P < V ∧ 0 < d3) ↔ (U ≤ Q ∧ Q < V ∧ 0 < d4) :=
        ⟨fun h => ⟨by linarith, hV, e.1 h.2.2⟩, fun h => ⟨hU, by linarith, e.2 h.2.2⟩⟩
      simp only [m1]; omega
    · have n1 : ¬ (U ≤ Q ∧ Q < V ∧ 0 < d4) := by rintro ⟨_, h, _⟩; linarith
      have n2 : ¬ (P < U ∧ U ≤ Q ∧ d1 < 0) := by rintro ⟨h, _, _⟩; linarith
      rw [if_neg n1, if_neg n2]
      rcases lt_or_ge P V with hPV | hPV
      · have e : 0 < d3 ↔ d2 < 0 := by
          constructor
          · intro h3
            by_contra h2
            push Not at h2
            have h4 : d4 ≤ 0 := nonpos_of (by linarith : 0 < V - P) (show d4 * (V - P) = -(d3 * (Q - V) - d2 * (U - V)) by linarith) (by
              have := mul_nonneg h3.le (by linarith : 0 ≤ Q - V)
              have := pp _ _ h2 (by linarith : U - V ≤ 0)
              linarith)
            have h1 : d1 ≤ 0 := nonpos_of (by linarith : 0 < V - P) g2 (by
              have := mul_nonneg h3.le (by linarith : 0 ≤ Q - P)
              have := pp _ _ h2 (by linarith : U - P ≤ 0)
              linarith)
            have := hs (nn _ _ h1 h2) (pp _ _ h3.le h4)
            linarith
          · intro h2
            by_contra h3
            push Not at h3
            have h4 : 0 ≤ d4 := nonneg_of (by linarith : 0 < V - P) (show d4 * (V - P) = -(d3 * (Q - V) - d2 * (U - V)) by linarith) (by
              have := nn _ _ h3 (by linarith : 0 ≤ Q - V)
              have := mul_nonneg_of_nonpos_of_nonpos h2.le (by linarith : U - V ≤ 0)
              linarith)
            have h1 : 0 ≤ d1 := nonneg_of (by linarith : 0 < V - P) g2 (by
              have := nn _ _ h3 (by linarith : 0 ≤ Q - P)
              have := mul_nonneg_of_nonpos_of_nonpos h2.le (by linarith : U - P ≤ 0)
              linarith)
            have := hs (pp _ _ h1 h2.le) (nn _ _ h3 h4)
            linarith
        have m1 : (U ≤ P ∧ P < V ∧ 0 < d3) ↔ (P < V ∧ V ≤ Q ∧ d2 < 0) := ⟨fun h => ⟨hPV, hV, e.1 h.2.2⟩, fun h => ⟨hU, hPV, e.2 h.2.2⟩⟩
        simp only [m1]
      · rw [if_neg (by rintro ⟨_, h, _⟩; linarith), if_neg (by rintro ⟨h, _, _⟩; linarith)]
  · have n0 : ¬ (U ≤ P ∧ P < V ∧ 0 < d3) := by rintro ⟨h, _, _⟩; linarith
    rw [if_neg n0]
    rcases lt_or_ge Q V with hV | hV
    · have n1 : ¬ (P < V ∧ V ≤ Q ∧ d2 < 0) := by rintro ⟨_, h, _⟩; linarith
      rw [if_neg n1]
      rcases le_or_gt U Q with hUQ | hUQ
      · have e : 0 < d4 ↔ d1 < 0 := by
          constructor
          · intro h4
            by_contra h1
            push Not at h1
            have h3 : d3 ≤ 0 := by
              by_contra h3
              push Not at h3
              have := mul_pos h4 (by linarith : 0 < U - P)
              have := mul_nonneg h3.le (by linarith : 0 ≤ Q - U)
              have := mul_nonneg h1 (by linarith : 0 ≤ V - U)
              nlinarith
            have h2 : d2 ≤ 0 := by
              by_contra h2
              push Not at h2
              have h5 := mul_nonneg h1 (by linarith : 0 ≤ V - Q)
              have h6 := mul_nonneg h4.le (by linarith : 0 ≤ Q - P)
              have h7 := mul_nonneg h2.le (by linarith : 0 ≤ Q - U)
              have h8 : d4 * (Q - P) = 0 := by nlinarith
              rcases mul_eq_zero.1 h8 with h9 | h9
              · linarith
              · linarith
            have := hs (pp _ _ h1 h2) (nn _ _ h3 h4.le)
            linarith
          · intro h1
            by_contra h4
            push Not at h4
            have h3 : 0 ≤ d3 := by
              by_contra h3
              push Not at h3
              have h5 := mul_nonneg_of_nonpos_of_nonpos h4 (by linarith : P - U ≤ 0)
              have h6 := nn _ _ h3.le (by linarith : 0 ≤ Q - U)
              have h7 := mul_neg_of_neg_of_pos h1 (by linarith : 0 < V - U)
              linarith
            have h2 : 0 ≤ d2 := by
              by_contra h2
              push Not at h2
              have h5 := mul_neg_of_neg_of_pos h1 (by linarith : 0 < V - Q)
              have h6 := mul_nonneg_of_nonpos_of_nonpos h4 (by linarith : P - Q ≤ 0)
              have h7 := mul_nonneg_of_nonpos_of_nonpos h2.le (by linarith : U - Q ≤ 0)
              linarith
            have := hs (nn _ _ h1.le h2) (pp _ _ h3 h4)
            linarith
        have m1 : (U ≤ Q ∧ Q < V ∧ 0 < d4) ↔ (P < U ∧ U ≤ Q ∧ d1 < 0) := ⟨fun h => ⟨hU, hUQ, e.1 h.2.2⟩, fun h => ⟨hUQ, hV, e.2 h.2.2⟩⟩
        simp only [m1]
      · rw [if_neg (by rintro ⟨h, _, _⟩; linarith), if_neg (by rintro ⟨_, h, _⟩; linarith)]
    · rw [if_neg (by rintro ⟨_, h, _⟩; linarith)]
      have e : d1 < 0 ↔ d2 < 0 := by
        constructor
        · intro h1
          by_contra h2
          push Not at h2
          have h34 : d3 * d4 ≤ 0 := by
            have hPV : 0 < V - P := by linarith
            rcases le_or_gt d3 0 with h3 | h3
            · rcases le_or_gt 0 d4 with h4 | h4
              · exact nn _ _ h3 h4
              · exfalso
                have h5 := mul_pos_of_neg_of_neg h4 (by linarith : P - U < 0)
                have h6 := nn _ _ h3 (by linarith : 0 ≤ Q - U)
                have h7 := nn _ _ h1.le (by linarith : 0 ≤ V - U)
                linarith
            · rcases le_or_gt d4 0 with h4 | h4
              · exact pp _ _ h3.le h4
              · exfalso
                have h5 := mul_neg_of_pos_of_neg h4 (by linarith : P - V < 0)
                have h6 := mul_nonneg h3.le (by linarith : 0 ≤ Q - V)
                have h7 := pp _ _ h2 (by linarith : U - V ≤ 0)
                linarith
          have := hs (nn _ _ h1.le h2) h34
          linarith
        · intro h2
          by_contra h1
          push Not at h1
          have h34 : d3 * d4 ≤ 0 := by
            rcases le_or_gt d3 0 with h3 | h3
            · rcases le_or_gt 0 d4 with h4 | h4
              · exact nn _ _ h3 h4
              · exfalso
                have h5 := mul_pos_of_neg_of_neg h4 (by linarith : P - V < 0)
                have h6 := nn _ _ h3 (by linarith : 0 ≤ Q - V)
                have h7 := mul_nonneg_of_nonpos_of_nonpos h2.le (by linarith : U - V ≤ 0)
                linarith
            · rcases le_or_gt d4 0 with h4 | h4
              · exact pp _ _ h3.le h4
              · exfalso
                have h5 := mul_neg_of_pos_of_neg h4 (by linarith : P - U < 0)
                have h6 := mul_nonneg h3.le (by linarith : 0 ≤ Q - U)
                have h7 := mul_nonneg h1 (by linarith : 0 ≤ V - U)
                linarith
          have := hs (pp _ _ h1 h2.le) h34
          linarith
      have m1 : (P < V ∧ V ≤ Q ∧ d2 < 0) ↔ (P < U ∧ U ≤ Q ∧ d1 < 0) :=
        ⟨fun h => ⟨hU, by linarith, e.2 h.2.2⟩, fun h => ⟨by linarith, hV, e.1 h.2.2⟩⟩
      simp only [m1]; omega

theorem step {p q u v : Point} (hpq : p.2 ≤ q.2) (h : Apart p q u v) : crossing p (u, v) - crossing q (u, v) = chi p q v - chi p q u := by
  rcases le_total u.2 v.2 with huv | huv
  · exact step_up hpq huv h
  · have := step_up hpq huv h.flip
    rw [crossing_antisymm p u v, crossing_antisymm q u v] at this
    omega

/-- Changes of a function of the corners add up to nothing on the way around. -/
theorem sum_sides (h : Point → Int) (l : List Point) : ((sides l).map fun e => h e.2 - h e.1).sum = 0 := by
  have h1 : (sides l).map Prod.fst = l := by unfold sides; exact List.map_fst_zip (by simp)
  have h2 : (sides l).map Prod.snd = l.rotate 1 := by unfold sides; exact List.map_snd_zip (by simp)
  have e : ∀ m : List (Point × Point), (m.map fun e => h e.2 - h e.1).sum = ((m.map Prod.snd).map h).sum - ((m.map Prod.fst).map h).sum := by
    intro m
    induction m with
    | nil => rfl
    | cons a m ih => simp only [List.map_cons, List.sum_cons, ih]; omega
  rw [e, h1, h2, ((List.rotate_perm l 1).map h).sum_eq]
  omega

theorem sum_sub (f g : Point × Point → Int) (m : List (Point × Point)) : (m.map f).sum - (m.map g).sum = (m.map fun e => f e - g e).sum := by
  induction m with
  | nil => rfl
  | cons a m ih => simp only [List.map_cons, List.sum_cons, ← ih]; omega

theorem winding_same_up {p q : Point} {l : List Point} (hpq : p.2 ≤ q.2) (h : ∀ e ∈ sides l, Apart p q e.1 e.2) : winding p l = winding q l := by
  have : winding p l - winding q l = 0 := by
    unfold winding around
    rw [sum_sub, ← sum_sides (chi p q) l]
    congr 1
    apply List.map_congr_left
    intro e he
    exact step hpq (h e he)
  omega

/-- Moving a point without touching the polygon. -/
theorem winding_same {p q : Point} {l : List Point} (h : ∀ e ∈ sides l, Apart p q e.1 e.2) : winding p l = winding q l := by
  rcases le_total p.2 q.2 with hpq | hpq
  · exact winding_same_up hpq h
  · exact (winding_same_up hpq fun e he => (h e he).symm).symm

/-- A side that is crossed. -/
theorem jump_step {p q u v : Point} (hpq : p.2 ≤ q.2) (h3 : 0 < turn u v p) (h4 : turn u v q < 0) (h12 : turn p q u * turn p q v < 0) :
    crossing p (u, v) - crossing q (u, v) = chi p q v - chi p q u + 1 := by
  have hd := turn_diff p q u v
  have hh := heights p q u v
  have HOR : p.2 = u.2 → u.2 = v.2 → turn u v p = 0 := by
    intro e1 e2
    unfold turn; rw [e1, e2]; ring
  unfold crossing chi
  dsimp only
  generalize turn p q u = d1 at *
  generalize turn p q v = d2 at *
  generalize turn u v p = d3 at *
  generalize turn u v q = d4 at *
  have h1 : d1 < 0 := by
    by_contra hn
    push Not at hn
    have : 0 ≤ d2 := by linarith
    have := mul_nonneg hn this
    linarith
  have h2 : 0 < d2 := by
    by_contra hn
    push Not at hn
    have := mul_nonneg_of_nonpos_of_nonpos h1.le hn
    linarith
  have g2 : d1 * (v.2 - p.2) = d2 * (u.2 - p.2) - d3 * (q.2 - p.2) := by linear_combination -hh - p.2 * hd
  have g3 : d1 * (v.2 - q.2) = d4 * (p.2 - q.2) + d2 * (u.2 - q.2) := by linear_combination -hh - q.2 * hd
  generalize p.2 = P at *
  generalize q.2 = Q at *
  generalize u.2 = U at *
  generalize v.2 = V at *
  have n1 : ¬ (U ≤ Q ∧ Q < V ∧ 0 < d4) := by rintro ⟨_, _, h⟩; linarith
  have n2 : ¬ (V ≤ P ∧ P < U ∧ d3 < 0) := by rintro ⟨_, _, h⟩; linarith
  have n3 : ¬ (P < V ∧ V ≤ Q ∧ d2 < 0) := by rintro ⟨_, _, h⟩; linarith
  rw [if_neg n1, if_neg n2, if_neg n3]
  rcases le_or_gt U P with hU | hU
  · have hV : P < V := by
      by_contra hn
      push Not at hn
      have k1 := mul_nonneg_of_nonpos_of_nonpos h1.le (by linarith : V - P ≤ 0)
      have k2 := mul_nonneg h2.le (by linarith : 0 ≤ P - U)
      have k3 := mul_nonneg h3.le (by linarith : 0 ≤ Q - P)
      have e1 : d1 * (V - P) = 0 := by linarith
      have e2 : d3 * (Q - P) = 0 := by linarith
      have e3 : d2 * (U - P) = 0 := by linarith
      have e4 : V - P = 0 := by rcases mul_eq_zero.1 e1 with h | h <;> linarith
      have e5 : Q - P = 0 := by rcases mul_eq_zero.1 e2 with h | h <;> linarith
      have e6 : U - P = 0 := by rcases mul_eq_zero.1 e3 with h | h <;> linarith
      have := HOR (by linarith) (by linarith)
      linarith
    rw [if_pos ⟨hU, hV, h3⟩, if_neg (by rintro ⟨_, h, _⟩; linarith), if_neg (by rintro ⟨h, _, _⟩; linarith)]
    rfl
  · rw [if_neg (by rintro ⟨h, _, _⟩; linarith)]
    rcases le_or_gt U Q with hUQ | hUQ
    · rw [if_neg (by rintro ⟨_, h, _⟩; linarith), if_pos ⟨hU, hUQ, h1⟩]
      rfl
    · have hV : V ≤ Q := by
        by_contra hn
        push Not at hn
        have k1 := mul_neg_of_neg_of_pos h1 (by linarith : 0 < V - Q)
        have k2 := mul_pos h2 (by linarith : 0 < U - Q)
        have k3 := mul_nonneg_of_nonpos_of_nonpos h4.le (by linarith : P - Q ≤ 0)
        linarith
      rw [if_pos ⟨hV, hUQ, h4⟩, if_neg (by rintro ⟨_, h, _⟩; linarith)]
      rfl

theorem sum_exception (f : Point × Point → Int) (e0 : Point × Point) : ∀ m : List (Point × Point), m.Nodup → e0 ∈ m → (∀ e ∈ m, e ≠ e0 → f e = 0) → (m.map f).sum = f e0
  | [], _, h, _ => by simp at h
  | a :: m, hn, h, hf => by
    rw [List.nodup_cons] at hn
    rw [List.map_cons, List.sum_cons]
    by_cases ha : a = e0
    · subst ha
      have : (m.map f).sum = 0 := by
        apply List.sum_eq_zero
        intro x hx
        obtain ⟨e, he, rfl⟩ := List.mem_map.1 hx
        exact hf e (by simp [he]) (by rintro rfl; exact hn.1 he)
      omega
    · rw [hf a (by simp) ha, sum_exception f e0 m hn.2 (by simpa [Ne.symm ha] using h) (fun e he => hf e (by simp [he]))]
      omega

/-- Crossing one side from its left to its right. -/
theorem winding_jump {p q u v : Point} {l : List Point} (hn : (sides l).Nodup) (he : (u, v) ∈ sides l) (h3 : 0 < turn u v p) (h4 : turn u v q < 0)
    (h12 : turn p q u * turn p q v < 0) (h : ∀ e ∈ sides l, e ≠ (u, v) → Apart p q e.1 e.2) : winding p l = winding q l + 1 := by
  rcases le_total p.2 q.2 with hpq | hpq
  · have : winding p l - winding q l = 1 := by
      have e1 : winding p l - winding q l - 0 = 1 := by
        unfold winding around
        rw [← sum_sides (chi p q) l, sum_sub, sum_sub, sum_exception _ (u, v) _ hn he]
        · have := jump_step hpq h3 h4 h12
          dsimp only; omega
        · intro e hem hne
          have := step hpq (h e hem hne)
          obtain ⟨e1, e2⟩ := e
          dsimp only at this ⊢; omega
      omega
    omega
  · have : winding q l - winding p l = -1 := by
      have e1 : winding q l - winding p l - 0 = -1 := by
        unfold winding around
        rw [← sum_sides (chi q p) l, sum_sub, sum_sub, sum_exception _ (u, v) _ hn he]
        · have := jump_step (u := v) (v := u) hpq (by rw [turn_swap]; linarith) (by rw [turn_swap]; linarith)
            (by rw [turn_swap, turn_swap p q u]; linarith)
          rw [crossing_antisymm q u v, crossing_antisymm p u v] at this
          dsimp only; omega
        · intro e hem hne
          have := step hpq (h e hem hne).symm
          obtain ⟨e1, e2⟩ := e
          dsimp only at this ⊢; omega
      omega
    omega

end Rerecast.Jordan
