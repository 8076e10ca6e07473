import Verif.Lemmas.MarkAreaRounded
/-! Rounding errors of `mark_convex_poly_area`. -/
namespace Rerecast

theorem rnd_err (q : ℚ) : |roundF32 q - q| ≤ |q| / 2 ^ 24 + 1 / 2 ^ 150 := by
  have := roundF32_error q
  rw [pow2_24, pow2_150] at this
  linarith

theorem straddle_between {p a b : V2} (h : a.y > p.y ↔ ¬ b.y > p.y) :
    b.y - a.y ≠ 0 ∧ |p.y - a.y| ≤ |b.y - a.y| ∧ 0 ≤ (p.y - a.y) / (b.y - a.y) ∧ (p.y - a.y) / (b.y - a.y) ≤ 1 ∧
      0 ≤ roundF32 (p.y - a.y) / roundF32 (b.y - a.y) ∧ roundF32 (p.y - a.y) / roundF32 (b.y - a.y) ≤ 1 := by
  rcases lt_or_ge p.y a.y with h1 | h1
  · have h2 : b.y ≤ p.y := not_lt.1 (h.1 h1)
    have e1 : b.y - a.y < 0 := by linarith
    have e2 : p.y - a.y ≤ 0 := by linarith
    have e3 : b.y - a.y ≤ p.y - a.y := by linarith
    have r1 := roundF32_mono e3
    have r2 := roundF32_mono e2
    rw [roundF32_zero] at r2
    refine ⟨e1.ne, ?_, div_nonneg_of_nonpos e2 e1.le, (div_le_one_of_neg e1).2 e3, div_nonneg_of_nonpos r2 (r1.trans r2), ?_⟩
    · rw [abs_of_nonpos e2, abs_of_neg e1]; linarith
    · rcases (r1.trans r2).lt_or_eq with r3 | r3
      · exact (div_le_one_of_neg r3).2 r1
      · rw [r3]; simp
  · have h2 : b.y > p.y := by
      by_contra hc
      exact absurd (h.2 hc) (not_lt.2 h1)
    have e1 : 0 < b.y - a.y := by linarith
    have e2 : 0 ≤ p.y - a.y := by linarith
    have e3 : p.y - a.y ≤ b.y - a.y := by linarith
    have r1 := roundF32_mono e3
    have r2 := roundF32_mono e2
    rw [roundF32_zero] at r2
    refine ⟨e1.ne', ?_, div_nonneg e2 e1.le, (div_le_one e1).2 e3, div_nonneg r2 (r2.trans r1), ?_⟩
    · rw [abs_of_nonneg e2, abs_of_pos e1]; linarith
    · rcases (r2.trans r1).lt_or_eq with r3 | r3
      · exact (div_le_one r3).2 r1
      · rw [← r3]; simp

/-- Where a side meets the level of a point is computed up to a millionth of the scene. -/
theorem crossing_error {p a b : V2} {M : ℚ} (hM : 1 / 2 ^ 20 ≤ M) (ha : |a.x| ≤ M) (hb : |b.x| ≤ M) (hd : 1 / 2 ^ 60 ≤ |b.y - a.y|)
    (h : a.y > p.y ↔ ¬ b.y > p.y) :
    |crossingR roundF32 p a b - ((b.x - a.x) * (p.y - a.y) / (b.y - a.y) + a.x)| ≤ M / 2 ^ 20 := by
  obtain ⟨hD, hle, t0, t1, s0, s1⟩ := straddle_between h
  unfold crossingR
  rw [mul_div_assoc]
  have hdx : |b.x - a.x| ≤ 2 * M := by
    rw [abs_le] at *
    exact ⟨by linarith [ha.1, ha.2, hb.1, hb.2], by linarith [ha.1, ha.2, hb.1, hb.2]⟩
  have hax := abs_le.1 ha
  have hbx := abs_le.1 hb
  have hX := rnd_err (b.x - a.x)
  have hY := rnd_err (p.y - a.y)
  have hZ := rnd_err (b.y - a.y)
  have hend : |(b.x - a.x) * ((p.y - a.y) / (b.y - a.y)) + a.x| ≤ M := by
    rw [abs_le]
    constructor <;> nlinarith
  generalize hdx' : b.x - a.x = dx at *
  generalize p.y - a.y = dy at *
  generalize b.y - a.y = D at *
  generalize a.x = ax at *
  generalize roundF32 dx = X at *
  generalize roundF32 dy = Y at *
  generalize roundF32 D = Z at *
  have hZlow : |D| * (1 - 1 / 2 ^ 20) ≤ |Z| := by
    have h1 : |D| ≤ |Z| + |Z - D| := by
      have := abs_sub_abs_le_abs_sub D Z
      rw [abs_sub_comm] at this
      linarith
    norm_num at *
    linarith
  have hDpos : 0 < |D| := abs_pos.2 hD
  have hZpos : 0 < |Z| := lt_of_lt_of_le (mul_pos hDpos (by norm_num)) hZlow
  have hZ0 : Z ≠ 0 := abs_pos.1 hZpos
  -- the fractions
  have hfrac : |Y / Z - dy / D| ≤ 3 / 2 ^ 24 := by
    have e : Y / Z - dy / D = ((Y - dy) - (dy / D) * (Z - D)) / Z := by
      field_simp
      ring
    rw [e, abs_div, div_le_iff₀ hZpos]
    have h1 : |(Y - dy) - (dy / D) * (Z - D)| ≤ |Y - dy| + |(dy / D) * (Z - D)| := abs_sub _ _
    have h2 : |(dy / D) * (Z - D)| ≤ |Z - D| := by
      rw [abs_mul, abs_of_nonneg t0]
      exact mul_le_of_le_one_left (abs_nonneg _) t1
    norm_num at *
    linarith
  generalize hs : Y / Z = s at *
  generalize ht : dy / D = t at *
  have hP := rnd_err (X * Y)
  generalize roundF32 (X * Y) = P at *
  have hXle : |X| ≤ |dx| + |X - dx| := by
    have := abs_sub_abs_le_abs_sub X dx
    linarith
  have hPZ : |P / Z - X * s| ≤ |X| / 2 ^ 24 + 1 / 2 ^ 88 := by
    have e : P / Z - X * s = (P - X * Y) / Z := by rw [← hs]; field_simp
    rw [e, abs_div, div_le_iff₀ hZpos]
    have h1 : |X * Y| = |X| * s * |Z| := by
      rw [← hs, abs_mul, ← abs_of_nonneg (show 0 ≤ Y / Z by rw [hs]; exact s0), abs_div]
      field_simp
    have h2 : |X| * s * |Z| ≤ |X| * |Z| := by
      refine mul_le_mul_of_nonneg_right ?_ hZpos.le
      exact mul_le_of_le_one_right (abs_nonneg _) s1
    have h3 : (1 : ℚ) / 2 ^ 150 ≤ 1 / 2 ^ 88 * |Z| := by
      norm_num at *
      linarith
    rw [h1] at hP
    have : (|X| / 2 ^ 24 + 1 / 2 ^ 88) * |Z| = |X| * |Z| / 2 ^ 24 + 1 / 2 ^ 88 * |Z| := by ring
    rw [this]
    have : |X| * s * |Z| / 2 ^ 24 ≤ |X| * |Z| / 2 ^ 24 := div_le_div_of_nonneg_right h2 (by positivity)
    linarith
  have hXs : |X * s - dx * t| ≤ |X - dx| + |dx| * (3 / 2 ^ 24) := by
    have e : X * s - dx * t = (X - dx) * s + dx * (s - t) := by ring
    rw [e]
    refine (abs_add_le _ _).trans (add_le_add ?_ ?_)
    · rw [abs_mul, abs_of_nonneg s0]
      exact mul_le_of_le_one_right (abs_nonneg _) s1
    · rw [abs_mul]
      exact mul_le_mul_of_nonneg_left hfrac (abs_nonneg _)
  have hdxt : |dx * t| ≤ |dx| := by
    rw [abs_mul, abs_of_nonneg t0]
    exact mul_le_of_le_one_right (abs_nonneg _) t1
  have hQ := rnd_err (P / Z)
  generalize P / Z = q at *
  generalize roundF32 q = Q at *
  have hq : |q - dx * t| ≤ |q - X * s| + |X * s - dx * t| := abs_sub_le _ _ _
  have hq2 : |q| ≤ |dx * t| + |q - dx * t| := by
    have := abs_sub_abs_le_abs_sub q (dx * t)
    linarith
  have hQ2 : |Q - dx * t| ≤ |Q - q| + |q - dx * t| := abs_sub_le _ _ _
  have hR := rnd_err (Q + ax)
  generalize roundF32 (Q + ax) = r at *
  have h1 : |r - (dx * t + ax)| ≤ |r - (Q + ax)| + |Q - dx * t| := by
    have := abs_sub_le r (Q + ax) (dx * t + ax)
    rwa [add_sub_add_right_eq_sub] at this
  have h2 : |Q + ax| ≤ |dx * t + ax| + |Q - dx * t| := by
    have := abs_sub_abs_le_abs_sub (Q + ax) (dx * t + ax)
    rw [add_sub_add_right_eq_sub] at this
    linarith
  have h0 := abs_nonneg dx
  norm_num at *
  linarith

end Rerecast
