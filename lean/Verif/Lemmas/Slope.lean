import Verif.Model.Slope
import Verif.Spec.Slope
import Mathlib.Analysis.SpecialFunctions.Trigonometric.Basic
import Mathlib.Tactic.FieldSimp
import Mathlib.Tactic.Linarith
/-! Slopes. -/
namespace Rerecast

/-- The slope of the plane with normal `(nx, ny, nz)`, `ny > 0`, against the cosine. -/
theorem cos_lt_iff {nx ny nz θ : ℝ} (hny : 0 < ny) (h0 : 0 < Real.cos θ) (hs : 0 ≤ Real.sin θ) :
    Real.cos θ < ny * (1 / Real.sqrt (nx * nx + ny * ny + nz * nz)) ↔ Real.sqrt (nx * nx + nz * nz) / ny < Real.tan θ := by
  have hpos : 0 < nx * nx + ny * ny + nz * nz := by nlinarith [mul_self_nonneg nx, mul_self_nonneg nz]
  have hsq : 0 < Real.sqrt (nx * nx + ny * ny + nz * nz) := Real.sqrt_pos.2 hpos
  rw [mul_one_div, lt_div_iff₀ hsq, Real.tan_eq_sin_div_cos, div_lt_div_iff₀ hny h0]
  have e1 : Real.cos θ * Real.sqrt (nx * nx + ny * ny + nz * nz) < ny ↔
      (Real.cos θ * Real.sqrt (nx * nx + ny * ny + nz * nz)) ^ 2 < ny ^ 2 := by
    rw [sq_lt_sq₀ (by positivity) hny.le]
  have e2 : Real.sqrt (nx * nx + nz * nz) * Real.cos θ < Real.sin θ * ny ↔
      (Real.sqrt (nx * nx + nz * nz) * Real.cos θ) ^ 2 < (Real.sin θ * ny) ^ 2 := by
    rw [sq_lt_sq₀ (by positivity) (by positivity)]
  rw [e1, e2, mul_pow, mul_pow, mul_pow, Real.sq_sqrt hpos.le, Real.sq_sqrt (by nlinarith [mul_self_nonneg nx, mul_self_nonneg nz]), Real.sin_sq]
  constructor <;> intro h <;> nlinarith

/-- The steepest rise on the plane. -/
theorem rises_iff {a b c : V3 ℚ} (h : FacesUp a b c) (s : ℝ) :
    let n := V3.cross ⟨b.x - a.x, b.y - a.y, b.z - a.z⟩ ⟨c.x - a.x, c.y - a.y, c.z - a.z⟩
    RisesAtMost s a b c ↔ Real.sqrt ((n.x : ℝ) * n.x + n.z * n.z) / n.y ≤ s := by
  intro n
  have hny : (0 : ℝ) < n.y := by
    have : (0 : ℚ) < n.y := by
      have : n.y = (b.z - a.z) * (c.x - a.x) - (b.x - a.x) * (c.z - a.z) := by
        show (b.z - a.z) * (c.x - a.x) - (c.z - a.z) * (b.x - a.x) = _
        ring
      rw [this]
      exact h
    exact_mod_cast this
  have enx : (n.x : ℝ) = (b.y - a.y) * (c.z - a.z) - (c.y - a.y) * (b.z - a.z) := by
    show (((b.y - a.y) * (c.z - a.z) - (c.y - a.y) * (b.z - a.z) : ℚ) : ℝ) = _
    push_cast; ring
  have eny : (n.y : ℝ) = (b.z - a.z) * (c.x - a.x) - (c.z - a.z) * (b.x - a.x) := by
    show (((b.z - a.z) * (c.x - a.x) - (c.z - a.z) * (b.x - a.x) : ℚ) : ℝ) = _
    push_cast; ring
  have enz : (n.z : ℝ) = (b.x - a.x) * (c.y - a.y) - (c.x - a.x) * (b.y - a.y) := by
    show (((b.x - a.x) * (c.y - a.y) - (c.x - a.x) * (b.y - a.y) : ℚ) : ℝ) = _
    push_cast; ring
  unfold RisesAtMost
  generalize (n.x : ℝ) = nx at *
  generalize (n.y : ℝ) = ny at *
  generalize (n.z : ℝ) = nz at *
  generalize (b.x : ℝ) - a.x = bx at *
  generalize (b.y : ℝ) - a.y = b_y at *
  generalize (b.z : ℝ) - a.z = bz at *
  generalize (c.x : ℝ) - a.x = cx at *
  generalize (c.y : ℝ) - a.y = cy at *
  generalize (c.z : ℝ) - a.z = cz at *
  have plane : ∀ u v : ℝ, (u * b_y + v * cy) * ny = -(nx * (u * bx + v * cx) + nz * (u * bz + v * cz)) := by
    intro u v
    rw [enx, eny, enz]; ring
  have hN : 0 ≤ nx * nx + nz * nz := by nlinarith [mul_self_nonneg nx, mul_self_nonneg nz]
  constructor
  · intro hr
    -- walk straight up: the horizontal part of the walk is along (nx, nz)
    have hu := hr ((nz * cx - nx * cz) / ny) ((nx * bz - nz * bx) / ny)
    have e1 : (nz * cx - nx * cz) / ny * bx + (nx * bz - nz * bx) / ny * cx = nx := by
      rw [div_mul_eq_mul_div, div_mul_eq_mul_div, ← add_div, div_eq_iff hny.ne', eny]
      ring
    have e2 : (nz * cx - nx * cz) / ny * bz + (nx * bz - nz * bx) / ny * cz = nz := by
      rw [div_mul_eq_mul_div, div_mul_eq_mul_div, ← add_div, div_eq_iff hny.ne', eny]
      ring
    have e3 := plane ((nz * cx - nx * cz) / ny) ((nx * bz - nz * bx) / ny)
    rw [e1, e2] at e3 hu
    generalize (nz * cx - nx * cz) / ny * b_y + (nx * bz - nz * bx) / ny * cy = w at *
    have hw : w = -(nx * nx + nz * nz) / ny := by rw [eq_div_iff hny.ne']; exact e3
    rw [hw, abs_div, abs_neg, abs_of_nonneg hN, abs_of_pos hny, pow_two, pow_two] at hu
    generalize hr' : Real.sqrt (nx * nx + nz * nz) = r at *
    have hr0 : 0 ≤ r := by rw [← hr']; exact Real.sqrt_nonneg _
    have hrr : r * r = nx * nx + nz * nz := by rw [← hr']; exact Real.mul_self_sqrt hN
    rcases hr0.lt_or_eq with hpos | h0
    · rw [← hrr] at hu
      rw [div_le_iff₀ hny] at hu ⊢
      have : r * r ≤ (s * ny) * r := by linarith
      exact le_of_mul_le_mul_right this hpos
    · rw [← h0, zero_div]
      -- a level plane: any walk shows that the bound is not negative
      have hx : nx = 0 := by nlinarith [mul_self_nonneg nx, mul_self_nonneg nz]
      have hz : nz = 0 := by nlinarith [mul_self_nonneg nx, mul_self_nonneg nz]
      have h1 := hr 1 0
      have h2 := plane 1 0
      rw [hx, hz] at h2
      have h3 : (1 : ℝ) * b_y + 0 * cy = 0 := by
        have : (1 * b_y + 0 * cy) * ny = 0 := by rw [h2]; ring
        rcases mul_eq_zero.1 this with h | h
        · exact h
        · exact absurd h hny.ne'
      rw [h3, abs_zero] at h1
      have hlen : 0 < Real.sqrt ((1 * bx + 0 * cx) ^ 2 + (1 * bz + 0 * cz) ^ 2) := by
        apply Real.sqrt_pos.2
        by_contra hc
        have hb1 : bx = 0 := by nlinarith [sq_nonneg bx, sq_nonneg bz]
        have hb2 : bz = 0 := by nlinarith [sq_nonneg bx, sq_nonneg bz]
        rw [eny, hb1, hb2] at hny
        simp at hny
      by_contra hs
      push Not at hs
      have := mul_neg_of_neg_of_pos hs hlen
      linarith
  · intro hs u v
    have hp := plane u v
    generalize u * b_y + v * cy = w at *
    generalize u * bx + v * cx = x at *
    generalize u * bz + v * cz = z at *
    have hsq : 0 ≤ x ^ 2 + z ^ 2 := by positivity
    have key : |w| * ny ≤ Real.sqrt (nx * nx + nz * nz) * Real.sqrt (x ^ 2 + z ^ 2) := by
      rw [← abs_of_pos hny, ← abs_mul, hp, abs_neg, ← Real.sqrt_mul hN]
      apply Real.abs_le_sqrt
      nlinarith [sq_nonneg (nx * z - nz * x)]
    have : |w| ≤ Real.sqrt (nx * nx + nz * nz) / ny * Real.sqrt (x ^ 2 + z ^ 2) := by
      rw [div_mul_eq_mul_div, le_div_iff₀ hny]
      exact key
    exact this.trans (mul_le_mul_of_nonneg_right hs (Real.sqrt_nonneg _))

theorem slopeTest_iff {θ : ℝ} (h0 : 0 ≤ θ) (h1 : θ < Real.pi / 2) (a b c : V3 ℚ) :
    slopeTest θ a b c = true ↔ FacesUp a b c ∧ ∃ s < Real.tan θ, RisesAtMost s a b c := by
  have hcos : 0 < Real.cos θ := Real.cos_pos_of_mem_Ioo ⟨by linarith [Real.pi_pos], h1⟩
  have hsin : 0 ≤ Real.sin θ := Real.sin_nonneg_of_nonneg_of_le_pi h0 (by linarith [Real.pi_pos])
  unfold slopeTest triNormalY
  rw [decide_eq_true_eq]
  generalize hn : V3.cross ⟨b.x - a.x, b.y - a.y, b.z - a.z⟩ ⟨c.x - a.x, c.y - a.y, c.z - a.z⟩ = n
  have hfu : FacesUp a b c ↔ 0 < n.y := by
    have : n.y = (b.z - a.z) * (c.x - a.x) - (b.x - a.x) * (c.z - a.z) := by
      rw [← hn]
      show (b.z - a.z) * (c.x - a.x) - (c.z - a.z) * (b.x - a.x) = _
      ring
    rw [this]
    rfl
  by_cases hu : FacesUp a b c
  · have hny : (0 : ℝ) < n.y := by exact_mod_cast hfu.1 hu
    have hlen : 0 < n.length := by
      unfold V3.length
      apply Real.sqrt_pos.2
      push_cast
      nlinarith [mul_self_nonneg (n.x : ℝ), mul_self_nonneg (n.z : ℝ)]
    unfold V3.normalizeOrZeroY
    rw [if_pos hlen, gt_iff_lt]
    have e : n.length = Real.sqrt ((n.x : ℝ) * n.x + n.y * n.y + n.z * n.z) := by
      unfold V3.length; push_cast; rfl
    rw [e, cos_lt_iff hny hcos hsin]
    have hr := rises_iff hu
    simp only [hn] at hr
    constructor
    · intro h
      exact ⟨hu, _, h, (hr _).2 le_rfl⟩
    · rintro ⟨_, s, hs, h⟩
      exact lt_of_le_of_lt ((hr s).1 h) hs
  · constructor
    · intro h
      exfalso
      unfold V3.normalizeOrZeroY at h
      split at h
      · rename_i hl
        have : (n.y : ℝ) ≤ 0 := by
          have : n.y ≤ 0 := not_lt.1 (fun hc => hu (hfu.2 hc))
          exact_mod_cast this
        have := mul_nonpos_of_nonpos_of_nonneg this (show 0 ≤ 1 / n.length by positivity)
        linarith
      · linarith
    · rintro ⟨h, _⟩
      exact absurd h hu

end Rerecast
