import Verif.Lemmas.Float32
import Verif.Model.RasterizeRounded
/-! Cut points in single precision. -/
set_option linter.unusedVariables false
namespace Rerecast

theorem f32_neg {a : ℚ} (h : IsF32 a) : IsF32 (-a) := by
  obtain ⟨n, e, h1, h2, rfl⟩ := h
  exact ⟨-n, e, by rwa [abs_neg], h2, by push_cast; ring⟩

theorem f32_one : IsF32 1 := ⟨1, 0, by norm_num, by norm_num, by norm_num [pow2]⟩
theorem f32_nil : IsF32 0 := ⟨0, 0, by norm_num, by norm_num, by norm_num⟩

theorem f32_multiple {a : ℚ} (h : IsF32 a) : ∃ n : Int, a = n * pow2 (-149) := by
  obtain ⟨n, e, h1, h2, rfl⟩ := h
  obtain ⟨d, hd⟩ := Int.eq_ofNat_of_zero_le (by omega : 0 ≤ e + 149)
  refine ⟨n * 2 ^ d, ?_⟩
  rw [show e = (d : Int) + -149 by omega, pow2_add, pow2_nat]
  push_cast
  ring

theorem pow2_24 : pow2 (-24) = 1 / 2 ^ 24 := by unfold pow2; rw [if_neg (by norm_num)]; push_cast; rfl
theorem pow2_150 : pow2 (-150) = 1 / 2 ^ 150 := by unfold pow2; rw [if_neg (by norm_num)]; push_cast; rfl
theorem pow2_126 : pow2 (-126) = 1 / 2 ^ 126 := by unfold pow2; rw [if_neg (by norm_num)]; push_cast; rfl

/-- A multiple of the least `f32` is an `f32` itself, or it is rounded with a small relative error. -/
theorem roundF32_multiple {q : ℚ} (h : ∃ n : Int, q = n * pow2 (-149)) :
    roundF32 q = q ∨ (1 / 2 ^ 126 ≤ |q| ∧ |roundF32 q - q| ≤ 1 / 2 ^ 24 * |q|) := by
  by_cases h0 : q = 0
  · subst h0; exact .inl roundF32_zero
  obtain ⟨n, hn⟩ := h
  have hb := binade_spec h0
  rcases le_total (binade q - 23) (-149) with hle | hle
  · left
    apply roundF32_self
    refine ⟨n, -149, ?_, le_refl _, hn⟩
    have h1 := abs_lt_ulp h0
    rw [show ulpExp q = -149 from max_eq_left hle, hn, abs_mul, abs_of_pos (pow2_pos _)] at h1
    have h2 := lt_of_mul_lt_mul_right h1 (pow2_pos _).le
    have : |n| < 2 ^ 24 := by exact_mod_cast h2
    exact this.le
  · right
    have hbig : 1 / 2 ^ 126 ≤ |q| := by
      rw [← pow2_126]
      exact (pow2_mono (by omega)).trans hb.1
    refine ⟨hbig, ?_⟩
    have hp := pow2_pos (ulpExp q)
    have h1 : |roundF32 q - q| ≤ 1 / 2 * pow2 (ulpExp q) := by
      rw [roundF32_of_ne h0]
      have e : (nearestInt (q / pow2 (ulpExp q)) : ℚ) * pow2 (ulpExp q) - q =
          -((q / pow2 (ulpExp q) - nearestInt (q / pow2 (ulpExp q))) * pow2 (ulpExp q)) := by
        field_simp; ring
      rw [e, abs_neg, abs_mul, abs_of_pos hp]
      exact mul_le_mul_of_nonneg_right (nearestInt_half _) hp.le
    have e1 : 1 / 2 * pow2 (ulpExp q) = 1 / 2 ^ 24 * pow2 (binade q) := by
      rw [show ulpExp q = binade q - 23 from max_eq_right hle, ← pow2_24, ← pow2_add,
        show (-24 : Int) + binade q = -1 + (binade q - 23) by ring, pow2_add (-1)]
      congr 1
    rw [e1] at h1
    exact h1.trans (mul_le_mul_of_nonneg_left hb.1 (by norm_num))

theorem f32_sub_multiple {a b : ℚ} (ha : IsF32 a) (hb : IsF32 b) : ∃ n : Int, a - b = n * pow2 (-149) := by
  obtain ⟨n, rfl⟩ := f32_multiple ha
  obtain ⟨m, rfl⟩ := f32_multiple hb
  exact ⟨n - m, by push_cast; ring⟩

/-- Differences of `f32`s are rounded with a small relative error. -/
theorem round_sub {a b : ℚ} (ha : IsF32 a) (hb : IsF32 b) : |roundF32 (a - b) - (a - b)| ≤ 1 / 2 ^ 24 * |a - b| := by
  rcases roundF32_multiple (f32_sub_multiple ha hb) with h | h
  · rw [h, sub_self, abs_zero]
    positivity
  · exact h.2

theorem round_add {a b : ℚ} (ha : IsF32 a) (hb : IsF32 b) : |roundF32 (a + b) - (a + b)| ≤ 1 / 2 ^ 24 * |a + b| := by
  have := round_sub ha (f32_neg hb)
  rwa [sub_neg_eq_add] at this

theorem round_any (q : ℚ) : |roundF32 q - q| ≤ 1 / 2 ^ 24 * |q| + 1 / 2 ^ 150 := by
  have := roundF32_error q
  rwa [pow2_24, pow2_150] at this

/-- The computed difference has the right sign. -/
theorem round_sub_sign {a b : ℚ} (ha : IsF32 a) (hb : IsF32 b) :
    (0 ≤ roundF32 (a - b) ↔ b ≤ a) ∧ (0 < roundF32 (a - b) ↔ b < a) := by
  have h := round_sub ha hb
  rcases lt_trichotomy a b with hl | rfl | hl
  · rw [abs_of_neg (by linarith : a - b < 0)] at h
    have := (abs_le.1 h).2
    have hneg : roundF32 (a - b) < 0 := by
      have : 0 < b - a := by linarith
      norm_num at *
      linarith
    constructor <;> constructor <;> intro hh <;> linarith
  · rw [sub_self, roundF32_zero]
    simp
  · rw [abs_of_pos (by linarith : 0 < a - b)] at h
    have := (abs_le.1 h).1
    have hpos : 0 < roundF32 (a - b) := by
      have : 0 < a - b := by linarith
      norm_num at *
      linarith
    constructor <;> constructor <;> intro hh <;> linarith

/-- The computed position on an edge from `b` to `a` cut at `O`. -/
def cutParam (O b a : ℚ) : ℚ := roundF32 (roundF32 (O - b) / roundF32 (roundF32 (O - b) - roundF32 (O - a)))

/-- `O` is between `a` and `b`, as the code decides. -/
def Straddles (O b a : ℚ) : Prop := (b ≤ O ∧ O < a) ∨ (O < b ∧ a ≤ O)

theorem abs_le_of_straddles {O b a B : ℚ} (h : Straddles O b a) (ha : |a| ≤ B) (hb : |b| ≤ B) : |O| ≤ B := by
  rw [abs_le] at *
  rcases h with ⟨h1, h2⟩ | ⟨h1, h2⟩ <;> constructor <;> linarith

theorem cutParam_unit {O b a : ℚ} (hO : IsF32 O) (hb : IsF32 b) (ha : IsF32 a) (h : Straddles O b a) :
    0 ≤ cutParam O b a ∧ cutParam O b a ≤ 1 := by
  have sb := round_sub_sign hO hb
  have sa := round_sub_sign hO ha
  have fb := roundF32_isF32 (O - b)
  unfold cutParam
  generalize roundF32 (O - b) = x at *
  generalize roundF32 (O - a) = y at *
  have key : 0 ≤ x / roundF32 (x - y) ∧ x / roundF32 (x - y) ≤ 1 := by
    rcases h with ⟨h1, h2⟩ | ⟨h1, h2⟩
    · have hx : 0 ≤ x := sb.1.2 h1
      have hy : y < 0 := by
        by_contra hc
        have := sa.1.1 (not_lt.1 hc)
        linarith
      have hd : x ≤ roundF32 (x - y) := by
        have := roundF32_mono (by linarith : x ≤ x - y)
        rwa [roundF32_self fb] at this
      exact ⟨div_nonneg hx (le_trans hx hd), div_le_one_of_le₀ hd (le_trans hx hd)⟩
    · have hx : x < 0 := by
        by_contra hc
        have := sb.1.1 (not_lt.1 hc)
        linarith
      have hy : 0 ≤ y := sa.1.2 h2
      have hd : roundF32 (x - y) ≤ x := by
        have := roundF32_mono (by linarith : x - y ≤ x)
        rwa [roundF32_self fb] at this
      exact ⟨div_nonneg_of_nonpos hx.le (by linarith), by rw [div_le_one_of_neg (by linarith)]; exact hd⟩
  constructor
  · have := roundF32_mono key.1
    rwa [roundF32_zero] at this
  · have := roundF32_mono key.2
    rwa [roundF32_self f32_one] at this

/-- The computed position is accurate. -/
theorem cutParam_close {O b a : ℚ} (hO : IsF32 O) (hb : IsF32 b) (ha : IsF32 a) (h : Straddles O b a) :
    |cutParam O b a - (O - b) / (a - b)| ≤ 1 / 2 ^ 21 := by
  have eb := round_sub hO hb
  have ea := round_sub hO ha
  have fb := roundF32_isF32 (O - b)
  have fa := roundF32_isF32 (O - a)
  have sb := round_sub_sign hO hb
  have sa := round_sub_sign hO ha
  unfold cutParam
  generalize roundF32 (O - b) = x at *
  generalize roundF32 (O - a) = y at *
  have ed := round_sub fb fa
  have er := round_any (x / roundF32 (x - y))
  generalize roundF32 (x - y) = d at *
  generalize roundF32 (x / d) = s at *
  -- X, Y have opposite signs
  have hD : a - b = (O - b) - (O - a) := by ring
  rw [hD]
  generalize hX : O - b = X at *
  generalize hY : O - a = Y at *
  have hb' : b ≤ O ↔ 0 ≤ X := by rw [← hX]; constructor <;> intro <;> linarith
  have ha' : a ≤ O ↔ 0 ≤ Y := by rw [← hY]; constructor <;> intro <;> linarith
  have hsgn : (0 ≤ X ∧ Y < 0 ∧ 0 ≤ x ∧ y < 0) ∨ (X < 0 ∧ 0 ≤ Y ∧ x < 0 ∧ 0 ≤ y) := by
    rcases h with ⟨h1, h2⟩ | ⟨h1, h2⟩
    · left
      refine ⟨hb'.1 h1, by linarith, sb.1.2 h1, ?_⟩
      by_contra hc
      have := sa.1.1 (not_lt.1 hc)
      linarith
    · right
      refine ⟨by linarith, ha'.1 h2, ?_, sa.1.2 h2⟩
      by_contra hc
      have := sb.1.1 (not_lt.1 hc)
      linarith
  have hXD : |X| ≤ |X - Y| := by
    rcases hsgn with ⟨h1, h2, -⟩ | ⟨h1, h2, -⟩
    · rw [abs_of_nonneg h1, abs_of_pos (by linarith)]; linarith
    · rw [abs_of_neg h1, abs_of_neg (by linarith)]; linarith
  have hYD : |Y| ≤ |X - Y| := by
    rcases hsgn with ⟨h1, h2, -⟩ | ⟨h1, h2, -⟩
    · rw [abs_of_neg h2, abs_of_pos (by linarith)]; linarith
    · rw [abs_of_nonneg h2, abs_of_neg (by linarith)]; linarith
  have hDpos : 0 < |X - Y| := by
    rcases hsgn with ⟨h1, h2, -⟩ | ⟨h1, h2, -⟩
    · rw [abs_pos]; linarith
    · rw [abs_pos]; intro; linarith
  have hDne : X - Y ≠ 0 := abs_pos.1 hDpos
  have hsum : |X| + |Y| = |X - Y| := by
    rcases hsgn with ⟨h1, h2, -⟩ | ⟨h1, h2, -⟩
    · rw [abs_of_nonneg h1, abs_of_neg h2, abs_of_pos (by linarith)]; ring
    · rw [abs_of_neg h1, abs_of_nonneg h2, abs_of_neg (by linarith)]; ring
  have hxd : |x| ≤ |x - y| := by
    rcases hsgn with ⟨-, -, h1, h2⟩ | ⟨-, -, h1, h2⟩
    · rw [abs_of_nonneg h1, abs_of_pos (by linarith)]; linarith
    · rw [abs_of_neg h1, abs_of_neg (by linarith)]; linarith
  have hxyne : x - y ≠ 0 := by
    rcases hsgn with ⟨-, -, h1, h2⟩ | ⟨-, -, h1, h2⟩ <;> intro <;> linarith
  have hxypos : 0 < |x - y| := abs_pos.2 hxyne
  -- x - y against X - Y
  have hdiff : |(x - y) - (X - Y)| ≤ 1 / 2 ^ 24 * |X - Y| := by
    have : (x - y) - (X - Y) = (x - X) - (y - Y) := by ring
    rw [this]
    refine (abs_sub _ _).trans ?_
    rw [← hsum]
    linarith
  have hxylow : (1 - 1 / 2 ^ 24) * |X - Y| ≤ |x - y| := by
    have := abs_sub_abs_le_abs_sub (X - Y) (x - y)
    rw [abs_sub_comm] at hdiff
    linarith
  -- r = x / (x - y) against X / (X - Y)
  have hr1 : |x / (x - y) - X / (X - Y)| ≤ 3 / 2 ^ 24 := by
    have e : x / (x - y) - X / (X - Y) = ((x - X) * (X - Y) - X * ((x - y) - (X - Y))) / ((x - y) * (X - Y)) := by
      field_simp; ring
    rw [e, abs_div, abs_mul, div_le_iff₀ (mul_pos hxypos hDpos)]
    have n1 : |(x - X) * (X - Y) - X * ((x - y) - (X - Y))| ≤ 2 / 2 ^ 24 * (|X - Y| * |X - Y|) := by
      refine (abs_sub _ _).trans ?_
      rw [abs_mul, abs_mul]
      have a1 : |x - X| * |X - Y| ≤ 1 / 2 ^ 24 * |X - Y| * |X - Y| :=
        mul_le_mul_of_nonneg_right (eb.trans (mul_le_mul_of_nonneg_left hXD (by norm_num))) hDpos.le
      have a2 : |X| * |x - y - (X - Y)| ≤ |X - Y| * (1 / 2 ^ 24 * |X - Y|) := mul_le_mul hXD hdiff (abs_nonneg _) hDpos.le
      linarith
    have n2 : (1 - 1 / 2 ^ 24) * (|X - Y| * |X - Y|) ≤ |x - y| * |X - Y| := by
      have := mul_le_mul_of_nonneg_right hxylow hDpos.le
      linarith
    have n3 : 0 ≤ |X - Y| * |X - Y| := by positivity
    generalize |X - Y| * |X - Y| = Q at *
    norm_num at *
    linarith
  -- x / d against x / (x - y)
  have hdlow : (1 - 1 / 2 ^ 24) * |x - y| ≤ |d| := by
    have := abs_sub_abs_le_abs_sub (x - y) d
    rw [abs_sub_comm] at ed
    linarith
  have hdpos : 0 < |d| := lt_of_lt_of_le (mul_pos (by norm_num) hxypos) hdlow
  have hdne : d ≠ 0 := abs_pos.1 hdpos
  have hr2 : |x / d - x / (x - y)| ≤ 2 / 2 ^ 24 := by
    have e : x / d - x / (x - y) = - (x * (d - (x - y))) / (d * (x - y)) := by
      field_simp; ring
    rw [e, abs_div, abs_neg, abs_mul, abs_mul, div_le_iff₀ (mul_pos hdpos hxypos)]
    have n1 : |x| * |d - (x - y)| ≤ |x - y| * (1 / 2 ^ 24 * |x - y|) := mul_le_mul hxd ed (abs_nonneg _) hxypos.le
    have n2 : (1 - 1 / 2 ^ 24) * (|x - y| * |x - y|) ≤ |d| * |x - y| := by
      have := mul_le_mul_of_nonneg_right hdlow hxypos.le
      linarith
    have n3 : 0 ≤ |x - y| * |x - y| := by positivity
    have n1' : |x| * |d - (x - y)| ≤ 1 / 2 ^ 24 * (|x - y| * |x - y|) := by linarith
    generalize |x - y| * |x - y| = Q at *
    generalize |x| * |d - (x - y)| = W at *
    norm_num at *
    linarith
  have hxd1 : |x / d| ≤ 2 := by
    rw [abs_div, div_le_iff₀ hdpos]
    norm_num at *
    linarith
  have t1 : |s - X / (X - Y)| ≤ |s - x / d| + |x / d - x / (x - y)| + |x / (x - y) - X / (X - Y)| := by
    have := abs_add_three (s - x / d) (x / d - x / (x - y)) (x / (x - y) - X / (X - Y))
    simpa using this
  have t2 : |s - x / d| ≤ 1 / 2 ^ 24 * 2 + 1 / 2 ^ 150 := er.trans (by gcongr)
  norm_num at *
  linarith

/-- `b + (a - b) * s` as computed. -/
def mix (b a s : ℚ) : ℚ := roundF32 (b + roundF32 (roundF32 (a - b) * s))

/-- The cut point lies on the cut, up to rounding. -/
theorem mix_cut {O b a B : ℚ} (hO : IsF32 O) (hb : IsF32 b) (ha : IsF32 a) (h : Straddles O b a) (ha1 : |a| ≤ B) (hb1 : |b| ≤ B)
    (hB : 1 / 2 ^ 100 ≤ B) : |mix b a (cutParam O b a) - O| ≤ 1 / 2 ^ 19 * B := by
  have hO1 := abs_le_of_straddles h ha1 hb1
  have hs := cutParam_unit hO hb ha h
  have hc := cutParam_close hO hb ha h
  generalize cutParam O b a = s at *
  unfold mix
  have e1 := round_sub ha hb
  have e2 := round_any (roundF32 (a - b) * s)
  have e3 := round_add hb (roundF32_isF32 (roundF32 (a - b) * s))
  generalize roundF32 (roundF32 (a - b) * s) = p at *
  generalize roundF32 (a - b) = d at *
  generalize roundF32 (b + p) = f at *
  have hL : |a - b| ≤ 2 * B := by
    refine (abs_sub _ _).trans ?_
    linarith
  have hne : a - b ≠ 0 := by
    rcases h with ⟨h1, h2⟩ | ⟨h1, h2⟩ <;> intro <;> linarith
  have hOeq : O = b + (a - b) * ((O - b) / (a - b)) := by field_simp; ring
  generalize (O - b) / (a - b) = σ at *
  have hd : |d| ≤ (1 + 1 / 2 ^ 24) * |a - b| := by
    have := abs_sub_abs_le_abs_sub d (a - b)
    linarith
  have hds : |d * s| ≤ (1 + 1 / 2 ^ 24) * |a - b| := by
    rw [abs_mul, abs_of_nonneg hs.1]
    calc |d| * s ≤ |d| * 1 := by gcongr; exact hs.2
      _ ≤ _ := by linarith
  have h1 : |d * s - (a - b) * σ| ≤ 1 / 2 ^ 24 * |a - b| + |a - b| * (1 / 2 ^ 21) := by
    have : d * s - (a - b) * σ = (d - (a - b)) * s + (a - b) * (s - σ) := by ring
    rw [this]
    refine (abs_add_le _ _).trans ?_
    rw [abs_mul, abs_mul, abs_of_nonneg hs.1]
    have a1 : |d - (a - b)| * s ≤ |d - (a - b)| * 1 := by gcongr; exact hs.2
    have a2 : |a - b| * |s - σ| ≤ |a - b| * (1 / 2 ^ 21) := by gcongr
    linarith
  have h2 : |b + p - O| ≤ 1 / 2 ^ 24 * |d * s| + 1 / 2 ^ 150 + (1 / 2 ^ 24 * |a - b| + |a - b| * (1 / 2 ^ 21)) := by
    have : b + p - O = (p - d * s) + (d * s - (a - b) * σ) := by
      conv_lhs => rw [hOeq]
      ring
    rw [this]
    exact (abs_add_le _ _).trans (add_le_add e2 h1)
  have h3 : |b + p| ≤ |O| + |b + p - O| := by
    have := abs_add_le O (b + p - O)
    simpa using this
  have h4 : |f - O| ≤ |f - (b + p)| + |b + p - O| := by
    have := abs_add_le (f - (b + p)) (b + p - O)
    simpa using this
  norm_num at *
  linarith

/-- Rounded interpolation is close to exact interpolation. -/
theorem mix_lerp {b a s B : ℚ} (hb : IsF32 b) (ha : IsF32 a) (h0 : 0 ≤ s) (h1 : s ≤ 1) (ha1 : |a| ≤ B) (hb1 : |b| ≤ B)
    (hB : 1 / 2 ^ 100 ≤ B) : |mix b a s - (b + (a - b) * s)| ≤ B / 2 ^ 21 := by
  unfold mix
  have e1 := round_sub ha hb
  have e2 := round_any (roundF32 (a - b) * s)
  have e3 := round_add hb (roundF32_isF32 (roundF32 (a - b) * s))
  generalize roundF32 (roundF32 (a - b) * s) = p at *
  generalize roundF32 (a - b) = d at *
  generalize roundF32 (b + p) = f at *
  have hL : |a - b| ≤ 2 * B := by
    refine (abs_sub _ _).trans ?_
    linarith
  have hd : |d| ≤ (1 + 1 / 2 ^ 24) * |a - b| := by
    have := abs_sub_abs_le_abs_sub d (a - b)
    linarith
  have hds : |d * s| ≤ (1 + 1 / 2 ^ 24) * |a - b| := by
    rw [abs_mul, abs_of_nonneg h0]
    calc |d| * s ≤ |d| * 1 := by gcongr
      _ ≤ _ := by linarith
  have h2 : |d * s - (a - b) * s| ≤ 1 / 2 ^ 24 * |a - b| := by
    rw [← sub_mul, abs_mul, abs_of_nonneg h0]
    calc |d - (a - b)| * s ≤ |d - (a - b)| * 1 := by gcongr
      _ ≤ _ := by linarith
  have hex : |b + (a - b) * s| ≤ B := by
    rw [abs_le] at *
    constructor <;> nlinarith
  have h3 : |b + p - (b + (a - b) * s)| ≤ 1 / 2 ^ 24 * |d * s| + 1 / 2 ^ 150 + 1 / 2 ^ 24 * |a - b| := by
    have : b + p - (b + (a - b) * s) = (p - d * s) + (d * s - (a - b) * s) := by ring
    rw [this]
    exact (abs_add_le _ _).trans (add_le_add e2 h2)
  have h4 : |b + p| ≤ |b + (a - b) * s| + |b + p - (b + (a - b) * s)| := by
    have := abs_add_le (b + (a - b) * s) (b + p - (b + (a - b) * s))
    simpa using this
  have h5 : |f - (b + (a - b) * s)| ≤ |f - (b + p)| + |b + p - (b + (a - b) * s)| := by
    have := abs_add_le (f - (b + p)) (b + p - (b + (a - b) * s))
    rwa [show f - (b + p) + (b + p - (b + (a - b) * s)) = f - (b + (a - b) * s) by ring] at this
  norm_num at *
  linarith

/-- A cut away from the end of the edge stays on the edge. -/
theorem mix_between {b a s : ℚ} (hb : IsF32 b) (ha : IsF32 a) (h0 : 0 ≤ s) (h1 : s ≤ 1 - 1 / 2 ^ 21) :
    min b a ≤ mix b a s ∧ mix b a s ≤ max b a := by
  unfold mix
  have hm := roundF32_multiple (f32_sub_multiple ha hb)
  have e2 := round_any (roundF32 (a - b) * s)
  have sg := round_sub_sign ha hb
  have fd := roundF32_isF32 (a - b)
  have mon : ∀ q q' : ℚ, q ≤ q' → roundF32 q ≤ roundF32 q' := fun _ _ => roundF32_mono
  have ra := roundF32_self ha
  have rb := roundF32_self hb
  -- the step is between 0 and `a - b`
  have key : (b ≤ a → 0 ≤ roundF32 (roundF32 (a - b) * s) ∧ roundF32 (roundF32 (a - b) * s) ≤ a - b) ∧
      (a ≤ b → a - b ≤ roundF32 (roundF32 (a - b) * s) ∧ roundF32 (roundF32 (a - b) * s) ≤ 0) := by
    have rd := roundF32_self fd
    generalize hd : roundF32 (a - b) = d at *
    constructor
    · intro hle
      have hd0 : 0 ≤ d := sg.1.2 hle
      have p0 : 0 ≤ roundF32 (d * s) := by
        have := mon _ _ (mul_nonneg hd0 h0)
        rwa [roundF32_zero] at this
      refine ⟨p0, ?_⟩
      have pd : roundF32 (d * s) ≤ d := by
        have := mon (d * s) d (by nlinarith)
        rwa [rd] at this
      rcases hm with h | ⟨hbig, hrel⟩
      · linarith
      · rw [abs_of_nonneg (by linarith : 0 ≤ a - b)] at hbig hrel
        rw [abs_of_nonneg (mul_nonneg hd0 h0)] at e2
        have t1 := (abs_le.1 hrel).2
        have t2 := (abs_le.1 e2).2
        have t3 : d * s ≤ d * (1 - 1 / 2 ^ 21) := mul_le_mul_of_nonneg_left h1 hd0
        norm_num at *
        linarith
    · intro hle
      have hd0 : d ≤ 0 := by
        by_contra hc
        have := sg.2.1 (not_le.1 hc)
        linarith
      have p0 : roundF32 (d * s) ≤ 0 := by
        have := mon _ _ (mul_nonpos_of_nonpos_of_nonneg hd0 h0)
        rwa [roundF32_zero] at this
      refine ⟨?_, p0⟩
      have pd : d ≤ roundF32 (d * s) := by
        have := mon d (d * s) (by nlinarith)
        rwa [rd] at this
      rcases hm with h | ⟨hbig, hrel⟩
      · linarith
      · rw [abs_of_nonpos (by linarith : a - b ≤ 0)] at hbig hrel
        rw [abs_of_nonpos (mul_nonpos_of_nonpos_of_nonneg hd0 h0)] at e2
        have t1 := (abs_le.1 hrel).1
        have t2 := (abs_le.1 e2).1
        have t3 : d * (1 - 1 / 2 ^ 21) ≤ d * s := mul_le_mul_of_nonpos_left h1 hd0
        norm_num at *
        linarith
  rcases le_total b a with hle | hle
  · obtain ⟨k1, k2⟩ := key.1 hle
    rw [min_eq_left hle, max_eq_right hle]
    refine ⟨?_, ?_⟩
    · have := mon b (b + roundF32 (roundF32 (a - b) * s)) (by linarith)
      rwa [rb] at this
    · have := mon (b + roundF32 (roundF32 (a - b) * s)) a (by linarith)
      rwa [ra] at this
  · obtain ⟨k1, k2⟩ := key.2 hle
    rw [min_eq_right hle, max_eq_left hle]
    refine ⟨?_, ?_⟩
    · have := mon a (b + roundF32 (roundF32 (a - b) * s)) (by linarith)
      rwa [ra] at this
    · have := mon (b + roundF32 (roundF32 (a - b) * s)) b (by linarith)
      rwa [rb] at this

/-- The computed position is not at the end of the edge if the end is not near the cut. -/
theorem cutParam_le {O b a B : ℚ} (hO : IsF32 O) (hb : IsF32 b) (ha : IsF32 a) (h : Straddles O b a) (ha1 : |a| ≤ B) (hb1 : |b| ≤ B)
    (hm : 1 / 2 ^ 19 * B ≤ |O - a|) : cutParam O b a ≤ 1 - 1 / 2 ^ 21 := by
  have hc := (abs_le.1 (cutParam_close hO hb ha h)).2
  have hL : |a - b| ≤ 2 * B := by
    refine (abs_sub _ _).trans ?_
    linarith
  have hne : a - b ≠ 0 := by
    rcases h with ⟨h1, h2⟩ | ⟨h1, h2⟩ <;> intro <;> linarith
  have hpos : 0 < |a - b| := abs_pos.2 hne
  have hσ : 1 - (O - b) / (a - b) = |O - a| / |a - b| := by
    have : 1 - (O - b) / (a - b) = (a - O) / (a - b) := by field_simp; ring
    rw [this]
    rcases h with ⟨h1, h2⟩ | ⟨h1, h2⟩
    · rw [abs_of_neg (by linarith : O - a < 0), abs_of_pos (by linarith : 0 < a - b)]
      congr 1; ring
    · rw [abs_of_nonneg (by linarith : 0 ≤ O - a), abs_of_neg (by linarith : a - b < 0)]
      rw [← neg_div_neg_eq]
      congr 1 <;> ring
  have : 1 / 2 ^ 20 ≤ |O - a| / |a - b| := by
    rw [le_div_iff₀ hpos]
    norm_num at *
    linarith
  norm_num at *
  linarith

/-- The computed grid line. -/
theorem gridLine_close {m cs M : ℚ} {k : Int} (hm : IsF32 m) (hcs : IsF32 cs) (hM : 1 / 2 ^ 100 ≤ M) (hm1 : |m| ≤ M) (hc0 : 0 ≤ cs) (hc1 : cs ≤ M)
    (hk : |(k : ℚ) * cs| ≤ 2 * M) : |gridLineR roundF32 m cs k - (m + (k + 1) * cs)| ≤ 1 / 2 ^ 20 * M := by
  unfold gridLineR
  have e1 := round_any ((k : ℚ) * cs)
  have e2 := round_add hm (roundF32_isF32 ((k : ℚ) * cs))
  have e3 := round_add (roundF32_isF32 (m + roundF32 ((k : ℚ) * cs))) hcs
  have hsum : m + (k + 1) * cs = m + (k : ℚ) * cs + cs := by ring
  rw [hsum]
  generalize roundF32 (roundF32 (m + roundF32 ((k : ℚ) * cs)) + cs) = t3 at *
  generalize roundF32 (m + roundF32 ((k : ℚ) * cs)) = t2 at *
  generalize roundF32 ((k : ℚ) * cs) = t1 at *
  generalize (k : ℚ) * cs = q at *
  have a1 : |t1| ≤ |q| + |t1 - q| := by simpa using abs_add_le q (t1 - q)
  have a2 : |m + t1| ≤ |m| + |t1| := abs_add_le _ _
  have a3 : |t2| ≤ |m + t1| + |t2 - (m + t1)| := by simpa using abs_add_le (m + t1) (t2 - (m + t1))
  have a4 : |t2 + cs| ≤ |t2| + cs := by
    have := abs_add_le t2 cs
    rwa [abs_of_nonneg hc0] at this
  have a5 : |t3 - (m + q + cs)| ≤ |t3 - (t2 + cs)| + |t2 - (m + t1)| + |t1 - q| := by
    have : t3 - (m + q + cs) = (t3 - (t2 + cs)) + (t2 - (m + t1)) + (t1 - q) := by ring
    rw [this]
    exact abs_add_three _ _ _
  norm_num at *
  linarith

end Rerecast
