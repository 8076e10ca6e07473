import Verif.Model.Float32
import Mathlib.Data.Nat.Log
import Mathlib.Tactic.Linarith
import Mathlib.Tactic.Positivity
import Mathlib.Tactic.FieldSimp
import Mathlib.Tactic.Ring
import Mathlib.Tactic.NormNum
/-! Rounding to `f32`. -/
namespace Rerecast

theorem pow2_eq (k : Int) : pow2 k = (2 : ℚ) ^ k := by
  unfold pow2
  split
  · rename_i h
    obtain ⟨n, rfl⟩ := Int.eq_ofNat_of_zero_le h
    push_cast
    simp
  · rename_i h
    obtain ⟨n, hn⟩ := Int.eq_ofNat_of_zero_le (by omega : 0 ≤ -k)
    rw [hn, show k = -(n : Int) by omega, zpow_neg]
    simp

theorem pow2_pos (k : Int) : 0 < pow2 k := by rw [pow2_eq]; exact zpow_pos (by norm_num) _
theorem pow2_add (a b : Int) : pow2 (a + b) = pow2 a * pow2 b := by
  rw [pow2_eq, pow2_eq, pow2_eq, zpow_add₀ (by norm_num)]
theorem pow2_mono {a b : Int} (h : a ≤ b) : pow2 a ≤ pow2 b := by
  rw [pow2_eq, pow2_eq]
  exact zpow_le_zpow_right₀ (by norm_num) h
theorem pow2_nat (n : Nat) : pow2 n = (2 : ℚ) ^ n := by rw [pow2_eq]; simp

theorem log2_bounds {n : Nat} (h : n ≠ 0) : 2 ^ Nat.log2 n ≤ n ∧ n < 2 ^ (Nat.log2 n + 1) :=
  ⟨Nat.log2_self_le h, Nat.lt_log2_self⟩

/-- The exponent is right. -/
theorem binade_spec {q : ℚ} (h : q ≠ 0) : pow2 (binade q) ≤ |q| ∧ |q| < pow2 (binade q + 1) := by
  have hn : q.num.natAbs ≠ 0 := by
    rw [Int.natAbs_ne_zero]; exact Rat.num_ne_zero.2 h
  obtain ⟨n1, n2⟩ := log2_bounds hn
  obtain ⟨d1, d2⟩ := log2_bounds q.den_nz
  have hq : |q| = (q.num.natAbs : ℚ) / q.den := by
    conv_lhs => rw [← Rat.num_div_den q, abs_div]
    rw [Nat.cast_natAbs, Int.cast_abs, Nat.abs_cast]
  have hd : (0 : ℚ) < q.den := by exact_mod_cast q.den_pos
  have N1 : (2 : ℚ) ^ Nat.log2 q.num.natAbs ≤ q.num.natAbs := by exact_mod_cast n1
  have N2 : (q.num.natAbs : ℚ) < 2 ^ (Nat.log2 q.num.natAbs + 1) := by exact_mod_cast n2
  have D1 : (2 : ℚ) ^ Nat.log2 q.den ≤ q.den := by exact_mod_cast d1
  have D2 : (q.den : ℚ) < 2 ^ (Nat.log2 q.den + 1) := by exact_mod_cast d2
  have up : |q| < pow2 ((Nat.log2 q.num.natAbs : Int) - Nat.log2 q.den + 1) := by
    rw [hq, pow2_eq, show ((Nat.log2 q.num.natAbs : Int) - Nat.log2 q.den + 1) = ((Nat.log2 q.num.natAbs + 1 : Nat) : Int) - (Nat.log2 q.den : Nat) by
      push_cast; ring, zpow_sub₀ (by norm_num), zpow_natCast, zpow_natCast, div_lt_div_iff₀ hd (by positivity)]
    have h1 : (q.num.natAbs : ℚ) * 2 ^ Nat.log2 q.den < 2 ^ (Nat.log2 q.num.natAbs + 1) * 2 ^ Nat.log2 q.den :=
      mul_lt_mul_of_pos_right N2 (by positivity)
    have h2 : (2 : ℚ) ^ (Nat.log2 q.num.natAbs + 1) * 2 ^ Nat.log2 q.den ≤ 2 ^ (Nat.log2 q.num.natAbs + 1) * q.den :=
      mul_le_mul_of_nonneg_left D1 (by positivity)
    linarith
  have low : pow2 ((Nat.log2 q.num.natAbs : Int) - Nat.log2 q.den - 1) ≤ |q| := by
    rw [hq, pow2_eq, show ((Nat.log2 q.num.natAbs : Int) - Nat.log2 q.den - 1) = ((Nat.log2 q.num.natAbs : Nat) : Int) - (Nat.log2 q.den + 1 : Nat) by
      push_cast; ring, zpow_sub₀ (by norm_num), zpow_natCast, zpow_natCast, div_le_div_iff₀ (by positivity) hd]
    exact mul_le_mul N1 D2.le (by positivity) (by positivity)
  unfold binade
  dsimp only
  split
  · rename_i h1
    exact ⟨h1, up⟩
  · rename_i h1
    push Not at h1
    exact ⟨low, by rw [show (Nat.log2 q.num.natAbs : Int) - Nat.log2 q.den - 1 + 1 = (Nat.log2 q.num.natAbs : Int) - Nat.log2 q.den by ring]; exact h1⟩

/-- No integer is nearer. -/
theorem nearestInt_le (t : ℚ) (k : Int) : |t - nearestInt t| ≤ |t - k| := by
  have f1 := Rat.floor_le t
  have f2 := Rat.lt_floor_add_one t
  push_cast at f2
  unfold nearestInt
  dsimp only
  have split : ∀ k : Int, k ≤ t.floor ∨ t.floor + 1 ≤ k := fun k => by omega
  have lo : ∀ k : Int, k ≤ t.floor → t - t.floor ≤ |t - k| := by
    intro k hk
    have : (k : ℚ) ≤ t.floor := by exact_mod_cast hk
    exact le_trans (by linarith) (le_abs_self _)
  have hi : ∀ k : Int, t.floor + 1 ≤ k → t.floor + 1 - t ≤ |t - k| := by
    intro k hk
    have : ((t.floor + 1 : Int) : ℚ) ≤ k := by exact_mod_cast hk
    push_cast at this
    rw [abs_sub_comm]
    exact le_trans (by linarith) (le_abs_self _)
  have e1 : |t - t.floor| = t - t.floor := abs_of_nonneg (by linarith)
  have e2 : |t - ((t.floor + 1 : Int) : ℚ)| = t.floor + 1 - t := by
    push_cast
    rw [abs_sub_comm]
    exact abs_of_nonneg (by linarith)
  split
  · rw [e1]
    rcases split k with h | h
    · exact lo k h
    · have := hi k h; linarith
  · split
    · rw [e2]
      rcases split k with h | h
      · have := lo k h; linarith
      · exact hi k h
    · split
      · rw [e1]
        rcases split k with h | h
        · exact lo k h
        · have := hi k h; linarith
      · rw [e2]
        rcases split k with h | h
        · have := lo k h; linarith
        · exact hi k h

theorem nearestInt_half (t : ℚ) : |t - nearestInt t| ≤ 1 / 2 := by
  have f1 := Rat.floor_le t
  have f2 := Rat.lt_floor_add_one t
  push_cast at f2
  rcases le_or_gt (t - t.floor) (1 / 2) with h | h
  · refine (nearestInt_le t t.floor).trans ?_
    rw [abs_of_nonneg (by linarith)]; exact h
  · refine (nearestInt_le t (t.floor + 1)).trans ?_
    push_cast
    rw [abs_sub_comm, abs_of_nonneg (by linarith)]
    linarith

theorem nearestInt_abs {t : ℚ} {n : Nat} (h : |t| ≤ n) : |nearestInt t| ≤ (n : Int) := by
  obtain ⟨h1, h2⟩ := abs_le.1 h
  have f1 := Rat.floor_le t
  have f2 := Rat.lt_floor_add_one t
  have lo : -(n : Int) ≤ t.floor := Rat.le_floor_iff.2 (by push_cast; linarith)
  have hi : t.floor ≤ (n : Int) := by
    have : (t.floor : ℚ) ≤ n := by linarith
    exact_mod_cast this
  have top : t.floor = n → t - t.floor = 0 := by
    intro e
    rw [e]
    push_cast
    have : (n : ℚ) ≤ t := by have := f1; rw [e] at this; push_cast at this; exact this
    linarith
  rw [abs_le]
  unfold nearestInt
  dsimp only
  by_cases e : t.floor = n
  · rw [if_pos (by rw [top e]; norm_num)]
    omega
  · split
    · omega
    · split
      · omega
      · split <;> omega

theorem roundF32_zero : roundF32 0 = 0 := by unfold roundF32; simp

theorem roundF32_of_ne {q : ℚ} (h : q ≠ 0) : roundF32 q = nearestInt (q / pow2 (ulpExp q)) * pow2 (ulpExp q) := by
  unfold roundF32; rw [if_neg h]

theorem abs_lt_ulp {q : ℚ} (h : q ≠ 0) : |q| < 2 ^ 24 * pow2 (ulpExp q) := by
  have := (binade_spec h).2
  have h1 : pow2 (binade q + 1) = 2 ^ 24 * pow2 (binade q - 23) := by
    rw [show binade q + 1 = ((24 : Nat) : Int) + (binade q - 23) by push_cast; ring, pow2_add, pow2_nat]
  have h2 : pow2 (binade q - 23) ≤ pow2 (ulpExp q) := pow2_mono (le_max_right _ _)
  have : (2 : ℚ) ^ 24 * pow2 (binade q - 23) ≤ 2 ^ 24 * pow2 (ulpExp q) := mul_le_mul_of_nonneg_left h2 (by positivity)
  linarith

/-- Rounding gives an `f32`. -/
theorem roundF32_isF32 (q : ℚ) : IsF32 (roundF32 q) := by
  by_cases h : q = 0
  · subst h
    exact ⟨0, 0, by norm_num, by norm_num, by rw [roundF32_zero]; simp⟩
  · rw [roundF32_of_ne h]
    refine ⟨_, _, ?_, le_max_left _ _, rfl⟩
    have hp := pow2_pos (ulpExp q)
    have : |q / pow2 (ulpExp q)| ≤ ((2 ^ 24 : Nat) : ℚ) := by
      rw [abs_div, abs_of_pos hp, div_le_iff₀ hp]
      push_cast
      exact (abs_lt_ulp h).le
    have := nearestInt_abs this
    exact_mod_cast this

/-- No `f32` is nearer. -/
theorem roundF32_nearest (q : ℚ) {r : ℚ} (hr : IsF32 r) : |q - roundF32 q| ≤ |q - r| := by
  by_cases h : q = 0
  · subst h
    rw [roundF32_zero]; simp
  obtain ⟨n, f, hn, hf, rfl⟩ := hr
  have hp := pow2_pos (ulpExp q)
  have near : ∀ k : Int, |q - roundF32 q| ≤ |q - k * pow2 (ulpExp q)| := by
    intro k
    rw [roundF32_of_ne h]
    have e : ∀ m : Int, q - m * pow2 (ulpExp q) = (q / pow2 (ulpExp q) - m) * pow2 (ulpExp q) := by
      intro m; field_simp
    rw [e, e, abs_mul, abs_mul]
    exact mul_le_mul_of_nonneg_right (nearestInt_le _ _) (abs_nonneg _)
  by_cases hfe : ulpExp q ≤ f
  · have : (n : ℚ) * pow2 f = ((n * 2 ^ (f - ulpExp q).toNat : Int) : ℚ) * pow2 (ulpExp q) := by
      obtain ⟨d, hd⟩ := Int.eq_ofNat_of_zero_le (by omega : 0 ≤ f - ulpExp q)
      rw [hd, show f = (d : Int) + ulpExp q by omega, pow2_add, pow2_nat]
      push_cast
      simp only [Int.toNat_natCast]
      ring
    rw [this]
    exact near _
  · have hu : ulpExp q = binade q - 23 := by
      unfold ulpExp at hfe ⊢
      omega
    have hb := (binade_spec h).1
    have e : pow2 (binade q) = 2 ^ 23 * pow2 (ulpExp q) := by
      rw [hu, show binade q = ((23 : Nat) : Int) + (binade q - 23) by push_cast; ring, pow2_add, pow2_nat]
      ring_nf
    have hr : |(n : ℚ) * pow2 f| ≤ 2 ^ 23 * pow2 (ulpExp q) := by
      rw [abs_mul, abs_of_pos (pow2_pos f)]
      have h1 : |(n : ℚ)| ≤ 2 ^ 24 := by exact_mod_cast hn
      have h2 : pow2 (f + 1) ≤ pow2 (ulpExp q) := pow2_mono (by omega)
      have h3 : pow2 (f + 1) = pow2 f * 2 := by
        rw [pow2_add]; congr 1
      have h4 := pow2_pos f
      have : |(n : ℚ)| * pow2 f ≤ 2 ^ 24 * pow2 f := mul_le_mul_of_nonneg_right h1 h4.le
      nlinarith
    obtain ⟨r1, r2⟩ := abs_le.1 hr
    rcases le_or_gt 0 q with hq | hq
    · have hq' : |q| = q := abs_of_nonneg hq
      refine (near (2 ^ 23)).trans ?_
      push_cast
      rw [abs_of_nonneg (by linarith), abs_of_nonneg (by linarith)]
      linarith
    · have hq' : |q| = -q := abs_of_neg hq
      refine (near (-2 ^ 23)).trans ?_
      push_cast
      rw [abs_of_nonpos (by linarith), abs_of_nonpos (by linarith)]
      linarith

theorem roundF32_self {q : ℚ} (h : IsF32 q) : roundF32 q = q := by
  have := roundF32_nearest q h
  rw [sub_self, abs_zero] at this
  have := abs_nonpos_iff.1 this
  linarith

theorem roundF32_mono {a b : ℚ} (h : a ≤ b) : roundF32 a ≤ roundF32 b := by
  rcases eq_or_lt_of_le h with rfl | h
  · exact le_refl _
  · by_contra hc
    push Not at hc
    have h1 := roundF32_nearest a (roundF32_isF32 b)
    have h2 := roundF32_nearest b (roundF32_isF32 a)
    have key : ∀ x y s : ℚ, y < s → |x - s| ≤ |x - y| → y + s ≤ 2 * x := by
      intro x y s hys hh
      by_contra hcon
      push Not at hcon
      have : |x - y| < s - x := by
        rw [abs_lt]; constructor <;> linarith
      have := le_abs_self (s - x)
      rw [abs_sub_comm] at hh
      linarith
    have key2 : ∀ x y s : ℚ, y < s → |x - y| ≤ |x - s| → 2 * x ≤ y + s := by
      intro x y s hys hh
      by_contra hcon
      push Not at hcon
      have : |x - s| < x - y := by
        rw [abs_lt]; constructor <;> linarith
      have := le_abs_self (x - y)
      linarith
    have k1 := key a _ _ hc h1
    have k2 := key2 b _ _ hc h2
    linarith

/-- The error is at most half the distance of neighbours. -/
theorem roundF32_error (q : ℚ) : |roundF32 q - q| ≤ pow2 (-24) * |q| + pow2 (-150) := by
  by_cases h : q = 0
  · subst h
    rw [roundF32_zero]; simp [(pow2_pos _).le]
  have hp := pow2_pos (ulpExp q)
  have h1 : |roundF32 q - q| ≤ 1 / 2 * pow2 (ulpExp q) := by
    rw [roundF32_of_ne h]
    have e : (nearestInt (q / pow2 (ulpExp q)) : ℚ) * pow2 (ulpExp q) - q = -((q / pow2 (ulpExp q) - nearestInt (q / pow2 (ulpExp q))) * pow2 (ulpExp q)) := by
      field_simp; ring
    rw [e, abs_neg, abs_mul, abs_of_pos hp]
    exact mul_le_mul_of_nonneg_right (nearestInt_half _) hp.le
  have hh : ∀ k : Int, 1 / 2 * pow2 k = pow2 (k - 1) := by
    intro k
    rw [show k = (k - 1) + 1 by ring, pow2_add, show k - 1 + 1 - 1 = k - 1 by ring, show pow2 1 = 2 from rfl]
    ring
  rw [hh] at h1
  have b := (binade_spec h).1
  have p := pow2_pos (-150)
  rcases le_total (binade q - 23) (-149) with hle | hle
  · rw [show ulpExp q = -149 from max_eq_left hle] at h1
    have := mul_nonneg (pow2_pos (-24)).le (abs_nonneg q)
    rw [show (-149 - 1 : Int) = -150 by norm_num] at h1
    linarith
  · rw [show ulpExp q = binade q - 23 from max_eq_right hle, show binade q - 23 - 1 = -24 + binade q by ring, pow2_add] at h1
    have := mul_le_mul_of_nonneg_left b (pow2_pos (-24)).le
    linarith

end Rerecast
