import Verif.Model.ContourRounded
import Verif.Lemmas.Float32
import Verif.Lemmas.SimplifyError
import Mathlib.Tactic.Linarith
import Mathlib.Tactic.NormNum
import Mathlib.Tactic.Ring
import Mathlib.Tactic.Positivity
/-! The error tests of contour simplification in single precision. -/
namespace Rerecast

theorem tests_rounded_id : Tests.rounded id = Tests.exact := rfl

theorem pow2_24 : pow2 (-24) = 1 / 2 ^ 24 := by rw [pow2_eq]; norm_num
theorem pow2_150 : pow2 (-150) = 1 / 2 ^ 150 := by rw [pow2_eq]; norm_num

theorem isF32_int {k : Int} (h : |k| ≤ 2 ^ 24) : IsF32 (k : ℚ) :=
  ⟨k, 0, h, by norm_num, by simp [pow2]⟩

theorem roundF32_nat_sub {a b n : Nat} (ha : a ≤ n) (hb : b ≤ n) (hn : n ≤ 2 ^ 24) : roundF32 ((a : ℚ) - b) = (a : ℚ) - b := by
  have : ((a : ℚ) - b) = (((a : Int) - b : Int) : ℚ) := by push_cast; rfl
  rw [this]
  apply roundF32_self
  apply isF32_int
  rw [abs_le]
  omega

private theorem vec_add {a1 a2 b1 b2 E F : ℚ} (hE : 0 ≤ E) (hF : 0 ≤ F) (ha : a1 ^ 2 + a2 ^ 2 ≤ E ^ 2) (hb : b1 ^ 2 + b2 ^ 2 ≤ F ^ 2) :
    (a1 + b1) ^ 2 + (a2 + b2) ^ 2 ≤ (E + F) ^ 2 := by
  have h1 : (a1 * b1 + a2 * b2) ^ 2 ≤ (E * F) ^ 2 := by
    have h2 : (a1 * b1 + a2 * b2) ^ 2 ≤ (a1 ^ 2 + a2 ^ 2) * (b1 ^ 2 + b2 ^ 2) := by nlinarith [sq_nonneg (a1 * b2 - a2 * b1)]
    have h3 : (a1 ^ 2 + a2 ^ 2) * (b1 ^ 2 + b2 ^ 2) ≤ E ^ 2 * F ^ 2 :=
      mul_le_mul ha hb (by positivity) (by positivity)
    rw [mul_pow]; exact le_trans h2 h3
  have h4 : a1 * b1 + a2 * b2 ≤ E * F := le_of_sq_le_sq h1 (mul_nonneg hE hF)
  nlinarith
where
  le_of_sq_le_sq {x y : ℚ} (h : x ^ 2 ≤ y ^ 2) (hy : 0 ≤ y) : x ≤ y := by
    by_contra hc
    have : y < x := not_le.1 hc
    nlinarith

/-- One coordinate of the difference. -/
private theorem coord_error {n : Nat} (hn : 0 < n) {p q pt : Nat} (hp : p ≤ n) (hq : q ≤ n) (hpt : pt ≤ n) {l : ℚ} (h0 : 0 ≤ l) (h1 : l ≤ 1) :
    |roundF32 (roundF32 ((p : ℚ) + roundF32 (l * ((q : ℚ) - p))) - pt) - ((p : ℚ) + l * ((q : ℚ) - p) - pt)| ≤ n * (1 / 2 ^ 22) := by
  have hN : (1 : ℚ) ≤ n := by exact_mod_cast hn
  have hp' : (p : ℚ) ≤ n := by exact_mod_cast hp
  have hq' : (q : ℚ) ≤ n := by exact_mod_cast hq
  have hpt' : (pt : ℚ) ≤ n := by exact_mod_cast hpt
  have hp0 : (0 : ℚ) ≤ p := Nat.cast_nonneg _
  have hq0 : (0 : ℚ) ≤ q := Nat.cast_nonneg _
  have hpt0 : (0 : ℚ) ≤ pt := Nat.cast_nonneg _
  have e24 := pow2_24
  have e150 := pow2_150
  have hw : (1 : ℚ) / 2 ^ 150 ≤ 1 / 2 ^ 50 := by norm_num
  have k1 := roundF32_error (l * ((q : ℚ) - p))
  set m := roundF32 (l * ((q : ℚ) - p)) with hm
  have k2 := roundF32_error ((p : ℚ) + m)
  set s := roundF32 ((p : ℚ) + m) with hs
  have k3 := roundF32_error (s - pt)
  rw [e24, e150] at k1 k2 k3
  have hl0 : 0 ≤ (p : ℚ) + l * ((q : ℚ) - p) := by nlinarith
  have hl1 : (p : ℚ) + l * ((q : ℚ) - p) ≤ n := by nlinarith
  have b1 : |l * ((q : ℚ) - p)| ≤ n := by rw [abs_le]; constructor <;> nlinarith
  clear hm hs
  generalize l * ((q : ℚ) - p) = L at *
  have c1 : |m - L| ≤ n * (1 / 2 ^ 24) + 1 / 2 ^ 50 := by linarith
  have c1' := abs_le.1 c1
  have b2' : |(p : ℚ) + m| ≤ n * (1 + 1 / 2 ^ 23) := by
    rw [abs_le]; constructor <;> linarith [c1'.1, c1'.2]
  have c2 : |s - (p + m)| ≤ n * (1 / 2 ^ 24) + n * (1 / 2 ^ 46) := by linarith
  have c2' := abs_le.1 c2
  have b3 : |s - pt| ≤ n * (1 + 1 / 2 ^ 22) := by
    rw [abs_le]; constructor <;> linarith [c1'.1, c1'.2, c2'.1, c2'.2]
  have c3 : |roundF32 (s - pt) - (s - pt)| ≤ n * (1 / 2 ^ 24) + n * (1 / 2 ^ 45) := by linarith
  have c3' := abs_le.1 c3
  rw [abs_le]
  constructor <;> linarith [c1'.1, c1'.2, c2'.1, c2'.2, c3'.1, c3'.2]

/-- The rounded sum of the rounded squares. -/
private theorem squares_error {dx dz e : ℚ} (he : 0 ≤ e)
    (h : roundF32 (roundF32 (dx * dx) + roundF32 (dz * dz)) ≤ max 0 (roundF32 (e * e))) :
    dx ^ 2 + dz ^ 2 ≤ (e * (1 + 1 / 2 ^ 22) + 1 / 2 ^ 70) ^ 2 := by
  have e24 := pow2_24
  have e150 := pow2_150
  have x0 : 0 ≤ dx * dx := mul_self_nonneg dx
  have z0 : 0 ≤ dz * dz := mul_self_nonneg dz
  have E0 : 0 ≤ e * e := mul_self_nonneg e
  have kx := roundF32_error (dx * dx)
  have kz := roundF32_error (dz * dz)
  have ke := roundF32_error (e * e)
  have ax : 0 ≤ roundF32 (dx * dx) := by rw [← roundF32_zero]; exact roundF32_mono x0
  have az : 0 ≤ roundF32 (dz * dz) := by rw [← roundF32_zero]; exact roundF32_mono z0
  have ks := roundF32_error (roundF32 (dx * dx) + roundF32 (dz * dz))
  rw [e24, e150, abs_of_nonneg x0] at kx
  rw [e24, e150, abs_of_nonneg z0] at kz
  rw [e24, e150, abs_of_nonneg E0] at ke
  rw [e24, e150, abs_of_nonneg (add_nonneg ax az)] at ks
  generalize roundF32 (roundF32 (dx * dx) + roundF32 (dz * dz)) = D at *
  generalize roundF32 (dx * dx) = A at *
  generalize roundF32 (dz * dz) = B at *
  generalize roundF32 (e * e) = M at *
  have hD : D ≤ e * e * (1 + 1 / 2 ^ 24) + 1 / 2 ^ 150 := by
    refine le_trans h (max_le ?_ ?_)
    · positivity
    · have := (abs_le.1 ke).2; linarith
  have k1 := (abs_le.1 kx).1
  have k2 := (abs_le.1 kz).1
  have k3 := (abs_le.1 ks).1
  have hsq : (e * (1 + 1 / 2 ^ 22) + 1 / 2 ^ 70) ^ 2 = e * e * (1 + 1 / 2 ^ 22) ^ 2 + 2 * (e * (1 + 1 / 2 ^ 22)) * (1 / 2 ^ 70) + (1 / 2 ^ 70) ^ 2 := by ring
  rw [hsq, pow_two, pow_two]
  have hpos : 0 ≤ 2 * (e * (1 + 1 / 2 ^ 22)) * (1 / 2 ^ 70) := by positivity
  generalize 2 * (e * (1 + 1 / 2 ^ 22)) * (1 / 2 ^ 70) = R at *
  generalize e * e = E at *
  generalize dx * dx = X at *
  generalize dz * dz = Z at *
  norm_num at *
  linarith

private theorem segDistSqR_form (pt p q : Nat × Nat) {n : Nat} (hn : n ≤ 2 ^ 24) (h1 : p.1 ≤ n) (h2 : p.2 ≤ n) (h3 : q.1 ≤ n) (h4 : q.2 ≤ n) :
    ∃ l : ℚ, 0 ≤ l ∧ l ≤ 1 ∧ segDistSqR roundF32 pt p q =
      roundF32 (roundF32 (roundF32 (roundF32 ((p.1 : ℚ) + roundF32 (l * ((q.1 : ℚ) - p.1))) - pt.1) *
        roundF32 (roundF32 ((p.1 : ℚ) + roundF32 (l * ((q.1 : ℚ) - p.1))) - pt.1)) +
      roundF32 (roundF32 (roundF32 ((p.2 : ℚ) + roundF32 (l * ((q.2 : ℚ) - p.2))) - pt.2) *
        roundF32 (roundF32 ((p.2 : ℚ) + roundF32 (l * ((q.2 : ℚ) - p.2))) - pt.2))) := by
  unfold segDistSqR
  dsimp only
  rw [roundF32_nat_sub h3 h1 hn, roundF32_nat_sub h4 h2 hn]
  exact ⟨_, (clamp01_range _).1, (clamp01_range _).2, rfl⟩

private theorem combine {n e dx dz gx gz : ℚ} (hN : 1 ≤ n) (he : 0 ≤ e) (cx : |dx - gx| ≤ n * (1 / 2 ^ 22)) (cz : |dz - gz| ≤ n * (1 / 2 ^ 22))
    (hS : dx ^ 2 + dz ^ 2 ≤ (e * (1 + 1 / 2 ^ 22) + 1 / 2 ^ 70) ^ 2) : gx ^ 2 + gz ^ 2 ≤ (e * (1 + 1 / 2 ^ 22) + n * (1 / 2 ^ 21)) ^ 2 := by
  have hx := abs_le.1 cx
  have hz := abs_le.1 cz
  have hF : (gx - dx) ^ 2 + (gz - dz) ^ 2 ≤ (3 / 2 * (n * (1 / 2 ^ 22))) ^ 2 := by
    have h1 : (gx - dx) ^ 2 ≤ (n * (1 / 2 ^ 22)) ^ 2 := by
      apply sq_le_sq' <;> linarith [hx.1, hx.2]
    have h2 : (gz - dz) ^ 2 ≤ (n * (1 / 2 ^ 22)) ^ 2 := by
      apply sq_le_sq' <;> linarith [hz.1, hz.2]
    have h3 : (0 : ℚ) ≤ (n * (1 / 2 ^ 22)) ^ 2 := sq_nonneg _
    rw [mul_pow (3 / 2 : ℚ)]
    linarith
  have n0 : 0 ≤ n := by linarith
  have key := vec_add (add_nonneg (mul_nonneg he (by norm_num)) (by norm_num)) (mul_nonneg (by norm_num) (mul_nonneg n0 (by norm_num))) hS hF
  rw [add_sub_cancel, add_sub_cancel] at key
  have e0 : 0 ≤ e * (1 + 1 / 2 ^ 22) := mul_nonneg he (by norm_num)
  generalize e * (1 + 1 / 2 ^ 22) = E at *
  have ht : (1 : ℚ) / 2 ^ 70 ≤ n * (1 / 2 ^ 23) := by
    have : (1 : ℚ) / 2 ^ 70 ≤ 1 / 2 ^ 23 := by norm_num
    linarith
  have hpos : 0 ≤ E + 1 / 2 ^ 70 + 3 / 2 * (n * (1 / 2 ^ 22)) := by
    have : (0 : ℚ) ≤ 1 / 2 ^ 70 := by norm_num
    linarith
  exact le_trans key (pow_le_pow_left₀ hpos (by linarith) 2)

/-- In single precision, the tests keep vertices within `e` up to the rounding errors. -/
theorem keeps_f32 {n : Nat} (hn : 0 < n) (hn' : n ≤ 2 ^ 24) {e : ℚ} (he : 0 ≤ e) :
    (Tests.f32 e).Keeps n (e * (1 + 1 / 2 ^ 22) + n * (1 / 2 ^ 21)) := by
  intro pt p q hpt hp hq d hd hacc
  have hd2 : segDistSqR roundF32 pt.xz p.xz q.xz ≤ max 0 (roundF32 (e * e)) := by
    refine le_trans hd ?_
    rcases hacc with rfl | h
    · exact le_max_left ..
    · have : ¬ (d > roundF32 (e * e)) := of_decide_eq_false h
      exact le_trans (not_lt.1 this) (le_max_right ..)
  obtain ⟨l, h0, h1, hf⟩ := segDistSqR_form pt.xz p.xz q.xz hn' hp.1 hp.2 hq.1 hq.2
  rw [hf] at hd2
  exact ⟨l, h0, h1, combine (by exact_mod_cast hn) he (coord_error hn hp.1 hq.1 hpt.1 h0 h1) (coord_error hn hp.2 hq.2 hpt.2 h0 h1)
    (squares_error he hd2)⟩

end Rerecast
