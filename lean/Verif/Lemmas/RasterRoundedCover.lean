import Verif.Lemmas.RasterRoundedSafe
import Verif.Lemmas.ClipShadow
import Verif.Lemmas.RasterRow
import Verif.Spec.SinglePrecision
/-! Rasterization in single precision does not lose what lies well inside a cell: cuts, heights and ranges. -/
set_option linter.unusedVariables false
namespace Rerecast
open Heightfield

/-! ### Cuts -/

theorem cutParam_end {O b a : ℚ} (hO : IsF32 O) (hb : IsF32 b) (ha : IsF32 a) (h : Straddles O b a) (h0 : roundF32 (O - a) = 0) : cutParam O b a = 1 := by
  have hsg := round_sub_sign hO hb
  have hf := roundF32_isF32 (O - b)
  unfold cutParam
  rw [h0, sub_zero, roundF32_self hf]
  have hne : O ≠ b ∨ O = b := by tauto
  rcases hne with hne | rfl
  · have : roundF32 (O - b) ≠ 0 := by
      rcases lt_or_gt_of_ne hne with hl | hl
      · intro hz
        have := hsg.1.1 (le_of_eq hz.symm)
        linarith
      · exact ne_of_gt (hsg.2.2 hl)
    rw [div_self this, roundF32_self f32_one]
  · exfalso
    rcases h with ⟨-, h2⟩ | ⟨h1, -⟩
    · have := (round_sub_sign hO ha).1.1 (le_of_eq h0.symm)
      linarith
    · exact lt_irrefl _ h1

theorem cutShadow_of {axis : DivisionAxis} {O B d : ℚ} {R : List (V3 ℚ)} (hO : IsF32 O) (hB : 1 / 2 ^ 100 ≤ B) (hR : ∀ v ∈ R, Small B v) {f : Aff}
    (hf : ∀ v : V3 ℚ, |axis.coord v - O| ≤ 1 / 2 ^ 19 * B + (d + B / 2 ^ 21) → f.eval v ≤ 0) :
    CutShadow (sideR roundF32 axis O) (cutR roundF32 axis O) f d (d + B / 2 ^ 21) R := by
  intro p hp a ha hc
  have sp := hR p hp
  have sa := hR a ha
  have fp : IsF32 (axis.coord p) := by cases axis; exact sp.1.1; exact sp.1.2.2
  have fa : IsF32 (axis.coord a) := by cases axis; exact sa.1.1; exact sa.1.2.2
  have bp : |axis.coord p| ≤ B := by cases axis; exact sp.2.1; exact sp.2.2.2
  have ba : |axis.coord a| ≤ B := by cases axis; exact sa.2.1; exact sa.2.2.2
  have hst := straddles_of_cross hO fp fa hc
  obtain ⟨u0, u1⟩ := cutParam_unit hO fp fa hst
  refine ⟨cutParam O (axis.coord p) (axis.coord a), u0, u1, ?_, ?_⟩
  · intro h0
    exact cutParam_end hO fp fa hst h0
  · intro x y nx ny
    have acc : |axis.coord (cutR roundF32 axis O p a) - O| ≤ 1 / 2 ^ 19 * B := by
      cases axis
      · exact mix_cut hO fp fa hst ba bp hB
      · exact mix_cut hO fp fa hst ba bp hB
    have tri : ∀ m l k : ℚ, |m - l| ≤ B / 2 ^ 21 → |l - k| ≤ d → |m - k| ≤ d + B / 2 ^ 21 := by
      intro m l k h1 h2
      have := abs_add_le (m - l) (l - k)
      rw [show m - l + (l - k) = m - k by ring] at this
      linarith
    have near : NearV (d + B / 2 ^ 21) (cutR roundF32 axis O p a) (lerp x y (cutParam O (axis.coord p) (axis.coord a))) :=
      ⟨tri _ _ _ (mix_lerp sp.1.1 sa.1.1 u0 u1 sa.2.1 sp.2.1 hB) (close_lerp u0 u1 nx.1 ny.1),
       tri _ _ _ (mix_lerp sp.1.2.1 sa.1.2.1 u0 u1 sa.2.2.1 sp.2.2.1 hB) (close_lerp u0 u1 nx.2.1 ny.2.1),
       tri _ _ _ (mix_lerp sp.1.2.2 sa.1.2.2 u0 u1 sa.2.2.2 sp.2.2.2 hB) (close_lerp u0 u1 nx.2.2 ny.2.2)⟩
    refine ⟨near, hf _ ?_⟩
    have nc : |axis.coord (cutR roundF32 axis O p a) - axis.coord (lerp x y (cutParam O (axis.coord p) (axis.coord a)))| ≤ d + B / 2 ^ 21 := by
      cases axis
      · exact near.1
      · exact near.2.2
    rw [abs_le] at *
    constructor <;> linarith

theorem coord_near {axis : DivisionAxis} {d : ℚ} {r s : V3 ℚ} (h : NearV d r s) : |axis.coord r - axis.coord s| ≤ d := by
  cases axis
  · exact h.1
  · exact h.2.2

/-- What lies beyond a cut is not lost in the rest. -/
theorem shadow_rest {axis : DivisionAxis} {O B d : ℚ} {R : List (V3 ℚ)} {q : V3 ℚ} (hO : IsF32 O) (hB : 1 / 2 ^ 100 ≤ B) (hR : ∀ v ∈ R, Small B v)
    (hq : O + (1 / 2 ^ 19 * B + (d + B / 2 ^ 21)) ≤ axis.coord q) (h : Shadow d q R) :
    Shadow (d + B / 2 ^ 21) q (keepF2 (sideR roundF32 axis O) (cutR roundF32 axis O) R) := by
  have hB0 : 0 < B := lt_of_lt_of_le (by norm_num) hB
  have hd1 : d ≤ d + B / 2 ^ 21 := by
    have : 0 < B / 2 ^ 21 := by positivity
    linarith
  have ev : ∀ v, (sideAff axis (O + (1 / 2 ^ 19 * B + (d + B / 2 ^ 21)))).neg.eval v = axis.coord v - (O + (1 / 2 ^ 19 * B + (d + B / 2 ^ 21))) := by
    intro v
    rw [Aff.eval_neg, sideAff_eval]
    ring
  refine shadow_keepF2 (f := (sideAff axis (O + (1 / 2 ^ 19 * B + (d + B / 2 ^ 21)))).neg) hd1 (cutShadow_of hO hB hR fun v hv => ?_) ?_ ?_ h
  · rw [ev]
    have := (abs_le.1 hv).2
    linarith
  · intro r hr s hn hs
    rw [ev] at hs
    have h1 := (abs_le.1 (coord_near (axis := axis) hn)).1
    have h2 : O < axis.coord r := by
      have : 0 < B / 2 ^ 21 := by positivity
      have : 0 < 1 / 2 ^ 19 * B := by positivity
      linarith
    have fr : IsF32 (axis.coord r) := by cases axis; exact (hR r hr).1.1; exact (hR r hr).1.2.2
    by_contra hcon
    have := (sideR_sign hO fr).1.1 (not_lt.1 hcon)
    linarith
  · rw [ev]
    linarith

/-- What lies before a cut is not lost in the piece cut off. -/
theorem shadow_piece {axis : DivisionAxis} {O B d : ℚ} {R : List (V3 ℚ)} {q : V3 ℚ} (hO : IsF32 O) (hB : 1 / 2 ^ 100 ≤ B) (hR : ∀ v ∈ R, Small B v)
    (hq : axis.coord q ≤ O - (1 / 2 ^ 19 * B + (d + B / 2 ^ 21))) (h : Shadow d q R) :
    Shadow (d + B / 2 ^ 21) q (keepF1 (sideR roundF32 axis O) (cutR roundF32 axis O) R) := by
  have hB0 : 0 < B := lt_of_lt_of_le (by norm_num) hB
  have hd1 : d ≤ d + B / 2 ^ 21 := by
    have : 0 < B / 2 ^ 21 := by positivity
    linarith
  refine shadow_keepF1 (f := sideAff axis (O - (1 / 2 ^ 19 * B + (d + B / 2 ^ 21)))) hd1 (cutShadow_of hO hB hR fun v hv => ?_) ?_ ?_ h
  · rw [sideAff_eval]
    have := (abs_le.1 hv).1
    linarith
  · intro r hr s hn hs
    rw [sideAff_eval] at hs
    have h1 := (abs_le.1 (coord_near (axis := axis) hn)).2
    have h2 : axis.coord r < O := by
      have : 0 < B / 2 ^ 21 := by positivity
      have : 0 < 1 / 2 ^ 19 * B := by positivity
      linarith
    have fr : IsF32 (axis.coord r) := by cases axis; exact (hR r hr).1.1; exact (hR r hr).1.2.2
    exact (sideR_sign hO fr).2.2 h2
  · rw [sideAff_eval]
    linarith

/-! ### Level polygons -/

/-- All vertices have height `y`. -/
def LevelAt (y : ℚ) (R : List (V3 ℚ)) : Prop := ∀ v ∈ R, v.y = y

theorem level_cut {axis : DivisionAxis} {O y : ℚ} {p a : V3 ℚ} (hy : IsF32 y) (hp : p.y = y) (ha : a.y = y) : (cutR roundF32 axis O p a).y = y := by
  unfold cutR lerpR
  dsimp only
  rw [hp, ha, sub_self, roundF32_zero, zero_mul, roundF32_zero, add_zero, roundF32_self hy]

theorem level_keepF1 {axis : DivisionAxis} {O y : ℚ} {R : List (V3 ℚ)} (hy : IsF32 y) (h : LevelAt y R) :
    LevelAt y (keepF1 (sideR roundF32 axis O) (cutR roundF32 axis O) R) := by
  intro v hv
  rcases keepF1_mem hv with hv | ⟨p, hp, a, ha, -, rfl⟩
  · exact h v hv
  · exact level_cut hy (h p hp) (h a ha)

theorem level_keepF2 {axis : DivisionAxis} {O y : ℚ} {R : List (V3 ℚ)} (hy : IsF32 y) (h : LevelAt y R) :
    LevelAt y (keepF2 (sideR roundF32 axis O) (cutR roundF32 axis O) R) := by
  intro v hv
  rcases keepF2_mem hv with hv | ⟨p, hp, a, ha, -, rfl⟩
  · exact h v hv
  · exact level_cut hy (h p hp) (h a ha)

/-! ### Heights -/

theorem snapSpanR_covers {fr : Frame} {w h : Nat} {M : ℚ} (s : SafeFrame fr w h M) {lo hi y d : ℚ} (hd : 0 ≤ d)
    (h1 : fr.aabb.min.y ≤ hi) (h2 : lo ≤ fr.aabb.max.y) (h3 : lo ≤ y + d) (h4 : y - d ≤ hi) (hy1 : fr.aabb.min.y ≤ y) (hy2 : y ≤ fr.aabb.max.y) :
    ∃ mn mx, snapSpanR roundF32 fr lo hi = .ok (some (mn, mx)) ∧ ∃ v, mn ≤ v ∧ v < mx ∧ NearHeight fr (d + (M + fr.cellHeight) / 2 ^ 20) v y := by
  have hM := s.gx.pos
  have ch0 : 0 < fr.cellHeight := lt_of_lt_of_le (by norm_num) s.h0
  have hby0 : 0 ≤ fr.aabb.max.y - fr.aabb.min.y := by linarith [s.tall]
  have hby1 : fr.aabb.max.y - fr.aabb.min.y ≤ 2 * M := by
    have := (abs_le.1 s.by0).1
    have := (abs_le.1 s.by1).2
    linarith
  have hi0 : 0 ≤ roundF32 (1 / fr.cellHeight) := by
    have := roundF32_mono (a := 0) (b := 1 / fr.cellHeight) (by positivity)
    rwa [roundF32_zero] at this
  unfold snapSpanR
  dsimp only
  have hn1 : 0 ≤ roundF32 (hi - fr.aabb.min.y) := by
    have := roundF32_mono (a := 0) (b := hi - fr.aabb.min.y) (by linarith)
    rwa [roundF32_zero] at this
  have hn2 : roundF32 (lo - fr.aabb.min.y) ≤ roundF32 (fr.aabb.max.y - fr.aabb.min.y) := roundF32_mono (by linarith)
  rw [if_neg (by push Not; exact ⟨hn1, hn2⟩)]
  have e1 : max (roundF32 (lo - fr.aabb.min.y)) 0 = roundF32 (max (lo - fr.aabb.min.y) 0) := by
    rcases le_total (lo - fr.aabb.min.y) 0 with h | h
    · rw [max_eq_right h, roundF32_zero, max_eq_right]
      have := roundF32_mono h
      rwa [roundF32_zero] at this
    · rw [max_eq_left h, max_eq_left]
      have := roundF32_mono h
      rwa [roundF32_zero] at this
  have e2 : min (roundF32 (hi - fr.aabb.min.y)) (roundF32 (fr.aabb.max.y - fr.aabb.min.y)) =
      roundF32 (min (hi - fr.aabb.min.y) (fr.aabb.max.y - fr.aabb.min.y)) := by
    rcases le_total (hi - fr.aabb.min.y) (fr.aabb.max.y - fr.aabb.min.y) with h | h
    · rw [min_eq_left h, min_eq_left (roundF32_mono h)]
    · rw [min_eq_right h, min_eq_right (roundF32_mono h)]
  rw [e1, e2]
  have hD1 : 0 ≤ max (lo - fr.aabb.min.y) 0 := le_max_right _ _
  have hD2 : 0 ≤ min (hi - fr.aabb.min.y) (fr.aabb.max.y - fr.aabb.min.y) := le_min (by linarith) hby0
  have c1 := abs_le.1 (rowOf_close hD1 s.h0 s.h1)
  have c2 := abs_le.1 (rowOf_close hD2 s.h0 s.h1)
  have hD1a : max (lo - fr.aabb.min.y) 0 ≤ fr.aabb.max.y - fr.aabb.min.y := max_le (by linarith) hby0
  have hD1b : max (lo - fr.aabb.min.y) 0 ≤ y - fr.aabb.min.y + d := max_le (by linarith) (by linarith)
  have hD2a : min (hi - fr.aabb.min.y) (fr.aabb.max.y - fr.aabb.min.y) ≤ fr.aabb.max.y - fr.aabb.min.y := min_le_right _ _
  have hD2b : y - fr.aabb.min.y - d ≤ min (hi - fr.aabb.min.y) (fr.aabb.max.y - fr.aabb.min.y) := le_min (by linarith) (by linarith)
  have hP0 : 0 ≤ roundF32 (roundF32 (max (lo - fr.aabb.min.y) 0) * roundF32 (1 / fr.cellHeight)) := by
    have a := roundF32_mono hD1
    rw [roundF32_zero] at a
    have := roundF32_mono (mul_nonneg a hi0)
    rwa [roundF32_zero] at this
  generalize roundF32 (roundF32 (max (lo - fr.aabb.min.y) 0) * roundF32 (1 / fr.cellHeight)) = P at *
  generalize roundF32 (roundF32 (min (hi - fr.aabb.min.y) (fr.aabb.max.y - fr.aabb.min.y)) * roundF32 (1 / fr.cellHeight)) = Q at *
  generalize max (lo - fr.aabb.min.y) 0 = D1 at *
  generalize min (hi - fr.aabb.min.y) (fr.aabb.max.y - fr.aabb.min.y) = D2 at *
  have back : ∀ D : ℚ, D / fr.cellHeight * fr.cellHeight = D := fun D => by field_simp
  have cap : ∀ D : ℚ, D ≤ fr.aabb.max.y - fr.aabb.min.y → D / fr.cellHeight ≤ 65000 := by
    intro D hD
    rw [div_le_iff₀ ch0]
    exact hD.trans s.low
  have p1 := cap D1 hD1a
  have p2 := cap D2 hD2a
  have hF0 : 0 ≤ P.floor := Rat.le_floor_iff.2 (by push_cast; exact hP0)
  have hF1 : P.floor < 65002 := by
    rw [Rat.floor_lt_iff]
    push_cast
    norm_num at *
    linarith
  have hQ1 : Q.ceil ≤ 65002 := by
    rw [Rat.ceil_le_iff]
    push_cast
    norm_num at *
    linarith
  unfold clampI ratAsI32
  rw [ratTrunc_int, ratTrunc_int, if_pos (by omega), bind_ok, if_pos (by omega), bind_ok]
  refine ⟨_, _, rfl, ?_⟩
  have hPl : (P.floor : ℚ) ≤ P := Rat.floor_le P
  have hQu : Q ≤ (Q.ceil : ℚ) := Rat.le_ceil
  -- in units of length
  have u1 : (P.floor : ℚ) * fr.cellHeight ≤ D1 + (M + fr.cellHeight) / 2 ^ 20 := by
    have : (P.floor : ℚ) ≤ D1 / fr.cellHeight * (1 + 1 / 2 ^ 22) + 1 / 2 ^ 22 := by linarith
    have := mul_le_mul_of_nonneg_right this ch0.le
    rw [add_mul, mul_right_comm, back] at this
    norm_num at *
    linarith
  have u2 : D2 ≤ (Q.ceil : ℚ) * fr.cellHeight + (M + fr.cellHeight) / 2 ^ 20 := by
    have : D2 / fr.cellHeight * (1 - 1 / 2 ^ 22) - 1 / 2 ^ 22 ≤ (Q.ceil : ℚ) := by linarith
    have := mul_le_mul_of_nonneg_right this ch0.le
    rw [sub_mul, mul_right_comm, back] at this
    norm_num at *
    linarith
  generalize hA : P.floor = A at *
  generalize hC : Q.ceil = C at *
  have m1 : max (0 : Int) (min (max (-2147483648) (min 2147483647 A)) 65535) = A := by omega
  rw [m1]
  have hτ : 0 ≤ (M + fr.cellHeight) / 2 ^ 20 := by positivity
  -- the voxel of `y`
  have t0 : 0 ≤ y - fr.aabb.min.y := by linarith
  have f1 := Rat.floor_le ((y - fr.aabb.min.y) / fr.cellHeight)
  have f2 := Rat.lt_floor_add_one ((y - fr.aabb.min.y) / fr.cellHeight)
  have f0 : 0 ≤ ((y - fr.aabb.min.y) / fr.cellHeight).floor := Rat.le_floor_iff.2 (by push_cast; positivity)
  generalize ((y - fr.aabb.min.y) / fr.cellHeight).floor = F at *
  rw [le_div_iff₀ ch0] at f1
  rw [div_lt_iff₀ ch0] at f2
  push_cast at f2
  generalize hmx : max (A + 1) (min (max (-2147483648) (min 2147483647 C)) 65535) = mx
  have lift : ∀ n : Int, 0 ≤ n → ((n.toNat : Nat) : ℚ) = (n : ℚ) := by
    intro n hn
    have : ((n.toNat : Nat) : Int) = n := Int.toNat_of_nonneg hn
    exact_mod_cast congrArg (Int.cast (R := ℚ)) this
  unfold NearHeight
  by_cases k1 : F < A
  · refine ⟨A.toNat, by omega, by omega, ?_⟩
    rw [lift A hF0]
    have : (F : ℚ) + 1 ≤ A := by exact_mod_cast k1
    have := mul_le_mul_of_nonneg_right this ch0.le
    constructor <;> linarith
  · by_cases k2 : mx ≤ F
    · refine ⟨(mx - 1).toNat, by omega, by omega, ?_⟩
      rw [lift (mx - 1) (by omega)]
      have q1 : (mx : ℚ) ≤ F := by exact_mod_cast k2
      have := mul_le_mul_of_nonneg_right q1 ch0.le
      have q2 : (C : ℚ) ≤ mx := by
        have : C ≤ mx := by omega
        exact_mod_cast this
      have := mul_le_mul_of_nonneg_right q2 ch0.le
      push_cast
      constructor <;> linarith
    · refine ⟨F.toNat, by omega, by omega, ?_⟩
      rw [lift F f0]
      constructor <;> linarith

/-! ### Ranges -/

theorem rowOf_le {fr : Frame} (h1 : 1 / 2 ^ 20 ≤ fr.cellSize) (h2 : fr.cellSize ≤ 2 ^ 20) {z : ℚ} {k : Nat}
    (h : (z - fr.aabb.min.z) * (1 + 1 / 2 ^ 22) + fr.cellSize * (1 / 2 ^ 22) < (k + 1) * fr.cellSize) : rowOf roundF32 fr z ≤ k := by
  have c0 : 0 < fr.cellSize := lt_of_lt_of_le (by norm_num) h1
  rcases le_total fr.aabb.min.z z with hz | hz
  · by_contra hc
    have := rowOf_upper h1 h2 hz (k := k + 1) (by push_cast; omega)
    push_cast at this
    linarith
  · have hinv : 0 ≤ roundF32 (1 / fr.cellSize) := by
      have := roundF32_mono (a := 0) (b := 1 / fr.cellSize) (by positivity)
      rwa [roundF32_zero] at this
    have a1 := roundF32_mono (a := z - fr.aabb.min.z) (b := 0) (by linarith)
    rw [roundF32_zero] at a1
    have a2 := roundF32_mono (mul_nonpos_of_nonpos_of_nonneg a1 hinv)
    rw [roundF32_zero] at a2
    have := ratTrunc_mono a2
    have h0 : ratTrunc 0 = 0 := by decide +kernel
    rw [h0] at this
    unfold rowOf ratAsI16
    omega

theorem le_rowOf {fr : Frame} (h1 : 1 / 2 ^ 20 ≤ fr.cellSize) (h2 : fr.cellSize ≤ 2 ^ 20) {z : ℚ} {k : Nat} (hk : k < 32767) (hz : fr.aabb.min.z ≤ z)
    (h : k * fr.cellSize < (z - fr.aabb.min.z) * (1 - 1 / 2 ^ 22) - fr.cellSize * (1 / 2 ^ 22)) : (k : Int) ≤ rowOf roundF32 fr z := by
  have c0 : 0 < fr.cellSize := lt_of_lt_of_le (by norm_num) h1
  have hinv : 0 ≤ roundF32 (1 / fr.cellSize) := by
    have := roundF32_mono (a := 0) (b := 1 / fr.cellSize) (by positivity)
    rwa [roundF32_zero] at this
  have n1 := roundF32_mono (a := 0) (b := z - fr.aabb.min.z) (by linarith)
  rw [roundF32_zero] at n1
  have n2 := roundF32_mono (mul_nonneg n1 hinv)
  rw [roundF32_zero] at n2
  have n3 : 0 ≤ rowOf roundF32 fr z := by
    have := le_ratTrunc (le_refl 0) (by push_cast; exact n2)
    unfold rowOf ratAsI16
    omega
  by_contra hc
  have hk0 : 1 ≤ k := by omega
  have := rowOf_lower h1 h2 (z := z) (k := k - 1) (by omega) (by omega)
  rw [Nat.cast_sub hk0] at this
  push_cast at this
  linarith

/-! ### A point well inside a cell -/

theorem Shadow.mono {d d' : ℚ} {q : V3 ℚ} {R : List (V3 ℚ)} (h : Shadow d q R) (hd : d ≤ d') : Shadow d' q R := by
  obtain ⟨h3, S, hF, hU, hq⟩ := h
  exact ⟨h3, S, hF.imp fun _ _ hn => hn.mono hd, hU, hq⟩

theorem shadow_corners {t : V3 ℚ × V3 ℚ × V3 ℚ} {q : V3 ℚ} (h : InTriangle t q) {d : ℚ} (hd : 0 ≤ d) : Shadow d q (cornerList t) := by
  refine ⟨by simp [cornerList], cornerList t, ?_, unimodal_triple _ _ _, inHull_of_inTriangle h⟩
  exact List.forall₂_same.2 fun v _ => nearV_self hd v

/-- The frame seen from the x axis. -/
def Frame.turned (fr : Frame) : Frame := ⟨⟨⟨fr.aabb.min.z, fr.aabb.min.y, fr.aabb.min.x⟩, fr.aabb.max⟩, fr.cellSize, fr.cellHeight⟩

/-- A point and a cell. -/
structure Aim where
  q : V3 ℚ
  x : Nat
  z : Nat

/-- How far from the triangle a voxel can be. -/
def RCtx.tol (c : RCtx) (M : ℚ) : ℚ := ((c.w + c.h + 7) * M + c.fr.cellHeight) / 2 ^ 20

/-- A point of the triangle well inside the cell. -/
structure Aim.Good (a : Aim) (c : RCtx) (M : ℚ) : Prop where
  tri : InTriangle c.tri a.q
  hx : a.x < c.w
  hz : a.z < c.h
  box : c.fr.aabb.Contains a.q
  deep : DeepInCell c.fr (c.tol M) a.x a.z a.q
  clear : ClearHeight c.fr (c.tol M) c.tri a.q

/-- The point is in one of the blocks. -/
def Aim.Cov (a : Aim) (c : RCtx) (M : ℚ) (done : List Insertion) : Prop :=
  ∃ i ∈ done, i.x = a.x ∧ i.z = a.z ∧ ∃ v, i.min ≤ v ∧ v < i.max ∧ NearHeight c.fr (c.tol M) v a.q.y

theorem Aim.Cov.append {a : Aim} {c : RCtx} {M : ℚ} {l : List Insertion} (h : a.Cov c M l) (r : List Insertion) : a.Cov c M (l ++ r) := by
  obtain ⟨i, hi, h⟩ := h
  exact ⟨i, by simp [hi], h⟩

section
variable {a : Aim} {c : RCtx} {M : ℚ}

theorem RCtx.tol_eq (c : RCtx) (M : ℚ) : c.tol M = (c.w + c.h + 7) * (M / 2 ^ 20) + c.fr.cellHeight / 2 ^ 20 := by
  unfold RCtx.tol
  ring

theorem SafeCtx.tol_ge (s : SafeCtx c M) : (c.w + c.h + 7) * (M / 2 ^ 20) ≤ c.tol M := by
  have : 0 < c.fr.cellHeight := lt_of_lt_of_le (by norm_num) s.frame.h0
  rw [RCtx.tol_eq]
  have : 0 < c.fr.cellHeight / 2 ^ 20 := by positivity
  linarith

/-- All corners are as high as the point. -/
def Aim.Level (a : Aim) (c : RCtx) : Prop := ∀ v ∈ cornerList c.tri, v.y = a.q.y

theorem Aim.Good.height (g : a.Good c M) :
    (c.fr.aabb.min.y + c.tol M ≤ a.q.y ∧ a.q.y + c.tol M ≤ c.fr.aabb.max.y) ∨ a.Level c := by
  rcases g.clear with h | ⟨h1, h2⟩
  · exact .inl h
  · right
    obtain ⟨u, v, w, -, -, -, hs, -, hy, -⟩ := g.tri
    have e : a.q.y = c.tri.2.2.y := by
      rw [hy, h1, h2, ← add_mul, ← add_mul, hs, one_mul]
    intro p hp
    simp only [cornerList, List.mem_cons, List.not_mem_nil, or_false] at hp
    rcases hp with rfl | rfl | rfl
    · rw [e, h1, h2]
    · rw [e, h2]
    · rw [e]

theorem Aim.Good.beyond_x (g : a.Good c M) (s : SafeCtx c M) {k : Int} (h1 : -1 ≤ k) (hk : k < a.x) {d : ℚ} (hd : d ≤ (c.w + c.h + 2) * (M / 2 ^ 20)) :
    c.lx k + (1 / 2 ^ 19 * (2 * M) + d) ≤ DivisionAxis.X.coord a.q := by
  have hx := g.hx
  have hcl := (abs_le.1 (s.frame.gx.close h1 (by omega : k ≤ c.w))).2
  change c.lx k - _ ≤ _ at hcl
  have := g.deep.1.1
  have ht := s.tol_ge
  have hkx : (k : ℚ) + 1 ≤ a.x := by exact_mod_cast hk
  have := mul_le_mul_of_nonneg_right hkx s.frame.gx.c0.le
  change _ ≤ a.q.x
  rw [show ((c.w : ℚ) + c.h + 7) * (M / 2 ^ 20) = (c.w + c.h + 2) * (M / 2 ^ 20) + 5 * (M / 2 ^ 20) by ring] at ht
  generalize ((c.w : ℚ) + c.h + 2) * (M / 2 ^ 20) = e at *
  norm_num at *
  linarith

theorem Aim.Good.beyond_z (g : a.Good c M) (s : SafeCtx c M) {k : Int} (h1 : -1 ≤ k) (hk : k < a.z) {d : ℚ} (hd : d ≤ (c.w + c.h + 2) * (M / 2 ^ 20)) :
    c.lz k + (1 / 2 ^ 19 * (2 * M) + d) ≤ DivisionAxis.Z.coord a.q := by
  have hz := g.hz
  have hcl := (abs_le.1 (s.frame.gz.close h1 (by omega : k ≤ c.h))).2
  change c.lz k - _ ≤ _ at hcl
  have := g.deep.2.1
  have ht := s.tol_ge
  have hkx : (k : ℚ) + 1 ≤ a.z := by exact_mod_cast hk
  have := mul_le_mul_of_nonneg_right hkx s.frame.gz.c0.le
  change _ ≤ a.q.z
  rw [show ((c.w : ℚ) + c.h + 7) * (M / 2 ^ 20) = (c.w + c.h + 2) * (M / 2 ^ 20) + 5 * (M / 2 ^ 20) by ring] at ht
  generalize ((c.w : ℚ) + c.h + 2) * (M / 2 ^ 20) = e at *
  norm_num at *
  linarith

theorem Aim.Good.before_x (g : a.Good c M) (s : SafeCtx c M) {d : ℚ} (hd : d ≤ (c.w + c.h + 2) * (M / 2 ^ 20)) :
    DivisionAxis.X.coord a.q ≤ c.lx a.x - (1 / 2 ^ 19 * (2 * M) + d) := by
  have hx := g.hx
  have hcl := (abs_le.1 (s.frame.gx.close (by omega : -1 ≤ (a.x : Int)) (by omega : (a.x : Int) ≤ c.w))).1
  change _ ≤ c.lx a.x - _ at hcl
  have := g.deep.1.2
  have ht := s.tol_ge
  change a.q.x ≤ _
  rw [show ((c.w : ℚ) + c.h + 7) * (M / 2 ^ 20) = (c.w + c.h + 2) * (M / 2 ^ 20) + 5 * (M / 2 ^ 20) by ring] at ht
  generalize ((c.w : ℚ) + c.h + 2) * (M / 2 ^ 20) = e at *
  push_cast at hcl
  norm_num at *
  linarith

theorem Aim.Good.before_z (g : a.Good c M) (s : SafeCtx c M) {d : ℚ} (hd : d ≤ (c.w + c.h + 2) * (M / 2 ^ 20)) :
    DivisionAxis.Z.coord a.q ≤ c.lz a.z - (1 / 2 ^ 19 * (2 * M) + d) := by
  have hz := g.hz
  have hcl := (abs_le.1 (s.frame.gz.close (by omega : -1 ≤ (a.z : Int)) (by omega : (a.z : Int) ≤ c.h))).1
  change _ ≤ c.lz a.z - _ at hcl
  have := g.deep.2.2
  have ht := s.tol_ge
  change a.q.z ≤ _
  rw [show ((c.w : ℚ) + c.h + 7) * (M / 2 ^ 20) = (c.w + c.h + 2) * (M / 2 ^ 20) + 5 * (M / 2 ^ 20) by ring] at ht
  generalize ((c.w : ℚ) + c.h + 2) * (M / 2 ^ 20) = e at *
  push_cast at hcl
  norm_num at *
  linarith

/-- A polygon that has the point in its shadow. -/
def Aim.Kept (a : Aim) (c : RCtx) (d : ℚ) (R : List (V3 ℚ)) : Prop := Shadow d a.q R ∧ (a.Level c → LevelAt a.q.y R)

theorem units_le {p q : ℚ} (hM : 0 < M) (h : p ≤ q) : p * (M / 2 ^ 20) ≤ q * (M / 2 ^ 20) := mul_le_mul_of_nonneg_right h (by positivity)

/-- Heights: the block of the piece contains the point. -/
theorem Aim.Good.block (g : a.Good c M) (s : SafeCtx c M) {P : List (V3 ℚ)} (h : a.Kept c ((c.w + c.h + 2) * (M / 2 ^ 20)) P) {lo hi : ℚ}
    (hb : ∀ v ∈ P, lo ≤ v.y ∧ v.y ≤ hi) (hlo : ∃ v ∈ P, v.y = lo) (hhi : ∃ v ∈ P, v.y = hi) :
    ∃ mn mx, snapSpanR roundF32 c.fr lo hi = .ok (some (mn, mx)) ∧ ∃ v, mn ≤ v ∧ v < mx ∧ NearHeight c.fr (c.tol M) v a.q.y := by
  have hM := s.pos
  obtain ⟨-, -, b2, b5, -, -⟩ := g.box
  obtain ⟨r, hr, t, hn, ht⟩ := h.1.exists_ge ⟨0, 1, 0, 0⟩
  obtain ⟨r', hr', t', hn', ht'⟩ := h.1.exists_ge ⟨0, -1, 0, 0⟩
  simp only [Aff.eval] at ht ht'
  have n1 := (abs_le.1 hn.2.1).1
  have n2 := (abs_le.1 hn'.2.1).2
  have m1 := (hb r hr).2
  have m2 := (hb r' hr').1
  have hT := s.tol_ge
  have e1 : c.tol M = (c.w + c.h + 2) * (M / 2 ^ 20) + (M + c.fr.cellHeight) / 2 ^ 20 + 4 * (M / 2 ^ 20) := by
    unfold RCtx.tol
    ring
  have hu : 0 < M / 2 ^ 20 := by positivity
  have hd0 : (0 : ℚ) ≤ (c.w + c.h + 2) * (M / 2 ^ 20) := by positivity
  have ch0 : 0 < c.fr.cellHeight := lt_of_lt_of_le (by norm_num) s.frame.h0
  have hv0 : 0 < (M + c.fr.cellHeight) / 2 ^ 20 := by positivity
  generalize ((c.w : ℚ) + c.h + 2) * (M / 2 ^ 20) = d at *
  have hbox : c.fr.aabb.min.y ≤ hi ∧ lo ≤ c.fr.aabb.max.y := by
    rcases g.height with ⟨k1, k2⟩ | hl
    · constructor <;> linarith
    · have hL := h.2 hl
      obtain ⟨v1, hv1, e⟩ := hlo
      obtain ⟨v2, hv2, e'⟩ := hhi
      rw [← e, ← e', hL v1 hv1, hL v2 hv2]
      exact ⟨b2, b5⟩
  obtain ⟨mn, mx, e, v, v1, v2, v3, v4⟩ := snapSpanR_covers s.frame (y := a.q.y) hd0 hbox.1 hbox.2 (by linarith) (by linarith) b2 b5
  exact ⟨mn, mx, e, v, v1, v2, by linarith, by linarith⟩

/-- The cells that the x range of a row reaches. -/
theorem Aim.Good.range_x (g : a.Good c M) (s : SafeCtx c M) {K : List (V3 ℚ)} (h : a.Kept c ((c.w + c.h + 2) * (M / 2 ^ 20)) K) {lo hi : ℚ}
    (hb : ∀ v ∈ K, lo ≤ v.x ∧ v.x ≤ hi) (hlo : |lo| ≤ 2 * M) (hhi : |hi| ≤ 2 * M) :
    rowOf roundF32 c.fr.turned lo ≤ a.x ∧ (a.x : Int) ≤ rowOf roundF32 c.fr.turned hi := by
  have hM := s.pos
  have hw := s.hw
  have hx := g.hx
  obtain ⟨r, hr, t, hn, ht⟩ := h.1.exists_ge ⟨1, 0, 0, 0⟩
  obtain ⟨r', hr', t', hn', ht'⟩ := h.1.exists_ge ⟨-1, 0, 0, 0⟩
  simp only [Aff.eval] at ht ht'
  have n1 := (abs_le.1 hn.1).1
  have n2 := (abs_le.1 hn'.1).2
  have m1 := (hb r hr).2
  have m2 := (hb r' hr').1
  have hT := s.tol_ge
  rw [show ((c.w : ℚ) + c.h + 7) * (M / 2 ^ 20) = (c.w + c.h + 2) * (M / 2 ^ 20) + 5 * (M / 2 ^ 20) by ring] at hT
  obtain ⟨⟨d1, d2⟩, -⟩ := g.deep
  have hc1 := s.frame.gx.c1
  have hm := abs_le.1 s.frame.gx.hm
  rw [abs_le] at hlo hhi
  generalize ((c.w : ℚ) + c.h + 2) * (M / 2 ^ 20) = d at *
  have hu : 0 < M / 2 ^ 20 := by positivity
  constructor
  · refine rowOf_le (fr := c.fr.turned) s.frame.c0 s.frame.c1 ?_
    change (lo - c.fr.aabb.min.x) * (1 + 1 / 2 ^ 22) + c.fr.cellSize * (1 / 2 ^ 22) < _ * c.fr.cellSize
    norm_num at *
    linarith
  · have hxs : 0 ≤ (a.x : ℚ) * c.fr.cellSize := mul_nonneg (by positivity) s.frame.gx.c0.le
    refine le_rowOf (fr := c.fr.turned) s.frame.c0 s.frame.c1 (by omega) ?_ ?_
    · change c.fr.aabb.min.x ≤ hi
      linarith
    · change (a.x : ℚ) * c.fr.cellSize < (hi - c.fr.aabb.min.x) * (1 - 1 / 2 ^ 22) - c.fr.cellSize * (1 / 2 ^ 22)
      norm_num at *
      linarith

/-- The rows that the triangle reaches. -/
theorem Aim.Good.range_z (g : a.Good c M) (s : SafeCtx c M) {lo hi : ℚ}
    (hb : ∀ v ∈ cornerList c.tri, lo ≤ v.z ∧ v.z ≤ hi) (hlo : |lo| ≤ M) (hhi : |hi| ≤ M) :
    rowOf roundF32 c.fr lo ≤ a.z ∧ (a.z : Int) ≤ rowOf roundF32 c.fr hi := by
  have hM := s.pos
  have hh := s.hh
  have hz := g.hz
  have hsh := shadow_corners g.tri (le_refl 0)
  obtain ⟨r, hr, t, hn, ht⟩ := hsh.exists_ge ⟨0, 0, 1, 0⟩
  obtain ⟨r', hr', t', hn', ht'⟩ := hsh.exists_ge ⟨0, 0, -1, 0⟩
  simp only [Aff.eval] at ht ht'
  have n1 := (abs_le.1 hn.2.2).1
  have n2 := (abs_le.1 hn'.2.2).2
  have m1 := (hb r hr).2
  have m2 := (hb r' hr').1
  have hT := s.tol_ge
  rw [show ((c.w : ℚ) + c.h + 7) * (M / 2 ^ 20) = (c.w + c.h + 2) * (M / 2 ^ 20) + 5 * (M / 2 ^ 20) by ring] at hT
  obtain ⟨-, d1, d2⟩ := g.deep
  have hc1 := s.frame.gz.c1
  have hm := abs_le.1 s.frame.gz.hm
  have hd0 : (0 : ℚ) ≤ (c.w + c.h + 2) * (M / 2 ^ 20) := by positivity
  rw [abs_le] at hlo hhi
  generalize ((c.w : ℚ) + c.h + 2) * (M / 2 ^ 20) = d at *
  have hu : 0 < M / 2 ^ 20 := by positivity
  constructor
  · refine rowOf_le s.frame.c0 s.frame.c1 ?_
    norm_num at *
    linarith
  · have hxs : 0 ≤ (a.z : ℚ) * c.fr.cellSize := mul_nonneg (by positivity) s.frame.gz.c0.le
    refine le_rowOf s.frame.c0 s.frame.c1 (by omega) ?_ ?_
    · linarith
    · norm_num at *
      linarith

/-! ### Cuts in units -/

theorem Aim.Good.keep_rest_x (g : a.Good c M) (s : SafeCtx c M) {k : Int} (h1 : -1 ≤ k) (hk : k < a.x) {R : List (V3 ℚ)} (hR : ∀ v ∈ R, Small (2 * M) v)
    (hf : a.Level c → IsF32 a.q.y) {n : ℚ} (hn : n ≤ c.w + c.h + 1) (h : a.Kept c (n * (M / 2 ^ 20)) R) :
    a.Kept c ((n + 1) * (M / 2 ^ 20)) (keepF2 (sideR roundF32 .X (c.lx k)) (cutR roundF32 .X (c.lx k)) R) := by
  have e : (n + 1) * (M / 2 ^ 20) = n * (M / 2 ^ 20) + 2 * M / 2 ^ 21 := by ring
  refine ⟨?_, fun hl => level_keepF2 (hf hl) (h.2 hl)⟩
  rw [e]
  refine shadow_rest (f32_lx c k) s.tiny hR ?_ h.1
  rw [← e]
  exact g.beyond_x s h1 hk (units_le s.pos (by linarith))

theorem Aim.Good.keep_rest_z (g : a.Good c M) (s : SafeCtx c M) {k : Int} (h1 : -1 ≤ k) (hk : k < a.z) {R : List (V3 ℚ)} (hR : ∀ v ∈ R, Small (2 * M) v)
    (hf : a.Level c → IsF32 a.q.y) {n : ℚ} (hn : n ≤ c.w + c.h + 1) (h : a.Kept c (n * (M / 2 ^ 20)) R) :
    a.Kept c ((n + 1) * (M / 2 ^ 20)) (keepF2 (sideR roundF32 .Z (c.lz k)) (cutR roundF32 .Z (c.lz k)) R) := by
  have e : (n + 1) * (M / 2 ^ 20) = n * (M / 2 ^ 20) + 2 * M / 2 ^ 21 := by ring
  refine ⟨?_, fun hl => level_keepF2 (hf hl) (h.2 hl)⟩
  rw [e]
  refine shadow_rest (f32_lz c k) s.tiny hR ?_ h.1
  rw [← e]
  exact g.beyond_z s h1 hk (units_le s.pos (by linarith))

theorem Aim.Good.keep_piece_x (g : a.Good c M) (s : SafeCtx c M) {R : List (V3 ℚ)} (hR : ∀ v ∈ R, Small (2 * M) v)
    (hf : a.Level c → IsF32 a.q.y) {n : ℚ} (hn : n ≤ c.w + c.h + 1) (h : a.Kept c (n * (M / 2 ^ 20)) R) :
    a.Kept c ((n + 1) * (M / 2 ^ 20)) (keepF1 (sideR roundF32 .X (c.lx a.x)) (cutR roundF32 .X (c.lx a.x)) R) := by
  have e : (n + 1) * (M / 2 ^ 20) = n * (M / 2 ^ 20) + 2 * M / 2 ^ 21 := by ring
  refine ⟨?_, fun hl => level_keepF1 (hf hl) (h.2 hl)⟩
  rw [e]
  refine shadow_piece (f32_lx c _) s.tiny hR ?_ h.1
  rw [← e]
  exact g.before_x s (units_le s.pos (by linarith))

theorem Aim.Good.keep_piece_z (g : a.Good c M) (s : SafeCtx c M) {R : List (V3 ℚ)} (hR : ∀ v ∈ R, Small (2 * M) v)
    (hf : a.Level c → IsF32 a.q.y) {n : ℚ} (hn : n ≤ c.w + c.h + 1) (h : a.Kept c (n * (M / 2 ^ 20)) R) :
    a.Kept c ((n + 1) * (M / 2 ^ 20)) (keepF1 (sideR roundF32 .Z (c.lz a.z)) (cutR roundF32 .Z (c.lz a.z)) R) := by
  have e : (n + 1) * (M / 2 ^ 20) = n * (M / 2 ^ 20) + 2 * M / 2 ^ 21 := by ring
  refine ⟨?_, fun hl => level_keepF1 (hf hl) (h.2 hl)⟩
  rw [e]
  refine shadow_piece (f32_lz c _) s.tiny hR ?_ h.1
  rw [← e]
  exact g.before_z s (units_le s.pos (by linarith))

theorem Aim.Kept.mono {p q : ℚ} {R : List (V3 ℚ)} (hM : 0 < M) (h : a.Kept c (p * (M / 2 ^ 20)) R) (hpq : p ≤ q) : a.Kept c (q * (M / 2 ^ 20)) R :=
  ⟨h.1.mono (units_le hM hpq), h.2⟩

end

end Rerecast
