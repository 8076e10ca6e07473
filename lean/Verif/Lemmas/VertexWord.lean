import Verif.Model.Contour
/-! Bits of contour vertex words. -/
set_option linter.unusedVariables false
namespace Rerecast
theorem bit16 {r : Nat} (h : r < 65536) {i : Nat} (hi : 16 ≤ i) : r.testBit i = false :=
  Nat.testBit_lt_two_pow (Nat.lt_of_lt_of_le h (by calc 65536 = 2^16 := rfl
    _ ≤ 2^i := Nat.pow_le_pow_right (by omega) hi))
theorem mask_bit (i : Nat) : REGION_MASK.testBit i = decide (i < 16) := by
  show (2^16-1).testBit i = _
  exact Nat.testBit_two_pow_sub_one 16 i
theorem bv_bit (i : Nat) : BORDER_VERTEX.testBit i = decide (16 = i) := by
  show (2^16).testBit i = _
  exact Nat.testBit_two_pow
theorem ab_bit (i : Nat) : AREA_BORDER.testBit i = decide (17 = i) := by
  show (2^17).testBit i = _
  exact Nat.testBit_two_pow

theorem vertexWord_bit {r : Nat} (h : r < 65536) (b a : Bool) (i : Nat) :
    (vertexWord r b a).testBit i = (r.testBit i || (b && decide (16 = i)) || (a && decide (17 = i))) := by
  unfold vertexWord regionWord
  cases b <;> cases a <;> simp [Nat.testBit_or, bv_bit, ab_bit]

theorem intersects_two_pow (w k : Nat) : intersects w (2 ^ k) = w.testBit k := by
  unfold intersects
  cases h : w.testBit k with
  | true =>
    apply decide_eq_true
    intro h0
    have := congrArg (·.testBit k) h0
    simp [Nat.testBit_and, h, Nat.testBit_two_pow] at this
  | false =>
    apply decide_eq_false
    rw [Decidable.not_not]
    apply Nat.eq_of_testBit_eq
    intro i
    rw [Nat.testBit_and, Nat.testBit_two_pow]
    by_cases hi : k = i
    · subst hi; simp [h]
    · simp [hi]
theorem intersects_bv (w : Nat) : intersects w BORDER_VERTEX = w.testBit 16 := intersects_two_pow w 16
theorem intersects_ab (w : Nat) : intersects w AREA_BORDER = w.testBit 17 := intersects_two_pow w 17
theorem and_mask (w : Nat) : w &&& REGION_MASK = w % 65536 := Nat.and_two_pow_sub_one_eq_mod w 16
theorem wordRegion_eq (w : Nat) : wordRegion w = .ok (w % 65536) := by
  unfold wordRegion
  simp only [and_mask]
  rw [if_pos (by omega), Nat.mod_mod]
theorem vertexWord_mod {r : Nat} (h : r < 65536) (b a : Bool) : vertexWord r b a % 65536 = r := by
  apply Nat.eq_of_testBit_eq
  intro i
  rw [← and_mask, Nat.testBit_and, vertexWord_bit h, mask_bit]
  by_cases hi : i < 16
  · simp [hi, show ¬ 16 = i by omega, show ¬ 17 = i by omega]
  · simp [hi, bit16 h (by omega : 16 ≤ i)]

theorem finalWord_bit (a b i : Nat) :
    ((a &&& (REGION_MASK ||| AREA_BORDER)) ||| (b &&& BORDER_VERTEX)).testBit i =
      ((a.testBit i && (decide (i < 16) || decide (17 = i))) || (b.testBit i && decide (16 = i))) := by
  simp [Nat.testBit_or, Nat.testBit_and, mask_bit, bv_bit, ab_bit]
theorem finalWord_mod (a b : Nat) :
    ((a &&& (REGION_MASK ||| AREA_BORDER)) ||| (b &&& BORDER_VERTEX)) % 65536 = a % 65536 := by
  apply Nat.eq_of_testBit_eq
  intro i
  rw [← and_mask, Nat.testBit_and, finalWord_bit, mask_bit, ← and_mask a, Nat.testBit_and, mask_bit]
  by_cases hi : i < 16
  · simp [hi, show ¬ 16 = i by omega]
  · simp [hi]

end Rerecast
