import Verif.Model.CompactSpan
/-! Bit-level lemmas about the packed `u32` of a compact span. -/
namespace Rerecast

theorem mask63_bit (i : Nat) : (63#32).getLsbD i = decide (i < 6) := by
  by_cases h : i < 32
  · have : ∀ j : Fin 32, (63#32).getLsbD j.val = decide (j.val < 6) := by decide
    exact this ⟨i, h⟩
  · have : ¬ i < 6 := by omega
    rw [BitVec.getLsbD_of_ge _ _ (by omega)]; simp [this]

theorem maskLow24_bit (i : Nat) : (0xFFFFFF#32).getLsbD i = decide (i < 24) := by
  by_cases h : i < 32
  · have : ∀ j : Fin 32, (0xFFFFFF#32).getLsbD j.val = decide (j.val < 24) := by decide
    exact this ⟨i, h⟩
  · have : ¬ i < 24 := by omega
    rw [BitVec.getLsbD_of_ge _ _ (by omega)]; simp [this]

/-- The six-bit slot at bit offset `k`. -/
def slot (w : BitVec 32) (k : Nat) : BitVec 32 := (w >>> k) &&& 63#32

theorem slot_bit (w : BitVec 32) (k i : Nat) :
    (slot w k).getLsbD i = (w.getLsbD (k + i) && decide (i < 6)) := by
  simp [slot, BitVec.getLsbD_and, BitVec.getLsbD_ushiftRight, mask63_bit]

/-- The word after writing `v` at slot `k`. -/
def putSlot (w : BitVec 32) (k : Nat) (v : BitVec 32) : BitVec 32 :=
  (w &&& ~~~(63#32 <<< k)) ||| ((v &&& 63#32) <<< k)

theorem putSlot_bit (w v : BitVec 32) (k i : Nat) (hi : i < 32) :
    (putSlot w k v).getLsbD i =
      if k ≤ i ∧ i < k + 6 then v.getLsbD (i - k) else w.getLsbD i := by
  simp only [putSlot, BitVec.getLsbD_or, BitVec.getLsbD_and, BitVec.getLsbD_not,
    BitVec.getLsbD_shiftLeft, mask63_bit, hi, decide_true, Bool.true_and]
  by_cases h1 : i < k
  · have : ¬ (k ≤ i ∧ i < k + 6) := by omega
    simp [h1, this]
  · by_cases h2 : i < k + 6
    · have h3 : i - k < 6 := by omega
      have h4 : k ≤ i ∧ i < k + 6 := by omega
      simp [h1, h3, h4]
    · have h3 : ¬ i - k < 6 := by omega
      have h4 : ¬ (k ≤ i ∧ i < k + 6) := by omega
      simp [h1, h3, h4]

theorem slot_putSlot_same (w v : BitVec 32) (k : Nat) (hk : k + 6 ≤ 32) :
    slot (putSlot w k v) k = v &&& 63#32 := by
  apply BitVec.eq_of_getLsbD_eq
  intro i hi
  rw [slot_bit, BitVec.getLsbD_and, mask63_bit]
  by_cases h : i < 6
  · rw [putSlot_bit _ _ _ _ (by omega)]
    simp [h]
  · simp [h]

theorem slot_putSlot_other (w v : BitVec 32) (k k' : Nat) (hk' : k' + 6 ≤ 32)
    (hd : k' + 6 ≤ k ∨ k + 6 ≤ k') : slot (putSlot w k v) k' = slot w k' := by
  apply BitVec.eq_of_getLsbD_eq
  intro i hi
  rw [slot_bit, slot_bit]
  by_cases h : i < 6
  · rw [putSlot_bit _ _ _ _ (by omega)]
    have : ¬ (k ≤ k' + i ∧ k' + i < k + 6) := by omega
    simp [h, this]
  · simp [h]

theorem setCon_data (s : CompactSpan) (d : Nat) (v : Option Nat) :
    (s.setCon d v).data = putSlot s.data (d * 6) (BitVec.ofNat 32 (v.getD 63)) := rfl

theorem con_eq (s : CompactSpan) (d : Nat) :
    s.con d = if (slot s.data (d * 6)).toNat = 63 then none
      else some (slot s.data (d * 6)).toNat := rfl

theorem slot_lt (w : BitVec 32) (k : Nat) : (slot w k).toNat < 64 := by
  unfold slot
  rw [BitVec.toNat_and]
  exact Nat.lt_succ_of_le Nat.and_le_right

theorem con_lt {s : CompactSpan} {d n : Nat} (h : s.con d = some n) : n < 63 := by
  rw [con_eq] at h
  have := slot_lt s.data (d * 6)
  split at h
  · cases h
  · cases h; omega

theorem con_setCon_same (s : CompactSpan) {d : Nat} (hd : d < 4) (v : Option Nat)
    (hv : ∀ n, v = some n → n < 63) : (s.setCon d v).con d = v := by
  rw [con_eq, setCon_data, slot_putSlot_same _ _ _ (by omega)]
  cases v with
  | none => simp
  | some n =>
    have hn := hv n rfl
    have : (BitVec.ofNat 32 ((some n).getD 63) &&& 63#32).toNat = n := by
      rw [BitVec.toNat_and, BitVec.toNat_ofNat]
      simp only [Option.getD_some]
      rw [show (63#32).toNat = 2 ^ 6 - 1 from rfl, Nat.and_two_pow_sub_one_eq_mod]
      omega
    rw [this]
    simp; omega

theorem con_setCon_other (s : CompactSpan) {d d' : Nat} (hd : d < 4) (hd' : d' < 4) (h : d ≠ d')
    (v : Option Nat) : (s.setCon d v).con d' = s.con d' := by
  rw [con_eq, con_eq, setCon_data, slot_putSlot_other _ _ _ _ (by omega) (by omega)]

theorem height_bit (s : CompactSpan) : s.height = ((s.data >>> 24).setWidth 8).toNat := rfl

theorem height_setCon (s : CompactSpan) {d : Nat} (hd : d < 4) (v : Option Nat) :
    (s.setCon d v).height = s.height := by
  unfold CompactSpan.height
  congr 1
  apply BitVec.eq_of_getLsbD_eq
  intro i hi
  simp only [BitVec.getLsbD_setWidth, BitVec.getLsbD_ushiftRight, hi, decide_true, Bool.true_and]
  rw [setCon_data, putSlot_bit _ _ _ _ (by omega)]
  have : ¬ (d * 6 ≤ 24 + i ∧ 24 + i < d * 6 + 6) := by omega
  simp [this]

theorem height_setHeight (s : CompactSpan) {h : Nat} (hh : h ≤ 255) : (s.setHeight h).height = h := by
  unfold CompactSpan.height CompactSpan.setHeight
  have : (((s.data &&& 0x00FFFFFF#32) ||| (BitVec.ofNat 32 h <<< 24)) >>> 24).setWidth 8
      = BitVec.ofNat 8 h := by
    apply BitVec.eq_of_getLsbD_eq
    intro i hi
    simp only [BitVec.getLsbD_setWidth, BitVec.getLsbD_ushiftRight, BitVec.getLsbD_or,
      BitVec.getLsbD_and, BitVec.getLsbD_shiftLeft, maskLow24_bit, hi, decide_true, Bool.true_and]
    have h1 : 24 + i < 32 := by omega
    have h2 : ¬ (24 + i < 24) := by omega
    simp [h1, h2, BitVec.getElem_eq_testBit_toNat, hi, show i < 32 by omega, show (8:Nat) ≤ 32 by omega, Nat.testBit_mod_two_pow (j := 32), Nat.testBit_mod_two_pow (j := 8)]
  show BitVec.toNat _ = h
  rw [this, BitVec.toNat_ofNat]
  omega

theorem con_setHeight (s : CompactSpan) (h d : Nat) (hd : d < 4) : (s.setHeight h).con d = s.con d := by
  rw [con_eq, con_eq]
  have : slot (s.setHeight h).data (d * 6) = slot s.data (d * 6) := by
    apply BitVec.eq_of_getLsbD_eq
    intro i hi
    rw [slot_bit, slot_bit]
    by_cases h6 : i < 6
    · have h1 : d * 6 + i < 24 := by omega
      have h2 : d * 6 + i < 32 := by omega
      simp [CompactSpan.setHeight, maskLow24_bit, h1]
    · simp [h6]
  rw [this]

theorem height_le (s : CompactSpan) : s.height ≤ 255 := by
  unfold CompactSpan.height
  have := ((s.data >>> 24).setWidth 8).isLt
  omega

end Rerecast
