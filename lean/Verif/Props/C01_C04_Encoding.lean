import Verif.Model.Math
import Verif.Lemmas.CompactSpan
import Verif.Lemmas.Res
import Verif.Lemmas.VertexWord
/-! C01-C04: packed compact-span word, direction tables, contour vertex words. -/
namespace Rerecast

/-- What a caller may store in a direction slot: `None`, or a layer index 0..=62. -/
def Storable (v : Option Nat) : Prop := ∀ n, v = some n → n ≤ 62

/-- **C01.** Writing a connection slot and reading it back returns what was written; every other slot,
the height, the floor and the region are unchanged.  For every packed word. -/
theorem c01_connection_roundtrip (s : CompactSpan) (d : Nat) (hd : d < 4) (v : Option Nat)
    (hv : Storable v) :
    (s.setCon d v).con d = v ∧
    (∀ d' < 4, d' ≠ d → (s.setCon d v).con d' = s.con d') ∧
    (s.setCon d v).height = s.height ∧
    (s.setCon d v).y = s.y ∧ (s.setCon d v).region = s.region :=
  ⟨con_setCon_same s hd v fun n h => Nat.lt_succ_of_le (hv n h),
   fun _ hd' h => con_setCon_other s hd hd' (Ne.symm h) v, height_setCon s hd v, rfl, rfl⟩

example : ∃ (s : CompactSpan) (d : Nat) (v : Option Nat), d < 4 ∧ Storable v ∧
    v = some 62 ∧ s.con d ≠ v ∧ s.height = 171 :=
  ⟨⟨7, 3, 0xABCDEF01#32⟩, 2, some 62, by decide, by intro n h; cases h; decide, rfl, by decide, by decide⟩

/-- **C01 (read side).** A connection that is read is always a storable layer index. -/
theorem c01_connection_range (s : CompactSpan) (d n : Nat) (h : s.con d = some n) : n ≤ 62 :=
  Nat.le_of_lt_succ (con_lt h)

example : (⟨0, 0, 0x3e#32⟩ : CompactSpan).con 0 = some 62 := by decide

/-- **C02.** Writing a height and reading it back returns it, and nothing else changes. -/
theorem c02_height_roundtrip (s : CompactSpan) (h : Nat) (hh : h ≤ 255) :
    (s.setHeight h).height = h ∧
    (∀ d < 4, (s.setHeight h).con d = s.con d) ∧
    (s.setHeight h).y = s.y ∧ (s.setHeight h).region = s.region :=
  ⟨height_setHeight s hh, fun d hd => con_setHeight s h d hd, rfl, rfl⟩

example : ∃ (s : CompactSpan) (h : Nat), h ≤ 255 ∧ s.height ≠ h ∧ s.con 1 = some 5 :=
  ⟨⟨0, 0, 0xFF00014F#32⟩, 200, by decide, by decide, by decide⟩

/-- **C03 (steps).** Each direction moves exactly one cell along exactly one axis, the four moves are
distinct, and the direction two further on undoes it. -/
theorem c03_directions (d : Nat) (hd : d < 4) :
    (dirOffsetX d).natAbs + (dirOffsetZ d).natAbs = 1 ∧
    dirOffsetX ((d + 2) % 4) = -dirOffsetX d ∧ dirOffsetZ ((d + 2) % 4) = -dirOffsetZ d ∧
    (∀ d' < 4, dirOffsetX d' = dirOffsetX d → dirOffsetZ d' = dirOffsetZ d → d' = d) := by
  have : ∀ d : Fin 4, (dirOffsetX d).natAbs + (dirOffsetZ d).natAbs = 1 ∧
    dirOffsetX ((d + 2) % 4) = -dirOffsetX d ∧ dirOffsetZ ((d + 2) % 4) = -dirOffsetZ d ∧
    (∀ d' : Fin 4, dirOffsetX d' = dirOffsetX d → dirOffsetZ d' = dirOffsetZ d → d' = d) := by decide
  obtain ⟨h1, h2, h3, h4⟩ := this ⟨d, hd⟩
  refine ⟨h1, h2, h3, fun d' hd' hx hz => ?_⟩
  have := h4 ⟨d', hd'⟩ hx hz
  exact congrArg Fin.val this

/-- **C03 (documented offsets).** Direction 0 is (-1,0), 1 is (0,1), 2 is (1,0), 3 is (0,-1), as the
`CompactHeightfield` documentation states (compact_heightfield.rs:21-26). -/
theorem c03_documented_offsets :
    (dirOffsetX 0, dirOffsetZ 0) = (-1, 0) ∧ (dirOffsetX 1, dirOffsetZ 1) = (0, 1) ∧
    (dirOffsetX 2, dirOffsetZ 2) = (1, 0) ∧ (dirOffsetX 3, dirOffsetZ 3) = (0, -1) := by decide

/-- **C03 (lookup).** Looking up the direction of a direction's own offset returns that direction. -/
theorem c03_lookup_inverse (d : Nat) (hd : d < 4) :
    dirOffset (dirOffsetX d) (dirOffsetZ d) = .ok (d : Int) := by
  have : ∀ d : Fin 4, dirOffset (dirOffsetX d) (dirOffsetZ d) = .ok (d.val : Int) := by decide
  exact this ⟨d, hd⟩

example : dirOffset (dirOffsetX 3) (dirOffsetZ 3) = .ok 3 := by decide

/-- **C03 (cyclic indices).** On every cycle length `n ≥ 1` and index `i < n`, `next` and `prev` stay in
range and undo each other. -/
theorem c03_next_prev (i n : Nat) (hi : i < n) :
    ∃ a b, nextIdx i n = .ok a ∧ prevIdx i n = .ok b ∧ a < n ∧ b < n ∧
      prevIdx a n = .ok i ∧ nextIdx b n = .ok i ∧
      (a = i + 1 ∨ i = n - 1 ∧ a = 0) ∧ (i = b + 1 ∨ i = 0 ∧ b = n - 1) := by
  have hn : n ≠ 0 := by omega
  refine ⟨(i + 1) % n, (i + n - 1) % n, by simp [nextIdx, hn], by simp [prevIdx, hn],
    Nat.mod_lt _ (by omega), Nat.mod_lt _ (by omega), ?_, ?_, ?_, ?_⟩
  · simp only [prevIdx, hn, if_false]
    congr 1
    by_cases h : i + 1 = n
    · rw [h, Nat.mod_self, Nat.zero_add, Nat.mod_eq_of_lt (by omega)]; omega
    · rw [Nat.mod_eq_of_lt (show i + 1 < n by omega), show i + 1 + n - 1 = i + n by omega,
        Nat.add_mod_right, Nat.mod_eq_of_lt hi]
  · simp only [nextIdx, hn, if_false]
    congr 1
    by_cases h : i = 0
    · subst h; rw [Nat.zero_add, Nat.mod_eq_of_lt (show n - 1 < n by omega),
        show n - 1 + 1 = n by omega, Nat.mod_self]
    · rw [show i + n - 1 = (i - 1) + n by omega, Nat.add_mod_right,
        Nat.mod_eq_of_lt (show i - 1 < n by omega), show i - 1 + 1 = i by omega,
        Nat.mod_eq_of_lt hi]
  · by_cases h : i + 1 = n
    · right; exact ⟨by omega, by rw [h, Nat.mod_self]⟩
    · left; exact Nat.mod_eq_of_lt (by omega)
  · by_cases h : i = 0
    · right; subst h; exact ⟨rfl, by rw [Nat.zero_add]; exact Nat.mod_eq_of_lt (by omega)⟩
    · left; rw [show i + n - 1 = (i - 1) + n by omega, Nat.add_mod_right,
        Nat.mod_eq_of_lt (show i - 1 < n by omega)]; omega

example : nextIdx 4 5 = .ok 0 ∧ prevIdx 0 5 = .ok 4 := by decide

/-- **C04 (raw contour vertices).** The word of a raw contour vertex holds the region id and the two flags without
interference: each is read back as written, and the word fits in 32 bits. -/
theorem c04_vertex_word (region : Nat) (h : region < 65536) (borderVertex areaBorder : Bool) :
    wordRegion (vertexWord region borderVertex areaBorder) = .ok region ∧
    intersects (vertexWord region borderVertex areaBorder) BORDER_VERTEX = borderVertex ∧
    intersects (vertexWord region borderVertex areaBorder) AREA_BORDER = areaBorder ∧
    vertexWord region borderVertex areaBorder < 2 ^ 32 := by
  refine ⟨by rw [wordRegion_eq, vertexWord_mod h], ?_, ?_, ?_⟩
  · rw [intersects_bv, vertexWord_bit h, bit16 h (by omega)]; simp
  · rw [intersects_ab, vertexWord_bit h, bit16 h (by omega)]; simp
  · apply Nat.lt_pow_two_of_testBit
    intro i hi
    rw [vertexWord_bit h, bit16 h (by omega)]
    simp [show ¬ 16 = i by omega, show ¬ 17 = i by omega]

/-- **C04 (simplified contour vertices).** The word of a simplified vertex holds the region id and the area-border flag of
the next raw vertex and the border-vertex flag of its own raw vertex, and nothing else. -/
theorem c04_final_word (points : RawContour) (i : Nat) (p q : U16Vec3 × Nat) (hp : points[i]? = some p)
    (hq : points[(i + 1) % points.length]? = some q) : ∃ w, finalWord points i = .ok w ∧
      wordRegion w = wordRegion q.2 ∧ intersects w AREA_BORDER = intersects q.2 AREA_BORDER ∧
      intersects w BORDER_VERTEX = intersects p.2 BORDER_VERTEX ∧ w < 2 ^ 18 := by
  refine ⟨(q.2 &&& (REGION_MASK ||| AREA_BORDER)) ||| (p.2 &&& BORDER_VERTEX),
    by simp only [finalWord, idx_some hq, bind_ok, idx_some hp], ?_, ?_, ?_, ?_⟩
  · rw [wordRegion_eq, wordRegion_eq, finalWord_mod]
  · rw [intersects_ab, intersects_ab, finalWord_bit]; simp
  · rw [intersects_bv, intersects_bv, finalWord_bit]; simp
  · apply Nat.lt_pow_two_of_testBit
    intro i hi
    rw [finalWord_bit]
    simp [show ¬ 16 = i by omega, show ¬ 17 = i by omega, show ¬ i < 16 by omega]

example : vertexWord 0xFFFF true true = 0x3FFFF ∧ vertexWord 5 false true = 0x20005 ∧
    finalWord [(⟨0, 0, 0⟩, vertexWord 7 true true), (⟨1, 0, 0⟩, vertexWord 9 false true)] 0 = .ok 0x30009 := by
  decide

end Rerecast
