import Verif.Lemmas.Jordan6
import Verif.Lemmas.EarConvex
/-! What the tests of the triangulation say about a contour that does not touch itself. -/
namespace Rerecast.Jordan
open List

/-- The place of a vertex, with the axes such that contours go around to the left. -/
def pt (v : U16Vec3) : Point := ((v.z : Rat), (v.x : Rat))

theorem turn_pt (a b c : U16Vec3) : turn (pt a) (pt b) (pt c) = -(cross a b c : Rat) := by
  unfold turn pt cross
  push_cast
  ring

theorem pt_xz {a b : U16Vec3} : pt a = pt b ↔ a.xz = b.xz := by
  unfold pt U16Vec3.xz
  rw [Prod.mk.injEq, Prod.mk.injEq, Nat.cast_inj, Nat.cast_inj]
  exact and_comm

theorem cross_neg {a b c : U16Vec3} : cross a b c < 0 ↔ 0 < turn (pt a) (pt b) (pt c) := by
  rw [turn_pt, neg_pos, ← Int.cast_zero (R := Rat), Int.cast_lt]
theorem cross_le {a b c : U16Vec3} : cross a b c ≤ 0 ↔ 0 ≤ turn (pt a) (pt b) (pt c) := by
  rw [turn_pt, neg_nonneg, ← Int.cast_zero (R := Rat), Int.cast_le]
theorem cross_zero {a b c : U16Vec3} : cross a b c = 0 ↔ turn (pt a) (pt b) (pt c) = 0 := by
  rw [turn_pt, neg_eq_zero, ← Int.cast_zero (R := Rat), Int.cast_inj]

theorem between1 {a b c t : Rat} (hne : a ≠ b) (e : c = a + t * (b - a)) : ((a ≤ c ∧ c ≤ b) ∨ (a ≥ c ∧ c ≥ b)) ↔ (0 ≤ t ∧ t ≤ 1) := by
  rcases lt_or_gt_of_ne hne with h | h
  · have hd : 0 < b - a := by linarith
    constructor
    · rintro (⟨h1, h2⟩ | ⟨h1, h2⟩)
      · have k1 : 0 ≤ t * (b - a) := by linarith
        have k2 : 0 ≤ (1 - t) * (b - a) := by linarith
        exact ⟨nonneg_of_mul_nonneg_left k1 hd, by linarith [nonneg_of_mul_nonneg_left k2 hd]⟩
      · linarith
    · rintro ⟨h1, h2⟩
      left
      have := mul_nonneg h1 hd.le
      have := mul_nonneg (by linarith : 0 ≤ 1 - t) hd.le
      constructor <;> linarith
  · have hd : 0 < a - b := by linarith
    constructor
    · rintro (⟨h1, h2⟩ | ⟨h1, h2⟩)
      · linarith
      · have k1 : 0 ≤ t * (a - b) := by linarith
        have k2 : 0 ≤ (1 - t) * (a - b) := by linarith
        exact ⟨nonneg_of_mul_nonneg_left k1 hd, by linarith [nonneg_of_mul_nonneg_left k2 hd]⟩
    · rintro ⟨h1, h2⟩
      right
      have := mul_nonneg h1 hd.le
      have := mul_nonneg (by linarith : 0 ≤ 1 - t) hd.le
      constructor <;> linarith

theorem between_iff {a b c : U16Vec3} (hne : pt a ≠ pt b) : betweenB a b c = true ↔ OnSeg (pt c) (pt a, pt b) := by
  have hcast : ∀ p q r : Nat, ((p ≤ q ∧ q ≤ r) ∨ (p ≥ q ∧ q ≥ r)) ↔ (((p : Rat) ≤ q ∧ (q : Rat) ≤ r) ∨ ((p : Rat) ≥ q ∧ (q : Rat) ≥ r)) := by
    intro p q r
    simp only [ge_iff_le, Nat.cast_le]
  have key : ∀ t : Rat, (pt c).1 = (pt a).1 + t * ((pt b).1 - (pt a).1) → (pt c).2 = (pt a).2 + t * ((pt b).2 - (pt a).2) →
      ((if a.x ≠ b.x then decide ((a.x ≤ c.x ∧ c.x ≤ b.x) ∨ (a.x ≥ c.x ∧ c.x ≥ b.x)) else decide ((a.z ≤ c.z ∧ c.z ≤ b.z) ∨ (a.z ≥ c.z ∧ c.z ≥ b.z))) = true ↔ (0 ≤ t ∧ t ≤ 1)) := by
    intro t e1 e2
    by_cases hx : a.x = b.x
    · rw [if_neg (by simpa using hx), decide_eq_true_eq, hcast]
      have hz : (a.z : Rat) ≠ b.z := by
        intro hz
        apply hne
        unfold pt
        rw [hz, hx]
      exact between1 hz e1
    · rw [if_pos hx, decide_eq_true_eq, hcast]
      exact between1 (by exact_mod_cast hx) e2
  unfold betweenB
  rw [Bool.and_eq_true, decide_eq_true_eq, cross_zero]
  constructor
  · rintro ⟨h0, h⟩
    obtain ⟨t, e1, e2⟩ := on_line hne h0
    obtain ⟨t0, t1⟩ := (key t e1 e2).1 h
    exact ⟨t, t0, t1, e1, e2⟩
  · rintro ⟨t, t0, t1, e1, e2⟩
    refine ⟨?_, (key t e1 e2).2 ⟨t0, t1⟩⟩
    unfold turn
    dsimp only at e1 e2
    rw [e1, e2]
    ring

theorem pos_right {s x : Rat} (h : 0 < s * x) (hs : 0 < s) : 0 < x := (pos_iff_pos_of_mul_pos h).1 hs

theorem seg_turn {a b c d p : Point} {s : Rat} (e1 : p.1 = c.1 + s * (d.1 - c.1)) (e2 : p.2 = c.2 + s * (d.2 - c.2)) : turn a b p = (1 - s) * turn a b c + s * turn a b d := by
  unfold turn; rw [e1, e2]; ring

/-- Two segments on one line with a common point: an end of one is on the other. -/
theorem common_line {a b c d p : Point} (hab : a ≠ b) (h1 : turn a b c = 0) (h2 : turn a b d = 0) (hp : OnSeg p (a, b)) (hq : OnSeg p (c, d)) :
    OnSeg c (a, b) ∨ OnSeg d (a, b) ∨ OnSeg a (c, d) := by
  obtain ⟨u, c1, c2⟩ := on_line hab h1
  obtain ⟨v, d1, d2⟩ := on_line hab h2
  obtain ⟨t, t0, t1, e1, e2⟩ := hp
  obtain ⟨s, s0, s1, f1, f2⟩ := hq
  dsimp only at e1 e2 f1 f2
  have hN := norm_pos hab
  have ht : t = (1 - s) * u + s * v := by
    have g1 : (t - ((1 - s) * u + s * v)) * (b.1 - a.1) = 0 := by rw [c1, d1] at f1; linarith
    have g2 : (t - ((1 - s) * u + s * v)) * (b.2 - a.2) = 0 := by rw [c2, d2] at f2; linarith
    by_contra hn
    have hn' : t - ((1 - s) * u + s * v) ≠ 0 := sub_ne_zero.2 hn
    exact hab (Prod.ext (by linarith [(mul_eq_zero.1 g1).resolve_left hn']) (by linarith [(mul_eq_zero.1 g2).resolve_left hn']))
  by_cases hu : 0 ≤ u ∧ u ≤ 1
  · exact Or.inl ⟨u, hu.1, hu.2, c1, c2⟩
  by_cases hv : 0 ≤ v ∧ v ≤ 1
  · exact Or.inr (Or.inl ⟨v, hv.1, hv.2, d1, d2⟩)
  right; right
  have hs' : 0 ≤ 1 - s := by linarith
  have huv : (u < 0 ∧ 0 < v) ∨ (0 < u ∧ v < 0) := by
    rcases lt_or_ge u 0 with h | h
    · left
      refine ⟨h, ?_⟩
      by_contra hn
      have : v < 0 := by
        rcases lt_or_eq_of_le (not_lt.1 hn) with k | k
        · exact k
        · exact absurd ⟨k.ge, by linarith⟩ hv
      have w1 := mul_nonneg hs' (neg_nonneg.2 (le_of_lt h))
      have w2 := mul_nonneg s0 (neg_nonneg.2 (le_of_lt this))
      have t00 : t = 0 := by linarith
      rcases lt_or_eq_of_le s0 with k | k
      · have := mul_pos k (neg_pos.2 ‹v < 0›); linarith
      · rw [← k] at ht; linarith
    · right
      have hu1 : 1 < u := by
        by_contra hn; exact hu ⟨h, by linarith⟩
      refine ⟨by linarith, ?_⟩
      by_contra hn
      have hv1 : 1 < v := by
        by_contra hn'; exact hv ⟨by linarith, by linarith⟩
      have k1 := mul_nonneg hs' (by linarith : 0 ≤ u - 1)
      have k2 := mul_nonneg s0 (by linarith : 0 ≤ v - 1)
      rcases lt_or_eq_of_le s0 with k | k
      · have := mul_pos k (by linarith : 0 < v - 1); linarith
      · rw [← k] at ht; linarith
  have hne : v - u ≠ 0 := by rcases huv with h | h <;> intro h0 <;> linarith [h.1, h.2]
  have hr : 0 ≤ (-u) / (v - u) ∧ (-u) / (v - u) ≤ 1 := by
    rcases huv with ⟨k1, k2⟩ | ⟨k1, k2⟩
    · exact ⟨div_nonneg (by linarith) (by linarith), by rw [div_le_one (by linarith)]; linarith⟩
    · exact ⟨div_nonneg_of_nonpos (by linarith) (by linarith), by rw [div_le_one_of_neg (by linarith)]; linarith⟩
  refine ⟨(-u) / (v - u), hr.1, hr.2, ?_, ?_⟩
  · dsimp only; rw [c1, d1]; field_simp; ring
  · dsimp only; rw [c2, d2]; field_simp; ring

/-- Half of the test: the ends of one segment are on different sides of the other, or one of them is on it. -/
theorem common_half {a b c d p : Point} (hab : a ≠ b) (hp : OnSeg p (a, b)) (hq : OnSeg p (c, d)) (n1 : ¬ OnSeg c (a, b)) (n2 : ¬ OnSeg d (a, b)) (n3 : ¬ OnSeg a (c, d)) :
    (0 < turn a b c ∧ turn a b d < 0) ∨ (turn a b c < 0 ∧ 0 < turn a b d) := by
  have hz : turn a b p = 0 := by
    obtain ⟨t, _, _, e1, e2⟩ := hp
    dsimp only at e1 e2
    unfold turn; rw [e1, e2]; ring
  obtain ⟨s, s0, s1, f1, f2⟩ := id hq
  dsimp only at f1 f2
  rw [seg_turn f1 f2] at hz
  have hs0 : 0 < s := by
    rcases lt_or_eq_of_le s0 with h | h
    · exact h
    · exfalso; apply n1
      have : p = c := by rw [← h] at f1 f2; exact Prod.ext (by linarith) (by linarith)
      rw [← this]; exact hp
  have hs1 : 0 < 1 - s := by
    rcases lt_or_eq_of_le s1 with h | h
    · linarith
    · exfalso; apply n2
      have : p = d := by rw [h] at f1 f2; exact Prod.ext (by linarith) (by linarith)
      rw [← this]; exact hp
  rcases lt_trichotomy (turn a b c) 0 with h | h | h
  · right; refine ⟨h, ?_⟩
    have := mul_pos hs1 (neg_pos.2 h)
    exact pos_right (by linarith : 0 < s * turn a b d) hs0
  · exfalso
    have h2 : turn a b d = 0 := by
      rw [h, mul_zero, zero_add] at hz
      exact (mul_eq_zero.1 hz).resolve_left (ne_of_gt hs0)
    rcases common_line hab h h2 hp hq with k | k | k
    · exact n1 k
    · exact n2 k
    · exact n3 k
  · left; refine ⟨h, ?_⟩
    have := mul_pos hs1 h
    have k : 0 < s * (-turn a b d) := by linarith
    linarith [pos_right k hs0]

/-- The test of the program is exact: two segments meet or not. -/
theorem intersect_iff {a b c d : U16Vec3} (hab : pt a ≠ pt b) (hcd : pt c ≠ pt d) :
    intersectB a b c d = true ↔ ∃ p, OnSeg p (pt a, pt b) ∧ OnSeg p (pt c, pt d) := by
  unfold intersectB
  simp only [Bool.or_eq_true, between_iff hab, between_iff hcd]
  constructor
  · rintro (h | h | h | h | h)
    · unfold intersectPropB at h
      split at h
      · exact absurd h (by simp)
      · rename_i hz
        simp only [Bool.or_eq_true, decide_eq_true_eq, not_or] at hz
        obtain ⟨z1, z2, z3, z4⟩ := hz
        rw [Bool.and_eq_true, bne_iff_ne, bne_iff_ne, ne_eq, ne_eq, decide_eq_decide, decide_eq_decide, cross_neg, cross_neg, cross_neg, cross_neg] at h
        rw [cross_zero] at z1 z2 z3 z4
        have opp : ∀ x y : Rat, x ≠ 0 → y ≠ 0 → ¬ (0 < x ↔ 0 < y) → x * y ≤ 0 ∧ x ≠ y := by
          intro x y hx hy hh
          rcases lt_or_gt_of_ne hx with h1 | h1 <;> rcases lt_or_gt_of_ne hy with h2 | h2
          · exact absurd ⟨fun h => by linarith, fun h => by linarith⟩ hh
          · exact ⟨mul_nonpos_of_nonpos_of_nonneg h1.le h2.le, by intro e; linarith⟩
          · exact ⟨mul_nonpos_of_nonneg_of_nonpos h1.le h2.le, by intro e; linarith⟩
          · exact absurd ⟨fun _ => h2, fun _ => h1⟩ hh
        exact common_point (opp _ _ z1 z2 h.1).1 (opp _ _ z3 z4 h.2).1 (opp _ _ z1 z2 h.1).2
    · exact ⟨_, h, onSeg_fst (pt c, pt d)⟩
    · exact ⟨_, h, onSeg_snd (pt c, pt d)⟩
    · exact ⟨_, onSeg_fst (pt a, pt b), h⟩
    · exact ⟨_, onSeg_snd (pt a, pt b), h⟩
  · rintro ⟨p, hp, hq⟩
    by_cases n1 : OnSeg (pt c) (pt a, pt b)
    · exact Or.inr (Or.inl n1)
    by_cases n2 : OnSeg (pt d) (pt a, pt b)
    · exact Or.inr (Or.inr (Or.inl n2))
    by_cases n3 : OnSeg (pt a) (pt c, pt d)
    · exact Or.inr (Or.inr (Or.inr (Or.inl n3)))
    by_cases n4 : OnSeg (pt b) (pt c, pt d)
    · exact Or.inr (Or.inr (Or.inr (Or.inr n4)))
    left
    have k1 := common_half hab hp hq n1 n2 n3
    have k2 := common_half hcd hq hp n3 n4 n1
    unfold intersectPropB
    rw [if_neg]
    · rw [Bool.and_eq_true, bne_iff_ne, bne_iff_ne, ne_eq, ne_eq, decide_eq_decide, decide_eq_decide, cross_neg, cross_neg, cross_neg, cross_neg]
      constructor
      · rcases k1 with k | k
        · intro h; linarith [h.1 k.1, k.2]
        · intro h; linarith [h.2 k.2, k.1]
      · rcases k2 with k | k
        · intro h; linarith [h.1 k.1, k.2]
        · intro h; linarith [h.2 k.2, k.1]
    · simp only [Bool.or_eq_true, decide_eq_true_eq, cross_zero, not_or]
      refine ⟨?_, ?_, ?_, ?_⟩ <;> intro h
      · rcases k1 with k | k <;> linarith [k.1, k.2]
      · rcases k1 with k | k <;> linarith [k.1, k.2]
      · rcases k2 with k | k <;> linarith [k.1, k.2]
      · rcases k2 with k | k <;> linarith [k.1, k.2]

/-- The places of the ring. -/
def pts (verts : List U16Vec3) (ps : Ring) : List Point := ps.map fun p => pt (verts.getD p.1 ⟨0, 0, 0⟩)

theorem pts_length (verts : List U16Vec3) (ps : Ring) : (pts verts ps).length = ps.length := by simp [pts]

theorem pts_get {verts : List U16Vec3} {ps : Ring} {i : Nat} (hi : i < ps.length) : (pts verts ps)[i]'(by rw [pts_length]; exact hi) = pt (ringAt verts ps i) := by
  unfold pts ringAt
  simp [List.getD_eq_getElem?_getD, hi]

theorem side_at {verts : List U16Vec3} {ps : Ring} {i : Nat} (hi : i < ps.length) : (pt (ringAt verts ps i), pt (ringAt verts ps ((i + 1) % ps.length))) ∈ sides (pts verts ps) := by
  have h := sides_getElem? (pts verts ps) i (by rw [pts_length]; exact hi)
  have hm : (i + 1) % ps.length < ps.length := Nat.mod_lt _ (by omega)
  simp only [pts_length, pts_get hi, pts_get hm] at h
  exact List.mem_of_getElem? h

theorem at_side {verts : List U16Vec3} {ps : Ring} {e : Point × Point} (h : e ∈ sides (pts verts ps)) :
    ∃ i, i < ps.length ∧ e = (pt (ringAt verts ps i), pt (ringAt verts ps ((i + 1) % ps.length))) := by
  obtain ⟨i, hi⟩ := List.mem_iff_getElem?.1 h
  have hl : i < ps.length := by
    have := (List.getElem?_eq_some_iff.1 hi).1
    have e : (sides (pts verts ps)).length = ps.length := by rw [sides_length, pts_length]
    omega
  refine ⟨i, hl, ?_⟩
  have h := sides_getElem? (pts verts ps) i (by rw [pts_length]; exact hl)
  have hm : (i + 1) % ps.length < ps.length := Nat.mod_lt _ (by omega)
  simp only [pts_length, pts_get hl, pts_get hm] at h
  rw [hi] at h
  exact Option.some.inj h

theorem pt_inj {verts : List U16Vec3} {ps : Ring} (hn : (pts verts ps).Nodup) {i j : Nat} (hi : i < ps.length) (hj : j < ps.length)
    (h : pt (ringAt verts ps i) = pt (ringAt verts ps j)) : i = j := by
  rw [← pts_get hi, ← pts_get hj] at h
  exact (List.Nodup.getElem_inj_iff hn).1 h

/-- The test of the program for cutting off the corner after position `i`. -/
theorem isDiagonalB_iff {verts : List U16Vec3} {ps : Ring} (S : SimplePolygon (pts verts ps)) (hl : 4 ≤ ps.length) {i : Nat} (hi : i < ps.length) :
    isDiagonalB verts ps i (((i + 1) % ps.length + 1) % ps.length) = true ↔
      Accept (pts verts ps) (pt (ringAt verts ps i)) (pt (ringAt verts ps ((i + 1) % ps.length))) (pt (ringAt verts ps (((i + 1) % ps.length + 1) % ps.length))) := by
  have h0 : 0 < ps.length := by omega
  have hi1 : (i + 1) % ps.length < ps.length := Nat.mod_lt _ h0
  have hi2 : ((i + 1) % ps.length + 1) % ps.length < ps.length := Nat.mod_lt _ h0
  have hip : (i + ps.length - 1) % ps.length < ps.length := Nat.mod_lt _ h0
  have s1 := side_at (verts := verts) hi
  have s2 := side_at (verts := verts) hi1
  have s0 := side_at (verts := verts) hip
  have ep : ((i + ps.length - 1) % ps.length + 1) % ps.length = i := by
    rw [Nat.mod_add_mod, show i + ps.length - 1 + 1 = i + ps.length by omega, Nat.add_mod_right, Nat.mod_eq_of_lt hi]
  rw [ep] at s0
  have hdiag : diagonalFreeB intersectB verts ps i (((i + 1) % ps.length + 1) % ps.length) = true ↔
      ∀ f ∈ sides (pts verts ps), f.1 ≠ pt (ringAt verts ps i) → f.2 ≠ pt (ringAt verts ps i) → f.1 ≠ pt (ringAt verts ps (((i + 1) % ps.length + 1) % ps.length)) →
        f.2 ≠ pt (ringAt verts ps (((i + 1) % ps.length + 1) % ps.length)) →
        ∀ p, OnSeg p (pt (ringAt verts ps i), pt (ringAt verts ps (((i + 1) % ps.length + 1) % ps.length))) → ¬ OnSeg p f := by
    have hac : pt (ringAt verts ps i) ≠ pt (ringAt verts ps (((i + 1) % ps.length + 1) % ps.length)) := corner_ne S s1 s2
    generalize ((i + 1) % ps.length + 1) % ps.length = j at *
    unfold diagonalFreeB
    rw [List.all_eq_true]
    constructor
    · intro h f hf n1 n2 n3 n4 p hp hq
      obtain ⟨k, hk, rfl⟩ := at_side hf
      dsimp only at n1 n2 n3 n4
      have := h k (by simpa using hk)
      unfold edgeFreeB at this
      simp only [Bool.or_eq_true, decide_eq_true_eq] at this
      rcases this with h | h | h
      · rcases h with h | h | h | h
        · rw [h] at n1; exact n1 rfl
        · rw [h] at n2; exact n2 rfl
        · rw [h] at n3; exact n3 rfl
        · rw [h] at n4; exact n4 rfl
      · simp only [← pt_xz] at h
        rcases h with h | h | h | h
        · exact n1 h.symm
        · exact n3 h.symm
        · exact n2 h.symm
        · exact n4 h.symm
      · have := (intersect_iff hac (side_ne S hf)).2 ⟨p, hp, hq⟩
        rw [this] at h
        simp at h
    · intro h k hk
      have hk : k < ps.length := by simpa using hk
      have hf := side_at (verts := verts) hk
      unfold edgeFreeB
      simp only [Bool.or_eq_true, decide_eq_true_eq]
      by_cases hx : (ringAt verts ps i).xz = (ringAt verts ps k).xz ∨ (ringAt verts ps j).xz = (ringAt verts ps k).xz ∨ (ringAt verts ps i).xz = (ringAt verts ps ((k + 1) % ps.length)).xz ∨ (ringAt verts ps j).xz = (ringAt verts ps ((k + 1) % ps.length)).xz
      · exact Or.inr (Or.inl hx)
      right; right
      simp only [← pt_xz, not_or] at hx
      have := h _ hf (Ne.symm hx.1) (Ne.symm hx.2.2.1) (Ne.symm hx.2.1) (Ne.symm hx.2.2.2)
      rw [Bool.not_eq_true', ← Bool.not_eq_true, intersect_iff hac (side_ne S hf)]
      rintro ⟨p, hp, hq⟩
      exact this p hp hq
  have hcone : inConeB leftB verts ps i (((i + 1) % ps.length + 1) % ps.length) = true ↔
      InLeft (pt (ringAt verts ps ((i + ps.length - 1) % ps.length))) (pt (ringAt verts ps i)) (pt (ringAt verts ps ((i + 1) % ps.length))) (pt (ringAt verts ps (((i + 1) % ps.length + 1) % ps.length))) := by
    unfold inConeB leftB
    simp only
    generalize ((i + 1) % ps.length + 1) % ps.length = j at *
    generalize hd : ringAt verts ps ((i + ps.length - 1) % ps.length) = d at *
    generalize ringAt verts ps ((i + 1) % ps.length) = b at *
    generalize ringAt verts ps i = a at *
    generalize ringAt verts ps j = c at *
    have g1 : turn (pt a) (pt c) (pt d) = turn (pt d) (pt a) (pt c) := turn_cyc _ _ _
    have g2 : turn (pt c) (pt a) (pt b) = turn (pt a) (pt b) (pt c) := by rw [← turn_cyc]
    have g3 : turn (pt a) (pt c) (pt b) = - turn (pt a) (pt b) (pt c) := by unfold turn; ring
    have g4 : turn (pt c) (pt a) (pt d) = - turn (pt d) (pt a) (pt c) := by unfold turn; ring
    have hst := straight S s0 s1
    have hst : turn (pt d) (pt a) (pt b) = 0 → ∃ s : Rat, 0 < s ∧ turn (pt a) (pt b) (pt c) = s * turn (pt d) (pt a) (pt c) := by
      intro h0
      obtain ⟨s, hs, e1, e2⟩ := hst h0
      refine ⟨s, hs, ?_⟩
      unfold turn; rw [e1, e2]; ring
    unfold InLeft
    split
    · rename_i h
      rw [decide_eq_true_eq, cross_le] at h
      rw [Bool.and_eq_true, decide_eq_true_eq, decide_eq_true_eq, cross_neg, cross_neg, g1, g2]
      rcases lt_or_eq_of_le h with h | h
      · constructor
        · rintro ⟨k1, k2⟩; exact Or.inl ⟨h, k1, k2⟩
        · rintro (⟨_, k1, k2⟩ | ⟨k, _⟩)
          · exact ⟨k1, k2⟩
          · linarith
      · obtain ⟨s, hs, e⟩ := hst h.symm
        rw [← h, e]
        constructor
        · rintro ⟨k1, k2⟩; exact Or.inr ⟨le_rfl, Or.inl k1⟩
        · rintro (⟨k, _⟩ | ⟨_, k | k⟩)
          · exact absurd k (lt_irrefl _)
          · exact ⟨k, mul_pos hs k⟩
          · exact ⟨pos_right k hs, k⟩
    · rename_i h
      rw [decide_eq_true_eq, cross_le, not_le] at h
      rw [Bool.not_eq_true', ← Bool.not_eq_true, Bool.and_eq_true, decide_eq_true_eq, decide_eq_true_eq, cross_le, cross_le, g3, g4]
      constructor
      · intro k
        right
        refine ⟨h.le, ?_⟩
        by_contra hn
        push Not at hn
        exact k ⟨by linarith [hn.2], by linarith [hn.1]⟩
      · rintro (⟨k, _⟩ | ⟨_, k | k⟩) ⟨k1, k2⟩ <;> linarith
  unfold isDiagonalB
  rw [Bool.and_eq_true, hcone, hdiag]
  constructor
  · rintro ⟨h1, h2⟩
    refine ⟨s1, s2, ?_, h2⟩
    intro d hd
    have := sides_snd_inj' S.corners hd s0
    rw [this]; exact h1
  · intro A
    exact ⟨A.cone _ s0, A.free⟩

end Rerecast.Jordan
