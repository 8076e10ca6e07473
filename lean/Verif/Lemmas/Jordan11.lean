import Verif.Lemmas.Jordan10
/-! Triangulations of simple contours do not overlap and cover what the contour encloses. -/
namespace Rerecast.Jordan
open List

theorem onSeg_swap {p : Point} {e : Point × Point} (h : OnSeg p e) : OnSeg p.swap (e.1.swap, e.2.swap) := by
  obtain ⟨t, t0, t1, e1, e2⟩ := h
  exact ⟨t, t0, t1, e2, e1⟩

theorem onSeg_unswap {p : Point} {e : Point × Point} (h : OnSeg p (e.1.swap, e.2.swap)) : OnSeg p.swap e := by
  have := onSeg_swap h
  simpa using this

theorem simple_swap {l : List Point} (S : SimplePolygon l) : SimplePolygon (l.map Prod.swap) := by
  refine ⟨by simpa using S.three, S.corners.map Prod.swap_injective, ?_⟩
  rw [sides_map]
  intro e he f hf hne p hp hq
  obtain ⟨e', he', rfl⟩ := List.mem_map.1 he
  obtain ⟨f', hf', rfl⟩ := List.mem_map.1 hf
  have := S.apart e' he' f' hf' (fun h => hne (by rw [h])) p.swap (onSeg_unswap hp) (onSeg_unswap hq)
  simp only [Prod.map_fst, Prod.map_snd]
  rcases this with ⟨h1, h2⟩ | ⟨h1, h2⟩
  · left; rw [← h1, ← h2]; simp
  · right; rw [← h1, ← h2]; simp

theorem map_pt (verts : List U16Vec3) : verts.map pt = (verts.map U16Vec3.plane).map Prod.swap := by
  rw [List.map_map]; rfl

theorem simple_pt {verts : List U16Vec3} (S : SimplePolygon (verts.map U16Vec3.plane)) : SimplePolygon (verts.map pt) := by
  rw [map_pt]; exact simple_swap S

theorem cast_sum {α : Type} (l : List α) (f : α → Int) : ((l.map f).sum : Rat) = (l.map fun a => (f a : Rat)).sum := by
  induction l with
  | nil => simp
  | cons a l ih => simp [ih]

theorem neg_sum {α : Type} (l : List α) (f : α → Rat) : (l.map fun a => - f a).sum = -(l.map f).sum := by
  induction l with
  | nil => simp
  | cons a l ih => simp only [List.map_cons, List.sum_cons, ih]; ring

theorem area_pt (verts : List U16Vec3) : area (verts.map pt) = -(shoelace id verts : Rat) := by
  unfold area shoelace
  rw [sides_map, List.map_map, cast_sum, ← neg_sum]
  congr 1
  apply List.map_congr_left
  intro e _
  simp only [Function.comp, Prod.map_fst, Prod.map_snd, pt, id]
  push_cast
  ring

theorem val_pt {verts : List U16Vec3} (S : SimplePolygon (verts.map U16Vec3.plane)) (h : shoelace id verts < 0) : ValAll (verts.map pt) 0 := by
  apply val_of_area (simple_pt S)
  rw [area_pt, neg_pos, ← Int.cast_zero (R := Rat), Int.cast_lt]
  exact h

/-- The crossings of a ray, seen with the axes exchanged. -/
theorem crossing_hits (p : Point) (e : Point × Point) : crossing p.swap (e.1.swap, e.2.swap) ≠ 0 ↔ RayMeets p e := by
  obtain ⟨⟨a1, a2⟩, ⟨b1, b2⟩⟩ := e
  obtain ⟨p1, p2⟩ := p
  have key : a1 ≠ b1 → ∀ y, OnSeg (p1, y) ((a1, a2), (b1, b2)) → (b1 - a1) * (y - p2) = turn (a2, a1) (b2, b1) (p2, p1) := by
    rintro hne y ⟨t, t0, t1, e1, e2⟩
    dsimp only at e1 e2
    unfold turn
    dsimp only
    rw [e1, e2]; ring
  have ex : a1 ≠ b1 → 0 ≤ (p1 - a1) / (b1 - a1) → (p1 - a1) / (b1 - a1) ≤ 1 → ∃ y, OnSeg (p1, y) ((a1, a2), (b1, b2)) := by
    intro hne h0 h1
    refine ⟨a2 + (p1 - a1) / (b1 - a1) * (b2 - a2), _, h0, h1, ?_, rfl⟩
    dsimp only
    have : b1 - a1 ≠ 0 := sub_ne_zero.2 (Ne.symm hne)
    field_simp
    ring
  unfold crossing RayMeets
  simp only [Prod.swap_prod_mk]
  by_cases h1 : a1 ≤ p1 ∧ p1 < b1
  · have hd : 0 < b1 - a1 := by linarith [h1.1, h1.2]
    have hne : a1 ≠ b1 := by linarith
    have h2 : ¬ (b1 ≤ p1) := by linarith [h1.2]
    obtain ⟨y, hy⟩ := ex hne (div_nonneg (by linarith [h1.1]) hd.le) ((div_le_one hd).2 (by linarith [h1.2]))
    have ky := key hne y hy
    simp only [h1, h2, true_and, false_and, if_false, or_false, and_self]
    constructor
    · intro h
      have ht : 0 < turn (a2, a1) (b2, b1) (p2, p1) := by by_contra hh; rw [if_neg hh] at h; exact h rfl
      rw [← ky] at ht
      exact ⟨y, by linarith [(mul_pos_iff_of_pos_left hd).1 ht], hy⟩
    · rintro ⟨z, hz, hz'⟩
      have kz := key hne z hz'
      have : 0 < turn (a2, a1) (b2, b1) (p2, p1) := by rw [← kz]; exact mul_pos hd (by linarith)
      rw [if_pos this]; decide
  · by_cases h2 : b1 ≤ p1 ∧ p1 < a1
    · have hd : 0 < a1 - b1 := by linarith [h2.1, h2.2]
      have hne : a1 ≠ b1 := by intro h; linarith
      have h3 : ¬ (a1 ≤ p1) := by linarith [h2.2]
      have e : (p1 - a1) / (b1 - a1) = (a1 - p1) / (a1 - b1) := by rw [← neg_div_neg_eq]; congr 1 <;> ring
      obtain ⟨y, hy⟩ := ex hne (by rw [e]; exact div_nonneg (by linarith [h2.2]) hd.le) (by rw [e]; exact (div_le_one hd).2 (by linarith [h2.1]))
      have ky := key hne y hy
      simp only [h2, h3, true_and, false_and, if_false, false_or, and_self]
      constructor
      · intro h
        have ht : turn (a2, a1) (b2, b1) (p2, p1) < 0 := by by_contra hh; rw [if_neg hh] at h; exact h rfl
        rw [← ky] at ht
        have : 0 < (a1 - b1) * (y - p2) := by linarith
        exact ⟨y, by linarith [(mul_pos_iff_of_pos_left hd).1 this], hy⟩
      · rintro ⟨z, hz, hz'⟩
        have kz := key hne z hz'
        have : turn (a2, a1) (b2, b1) (p2, p1) < 0 := by
          rw [← kz]
          have := mul_pos hd (by linarith : 0 < z - p2)
          linarith
        rw [if_pos this]; decide
    · rw [if_neg (fun h => h1 ⟨h.1, h.2.1⟩), if_neg (fun h => h2 ⟨h.1, h.2.1⟩)]
      simp only [ne_eq, not_true_eq_false, false_iff]
      rintro ⟨h | h, _⟩
      · exact h1 h
      · exact h2 h

theorem crossing_unit (p : Point) (e : Point × Point) : crossing p e = 0 ∨ crossing p e = 1 ∨ crossing p e = -1 := by
  unfold crossing
  split
  · simp
  · split <;> simp

open Classical in
theorem odd_sum {α : Type} (l : List α) (f : α → Int) (hf : ∀ a, f a = 0 ∨ f a = 1 ∨ f a = -1) :
    (l.map f).sum % 2 = 1 ↔ (l.countP fun a => decide (f a ≠ 0)) % 2 = 1 := by
  induction l with
  | nil => simp
  | cons a l ih =>
    rw [List.map_cons, List.sum_cons, List.countP_cons]
    rcases hf a with h | h | h <;> rw [h]
    · simp only [ne_eq, not_true_eq_false, decide_false, Bool.false_eq_true, if_false]
      simp only [ne_eq] at ih
      omega
    · simp only [ne_eq, one_ne_zero, not_false_eq_true, decide_true, if_true]
      simp only [ne_eq] at ih
      omega
    · simp only [ne_eq, neg_eq_zero, one_ne_zero, not_false_eq_true, decide_true, if_true]
      simp only [ne_eq] at ih
      omega

theorem encloses_iff (l : List Point) (p : Point) : Encloses l p ↔ winding p.swap (l.map Prod.swap) % 2 = 1 := by
  classical
  unfold Encloses winding around
  rw [sides_map, List.map_map, odd_sum (sides l) (crossing p.swap ∘ Prod.map Prod.swap Prod.swap) (fun e => crossing_unit p.swap (e.1.swap, e.2.swap))]
  apply Eq.to_iff
  congr 3
  funext e
  rw [decide_eq_decide]
  exact (crossing_hits p e).symm

theorem once_pairwise {α : Type} (w : α → Point → Int) : ∀ (T : List α), (∀ x ∈ T, ∀ q, 0 ≤ w x q) → (∀ q, (T.map fun x => w x q).sum ≤ 1) →
    T.Pairwise fun x y => ∀ q, ¬ (w x q = 1 ∧ w y q = 1)
  | [], _, _ => List.Pairwise.nil
  | a :: T, h0, h1 => by
    refine List.Pairwise.cons ?_ (once_pairwise w T (fun x hx => h0 x (by simp [hx])) fun q => ?_)
    · rintro y hy q ⟨e1, e2⟩
      have := h1 q
      rw [List.map_cons, List.sum_cons, e1] at this
      have hle := List.single_le_sum (l := T.map fun x => w x q) (by
        intro z hz
        obtain ⟨x, hx, rfl⟩ := List.mem_map.1 hz
        exact h0 x (by simp [hx]) q) (w y q) (List.mem_map.2 ⟨y, hy, rfl⟩)
      omega
    · have := h1 q
      have h2 := h0 a (by simp) q
      rw [List.map_cons, List.sum_cons] at this
      omega

theorem sum_nonzero {α : Type} (f : α → Int) : ∀ (T : List α), (T.map f).sum ≠ 0 → ∃ t ∈ T, f t ≠ 0
  | [], h => absurd rfl h
  | a :: T, h => by
    by_cases ha : f a = 0
    · rw [List.map_cons, List.sum_cons, ha, zero_add] at h
      obtain ⟨t, ht, h'⟩ := sum_nonzero f T h
      exact ⟨t, by simp [ht], h'⟩
    · exact ⟨a, by simp, ha⟩

/-- The winding numbers of pieces with the boundary of `p` add up. -/
theorem pieces_sum {ps : List (List Nat)} {l : List Nat} (h : SameBoundary ps l) (P : Nat → Point) (q : Point) :
    (ps.map fun t => winding q (t.map P)).sum = winding q (l.map P) := by
  have := h (fun e => crossing q (P e.1, P e.2)) (fun a b => crossing_antisymm q (P a) (P b))
  have e : ∀ t : List Nat, winding q (t.map P) = ((sides t).map fun e => crossing q (P e.1, P e.2)).sum := by
    intro t
    unfold winding around
    rw [sides_map, List.map_map]
    rfl
  rw [e, ← this]
  unfold allSides
  clear this h
  induction ps with
  | nil => rfl
  | cons a ps ih => rw [List.map_cons, List.sum_cons, ih, e, List.flatMap_cons, List.map_append, List.sum_append]

theorem inside_turns {p a b c : Point} (h : InsideTriangle p a b c) (hT : 0 < turn a b c) : 0 < turn a b p ∧ 0 < turn b c p ∧ 0 < turn c a p := by
  obtain ⟨s, t, u, hs, ht, hu, h1, e1, e2⟩ := h
  have es : s = 1 - t - u := by linarith
  have k1 : turn a b p = u * turn a b c := by unfold turn; rw [e1, e2, es]; ring
  have k2 : turn b c p = s * turn a b c := by unfold turn; rw [e1, e2, es]; ring
  have k3 : turn c a p = t * turn a b c := by unfold turn; rw [e1, e2, es]; ring
  rw [k1, k2, k3]
  exact ⟨mul_pos hu hT, mul_pos hs hT, mul_pos ht hT⟩

theorem inside_swap {p a b c : Point} (h : InsideTriangle p a b c) : InsideTriangle p.swap a.swap b.swap c.swap := by
  obtain ⟨s, t, u, hs, ht, hu, h1, e1, e2⟩ := h
  exact ⟨s, t, u, hs, ht, hu, h1, e2, e1⟩

theorem inTri_swap {p a b c : Point} (h : InPlaneTriangle p.swap a.swap b.swap c.swap) : InPlaneTriangle p a b c := by
  obtain ⟨s, t, u, hs, ht, hu, h1, e1, e2⟩ := h
  exact ⟨s, t, u, hs, ht, hu, h1, e2, e1⟩

theorem range_corners (verts : List U16Vec3) : (List.range verts.length).map (cornerPt verts) = verts.map pt := by
  apply List.ext_getElem
  · simp
  · intro i h1 h2
    have : i < verts.length := by simpa using h2
    simp [cornerPt, List.getD_eq_getElem?_getD, this]

theorem tris_sum {verts : List U16Vec3} {T : List Tri} (h : TriOk verts.length T) (q : Point) :
    (T.map fun t => winding q (t.corners.map (cornerPt verts))).sum = winding q (verts.map pt) := by
  rw [← range_corners, ← pieces_sum h.bal, List.map_map]
  rfl

section
variable {verts : List U16Vec3} {T : List Tri} (S : SimplePolygon (verts.map pt)) (hk : ValAll (verts.map pt) 0) (h : TriOk verts.length T)
  (ht : ∀ t ∈ T, t.turn verts < 0)
include ht

theorem tri_pos {t : Tri} (m : t ∈ T) : 0 < turn (cornerPt verts t.1) (cornerPt verts t.2.1) (cornerPt verts t.2.2) := cross_neg.1 (ht t m)

theorem tri_nonneg {t : Tri} (m : t ∈ T) (q : Point) : 0 ≤ winding q (t.corners.map (cornerPt verts)) := by
  have hp := tri_pos ht m
  rcases winding_once (tri_simple hp) (tri_val hp) q with e | e
  · exact e ▸ le_refl _
  · have : winding q (t.corners.map (cornerPt verts)) = 1 := e
    omega

theorem tri_around {t : Tri} (m : t ∈ T) {p : Point}
    (hp : InsideTriangle p (verts.getD t.1 ⟨0, 0, 0⟩).plane (verts.getD t.2.1 ⟨0, 0, 0⟩).plane (verts.getD t.2.2 ⟨0, 0, 0⟩).plane) :
    winding p.swap (t.corners.map (cornerPt verts)) = 1 := by
  obtain ⟨h1, h2, h3⟩ := inside_turns (inside_swap hp) (tri_pos ht m)
  exact tri_in h1 h2 h3

include S hk h

theorem tris_apart : T.Pairwise fun t t' => ∀ p,
    ¬ (InsideTriangle p (verts.getD t.1 ⟨0, 0, 0⟩).plane (verts.getD t.2.1 ⟨0, 0, 0⟩).plane (verts.getD t.2.2 ⟨0, 0, 0⟩).plane ∧
      InsideTriangle p (verts.getD t'.1 ⟨0, 0, 0⟩).plane (verts.getD t'.2.1 ⟨0, 0, 0⟩).plane (verts.getD t'.2.2 ⟨0, 0, 0⟩).plane) := by
  have := once_pairwise (fun (t : Tri) q => winding q (t.corners.map (cornerPt verts))) T (fun t m q => tri_nonneg ht m q) (by
    intro q
    rw [tris_sum h]
    rcases winding_once S hk q with e | e <;> omega)
  refine List.Pairwise.imp_of_mem ?_ this
  rintro t t' m m' hh p ⟨h1, h2⟩
  exact hh p.swap ⟨tri_around ht m h1, tri_around ht m' h2⟩

omit S hk in
theorem tris_cover (p : Point) (hp : Encloses (verts.map U16Vec3.plane) p) :
    ∃ t ∈ T, InPlaneTriangle p (verts.getD t.1 ⟨0, 0, 0⟩).plane (verts.getD t.2.1 ⟨0, 0, 0⟩).plane (verts.getD t.2.2 ⟨0, 0, 0⟩).plane := by
  rw [encloses_iff, ← map_pt] at hp
  have : (T.map fun t => winding p.swap (t.corners.map (cornerPt verts))).sum ≠ 0 := by
    rw [tris_sum h]; intro e; rw [e] at hp; simp at hp
  obtain ⟨t, m, hw⟩ := sum_nonzero _ T this
  refine ⟨t, m, ?_⟩
  have hT := tri_pos ht m
  have h3 : ¬ (_ ∨ _ ∨ _) := fun hh => hw (tri_out hT hh)
  push Not at h3
  obtain ⟨q1, q2, q3⟩ := h3
  exact inTri_swap (in_of_turns (by rw [turn_sum]; exact hT) q1 q2 q3)

theorem tris_within {t : Tri} (m : t ∈ T) (p : Point)
    (hp : InsideTriangle p (verts.getD t.1 ⟨0, 0, 0⟩).plane (verts.getD t.2.1 ⟨0, 0, 0⟩).plane (verts.getD t.2.2 ⟨0, 0, 0⟩).plane) :
    Encloses (verts.map U16Vec3.plane) p := by
  rw [encloses_iff, ← map_pt]
  have hle := List.single_le_sum (l := T.map fun t => winding p.swap (t.corners.map (cornerPt verts))) (by
    intro z hz
    obtain ⟨x, hx, rfl⟩ := List.mem_map.1 hz
    exact tri_nonneg ht hx _) _ (List.mem_map.2 ⟨t, m, rfl⟩)
  rw [tris_sum h, tri_around ht m hp] at hle
  rcases winding_once S hk p.swap with e | e
  · omega
  · rw [e]; rfl

end

end Rerecast.Jordan
