import Verif.Spec.Plane
import Verif.Spec.Polygon
import Verif.Lemmas.Cycle
import Mathlib.Tactic.Ring
import Mathlib.Tactic.Linarith
import Mathlib.Tactic.FieldSimp
import Mathlib.Tactic.LinearCombination
/-! Winding numbers of closed polygons around a point, by counting crossings of a ray. -/
namespace Rerecast

/-- Twice the signed area of the triangle `a b p`. -/
def turn (a b p : Point) : Rat := (b.1 - a.1) * (p.2 - a.2) - (p.1 - a.1) * (b.2 - a.2)

/-- Whether, and in which direction, the edge from `a` to `b` crosses the ray from `p` in direction of x. -/
def crossing (p : Point) (e : Point × Point) : Int :=
  if e.1.2 ≤ p.2 ∧ p.2 < e.2.2 ∧ 0 < turn e.1 e.2 p then 1
  else if e.2.2 ≤ p.2 ∧ p.2 < e.1.2 ∧ turn e.1 e.2 p < 0 then -1 else 0

theorem turn_swap (a b p : Point) : turn b a p = - turn a b p := by unfold turn; ring

theorem crossing_antisymm (p : Point) : Antisymmetric (crossing p) := by
  intro a b
  unfold crossing
  simp only [turn_swap a b p]
  by_cases h1 : a.2 ≤ p.2 ∧ p.2 < b.2
  · have h2 : ¬ (b.2 ≤ p.2) := by linarith [h1.2]
    simp only [h1, h2, true_and, false_and, if_false, and_self]
    by_cases h3 : 0 < turn a b p
    · rw [if_pos (by linarith), if_pos h3]
    · rw [if_neg (by linarith), if_neg h3]; rfl
  · by_cases h2 : b.2 ≤ p.2 ∧ p.2 < a.2
    · have h4 : ¬ (a.2 ≤ p.2) := by linarith [h2.2]
      simp only [h2, h4, true_and, false_and, if_false, and_self]
      by_cases h3 : turn a b p < 0
      · rw [if_pos (by linarith), if_pos h3]; rfl
      · rw [if_neg (by linarith), if_neg h3]; rfl
    · rw [if_neg (fun h => h2 ⟨h.1, h.2.1⟩), if_neg (fun h => h1 ⟨h.1, h.2.1⟩), if_neg (fun h => h1 ⟨h.1, h.2.1⟩),
        if_neg (fun h => h2 ⟨h.1, h.2.1⟩)]
      rfl

theorem crossing_self (p a : Point) : crossing p (a, a) = 0 := by
  have := crossing_antisymm p a a
  omega

/-- If the three turns have the same sign, the point is in the triangle. -/
theorem in_of_turns {p a b c : Point} (hD : 0 < turn a b p + turn b c p + turn c a p) (h1 : 0 ≤ turn a b p) (h2 : 0 ≤ turn b c p)
    (h3 : 0 ≤ turn c a p) : InPlaneTriangle p a b c := by
  refine ⟨turn b c p / (turn a b p + turn b c p + turn c a p), turn c a p / (turn a b p + turn b c p + turn c a p),
    turn a b p / (turn a b p + turn b c p + turn c a p), div_nonneg h2 hD.le, div_nonneg h3 hD.le, div_nonneg h1 hD.le, ?_, ?_, ?_⟩
  · field_simp; ring
  · field_simp
    unfold turn; ring
  · field_simp
    unfold turn; ring

theorem InPlaneTriangle.rotate {p a b c : Point} (h : InPlaneTriangle p b c a) : InPlaneTriangle p a b c := by
  obtain ⟨s, t, u, h1, h2, h3, h4, h5, h6⟩ := h
  exact ⟨u, s, t, h3, h1, h2, by linarith, by linarith, by linarith⟩

theorem InPlaneTriangle.swap {p a b c : Point} (h : InPlaneTriangle p b a c) : InPlaneTriangle p a b c := by
  obtain ⟨s, t, u, h1, h2, h3, h4, h5, h6⟩ := h
  exact ⟨t, s, u, h2, h1, h3, by linarith, by linarith, by linarith⟩

/-- One corner above the ray, two not. -/
theorem in_of_one {p a b c : Point} (ha : a.2 ≤ p.2) (hb : p.2 < b.2) (hc : c.2 ≤ p.2) (h1 : 0 < turn a b p) (h2 : 0 ≤ turn b c p) :
    InPlaneTriangle p a b c := by
  have key : turn c a p * (b.2 - p.2) = turn a b p * (p.2 - c.2) + turn b c p * (p.2 - a.2) := by unfold turn; ring
  have h3 : 0 ≤ turn c a p := by
    by_contra hn
    push Not at hn
    have k1 := mul_neg_of_neg_of_pos hn (sub_pos.2 hb)
    have k2 := mul_nonneg h1.le (sub_nonneg.2 hc)
    have k3 := mul_nonneg h2 (sub_nonneg.2 ha)
    linarith
  exact in_of_turns (by linarith) h1.le h2 h3

/-- Two corners above the ray, one not. -/
theorem in_of_two {p a b c : Point} (ha : p.2 < a.2) (hb : b.2 ≤ p.2) (hc : p.2 < c.2) (h1 : 0 ≤ turn a b p) (h2 : 0 ≤ turn b c p)
    (h0 : 0 < turn a b p ∨ 0 < turn b c p) : InPlaneTriangle p a b c := by
  have key : turn c a p * (p.2 - b.2) = turn a b p * (c.2 - p.2) + turn b c p * (a.2 - p.2) := by unfold turn; ring
  have h3 : 0 ≤ turn c a p := by
    by_contra hn
    push Not at hn
    have k1 := mul_nonpos_of_nonpos_of_nonneg hn.le (sub_nonneg.2 hb)
    have k2 := mul_nonneg h1 (sub_nonneg.2 hc.le)
    have k3 := mul_nonneg h2 (sub_nonneg.2 ha.le)
    rcases h0 with h0 | h0
    · have := mul_pos h0 (sub_pos.2 hc); linarith
    · have := mul_pos h0 (sub_pos.2 ha); linarith
  rcases h0 with h0 | h0
  · exact in_of_turns (by linarith) h1 h2 h3
  · exact in_of_turns (by linarith) h1 h2 h3

theorem crossing_up {p a b : Point} (ha : a.2 ≤ p.2) (hb : p.2 < b.2) : crossing p (a, b) = if 0 < turn a b p then 1 else 0 := by
  unfold crossing
  have : ¬ (b.2 ≤ p.2) := by linarith
  simp [ha, hb, this]

theorem crossing_down {p a b : Point} (ha : p.2 < a.2) (hb : b.2 ≤ p.2) : crossing p (a, b) = if turn a b p < 0 then -1 else 0 := by
  unfold crossing
  have : ¬ (a.2 ≤ p.2) := by linarith
  simp [ha, hb, this]

theorem crossing_low {p a b : Point} (ha : a.2 ≤ p.2) (hb : b.2 ≤ p.2) : crossing p (a, b) = 0 := by
  unfold crossing
  rw [if_neg (by rintro ⟨_, h, _⟩; linarith), if_neg (by rintro ⟨_, h, _⟩; linarith)]

theorem crossing_high {p a b : Point} (ha : p.2 < a.2) (hb : p.2 < b.2) : crossing p (a, b) = 0 := by
  unfold crossing
  rw [if_neg (by rintro ⟨h, _, _⟩; linarith), if_neg (by rintro ⟨h, _, _⟩; linarith)]

/-- Up and down again, back below the ray. -/
theorem triangle_one {p a b c : Point} (ha : a.2 ≤ p.2) (hb : p.2 < b.2) (hc : c.2 ≤ p.2)
    (h : crossing p (a, b) + crossing p (b, c) + crossing p (c, a) ≠ 0) : InPlaneTriangle p a b c := by
  rw [crossing_up ha hb, crossing_down hb hc, crossing_low hc ha] at h
  by_cases h1 : 0 < turn a b p <;> by_cases h2 : turn b c p < 0
  · rw [if_pos h1, if_pos h2] at h; exact absurd rfl h
  · exact in_of_one ha hb hc h1 (not_lt.1 h2)
  · have := in_of_one (p := p) (a := c) (b := b) (c := a) hc hb ha (by rw [turn_swap]; linarith) (by rw [turn_swap]; linarith)
    exact this.swap.rotate
  · rw [if_neg h1, if_neg h2] at h; exact absurd rfl h

/-- Down and up again. -/
theorem triangle_two {p a b c : Point} (ha : p.2 < a.2) (hb : b.2 ≤ p.2) (hc : p.2 < c.2)
    (h : crossing p (a, b) + crossing p (b, c) + crossing p (c, a) ≠ 0) : InPlaneTriangle p a b c := by
  rw [crossing_down ha hb, crossing_up hb hc, crossing_high hc ha] at h
  by_cases h1 : turn a b p < 0 <;> by_cases h2 : 0 < turn b c p
  · rw [if_pos h1, if_pos h2] at h; exact absurd rfl h
  · have := in_of_two (p := p) (a := c) (b := b) (c := a) hc hb ha (by rw [turn_swap]; linarith) (by rw [turn_swap]; linarith)
      (Or.inr (by rw [turn_swap]; linarith))
    exact this.swap.rotate
  · exact in_of_two ha hb hc (not_lt.1 h1) h2.le (Or.inr h2)
  · rw [if_neg h1, if_neg h2] at h; exact absurd rfl h

/-- A triangle winds around its own points only. -/
theorem triangle_winding {p a b c : Point} (h : crossing p (a, b) + crossing p (b, c) + crossing p (c, a) ≠ 0) : InPlaneTriangle p a b c := by
  rcases le_or_gt a.2 p.2 with ha | ha <;> rcases le_or_gt b.2 p.2 with hb | hb <;> rcases le_or_gt c.2 p.2 with hc | hc
  · rw [crossing_low ha hb, crossing_low hb hc, crossing_low hc ha] at h; exact absurd rfl h
  · exact (triangle_one hb hc ha (by omega)).rotate
  · exact triangle_one ha hb hc h
  · exact (triangle_two hc ha hb (by omega)).rotate.rotate
  · exact (triangle_one hc ha hb (by omega)).rotate.rotate
  · exact triangle_two ha hb hc h
  · exact (triangle_two hb hc ha (by omega)).rotate
  · rw [crossing_high ha hb, crossing_high hb hc, crossing_high hc ha] at h; exact absurd rfl h

/-! ### Sums along paths and around polygons -/

/-- The sum of the weights of the sides of a closed polygon. -/
def around (g : α × α → Int) (l : List α) : Int := ((sides l).map g).sum

/-- The sum of the weights of the steps of a path. -/
def pathSum (g : α × α → Int) (l : List α) : Int := ((path l).map g).sum

theorem pathSum_append (g : α × α → Int) (l : List α) (b : α) (m : List α) : pathSum g (l ++ b :: m) = pathSum g (l ++ [b]) + pathSum g (b :: m) := by
  cases l with
  | nil => simp [pathSum, path_single]
  | cons a l =>
    unfold pathSum
    rw [path_append a l b m, path_append a l b []]
    simp [path_single, add_assoc]

theorem around_cons (g : α × α → Int) (a : α) (l : List α) : around g (a :: l) = pathSum g (a :: l ++ [a]) := by
  unfold around pathSum
  rw [sides_eq_path, path_append a l a [], path_single]

theorem around_rotate (g : α × α → Int) (l : List α) (k : Nat) : around g (l.rotate k) = around g l :=
  ((sides_rotate_perm l k).map g).sum_eq

theorem around_append_comm (g : α × α → Int) (l m : List α) : around g (l ++ m) = around g (m ++ l) := by
  rw [← around_rotate g (l ++ m) l.length, List.rotate_append_length_eq]

theorem path_map (f : α → β) : ∀ l : List α, path (l.map f) = (path l).map (Prod.map f f)
  | [] => rfl
  | [_] => rfl
  | a :: b :: l => by
    have := path_map f (b :: l)
    simp only [List.map_cons] at this ⊢
    rw [path_cons_cons, path_cons_cons, this]
    rfl

theorem pathSum_map (g : β × β → Int) (f : α → β) (l : List α) : pathSum g (l.map f) = pathSum (fun q => g (f q.1, f q.2)) l := by
  unfold pathSum
  rw [path_map, List.map_map]
  rfl

theorem around_map (g : β × β → Int) (f : α → β) (l : List α) : around g (l.map f) = around (fun q => g (f q.1, f q.2)) l := by
  cases l with
  | nil => rfl
  | cons a l =>
    rw [List.map_cons, around_cons, around_cons, ← pathSum_map g f]
    simp

/-- The weights add up on `S`, as if they were differences. -/
def AddsUp (g : α × α → Int) (S : α → Prop) : Prop := ∀ x y z, S x → S y → S z → g (x, y) + g (y, z) = g (x, z)

theorem pathSum_addsUp {g : α × α → Int} {S : α → Prop} (h : AddsUp g S) : ∀ (l : List α) (a b : α), S a → S b → (∀ x ∈ l, S x) →
    pathSum g (a :: l ++ [b]) = g (a, b)
  | [], a, b, _, _, _ => by simp [pathSum, path_cons_cons, path_single]
  | c :: l, a, b, ha, hb, hl => by
    have ih := pathSum_addsUp h l c b (hl c (by simp)) hb (fun x hx => hl x (by simp [hx]))
    rw [← h a c b ha (hl c (by simp)) hb, ← ih]
    unfold pathSum
    simp [path_cons_cons]

/-- Replacing sections of a path, on each of which the weights add up, by other ones with the same ends keeps the sum. -/
theorem pathSum_refine {G : Nat × Nat → Int} : ∀ (l1 : List Nat) (x e : Nat) (l : List Nat),
    (∀ pre a b post, x :: l1 ++ [e] = pre ++ a :: b :: post → AddsUp G fun i => a ≤ i ∧ i ≤ b) → (x :: l ++ [e]).Pairwise (· < ·) → l1.Sublist l →
    pathSum G (x :: l ++ [e]) = pathSum G (x :: l1 ++ [e])
  | [], x, e, l, hadd, hs, _ => by
    have h := hadd [] x e [] rfl
    rw [List.cons_append, List.pairwise_cons, List.pairwise_append] at hs
    have hxe := hs.1 e (by simp)
    rw [pathSum_addsUp h l x e ⟨le_refl _, hxe.le⟩ ⟨hxe.le, le_refl _⟩ (fun y hy => ⟨(hs.1 y (by simp [hy])).le, (hs.2.2.2 y hy e (by simp)).le⟩)]
    simp [pathSum, path_cons_cons, path_single]
  | y :: l1, x, e, l, hadd, hs, hsub => by
    obtain ⟨r1, r2, rfl, hy, hsub2⟩ := List.cons_sublist_iff.1 hsub
    obtain ⟨s, t, rfl⟩ := List.append_of_mem hy
    have e1 : x :: (s ++ y :: t ++ r2) ++ [e] = (x :: s) ++ y :: (t ++ r2 ++ [e]) := by simp
    have e2 : x :: (y :: l1) ++ [e] = [x] ++ y :: (l1 ++ [e]) := by simp
    rw [e1, e2, pathSum_append G (x :: s), pathSum_append G [x]]
    rw [e1, List.pairwise_append] at hs
    have hxy : x < y := hs.2.2 x (by simp) y (by simp)
    have hh := hadd [] x y (l1 ++ [e]) rfl
    have hsx := List.pairwise_cons.1 hs.1
    rw [pathSum_addsUp hh s x y ⟨le_refl _, hxy.le⟩ ⟨hxy.le, le_refl _⟩ (fun i hi => ⟨(hsx.1 i hi).le, (hs.2.2 i (by simp [hi]) y (by simp)).le⟩)]
    have ih := pathSum_refine l1 y e (t ++ r2) (fun pre a b post he => hadd (x :: pre) a b post (by simp [← he])) (by simpa using hs.2.1)
      (hsub2.trans (List.sublist_append_right _ _))
    simp only [List.cons_append] at ih ⊢
    rw [ih]
    simp [pathSum, path_cons_cons, path_single]

/-- Doubling a vertex adds nothing. -/
theorem around_double {g : α × α → Int} (h0 : ∀ a, g (a, a) = 0) (pre post : List α) (x : α) : around g (pre ++ x :: x :: post) = around g (pre ++ x :: post) := by
  rw [around_append_comm, around_append_comm g pre (x :: post)]
  simp only [List.cons_append]
  rw [around_cons, around_cons]
  simp only [List.cons_append]
  unfold pathSum
  rw [path_cons_cons]
  simp [h0]

/-! ### Winding numbers -/

/-- How often the closed polygon winds around `p`. -/
def winding (p : Point) (l : List Point) : Int := around (crossing p) l

/-- The crossings add up on points no triangle of which contains `p`. -/
theorem crossing_addsUp {p : Point} {S : Point → Prop} (h : ∀ a b c, S a → S b → S c → ¬ InPlaneTriangle p a b c) : AddsUp (crossing p) S := by
  intro a b c ha hb hc
  have h1 : crossing p (a, b) + crossing p (b, c) + crossing p (c, a) = 0 := by
    by_contra hn
    exact h a b c ha hb hc (triangle_winding hn)
  have := crossing_antisymm p a c
  omega

/-- A polygon that winds around `p` has three corners whose triangle contains `p`. -/
theorem winding_triangle {p : Point} {l : List Point} (h : winding p l ≠ 0) : ∃ a ∈ l, ∃ b ∈ l, ∃ c ∈ l, InPlaneTriangle p a b c := by
  by_contra hcon
  push Not at hcon
  cases l with
  | nil => exact h rfl
  | cons a l =>
    have hadd : AddsUp (crossing p) (· ∈ a :: l) := crossing_addsUp fun x y z hx hy hz => hcon x hx y hy z hz
    apply h
    unfold winding
    rw [around_cons, pathSum_addsUp hadd l a a (by simp) (by simp) (fun x hx => by simp [hx]), crossing_self]

/-- A polygon of fewer than three corners winds around nothing. -/
theorem winding_short {p : Point} {l : List Point} (h : l.length < 3) : winding p l = 0 := by
  match l, h with
  | [], _ => rfl
  | [a], _ => simp [winding, around, sides, crossing_self]
  | [a, b], _ =>
    have := crossing_antisymm p a b
    simp [winding, around, sides, this]

end Rerecast
