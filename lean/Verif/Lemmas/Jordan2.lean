import Verif.Lemmas.Jordan1
import Verif.Lemmas.EarCut
import Mathlib.Algebra.Order.Group.Abs
import Mathlib.Algebra.Order.Ring.Abs
import Mathlib.Tactic.Positivity
/-! Near a side of a polygon that does not touch itself, the polygon winds once more around the points to the left than around those to the right,
and the same number of times along all its sides. -/
namespace Rerecast.Jordan
open List

/-! ### Sides -/

theorem sides_isRotated {l m : List Point} (h : l ~r m) : (sides l).Perm (sides m) := by
  obtain ⟨k, rfl⟩ := h
  exact (sides_rotate_perm l k).symm

theorem side_decomp {l : List Point} {u v : Point} (h : (u, v) ∈ sides l) (hl : 2 ≤ l.length) : ∃ m, (u :: v :: m) ~r l := by
  obtain ⟨i, hi⟩ := List.mem_iff_getElem?.1 h
  have li : i < l.length := by rw [← sides_length l]; exact (List.getElem?_eq_some_iff.1 hi).1
  rw [sides_getElem? l i li] at hi
  have hlen : (l.rotate i).length = l.length := List.length_rotate ..
  have h0 : (l.rotate i)[0]? = some u := by
    rw [List.getElem?_eq_getElem (by omega), List.getElem_rotate]
    simp only [Option.some.injEq, Prod.mk.injEq] at hi
    simp only [Nat.zero_add, Nat.mod_eq_of_lt li]
    rw [hi.1]
  have h1 : (l.rotate i)[1]? = some v := by
    rw [List.getElem?_eq_getElem (by omega), List.getElem_rotate]
    simp only [Option.some.injEq, Prod.mk.injEq] at hi
    simp only [Nat.add_comm 1 i]
    rw [hi.2]
  match hr : l.rotate i with
  | [] => rw [hr] at h0; simp at h0
  | [_] => rw [hr] at h1; simp at h1
  | a :: b :: m =>
    rw [hr] at h0 h1
    simp only [List.getElem?_cons_zero, List.getElem?_cons_succ, Option.some.injEq] at h0 h1
    subst h0; subst h1
    exact ⟨m, (List.IsRotated.forall l i).symm.trans (by rw [hr]) |>.symm⟩

theorem simple_rotated {l m : List Point} (h : l ~r m) (S : SimplePolygon l) : SimplePolygon m where
  three := h.perm.length_eq ▸ S.three
  corners := h.perm.nodup_iff.1 S.corners
  apart := fun e he f hf => S.apart e ((sides_isRotated h).mem_iff.2 he) f ((sides_isRotated h).mem_iff.2 hf)

theorem corner_decomp {l : List Point} (S : SimplePolygon l) {u v x : Point} (h1 : (u, v) ∈ sides l) (h2 : (v, x) ∈ sides l) :
    ∃ m, (u :: v :: x :: m) ~r l := by
  have h3 := S.three
  obtain ⟨m, hm⟩ := side_decomp h1 (by omega)
  match m, hm with
  | [], hm =>
    have := hm.perm.length_eq
    simp at this; omega
  | y :: m, hm =>
    have : (v, y) ∈ sides l := (sides_isRotated hm).mem_iff.1 (by simp [sides_cons])
    rw [sides_fst_inj S.corners h2 this]
    exact ⟨m, hm⟩

theorem side_ne {l : List Point} (S : SimplePolygon l) {u v : Point} (h1 : (u, v) ∈ sides l) : u ≠ v := by
  have h3 := S.three
  obtain ⟨m, hm⟩ := side_decomp h1 (by omega)
  have := hm.perm.nodup_iff.2 S.corners
  simp only [List.nodup_cons, List.mem_cons, not_or] at this
  exact this.1.1

theorem corner_ne {l : List Point} (S : SimplePolygon l) {u v x : Point} (h1 : (u, v) ∈ sides l) (h2 : (v, x) ∈ sides l) : u ≠ x := by
  obtain ⟨m, hm⟩ := corner_decomp S h1 h2
  have := hm.perm.nodup_iff.2 S.corners
  simp only [List.nodup_cons, List.mem_cons, not_or] at this
  exact this.1.2.1

theorem sides_snd_inj' {l : List Point} (h : l.Nodup) {x y z : Point} (h1 : (x, z) ∈ sides l) (h2 : (y, z) ∈ sides l) : x = y := by
  have e : (sides l).map Prod.snd = l.rotate 1 := by unfold sides; exact List.map_snd_zip (by simp)
  have := List.inj_on_of_nodup_map (by rw [e]; exact List.nodup_rotate.2 h) h1 h2 rfl
  exact congrArg Prod.fst this

theorem next_side {l : List Point} {v : Point} (h : v ∈ l) : ∃ x, (v, x) ∈ sides l := by
  have e : (sides l).map Prod.fst = l := by unfold sides; exact List.map_fst_zip (by simp)
  rw [← e] at h
  obtain ⟨⟨a, b⟩, h1, rfl⟩ := List.mem_map.1 h
  exact ⟨b, h1⟩

theorem prev_side {l : List Point} {v : Point} (h : v ∈ l) : ∃ x, (x, v) ∈ sides l := by
  have e : (sides l).map Prod.snd = l.rotate 1 := by unfold sides; exact List.map_snd_zip (by simp)
  have h' : v ∈ l.rotate 1 := by simpa using h
  rw [← e] at h'
  obtain ⟨⟨a, b⟩, h1, rfl⟩ := List.mem_map.1 h'
  exact ⟨a, h1⟩

theorem onSeg_fst (e : Point × Point) : OnSeg e.1 e := ⟨0, le_refl _, by norm_num, by ring, by ring⟩
theorem onSeg_snd (e : Point × Point) : OnSeg e.2 e := ⟨1, by norm_num, le_refl _, by ring, by ring⟩

theorem OnSeg.flip {p u v : Point} (h : OnSeg p (u, v)) : OnSeg p (v, u) := by
  obtain ⟨t, t0, t1, h1, h2⟩ := h
  exact ⟨1 - t, by linarith, by linarith, by dsimp only at h1 ⊢; linarith, by dsimp only at h2 ⊢; linarith⟩

/-- A corner on a side is an end of it. -/
theorem corner_on_side {l : List Point} (S : SimplePolygon l) {q : Point} {f : Point × Point} (hq : q ∈ l) (hf : f ∈ sides l) (h : OnSeg q f) :
    q = f.1 ∨ q = f.2 := by
  obtain ⟨x, hx⟩ := next_side hq
  by_cases he : (q, x) = f
  · subst he; exact Or.inl rfl
  · rcases S.apart _ hx _ hf he q (onSeg_fst (q, x)) h with h1 | h1
    · exact absurd h1.1 (side_ne S hx)
    · exact Or.inr h1.2

/-! ### Small neighbourhoods -/

/-- The point `y` is in the square around `x`. -/
def near (r : Rat) (x y : Point) : Prop := |y.1 - x.1| ≤ r ∧ |y.2 - x.2| ≤ r

theorem near.mono {r s : Rat} {x y : Point} (h : near r x y) (hrs : r ≤ s) : near s x y := ⟨h.1.trans hrs, h.2.trans hrs⟩

theorem near_self {r : Rat} (hr : 0 ≤ r) (x : Point) : near r x x := by unfold near; simp [hr]

theorem near.trans {r s : Rat} {x y z : Point} (h : near r x y) (h' : near s y z) : near (r + s) x z := by
  constructor
  · have := abs_add_le (z.1 - y.1) (y.1 - x.1)
    have e : z.1 - y.1 + (y.1 - x.1) = z.1 - x.1 := by ring
    rw [e] at this
    linarith [h.1, h'.1]
  · have := abs_add_le (z.2 - y.2) (y.2 - x.2)
    have e : z.2 - y.2 + (y.2 - x.2) = z.2 - x.2 := by ring
    rw [e] at this
    linarith [h.2, h'.2]

theorem aff_near (A B C : Rat) {r : Rat} {p p' : Point} (h : near r p p') : aff A B C p - (|A| + |B|) * r ≤ aff A B C p' := by
  have e : aff A B C p' = aff A B C p + (A * (p'.1 - p.1) + B * (p'.2 - p.2)) := by unfold aff; ring
  have h1 : -(|A| * r) ≤ A * (p'.1 - p.1) := by
    have := neg_abs_le (A * (p'.1 - p.1))
    rw [abs_mul] at this
    have := mul_le_mul_of_nonneg_left h.1 (abs_nonneg A)
    linarith
  have h2 : -(|B| * r) ≤ B * (p'.2 - p.2) := by
    have := neg_abs_le (B * (p'.2 - p.2))
    rw [abs_mul] at this
    have := mul_le_mul_of_nonneg_left h.2 (abs_nonneg B)
    linarith
  rw [e]; linarith

theorem Apart.box {p q u v : Point} (h : Apart p q u v) : ∃ r : Rat, 0 < r ∧ ∀ p' q', near r p p' → near r q q' → Apart p' q' u v := by
  obtain ⟨A, B, C, h1, h2, h3, h4⟩ := h
  have hM : 0 < |A| + |B| + 1 := by positivity
  have hm : 0 < min (aff A B C p) (aff A B C q) := lt_min h1 h2
  refine ⟨min (aff A B C p) (aff A B C q) / (|A| + |B| + 1), div_pos hm hM, fun p' q' hp hq => ⟨A, B, C, ?_, ?_, h3, h4⟩⟩
  · refine lt_of_lt_of_le ?_ (aff_near A B C hp)
    rw [mul_div_assoc', sub_pos, div_lt_iff₀ hM]
    have := min_le_left (aff A B C p) (aff A B C q)
    nlinarith [abs_nonneg A, abs_nonneg B]
  · refine lt_of_lt_of_le ?_ (aff_near A B C hq)
    rw [mul_div_assoc', sub_pos, div_lt_iff₀ hM]
    have := min_le_right (aff A B C p) (aff A B C q)
    nlinarith [abs_nonneg A, abs_nonneg B]

theorem box_all {p q : Point} : ∀ L : List (Point × Point), (∀ e ∈ L, Apart p q e.1 e.2) →
    ∃ r : Rat, 0 < r ∧ ∀ p' q', near r p p' → near r q q' → ∀ e ∈ L, Apart p' q' e.1 e.2
  | [], _ => ⟨1, by norm_num, by simp⟩
  | e :: L, h => by
    obtain ⟨r1, hr1, h1⟩ := (h e (by simp)).box
    obtain ⟨r2, hr2, h2⟩ := box_all L fun f hf => h f (by simp [hf])
    refine ⟨min r1 r2, lt_min hr1 hr2, fun p' q' hp hq f hf => ?_⟩
    rcases List.mem_cons.1 hf with rfl | hf
    · exact h1 p' q' (hp.mono (min_le_left _ _)) (hq.mono (min_le_left _ _))
    · exact h2 p' q' (hp.mono (min_le_right _ _)) (hq.mono (min_le_right _ _)) f hf

/-- Holds for all sufficiently small positive numbers. -/
def Small (P : Rat → Prop) : Prop := ∃ r : Rat, 0 < r ∧ ∀ ε, 0 < ε → ε ≤ r → P ε

theorem Small.and {P Q : Rat → Prop} (h : Small P) (h' : Small Q) : Small fun ε => P ε ∧ Q ε := by
  obtain ⟨r, hr, h⟩ := h
  obtain ⟨s, hs, h'⟩ := h'
  exact ⟨min r s, lt_min hr hs, fun ε h0 h1 => ⟨h ε h0 (h1.trans (min_le_left _ _)), h' ε h0 (h1.trans (min_le_right _ _))⟩⟩

theorem Small.exists {P : Rat → Prop} (h : Small P) : ∃ ε, 0 < ε ∧ P ε := by
  obtain ⟨r, hr, h⟩ := h
  exact ⟨r, hr, h r hr le_rfl⟩

theorem small_le {r : Rat} (hr : 0 < r) : Small fun ε => ε ≤ r := ⟨r, hr, fun _ _ h => h⟩
theorem small_lt {r : Rat} (hr : 0 < r) : Small fun ε => ε < r := ⟨r / 2, by linarith, fun _ _ h => by linarith⟩

theorem small_mul (D : Rat) {r : Rat} (hr : 0 < r) : Small fun ε => |ε * D| ≤ r := by
  refine ⟨r / (|D| + 1), by positivity, fun ε h0 h1 => ?_⟩
  have hD : 0 < |D| + 1 := by positivity
  rw [le_div_iff₀ hD] at h1
  show |ε * D| ≤ r
  rw [abs_mul, abs_of_pos h0]
  nlinarith [abs_nonneg D]

theorem small_pos {T D : Rat} (h : 0 < T ∨ (T = 0 ∧ 0 < D)) : Small fun ε => 0 < T + ε * D := by
  rcases h with h | ⟨h, h'⟩
  · obtain ⟨r, hr, hs⟩ := small_mul D (show 0 < T / 2 by linarith)
    refine ⟨r, hr, fun ε h0 h1 => ?_⟩
    have := neg_abs_le (ε * D)
    have := hs ε h0 h1
    linarith
  · refine ⟨1, by norm_num, fun ε h0 _ => ?_⟩
    rw [h]
    have := mul_pos h0 h'
    linarith

/-- A point beside the segment from `u` to `v`. -/
def off (u v : Point) (t ε : Rat) : Point := (u.1 + t * (v.1 - u.1) - ε * (v.2 - u.2), u.2 + t * (v.2 - u.2) + ε * (v.1 - u.1))

theorem small_off (u v : Point) (t : Rat) {r : Rat} (hr : 0 < r) : Small fun ε => near r (off u v t 0) (off u v t ε) ∧ near r (off u v t 0) (off u v t (-ε)) := by
  refine ⟨_, ((small_mul (v.2 - u.2) hr).and (small_mul (v.1 - u.1) hr)).choose_spec.1, fun ε h0 h1 => ?_⟩
  have := ((small_mul (v.2 - u.2) hr).and (small_mul (v.1 - u.1) hr)).choose_spec.2 ε h0 h1
  refine ⟨⟨?_, ?_⟩, ⟨?_, ?_⟩⟩ <;> unfold off <;> dsimp only
  · rw [show u.1 + t * (v.1 - u.1) - ε * (v.2 - u.2) - (u.1 + t * (v.1 - u.1) - 0 * (v.2 - u.2)) = -(ε * (v.2 - u.2)) by ring, abs_neg]; exact this.1
  · rw [show u.2 + t * (v.2 - u.2) + ε * (v.1 - u.1) - (u.2 + t * (v.2 - u.2) + 0 * (v.1 - u.1)) = ε * (v.1 - u.1) by ring]; exact this.2
  · rw [show u.1 + t * (v.1 - u.1) - -ε * (v.2 - u.2) - (u.1 + t * (v.1 - u.1) - 0 * (v.2 - u.2)) = ε * (v.2 - u.2) by ring]; exact this.1
  · rw [show u.2 + t * (v.2 - u.2) + -ε * (v.1 - u.1) - (u.2 + t * (v.2 - u.2) + 0 * (v.1 - u.1)) = -(ε * (v.1 - u.1)) by ring, abs_neg]; exact this.2

theorem turn_off (u v : Point) (t ε : Rat) : turn u v (off u v t ε) = ε * ((v.1 - u.1) ^ 2 + (v.2 - u.2) ^ 2) := by unfold turn off; ring

theorem norm_pos {u v : Point} (h : u ≠ v) : 0 < (v.1 - u.1) ^ 2 + (v.2 - u.2) ^ 2 := by
  by_contra hn
  push Not at hn
  have e1 : v.1 - u.1 = 0 := by nlinarith [sq_nonneg (v.1 - u.1), sq_nonneg (v.2 - u.2)]
  have e2 : v.2 - u.2 = 0 := by nlinarith [sq_nonneg (v.1 - u.1), sq_nonneg (v.2 - u.2)]
  exact h (Prod.ext (by linarith) (by linarith))

theorem off_onSeg (u v : Point) {t : Rat} (h0 : 0 ≤ t) (h1 : t ≤ 1) : OnSeg (off u v t 0) (u, v) :=
  ⟨t, h0, h1, by unfold off; ring, by unfold off; ring⟩

theorem off_ne {u v : Point} (h : u ≠ v) {t : Rat} (h0 : 0 < t) (h1 : t < 1) : off u v t 0 ≠ u ∧ off u v t 0 ≠ v := by
  unfold off
  constructor
  · intro e
    have e1 := congrArg Prod.fst e
    have e2 := congrArg Prod.snd e
    dsimp only at e1 e2
    have f1 : t * (v.1 - u.1) = 0 := by linarith
    have f2 : t * (v.2 - u.2) = 0 := by linarith
    have g1 := (mul_eq_zero.1 f1).resolve_left h0.ne'
    have g2 := (mul_eq_zero.1 f2).resolve_left h0.ne'
    exact h (Prod.ext (by linarith) (by linarith))
  · intro e
    have e1 := congrArg Prod.fst e
    have e2 := congrArg Prod.snd e
    dsimp only at e1 e2
    have f1 : (1 - t) * (v.1 - u.1) = 0 := by linarith
    have f2 : (1 - t) * (v.2 - u.2) = 0 := by linarith
    have h2 : 1 - t ≠ 0 := by intro h; linarith
    have g1 := (mul_eq_zero.1 f1).resolve_left h2
    have g2 := (mul_eq_zero.1 f2).resolve_left h2
    exact h (Prod.ext (by linarith) (by linarith))

/-! ### Beside a side -/

theorem clear_box {l : List Point} (S : SimplePolygon l) {u v : Point} (h : (u, v) ∈ sides l) {t t' : Rat} (h0 : 0 < t) (h1 : t < 1) (h0' : 0 < t') (h1' : t' < 1) :
    ∃ r : Rat, 0 < r ∧ ∀ p q, near r (off u v t 0) p → near r (off u v t' 0) q → ∀ e ∈ sides l, e ≠ (u, v) → Apart p q e.1 e.2 := by
  obtain ⟨r, hr, hb⟩ := box_all (p := off u v t 0) (q := off u v t' 0) ((sides l).filter (· ≠ (u, v))) (by
    intro e he
    simp only [List.mem_filter, decide_eq_true_eq] at he
    apply apart_of_disjoint (side_ne S he.1)
    rintro x ⟨s, s0, s1, e1, e2⟩ hx
    have ex : x = off u v (t + s * (t' - t)) 0 := by
      apply Prod.ext
      · rw [e1]; unfold off; dsimp only; ring
      · rw [e2]; unfold off; dsimp only; ring
    have k0 : 0 < t + s * (t' - t) := by
      rcases lt_or_ge s 1 with hs | hs
      · nlinarith [mul_pos (sub_pos.2 hs) h0, mul_nonneg s0 h0'.le]
      · have : s = 1 := le_antisymm s1 hs
        subst this; linarith
    have k1 : t + s * (t' - t) < 1 := by
      rcases lt_or_ge s 1 with hs | hs
      · nlinarith [mul_pos (sub_pos.2 hs) (sub_pos.2 h1), mul_nonneg s0 (sub_pos.2 h1').le]
      · have : s = 1 := le_antisymm s1 hs
        subst this; linarith
    have hne := off_ne (side_ne S h) k0 k1
    rw [← ex] at hne
    rcases S.apart _ h _ he.1 (Ne.symm he.2) x (ex ▸ off_onSeg u v k0.le k1.le) hx with hh | hh
    · exact hne.2 hh.1
    · exact hne.1 hh.1)
  exact ⟨r, hr, fun p q hp hq e he hne => hb p q hp hq e (by simp [he, hne])⟩

/-- The polygon winds `k + 1` times around points to the left of the side, and `k` times around points to the right. -/
def Val (l : List Point) (u v : Point) (k : Int) : Prop :=
  ∀ t, 0 < t → t < 1 → ∃ r : Rat, 0 < r ∧ ∀ p, near r (off u v t 0) p → (0 < turn u v p → winding p l = k + 1) ∧ (turn u v p < 0 → winding p l = k)

theorem all_apart {l : List Point} {p q u v : Point} (h : ∀ e ∈ sides l, e ≠ (u, v) → Apart p q e.1 e.2) (h' : Apart p q u v) :
    ∀ e ∈ sides l, Apart p q e.1 e.2 := by
  intro e he
  by_cases hh : e = (u, v)
  · subst hh; exact h'
  · exact h e he hh

theorem val_exists {l : List Point} (S : SimplePolygon l) {u v : Point} (h : (u, v) ∈ sides l) : ∃ k, Val l u v k := by
  have hN := norm_pos (side_ne S h)
  -- at one point of the side
  have one : ∀ t, 0 < t → t < 1 → ∃ k, ∃ r : Rat, 0 < r ∧ ∀ p, near r (off u v t 0) p →
      (0 < turn u v p → winding p l = k + 1) ∧ (turn u v p < 0 → winding p l = k) := by
    intro t h0 h1
    obtain ⟨r, hr, hb⟩ := clear_box S h h0 h1 h0 h1
    obtain ⟨ε, hε, n1, n2⟩ := (small_off u v t hr).exists
    have t1 : 0 < turn u v (off u v t ε) := by rw [turn_off]; exact mul_pos hε hN
    have t2 : turn u v (off u v t (-ε)) < 0 := by rw [turn_off]; nlinarith
    have hj := winding_jump (sides_nodup S.corners) h t1 t2 (by
      have e1 : turn (off u v t ε) (off u v t (-ε)) u = -(2 * ε * t * ((v.1 - u.1) ^ 2 + (v.2 - u.2) ^ 2)) := by unfold turn off; ring
      have e2 : turn (off u v t ε) (off u v t (-ε)) v = 2 * ε * (1 - t) * ((v.1 - u.1) ^ 2 + (v.2 - u.2) ^ 2) := by unfold turn off; ring
      rw [e1, e2]
      have k1 : 0 < 2 * ε * t * ((v.1 - u.1) ^ 2 + (v.2 - u.2) ^ 2) := by positivity
      have k2 : 0 < 2 * ε * (1 - t) * ((v.1 - u.1) ^ 2 + (v.2 - u.2) ^ 2) := by
        have : 0 < 1 - t := by linarith
        positivity
      nlinarith [mul_pos k1 k2]) (hb _ _ n1 n2)
    refine ⟨winding (off u v t (-ε)) l, r, hr, fun p hp => ⟨fun hp' => ?_, fun hp' => ?_⟩⟩
    · rw [← hj]
      exact winding_same (all_apart (hb _ _ hp n1) (apart_pos hp' t1))
    · exact winding_same (all_apart (hb _ _ hp n2) (apart_neg hp' t2))
  obtain ⟨k, hk⟩ := one (1 / 2) (by norm_num) (by norm_num)
  refine ⟨k, fun t h0 h1 => ?_⟩
  obtain ⟨k', r', hr', hk'⟩ := one t h0 h1
  obtain ⟨r0, hr0, hk⟩ := hk
  obtain ⟨r, hr, hb⟩ := clear_box S h (t := 1 / 2) (t' := t) (by norm_num) (by norm_num) h0 h1
  obtain ⟨ε, hε, ⟨⟨n1, _⟩, n2, _⟩, ⟨n3, _⟩, n4, _⟩ := (((small_off u v (1 / 2) hr).and (small_off u v t hr)).and ((small_off u v (1 / 2) hr0).and (small_off u v t hr'))).exists
  have t1 : 0 < turn u v (off u v (1 / 2) ε) := by rw [turn_off]; exact mul_pos hε hN
  have t2 : 0 < turn u v (off u v t ε) := by rw [turn_off]; exact mul_pos hε hN
  have e := winding_same (all_apart (hb _ _ n1 n2) (apart_pos t1 t2))
  rw [(hk _ n3).1 t1, (hk' _ n4).1 t2] at e
  have : k' = k := by omega
  subst this
  exact ⟨r', hr', hk'⟩

end Rerecast.Jordan
