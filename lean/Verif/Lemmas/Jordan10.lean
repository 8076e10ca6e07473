import Verif.Lemmas.Jordan9
import Verif.Lemmas.ContourPolys
/-! The direction of a polygon that does not touch itself, and the points it goes around. -/
namespace Rerecast.Jordan
open List

/-- Twice the signed area. -/
def area (l : List Point) : Rat := ((sides l).map fun e => e.1.1 * e.2.2 - e.2.1 * e.1.2).sum

theorem area_rotated {l m : List Point} (h : l ~r m) : area l = area m := by
  unfold area
  exact ((sides_isRotated h).map _).sum_eq

theorem area_split (a b : Point) (l1 l2 : List Point) : area (a :: (l1 ++ b :: l2)) = area (a :: (l1 ++ [b])) + area (b :: (l2 ++ [a])) := by
  unfold area
  rw [sides_split, sides_part, sides_part]
  simp only [List.map_append, List.sum_append, List.map_cons, List.map_nil, List.sum_cons, List.sum_nil]
  ring

theorem area_three (x y b : Point) : area [x, y, b] = turn x y b := by
  unfold area turn
  simp [sides_cons]
  ring

theorem area_pos : ∀ (n : Nat) (l : List Point), l.length = n → SimplePolygon l → ValAll l 0 → 0 < area l := by
  intro n
  induction n using Nat.strong_induction_on with
  | _ n ih =>
    intro l hn S hk
    have h3 := S.three
    by_cases h4 : 4 ≤ l.length
    · obtain ⟨a, b, l1, l2, hr, C⟩ := exists_cut S hk h4
      have hlen := hr.perm.length_eq
      have t1 := C.part1.three
      have t2 := C.part2.three
      simp only [List.length_cons, List.length_append, List.length_nil] at hlen t1 t2
      rw [← area_rotated hr, area_split]
      have p1 := ih (a :: (l1 ++ [b])).length (by simp; omega) _ rfl C.part1 C.val1
      have p2 := ih (b :: (l2 ++ [a])).length (by simp; omega) _ rfl C.part2 C.val2
      linarith
    · match l, h3, h4 with
      | [x, y, b], _, _ =>
        rw [area_three]
        have := (ear_three S hk).pos
        rw [turn_cyc] at this
        exact this
      | _ :: _ :: _ :: _ :: _, _, h4 => exact absurd (by simp) h4

theorem path_snoc2 (X : List Point) (b a : Point) : path (X ++ [b, a]) = path (X ++ [b]) ++ [(b, a)] := by
  cases X with
  | nil => simp [path]
  | cons x X =>
    have := path_join x X b [a]
    rw [this]
    simp [path_cons_cons, path_single]

theorem path_reverse : ∀ (l : List Point), path l.reverse = ((path l).map Prod.swap).reverse
  | [] => rfl
  | [a] => rfl
  | a :: b :: m => by
    have ih := path_reverse (b :: m)
    rw [path_cons_cons, List.map_cons, List.reverse_cons (a := (a, b).swap), ← ih]
    have : (a :: b :: m).reverse = m.reverse ++ [b, a] := by simp
    rw [this, path_snoc2]
    simp

/-- The polygon walked the other way. -/
theorem sides_back (a : Point) (m : List Point) : (sides (a :: m.reverse)).Perm ((sides (a :: m)).map Prod.swap) := by
  rw [sides_path, sides_path]
  have : a :: m.reverse ++ [a] = (a :: m ++ [a]).reverse := by simp
  rw [this, path_reverse]
  exact List.reverse_perm _

theorem mem_sides_back {a : Point} {m : List Point} {e : Point × Point} : e ∈ sides (a :: m.reverse) ↔ e.swap ∈ sides (a :: m) := by
  rw [(sides_back a m).mem_iff, List.mem_map]
  constructor
  · rintro ⟨f, hf, rfl⟩; simpa using hf
  · intro h; exact ⟨_, h, by simp⟩

theorem simple_back {a : Point} {m : List Point} (S : SimplePolygon (a :: m)) : SimplePolygon (a :: m.reverse) := by
  refine ⟨by simpa using S.three, by simpa using S.corners, ?_⟩
  intro e he f hf hne p hp hq
  have := S.apart _ (mem_sides_back.1 he) _ (mem_sides_back.1 hf) (fun h => hne (Prod.swap_injective h)) p (OnSeg.flip hp) (OnSeg.flip hq)
  simp only [Prod.fst_swap, Prod.snd_swap] at this
  exact this.symm

theorem sum_neg_int {α : Type} (f g : α → Int) : ∀ (l : List α), (∀ x, f x = - g x) → (l.map f).sum = - (l.map g).sum
  | [], _ => by simp
  | a :: l, h => by simp only [List.map_cons, List.sum_cons, h a, sum_neg_int f g l h]; ring

theorem winding_back (p a : Point) (m : List Point) : winding p (a :: m.reverse) = - winding p (a :: m) := by
  unfold winding around
  rw [((sides_back a m).map _).sum_eq, List.map_map]
  apply sum_neg_int
  rintro ⟨u, v⟩
  exact crossing_antisymm p u v

theorem area_back (a : Point) (m : List Point) : area (a :: m.reverse) = - area (a :: m) := by
  unfold area
  rw [((sides_back a m).map _).sum_eq, List.map_map]
  induction sides (a :: m) with
  | nil => simp
  | cons e l ih =>
    simp only [List.map_cons, List.sum_cons, ih, Function.comp, Prod.fst_swap, Prod.snd_swap]
    ring

theorem val_back {a : Point} {m : List Point} (hk : ValAll (a :: m) (-1)) : ValAll (a :: m.reverse) 0 := by
  intro e he t t0 t1
  obtain ⟨r, hr, h⟩ := hk _ (mem_sides_back.1 he) (1 - t) (by linarith) (by linarith)
  refine ⟨r, hr, fun p hp => ?_⟩
  have e1 : off e.swap.1 e.swap.2 (1 - t) 0 = off e.1 e.2 t 0 := by
    unfold off
    simp only [Prod.fst_swap, Prod.snd_swap]
    apply Prod.ext <;> dsimp only <;> ring
  rw [e1] at h
  have e2 : turn e.swap.1 e.swap.2 p = - turn e.1 e.2 p := by
    simp only [Prod.fst_swap, Prod.snd_swap]
    unfold turn; ring
  have := h p hp
  rw [e2] at this
  rw [winding_back]
  constructor
  · intro h'
    rw [this.2 (by linarith)]; norm_num
  · intro h'
    rw [this.1 (by linarith)]; norm_num

/-- A polygon with positive area goes around its inside to the left. -/
theorem val_of_area {l : List Point} (S : SimplePolygon l) (h : 0 < area l) : ValAll l 0 := by
  obtain ⟨k, hk⟩ := valAll_exists S
  rcases val_zero S hk with rfl | rfl
  · exact hk
  · exfalso
    have h3 := S.three
    match l, h3 with
    | a :: m, _ =>
      have := area_pos _ _ rfl (simple_back S) (val_back hk)
      rw [area_back] at this
      linarith

/-- A point a little to the right, and much less up. -/
def nudge (p : Point) (δ : Rat) : Point := (p.1 + δ, p.2 + δ * δ)

theorem small_const {P : Prop} (h : P) : Small fun _ => P := ⟨1, by norm_num, fun _ _ _ => h⟩

theorem small_quad {a b c : Rat} (h : 0 < a ∨ (a = 0 ∧ (0 < b ∨ (b = 0 ∧ 0 < c)))) : Small fun δ => 0 < a + δ * b + δ * δ * c := by
  rcases h with h | ⟨rfl, h | ⟨rfl, h⟩⟩
  · refine ⟨min 1 (a / (|b| + |c| + 1)) / 2, ?_, ?_⟩
    · have : 0 < |b| + |c| + 1 := by positivity
      exact half_pos (lt_min (by norm_num) (div_pos h this))
    · intro δ d0 d1
      have d1 : δ < min 1 (a / (|b| + |c| + 1)) := by linarith
      have l1 : δ < 1 := lt_of_lt_of_le d1 (min_le_left _ _)
      have l2 : δ < a / (|b| + |c| + 1) := lt_of_lt_of_le d1 (min_le_right _ _)
      rw [lt_div_iff₀ (by positivity)] at l2
      have k1 := mul_le_mul_of_nonneg_left (neg_abs_le b) d0.le
      have k2 := mul_le_mul_of_nonneg_left (neg_abs_le c) (mul_nonneg d0.le d0.le)
      have k3 : δ * δ ≤ δ := by nlinarith
      have k4 := mul_le_mul_of_nonneg_right k3 (abs_nonneg c)
      nlinarith
  · refine ⟨b / (|c| + 1) / 2, half_pos (div_pos h (by positivity)), ?_⟩
    intro δ d0 d1
    have d1 : δ < b / (|c| + 1) := by linarith
    rw [lt_div_iff₀ (by positivity)] at d1
    have k1 := mul_le_mul_of_nonneg_left (neg_abs_le c) d0.le
    have : 0 < b + δ * c := by nlinarith
    have := mul_pos d0 this
    linarith
  · refine ⟨1, by norm_num, ?_⟩
    intro δ d0 _
    have := mul_pos (mul_pos d0 d0) h
    linarith

theorem turn_nudge (a b p : Point) (δ : Rat) : turn a b (nudge p δ) = turn a b p + δ * (-(b.2 - a.2)) + δ * δ * (b.1 - a.1) := by
  unfold turn nudge; ring

theorem small_all {α : Type} {P : α → Rat → Prop} : ∀ (l : List α), (∀ e ∈ l, Small (P e)) → Small fun δ => ∀ e ∈ l, P e δ
  | [], _ => ⟨1, by norm_num, by simp⟩
  | e :: l, h => by
    have h1 := h e (by simp)
    have h2 := small_all l (fun f hf => h f (by simp [hf]))
    obtain ⟨r, hr, h⟩ := h1.and h2
    refine ⟨r, hr, fun δ d0 d1 f hf => ?_⟩
    rcases List.mem_cons.1 hf with rfl | hf
    · exact (h δ d0 d1).1
    · exact (h δ d0 d1).2 f hf

theorem Small.mono {P Q : Rat → Prop} (h : Small P) (hPQ : ∀ δ, 0 < δ → P δ → Q δ) : Small Q := by
  obtain ⟨r, hr, h⟩ := h
  exact ⟨r, hr, fun δ d0 d1 => hPQ δ d0 (h δ d0 d1)⟩

/-- Moving a point a little to the right and much less up changes no crossing. -/
theorem crossing_nudge (p : Point) (e : Point × Point) : Small fun δ => crossing (nudge p δ) e = crossing p e := by
  have hy : ∀ y : Rat, Small fun δ => (y ≤ p.2 + δ * δ ↔ y ≤ p.2) := by
    intro y
    by_cases h : y ≤ p.2
    · exact (small_const h).mono fun δ d0 _ => ⟨fun _ => h, fun _ => by have := mul_pos d0 d0; linarith⟩
    · push Not at h
      exact (small_quad (a := y - p.2) (b := 0) (c := -1) (Or.inl (by linarith))).mono fun δ d0 hh => ⟨fun k => by linarith, fun k => by linarith⟩
  have hu : e.1.2 < e.2.2 → Small fun δ => (0 < turn e.1 e.2 (nudge p δ) ↔ 0 < turn e.1 e.2 p) := by
    intro hlt
    by_cases h : 0 < turn e.1 e.2 p
    · exact (small_quad (a := turn e.1 e.2 p) (b := -(e.2.2 - e.1.2)) (c := e.2.1 - e.1.1) (Or.inl h)).mono fun δ d0 hh => ⟨fun _ => h, fun _ => by rw [turn_nudge]; exact hh⟩
    · push Not at h
      refine (small_quad (a := -turn e.1 e.2 p) (b := e.2.2 - e.1.2) (c := -(e.2.1 - e.1.1)) ?_).mono fun δ d0 hh => ⟨fun k => ?_, fun k => by linarith⟩
      · rcases lt_or_eq_of_le h with k | k
        · exact Or.inl (by linarith)
        · exact Or.inr ⟨by linarith, Or.inl (by linarith)⟩
      · exfalso; rw [turn_nudge] at k; linarith
  have hd : e.2.2 < e.1.2 → Small fun δ => (turn e.1 e.2 (nudge p δ) < 0 ↔ turn e.1 e.2 p < 0) := by
    intro hlt
    by_cases h : turn e.1 e.2 p < 0
    · exact (small_quad (a := -turn e.1 e.2 p) (b := e.2.2 - e.1.2) (c := -(e.2.1 - e.1.1)) (Or.inl (by linarith))).mono fun δ d0 hh => ⟨fun _ => h, fun _ => by rw [turn_nudge]; linarith⟩
    · push Not at h
      refine (small_quad (a := turn e.1 e.2 p) (b := -(e.2.2 - e.1.2)) (c := e.2.1 - e.1.1) ?_).mono fun δ d0 hh => ⟨fun k => ?_, fun k => by linarith⟩
      · rcases lt_or_eq_of_le h with k | k
        · exact Or.inl k
        · exact Or.inr ⟨k.symm, Or.inl (by linarith)⟩
      · exfalso; rw [turn_nudge] at k; linarith
  have core : ∀ δ : Rat, (e.1.2 ≤ p.2 + δ * δ ↔ e.1.2 ≤ p.2) → (e.2.2 ≤ p.2 + δ * δ ↔ e.2.2 ≤ p.2) →
      (e.1.2 < e.2.2 → (0 < turn e.1 e.2 (nudge p δ) ↔ 0 < turn e.1 e.2 p)) → (e.2.2 < e.1.2 → (turn e.1 e.2 (nudge p δ) < 0 ↔ turn e.1 e.2 p < 0)) →
      crossing (nudge p δ) e = crossing p e := by
    intro δ k1 k2 k3 k4
    unfold crossing
    have n2 : (nudge p δ).2 = p.2 + δ * δ := rfl
    rw [n2]
    have k1' : p.2 + δ * δ < e.1.2 ↔ p.2 < e.1.2 := by rw [← not_le, ← not_le, k1]
    have k2' : p.2 + δ * δ < e.2.2 ↔ p.2 < e.2.2 := by rw [← not_le, ← not_le, k2]
    have c1 : (e.1.2 ≤ p.2 + δ * δ ∧ p.2 + δ * δ < e.2.2 ∧ 0 < turn e.1 e.2 (nudge p δ)) ↔ (e.1.2 ≤ p.2 ∧ p.2 < e.2.2 ∧ 0 < turn e.1 e.2 p) := by
      rw [k1, k2']
      constructor
      · rintro ⟨a, b, c⟩; exact ⟨a, b, (k3 (by linarith)).1 c⟩
      · rintro ⟨a, b, c⟩; exact ⟨a, b, (k3 (by linarith)).2 c⟩
    have c2 : (e.2.2 ≤ p.2 + δ * δ ∧ p.2 + δ * δ < e.1.2 ∧ turn e.1 e.2 (nudge p δ) < 0) ↔ (e.2.2 ≤ p.2 ∧ p.2 < e.1.2 ∧ turn e.1 e.2 p < 0) := by
      rw [k2, k1']
      constructor
      · rintro ⟨a, b, c⟩; exact ⟨a, b, (k4 (by linarith)).1 c⟩
      · rintro ⟨a, b, c⟩; exact ⟨a, b, (k4 (by linarith)).2 c⟩
    simp only [c1, c2]
  have hu' : Small fun δ => (e.1.2 < e.2.2 → (0 < turn e.1 e.2 (nudge p δ) ↔ 0 < turn e.1 e.2 p)) := by
    by_cases h : e.1.2 < e.2.2
    · exact (hu h).mono fun δ _ k _ => k
    · exact (small_const h).mono fun δ _ k k' => absurd k' k
  have hd' : Small fun δ => (e.2.2 < e.1.2 → (turn e.1 e.2 (nudge p δ) < 0 ↔ turn e.1 e.2 p < 0)) := by
    by_cases h : e.2.2 < e.1.2
    · exact (hd h).mono fun δ _ k _ => k
    · exact (small_const h).mono fun δ _ k k' => absurd k' k
  exact (((hy e.1.2).and (hy e.2.2)).and (hu'.and hd')).mono fun δ _ k => core δ k.1.1 k.1.2 k.2.1 k.2.2

theorem winding_nudge (p : Point) (l : List Point) : Small fun δ => winding (nudge p δ) l = winding p l := by
  refine (small_all (P := fun e δ => crossing (nudge p δ) e = crossing p e) (sides l) (fun e _ => crossing_nudge p e)).mono fun δ _ h => ?_
  unfold winding around
  congr 1
  apply List.map_congr_left
  exact h

/-- The moved point is off the line through two different points. -/
theorem nudge_off (p : Point) {a b : Point} (h : a ≠ b) : Small fun δ => turn a b (nudge p δ) ≠ 0 := by
  have pos : ∀ {x y z : Rat}, (0 < x ∨ (x = 0 ∧ (0 < y ∨ (y = 0 ∧ 0 < z)))) → Small fun δ => x + δ * y + δ * δ * z ≠ 0 :=
    fun hh => (small_quad hh).mono fun _ _ k => ne_of_gt k
  have neg : ∀ {x y z : Rat}, (0 < -x ∨ (-x = 0 ∧ (0 < -y ∨ (-y = 0 ∧ 0 < -z)))) → Small fun δ => x + δ * y + δ * δ * z ≠ 0 :=
    fun hh => (small_quad hh).mono fun _ _ k => by intro e; linarith
  have all : ∀ x y z : Rat, (x ≠ 0 ∨ y ≠ 0 ∨ z ≠ 0) → Small fun δ => x + δ * y + δ * δ * z ≠ 0 := by
    intro x y z hh
    rcases lt_trichotomy x 0 with h | h | h
    · exact neg (Or.inl (by linarith))
    · rcases lt_trichotomy y 0 with k | k | k
      · exact neg (Or.inr ⟨by linarith, Or.inl (by linarith)⟩)
      · rcases lt_trichotomy z 0 with m | m | m
        · exact neg (Or.inr ⟨by linarith, Or.inr ⟨by linarith, by linarith⟩⟩)
        · rcases hh with hh | hh | hh
          · exact absurd h hh
          · exact absurd k hh
          · exact absurd m hh
        · exact pos (Or.inr ⟨h, Or.inr ⟨k, m⟩⟩)
      · exact pos (Or.inr ⟨h, Or.inl k⟩)
    · exact pos (Or.inl h)
  refine (all (turn a b p) (-(b.2 - a.2)) (b.1 - a.1) ?_).mono fun δ _ k => by rw [turn_nudge]; exact k
  by_contra hn
  push Not at hn
  exact h (Prod.ext (by linarith [hn.2.2]) (by linarith [hn.2.1]))

/-- Three points that turn left are a polygon that does not touch itself. -/
theorem tri_simple {a b c : Point} (hT : 0 < turn a b c) : SimplePolygon [a, b, c] := by
  have ab : a ≠ b := by rintro rfl; unfold turn at hT; linarith
  have bc : b ≠ c := by rintro rfl; unfold turn at hT; linarith
  have ac : a ≠ c := by rintro rfl; unfold turn at hT; linarith
  have on : ∀ {u v p : Point}, OnSeg p (u, v) → turn u v p = 0 := by
    rintro u v p ⟨t, _, _, e1, e2⟩
    dsimp only at e1 e2
    unfold turn; rw [e1, e2]; ring
  have meet : ∀ {u v w p : Point}, 0 < turn u v w → turn u v p = 0 → turn v w p = 0 → p = v := by
    intro u v w p h h1 h2
    have hs := turn_sum u v w p
    have hb := bary u v w p
    rw [h1, h2] at hs hb
    have e : turn w u p = turn u v w := by linarith
    rw [e] at hb
    have hne := ne_of_gt h
    apply Prod.ext
    · have : turn u v w * (p.1 - v.1) = 0 := by linarith [hb.1]
      linarith [(mul_eq_zero.1 this).resolve_left hne]
    · have : turn u v w * (p.2 - v.2) = 0 := by linarith [hb.2]
      linarith [(mul_eq_zero.1 this).resolve_left hne]
  have t2 : 0 < turn b c a := by rw [turn_cyc]; exact hT
  have t3 : 0 < turn c a b := by rw [turn_cyc, turn_cyc]; exact hT
  have hs : sides [a, b, c] = [(a, b), (b, c), (c, a)] := by simp [sides_cons]
  refine ⟨by simp, by simp [ab, bc, ac], ?_⟩
  rw [hs]
  intro e he f hf hne p hp hq
  simp only [List.mem_cons, List.not_mem_nil, or_false] at he hf
  rcases he with rfl | rfl | rfl <;> rcases hf with rfl | rfl | rfl
  · exact absurd rfl hne
  · have := meet hT (on hp) (on hq); exact Or.inl ⟨this, this⟩
  · have := meet t3 (on hq) (on hp); exact Or.inr ⟨this, this⟩
  · have := meet hT (on hq) (on hp); exact Or.inr ⟨this, this⟩
  · exact absurd rfl hne
  · have := meet t2 (on hp) (on hq); exact Or.inl ⟨this, this⟩
  · have := meet t3 (on hp) (on hq); exact Or.inl ⟨this, this⟩
  · have := meet t2 (on hq) (on hp); exact Or.inr ⟨this, this⟩
  · exact absurd rfl hne

theorem tri_val {a b c : Point} (hT : 0 < turn a b c) : ValAll [a, b, c] 0 := val_of_area (tri_simple hT) (by rw [area_three]; exact hT)

/-- A triangle goes around the points in it once. -/
theorem tri_in {a b c p : Point} (h1 : 0 < turn a b p) (h2 : 0 < turn b c p) (h3 : 0 < turn c a p) : winding p [a, b, c] = 1 := by
  have hT : 0 < turn a b c := by rw [← turn_sum a b c p]; linarith
  have hs : sides [a, b, c] = [(a, b), (b, c), (c, a)] := by simp [sides_cons]
  have ray := corner_ray (tri_simple hT) (tri_val hT) (u := a) (v := b) (x := c) (z := p) (by rw [hs]; simp) (by rw [hs]; simp) (by
    intro f hf y hy hyf
    obtain ⟨t, t0, t1, e1, e2⟩ := hy
    have ey : y = off b p t 0 := by
      apply Prod.ext
      · rw [e1]; unfold off; dsimp only; ring
      · rw [e2]; unfold off; dsimp only; ring
    rcases lt_or_eq_of_le t0 with tp | tp
    · exfalso
      have q1 : 0 < turn a b y := by rw [ey, turn_ray]; exact mul_pos tp h1
      have q2 : 0 < turn b c y := by rw [ey, turn_ray']; exact mul_pos tp h2
      have q3 : 0 < turn c a y := by
        have e3 : turn c a y = (1 - t) * turn c a b + t * turn c a p := by rw [ey, turn_mix]; ring
        rw [e3]
        have e4 : turn c a b = turn a b c := by rw [turn_cyc, turn_cyc]
        rw [e4]
        have := mul_nonneg (by linarith : 0 ≤ 1 - t) hT.le
        have := mul_pos tp h3
        linarith
      have on : ∀ {u v : Point}, OnSeg y (u, v) → turn u v y = 0 := by
        rintro u v ⟨t, _, _, e1, e2⟩
        dsimp only at e1 e2
        unfold turn; rw [e1, e2]; ring
      rw [hs] at hf
      simp only [List.mem_cons, List.not_mem_nil, or_false] at hf
      rcases hf with rfl | rfl | rfl
      · linarith [on hyf]
      · linarith [on hyf]
      · linarith [on hyf]
    · rw [ey, ← tp]; unfold off; apply Prod.ext <;> dsimp only <;> ring)
  have := ray.1 (Or.inl ⟨hT, h1, h2⟩)
  rw [this]; rfl

/-- A triangle does not go around points beyond a side. -/
theorem tri_out {a b c p : Point} (hT : 0 < turn a b c) (h : turn a b p < 0 ∨ turn b c p < 0 ∨ turn c a p < 0) : winding p [a, b, c] = 0 := by
  have key : ∀ {u v w : Point}, 0 < turn u v w → turn u v p < 0 → ∀ l : List Point, (∀ q ∈ l, q = u ∨ q = v ∨ q = w) → winding p l = 0 := by
    intro u v w h1 h2 l hl
    have e : ∀ q, aff (v.2 - u.2) (-(v.1 - u.1)) (-(v.2 - u.2) * u.1 + (v.1 - u.1) * u.2) q = - turn u v q := by
      intro q; unfold aff turn; ring
    apply winding_beyond (A := v.2 - u.2) (B := -(v.1 - u.1)) (C := -(v.2 - u.2) * u.1 + (v.1 - u.1) * u.2)
    · rw [e]; linarith
    · intro q hq
      rw [e]
      rcases hl q hq with rfl | rfl | rfl
      · rw [turn_fst]; simp
      · rw [turn_snd]; simp
      · linarith
  rcases h with h | h | h
  · exact key hT h _ (by simp)
  · exact key (by rw [turn_cyc]; exact hT) h _ (by simp)
  · exact key (by rw [turn_cyc, turn_cyc]; exact hT) h _ (by simp)

/-- Cutting off an ear cuts along its base. -/
theorem ear_cut {l : List Point} (S : SimplePolygon l) (hk : ValAll l 0) (hl : 4 ≤ l.length) {a b c : Point} (E : Ear l a b c) :
    ∃ m, (a :: ([b] ++ c :: m)) ~r l ∧ Cut a c [b] m := by
  obtain ⟨m, hm⟩ := corner_decomp S E.first E.second
  have hlen := hm.perm.length_eq
  simp only [List.length_cons] at hlen
  have hm0 : m ≠ [] := by rintro rfl; simp at hlen; omega
  obtain ⟨l2, d, rfl⟩ : ∃ m' d, m = m' ++ [d] := ⟨_, _, (List.dropLast_append_getLast hm0).symm⟩
  have hd : (d, a) ∈ sides l := by
    rw [← (sides_isRotated hm).mem_iff]
    have : a :: b :: c :: (l2 ++ [d]) = a :: ((b :: c :: l2) ++ [d]) := by simp
    rw [this, sides_part]; simp
  have hr : (a :: (b :: [] ++ c :: (l2 ++ [d]))) ~r l := hm
  exact ⟨l2 ++ [d], hr, cut_diagonal (simple_rotated hr.symm S) (hk.rotated hr.symm) ((E.diagonal S hl).rotated hr.symm) (E.cone S hl hd)⟩

/-- A point off all lines through two corners: the polygon goes around it once or not at all. -/
theorem winding_off : ∀ (n : Nat) (l : List Point), l.length = n → SimplePolygon l → ValAll l 0 → ∀ p, (∀ q ∈ l, ∀ q' ∈ l, q ≠ q' → turn q q' p ≠ 0) →
    winding p l = 0 ∨ winding p l = 1 := by
  have tri : ∀ {a b c p : Point}, 0 < turn a b c → turn a b p ≠ 0 → turn b c p ≠ 0 → turn c a p ≠ 0 →
      (0 < turn a b p ∧ 0 < turn b c p ∧ 0 < turn c a p) ∨ winding p [a, b, c] = 0 := by
    intro a b c p hT n1 n2 n3
    rcases lt_or_gt_of_ne n1 with h1 | h1
    · exact Or.inr (tri_out hT (Or.inl h1))
    rcases lt_or_gt_of_ne n2 with h2 | h2
    · exact Or.inr (tri_out hT (Or.inr (Or.inl h2)))
    rcases lt_or_gt_of_ne n3 with h3 | h3
    · exact Or.inr (tri_out hT (Or.inr (Or.inr h3)))
    exact Or.inl ⟨h1, h2, h3⟩
  intro n
  induction n using Nat.strong_induction_on with
  | _ n ih =>
    intro l hn S hk p hp
    have h3 := S.three
    by_cases h4 : 4 ≤ l.length
    · obtain ⟨a, b, c, E⟩ := exists_ear S hk
      obtain ⟨m, hr, C⟩ := ear_cut S hk h4 E
      have hlen := hr.perm.length_eq
      simp only [List.length_cons, List.length_append, List.length_nil] at hlen
      have ha := (mem_sides E.first).1
      have hb := (mem_sides E.first).2
      have hc := (mem_sides E.second).2
      rw [← winding_rotated hr, winding_split]
      have e1 : a :: ([b] ++ [c]) = [a, b, c] := rfl
      rw [e1]
      rcases tri E.pos (hp a ha b hb (side_ne S E.first)) (hp b hb c hc (side_ne S E.second)) (hp c hc a ha (Ne.symm (corner_ne S E.first E.second))) with ⟨p1, p2, p3⟩ | h0
      · right
        rw [tri_in p1 p2 p3]
        have : winding p (c :: (m ++ [a])) = winding b (c :: (m ++ [a])) := by
          apply winding_same
          intro f hf
          apply apart_of_disjoint (side_ne C.part2 hf)
          intro y hy hyf
          obtain ⟨t, t0, t1, f1, f2⟩ := hy
          have ht0 : 0 ≤ 1 - t := by linarith
          have y1 : turn a b y = (1 - t) * turn a b p + t * turn a b b := seg_turn f1 f2
          have y2 : turn b c y = (1 - t) * turn b c p + t * turn b c b := seg_turn f1 f2
          have y3 : turn c a y = (1 - t) * turn c a p + t * turn c a b := seg_turn f1 f2
          rw [turn_snd] at y1
          rw [turn_fst] at y2
          have e4 : turn c a b = turn a b c := by rw [turn_cyc, turn_cyc]
          rw [e4] at y3
          have hT := E.pos
          have q1 : 0 ≤ turn a b y := by rw [y1]; have := mul_nonneg ht0 p1.le; linarith
          have q2 : 0 ≤ turn b c y := by rw [y2]; have := mul_nonneg ht0 p2.le; linarith
          have q3 : 0 < turn c a y := by
            rw [y3]
            rcases lt_or_eq_of_le t0 with k | k
            · have := mul_nonneg ht0 p3.le
              have := mul_pos k hT
              linarith
            · rw [← k]; linarith
          have hnd := C.whole.corners
          rw [sides_part] at hf
          rcases List.mem_append.1 hf with hf | hf
          · have hfl : f ∈ sides l := by
              rw [← (sides_isRotated hr).mem_iff, sides_split]
              exact List.mem_append_right _ hf
            have fm := path_ends' hf
            have hbn : b ∉ c :: m ∧ b ∉ m ++ [a] := by
              simp only [List.singleton_append, List.nodup_cons, List.mem_cons, not_or] at hnd
              constructor
              · simp only [List.mem_cons, not_or]; exact hnd.2.1
              · simp only [List.mem_append, List.mem_singleton, not_or]; exact ⟨hnd.2.1.2, Ne.symm hnd.1.1⟩
            have m1 : f ≠ (a, b) := by rintro rfl; exact hbn.2 fm.2
            have m2 : f ≠ (b, c) := by rintro rfl; exact hbn.1 fm.1
            have := E.clear S hfl m1 m2 hyf ⟨q1, q2, q3.le⟩
            linarith
          · simp only [List.mem_singleton] at hf
            subst hf
            obtain ⟨s, _, _, g1, g2⟩ := hyf
            have : turn c a y = 0 := by unfold turn; rw [g1, g2]; ring
            linarith
        rw [this, C.rest2 b (by simp)]
        rfl
      · rw [h0, zero_add]
        refine ih (c :: (m ++ [a])).length (by simp; omega) _ rfl C.part2 C.val2 p ?_
        have hsub : ∀ q ∈ c :: (m ++ [a]), q ∈ l := by
          intro q hq
          apply hr.mem_iff.1
          simp only [List.mem_cons, List.mem_append, List.not_mem_nil, or_false] at hq ⊢
          tauto
        intro q hq q' hq'
        exact hp q (hsub q hq) q' (hsub q' hq')
    · match l, h3, h4 with
      | [x, y, b], _, _ =>
        have hT : 0 < turn x y b := by
          have := (ear_three S hk).pos
          rw [turn_cyc] at this
          exact this
        have hnd := S.corners
        simp only [List.nodup_cons, List.mem_cons, List.not_mem_nil, or_false, not_or] at hnd
        rcases tri hT (hp x (by simp) y (by simp) hnd.1.1) (hp y (by simp) b (by simp) hnd.2.1) (hp b (by simp) x (by simp) (Ne.symm hnd.1.2)) with ⟨p1, p2, p3⟩ | h0
        · exact Or.inr (tri_in p1 p2 p3)
        · exact Or.inl h0
      | _ :: _ :: _ :: _ :: _, _, h4 => exact absurd (by simp) h4

theorem winding_once {l : List Point} (S : SimplePolygon l) (hk : ValAll l 0) (p : Point) : winding p l = 0 ∨ winding p l = 1 := by
  classical
  have h1 := winding_nudge p l
  have h2 := small_all (P := fun (e : Point × Point) δ => e.1 ≠ e.2 → turn e.1 e.2 (nudge p δ) ≠ 0) (l.product l) (by
    intro e _
    by_cases h : e.1 = e.2
    · exact (small_const h).mono fun _ _ k k' => absurd k k'
    · exact (nudge_off p h).mono fun _ _ k _ => k)
  obtain ⟨δ, _, k1, k2⟩ := (h1.and h2).exists
  rw [← k1]
  exact winding_off _ _ rfl S hk _ (fun q hq q' hq' hne => k2 (q, q') (List.mem_product.2 ⟨hq, hq'⟩) hne)

end Rerecast.Jordan
