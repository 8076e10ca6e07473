import Verif.Lemmas.Jordan2
/-! Around a corner of a polygon that does not touch itself; the polygon winds 0 or 1 times around the points beside it, or 0 or -1 times. -/
namespace Rerecast.Jordan
open List

theorem straight {l : List Point} (S : SimplePolygon l) {u v x : Point} (h1 : (u, v) ∈ sides l) (h2 : (v, x) ∈ sides l) (hT : turn u v x = 0) :
    ∃ c : Rat, 0 < c ∧ x.1 = v.1 + c * (v.1 - u.1) ∧ x.2 = v.2 + c * (v.2 - u.2) := by
  obtain ⟨a, ha1, ha2⟩ := on_line (side_ne S h1) hT
  have hux := corner_ne S h1 h2
  have hvx := side_ne S h2
  have huv := side_ne S h1
  rcases lt_or_ge 1 a with h | h
  · exact ⟨a - 1, by linarith, by rw [ha1]; ring, by rw [ha2]; ring⟩
  exfalso
  rcases lt_or_ge a 0 with h0 | h0
  · have hd : (1 - a) ≠ 0 := by intro h; linarith
    have := corner_on_side S (mem_sides h1).1 h2 ⟨1 / (1 - a), by apply div_nonneg <;> linarith, by rw [div_le_one (by linarith)]; linarith, by
      dsimp only; rw [ha1]; field_simp; ring, by dsimp only; rw [ha2]; field_simp; ring⟩
    rcases this with h | h
    · exact huv h
    · exact hux h
  · have := corner_on_side S (mem_sides h2).2 h1 ⟨a, h0, h, ha1, ha2⟩
    rcases this with h | h
    · exact hux h.symm
    · exact hvx h.symm

theorem apart_line {p q u v a b : Point} (h1 : 0 < turn a b p) (h2 : 0 < turn a b q) (h3 : turn a b u ≤ 0) (h4 : turn a b v ≤ 0) : Apart p q u v := by
  refine ⟨-(b.2 - a.2), b.1 - a.1, a.1 * (b.2 - a.2) - a.2 * (b.1 - a.1), ?_, ?_, ?_, ?_⟩ <;> unfold aff <;> unfold turn at h1 h2 h3 h4 <;> linarith

theorem apart_line' {p q u v a b : Point} (h1 : turn a b p < 0) (h2 : turn a b q < 0) (h3 : 0 ≤ turn a b u) (h4 : 0 ≤ turn a b v) : Apart p q u v := by
  apply apart_line (a := b) (b := a) <;> rw [turn_swap] <;> linarith

theorem turn_fst (a b : Point) : turn a b a = 0 := by unfold turn; ring
theorem turn_snd (a b : Point) : turn a b b = 0 := by unfold turn; ring
theorem turn_cyc (a b c : Point) : turn b c a = turn a b c := by unfold turn; ring

theorem corner_box {l : List Point} (S : SimplePolygon l) {u v x : Point} (h1 : (u, v) ∈ sides l) (h2 : (v, x) ∈ sides l) :
    ∃ r : Rat, 0 < r ∧ ∀ p q, near r v p → near r v q → ∀ e ∈ sides l, e ≠ (u, v) → e ≠ (v, x) → Apart p q e.1 e.2 := by
  obtain ⟨r, hr, hb⟩ := box_all (p := v) (q := v) ((sides l).filter (fun e => e ≠ (u, v) ∧ e ≠ (v, x))) (by
    intro e he
    simp only [List.mem_filter, decide_eq_true_eq] at he
    apply apart_of_disjoint (side_ne S he.1)
    rintro y ⟨s, s0, s1, e1, e2⟩ hy
    have ey : y = v := by
      apply Prod.ext
      · rw [e1]; ring
      · rw [e2]; ring
    subst ey
    rcases corner_on_side S (mem_sides h1).2 he.1 hy with h | h
    · have : e = (y, x) := by
        obtain ⟨a, b⟩ := e
        dsimp only at h; subst h
        rw [sides_fst_inj S.corners h2 he.1]
      exact he.2.2 this
    · have : e = (u, y) := by
        obtain ⟨a, b⟩ := e
        dsimp only at h; subst h
        rw [sides_snd_inj' S.corners h1 he.1]
      exact he.2.1 this)
  exact ⟨r, hr, fun p q hp hq e he hne hne' => hb p q hp hq e (by simp [he, hne, hne'])⟩

/-- How far the second side goes on in the direction of the first. -/
def ahead (u v x : Point) : Rat := (v.1 - u.1) * (x.1 - v.1) + (v.2 - u.2) * (x.2 - v.2)

theorem near_before (u v : Point) {r : Rat} (hr : 0 < r) : Small fun δ => near r v (off u v (1 - δ) 0) := by
  obtain ⟨s, hs, h⟩ := (small_mul (v.1 - u.1) hr).and (small_mul (v.2 - u.2) hr)
  refine ⟨s, hs, fun δ h0 h1 => ?_⟩
  have := h δ h0 h1
  constructor <;> unfold off <;> dsimp only
  · rw [show u.1 + (1 - δ) * (v.1 - u.1) - 0 * (v.2 - u.2) - v.1 = -(δ * (v.1 - u.1)) by ring, abs_neg]; exact this.1
  · rw [show u.2 + (1 - δ) * (v.2 - u.2) + 0 * (v.1 - u.1) - v.2 = -(δ * (v.2 - u.2)) by ring, abs_neg]; exact this.2

theorem near_after (v x : Point) {r : Rat} (hr : 0 < r) : Small fun δ => near r v (off v x δ 0) := by
  obtain ⟨s, hs, h⟩ := (small_mul (x.1 - v.1) hr).and (small_mul (x.2 - v.2) hr)
  refine ⟨s, hs, fun δ h0 h1 => ?_⟩
  have := h δ h0 h1
  constructor <;> unfold off <;> dsimp only
  · rw [show v.1 + δ * (x.1 - v.1) - 0 * (x.2 - v.2) - v.1 = δ * (x.1 - v.1) by ring]; exact this.1
  · rw [show v.2 + δ * (x.2 - v.2) + 0 * (x.1 - v.1) - v.2 = δ * (x.2 - v.2) by ring]; exact this.2

/-- Points beside the first side near the corner. -/
theorem ref_before {l : List Point} {u v x : Point} {k : Int} (huv : u ≠ v) (hv : Val l u v k) (hd : turn u v x = 0 → 0 < ahead u v x) {r : Rat} (hr : 0 < r) :
    (∃ p, near r v p ∧ 0 < turn u v p ∧ winding p l = k + 1 ∧ (0 ≤ turn u v x → 0 < turn v x p)) ∧
    (∃ p, near r v p ∧ turn u v p < 0 ∧ winding p l = k ∧ (turn u v x ≤ 0 → turn v x p < 0)) := by
  have hN := norm_pos huv
  obtain ⟨δ, hδ, nδ, lδ⟩ := ((near_before u v (show 0 < r / 2 by linarith)).and (small_lt (show (0 : Rat) < 1 by norm_num))).exists
  obtain ⟨s, hs, hval⟩ := hv (1 - δ) (by linarith) (by linarith)
  have e1 : ∀ ε, turn v x (off u v (1 - δ) ε) = δ * turn u v x + ε * ahead u v x := by intro ε; unfold turn off ahead; ring
  constructor
  · have sm : Small fun ε => 0 ≤ turn u v x → 0 < δ * turn u v x + ε * ahead u v x := by
      by_cases hT : 0 ≤ turn u v x
      · obtain ⟨a, ha, h⟩ := small_pos (T := δ * turn u v x) (D := ahead u v x) (by
          rcases lt_or_eq_of_le hT with h | h
          · exact Or.inl (mul_pos hδ h)
          · exact Or.inr ⟨by rw [← h]; ring, hd h.symm⟩)
        exact ⟨a, ha, fun ε h0 h1 _ => h ε h0 h1⟩
      · exact ⟨1, by norm_num, fun ε _ _ h => absurd h hT⟩
    obtain ⟨ε, hε, ⟨⟨n1, _⟩, n2, _⟩, h3⟩ := (((small_off u v (1 - δ) (show 0 < r / 2 by linarith)).and (small_off u v (1 - δ) hs)).and sm).exists
    have ht : 0 < turn u v (off u v (1 - δ) ε) := by rw [turn_off]; exact mul_pos hε hN
    exact ⟨off u v (1 - δ) ε, (nδ.trans n1).mono (by linarith), ht, (hval _ n2).1 ht, fun h => by rw [e1]; exact h3 h⟩
  · have sm : Small fun ε => turn u v x ≤ 0 → δ * turn u v x + -ε * ahead u v x < 0 := by
      by_cases hT : turn u v x ≤ 0
      · obtain ⟨a, ha, h⟩ := small_pos (T := -(δ * turn u v x)) (D := ahead u v x) (by
          rcases lt_or_eq_of_le hT with h | h
          · left; nlinarith
          · exact Or.inr ⟨by rw [h]; ring, hd h⟩)
        exact ⟨a, ha, fun ε h0 h1 _ => by have := h ε h0 h1; linarith⟩
      · exact ⟨1, by norm_num, fun ε _ _ h => absurd h hT⟩
    obtain ⟨ε, hε, ⟨⟨_, n1⟩, _, n2⟩, h3⟩ := (((small_off u v (1 - δ) (show 0 < r / 2 by linarith)).and (small_off u v (1 - δ) hs)).and sm).exists
    have ht : turn u v (off u v (1 - δ) (-ε)) < 0 := by rw [turn_off]; nlinarith
    exact ⟨off u v (1 - δ) (-ε), (nδ.trans n1).mono (by linarith), ht, (hval _ n2).2 ht, fun h => by rw [e1]; exact h3 h⟩

/-- Points beside the second side near the corner. -/
theorem ref_after {l : List Point} {u v x : Point} {k : Int} (hvx : v ≠ x) (hv : Val l v x k) (hd : turn u v x = 0 → 0 < ahead u v x) {r : Rat} (hr : 0 < r) :
    (∃ p, near r v p ∧ 0 < turn v x p ∧ winding p l = k + 1 ∧ (0 ≤ turn u v x → 0 < turn u v p)) ∧
    (∃ p, near r v p ∧ turn v x p < 0 ∧ winding p l = k ∧ (turn u v x ≤ 0 → turn u v p < 0)) := by
  have hN := norm_pos hvx
  obtain ⟨δ, hδ, nδ, lδ⟩ := ((near_after v x (show 0 < r / 2 by linarith)).and (small_lt (show (0 : Rat) < 1 by norm_num))).exists
  obtain ⟨s, hs, hval⟩ := hv δ (by linarith) (by linarith)
  have e1 : ∀ ε, turn u v (off v x δ ε) = δ * turn u v x + ε * ahead u v x := by intro ε; unfold turn off ahead; ring
  constructor
  · have sm : Small fun ε => 0 ≤ turn u v x → 0 < δ * turn u v x + ε * ahead u v x := by
      by_cases hT : 0 ≤ turn u v x
      · obtain ⟨a, ha, h⟩ := small_pos (T := δ * turn u v x) (D := ahead u v x) (by
          rcases lt_or_eq_of_le hT with h | h
          · exact Or.inl (mul_pos hδ h)
          · exact Or.inr ⟨by rw [← h]; ring, hd h.symm⟩)
        exact ⟨a, ha, fun ε h0 h1 _ => h ε h0 h1⟩
      · exact ⟨1, by norm_num, fun ε _ _ h => absurd h hT⟩
    obtain ⟨ε, hε, ⟨⟨n1, _⟩, n2, _⟩, h3⟩ := (((small_off v x δ (show 0 < r / 2 by linarith)).and (small_off v x δ hs)).and sm).exists
    have ht : 0 < turn v x (off v x δ ε) := by rw [turn_off]; exact mul_pos hε hN
    exact ⟨off v x δ ε, (nδ.trans n1).mono (by linarith), ht, (hval _ n2).1 ht, fun h => by rw [e1]; exact h3 h⟩
  · have sm : Small fun ε => turn u v x ≤ 0 → δ * turn u v x + -ε * ahead u v x < 0 := by
      by_cases hT : turn u v x ≤ 0
      · obtain ⟨a, ha, h⟩ := small_pos (T := -(δ * turn u v x)) (D := ahead u v x) (by
          rcases lt_or_eq_of_le hT with h | h
          · left; nlinarith
          · exact Or.inr ⟨by rw [h]; ring, hd h⟩)
        exact ⟨a, ha, fun ε h0 h1 _ => by have := h ε h0 h1; linarith⟩
      · exact ⟨1, by norm_num, fun ε _ _ h => absurd h hT⟩
    obtain ⟨ε, hε, ⟨⟨_, n1⟩, _, n2⟩, h3⟩ := (((small_off v x δ (show 0 < r / 2 by linarith)).and (small_off v x δ hs)).and sm).exists
    have ht : turn v x (off v x δ (-ε)) < 0 := by rw [turn_off]; nlinarith
    exact ⟨off v x δ (-ε), (nδ.trans n1).mono (by linarith), ht, (hval _ n2).2 ht, fun h => by rw [e1]; exact h3 h⟩

/-- The point `p` is in the angle to the left of the corner. -/
def InLeft (u v x p : Point) : Prop :=
  (0 < turn u v x ∧ 0 < turn u v p ∧ 0 < turn v x p) ∨ (turn u v x ≤ 0 ∧ (0 < turn u v p ∨ 0 < turn v x p))

/-- The point `p` is in the angle to the right of the corner. -/
def InRight (u v x p : Point) : Prop :=
  (turn u v x < 0 ∧ turn u v p < 0 ∧ turn v x p < 0) ∨ (0 ≤ turn u v x ∧ (turn u v p < 0 ∨ turn v x p < 0))

theorem corner_same {l : List Point} {u v x p q : Point} (h : ∀ e ∈ sides l, e ≠ (u, v) → e ≠ (v, x) → Apart p q e.1 e.2) (h1 : Apart p q u v)
    (h2 : Apart p q v x) : winding p l = winding q l := by
  apply winding_same
  intro e he
  by_cases a : e = (u, v)
  · subst a; exact h1
  · by_cases b : e = (v, x)
    · subst b; exact h2
    · exact h e he a b

theorem straight_ahead {l : List Point} (S : SimplePolygon l) {u v x : Point} (h1 : (u, v) ∈ sides l) (h2 : (v, x) ∈ sides l) :
    turn u v x = 0 → 0 < ahead u v x := by
  intro hT
  obtain ⟨c, hc, e1, e2⟩ := straight S h1 h2 hT
  have := norm_pos (side_ne S h1)
  unfold ahead
  rw [e1, e2]
  nlinarith [mul_pos hc this]

/-- The number of windings is the same along the next side. -/
theorem val_next {l : List Point} (S : SimplePolygon l) {u v x : Point} (h1 : (u, v) ∈ sides l) (h2 : (v, x) ∈ sides l) {k k' : Int} (hk : Val l u v k)
    (hk' : Val l v x k') : k = k' := by
  obtain ⟨r, hr, hb⟩ := corner_box S h1 h2
  have hd := straight_ahead S h1 h2
  have A := ref_before (side_ne S h1) hk hd hr
  have B := ref_after (side_ne S h2) hk' hd hr
  rcases le_or_gt 0 (turn u v x) with hT | hT
  · obtain ⟨p, p1, p2, p3, p4⟩ := A.1
    obtain ⟨q, q1, q2, q3, q4⟩ := B.1
    have := corner_same (hb p q p1 q1) (apart_pos p2 (q4 hT)) (apart_pos (p4 hT) q2)
    omega
  · obtain ⟨p, p1, p2, p3, p4⟩ := A.2
    obtain ⟨q, q1, q2, q3, q4⟩ := B.2
    have := corner_same (hb p q p1 q1) (apart_neg p2 (q4 hT.le)) (apart_neg (p4 hT.le) q2)
    omega

/-- Around a corner. -/
theorem corner_val {l : List Point} (S : SimplePolygon l) {u v x : Point} (h1 : (u, v) ∈ sides l) (h2 : (v, x) ∈ sides l) {k : Int} (hk : Val l u v k)
    (hk' : Val l v x k) : ∃ r : Rat, 0 < r ∧ ∀ p, near r v p → (InLeft u v x p → winding p l = k + 1) ∧ (InRight u v x p → winding p l = k) := by
  obtain ⟨r, hr, hb⟩ := corner_box S h1 h2
  have hd := straight_ahead S h1 h2
  obtain ⟨⟨a, a1, a2, a3, a4⟩, ⟨a', a1', a2', a3', a4'⟩⟩ := ref_before (side_ne S h1) hk hd hr
  obtain ⟨⟨b, b1, b2, b3, b4⟩, ⟨b', b1', b2', b3', b4'⟩⟩ := ref_after (side_ne S h2) hk' hd hr
  have hcyc := turn_cyc u v x
  refine ⟨r, hr, fun p hp => ⟨fun h => ?_, fun h => ?_⟩⟩
  · rcases h with ⟨hT, t1, t2⟩ | ⟨hT, t1 | t1⟩
    · rw [corner_same (hb p a hp a1) (apart_pos t1 a2) (apart_pos t2 (a4 hT.le)), a3]
    · rw [corner_same (hb p a hp a1) (apart_pos t1 a2) (apart_line t1 a2 (by rw [turn_snd]) hT), a3]
    · rw [corner_same (hb p b hp b1) (apart_line t1 b2 (by rw [hcyc]; exact hT) (by rw [turn_fst])) (apart_pos t1 b2), b3]
  · rcases h with ⟨hT, t1, t2⟩ | ⟨hT, t1 | t1⟩
    · rw [corner_same (hb p a' hp a1') (apart_neg t1 a2') (apart_neg t2 (a4' hT.le)), a3']
    · rw [corner_same (hb p a' hp a1') (apart_neg t1 a2') (apart_line' t1 a2' (by rw [turn_snd]) hT), a3']
    · rw [corner_same (hb p b' hp b1') (apart_line' t1 b2' (by rw [hcyc]; exact hT) (by rw [turn_fst])) (apart_neg t1 b2'), b3']

/-- Along all sides of the polygon. -/
def ValAll (l : List Point) (k : Int) : Prop := ∀ e ∈ sides l, Val l e.1 e.2 k

theorem path_walk {R : Point × Point → Prop} : ∀ (a b : Point) (m : List Point), (∀ u v x, (u, v) ∈ path (a :: b :: m) → (v, x) ∈ path (a :: b :: m) → R (u, v) → R (v, x)) →
    R (a, b) → ∀ e ∈ path (a :: b :: m), R e
  | a, b, [], _, h, e, he => by
    simp only [path_cons_cons, path_single, List.mem_singleton] at he
    subst he; exact h
  | a, b, c :: m, hs, h, e, he => by
    rw [path_cons_cons] at he
    rcases List.mem_cons.1 he with rfl | he
    · exact h
    · refine path_walk b c m (fun u v x hu hv => hs u v x ?_ ?_) (hs a b c ?_ ?_ h) e he
      · rw [path_cons_cons]; exact List.mem_cons_of_mem _ hu
      · rw [path_cons_cons]; exact List.mem_cons_of_mem _ hv
      · simp [path_cons_cons]
      · simp [path_cons_cons]

theorem sides_path (a : Point) (l : List Point) : sides (a :: l) = path (a :: l ++ [a]) := by
  rw [sides_eq_path, path_append a l a [], path_single]

theorem valAll_exists {l : List Point} (S : SimplePolygon l) : ∃ k, ValAll l k := by
  have h3 := S.three
  match l, S, h3 with
  | a :: b :: m, S, _ =>
    have h0 : (a, b) ∈ sides (a :: b :: m) := by simp [sides_cons]
    obtain ⟨k, hk⟩ := val_exists S h0
    refine ⟨k, ?_⟩
    have := path_walk (R := fun e => Val (a :: b :: m) e.1 e.2 k) a b (m ++ [a]) ?_ hk
    · intro e he
      rw [sides_path] at he
      exact this e he
    · intro u v x hu hv hR
      have e1 : path (a :: b :: (m ++ [a])) = sides (a :: b :: m) := by rw [sides_path]; rfl
      rw [e1] at hu hv
      obtain ⟨k', hk'⟩ := val_exists S hv
      rw [val_next S hu hv hR hk']
      exact hk'

theorem ray_same {l : List Point} (S : SimplePolygon l) {v z : Point} (hvz : v ≠ z) (hz : ∀ f ∈ sides l, ∀ y, OnSeg y (v, z) → OnSeg y f → y = v) {s : Rat}
    (hs : 0 < s) (ls : s < 1) : winding (off v z s 0) l = winding z l := by
  apply winding_same
  intro f hf
  apply apart_of_disjoint (side_ne S hf)
  rintro y ⟨t, t0, t1, y1, y2⟩ hy
  have ey : y = off v z (s + t * (1 - s)) 0 := by
    apply Prod.ext
    · rw [y1]; unfold off; dsimp only; ring
    · rw [y2]; unfold off; dsimp only; ring
  have k0 : 0 < s + t * (1 - s) := by
    have := mul_nonneg t0 (by linarith : 0 ≤ 1 - s)
    linarith
  have k1 : s + t * (1 - s) ≤ 1 := by
    have := mul_le_of_le_one_left (by linarith : 0 ≤ 1 - s) t1
    linarith
  have := hz f hf y (by rw [ey]; exact off_onSeg v z k0.le k1) hy
  rw [ey] at this
  rcases lt_or_eq_of_le k1 with h | h
  · exact (off_ne hvz k0 h).1 this
  · rw [h] at this
    apply hvz.symm
    rw [← this]
    unfold off
    apply Prod.ext <;> dsimp only <;> ring

theorem turn_ray (u v z : Point) (s : Rat) : turn u v (off v z s 0) = s * turn u v z := by unfold turn off; ring
theorem turn_ray' (v x z : Point) (s : Rat) : turn v x (off v z s 0) = s * turn v x z := by unfold turn off; ring

theorem InLeft.ray {u v x z : Point} {s : Rat} (hs : 0 < s) (h : InLeft u v x z) : InLeft u v x (off v z s 0) := by
  unfold InLeft at h ⊢
  have e1 := turn_ray u v z s
  have e2 := turn_ray' v x z s
  rcases h with ⟨a, b, c⟩ | ⟨a, b | b⟩
  · have h1 := mul_pos hs b
    have h2 := mul_pos hs c
    exact Or.inl ⟨a, by linarith, by linarith⟩
  · have h1 := mul_pos hs b
    exact Or.inr ⟨a, Or.inl (by linarith)⟩
  · have h1 := mul_pos hs b
    exact Or.inr ⟨a, Or.inr (by linarith)⟩

theorem InRight.ray {u v x z : Point} {s : Rat} (hs : 0 < s) (h : InRight u v x z) : InRight u v x (off v z s 0) := by
  unfold InRight at h ⊢
  have e1 := turn_ray u v z s
  have e2 := turn_ray' v x z s
  rcases h with ⟨a, b, c⟩ | ⟨a, b | b⟩
  · have h1 := mul_neg_of_pos_of_neg hs b
    have h2 := mul_neg_of_pos_of_neg hs c
    exact Or.inl ⟨a, by linarith, by linarith⟩
  · have h1 := mul_neg_of_pos_of_neg hs b
    exact Or.inr ⟨a, Or.inl (by linarith)⟩
  · have h1 := mul_neg_of_pos_of_neg hs b
    exact Or.inr ⟨a, Or.inr (by linarith)⟩

theorem InLeft.ne {u v x z : Point} (h : InLeft u v x z) : v ≠ z := by
  rintro rfl
  have f1 := turn_snd u v
  have f2 := turn_fst v x
  unfold InLeft at h
  rcases h with ⟨a, b, c⟩ | ⟨a, b | b⟩ <;> linarith

theorem InRight.ne {u v x z : Point} (h : InRight u v x z) : v ≠ z := by
  rintro rfl
  have f1 := turn_snd u v
  have f2 := turn_fst v x
  unfold InRight at h
  rcases h with ⟨a, b, c⟩ | ⟨a, b | b⟩ <;> linarith

/-- A point seen from a corner. -/
theorem corner_ray {l : List Point} (S : SimplePolygon l) {k : Int} (hk : ValAll l k) {u v x z : Point} (h1 : (u, v) ∈ sides l) (h2 : (v, x) ∈ sides l)
    (hz : ∀ f ∈ sides l, ∀ y, OnSeg y (v, z) → OnSeg y f → y = v) :
    (InLeft u v x z → winding z l = k + 1) ∧ (InRight u v x z → winding z l = k) := by
  have k1 := hk (u, v) h1
  have k2 := hk (v, x) h2
  dsimp only at k1 k2
  obtain ⟨r, hr, hc⟩ := corner_val S h1 h2 k1 k2
  obtain ⟨s, hs, ns, ls⟩ := ((near_after v z hr).and (small_lt (show (0 : Rat) < 1 by norm_num))).exists
  exact ⟨fun h => (ray_same S h.ne hz hs ls).symm.trans ((hc _ ns).1 (h.ray hs)), fun h => (ray_same S h.ne hz hs ls).symm.trans ((hc _ ns).2 (h.ray hs))⟩

/-- Nothing winds around a point beyond all corners. -/
theorem winding_beyond {l : List Point} {p : Point} {A B C : Rat} (hp : 0 < aff A B C p) (h : ∀ q ∈ l, aff A B C q ≤ 0) : winding p l = 0 := by
  by_contra hn
  obtain ⟨a, ha, b, hb, c, hc, s, t, u, s0, t0, u0, e, e1, e2⟩ := winding_triangle hn
  have : aff A B C p = s * aff A B C a + t * aff A B C b + u * aff A B C c := by
    unfold aff; rw [e1, e2]
    have : C = (s + t + u) * C := by rw [e]; ring
    linear_combination this
  have k1 := mul_nonneg s0 (neg_nonneg.2 (h a ha))
  have k2 := mul_nonneg t0 (neg_nonneg.2 (h b hb))
  have k3 := mul_nonneg u0 (neg_nonneg.2 (h c hc))
  linarith

/-- At an outermost corner. -/
theorem outermost {l : List Point} (S : SimplePolygon l) {k : Int} (hk : ValAll l k) {a b c : Point} (h1 : (a, b) ∈ sides l) (h2 : (b, c) ∈ sides l) {A B C : Rat}
    (hb : aff A B C b = 0) (hl : ∀ q ∈ l, q ≠ b → aff A B C q < 0) : (0 < turn a b c ∧ k = 0) ∨ (turn a b c < 0 ∧ k = -1) := by
  have hA := hl a (mem_sides h1).1 (side_ne S h1)
  have hC := hl c (mem_sides h2).2 (Ne.symm (side_ne S h2))
  have hT : turn a b c ≠ 0 := by
    intro hT
    obtain ⟨s, hs, e1, e2⟩ := straight S h1 h2 hT
    have : aff A B C c = aff A B C b + s * (aff A B C b - aff A B C a) := by unfold aff; rw [e1, e2]; ring
    rw [this, hb] at hC
    have := mul_neg_of_pos_of_neg hs hA
    linarith
  let z : Point := (b.1 + (b.1 - c.1), b.2 + (b.2 - c.2))
  have hz : aff A B C z = -aff A B C c := by
    have : aff A B C z = 2 * aff A B C b - aff A B C c := by simp only [z]; unfold aff; ring
    rw [this, hb]; ring
  have hle : ∀ q ∈ l, aff A B C q ≤ 0 := by
    intro q hq
    by_cases h : q = b
    · rw [h, hb]
    · exact (hl q hq h).le
  have hw : winding z l = 0 := winding_beyond (A := A) (B := B) (C := C) (by rw [hz]; linarith) hle
  have ray := corner_ray S hk h1 h2 (z := z) (by
    rintro f hf y ⟨t, t0, t1, y1, y2⟩ ⟨s, s0, s1, y3, y4⟩
    have f1 := aff_mix A B C b z y t y1 y2
    have f2 := aff_mix A B C f.1 f.2 y s y3 y4
    rw [hb, hz] at f1
    have g1 := mul_nonneg (by linarith : 0 ≤ 1 - s) (neg_nonneg.2 (hle _ (mem_sides hf).1))
    have g2 := mul_nonneg s0 (neg_nonneg.2 (hle _ (mem_sides hf).2))
    have g3 := mul_nonneg t0 (neg_nonneg.2 hC.le)
    have g4 : t * aff A B C c = 0 := by linarith
    have g5 : t = 0 := (mul_eq_zero.1 g4).resolve_right hC.ne
    rw [g5] at y1 y2
    apply Prod.ext
    · rw [y1]; ring
    · rw [y2]; ring)
  rw [hw] at ray
  have ez : turn a b z = -turn a b c := by simp only [z]; unfold turn; ring
  rcases lt_or_gt_of_ne hT with h | h
  · right
    have := ray.1 (Or.inr ⟨h.le, Or.inl (by rw [ez]; linarith)⟩)
    exact ⟨h, by omega⟩
  · left
    have := ray.2 (Or.inr ⟨h.le, Or.inl (by rw [ez]; linarith)⟩)
    exact ⟨h, this.symm⟩

/-- The corner farthest from the origin. -/
theorem farthest {l : List Point} (hl : l ≠ []) : ∃ b ∈ l, ∃ A B C : Rat, aff A B C b = 0 ∧ ∀ q ∈ l, q ≠ b → aff A B C q < 0 := by
  have : ∃ b ∈ l, ∀ q ∈ l, q.1 ^ 2 + q.2 ^ 2 ≤ b.1 ^ 2 + b.2 ^ 2 := by
    induction l with
    | nil => exact absurd rfl hl
    | cons a m ih =>
      by_cases hm : m = []
      · subst hm; exact ⟨a, by simp, by simp⟩
      · obtain ⟨b, hb, h⟩ := ih hm
        rcases le_total (a.1 ^ 2 + a.2 ^ 2) (b.1 ^ 2 + b.2 ^ 2) with hh | hh
        · refine ⟨b, by simp [hb], fun q hq => ?_⟩
          rcases List.mem_cons.1 hq with rfl | hq
          · exact hh
          · exact h q hq
        · refine ⟨a, by simp, fun q hq => ?_⟩
          rcases List.mem_cons.1 hq with rfl | hq
          · exact le_rfl
          · exact (h q hq).trans hh
  obtain ⟨b, hb, h⟩ := this
  refine ⟨b, hb, b.1, b.2, -(b.1 ^ 2 + b.2 ^ 2), by unfold aff; ring, fun q hq hne => ?_⟩
  have h1 := norm_pos (u := b) (v := q) (Ne.symm hne)
  have h2 := h q hq
  unfold aff
  nlinarith

/-- The number of windings to the right of the sides is 0 or -1. -/
theorem val_zero {l : List Point} (S : SimplePolygon l) {k : Int} (hk : ValAll l k) : k = 0 ∨ k = -1 := by
  have h3 := S.three
  obtain ⟨b, hb, A, B, C, e, h⟩ := farthest (l := l) (by rintro rfl; simp at h3)
  obtain ⟨a, ha⟩ := prev_side hb
  obtain ⟨c, hc⟩ := next_side hb
  rcases outermost S hk ha hc e h with h | h
  · exact Or.inl h.2
  · exact Or.inr h.2

end Rerecast.Jordan
