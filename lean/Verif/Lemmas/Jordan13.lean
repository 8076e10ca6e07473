import Verif.Lemmas.Jordan11
import Verif.Lemmas.ConvexMerge
/-! Convex polygons, and points added on their sides. -/
set_option linter.unusedVariables false
namespace Rerecast.Jordan

theorem turn_same1 (a b : Point) : turn a a b = 0 := by unfold turn; ring
theorem turn_same2 (a b : Point) : turn a b b = 0 := by unfold turn; ring
theorem turn_same3 (a b : Point) : turn a b a = 0 := by unfold turn; ring

/-- The corners of a convex polygon are different. -/
theorem turning_nodup {l : List Point} (h3 : 3 ≤ l.length) (h : Turning turn l) : l.Nodup := by
  rw [List.Nodup, List.pairwise_iff_getElem]
  intro i j hi hj hij e
  have key : ∀ (a b c : Nat) (hab : a < b) (hbc : b < c) (hc : c < l.length), 0 < turn (l[a]'(by omega)) (l[b]'(by omega)) l[c] := fun a b c hab hbc hc =>
    h _ _ _ (three_sublist hab hbc hc)
  by_cases h0 : 0 < i
  · have := key 0 i j h0 hij hj
    rw [e, turn_same2] at this
    exact lt_irrefl _ this
  · obtain rfl : i = 0 := by omega
    by_cases h1 : 1 < j
    · have := key 0 1 j (by omega) h1 hj
      rw [e, turn_same3] at this
      exact lt_irrefl _ this
    · obtain rfl : j = 1 := by omega
      have := key 0 1 2 (by omega) (by omega) (by omega)
      rw [e, turn_same1] at this
      exact lt_irrefl _ this

theorem turning_side {l : List Point} (h3 : 3 ≤ l.length) (h : Turning turn l) {u v x : Point} (he : (u, v) ∈ sides l) (hx : x ∈ l) (h1 : x ≠ u) (h2 : x ≠ v) :
    0 < turn u v x := by
  obtain ⟨m, k, hk⟩ := side_decomp he (by omega)
  rw [← hk] at h hx
  have := turning_rotated (fun a b c => turn_cyc a b c) h
  rw [List.mem_rotate] at hx
  simp only [List.mem_cons, h1, h2, false_or] at hx
  exact this u v x (List.cons_sublist_cons.2 (List.cons_sublist_cons.2 (List.singleton_sublist.2 hx)))

theorem on_turn {p u v : Point} (h : OnSeg p (u, v)) : turn u v p = 0 := by
  obtain ⟨t, _, _, e1, e2⟩ := h
  unfold turn
  dsimp only at e1 e2
  rw [e1, e2]; ring

theorem mix_turn {p w x : Point} {t : Rat} (e1 : p.1 = w.1 + t * (x.1 - w.1)) (e2 : p.2 = w.2 + t * (x.2 - w.2)) (u v : Point) :
    turn u v p = (1 - t) * turn u v w + t * turn u v x := by
  unfold turn; rw [e1, e2]; ring

theorem sides_fst_inj {l : List Point} (hn : l.Nodup) {e f : Point × Point} (he : e ∈ sides l) (hf : f ∈ sides l) (h : e.1 = f.1 ∨ e.2 = f.2) : e = f := by
  have h1 : (sides l).map Prod.fst = l := by unfold sides; exact List.map_fst_zip (by simp)
  have h2 : (sides l).map Prod.snd = l.rotate 1 := by unfold sides; exact List.map_snd_zip (by simp)
  rcases h with h | h
  · exact List.inj_on_of_nodup_map (by rw [h1]; exact hn) he hf h
  · exact List.inj_on_of_nodup_map (by rw [h2]; exact List.nodup_rotate.2 hn) he hf h

/-- A convex polygon does not touch itself. -/
theorem turning_simple {l : List Point} (h3 : 3 ≤ l.length) (h : Turning turn l) : SimplePolygon l := by
  have hn := turning_nodup h3 h
  refine ⟨h3, hn, ?_⟩
  rintro ⟨u, v⟩ he ⟨w, x⟩ hf hne p hp hq
  have mw := (mem_sides hf).1
  have mx := (mem_sides hf).2
  have hwu : w ≠ u := fun e => hne (sides_fst_inj hn he hf (Or.inl e.symm))
  have hxv : x ≠ v := fun e => hne (sides_fst_inj hn he hf (Or.inr e.symm))
  have h0 := on_turn hp
  obtain ⟨t, t0, t1, e1, e2⟩ := hq
  dsimp only at e1 e2 ⊢
  have hm := mix_turn e1 e2 u v
  rw [h0] at hm
  by_cases hwv : w = v
  · subst hwv
    by_cases hxu : x = u
    · subst hxu
      obtain ⟨m, k, hk⟩ := side_decomp he (by omega)
      obtain ⟨m', k', hk'⟩ := side_decomp hf (by omega)
      exfalso
      have hlen := congrArg List.length hk
      simp at hlen
      obtain ⟨y, hy⟩ : ∃ y, y ∈ m := by
        cases m with
        | nil => simp at hlen; omega
        | cons a _ => exact ⟨a, by simp⟩
      have hyl : y ∈ l := by rw [← hk, List.mem_rotate]; simp [hy]
      have hnd : (x :: w :: m).Nodup := by rw [← List.nodup_rotate (n := k), hk]; exact hn
      have y1 : y ≠ x := by rintro rfl; simp [hy] at hnd
      have y2 : y ≠ w := by rintro rfl; simp [hy] at hnd
      have a1 := turning_side h3 h he hyl y1 y2
      have a2 := turning_side h3 h hf hyl y2 y1
      rw [turn_swap] at a2
      linarith
    · left
      have := turning_side h3 h he mx hxu hxv
      rw [turn_same2, mul_zero, zero_add] at hm
      have ht : t = 0 := by
        rcases mul_eq_zero.1 hm.symm with e | e
        · exact e
        · exact absurd e (ne_of_gt this)
      subst ht
      refine ⟨Prod.ext ?_ ?_, Prod.ext ?_ ?_⟩ <;> simp [e1, e2]
  · by_cases hxu : x = u
    · right
      subst hxu
      have := turning_side h3 h he mw hwu hwv
      rw [turn_same3, mul_zero, add_zero] at hm
      have ht : 1 - t = 0 := by
        rcases mul_eq_zero.1 hm.symm with e | e
        · exact e
        · exact absurd e (ne_of_gt this)
      have ht : t = 1 := by linarith
      subst ht
      refine ⟨Prod.ext ?_ ?_, Prod.ext ?_ ?_⟩ <;> simp [e1, e2]
    · exfalso
      have a1 := turning_side h3 h he mw hwu hwv
      have a2 := turning_side h3 h he mx hxu hxv
      rcases t0.lt_or_eq with ht | ht
      · have := mul_pos ht a2
        have := mul_nonneg (show 0 ≤ 1 - t by linarith) a1.le
        linarith
      · subst ht; linarith

theorem turning_area (a b c : Point) : ∀ (m : List Point) (b c : Point), Turning turn (a :: b :: c :: m) → 0 < area (a :: b :: c :: m)
  | [], b, c, h => by rw [area_three]; exact h a b c (List.Sublist.refl _)
  | d :: m, b, c, h => by
    have := area_split a c [b] (d :: m)
    simp only [List.cons_append, List.nil_append] at this
    rw [this, area_three]
    have h1 := h a b c (by simp)
    have h2 := turning_area a b c m c d (fun x y z hs => h x y z (hs.trans (List.cons_sublist_cons.2 (List.sublist_cons_self _ _))))
    have e : area (c :: d :: (m ++ [a])) = area (a :: c :: d :: m) := area_rotated (by
      have : (a :: c :: d :: m).rotate 1 = c :: d :: (m ++ [a]) := by simp [List.rotate_cons_succ]
      rw [← this]
      exact (List.IsRotated.forall _ _))
    rw [e]
    linarith

/-- A convex polygon goes around a point once or not at all. -/
theorem turning_once {l : List Point} (h3 : 3 ≤ l.length) (h : Turning turn l) (q : Point) : winding q l = 0 ∨ winding q l = 1 := by
  have hS := turning_simple h3 h
  refine winding_once hS (val_of_area hS ?_) q
  match l, h3, h with
  | a :: b :: c :: m, _, h => exact turning_area a b c m b c h

/-! ### Points on the sides -/

theorem crossing_split_up {q a b s : Point} (hs : OnSeg s (a, b)) (hab : a.2 ≤ b.2) : crossing q (a, s) + crossing q (s, b) = crossing q (a, b) := by
  obtain ⟨t, t0, t1, e1, e2⟩ := hs
  dsimp only at e1 e2
  have k1 : turn a s q = t * turn a b q := by unfold turn; rw [e1, e2]; ring
  have k2 : turn s b q = (1 - t) * turn a b q := by unfold turn; rw [e1, e2]; ring
  have h1 : a.2 ≤ s.2 := by rw [e2]; nlinarith
  have h2 : s.2 ≤ b.2 := by rw [e2]; nlinarith
  rw [crossing_up_eq h1, crossing_up_eq h2, crossing_up_eq hab, k1, k2]
  rcases t0.lt_or_eq with ht | ht
  · rcases t1.lt_or_eq with ht' | ht'
    · have p1 : 0 < t * turn a b q ↔ 0 < turn a b q := by rw [mul_pos_iff_of_pos_left ht]
      have p2 : 0 < (1 - t) * turn a b q ↔ 0 < turn a b q := by rw [mul_pos_iff_of_pos_left (by linarith)]
      simp only [p1, p2]
      clear e1 e2 k1 k2
      by_cases hq : 0 < turn a b q
      · by_cases g : q.2 < s.2
        · have : ¬ s.2 ≤ q.2 := not_le.2 g
          have : q.2 < b.2 := lt_of_lt_of_le g h2
          by_cases g' : a.2 ≤ q.2 <;> simp [*]
        · have g1 : s.2 ≤ q.2 := not_lt.1 g
          have : a.2 ≤ q.2 := le_trans h1 g1
          by_cases g' : q.2 < b.2 <;> simp [*]
      · simp [hq]
    · have e : s.2 = b.2 := by rw [e2, ht']; ring
      subst ht'
      simp [e]
  · have e : s.2 = a.2 := by rw [e2, ← ht]; ring
    subst ht
    simp [e]

theorem crossing_split {q a b s : Point} (hs : OnSeg s (a, b)) : crossing q (a, s) + crossing q (s, b) = crossing q (a, b) := by
  rcases le_total a.2 b.2 with h | h
  · exact crossing_split_up hs h
  · have := crossing_split_up (q := q) (OnSeg.flip hs) h
    have h1 := crossing_antisymm q a s
    have h2 := crossing_antisymm q s b
    have h3 := crossing_antisymm q a b
    omega

/-- A triangle without area goes around nothing. -/
theorem flat_winding {a b c : Point} (h : turn a b c = 0) (q : Point) : winding q [a, b, c] = 0 := by
  have e : winding q [a, b, c] = crossing q (a, b) + crossing q (b, c) + crossing q (c, a) := by
    unfold winding around
    simp [sides_cons]
    ring
  rw [e]
  have a1 := crossing_antisymm q a b
  have a2 := crossing_antisymm q b c
  have a3 := crossing_antisymm q c a
  by_cases hab : a = b
  · subst hab
    have := crossing_self q a
    omega
  obtain ⟨r, r1, r2⟩ := on_line hab h
  rcases lt_or_ge r 0 with h0 | h0
  · -- `a` between `c` and `b`
    have hs : OnSeg a (c, b) := by
      have hd : 0 < 1 - r := by linarith
      refine ⟨-r / (1 - r), div_nonneg (by linarith) hd.le, by rw [div_le_one hd]; linarith, ?_, ?_⟩ <;> dsimp only
      · rw [r1]; field_simp; ring
      · rw [r2]; field_simp; ring
    have := crossing_split (q := q) hs
    omega
  · rcases le_or_gt r 1 with h1 | h1
    · have hs : OnSeg c (a, b) := ⟨r, h0, h1, r1, r2⟩
      have := crossing_split (q := q) hs
      omega
    · have hs : OnSeg b (a, c) := by
        have hd : 0 < r := by linarith
        refine ⟨1 / r, by positivity, by rw [div_le_one hd]; linarith, ?_, ?_⟩ <;> dsimp only
        · rw [r1]; field_simp; ring
        · rw [r2]; field_simp; ring
      have := crossing_split (q := q) hs
      omega

/-- Any three points of the list, in order, do not turn the other way. -/
def Bends (l : List Point) : Prop := ∀ a b c, [a, b, c].Sublist l → 0 ≤ turn a b c

theorem bends_insert {l1 l2 : List Point} {a b s : Point} (hs : OnSeg s (a, b)) (h : Bends (l1 ++ a :: b :: l2)) : Bends (l1 ++ a :: s :: b :: l2) := by
  obtain ⟨t, t0, t1, e1, e2⟩ := hs
  dsimp only at e1 e2
  have m1 : ∀ c d, turn s c d = (1 - t) * turn a c d + t * turn b c d := fun c d => by unfold turn; rw [e1, e2]; ring
  have m2 : ∀ c d, turn c s d = (1 - t) * turn c a d + t * turn c b d := fun c d => by unfold turn; rw [e1, e2]; ring
  have m3 : ∀ c d, turn c d s = (1 - t) * turn c d a + t * turn c d b := fun c d => mix_turn e1 e2 c d
  have pos : ∀ x y : Rat, 0 ≤ x → 0 ≤ y → 0 ≤ (1 - t) * x + t * y := fun x y hx hy =>
    add_nonneg (mul_nonneg (by linarith) hx) (mul_nonneg t0 hy)
  -- the list without `s`, and where the parts are
  have suf : ∀ {m : List Point}, m.Sublist (b :: l2) → (m.Sublist (l1 ++ a :: b :: l2)) := fun hm =>
    hm.trans ((List.sublist_cons_self a _).trans (List.sublist_append_right _ _))
  intro x y z hx
  have e : l1 ++ a :: s :: b :: l2 = (l1 ++ [a]) ++ (s :: (b :: l2)) := by simp
  have e' : l1 ++ a :: b :: l2 = (l1 ++ [a]) ++ (b :: l2) := by simp
  rw [e] at hx
  have put : ∀ {m n : List Point}, m.Sublist (l1 ++ [a]) → n.Sublist (b :: l2) → (m ++ n).Sublist (l1 ++ a :: b :: l2) := fun h1 h2 => by
    rw [e']; exact h1.append h2
  -- `a` as a last point, `b` as a first one
  have lastA : ∀ {m : List Point}, m.Sublist (l1 ++ [a]) → (m ++ [a]).Sublist (l1 ++ [a]) ∨ ∃ m', m = m' ++ [a] := by
    intro m hm
    obtain ⟨u, v, rfl, h1, h2⟩ := List.sublist_append_iff.1 hm
    cases v with
    | nil => left; rw [List.append_nil]; exact h1.append (List.Sublist.refl _)
    | cons w v =>
      right
      have hl := h2.length_le
      simp only [List.length_cons, List.length_nil] at hl
      have : v = [] := List.length_eq_zero_iff.1 (by omega)
      subst this
      rw [List.singleton_sublist, List.mem_singleton] at h2
      exact ⟨u, by rw [h2]⟩
  have firstB : ∀ {m : List Point}, m.Sublist (b :: l2) → (b :: m).Sublist (b :: l2) ∨ ∃ m', m = b :: m' := by
    intro m hm
    cases hm with
    | cons _ h => left; exact List.cons_sublist_cons.2 h
    | cons_cons _ h => right; exact ⟨_, rfl⟩
  obtain ⟨u, v, huv, h1, h2⟩ := List.sublist_append_iff.1 hx
  have hv : v.Sublist (b :: l2) ∨ ∃ w, v = s :: w ∧ w.Sublist (b :: l2) := by
    cases h2 with
    | cons _ h => exact Or.inl h
    | cons_cons _ h => exact Or.inr ⟨_, rfl, h⟩
  rcases hv with hv | ⟨w, rfl, hw⟩
  · exact h x y z (by rw [huv]; exact put h1 hv)
  · rcases u with _ | ⟨p, _ | ⟨q, _ | ⟨r, u⟩⟩⟩
    · simp only [List.nil_append, List.cons.injEq] at huv
      obtain ⟨rfl, rfl⟩ := huv
      rw [m1]
      refine pos _ _ ?_ ?_
      · exact h a y z (put (m := [a]) (List.sublist_append_right _ _) hw)
      · rcases firstB hw with hb | ⟨m', hm'⟩
        · exact h b y z (suf hb)
        · injection hm' with e _
          rw [e, turn_same1]
    · simp only [List.cons_append, List.nil_append, List.cons.injEq] at huv
      obtain ⟨rfl, rfl, rfl⟩ := huv
      rw [m2]
      refine pos _ _ ?_ ?_
      · rcases lastA h1 with ha | ⟨m', hm'⟩
        · exact h x a z (put ha hw)
        · have : x = a := by
            have := congrArg List.getLast? hm'
            simpa using this
          rw [this, turn_same1]
      · rcases firstB hw with hb | ⟨m', hm'⟩
        · exact h x b z (put h1 hb)
        · injection hm' with e _
          rw [e, turn_same2]
    · simp only [List.cons_append, List.nil_append, List.cons.injEq] at huv
      obtain ⟨rfl, rfl, rfl, rfl⟩ := huv
      rw [m3]
      refine pos _ _ ?_ ?_
      · rcases lastA h1 with ha | ⟨m', hm'⟩
        · have := put ha (List.nil_sublist (b :: l2))
          exact h x y a (by simpa using this)
        · have : y = a := by
            have := congrArg List.getLast? hm'
            simpa using this
          rw [this, turn_same2]
      · exact h x y b (put (n := [b]) h1 (by simp))
    · have := congrArg List.length huv
      simp at this

theorem pathSum_insert {q a b s : Point} (hs : OnSeg s (a, b)) (l1 l2 : List Point) :
    pathSum (crossing q) (l1 ++ a :: s :: b :: l2) = pathSum (crossing q) (l1 ++ a :: b :: l2) := by
  rw [pathSum_append _ l1 a, pathSum_append _ l1 a (b :: l2)]
  have := crossing_split (q := q) hs
  unfold pathSum
  simp only [path_cons_cons, List.map_cons, List.sum_cons]
  omega

/-- The point at `t` of the way from `a` to `b`. -/
def mix (a b : Point) (t : Rat) : Point := (a.1 + t * (b.1 - a.1), a.2 + t * (b.2 - a.2))

/-- From `a` through points on the sides to the next corners. -/
def fullPath (a : Point) : List (List Rat × Point) → List Point
  | [] => [a]
  | (ts, b) :: r => a :: ts.map (mix a b) ++ fullPath b r

/-- Properties kept when points on sides are added. -/
structure Insertable (Q : List Point → Prop) : Prop where
  insert : ∀ l1 l2 a b s, OnSeg s (a, b) → Q (l1 ++ a :: b :: l2) → Q (l1 ++ a :: s :: b :: l2)

theorem Insertable.side {Q : List Point → Prop} (hQ : Insertable Q) (a b : Point) (l1 l2 : List Point) : ∀ (ts : List Rat), (∀ t ∈ ts, 0 ≤ t ∧ t ≤ 1) → ts.Pairwise (· < ·) →
    Q (l1 ++ a :: b :: l2) → Q (l1 ++ a :: ts.map (mix a b) ++ b :: l2)
  | [], _, _, h => by simpa using h
  | t :: ts, h01, hp, h => by
    rw [List.pairwise_cons] at hp
    have ih := hQ.side a b l1 l2 ts (fun x hx => h01 x (by simp [hx])) hp.2 h
    have ht := h01 t (by simp)
    cases ts with
    | nil =>
      have := hQ.insert l1 l2 a b (mix a b t) ⟨t, ht.1, ht.2, rfl, rfl⟩ (by simpa using ih)
      simpa using this
    | cons u ts =>
      have hu := h01 u (by simp)
      have htu := hp.1 u (by simp)
      have := hQ.insert l1 (ts.map (mix a b) ++ b :: l2) a (mix a b u) (mix a b t) (by
        have hu0 : 0 < u := lt_of_le_of_lt ht.1 htu
        refine ⟨t / u, div_nonneg ht.1 hu0.le, by rw [div_le_one hu0]; exact htu.le, ?_, ?_⟩ <;> unfold mix <;> dsimp only <;> field_simp <;> ring) (by simpa using ih)
      simpa using this

theorem Insertable.full {Q : List Point → Prop} (hQ : Insertable Q) : ∀ (r : List (List Rat × Point)) (a : Point) (pre : List Point),
    (∀ x ∈ r, (∀ t ∈ x.1, 0 ≤ t ∧ t ≤ 1) ∧ x.1.Pairwise (· < ·)) → Q (pre ++ a :: r.map Prod.snd) → Q (pre ++ fullPath a r)
  | [], a, pre, _, h => by simpa [fullPath] using h
  | (ts, b) :: r, a, pre, hr, h => by
    have h0 := hr (ts, b) (by simp)
    have := hQ.side a b pre (r.map Prod.snd) ts h0.1 h0.2 (by simpa using h)
    have := hQ.full r b (pre ++ a :: ts.map (mix a b)) (fun x hx => hr x (by simp [hx])) (by simpa using this)
    simpa [fullPath] using this

end Rerecast.Jordan
