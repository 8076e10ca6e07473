import Verif.Lemmas.SimplifyError
import Mathlib.Tactic.LinearCombination
/-! Contour simplification with splitting of long edges: the error and the lengths. -/
namespace Rerecast

/-- A mean of two vectors of length at most `e` is no longer than `e`. -/
theorem mean_le {e s x1 z1 x2 z2 : Rat} (h0 : 0 ≤ s) (h1 : s ≤ 1) (ha : x1 ^ 2 + z1 ^ 2 ≤ e ^ 2) (hb : x2 ^ 2 + z2 ^ 2 ≤ e ^ 2) :
    ((1 - s) * x1 + s * x2) ^ 2 + ((1 - s) * z1 + s * z2) ^ 2 ≤ e ^ 2 := by
  have h2 : 0 ≤ 1 - s := by linarith
  have h3 := mul_nonneg h0 h2
  have k1 := mul_nonneg h3 (add_nonneg (sq_nonneg (x1 - x2)) (sq_nonneg (z1 - z2)))
  have k2 := mul_le_mul_of_nonneg_left ha h2
  have k3 := mul_le_mul_of_nonneg_left hb h0
  nlinarith

theorem sum_le {e x1 z1 x2 z2 : Rat} (ha : x1 ^ 2 + z1 ^ 2 ≤ e ^ 2) (hb : x2 ^ 2 + z2 ^ 2 ≤ e ^ 2) :
    (x1 - x2) ^ 2 + (z1 - z2) ^ 2 ≤ (2 * e) ^ 2 := by
  nlinarith [sq_nonneg (x1 + x2), sq_nonneg (z1 + z2)]

/-- The point `p` is within `e` of the point with parameter `l` of the segment. -/
def CloseAt (e : Rat) (p a b : U16Vec3) (l : Rat) : Prop :=
  0 ≤ l ∧ l ≤ 1 ∧ ((a.x : Rat) + l * ((b.x : Rat) - a.x) - p.x) ^ 2 + ((a.z : Rat) + l * ((b.z : Rat) - a.z) - p.z) ^ 2 ≤ e ^ 2

theorem close_between {e : Rat} {p a b m m' : U16Vec3} {l lm lm' : Rat} (hp : CloseAt e p a b l) (hm : CloseAt e m a b lm)
    (hm' : CloseAt e m' a b lm') (h1 : lm ≤ l) (h2 : l ≤ lm') : WithinOfSegment (2 * e) p m m' := by
  obtain ⟨s, s0, s1, es⟩ : ∃ s : Rat, 0 ≤ s ∧ s ≤ 1 ∧ l = (1 - s) * lm + s * lm' := by
    rcases eq_or_lt_of_le (le_trans h1 h2) with he | hlt
    · refine ⟨0, le_refl _, zero_le_one, ?_⟩
      have : lm = l := le_antisymm h1 (by rw [he]; exact h2)
      rw [← this]; ring
    · have hd : 0 < lm' - lm := by linarith
      refine ⟨(l - lm) / (lm' - lm), div_nonneg (by linarith) (le_of_lt hd), ?_, ?_⟩
      · rw [div_le_one hd]; linarith
      · have hm := div_mul_cancel₀ (l - lm) (ne_of_gt hd)
        linear_combination -hm
  refine ⟨s, s0, s1, ?_⟩
  obtain ⟨_, _, hp⟩ := hp
  obtain ⟨_, _, hm⟩ := hm
  obtain ⟨_, _, hm'⟩ := hm'
  have key := sum_le hp (mean_le s0 s1 hm hm')
  have e1 : ((m.x : Rat) + s * ((m'.x : Rat) - m.x) - p.x) = ((a.x : Rat) + l * ((b.x : Rat) - a.x) - p.x) -
      ((1 - s) * ((a.x : Rat) + lm * ((b.x : Rat) - a.x) - m.x) + s * ((a.x : Rat) + lm' * ((b.x : Rat) - a.x) - m'.x)) := by
    rw [es]; ring
  have e2 : ((m.z : Rat) + s * ((m'.z : Rat) - m.z) - p.z) = ((a.z : Rat) + l * ((b.z : Rat) - a.z) - p.z) -
      ((1 - s) * ((a.z : Rat) + lm * ((b.z : Rat) - a.z) - m.z) + s * ((a.z : Rat) + lm' * ((b.z : Rat) - a.z) - m'.z)) := by
    rw [es]; ring
  rw [e1, e2]
  exact key

/-- Along a list a value passes from at most `v` to at least `v` between two neighbours. -/
theorem passes {f : Nat → Rat} {v : Rat} {b : Nat} (hb : v ≤ f b) : ∀ {rest : List Nat} {x : Nat}, f x ≤ v → (x :: rest).Pairwise (· < ·) →
    b ∈ rest → ∃ pre y z post, x :: rest = pre ++ y :: z :: post ∧ x ≤ y ∧ y < z ∧ z ≤ b ∧ f y ≤ v ∧ v ≤ f z
  | [], _, _, _, hm => by cases hm
  | z :: rest, x, hx, hp, hm => by
    rw [List.pairwise_cons] at hp
    have hxz := hp.1 z (List.mem_cons_self ..)
    have hzb : z ≤ b := by
      rcases List.mem_cons.1 hm with rfl | hm
      · exact Nat.le_refl _
      · exact Nat.le_of_lt ((List.pairwise_cons.1 hp.2).1 b hm)
    by_cases hz : v ≤ f z
    · exact ⟨[], x, z, rest, rfl, Nat.le_refl _, hxz, hzb, hx, hz⟩
    · have hz' : f z ≤ v := le_of_lt (not_le.1 hz)
      have hmem : b ∈ rest := by
        rcases List.mem_cons.1 hm with rfl | hm
        · exact absurd hb hz
        · exact hm
      obtain ⟨pre, y, w, post, e, h1, h2⟩ := passes hb hz' hp.2 hmem
      exact ⟨x :: pre, y, w, post, by rw [e]; rfl, by omega, h2⟩

theorem arcs_sorted {n : Nat} {l : List Nat} {x e : Nat} (h : Arcs n x l e) : ((x :: l) ++ [e]).Pairwise (· < ·) := by
  rw [List.pairwise_append]
  refine ⟨h.pairwise, by simp, ?_⟩
  intro y hy z hz
  simp at hz; subst hz
  rcases List.mem_cons.1 hy with rfl | hy
  · have := h.length; omega
  · exact (h.mem y hy).2

theorem arcs_side {n : Nat} {e : Nat} : ∀ {l : List Nat} {x : Nat} {pre post : List Nat} {a b : Nat}, Arcs n x l e →
    (x :: l) ++ [e] = pre ++ a :: b :: post → a < b ∧ b ≤ a + n
  | [], x, pre, post, a, b, h, he => by
    have hl := congrArg List.length he
    simp at hl
    have hp : pre = [] := List.length_eq_zero_iff.1 (by omega)
    subst hp
    simp at he
    obtain ⟨rfl, rfl, _⟩ := he
    exact h
  | y :: l, x, pre, post, a, b, h, he => by
    cases pre with
    | nil =>
      simp at he
      obtain ⟨rfl, rfl, _⟩ := he
      exact h.1
    | cons p pre =>
      simp only [List.cons_append, List.cons.injEq] at he
      exact arcs_side h.2 (by simpa using he.2)

theorem finalAt_period (points : RawContour) (W : Nat) (j : Nat) :
    (posAt points (j + W * points.length), finalWordAt points (j + W * points.length)) = (posAt points j, finalWordAt points j) := by
  have e1 : (j + W * points.length) % points.length = j % points.length := by simp
  have e2 : (j + W * points.length + 1) % points.length = (j + 1) % points.length := by
    rw [show j + W * points.length + 1 = (j + 1) + W * points.length by omega]; simp
  simp only [posAt, finalWordAt, wordAt, e1, e2]

theorem simplify_error_split {t : Tests} {gn : Nat} {e : Rat} (ht : t.Keeps gn e) (points : RawContour) (hne : points ≠ []) (hN : ∀ p ∈ points, OnGrid gn p.1) (maxEdgeLen : Nat) (flags : ContourFlags) (out : RawContour)
    (hok : simplifyContour t points maxEdgeLen flags = .ok out) {k : Nat} (hk : k < points.length)
    (htol : tolerated points k = true) : WithinOfPolygon (2 * e) (posAt points k) out := by
  have hn : 0 < points.length := by omega
  rcases simplify_stages t points hne maxEdgeLen flags with ⟨a, ha, u1, u, W, hw1, hw, hhd, hsub, hW, hout, hch, hset, _, _⟩ | ⟨_, h⟩
  swap
  · rw [h] at hok; cases hok
  rw [hok] at ha; cases ha
  have hune : u ≠ [] := by obtain ⟨h, l, rfl, _⟩ := hw; simp
  have hkept : ∀ j ∈ u, j % points.length = k → WithinOfPolygon (2 * e) (posAt points k) out := by
    intro j hj hjk
    obtain ⟨pre, post, rfl⟩ := List.append_of_mem hj
    refine ⟨pre.length, (posAt points j, finalWordAt points j), ?_⟩
    have hm : (pre.length + 1) % out.length < out.length := Nat.mod_lt _ (by rw [hout]; simp)
    refine ⟨out[(pre.length + 1) % out.length], by rw [hout]; simp, List.getElem?_eq_getElem hm, 0, le_refl _, zero_le_one, ?_⟩
    have : posAt points j = posAt points k := by rw [← posAt_mod, hjk]
    simp only [this]
    rw [zero_mul, add_zero, sub_self, zero_mul, add_zero, sub_self]
    nlinarith [sq_nonneg e]
  rcases hW with rfl | ⟨rfl, hsame⟩
  · obtain ⟨h, l, rfl, hh, harc⟩ := hw1
    obtain ⟨h', l', rfl, hh', harc'⟩ := hw
    simp only [List.headD_cons] at hhd hset
    subst hhd
    obtain ⟨k', hk1, hk2, hkk⟩ : ∃ k', h' ≤ k' ∧ k' < h' + 1 * points.length ∧ k' % points.length = k := by
      by_cases hc : h' ≤ k
      · exact ⟨k, hc, by omega, Nat.mod_eq_of_lt hk⟩
      · exact ⟨k + points.length, by omega, by omega, by simp [Nat.mod_eq_of_lt hk]⟩
    have hpos : posAt points k' = posAt points k := by rw [← posAt_mod, hkk]
    rcases arcs_locate harc k' hk1 hk2 with hmem | ⟨pre, a, b, post, he, hak, hkb⟩
    · exact hkept k' (hsub.subset hmem) hkk
    · have htol' : tolerated points k' = true := by
        have : tolerated points k' = tolerated points k := by
          unfold tolerated; rw [← wordAt_mod points k', hkk]
        rw [this]; exact htol
      have hin := refined_arc ht hn hN hh harc hch he (hset pre a b post he) hak hkb htol'
      -- parameters of the vertices on the segment
      have hpar : ∀ i, ∃ v, (a ≤ i → i ≤ b → CloseAt e (posAt points i) (posAt points a) (posAt points b) v) ∧ (i = a → v = 0) ∧
          (i = b → i ≠ a → v = 1) := by
        intro i
        by_cases hia : i = a
        · refine ⟨0, fun _ _ => ⟨le_refl _, zero_le_one, ?_⟩, fun _ => rfl, fun _ h => absurd hia h⟩
          rw [hia, zero_mul, add_zero, sub_self, zero_mul, add_zero, sub_self]
          nlinarith [sq_nonneg e]
        · by_cases hib : i = b
          · refine ⟨1, fun _ _ => ⟨zero_le_one, le_refl _, ?_⟩, fun h => absurd h hia, fun _ _ => rfl⟩
            rw [hib, one_mul, one_mul]
            have := sq_nonneg e
            ring_nf
            rw [pow_two] at this ⊢
            exact this
          · by_cases hc : a ≤ i ∧ i ≤ b
            · obtain ⟨v, g⟩ := hin i (by omega) (by omega)
              exact ⟨v, fun _ _ => g, fun h => absurd h hia, fun h => absurd h hib⟩
            · exact ⟨0, fun g1 g2 => absurd ⟨g1, g2⟩ hc, fun h => absurd h hia, fun h => absurd h hib⟩
      choose f hf using hpar
      have hab : a < b := by omega
      have fa : f a = 0 := (hf a).2.1 rfl
      have fb : f b = 1 := (hf b).2.2 rfl (by omega)
      have hfk := (hf k').1 (by omega) (by omega)
      have hsub' : ∀ i ∈ (h' :: l) ++ [h' + 1 * points.length], i ∈ (h' :: l') ++ [h' + 1 * points.length] := by
        intro i hi
        rcases List.mem_append.1 hi with hi | hi
        · exact List.mem_append_left _ (hsub.subset hi)
        · exact List.mem_append_right _ hi
      have ham : a ∈ (h' :: l') ++ [h' + 1 * points.length] := hsub' a (by rw [he]; simp)
      have hbm : b ∈ (h' :: l') ++ [h' + 1 * points.length] := hsub' b (by rw [he]; simp)
      have hsort := arcs_sorted harc'
      obtain ⟨pre', rest, e'⟩ := List.append_of_mem ham
      rw [e', List.pairwise_append] at hsort
      obtain ⟨_, hsort2, hsort3⟩ := hsort
      have hbr : b ∈ rest := by
        rw [e'] at hbm
        rcases List.mem_append.1 hbm with hx | hx
        · have := hsort3 b hx a (List.mem_cons_self ..); omega
        · rcases List.mem_cons.1 hx with hx | hx
          · omega
          · exact hx
      obtain ⟨p2, y, z, post2, e2, h1, h2, h3, h4, h5⟩ := passes (f := f) (v := f k') (b := b) (by rw [fb]; exact hfk.2.1)
        (by rw [fa]; exact hfk.1) hsort2 hbr
      have hside := polygon_side (W := 1) (n := points.length) (u := h' :: l') (f := fun k => (posAt points k, finalWordAt points k))
        (finalAt_period points 1) hune (pre := pre' ++ p2) (a := y) (b := z) (post := post2) (by
          simp only [List.headD_cons]; rw [e', e2]; simp)
      refine ⟨(pre' ++ p2).length, _, _, by rw [hout]; exact hside.1, by rw [hout]; exact hside.2, ?_⟩
      rw [← hpos]
      exact close_between hfk ((hf y).1 h1 (by omega)) ((hf z).1 (by omega) h3) h4 h5
  · obtain ⟨h, l, rfl, hh, harc⟩ := hw
    have hm : (0 + 1) % out.length < out.length := Nat.mod_lt _ (by rw [hout]; simp)
    refine ⟨0, (posAt points h, finalWordAt points h), out[(0 + 1) % out.length], by rw [hout]; rfl, List.getElem?_eq_getElem hm, 0, le_refl _, zero_le_one, ?_⟩
    obtain ⟨p, hp, ep⟩ := posAt_mem hk
    obtain ⟨q, hq, eq⟩ := posAt_mem hh
    have := hsame p hp q hq
    rw [ep, eq] at this
    simp only [U16Vec3.xz, Prod.mk.injEq] at this
    rw [this.1, this.2, zero_mul, add_zero, sub_self, zero_mul, add_zero, sub_self]
    nlinarith [sq_nonneg e]

/-! ### Lengths -/

theorem splitPoint_none {points : RawContour} {maxEdgeLen : Nat} {flags : ContourFlags} {a b : Nat} (h1 : a < b) (h2 : b ≤ a + points.length)
    (h : splitPoint points maxEdgeLen flags (chosenAt points a) (chosenAt points b) = .ok none)
    (hw : Splittable flags (wordAt points (a + 1))) :
    EdgeAtMost maxEdgeLen (posAt points a) (posAt points b) ∨ b = a + 1 := by
  have hn : 0 < points.length := by omega
  unfold splitPoint at h
  simp only [chosenAt, Nat.mod_add_mod, idx_at hn, bind_ok] at h
  rw [if_pos (by
    rcases hw with ⟨g1, g2⟩ | ⟨g1, g2⟩
    · simp [g1, intersects, g2]
    · simp [g1, intersects, g2])] at h
  obtain ⟨len2, hl, h⟩ := bind_inv h
  obtain ⟨lim, hm, h⟩ := bind_inv h
  unfold lenSqI32 at hl
  split at hl
  · cases hl
    unfold mulU16 at hm
    split at hm
    · cases hm
      split at h
      · right
        by_cases hfull : b = a + points.length
        · subst hfull
          rename_i hgt
          rw [show posAt points (a + points.length) = posAt points a by rw [← posAt_mod, Nat.add_mod_right, posAt_mod]] at hgt
          exfalso
          simp only [sub_self, mul_zero, add_zero] at hgt
          push_cast at hgt
          have : (0 : Int) ≤ (maxEdgeLen : Int) * maxEdgeLen := by positivity
          omega
        · erw [arc_mod (n := points.length) h1 (by omega)] at h
          split at h
          · split at h <;> cases h
          · omega
      · left
        rename_i hle
        push_cast at hle
        unfold EdgeAtMost
        rw [pow_two, pow_two, pow_two]
        omega
    · cases hm
  · cases hl

theorem polygon_side_inv {n W : Nat} {u : List Nat} {f : Nat → U16Vec3 × Nat} (hf : ∀ k, f (k + W * n) = f k) {j : Nat} {va vb : U16Vec3 × Nat}
    (hne : u ≠ []) (ha : (u.map f)[j]? = some va) (hb : (u.map f)[(j + 1) % (u.map f).length]? = some vb) :
    ∃ pre a b post, u ++ [u.headD 0 + W * n] = pre ++ a :: b :: post ∧ f a = va ∧ f b = vb := by
  have hj : j < u.length := by simpa using (List.getElem?_eq_some_iff.1 ha).1
  have h1 : j + 1 < (u ++ [u.headD 0 + W * n]).length := by simp; omega
  obtain ⟨a, b, e⟩ : ∃ a b, u ++ [u.headD 0 + W * n] = (u ++ [u.headD 0 + W * n]).take j ++ a :: b :: (u ++ [u.headD 0 + W * n]).drop (j + 2) := by
    refine ⟨(u ++ [u.headD 0 + W * n])[j], (u ++ [u.headD 0 + W * n])[j + 1], ?_⟩
    rw [← List.drop_eq_getElem_cons h1, ← List.drop_eq_getElem_cons (by omega), List.take_append_drop]
  refine ⟨_, a, b, _, e, ?_⟩
  have hs := polygon_side hf hne e
  have hl : ((u ++ [u.headD 0 + W * n]).take j).length = j := by simp; omega
  rw [hl, ha, hb] at hs
  exact ⟨(Option.some.inj hs.1).symm, (Option.some.inj hs.2).symm⟩

theorem splittable_final {points : RawContour} {flags : ContourFlags} {k : Nat} (h : Splittable flags (finalWordAt points k)) :
    Splittable flags (wordAt points (k + 1)) := by
  rcases h with ⟨h1, h2⟩ | ⟨h1, h2⟩
  · left
    refine ⟨h1, ?_⟩
    rw [and_mask] at h2 ⊢
    rw [← h2, finalWordAt, finalWord_mod]
  · right
    refine ⟨h1, ?_⟩
    have e : intersects (finalWordAt points k) AREA_BORDER = intersects (wordAt points (k + 1)) AREA_BORDER := by
      rw [intersects_ab, intersects_ab, finalWordAt, finalWord_bit]
      simp
    have : intersects (finalWordAt points k) AREA_BORDER = true := by simpa [intersects] using h2
    rw [e] at this
    simpa [intersects] using this

theorem simplify_edge_length {t : Tests} {points : RawContour} (hne : points ≠ []) {maxEdgeLen : Nat} (hm : 0 < maxEdgeLen) {flags : ContourFlags}
    {out : RawContour} (hok : simplifyContour t points maxEdgeLen flags = .ok out) {j : Nat} {a b : U16Vec3 × Nat} (ha : out[j]? = some a)
    (hb : out[(j + 1) % out.length]? = some b) (hs : Splittable flags a.2) :
    EdgeAtMost maxEdgeLen a.1 b.1 ∨ ∃ k, a = (posAt points k, finalWordAt points k) ∧ b = (posAt points (k + 1), finalWordAt points (k + 1)) := by
  have hn : 0 < points.length := List.length_pos_of_ne_nil hne
  rcases simplify_stages t points hne maxEdgeLen flags with ⟨o, ho, u1, u, W, hw1, hw, hhd, hsub, hW, hout, hch, hset, _, hsplit⟩ | ⟨_, h⟩
  swap
  · rw [h] at hok; cases hok
  rw [hok] at ho; cases ho
  have hune : u ≠ [] := by obtain ⟨h, l, rfl, _⟩ := hw; simp
  rw [hout] at ha hb
  obtain ⟨pre, x, y, post, e, rfl, rfl⟩ := polygon_side_inv (n := points.length) (W := W) (finalAt_period points W) hune ha hb
  have hany : maxEdgeLen > 0 ∧ (flags.wallEdges || flags.areaEdges) = true := by
    refine ⟨hm, ?_⟩
    rcases hs with ⟨h, _⟩ | ⟨h, _⟩ <;> simp [h]
  have hnone := hsplit hany pre x y post e
  have hxy : x < y ∧ y ≤ x + points.length := by
    obtain ⟨h, l, rfl, _, harc⟩ := hw
    simp only [List.headD_cons] at e
    exact arcs_side harc e
  rcases splitPoint_none hxy.1 hxy.2 hnone (splittable_final hs) with hle | rfl
  · left; exact hle
  · right; exact ⟨x, rfl, rfl⟩

/-! ### Removing degenerate segments -/

/-- Every side of the second polygon leaves a vertex from which a side of the first one goes to the same place. -/
def SidesFrom (s s' : RawContour) : Prop :=
  ∀ (j : Nat) (a b : U16Vec3 × Nat), s'[j]? = some a → s'[(j + 1) % s'.length]? = some b →
    ∃ (i : Nat) (c : U16Vec3 × Nat), s[i]? = some a ∧ s[(i + 1) % s.length]? = some c ∧ c.1.xz = b.1.xz

theorem SidesFrom.refl (s : RawContour) : SidesFrom s s := fun j a b ha hb => ⟨j, b, ha, hb, rfl⟩

theorem SidesFrom.trans {s1 s2 s3 : RawContour} (h1 : SidesFrom s1 s2) (h2 : SidesFrom s2 s3) : SidesFrom s1 s3 := by
  intro j a b ha hb
  obtain ⟨i, c, h3, h4, h5⟩ := h2 j a b ha hb
  obtain ⟨k, d, h6, h7, h8⟩ := h1 i a c h3 h4
  exact ⟨k, d, h6, h7, h8.trans h5⟩

theorem sides_erase {s : RawContour} {i : Nat} {p q : U16Vec3 × Nat} (hp : s[i]? = some p) (hq : s[(i + 1) % s.length]? = some q)
    (h : p.1.xz = q.1.xz) : SidesFrom s (s.eraseIdx i) := by
  have hi := (List.getElem?_eq_some_iff.1 hp).1
  intro j a b ha hb
  have hj := (List.getElem?_eq_some_iff.1 ha).1
  rw [List.length_eraseIdx_of_lt hi] at hj hb
  rw [List.getElem?_eraseIdx] at ha hb
  -- the index in the longer list
  have ha' : s[if j < i then j else j + 1]? = some a := by split <;> simp_all
  refine ⟨if j < i then j else j + 1, ?_⟩
  by_cases hn : ((if j < i then j else j + 1) + 1) % s.length = i
  · refine ⟨p, ha', by rw [hn]; exact hp, ?_⟩
    have hb' : s[(i + 1) % s.length]? = some b := by
      rw [← hb]
      by_cases hlast : j + 1 < s.length - 1
      · rw [Nat.mod_eq_of_lt hlast]
        split at hn
        · rw [Nat.mod_eq_of_lt (by omega)] at hn
          rw [if_neg (by omega), Nat.mod_eq_of_lt (by omega), hn]
        · rw [Nat.mod_eq_of_lt (by omega)] at hn
          omega
      · have ej : j + 1 = s.length - 1 := by omega
        rw [ej, Nat.mod_self]
        split at hn
        · rw [Nat.mod_eq_of_lt (by omega)] at hn
          rw [if_pos (by omega), show i + 1 = s.length by omega, Nat.mod_self]
        · rw [show j + 1 + 1 = s.length by omega, Nat.mod_self] at hn
          rw [if_neg (by omega), Nat.mod_eq_of_lt (by omega), ← hn]
    rw [hq] at hb'
    cases hb'
    exact h
  · refine ⟨b, ha', ?_, rfl⟩
    rw [← hb]
    by_cases hlast : j + 1 < s.length - 1
    · rw [Nat.mod_eq_of_lt hlast]
      split at hn
      · rw [Nat.mod_eq_of_lt (by omega)] at hn
        rw [if_pos (by omega), if_pos (by omega), Nat.mod_eq_of_lt (by omega)]
      · rw [if_neg (by omega), if_neg (by omega), Nat.mod_eq_of_lt (by omega)]
    · have ej : j + 1 = s.length - 1 := by omega
      rw [ej, Nat.mod_self]
      split at hn
      · rw [Nat.mod_eq_of_lt (by omega)] at hn
        omega
      · rw [show j + 1 + 1 = s.length by omega, Nat.mod_self] at hn
        rw [if_neg (by omega), if_pos (by omega), show s.length - 1 + 1 = s.length by omega, Nat.mod_self]

theorem removeDegenerateFrom_sides : ∀ (fuel i : Nat) (s out : RawContour), removeDegenerateFrom fuel i s = .ok out → SidesFrom s out := by
  intro fuel
  induction fuel with
  | zero =>
    intro i s out h
    unfold removeDegenerateFrom at h
    split at h
    · cases h
    · cases h; exact .refl _
  | succ fuel ih =>
    intro i s out h
    unfold removeDegenerateFrom at h
    split at h
    · obtain ⟨p, hp, h⟩ := bind_inv h
      obtain ⟨q, hq, h⟩ := bind_inv h
      split at h
      · rename_i hpq
        exact (sides_erase (idx_eq_ok.1 hp) (idx_eq_ok.1 hq) hpq).trans (ih _ _ _ h)
      · exact ih _ _ _ h
    · cases h; exact .refl _

end Rerecast
