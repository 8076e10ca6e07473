import Verif.Lemmas.SimplifyMain
import Verif.Spec.Contour
import Mathlib.Algebra.Order.Field.Basic
/-! The error bound of contour simplification. -/
set_option linter.unusedVariables false
namespace Rerecast

theorem clamp01_range (t : Rat) : 0 ≤ clamp01 t ∧ clamp01 t ≤ 1 := by
  unfold clamp01
  split
  · exact ⟨le_refl _, zero_le_one⟩
  · split
    · exact ⟨zero_le_one, le_refl _⟩
    · exact ⟨not_lt.1 (by assumption), not_lt.1 (by assumption)⟩

theorem segDistSq_nonneg_within {p a b : U16Vec3} {e : Rat} (h : segDistSq p.xz a.xz b.xz ≤ e ^ 2) : WithinOfSegment e p a b := by
  refine ⟨segParam p.xz a.xz b.xz, (clamp01_range _).1, (clamp01_range _).2, ?_⟩
  have h' : ((a.x : Rat) + segParam p.xz a.xz b.xz * ((b.x : Rat) - a.x) - p.x) * ((a.x : Rat) + segParam p.xz a.xz b.xz * ((b.x : Rat) - a.x) - p.x) +
    ((a.z : Rat) + segParam p.xz a.xz b.xz * ((b.z : Rat) - a.z) - p.z) * ((a.z : Rat) + segParam p.xz a.xz b.xz * ((b.z : Rat) - a.z) - p.z) ≤ e ^ 2 := h
  generalize segParam p.xz a.xz b.xz = t at h' ⊢
  rw [pow_two, pow_two]
  exact h'

theorem within_symm {p a b : U16Vec3} {e : Rat} (h : WithinOfSegment e p a b) : WithinOfSegment e p b a := by
  obtain ⟨l, h0, h1, h2⟩ := h
  refine ⟨1 - l, by linarith, by linarith, ?_⟩
  have e1 : (b.x : Rat) + (1 - l) * ((a.x : Rat) - b.x) - p.x = (a.x : Rat) + l * ((b.x : Rat) - a.x) - p.x := by ring
  have e2 : (b.z : Rat) + (1 - l) * ((a.z : Rat) - b.z) - p.z = (a.z : Rat) + l * ((b.z : Rat) - a.z) - p.z := by ring
  rw [e1, e2]; exact h2

/-- The tests in exact arithmetic. -/
theorem keeps_exact (n : Nat) (e : Rat) : (Tests.exact e).Keeps n e := by
  intro p a b _ _ _ d hd hacc
  apply segDistSq_nonneg_within
  refine le_trans (show segDistSq p.xz a.xz b.xz ≤ d from hd) ?_
  rcases hacc with rfl | h
  · exact sq_nonneg e
  · have : ¬ (d > e * e) := of_decide_eq_false h
    rw [pow_two]; exact not_lt.1 this

theorem exists_grid : ∀ points : RawContour, ∃ n, ∀ p ∈ points, OnGrid n p.1
  | [] => ⟨0, by simp⟩
  | q :: points => by
    obtain ⟨n, hn⟩ := exists_grid points
    refine ⟨max n (max q.1.x q.1.z), fun p hp => ?_⟩
    rcases List.mem_cons.1 hp with rfl | hp
    · exact ⟨by omega, by omega⟩
    · have := hn p hp
      exact ⟨le_trans this.1 (by omega), le_trans this.2 (by omega)⟩

/-- Every position between the ends of a chain is on the chain or strictly inside one of its arcs. -/
theorem arcs_locate {n : Nat} : ∀ {l : List Nat} {x e : Nat}, Arcs n x l e → ∀ k, x ≤ k → k < e →
    k ∈ x :: l ∨ ∃ pre a b post, (x :: l) ++ [e] = pre ++ a :: b :: post ∧ a < k ∧ k < b := by
  intro l
  induction l with
  | nil =>
    intro x e h k h1 h2
    by_cases hk : k = x
    · left; simp [hk]
    · right; exact ⟨[], x, e, [], rfl, by omega, h2⟩
  | cons y l ih =>
    intro x e h k h1 h2
    by_cases hk : k < y
    · by_cases hkx : k = x
      · left; simp [hkx]
      · right; exact ⟨[], x, y, l ++ [e], rfl, by omega, hk⟩
    · rcases ih h.2 k (by omega) h2 with h3 | ⟨pre, a, b, post, he, h4, h5⟩
      · left; exact List.mem_cons_of_mem _ h3
      · right; exact ⟨x :: pre, a, b, post, by rw [List.cons_append, he]; rfl, h4, h5⟩

theorem arcs_gap {n : Nat} {l : List Nat} {x e : Nat} (h : Arcs n x l e) {pre : List Nat} {a b : Nat} {post : List Nat}
    (he : (x :: l) ++ [e] = pre ++ a :: b :: post) {k : Nat} (h1 : a < k) (h2 : k < b) : k ∉ x :: l := by
  intro hk
  have hp : ((x :: l) ++ [e]).Pairwise (· < ·) := by
    rw [List.pairwise_append]
    refine ⟨h.pairwise, by simp, ?_⟩
    intro y hy z hz
    simp at hz; subst hz
    rcases List.mem_cons.1 hy with rfl | hy
    · have := h.length; omega
    · exact (h.mem y hy).2
  have hk' : k ∈ pre ++ a :: b :: post := by rw [← he]; exact List.mem_append_left _ hk
  rw [he, List.pairwise_append] at hp
  obtain ⟨_, hp2, hp3⟩ := hp
  rw [List.pairwise_cons, List.pairwise_cons] at hp2
  rcases List.mem_append.1 hk' with h3 | h3
  · have := hp3 k h3 a (by simp); omega
  · rcases List.mem_cons.1 h3 with rfl | h3
    · omega
    · rcases List.mem_cons.1 h3 with rfl | h3
      · omega
      · have := hp2.2.1 k h3; omega

/-- Consecutive positions of the closed chain are consecutive vertices of the polygon. -/
theorem polygon_side {n W : Nat} {u : List Nat} {f : Nat → U16Vec3 × Nat} (hf : ∀ k, f (k + W * n) = f k) {pre : List Nat} {a b : Nat} {post : List Nat}
    (hne : u ≠ []) (he : u ++ [u.headD 0 + W * n] = pre ++ a :: b :: post) :
    (u.map f)[pre.length]? = some (f a) ∧ (u.map f)[(pre.length + 1) % (u.map f).length]? = some (f b) := by
  have hlen := congrArg List.length he
  simp at hlen
  have h1 : pre.length < u.length := by omega
  have ha : u[pre.length]? = some a := by
    have : (u ++ [u.headD 0 + W * n])[pre.length]? = some a := by rw [he]; simp
    rwa [List.getElem?_append_left h1] at this
  have hb : (u ++ [u.headD 0 + W * n])[pre.length + 1]? = some b := by rw [he]; simp
  refine ⟨by rw [List.getElem?_map, ha]; rfl, ?_⟩
  rw [List.length_map, List.getElem?_map]
  by_cases h2 : pre.length + 1 < u.length
  · rw [Nat.mod_eq_of_lt h2]
    rw [List.getElem?_append_left h2] at hb
    rw [hb]; rfl
  · have h3 : pre.length + 1 = u.length := by omega
    rw [h3, List.getElem?_append_right (by omega), Nat.sub_self] at hb
    simp at hb
    rw [h3, Nat.mod_self]
    obtain ⟨h, l, rfl⟩ := List.exists_cons_of_ne_nil hne
    simp at hb
    subst hb
    simp [hf]

theorem changed_false {points : RawContour} {i : Nat} (h : changed points i = false) :
    wordAt points i &&& REGION_MASK = wordAt points (i + 1) &&& REGION_MASK ∧
    wordAt points i &&& AREA_BORDER = wordAt points (i + 1) &&& AREA_BORDER := by
  unfold changed at h
  have := of_decide_eq_false h
  push Not at this
  exact this

theorem changed_mod {points : RawContour} (i : Nat) : changed points (i % points.length) = changed points i := by
  unfold changed
  have : wordAt points (i % points.length + 1) = wordAt points (i + 1) := by
    rw [← wordAt_mod points (i % points.length + 1), Nat.mod_add_mod, wordAt_mod]
  rw [wordAt_mod, this]

theorem tolerated_congr {points : RawContour} {i j : Nat} (h1 : wordAt points i &&& REGION_MASK = wordAt points j &&& REGION_MASK)
    (h2 : wordAt points i &&& AREA_BORDER = wordAt points j &&& AREA_BORDER) : tolerated points i = tolerated points j := by
  simp only [tolerated, intersects, h1, h2]

/-- The raw vertices between two consecutive vertices of the refined contour are within the tolerance, if one of them is subject to it. -/
theorem refined_arc {t : Tests} {gn : Nat} {e : Rat} (ht : t.Keeps gn e) {points : RawContour} (hn : 0 < points.length) (hN : ∀ p ∈ points, OnGrid gn p.1) {h : Nat} {l : List Nat} (hh : h < points.length)
    (harc : Arcs points.length h l (h + 1 * points.length))
    (hch : (points.any fun p => intersects p.2 REGION_MASK) = true → ∀ i < points.length, changed points i = true → i ∈ h :: l)
    {pre : List Nat} {a b : Nat} {post : List Nat} (he : (h :: l) ++ [h + 1 * points.length] = pre ++ a :: b :: post)
    (hpick : refinePick t points (chosenAt points a) (chosenAt points b) = .ok none) {k' : Nat} (hak : a < k') (hkb : k' < b)
    (htol : tolerated points k' = true) : ∀ i, a < i → i < b → WithinOfSegment e (posAt points i) (posAt points a) (posAt points b) := by
  have hab : a < b ∧ b ≤ a + points.length := by
    cases pre with
    | nil =>
      have harc' := harc
      have he' : h = a ∧ l ++ [h + 1 * points.length] = b :: post := by simpa using he
      obtain ⟨rfl, he'⟩ := he'
      cases l with
      | nil => simp at he'; obtain ⟨rfl, _⟩ := he'; have := harc.1; have := harc.2; omega
      | cons y l => simp at he'; obtain ⟨rfl, _⟩ := he'; exact harc.1
    | cons p pre =>
      have he' : h = p ∧ l ++ [h + 1 * points.length] = pre ++ a :: b :: post := by simpa using he
      obtain ⟨rfl, he'⟩ := he'
      have hlast : ∃ l2, l = pre ++ a :: l2 ∧ l2 ++ [h + 1 * points.length] = b :: post := by
        have h6 : l ++ [h + 1 * points.length] = (pre ++ [a]) ++ (b :: post) := by simpa using he'
        rcases List.append_eq_append_iff.1 h6 with ⟨c, hc1, hc2⟩ | ⟨c, hc1, hc2⟩
        · have := congrArg List.length hc2
          have := congrArg List.length hc1
          simp at *
          have : c = [] := List.length_eq_zero_iff.1 (by omega)
          subst this
          exact ⟨[], by simpa using hc1.symm, by simpa using hc2⟩
        · exact ⟨c, by simpa using hc1, hc2.symm⟩
      obtain ⟨l2, rfl, h7⟩ := hlast
      have h8 := (arcs_append.1 harc).2
      cases l2 with
      | nil => simp at h7; obtain ⟨rfl, _⟩ := h7; exact ⟨by have := h8.1; omega, by have := h8.2; omega⟩
      | cons y l2 => simp at h7; obtain ⟨rfl, _⟩ := h7; exact h8.1
  have hb2 : b ≤ h + points.length := by
    have hp : ((h :: l) ++ [h + 1 * points.length]).Pairwise (· ≤ ·) := by
      rw [List.pairwise_append]
      refine ⟨harc.pairwise.imp (fun h => Nat.le_of_lt h), by simp, ?_⟩
      intro y hy z hz
      simp at hz; subst hz
      rcases List.mem_cons.1 hy with rfl | hy
      · omega
      · have := (harc.mem y hy).2; omega
    have hbm : b ∈ (h :: l) ++ [h + 1 * points.length] := by rw [he]; simp
    rcases List.mem_append.1 hbm with h3 | h3
    · rcases List.mem_cons.1 h3 with rfl | h3
      · omega
      · have := (harc.mem b h3).2; omega
    · simp at h3; omega
  have hah : h ≤ a := by
    have ham : a ∈ (h :: l) ++ [h + 1 * points.length] := by rw [he]; simp
    rcases List.mem_append.1 ham with h3 | h3
    · rcases List.mem_cons.1 h3 with rfl | h3
      · omega
      · have := (harc.mem a h3).1; omega
    · simp at h3; omega
  obtain ⟨r, hr, _, hr0, hrt⟩ := segmentDeviation_spec t (points := points) hab.1 hab.2
  -- the words of the arc agree
  have htolk : tolerated points (firstLooked points a b) = true := by
    by_cases hconn : (points.any fun p => intersects p.2 REGION_MASK) = true
    · have hno : ∀ i, a < i → i < b → changed points i = false := by
        intro i hi1 hi2
        by_contra hcc
        have hci : changed points (i % points.length) = true := by
          rw [changed_mod]; cases hx : changed points i with
          | true => rfl
          | false => exact absurd hx hcc
        have hmem := hch hconn (i % points.length) (Nat.mod_lt _ hn) hci
        have : i % points.length = i := by
          by_contra hne2
          have hge : points.length ≤ i := by
            by_contra hlt; exact hne2 (Nat.mod_eq_of_lt (by omega))
          have : i % points.length = i - points.length := by
            rw [Nat.mod_eq_sub_mod hge, Nat.mod_eq_of_lt (by omega)]
          rw [this] at hmem
          rcases List.mem_cons.1 hmem with h3 | h3
          · omega
          · have := (harc.mem _ h3).1; omega
        rw [this] at hmem
        exact arcs_gap harc he hi1 hi2 hmem
      have hwords : ∀ d, a + 1 + d ≤ b → wordAt points (a + 1) &&& REGION_MASK = wordAt points (a + 1 + d) &&& REGION_MASK ∧
          wordAt points (a + 1) &&& AREA_BORDER = wordAt points (a + 1 + d) &&& AREA_BORDER := by
        intro d
        induction d with
        | zero => intro _; exact ⟨rfl, rfl⟩
        | succ d ih =>
          intro hd
          obtain ⟨g1, g2⟩ := ih (by omega)
          obtain ⟨g3, g4⟩ := changed_false (hno (a + 1 + d) (by omega) (by omega))
          exact ⟨g1.trans g3, g2.trans g4⟩
      have hk3 := hwords (k' - (a + 1)) (by omega)
      rw [show a + 1 + (k' - (a + 1)) = k' by omega] at hk3
      have ht1 : tolerated points (a + 1) = true := by
        rw [tolerated_congr hk3.1 hk3.2]; exact htol
      unfold firstLooked
      split
      · exact ht1
      · have hb3 := hwords (b - 1 - (a + 1)) (by omega)
        rw [show a + 1 + (b - 1 - (a + 1)) = b - 1 by omega] at hb3
        have : tolerated points (b + points.length - 1) = tolerated points (b - 1) := by
          unfold tolerated
          rw [← wordAt_mod points (b + points.length - 1), show b + points.length - 1 = (b - 1) + points.length by omega, Nat.add_mod_right, wordAt_mod]
        rw [this, ← tolerated_congr hb3.1 hb3.2]; exact ht1
    · unfold tolerated
      rw [Bool.or_eq_true]
      left
      rw [Bool.not_eq_true']
      by_contra hx
      apply hconn
      rw [List.any_eq_true]
      have hm := Nat.mod_lt (firstLooked points a b) hn
      refine ⟨points[firstLooked points a b % points.length], List.getElem_mem hm, ?_⟩
      have : wordAt points (firstLooked points a b) = (points[firstLooked points a b % points.length]).2 := by
        simp [wordAt, List.getD_eq_getElem?_getD, List.getElem?_eq_getElem hm]
      rw [← this]
      cases hy : intersects (wordAt points (firstLooked points a b)) REGION_MASK with
      | true => rfl
      | false => exact absurd hy hx
  -- the deviation is accepted
  have hacc : r.1 = 0 ∨ t.exceeds r.1 = false := by
    rw [refinePick, hr, bind_ok] at hpick
    simp only [Except.ok.injEq] at hpick
    by_cases hex : t.exceeds r.1 = true
    · rw [if_pos hex] at hpick
      exact .inl (hr0 hpick)
    · exact .inr (by simpa using hex)
  have hg : ∀ i, OnGrid gn (posAt points i) := by
    intro i
    obtain ⟨p, hp, ep⟩ := posAt_mem (Nat.mod_lt i hn)
    rw [← posAt_mod, ← ep]
    exact hN p hp
  intro i hai hib
  have hdev := hrt htolk i hai hib
  cases hl : lexLt (posAt points a) (posAt points b) with
  | true =>
    rw [hl, if_pos rfl] at hdev
    exact ht _ _ _ (hg i) (hg a) (hg b) _ hdev hacc
  | false =>
    rw [hl, if_neg (by simp)] at hdev
    exact within_symm (ht _ _ _ (hg i) (hg b) (hg a) _ hdev hacc)

theorem simplify_error {t : Tests} {gn : Nat} {e : Rat} (ht : t.Keeps gn e) (points : RawContour) (hne : points ≠ []) (hN : ∀ p ∈ points, OnGrid gn p.1) (maxEdgeLen : Nat) (flags : ContourFlags)
    (hns : ¬ (maxEdgeLen > 0 ∧ (flags.wallEdges || flags.areaEdges) = true)) (out : RawContour)
    (hok : simplifyContour t points maxEdgeLen flags = .ok out) {k : Nat} (hk : k < points.length)
    (htol : tolerated points k = true) : WithinOfPolygon e (posAt points k) out := by
  have hn : 0 < points.length := by omega
  rcases simplify_spec t points hne maxEdgeLen flags with ⟨a, ha, u, W, hw, hW, hout, hch, hset⟩ | ⟨_, h⟩
  swap
  · rw [h] at hok; cases hok
  rw [hok] at ha; cases ha
  have hset := hset hns
  have hf : ∀ j, (posAt points (j + W * points.length), finalWordAt points (j + W * points.length)) = (posAt points j, finalWordAt points j) := by
    intro j
    have e1 : (j + W * points.length) % points.length = j % points.length := by simp
    have e2 : (j + W * points.length + 1) % points.length = (j + 1) % points.length := by
      rw [show j + W * points.length + 1 = (j + 1) + W * points.length by omega]; simp
    simp only [posAt, finalWordAt, wordAt, e1, e2]
  have hune : u ≠ [] := by obtain ⟨h, l, rfl, _⟩ := hw; simp
  -- a kept vertex is on the polygon
  have hkept : ∀ j ∈ u, j % points.length = k → WithinOfPolygon e (posAt points k) out := by
    intro j hj hjk
    obtain ⟨pre, post, rfl⟩ := List.append_of_mem hj
    refine ⟨pre.length, (posAt points j, finalWordAt points j), ?_⟩
    have hm : (pre.length + 1) % out.length < out.length := Nat.mod_lt _ (by rw [hout]; simp)
    refine ⟨out[(pre.length + 1) % out.length], by rw [hout]; simp, List.getElem?_eq_getElem hm, 0, le_refl _, zero_le_one, ?_⟩
    have : posAt points j = posAt points k := by rw [← posAt_mod, hjk]
    simp only [this]
    simp
    exact sq_nonneg e
  rcases hW with rfl | ⟨rfl, hsame⟩
  · obtain ⟨h, l, rfl, hh, harc⟩ := hw
    -- unwrap k
    obtain ⟨k', hk1, hk2, hkk⟩ : ∃ k', h ≤ k' ∧ k' < h + 1 * points.length ∧ k' % points.length = k := by
      by_cases hc : h ≤ k
      · exact ⟨k, hc, by omega, Nat.mod_eq_of_lt hk⟩
      · exact ⟨k + points.length, by omega, by omega, by simp [Nat.mod_eq_of_lt hk]⟩
    rcases arcs_locate harc k' hk1 hk2 with hmem | ⟨pre, a, b, post, he, hak, hkb⟩
    · exact hkept k' hmem hkk
    · have hside := polygon_side (W := 1) (n := points.length) (u := h :: l) (f := fun k => (posAt points k, finalWordAt points k)) hf hune he
      have hpick := hset pre a b post he
      have hpos : posAt points k' = posAt points k := by rw [← posAt_mod, hkk]
      have htol' : tolerated points k' = true := by
        have : tolerated points k' = tolerated points k := by
          unfold tolerated; rw [← wordAt_mod points k', hkk]
        rw [this]; exact htol
      refine ⟨pre.length, _, _, by rw [hout]; exact hside.1, by rw [hout]; exact hside.2, ?_⟩
      rw [← hpos]
      exact refined_arc ht hn hN hh harc hch he hpick hak hkb htol' k' hak hkb
  · obtain ⟨h, l, rfl, hh, harc⟩ := hw
    have hm : (0 + 1) % out.length < out.length := Nat.mod_lt _ (by rw [hout]; simp)
    refine ⟨0, (posAt points h, finalWordAt points h), out[(0 + 1) % out.length], by rw [hout]; rfl, List.getElem?_eq_getElem hm, 0, le_refl _, zero_le_one, ?_⟩
    obtain ⟨p, hp, ep⟩ := posAt_mem hk
    obtain ⟨q, hq, eq⟩ := posAt_mem hh
    have := hsame p hp q hq
    rw [ep, eq] at this
    simp only [U16Vec3.xz, Prod.mk.injEq] at this
    rw [this.1, this.2]
    simp
    exact sq_nonneg e

end Rerecast
