import Verif.Lemmas.Winding
import Verif.Lemmas.SimplifySplit
import Verif.Lemmas.Degenerate
import Mathlib.Data.List.Sort
/-! Simplifying an outline does not change how often it winds around points away from it. -/
namespace Rerecast

/-- The point `p` is within `e` of the point with parameter `l` of the segment. -/
def CloseTo (e : Rat) (p a b : Point) (l : Rat) : Prop :=
  0 ≤ l ∧ l ≤ 1 ∧ (a.1 + l * (b.1 - a.1) - p.1) ^ 2 + (a.2 + l * (b.2 - a.2) - p.2) ^ 2 ≤ e ^ 2

theorem close_mid {e : Rat} {p a b m m' : Point} {l lm lm' : Rat} (hp : CloseTo e p a b l) (hm : CloseTo e m a b lm)
    (hm' : CloseTo e m' a b lm') (h1 : lm ≤ l) (h2 : l ≤ lm') : NearSegment (2 * e) p m m' := by
  obtain ⟨s, s0, s1, es⟩ : ∃ s : Rat, 0 ≤ s ∧ s ≤ 1 ∧ l = (1 - s) * lm + s * lm' := by
    rcases eq_or_lt_of_le (le_trans h1 h2) with he | hlt
    · refine ⟨0, le_refl _, zero_le_one, ?_⟩
      have : lm = l := le_antisymm h1 (by rw [he]; exact h2)
      rw [← this]; ring
    · have hd : 0 < lm' - lm := by linarith
      refine ⟨(l - lm) / (lm' - lm), div_nonneg (by linarith) (le_of_lt hd), ?_, ?_⟩
      · rw [div_le_one hd]; linarith
      · have hm := div_mul_cancel₀ (l - lm) (ne_of_gt hd)
        linear_combination -hm
  refine ⟨s, s0, s1, ?_⟩
  obtain ⟨_, _, hp⟩ := hp
  obtain ⟨_, _, hm⟩ := hm
  obtain ⟨_, _, hm'⟩ := hm'
  have key := sum_le hp (mean_le s0 s1 hm hm')
  have e1 : m.1 + s * (m'.1 - m.1) - p.1 = (a.1 + l * (b.1 - a.1) - p.1) -
      ((1 - s) * (a.1 + lm * (b.1 - a.1) - m.1) + s * (a.1 + lm' * (b.1 - a.1) - m'.1)) := by
    rw [es]; ring
  have e2 : m.2 + s * (m'.2 - m.2) - p.2 = (a.2 + l * (b.2 - a.2) - p.2) -
      ((1 - s) * (a.2 + lm * (b.2 - a.2) - m.2) + s * (a.2 + lm' * (b.2 - a.2) - m'.2)) := by
    rw [es]; ring
  rw [e1, e2]
  exact key

/-- A point of a triangle with corners close to a segment is close to it. -/
theorem close_triangle {e : Rat} {p a b x y z : Point} {lx ly lz : Rat} (hx : CloseTo e x a b lx) (hy : CloseTo e y a b ly)
    (hz : CloseTo e z a b lz) (h : InPlaneTriangle p x y z) : ∃ l, CloseTo e p a b l := by
  obtain ⟨s, t, u, hs, ht, hu, hsum, e1, e2⟩ := h
  obtain ⟨x0, x1, hx⟩ := hx
  obtain ⟨y0, y1, hy⟩ := hy
  obtain ⟨z0, z1, hz⟩ := hz
  refine ⟨s * lx + t * ly + u * lz, by positivity, ?_, ?_⟩
  · have k1 := mul_le_mul_of_nonneg_left x1 hs
    have k2 := mul_le_mul_of_nonneg_left y1 ht
    have k3 := mul_le_mul_of_nonneg_left z1 hu
    linarith
  · have hu' : u = 1 - s - t := by linarith
    have d1 : a.1 + (s * lx + t * ly + u * lz) * (b.1 - a.1) - p.1 = s * (a.1 + lx * (b.1 - a.1) - x.1) + t * (a.1 + ly * (b.1 - a.1) - y.1) +
        u * (a.1 + lz * (b.1 - a.1) - z.1) := by rw [e1, hu']; ring
    have d2 : a.2 + (s * lx + t * ly + u * lz) * (b.2 - a.2) - p.2 = s * (a.2 + lx * (b.2 - a.2) - x.2) + t * (a.2 + ly * (b.2 - a.2) - y.2) +
        u * (a.2 + lz * (b.2 - a.2) - z.2) := by rw [e2, hu']; ring
    rw [d1, d2]
    generalize a.1 + lx * (b.1 - a.1) - x.1 = X1 at *
    generalize a.1 + ly * (b.1 - a.1) - y.1 = Y1 at *
    generalize a.1 + lz * (b.1 - a.1) - z.1 = Z1 at *
    generalize a.2 + lx * (b.2 - a.2) - x.2 = X2 at *
    generalize a.2 + ly * (b.2 - a.2) - y.2 = Y2 at *
    generalize a.2 + lz * (b.2 - a.2) - z.2 = Z2 at *
    have k1 := mul_le_mul_of_nonneg_left hx hs
    have k2 := mul_le_mul_of_nonneg_left hy ht
    have k3 := mul_le_mul_of_nonneg_left hz hu
    have q1 := mul_nonneg (mul_nonneg hs ht) (add_nonneg (sq_nonneg (X1 - Y1)) (sq_nonneg (X2 - Y2)))
    have q2 := mul_nonneg (mul_nonneg hs hu) (add_nonneg (sq_nonneg (X1 - Z1)) (sq_nonneg (X2 - Z2)))
    have q3 := mul_nonneg (mul_nonneg ht hu) (add_nonneg (sq_nonneg (Y1 - Z1)) (sq_nonneg (Y2 - Z2)))
    have id : (s * X1 + t * Y1 + u * Z1) ^ 2 + (s * X2 + t * Y2 + u * Z2) ^ 2 =
        s * (X1 ^ 2 + X2 ^ 2) + t * (Y1 ^ 2 + Y2 ^ 2) + u * (Z1 ^ 2 + Z2 ^ 2) -
        (s * t * ((X1 - Y1) ^ 2 + (X2 - Y2) ^ 2) + s * u * ((X1 - Z1) ^ 2 + (X2 - Z2) ^ 2) + t * u * ((Y1 - Z1) ^ 2 + (Y2 - Z2) ^ 2)) := by
      rw [hu']; ring
    have hE : s * e ^ 2 + t * e ^ 2 + u * e ^ 2 = e ^ 2 := by rw [hu']; ring
    rw [id]
    linarith

/-- A value passes from at most `v` to at least `v` between two neighbours. -/
theorem passes_at {f : Nat → Rat} {v : Rat} {a : Nat} (ha : f a ≤ v) : ∀ d, 0 < d → v ≤ f (a + d) → ∃ m, a ≤ m ∧ m < a + d ∧ f m ≤ v ∧ v ≤ f (m + 1)
  | 0, h, _ => absurd h (by omega)
  | d + 1, _, hb => by
    by_cases hd : f (a + d) ≤ v
    · exact ⟨a + d, by omega, by omega, hd, hb⟩
    · have h0 : 0 < d := by
        rcases Nat.eq_zero_or_pos d with rfl | h
        · exact absurd ha hd
        · exact h
      obtain ⟨m, h1, h2, h3⟩ := passes_at ha d h0 (le_of_lt (not_le.1 hd))
      exact ⟨m, h1, by omega, h3⟩

/-- A point of a triangle of vertices of a section that stays close to its segment is close to an edge of the section. -/
theorem section_near {e : Rat} {f : Nat → Point} {a b : Nat} (hab : a < b) (hin : ∀ i, a < i → i < b → ∃ l, CloseTo e (f i) (f a) (f b) l) {p : Point}
    {i j k : Nat} (hi : a ≤ i ∧ i ≤ b) (hj : a ≤ j ∧ j ≤ b) (hk : a ≤ k ∧ k ≤ b) (h : InPlaneTriangle p (f i) (f j) (f k)) :
    ∃ m, a ≤ m ∧ m < b ∧ NearSegment (2 * e) p (f m) (f (m + 1)) := by
  have hpar : ∀ i, ∃ v, (a ≤ i → i ≤ b → CloseTo e (f i) (f a) (f b) v) ∧ (i = a → v = 0) ∧ (i = b → i ≠ a → v = 1) := by
    intro i
    by_cases hia : i = a
    · refine ⟨0, fun _ _ => ⟨le_refl _, zero_le_one, ?_⟩, fun _ => rfl, fun _ h => absurd hia h⟩
      rw [hia, zero_mul, add_zero, sub_self, zero_mul, add_zero, sub_self]
      nlinarith [sq_nonneg e]
    · by_cases hib : i = b
      · refine ⟨1, fun _ _ => ⟨zero_le_one, le_refl _, ?_⟩, fun h => absurd h hia, fun _ _ => rfl⟩
        rw [hib, one_mul, one_mul]
        have := sq_nonneg e
        ring_nf
        rw [pow_two] at this ⊢
        exact this
      · by_cases hc : a ≤ i ∧ i ≤ b
        · obtain ⟨v, g⟩ := hin i (by omega) (by omega)
          exact ⟨v, fun _ _ => g, fun h => absurd h hia, fun h => absurd h hib⟩
        · exact ⟨0, fun g1 g2 => absurd ⟨g1, g2⟩ hc, fun h => absurd h hia, fun h => absurd h hib⟩
  choose g hg using hpar
  obtain ⟨l, hl⟩ := close_triangle ((hg i).1 hi.1 hi.2) ((hg j).1 hj.1 hj.2) ((hg k).1 hk.1 hk.2) h
  have ga : g a = 0 := (hg a).2.1 rfl
  have gb : g b = 1 := (hg b).2.2 rfl (by omega)
  obtain ⟨m, m1, m2, m3, m4⟩ := passes_at (f := g) (v := l) (a := a) (by rw [ga]; exact hl.1) (b - a) (by omega)
    (by rw [show a + (b - a) = b by omega, gb]; exact hl.2.1)
  exact ⟨m, m1, by omega, close_mid hl ((hg m).1 m1 (by omega)) ((hg (m + 1)).1 (by omega) (by omega)) m3 m4⟩

/-- Raw vertex number `k` in the plane. -/
def planeAt (points : RawContour) (k : Nat) : Point := (posAt points k).plane

/-- An end of a raw edge with region `w` and the same area across. -/
def PortalEnd (points : RawContour) (w i : Nat) : Prop :=
  (wordAt points i &&& REGION_MASK = w ∧ wordAt points i &&& AREA_BORDER = 0) ∨
  (wordAt points (i + 1) &&& REGION_MASK = w ∧ wordAt points (i + 1) &&& AREA_BORDER = 0)

/-- The words of a section agree. -/
theorem section_words {points : RawContour} (hn : 0 < points.length) {h : Nat} {l : List Nat} (hh : h < points.length)
    (harc : Arcs points.length h l (h + 1 * points.length))
    (hch : ∀ i < points.length, changed points i = true → i ∈ h :: l)
    {pre : List Nat} {a b : Nat} {post : List Nat} (he : (h :: l) ++ [h + 1 * points.length] = pre ++ a :: b :: post) :
    ∀ i, a < i → i ≤ b → wordAt points (a + 1) &&& REGION_MASK = wordAt points i &&& REGION_MASK ∧
      wordAt points (a + 1) &&& AREA_BORDER = wordAt points i &&& AREA_BORDER := by
  have hsort := arcs_sorted harc
  have hb2 : b ≤ h + points.length := by
    have hbm : b ∈ (h :: l) ++ [h + 1 * points.length] := by rw [he]; simp
    rcases List.mem_append.1 hbm with h3 | h3
    · rcases List.mem_cons.1 h3 with rfl | h3
      · omega
      · have := (harc.mem b h3).2; omega
    · simp at h3; omega
  have hah : h ≤ a := by
    have ham : a ∈ (h :: l) ++ [h + 1 * points.length] := by rw [he]; simp
    rcases List.mem_append.1 ham with h3 | h3
    · rcases List.mem_cons.1 h3 with rfl | h3
      · omega
      · have := (harc.mem a h3).1; omega
    · simp at h3; omega
  have hno : ∀ i, a < i → i < b → changed points i = false := by
    intro i hi1 hi2
    by_contra hcc
    have hci : changed points (i % points.length) = true := by
      rw [changed_mod]; cases hx : changed points i with
      | true => rfl
      | false => exact absurd hx hcc
    have hmem := hch (i % points.length) (Nat.mod_lt _ hn) hci
    have : i % points.length = i := by
      by_contra hne2
      have hge : points.length ≤ i := by
        by_contra hlt; exact hne2 (Nat.mod_eq_of_lt (by omega))
      have : i % points.length = i - points.length := by
        rw [Nat.mod_eq_sub_mod hge, Nat.mod_eq_of_lt (by omega)]
      rw [this] at hmem
      rcases List.mem_cons.1 hmem with h3 | h3
      · omega
      · have := (harc.mem _ h3).1; omega
    rw [this] at hmem
    exact arcs_gap harc he hi1 hi2 hmem
  have hwords : ∀ d, a + 1 + d ≤ b → wordAt points (a + 1) &&& REGION_MASK = wordAt points (a + 1 + d) &&& REGION_MASK ∧
      wordAt points (a + 1) &&& AREA_BORDER = wordAt points (a + 1 + d) &&& AREA_BORDER := by
    intro d
    induction d with
    | zero => intro _; exact ⟨rfl, rfl⟩
    | succ d ih =>
      intro hd
      obtain ⟨g1, g2⟩ := ih (by omega)
      obtain ⟨g3, g4⟩ := changed_false (hno (a + 1 + d) (by omega) (by omega))
      exact ⟨g1.trans g3, g2.trans g4⟩
  intro i h1 h2
  have := hwords (i - (a + 1)) (by omega)
  rwa [show a + 1 + (i - (a + 1)) = i by omega] at this

/-- Without any region across, every vertex is subject to the tolerance. -/
theorem tolerated_of_walls {points : RawContour} (hn : 0 < points.length) (h : ¬ (points.any fun p => intersects p.2 REGION_MASK) = true) (i : Nat) :
    tolerated points i = true := by
  unfold tolerated
  rw [Bool.or_eq_true]
  left
  rw [Bool.not_eq_true']
  by_contra hx
  apply h
  rw [List.any_eq_true]
  have hm := Nat.mod_lt i hn
  refine ⟨points[i % points.length], List.getElem_mem hm, ?_⟩
  have : wordAt points i = (points[i % points.length]).2 := by
    simp [wordAt, List.getD_eq_getElem?_getD, List.getElem?_eq_getElem hm]
  rw [← this]
  cases hy : intersects (wordAt points i) REGION_MASK with
  | true => rfl
  | false => exact absurd hy hx

/-- Going once around from vertex `h` on. -/
theorem around_from {points : RawContour} (p : Point) {h : Nat} (hh : h < points.length) :
    winding p (points.map fun v => v.1.plane) = pathSum (fun q : Nat × Nat => crossing p (planeAt points q.1, planeAt points q.2))
      (h :: List.range' (h + 1) (points.length - 1) ++ [h + 1 * points.length]) := by
  have hrot : (points.map fun v => v.1.plane).rotate h = (List.range' h points.length).map (planeAt points) := by
    apply List.ext_getElem?
    intro k
    by_cases hk : k < points.length
    · rw [List.getElem?_rotate (by simpa using hk), List.getElem?_map, List.getElem?_map, List.getElem?_range' hk]
      simp only [List.length_map, Option.map_some, one_mul]
      rw [List.getElem?_eq_getElem (Nat.mod_lt _ (by omega))]
      have : (k + h) % points.length = (h + k) % points.length := by rw [Nat.add_comm]
      simp [planeAt, posAt, this, List.getD_eq_getElem?_getD, List.getElem?_eq_getElem (Nat.mod_lt (h + k) (show 0 < points.length by omega))]
    · rw [List.getElem?_eq_none (by simp; omega), List.getElem?_eq_none (by simp; omega)]
  unfold winding
  rw [← around_rotate _ _ h, hrot]
  obtain ⟨n, hn⟩ : ∃ n, points.length = n + 1 := ⟨points.length - 1, by omega⟩
  rw [hn, List.range'_succ, List.map_cons, around_cons]
  have hper : planeAt points (h + (n + 1)) = planeAt points h := by
    unfold planeAt
    rw [← posAt_mod, hn, Nat.add_mod_right, ← hn, posAt_mod]
  rw [← pathSum_map (crossing p) (planeAt points)]
  simp [hper]

/-- Simplification keeps the winding number around points that are not near walls and area borders and not in a triangle of portal corners. -/
theorem simplify_winding {t : Tests} {gn : Nat} {e : Rat} (ht : t.Keeps gn e) {points : RawContour} (hne : points ≠ [])
    (hN : ∀ p ∈ points, OnGrid gn p.1) (hsame : ¬ AllSame points) {maxEdgeLen : Nat} {flags : ContourFlags}
    {out : RawContour} (hok : simplifyContour t points maxEdgeLen flags = .ok out) (p : Point)
    (hwall : ∀ i, tolerated points (i + 1) = true → ¬ NearSegment (2 * e) p (planeAt points i) (planeAt points (i + 1)))
    (hportal : ∀ w, w ≠ 0 → ∀ i j k, PortalEnd points w i → PortalEnd points w j → PortalEnd points w k →
      ¬ InPlaneTriangle p (planeAt points i) (planeAt points j) (planeAt points k)) :
    winding p (out.map fun v => v.1.plane) = winding p (points.map fun v => v.1.plane) := by
  have hn : 0 < points.length := List.length_pos_iff.2 hne
  rcases simplify_stages t points hne maxEdgeLen flags with ⟨a, ha, u1, u, W, hw1, hw, hhd, hsub, hW, hout, hch, hset, _, _⟩ | ⟨_, h⟩
  swap
  · rw [h] at hok; cases hok
  rw [hok] at ha; cases ha
  rcases hW with rfl | ⟨_, hs⟩
  swap
  · exact absurd hs hsame
  obtain ⟨h, l, rfl, hh, harc⟩ := hw1
  obtain ⟨h', l', rfl, hh', harc'⟩ := hw
  simp only [List.headD_cons] at hhd hset
  subst hhd
  have hsub' : l.Sublist l' := by
    rcases List.cons_sublist_cons'.1 hsub with h | h
    · exact (List.sublist_cons_self _ _).trans h
    · exact h.2
  have hadd : ∀ pre a b post, h' :: l ++ [h' + 1 * points.length] = pre ++ a :: b :: post →
      AddsUp (fun q : Nat × Nat => crossing p (planeAt points q.1, planeAt points q.2)) fun i => a ≤ i ∧ i ≤ b := by
    intro pre a b post he
    have hab := arcs_side harc he
    by_cases hnext : b = a + 1
    · intro x y z hx hy hz
      have k1 := crossing_self p (planeAt points a)
      have k2 := crossing_self p (planeAt points (a + 1))
      have k3 := crossing_antisymm p (planeAt points a) (planeAt points (a + 1))
      have ex : x = a ∨ x = a + 1 := by omega
      have ey : y = a ∨ y = a + 1 := by omega
      have ez : z = a ∨ z = a + 1 := by omega
      rcases ex with rfl | rfl <;> rcases ey with rfl | rfl <;> rcases ez with rfl | rfl <;> simp only [k1, k2, k3] <;> omega
    · have hno : ∀ x y z, (a ≤ x ∧ x ≤ b) → (a ≤ y ∧ y ≤ b) → (a ≤ z ∧ z ≤ b) →
          ¬ InPlaneTriangle p (planeAt points x) (planeAt points y) (planeAt points z) := by
        intro x y z hx hy hz hin
        by_cases htol : tolerated points (a + 1) = true
        · have hclose := refined_arc ht hn hN hh harc hch he (hset pre a b post he) (k' := a + 1) (by omega) (by omega) htol
          obtain ⟨m, m1, m2, m3⟩ := section_near (e := e) (f := planeAt points) hab.1 (fun i hi1 hi2 => hclose i hi1 hi2) hx hy hz hin
          refine hwall m ?_ m3
          by_cases hconn : (points.any fun p => intersects p.2 REGION_MASK) = true
          · have hw := section_words hn hh harc (hch hconn) he (m + 1) (by omega) (by omega)
            rw [← tolerated_congr hw.1 hw.2]; exact htol
          · exact tolerated_of_walls hn hconn _
        · have hconn : (points.any fun p => intersects p.2 REGION_MASK) = true := by
            by_contra hc
            exact htol (tolerated_of_walls hn hc _)
          have hw := section_words hn hh harc (hch hconn) he
          have hr : wordAt points (a + 1) &&& REGION_MASK ≠ 0 ∧ wordAt points (a + 1) &&& AREA_BORDER = 0 := by
            unfold tolerated intersects at htol
            simpa using htol
          have hend : ∀ i, a ≤ i → i ≤ b → PortalEnd points (wordAt points (a + 1) &&& REGION_MASK) i := by
            intro i h1 h2
            by_cases hia : i = a
            · right; rw [hia]; exact ⟨rfl, hr.2⟩
            · left
              have := hw i (by omega) h2
              exact ⟨this.1.symm, by rw [← this.2]; exact hr.2⟩
          exact hportal _ hr.1 x y z (hend x hx.1 hx.2) (hend y hy.1 hy.2) (hend z hz.1 hz.2) hin
      intro x y z hx hy hz
      exact crossing_addsUp (p := p) (S := fun q => ∃ i, (a ≤ i ∧ i ≤ b) ∧ q = planeAt points i)
        (by rintro _ _ _ ⟨i, hi, rfl⟩ ⟨j, hj, rfl⟩ ⟨k, hk, rfl⟩; exact hno i j k hi hj hk) _ _ _ ⟨x, hx, rfl⟩ ⟨y, hy, rfl⟩ ⟨z, hz, rfl⟩
  have hper : planeAt points (h' + 1 * points.length) = planeAt points h' := by
    unfold planeAt
    rw [← posAt_mod, Nat.one_mul, Nat.add_mod_right, posAt_mod]
  have hleft : winding p (out.map fun v => v.1.plane) = pathSum (fun q : Nat × Nat => crossing p (planeAt points q.1, planeAt points q.2))
      (h' :: l' ++ [h' + 1 * points.length]) := by
    rw [← pathSum_map (crossing p) (planeAt points), hout]
    unfold winding
    simp only [List.map_map, List.map_cons, around_cons, List.map_append, List.map_nil, hper]
    rfl
  rw [hleft, around_from p hh, pathSum_refine l h' _ l' hadd (arcs_sorted harc') hsub']
  refine (pathSum_refine l h' _ _ hadd ?_ ?_).symm
  · have e1 : h' :: List.range' (h' + 1) (points.length - 1) ++ [h' + 1 * points.length] = List.range' h' (points.length + 1) := by
      obtain ⟨n, hn'⟩ : ∃ n, points.length = n + 1 := ⟨points.length - 1, by omega⟩
      rw [hn', List.range'_succ, List.range'_1_concat]
      simp; omega
    rw [e1]
    exact List.pairwise_lt_range'
  · have hl := arcs_sorted harc
    rw [List.cons_append, List.pairwise_cons] at hl
    have hp : l.Pairwise (· < ·) := (List.pairwise_append.1 hl.2).1
    have hsubset : ∀ x ∈ l, x ∈ List.range' (h' + 1) (points.length - 1) := by
      intro x hx
      have := harc.mem x hx
      rw [List.mem_range'_1]; omega
    exact List.sublist_of_subperm_of_pairwise (List.subperm_of_subset (hp.imp Nat.ne_of_lt) hsubset) hp List.pairwise_lt_range'

/-- Removing degenerate segments keeps winding numbers. -/
theorem degen_around {g : Point × Point → Int} (h0 : ∀ a, g (a, a) = 0) : ∀ (n : Nat) (pre rest : RawContour), rest.length ≤ n →
    around g ((degen pre rest).map fun v => v.1.plane) = around g ((pre ++ rest).map fun v => v.1.plane) := by
  have hkey : ∀ a b : U16Vec3 × Nat, vkey a = vkey b → a.1.plane = b.1.plane := by
    intro a b h
    unfold vkey U16Vec3.xz at h
    simp only [Prod.mk.injEq] at h
    unfold U16Vec3.plane
    rw [h.1, h.2]
  intro n
  induction n with
  | zero =>
    intro pre rest h
    have : rest = [] := List.length_eq_zero_iff.1 (by omega)
    subst this; simp [degen]
  | succ n ih =>
    intro pre rest h
    match rest with
    | [] => simp [degen]
    | [a] =>
      cases pre with
      | nil => simp [degen, around, sides, h0]
      | cons p pre =>
        simp only [degen]
        split
        · rename_i hk
          have := around_double h0 [] (pre.map fun v => v.1.plane) p.1.plane
          simp only [List.nil_append] at this
          rw [List.map_cons, ← this, List.map_append, around_append_comm]
          simp [hkey a p hk]
        · rfl
    | a :: b :: t =>
      simp only [List.length_cons] at h
      simp only [degen]
      split
      · rename_i hk
        rw [ih _ _ (by omega)]
        have := around_double h0 (pre.map fun v => v.1.plane) (t.map fun v => v.1.plane) b.1.plane
        simp only [List.map_append, List.map_cons, List.append_assoc, List.singleton_append, hkey a b hk]
        exact this.symm
      · rw [ih _ _ (by simp; omega)]
        simp

theorem removeDegenerate_winding {s out : RawContour} (h : removeDegenerate s = .ok out) (p : Point) :
    winding p (out.map fun v => v.1.plane) = winding p (s.map fun v => v.1.plane) := by
  rw [removeDegenerate_eq] at h
  cases h
  exact degen_around (crossing_self p) s.length [] s (le_refl _)

end Rerecast
