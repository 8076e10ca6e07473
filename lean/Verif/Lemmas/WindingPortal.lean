import Verif.Lemmas.SimplifyPortal
import Mathlib.Algebra.BigOperators.Group.Finset.Basic
/-! The winding number of a simplified outline in terms of its raw edges, with the sections along some portals replaced by their chords. -/
namespace Rerecast
open Classical

theorem pathSum_congr {g g' : Nat × Nat → Int} : ∀ (l : List Nat), (∀ pre x y post, l = pre ++ x :: y :: post → g (x, y) = g' (x, y)) →
    pathSum g l = pathSum g' l
  | [], _ => rfl
  | [_], _ => rfl
  | a :: b :: l, h => by
    have ih := pathSum_congr (b :: l) fun pre x y post he => h (a :: pre) x y post (by rw [he]; rfl)
    have h0 := h [] a b l rfl
    unfold pathSum at ih ⊢
    rw [path_cons_cons, List.map_cons, List.map_cons, List.sum_cons, List.sum_cons, ih, h0]

theorem pathSum_telescope (T : Nat → Int) (l : List Nat) (a b : Nat) : pathSum (fun q : Nat × Nat => T q.2 - T q.1) (a :: l ++ [b]) = T b - T a :=
  pathSum_addsUp (S := fun _ => True) (fun x y z _ _ _ => by dsimp only; omega) l a b trivial trivial (fun _ _ => trivial)

/-- Neighbours in the longer chain are in a section of the shorter. -/
theorem section_of {n h e : Nat} {l1 l : List Nat} (h1 : Arcs n h l1 e) (h2 : Arcs n h l e) (hsub : l1.Sublist l) {pre post : List Nat} {x y : Nat}
    (he : (h :: l) ++ [e] = pre ++ x :: y :: post) : ∃ pre' a b post', (h :: l1) ++ [e] = pre' ++ a :: b :: post' ∧ a ≤ x ∧ y ≤ b := by
  have hs := arcs_sorted h2
  have hxy : x < y := (arcs_side h2 he).1
  have hy : y ≤ e := by
    have : y ∈ (h :: l) ++ [e] := by rw [he]; simp
    rcases List.mem_append.1 this with g | g
    · rw [List.pairwise_append] at hs
      exact Nat.le_of_lt (hs.2.2 y g e (by simp))
    · simp at g; omega
  have hx : h ≤ x := by
    have : x ∈ (h :: l) ++ [e] := by rw [he]; simp
    rw [List.cons_append, List.pairwise_cons] at hs
    rcases List.mem_cons.1 (by simpa using this : x ∈ h :: (l ++ [e])) with g | g
    · omega
    · exact Nat.le_of_lt (hs.1 x g)
  have hnext : ∀ b, x < b → b ∈ (h :: l1) ++ [e] → y ≤ b := by
    intro b hb hm
    by_contra hlt
    rcases List.mem_append.1 hm with g | g
    · refine arcs_gap h2 he hb (by omega) ?_
      rcases List.mem_cons.1 g with g | g
      · simp [g]
      · simp [hsub.subset g]
    · simp at g; omega
  rcases arcs_locate h1 x hx (by omega) with g | ⟨pre', a, b, post', g, g1, g2⟩
  · obtain ⟨pre', post', g⟩ := List.append_of_mem g
    obtain ⟨b, post2, hb⟩ : ∃ b post2, post' ++ [e] = b :: post2 := by
      cases hp : post' ++ [e] with
      | nil => simp at hp
      | cons b post2 => exact ⟨b, post2, rfl⟩
    have e1 : (h :: l1) ++ [e] = pre' ++ x :: b :: post2 := by rw [g, List.append_assoc, List.cons_append, hb]
    refine ⟨pre', x, b, post2, e1, Nat.le_refl _, hnext b (arcs_side h1 e1).1 ?_⟩
    rw [e1]; simp
  · refine ⟨pre', a, b, post', g, by omega, hnext b g2 ?_⟩
    rw [g]; simp

/-- The raw edge that ends at vertex `k` is a portal to a region in `J`. -/
def JoinWord (J : Nat → Prop) (points : RawContour) (k : Nat) : Prop :=
  wordAt points k &&& REGION_MASK ≠ 0 ∧ J (wordAt points k &&& REGION_MASK) ∧ wordAt points k &&& AREA_BORDER = 0

/-- The next vertex after `i` where the region or area across changes is `j`. -/
def RunTo (points : RawContour) (i j : Nat) : Prop := i < j ∧ changed points j = true ∧ ∀ k, i < k → k < j → changed points k = false

theorem RunTo.unique {points : RawContour} {i j k : Nat} (h1 : RunTo points i j) (h2 : RunTo points i k) : j = k := by
  by_contra h
  rcases Nat.lt_or_gt_of_ne h with h | h
  · have := h2.2.2 j h1.1 h; rw [h1.2.1] at this; cases this
  · have := h1.2.2 k h2.1 h; rw [h2.2.1] at this; cases this

/-- What the raw edge from vertex `i` on counts for: itself, or the chord of the run of portals it is the first of. -/
noncomputable def joinTerm (J : Nat → Prop) (points : RawContour) (p : Point) (e : Nat → Nat) (i : Nat) : Int :=
  if JoinWord J points (i + 1) then (if changed points i = true then crossing p (planeAt points i, planeAt points (e i)) else 0)
  else crossing p (planeAt points i, planeAt points (i + 1))

theorem planeAt_period (points : RawContour) (i : Nat) : planeAt points (i + points.length) = planeAt points i := by
  unfold planeAt
  rw [← posAt_mod, Nat.add_mod_right, posAt_mod]

theorem wordAt_period (points : RawContour) (i : Nat) : wordAt points (i + points.length) = wordAt points i := by
  rw [← wordAt_mod, Nat.add_mod_right, wordAt_mod]

theorem changed_period (points : RawContour) (i : Nat) : changed points (i + points.length) = changed points i := by
  rw [← changed_mod, Nat.add_mod_right, changed_mod]

theorem RunTo.period {points : RawContour} {i j : Nat} (h : RunTo points i j) : RunTo points (i + points.length) (j + points.length) := by
  refine ⟨by have := h.1; omega, by rw [changed_period]; exact h.2.1, ?_⟩
  intro k h1 h2
  have := h.2.2 (k - points.length) (by omega) (by omega)
  rwa [← changed_period, show k - points.length + points.length = k by omega] at this

theorem joinTerm_period {J : Nat → Prop} {points : RawContour} {p : Point} {e : Nat → Nat} (he : ∀ i, changed points i = true → RunTo points i (e i)) (i : Nat) :
    joinTerm J points p e (i + points.length) = joinTerm J points p e i := by
  have hw := wordAt_period points (i + 1)
  have hp := planeAt_period points (i + 1)
  rw [show i + 1 + points.length = i + points.length + 1 by omega] at hw hp
  unfold joinTerm JoinWord
  rw [hw, hp, changed_period, planeAt_period]
  by_cases hc : changed points i = true
  · have h1 := he i hc
    have h2 := he (i + points.length) (by rw [changed_period]; exact hc)
    rw [h2.unique h1.period, planeAt_period]
  · rw [Bool.not_eq_true] at hc
    simp only [hc, Bool.false_eq_true, if_false]

/-- The simplified outline winds as often around a point as the raw edges, with the runs of portals to regions in `J` replaced by their chords. -/
theorem simplify_sum {t : Tests} {gn : Nat} {ε : Rat} (ht : t.Keeps gn ε) {points : RawContour} (hne : points ≠ [])
    (hN : ∀ p ∈ points, OnGrid gn p.1) (hsame : ¬ AllSame points) {maxEdgeLen : Nat} {flags : ContourFlags}
    {out : RawContour} (hok : simplifyContour t points maxEdgeLen flags = .ok out) (p : Point) (J : Nat → Prop)
    (hwall : ∀ i, tolerated points (i + 1) = true → ¬ NearSegment (2 * ε) p (planeAt points i) (planeAt points (i + 1)))
    (hportal : ∀ w, w ≠ 0 → ¬ J w → ∀ i j k, PortalEnd points w i → PortalEnd points w j → PortalEnd points w k →
      ¬ InPlaneTriangle p (planeAt points i) (planeAt points j) (planeAt points k))
    {e : Nat → Nat} (he : ∀ i, changed points i = true → RunTo points i (e i)) :
    winding p (out.map fun v => v.1.plane) = ∑ i ∈ Finset.range points.length, joinTerm J points p e i := by
  have hn : 0 < points.length := List.length_pos_iff.2 hne
  by_cases hany : ∃ k, JoinWord J points k
  swap
  · -- no such portal
    rw [simplify_winding ht hne hN hsame hok p hwall, around_from p hn]
    · have e1 : (0 : Nat) :: List.range' (0 + 1) (points.length - 1) ++ [0 + 1 * points.length] = List.range' 0 (points.length + 1) := by
        obtain ⟨n, hn'⟩ : ∃ n, points.length = n + 1 := ⟨points.length - 1, by omega⟩
        rw [hn', List.range'_succ, List.range'_1_concat]
        simp [Nat.add_comm]
      have hterm : ∀ i, joinTerm J points p e i = crossing p (planeAt points i, planeAt points (i + 1)) := by
        intro i
        unfold joinTerm
        rw [if_neg fun h => hany ⟨_, h⟩]
      rw [e1]
      have key : ∀ n, pathSum (fun q : Nat × Nat => crossing p (planeAt points q.1, planeAt points q.2)) (List.range' 0 (n + 1)) =
          ∑ i ∈ Finset.range n, joinTerm J points p e i := by
        intro n
        induction n with
        | zero => rfl
        | succ n ih =>
          rw [Finset.sum_range_succ, ← ih, hterm, List.range'_1_concat, Nat.zero_add, List.range'_1_concat, Nat.zero_add, List.append_assoc]
          rw [show [n] ++ [n + 1] = n :: [n + 1] from rfl, pathSum_append]
          simp [pathSum, path_cons_cons, path_single]
      exact key _
    · intro w hw i j k h1 h2 h3
      by_cases hJ : J w
      · exfalso
        apply hany
        rcases h1 with ⟨g1, g2⟩ | ⟨g1, g2⟩
        · exact ⟨i, by rw [g1]; exact hw, by rw [g1]; exact hJ, g2⟩
        · exact ⟨i + 1, by rw [g1]; exact hw, by rw [g1]; exact hJ, g2⟩
      · exact hportal w hw hJ i j k h1 h2 h3
  have hjt : ∀ k, JoinWord J points k → tolerated points k = false := by
    intro k hk
    unfold tolerated intersects
    simp [hk.1, hk.2.2]
  have hconn : (points.any fun p => intersects p.2 REGION_MASK) = true := by
    by_contra hc
    obtain ⟨k, hk⟩ := hany
    have := hjt k hk
    rw [tolerated_of_walls hn hc] at this
    cases this
  rcases simplify_portals t points hne hsame hconn maxEdgeLen flags with ⟨a, ha, h, l1, l, hh, harc1, harc, hsub, hout, hch, hset, hkind⟩ | ⟨_, hx⟩
  swap
  · rw [hx] at hok; cases hok
  rw [hok] at ha; cases ha
  rcases hkind with hkind | ⟨hnone, hlen⟩
  swap
  · -- one portal all around
    obtain ⟨k0, hk0⟩ := hany
    have hw := unchanged_words (points := points) (a := 0) (b := points.length) (fun i _ _ => hnone i)
    have hall : ∀ k, JoinWord J points k := by
      have hone : ∀ k, wordAt points k &&& REGION_MASK = wordAt points 1 &&& REGION_MASK ∧
          wordAt points k &&& AREA_BORDER = wordAt points 1 &&& AREA_BORDER := by
        intro k
        have hk : ∃ j, 0 < j ∧ j ≤ points.length ∧ wordAt points k = wordAt points j := by
          by_cases h0 : k % points.length = 0
          · refine ⟨points.length, hn, Nat.le_refl _, ?_⟩
            rw [← wordAt_mod, h0, ← wordAt_mod points points.length, Nat.mod_self]
          · exact ⟨k % points.length, by omega, Nat.le_of_lt (Nat.mod_lt _ hn), (wordAt_mod _ _).symm⟩
        obtain ⟨j, h1, h2, h3⟩ := hk
        rw [h3]
        exact ⟨(hw j h1 h2).1.symm, (hw j h1 h2).2.symm⟩
      intro k
      obtain ⟨a1, a2⟩ := hone k
      obtain ⟨b1, b2⟩ := hone k0
      unfold JoinWord at hk0 ⊢
      rw [a1, a2, ← b1, ← b2]
      exact hk0
    have hl := hlen fun i => hjt i (hall i)
    rw [winding_short (by simpa using (by omega : out.length < 3))]
    symm
    apply Finset.sum_eq_zero
    intro i _
    unfold joinTerm
    rw [if_pos (hall _), hnone i]
    simp
  -- some portal, and some vertex where what is across changes
  have hadd : ∀ pre a b post, h :: l1 ++ [h + 1 * points.length] = pre ++ a :: b :: post → ¬ JoinWord J points (a + 1) →
      AddsUp (fun q : Nat × Nat => crossing p (planeAt points q.1, planeAt points q.2)) fun i => a ≤ i ∧ i ≤ b := by
    intro pre a b post he hnj
    have hab := arcs_side harc1 he
    by_cases hnext : b = a + 1
    · intro x y z hx hy hz
      have k1 := crossing_self p (planeAt points a)
      have k2 := crossing_self p (planeAt points (a + 1))
      have k3 := crossing_antisymm p (planeAt points a) (planeAt points (a + 1))
      have ex : x = a ∨ x = a + 1 := by omega
      have ey : y = a ∨ y = a + 1 := by omega
      have ez : z = a ∨ z = a + 1 := by omega
      rcases ex with rfl | rfl <;> rcases ey with rfl | rfl <;> rcases ez with rfl | rfl <;> simp only [k1, k2, k3] <;> omega
    · have hw := section_words hn hh harc1 hch he
      have hno : ∀ x y z, (a ≤ x ∧ x ≤ b) → (a ≤ y ∧ y ≤ b) → (a ≤ z ∧ z ≤ b) →
          ¬ InPlaneTriangle p (planeAt points x) (planeAt points y) (planeAt points z) := by
        intro x y z hx hy hz hin
        by_cases htol : tolerated points (a + 1) = true
        · have hclose := refined_arc ht hn hN hh harc1 (fun _ => hch) he (hset pre a b post he) (k' := a + 1) (by omega) (by omega) htol
          obtain ⟨m, m1, m2, m3⟩ := section_near (e := ε) (f := planeAt points) hab.1 (fun i hi1 hi2 => hclose i hi1 hi2) hx hy hz hin
          refine hwall m ?_ m3
          have hw := hw (m + 1) (by omega) (by omega)
          rw [← tolerated_congr hw.1 hw.2]; exact htol
        · have hr : wordAt points (a + 1) &&& REGION_MASK ≠ 0 ∧ wordAt points (a + 1) &&& AREA_BORDER = 0 := by
            unfold tolerated intersects at htol
            simpa using htol
          have hend : ∀ i, a ≤ i → i ≤ b → PortalEnd points (wordAt points (a + 1) &&& REGION_MASK) i := by
            intro i h1 h2
            by_cases hia : i = a
            · right; rw [hia]; exact ⟨rfl, hr.2⟩
            · left
              have := hw i (by omega) h2
              exact ⟨this.1.symm, by rw [← this.2]; exact hr.2⟩
          refine hportal _ hr.1 ?_ x y z (hend x hx.1 hx.2) (hend y hy.1 hy.2) (hend z hz.1 hz.2) hin
          intro hJ
          exact hnj ⟨hr.1, hJ, hr.2⟩
      intro x y z hx hy hz
      exact crossing_addsUp (p := p) (S := fun q => ∃ i, (a ≤ i ∧ i ≤ b) ∧ q = planeAt points i)
        (by rintro _ _ _ ⟨i, hi, rfl⟩ ⟨j, hj, rfl⟩ ⟨k, hk, rfl⟩; exact hno i j k hi hj hk) _ _ _ ⟨x, hx, rfl⟩ ⟨y, hy, rfl⟩ ⟨z, hz, rfl⟩
  have hper : planeAt points (h + 1 * points.length) = planeAt points h := by
    rw [Nat.one_mul]; exact planeAt_period points h
  have hleft : winding p (out.map fun v => v.1.plane) = pathSum (fun q : Nat × Nat => crossing p (planeAt points q.1, planeAt points q.2))
      (h :: l ++ [h + 1 * points.length]) := by
    rw [← pathSum_map (crossing p) (planeAt points), hout]
    unfold winding
    simp only [List.map_map, List.map_cons, around_cons, List.map_append, List.map_nil, hper]
    rfl
  let T : Nat → Int := fun k => ∑ i ∈ Finset.range k, joinTerm J points p e i
  have hTs : ∀ k, T (k + 1) = T k + joinTerm J points p e k := fun k => Finset.sum_range_succ _ _
  have hchl : ∀ i < points.length, changed points i = true → i ∈ h :: l := by
    intro i hi hc
    rcases List.mem_cons.1 (hch i hi hc) with g | g
    · simp [g]
    · simp [hsub.subset g]
  have hpair : ∀ pre x y post, h :: l ++ [h + 1 * points.length] = pre ++ x :: y :: post →
      crossing p (planeAt points x, planeAt points y) = T y - T x := by
    intro pre x y post hxy
    have hlt := (arcs_side harc hxy).1
    have hw := section_words hn hh harc hchl hxy
    by_cases hj : JoinWord J points (x + 1)
    · -- a run of portals
      have hjall : ∀ i, x < i → i ≤ y → JoinWord J points i := by
        intro i h1 h2
        obtain ⟨g1, g2⟩ := hw i h1 h2
        unfold JoinWord at hj ⊢
        rw [← g1, ← g2]; exact hj
      have hmem : ∀ k, k ∈ h :: l ++ [h + 1 * points.length] → changed points k = true ∨ tolerated points k = true := by
        intro k hk
        rcases List.mem_append.1 hk with g | g
        · exact hkind k g
        · simp at g
          have := hkind h (by simp)
          rw [g, changed_period]
          unfold tolerated
          rw [wordAt_period]
          exact this
      have hcy : changed points y = true := by
        rcases hmem y (by rw [hxy]; simp) with g | g
        · exact g
        · rw [hjt y (hjall y hlt (Nat.le_refl _))] at g; cases g
      have hcx : changed points x = true := by
        rcases hmem x (by rw [hxy]; simp) with g | g
        · exact g
        · cases hc : changed points x with
          | true => rfl
          | false =>
            obtain ⟨g1, g2⟩ := changed_false hc
            rw [tolerated_congr g1 g2, hjt _ hj] at g
            cases g
      have hnc : ∀ k, x < k → k < y → changed points k = false := by
        intro k h1 h2
        cases hc : changed points k with
        | false => rfl
        | true =>
          exfalso
          have hx0 : h ≤ x := by
            have hs := arcs_sorted harc
            have : x ∈ (h :: l) ++ [h + 1 * points.length] := by rw [hxy]; simp
            rw [List.cons_append, List.pairwise_cons] at hs
            rcases List.mem_cons.1 (by simpa using this : x ∈ h :: (l ++ [h + 1 * points.length])) with g | g
            · omega
            · exact Nat.le_of_lt (hs.1 x (by simpa using g))
          have hy0 : y ≤ h + points.length := by
            have hs := arcs_sorted harc
            have : y ∈ (h :: l) ++ [h + 1 * points.length] := by rw [hxy]; simp
            rcases List.mem_append.1 this with g | g
            · rw [List.pairwise_append] at hs
              have := hs.2.2 y g _ (List.mem_singleton.2 rfl)
              omega
            · simp at g; omega
          have hmem := hchl (k % points.length) (Nat.mod_lt _ hn) (by rw [changed_mod]; exact hc)
          refine arcs_gap harc hxy h1 h2 ?_
          by_cases hlt : k < points.length
          · rwa [Nat.mod_eq_of_lt hlt] at hmem
          · have : k % points.length = k - points.length := by
              rw [Nat.mod_eq_sub_mod (by omega), Nat.mod_eq_of_lt (by omega)]
            rw [this] at hmem
            rcases List.mem_cons.1 hmem with g | g
            · omega
            · have := (harc.mem _ g).1; omega
      have hey : e x = y := (he x hcx).unique ⟨hlt, hcy, hnc⟩
      have hT : ∀ d, x + 1 + d ≤ y → T (x + 1 + d) = T x + crossing p (planeAt points x, planeAt points y) := by
        intro d
        induction d with
        | zero =>
          intro _
          rw [Nat.add_zero, hTs]
          unfold joinTerm
          rw [if_pos hj, if_pos hcx, hey]
        | succ d ih =>
          intro hd
          rw [show x + 1 + (d + 1) = x + 1 + d + 1 by omega, hTs, ih (by omega)]
          unfold joinTerm
          rw [if_pos (hjall _ (by omega) (by omega)), if_neg (by rw [hnc _ (by omega) (by omega)]; simp), add_zero]
      have := hT (y - (x + 1)) (by omega)
      rw [show x + 1 + (y - (x + 1)) = y by omega] at this
      omega
    · obtain ⟨pre', a, b, post', hab, hax, hyb⟩ := section_of harc1 harc hsub hxy
      have hw1 := section_words hn hh harc1 hch hab
      have hnj : ∀ i, a < i → i ≤ b → ¬ JoinWord J points i := by
        intro i h1 h2 hji
        apply hj
        obtain ⟨g1, g2⟩ := hw1 i h1 h2
        obtain ⟨g3, g4⟩ := hw1 (x + 1) (by omega) (by omega)
        unfold JoinWord at hji ⊢
        rw [← g3, ← g4, g1, g2]; exact hji
      have hA := hadd pre' a b post' hab (hnj (a + 1) (by omega) (by omega))
      have hT : ∀ d, x + d ≤ y → T (x + d) - T x = crossing p (planeAt points x, planeAt points (x + d)) := by
        intro d
        induction d with
        | zero => intro _; rw [Nat.add_zero, crossing_self]; omega
        | succ d ih =>
          intro hd
          have h1 := ih (by omega)
          have h2 := hA x (x + d) (x + (d + 1)) (by omega) (by omega) (by omega)
          have h3 := hTs (x + d)
          have h4 : joinTerm J points p e (x + d) = crossing p (planeAt points (x + d), planeAt points (x + d + 1)) := by
            unfold joinTerm
            rw [if_neg (hnj _ (by omega) (by omega))]
          dsimp only at h2
          rw [show x + (d + 1) = x + d + 1 by omega] at h2 ⊢
          rw [← h2]
          omega
      have := hT (y - x) (by omega)
      rw [show x + (y - x) = y by omega] at this
      exact this.symm
  rw [hleft, pathSum_congr _ (g' := fun q => T q.2 - T q.1) hpair, pathSum_telescope, Nat.one_mul]
  have hTn : ∀ k, T (k + points.length) - T k = T points.length := by
    intro k
    induction k with
    | zero => simp [T]
    | succ k ih =>
      have h1 := hTs (k + points.length)
      have h2 := hTs k
      have h3 := joinTerm_period (J := J) (p := p) he k
      rw [show k + 1 + points.length = k + points.length + 1 by omega]
      omega
  exact hTn h

end Rerecast
