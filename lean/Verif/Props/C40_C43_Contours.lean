import Verif.Lemmas.ContourBuild
import Verif.Lemmas.Degenerate
import Verif.Lemmas.SimplifySplit
import Verif.Props.C25_C28_Erosion
/-! C40–C43 and C60: contours. -/
namespace Rerecast
open CompactHeightfield

theorem isRaw_at {points : RawContour} (hne : points ≠ []) (k : Nat) :
    IsRaw points (posAt points k, finalWordAt points k) (k % points.length) := by
  have hn : 0 < points.length := List.length_pos_of_ne_nil hne
  have hm := Nat.mod_lt k hn
  refine ⟨points[k % points.length], List.getElem?_eq_getElem hm, ?_, ?_⟩
  · simp [posAt, List.getD_eq_getElem?_getD, List.getElem?_eq_getElem hm]
  · exact finalWord_at hn k

/-- **C40.** Simplifying a raw contour that visits at least two positions keeps raw vertices only, in their cyclic order
and without repetition, whatever the distance tests answer.  The only other outcome is a panic, and only when `max_edge_len`
exceeds 255 or two vertices are so far apart that the squared distance overflows an `i32`. -/
theorem c40_cyclic_subsequence (t : Tests) (points : RawContour) (h2 : TwoPositions points) (maxEdgeLen : Nat)
    (flags : ContourFlags) :
    (∃ out, simplifyContour t points maxEdgeLen flags = .ok out ∧
      ∃ idxs, List.Forall₂ (IsRaw points) out idxs ∧ CyclicAscending idxs) ∨
    (SplitOverflow points maxEdgeLen ∧ simplifyContour t points maxEdgeLen flags = .error .panic) := by
  obtain ⟨p, hp, q, hq, hpq⟩ := h2
  have hne : points ≠ [] := List.ne_nil_of_mem hp
  rcases simplify_spec t points hne maxEdgeLen flags with ⟨out, hok, u, W, hw, hW, hout, _, _⟩ | h
  · left
    refine ⟨out, hok, u.map (· % points.length), ?_, ?_⟩
    · rw [hout, List.forall₂_map_left_iff, List.forall₂_map_right_iff, List.forall₂_same]
      intro k _
      exact isRaw_at hne k
    · rcases hW with rfl | ⟨_, hs⟩
      · exact wind_one_rotate hw
      · exact absurd (hs p hp q hq) hpq
  · right; exact h

/-- **C40 (termination).** Every non-empty raw contour is simplified in finitely many steps; what it keeps are raw vertices. -/
theorem c40_terminates (t : Tests) (points : RawContour) (hne : points ≠ []) (maxEdgeLen : Nat) (flags : ContourFlags) :
    (∃ out, simplifyContour t points maxEdgeLen flags = .ok out ∧ ∀ v ∈ out, ∃ i, IsRaw points v i) ∨
    (SplitOverflow points maxEdgeLen ∧ simplifyContour t points maxEdgeLen flags = .error .panic) := by
  rcases simplify_spec t points hne maxEdgeLen flags with ⟨out, hok, u, W, hw, hW, hout, _, _⟩ | h
  · left
    refine ⟨out, hok, ?_⟩
    intro v hv
    rw [hout, List.mem_map] at hv
    obtain ⟨k, _, rfl⟩ := hv
    exact ⟨_, isRaw_at hne k⟩
  · right; exact h

/-- The guard of `c40_cyclic_subsequence` is needed: a contour with a single position is simplified to that vertex twice. -/
theorem c40_single_position_repeats :
    ¬ (∃ out, simplifyContour (Tests.exact 1) [(⟨3, 0, 4⟩, 7)] 0 ⟨false, false⟩ = .ok out ∧
      ∃ idxs, List.Forall₂ (IsRaw [(⟨3, 0, 4⟩, 7)]) out idxs ∧ CyclicAscending idxs) := by
  rintro ⟨out, hok, idxs, hf, k, hk⟩
  have : simplifyContour (Tests.exact 1) [(⟨3, 0, 4⟩, 7)] 0 ⟨false, false⟩ = .ok [(⟨3, 0, 4⟩, 7), (⟨3, 0, 4⟩, 7)] := by decide +kernel
  rw [this] at hok
  cases hok
  have hl := hf.length_eq
  have hz : ∀ i ∈ idxs, i = 0 := by
    intro i hi
    obtain ⟨j, hj, rfl⟩ := List.mem_iff_getElem.1 hi
    obtain ⟨p, h1, _⟩ := (List.forall₂_iff_get.1 hf).2 j (by omega) hj
    have := (List.getElem?_eq_some_iff.1 h1).1
    simp at this
    exact this
  have hn : (idxs.rotate k).Nodup := hk.imp (fun h => Nat.ne_of_lt h)
  rw [List.nodup_rotate] at hn
  match idxs, hl with
  | [a, b], _ =>
    have ha := hz a (by simp)
    have hb := hz b (by simp)
    subst ha; subst hb
    simp at hn

/-- A raw outline of a 3 × 2 rectangle, all region words zero. -/
def rect32 : RawContour :=
  [(⟨0, 0, 0⟩, 0), (⟨0, 0, 1⟩, 0), (⟨0, 0, 2⟩, 0), (⟨1, 0, 2⟩, 0), (⟨2, 0, 2⟩, 0), (⟨3, 0, 2⟩, 0), (⟨3, 0, 1⟩, 0), (⟨3, 0, 0⟩, 0),
   (⟨2, 0, 0⟩, 0), (⟨1, 0, 0⟩, 0)]

/-- The rectangle is simplified to its four corners. -/
example : TwoPositions rect32 ∧ ¬ SplitOverflow rect32 12 ∧
    (simplifyContour (Tests.exact (13/10)) rect32 12 ⟨true, false⟩).map (fun o => o.map (·.1.xz)) = .ok [(0, 0), (0, 2), (3, 2), (3, 0)] := by
  refine ⟨⟨(⟨0, 0, 0⟩, 0), by decide, (⟨3, 0, 2⟩, 0), by decide, by decide⟩, ?_, by decide +kernel⟩
  unfold SplitOverflow
  decide +kernel

/-- **C40 (edge limit above 255).** With `max_edge_len = 256` and splitting on, simplification panics on a contour as soon as
it looks at a splittable edge: the guard is attained. -/
theorem c40_edge_limit_overflow : simplifyContour (Tests.exact (13/10)) rect32 256 ⟨true, false⟩ = .error .panic := by decide +kernel

/-- **C41 (partial).** A raw vertex at which the neighbouring region changes is kept; so is one at which the area-border flag
changes, provided some raw vertex of the contour borders a region.  Missing: area-border changes on a contour that borders no
region at all; they may be dropped (`c41_violated`). -/
theorem c41_changes_kept_partial (t : Tests) (points : RawContour) (maxEdgeLen : Nat) (flags : ContourFlags)
    (out : RawContour) (hok : simplifyContour t points maxEdgeLen flags = .ok out) (i : Nat) (p q : U16Vec3 × Nat)
    (hp : points[i]? = some p) (hq : points[(i + 1) % points.length]? = some q)
    (hc : p.2 &&& REGION_MASK ≠ q.2 &&& REGION_MASK ∨
      (p.2 &&& AREA_BORDER ≠ q.2 &&& AREA_BORDER ∧ ∃ r ∈ points, r.2 &&& REGION_MASK ≠ 0)) :
    ∃ v ∈ out, IsRaw points v i := by
  have hi := (List.getElem?_eq_some_iff.1 hp).1
  have hne : points ≠ [] := by intro h; subst h; cases hi
  have hn : 0 < points.length := by omega
  have hm := Nat.mod_eq_of_lt hi
  have ep : wordAt points i = p.2 := by simp [wordAt, List.getD_eq_getElem?_getD, hm, hp]
  have eq : wordAt points (i + 1) = q.2 := by simp [wordAt, List.getD_eq_getElem?_getD, hq]
  rcases simplify_spec t points hne maxEdgeLen flags with ⟨o, ho, u, W, hw, hW, hout, hch, _⟩ | ⟨_, h⟩
  swap
  · rw [h] at hok; cases hok
  rw [hok] at ho; cases ho
  have hany : (points.any fun p => intersects p.2 REGION_MASK) = true := by
    have : ∃ r ∈ points, r.2 &&& REGION_MASK ≠ 0 := by
      rcases hc with h | ⟨_, h⟩
      · by_contra hcon
        push Not at hcon
        exact h ((hcon p (List.mem_of_getElem? hp)).trans (hcon q (List.mem_of_getElem? hq)).symm)
      · exact h
    obtain ⟨r, hr, hr0⟩ := this
    rw [List.any_eq_true]
    exact ⟨r, hr, by simpa [intersects] using hr0⟩
  have hchg : changed points i = true := by
    unfold changed
    rw [ep, eq]
    apply decide_eq_true
    rcases hc with h | ⟨h, _⟩
    · exact Or.inl h
    · exact Or.inr h
  have hiu := hch hany i hi hchg
  refine ⟨_, by rw [hout]; exact List.mem_map_of_mem hiu, ?_⟩
  have := isRaw_at hne i
  rwa [hm] at this

/-- An outline with an area border on one edge but no neighbouring region anywhere. -/
def areaOnly : RawContour :=
  [(⟨0, 0, 0⟩, 0), (⟨0, 0, 1⟩, AREA_BORDER), (⟨0, 0, 2⟩, 0), (⟨1, 0, 2⟩, 0), (⟨2, 0, 2⟩, 0), (⟨2, 0, 1⟩, 0), (⟨2, 0, 0⟩, 0), (⟨1, 0, 0⟩, 0)]

/-- **C41 is violated.** The area-border flag changes at raw vertex 1, but simplification drops it. -/
theorem c41_violated : ∃ (out : RawContour) (p q : U16Vec3 × Nat),
    simplifyContour (Tests.exact 1) areaOnly 0 ⟨false, false⟩ = .ok out ∧ areaOnly[1]? = some p ∧ areaOnly[2]? = some q ∧
    p.2 &&& AREA_BORDER ≠ q.2 &&& AREA_BORDER ∧ ∀ v ∈ out, v.1 ≠ p.1 :=
  ⟨[(⟨0, 0, 0⟩, AREA_BORDER), (⟨0, 0, 2⟩, 0), (⟨2, 0, 2⟩, 0), (⟨2, 0, 0⟩, 0)], (⟨0, 0, 1⟩, AREA_BORDER), (⟨0, 0, 2⟩, 0),
    by decide +kernel⟩

/-- An outline with two different neighbouring regions: both change vertices survive. -/
example : (simplifyContour (Tests.exact 5)
    [(⟨0, 0, 0⟩, 3), (⟨0, 0, 1⟩, 3), (⟨0, 0, 2⟩, 4), (⟨1, 0, 2⟩, 4), (⟨2, 0, 2⟩, 4), (⟨2, 0, 1⟩, 3)] 0 ⟨true, true⟩).map (fun o => o.map (·.1.xz)) =
      .ok [(0, 1), (2, 2)] := by decide +kernel

private theorem noTripleL_of_index : ∀ (l : List (Nat × Nat)),
    (∀ j a b c, l[j]? = some a → l[j + 1]? = some b → l[j + 2]? = some c → ¬ (a = b ∧ b = c)) → NoTripleL l
  | [], _ => trivial
  | [_], _ => trivial
  | [_, _], _ => trivial
  | a :: b :: c :: l, h => ⟨h 0 a b c rfl rfl rfl, noTripleL_of_index (b :: c :: l) (fun j x y z h1 h2 h3 => h (j + 1) x y z h1 h2 h3)⟩

/-- **C42 (partial).** If no three cyclically consecutive vertices share x and z, then after degenerate-segment removal no two
cyclically adjacent vertices do; the vertices left are in the original order, and no position is lost.
Missing: contours with three coinciding consecutive vertices; there a zero-length segment can remain (`c42_violated`). -/
theorem c42_no_zero_segments_partial (s : RawContour) (h2 : 2 ≤ s.length) (hnt : NoTripleZeros s) :
    ∃ out, removeDegenerate s = .ok out ∧ out.Sublist s ∧ NoZeroSegments out ∧ ∀ v ∈ s, ∃ w ∈ out, w.1.xz = v.1.xz := by
  refine ⟨degen [] s, removeDegenerate_eq s, by simpa using degen_sublist s.length [] s (le_refl _), ?_⟩
  obtain ⟨v0, hv0⟩ : ∃ v0, s[0]? = some v0 := ⟨s[0], List.getElem?_eq_getElem (by omega)⟩
  have hidx : ∀ j a, j ≤ s.length → (s.map vkey ++ [vkey v0])[j]? = some a → ∃ v, s[j % s.length]? = some v ∧ vkey v = a := by
    intro j a hj ha
    by_cases hlt : j < s.length
    · rw [Nat.mod_eq_of_lt hlt]
      rw [List.getElem?_append_left (by simpa using hlt), List.getElem?_map] at ha
      simpa [Option.map_eq_some_iff] using ha
    · have : j = s.length := by omega
      subst this
      rw [List.getElem?_append_right (by simp)] at ha
      simp at ha
      rw [Nat.mod_self]
      exact ⟨v0, hv0, ha⟩
  have hNT : NoTripleL (s.map vkey ++ [vkey v0]) := by
    apply noTripleL_of_index
    intro j a b c ha hb hc
    have hlt : j + 2 < (s.map vkey ++ [vkey v0]).length := (List.getElem?_eq_some_iff.1 hc).1
    simp at hlt
    obtain ⟨va, h1, ea⟩ := hidx j a (by omega) ha
    obtain ⟨vb, h3, eb⟩ := hidx (j + 1) b (by omega) hb
    obtain ⟨vc, h4, ec⟩ := hidx (j + 2) c (by omega) hc
    rw [Nat.mod_eq_of_lt (by omega)] at h1
    have := hnt j va vb vc h1 h3 h4
    rw [← ea, ← eb, ← ec]
    exact this
  have hhead : ∀ r ∈ s.head?, vkey r = vkey v0 := by
    intro r hr
    rw [List.head?_eq_getElem?, hv0] at hr
    cases hr; rfl
  obtain ⟨hc, hl, hh, hk⟩ := degen_spec (vkey v0) s.length [] s (le_refl _) List.isChain_nil (by simp) hNT (by simp) (fun _ => hhead)
    (by simp) (by simpa using h2)
  refine ⟨?_, by simpa [vkey] using hk⟩
  intro j a b ha hb
  have hj := (List.getElem?_eq_some_iff.1 ha).1
  by_cases hlt : j + 1 < (degen [] s).length
  · rw [Nat.mod_eq_of_lt hlt] at hb
    have := List.isChain_iff_getElem.1 hc j (by simpa using hlt)
    simp only [List.getElem_map] at this
    rw [List.getElem?_eq_getElem hj] at ha
    rw [List.getElem?_eq_getElem hlt] at hb
    cases ha; cases hb
    exact this
  · have e : j + 1 = (degen [] s).length := by omega
    rw [e, Nat.mod_self] at hb
    have hb' : vkey b = vkey v0 := hh b (by rw [List.head?_eq_getElem?]; exact hb)
    have ha' : vkey a ≠ vkey v0 := hl a (by
      rw [List.getLast?_eq_getElem?, show (degen [] s).length - 1 = j by omega]; exact ha)
    intro hab
    exact ha' (Eq.trans (show vkey a = vkey b from hab) hb')

/-- The hypotheses are met by a contour with a doubled vertex, which is removed. -/
example : ∃ s : RawContour, 2 ≤ s.length ∧ NoTripleZeros s ∧ (removeDegenerate s).map List.length = .ok 3 ∧ s.length = 4 := by
  refine ⟨[(⟨0, 0, 0⟩, 0), (⟨0, 1, 0⟩, 0), (⟨0, 0, 5⟩, 0), (⟨5, 0, 5⟩, 0)], by decide, ?_, by decide +kernel, rfl⟩
  intro j a b c ha hb hc
  have hj := (List.getElem?_eq_some_iff.1 ha).1
  simp at hj
  match j, hj with
  | 0, _ => simp at ha hb hc; subst ha; subst hb; subst hc; decide
  | 1, _ => simp at ha hb hc; subst ha; subst hb; subst hc; decide
  | 2, _ => simp at ha hb hc; subst ha; subst hb; subst hc; decide
  | 3, _ => simp at ha hb hc; subst ha; subst hb; subst hc; decide

/-- **C42 is violated.** After the removal of a coinciding vertex the next pair is not looked at. -/
theorem c42_violated : ∃ (p q : U16Vec3 × Nat) (out : RawContour), removeDegenerate [p, p, p, q] = .ok out ∧
    p.1.xz ≠ q.1.xz ∧ ¬ NoZeroSegments out := by
  refine ⟨(⟨0, 0, 0⟩, 0), (⟨5, 0, 0⟩, 0), [(⟨0, 0, 0⟩, 0), (⟨0, 0, 0⟩, 0), (⟨5, 0, 0⟩, 0)], by decide +kernel, by decide, ?_⟩
  intro h
  exact h 0 (⟨0, 0, 0⟩, 0) (⟨0, 0, 0⟩, 0) rfl rfl rfl

/-- **C43 (partial).** On a well-formed field whose border fits, with an edge limit of at most 255, `build_contours` returns
exactly the traced contours if there are at most `max(max_region, 8)` of them, and panics otherwise.
Missing: fields with more contours than that; there the build aborts (`c43_violated`). -/
theorem c43_outcome_partial (chf : CompactHeightfield) (hwf : chf.WellFormed) (t : Tests) (maxEdgeLen : Nat) (hme : maxEdgeLen ≤ 255)
    (bf : ContourFlags) (hbw : chf.borderSize * 2 ≤ chf.width) (hbh : chf.borderSize * 2 ≤ chf.height) :
    ∃ flags flags' cs, chf.markBoundaries = .ok flags ∧
      -- the contours, traced with room for one per span
      chf.traceAll t maxEdgeLen bf chf.spans.length flags = .ok (flags', cs) ∧
      (cs.length ≤ max chf.maxRegion 8 → chf.buildContours t maxEdgeLen bf =
        .ok ⟨cs, chf.width - chf.borderSize * 2, chf.height - chf.borderSize * 2, chf.borderSize⟩) ∧
      (max chf.maxRegion 8 < cs.length → chf.buildContours t maxEdgeLen bf = .error .panic) := by
  obtain ⟨flags, hm, hf⟩ := markBoundaries_spec hwf
  have hhi : HighClear flags := fun i f hfi d hd => ((hf.2 i f hfi).2 d hd)
  obtain ⟨fl, cs, h1, h2⟩ := traceAll_spec hwf t hme bf hf.1 hhi (max chf.maxRegion 8)
  have hw := hwf.width_u16
  have hb : mulU16 chf.borderSize 2 = .ok (chf.borderSize * 2) := by
    unfold mulU16; rw [if_pos (by omega)]
  have hs1 : subU chf.width (chf.borderSize * 2) = .ok (chf.width - chf.borderSize * 2) := by
    unfold subU; rw [if_pos (by omega)]
  have hs2 : subU chf.height (chf.borderSize * 2) = .ok (chf.height - chf.borderSize * 2) := by
    unfold subU; rw [if_pos (by omega)]
  refine ⟨flags, fl, cs, hm, h1, ?_, ?_⟩
  · intro hle
    unfold buildContours
    rw [hb, bind_ok, hs1, bind_ok, hs2, bind_ok, hm, bind_ok, h2, if_pos hle, bind_ok]
  · intro hlt
    unfold buildContours
    rw [hb, bind_ok, hs1, bind_ok, hs2, bind_ok, hm, bind_ok, h2, if_neg (by omega)]
    rfl

/-- The field with every span in region 1. -/
def CompactHeightfield.oneRegion (chf : CompactHeightfield) : CompactHeightfield :=
  { chf with spans := chf.spans.map fun s => { s with region := 1 }, maxRegion := 1 }

theorem CompactHeightfield.WellFormed.oneRegion {chf : CompactHeightfield} (h : chf.WellFormed) : chf.oneRegion.WellFormed where
  width_u16 := h.width_u16
  height_u16 := h.height_u16
  cells_len := h.cells_len
  areas_len := by simpa [CompactHeightfield.oneRegion] using h.areas_len
  partition := by simpa [CompactHeightfield.oneRegion] using h.partition
  con := by
    intro x hx z hz cell hc i hi s hs d hd k hk
    simp only [CompactHeightfield.oneRegion, List.getElem?_map, Option.map_eq_some_iff] at hs
    obtain ⟨s0, hs0, rfl⟩ := hs
    exact h.con x hx z hz cell hc i hi s0 hs0 d hd k hk

/-- The 3 × 3 plain as one region: one contour, the square. -/
example : flatChf.oneRegion.WellFormed ∧ flatChf.oneRegion.borderSize * 2 ≤ flatChf.oneRegion.width ∧
    (flatChf.oneRegion.buildContours (Tests.exact (13/10)) 12 ⟨true, false⟩).map (fun s => s.contours.map fun c => (c.region, c.vertices.map (·.1.xz))) =
      .ok [(1, [(0, 0), (0, 3), (3, 3), (3, 0)])] :=
  ⟨flatChf_wellFormed.oneRegion, by decide +kernel, by decide +kernel⟩

/-- Nine separate 2 × 1 strips. -/
def stripOps : List Insertion := (List.range 9).flatMap fun k => [⟨0, 2 * k, 1, 0, 5, 255⟩, ⟨1, 2 * k, 1, 0, 5, 255⟩]

def stripHf : Heightfield :=
  match (Heightfield.new 2 17).insertAll stripOps with
  | .ok hf => hf
  | .error _ => Heightfield.new 0 0

/-- The strips in compact form, all in region 1. -/
def stripChf : CompactHeightfield :=
  match stripHf.intoCompact 10 1 with
  | .ok c => c.oneRegion
  | .error _ => ⟨0, 0, 0, 0, 0, 0, 0, [], [], [], []⟩

/-- **C43 is violated.** A well-formed field with one region in nine pieces makes `build_contours` panic. -/
theorem c43_violated : ∃ chf : CompactHeightfield, chf.WellFormed ∧
    chf.buildContours (Tests.exact (1/2)) 12 ⟨true, false⟩ = .error .panic := by
  refine ⟨stripChf, ?_, by decide +kernel⟩
  have h : ∀ c, stripHf.intoCompact 10 1 = .ok c → c.WellFormed := fun c hc =>
    wellFormed_of_ops (w := 2) (h := 17) (ops := stripOps) (hf := stripHf) (wh := 10) (climb := 1)
      (by unfold ValidOps; decide +kernel) (by decide +kernel) (by decide) (by decide) (by decide +kernel) (by decide +kernel) hc
  have hok : (stripHf.intoCompact 10 1).toBool = true := by decide +kernel
  unfold stripChf
  cases hx : stripHf.intoCompact 10 1 with
  | ok c => exact (h c hx).oneRegion
  | error e => rw [hx] at hok; cases hok

/-- `c60_error_bound` for any tests that keep vertices within `e`. -/
theorem error_bound {t : Tests} {gn : Nat} {e : Rat} (ht : t.Keeps gn e) (points : RawContour) (hg : ∀ p ∈ points, OnGrid gn p.1) (maxEdgeLen : Nat) (flags : ContourFlags)
    (hns : maxEdgeLen = 0 ∨ (flags.wallEdges = false ∧ flags.areaEdges = false)) (out : RawContour)
    (hok : simplifyContour t points maxEdgeLen flags = .ok out) (p : U16Vec3 × Nat) (hp : p ∈ points)
    (hportal : p.2 &&& REGION_MASK = 0 ∨ p.2 &&& AREA_BORDER ≠ 0) : WithinOfPolygon e p.1 out := by
  obtain ⟨k, hk, rfl⟩ := List.mem_iff_getElem.1 hp
  have hne : points ≠ [] := List.ne_nil_of_mem hp
  have hm := Nat.mod_eq_of_lt hk
  have hw : wordAt points k = points[k].2 := by simp [wordAt, List.getD_eq_getElem?_getD, hm, hk]
  have hpos : posAt points k = points[k].1 := by simp [posAt, List.getD_eq_getElem?_getD, hm, hk]
  rw [← hpos]
  refine simplify_error ht points hne hg maxEdgeLen flags ?_ out hok hk ?_
  · rintro ⟨h1, h2⟩
    rcases hns with h | ⟨h3, h4⟩
    · omega
    · rw [h3, h4] at h2; cases h2
  · unfold tolerated
    rw [hw, Bool.or_eq_true]
    rcases hportal with h | h
    · left; simp [intersects, h]
    · right; simpa [intersects] using h

/-- **C60.** In exact arithmetic and with edge splitting off, every raw vertex lies within `max_error` of the simplified polygon,
except a vertex whose outgoing edge borders another region of the same area (region word non-zero, no area border): those
portals are straightened regardless of the error. -/
theorem c60_error_bound (e : Rat) (points : RawContour) (maxEdgeLen : Nat) (flags : ContourFlags)
    (hns : maxEdgeLen = 0 ∨ (flags.wallEdges = false ∧ flags.areaEdges = false)) (out : RawContour)
    (hok : simplifyContour (Tests.exact e) points maxEdgeLen flags = .ok out) (p : U16Vec3 × Nat) (hp : p ∈ points)
    (hportal : p.2 &&& REGION_MASK = 0 ∨ p.2 &&& AREA_BORDER ≠ 0) : WithinOfPolygon e p.1 out := by
  obtain ⟨gn, hg⟩ := exists_grid points
  exact error_bound (keeps_exact gn e) points hg maxEdgeLen flags hns out hok p hp hportal

/-- The rectangle: all hypotheses hold. -/
example : ∃ out, simplifyContour (Tests.exact (13/10)) rect32 0 ⟨true, false⟩ = .ok out ∧ (∀ p ∈ rect32, p.2 &&& REGION_MASK = 0) ∧
    out.length < rect32.length :=
  ⟨[(⟨0, 0, 0⟩, 0), (⟨0, 0, 2⟩, 0), (⟨3, 0, 2⟩, 0), (⟨3, 0, 0⟩, 0)], by decide +kernel⟩

/-- The portal exception of C60 is needed: here the dropped vertex is far from the polygon. -/
theorem c60_portal_exception : ∃ out, simplifyContour (Tests.exact 1)
    [(⟨0, 0, 0⟩, 3), (⟨9, 0, 5⟩, 3), (⟨0, 0, 9⟩, 3), (⟨0, 0, 4⟩, 0)] 0 ⟨false, false⟩ = .ok out ∧ out.map (·.1.xz) = [(0, 9), (0, 4)] :=
  ⟨[(⟨0, 0, 9⟩, 0), (⟨0, 0, 4⟩, 3)], by decide +kernel⟩

/-- `c60_error_bound_split` for any tests that keep vertices within `e`. -/
theorem error_bound_split {t : Tests} {gn : Nat} {e : Rat} (ht : t.Keeps gn e) (points : RawContour) (hg : ∀ p ∈ points, OnGrid gn p.1) (maxEdgeLen : Nat) (flags : ContourFlags) (out : RawContour)
    (hok : simplifyContour t points maxEdgeLen flags = .ok out) (p : U16Vec3 × Nat) (hp : p ∈ points)
    (hportal : p.2 &&& REGION_MASK = 0 ∨ p.2 &&& AREA_BORDER ≠ 0) : WithinOfPolygon (2 * e) p.1 out := by
  obtain ⟨k, hk, rfl⟩ := List.mem_iff_getElem.1 hp
  have hne : points ≠ [] := List.ne_nil_of_mem hp
  have hm := Nat.mod_eq_of_lt hk
  have hw : wordAt points k = points[k].2 := by simp [wordAt, List.getD_eq_getElem?_getD, hm, hk]
  have hpos : posAt points k = points[k].1 := by simp [posAt, List.getD_eq_getElem?_getD, hm, hk]
  rw [← hpos]
  refine simplify_error_split ht points hne hg maxEdgeLen flags out hok hk ?_
  unfold tolerated
  rw [hw, Bool.or_eq_true]
  rcases hportal with h | h
  · left; simp [intersects, h]
  · right; simpa [intersects] using h

/-- **C60 (with splitting).** Whatever the settings for splitting long edges, in exact arithmetic every raw vertex lies within twice
`max_error` of the simplified polygon, with the same exception for portals.  With splitting on, `max_error` itself can be exceeded
(`c60_split_exceeds`). -/
theorem c60_error_bound_split (e : Rat) (points : RawContour) (maxEdgeLen : Nat) (flags : ContourFlags) (out : RawContour)
    (hok : simplifyContour (Tests.exact e) points maxEdgeLen flags = .ok out) (p : U16Vec3 × Nat) (hp : p ∈ points)
    (hportal : p.2 &&& REGION_MASK = 0 ∨ p.2 &&& AREA_BORDER ≠ 0) : WithinOfPolygon (2 * e) p.1 out := by
  obtain ⟨gn, hg⟩ := exists_grid points
  exact error_bound_split (keeps_exact gn e) points hg maxEdgeLen flags out hok p hp hportal

/-- The outline of an 8 × 3 rectangle with, in the middle of its upper side, one cell added and the next one missing. -/
def toothed : RawContour :=
  [(0, 0), (0, 1), (0, 2), (0, 3), (1, 3), (2, 3), (3, 3), (4, 3), (4, 4), (5, 4), (5, 3), (5, 2), (6, 2), (6, 3), (7, 3), (8, 3), (8, 2), (8, 1),
   (8, 0), (7, 0), (6, 0), (5, 0), (4, 0), (3, 0), (2, 0), (1, 0)].map fun p => (⟨p.1, 0, p.2⟩, 0)

/-- **C60 (splitting exceeds the error).** With `max_error` 1 the upper side of the outline is kept as one edge, which misses the raw
vertices by no more than 1.  Splitting it at its middle vertex makes the polygon miss the raw vertex at `(5, 2)` by more than 1. -/
theorem c60_split_exceeds : ∃ out out0 p, simplifyContour (Tests.exact 1) toothed 6 ⟨true, false⟩ = .ok out ∧
    simplifyContour (Tests.exact 1) toothed 0 ⟨true, false⟩ = .ok out0 ∧ p ∈ toothed ∧ p.2 = 0 ∧
    WithinOfPolygon 1 p.1 out0 ∧ ¬ WithinOfPolygon 1 p.1 out := by
  refine ⟨[(0, 0), (0, 3), (5, 4), (8, 3), (8, 0), (4, 0)].map fun p => (⟨p.1, 0, p.2⟩, 0),
    [(0, 0), (0, 3), (8, 3), (8, 0)].map fun p => (⟨p.1, 0, p.2⟩, 0), (⟨5, 0, 2⟩, 0), by decide +kernel, by decide +kernel, by decide +kernel, rfl, ?_, ?_⟩
  · exact c60_error_bound 1 toothed 0 ⟨true, false⟩ (.inl rfl) _ (by decide +kernel) (⟨5, 0, 2⟩, 0) (by decide +kernel) (.inl (by decide))
  · rintro ⟨j, a, b, ha, hb, l, h0, h1, hd⟩
    have hj := (List.getElem?_eq_some_iff.1 ha).1
    simp at hj
    match j, hj with
    | 0, _ => simp at ha hb; subst ha; subst hb; norm_num at hd; nlinarith
    | 1, _ => simp at ha hb; subst ha; subst hb; norm_num at hd; nlinarith [sq_nonneg (26 * l - 23)]
    | 2, _ => simp at ha hb; subst ha; subst hb; norm_num at hd; nlinarith [sq_nonneg (10 * l - 2)]
    | 3, _ => simp at ha hb; subst ha; subst hb; norm_num at hd; nlinarith
    | 4, _ => simp at ha hb; subst ha; subst hb; norm_num at hd; nlinarith
    | 5, _ => simp at ha hb; subst ha; subst hb; norm_num at hd; nlinarith

/-- The bound of `c60_error_bound_split` is used with splitting on. -/
example : (∀ p ∈ toothed, p.2 &&& REGION_MASK = 0) ∧ (simplifyContour (Tests.exact 1) toothed 6 ⟨true, false⟩).map List.length = .ok 6 := by
  decide +kernel

end Rerecast
