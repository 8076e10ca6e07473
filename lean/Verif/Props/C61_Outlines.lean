import Verif.Lemmas.OutlineMain
import Verif.Lemmas.OutlineVertex
import Verif.Lemmas.Layers
import Verif.Props.C40_C43_Contours
/-! C61: the outlines of regions. -/
namespace Rerecast
open CompactHeightfield

/-- **C61 (partial).** On a well-formed field with symmetric connections, whenever `build_contours` returns, it has gone around
every wall of every region: there is a list of outlines, each a complete round along the wall of one region, recorded as a
closed walk of unit steps with one vertex per boundary side; no side is faced on two rounds; every boundary side of a span that
is not isolated is on one of them; and the contours returned are exactly the simplified outlines with at least three vertices,
in the order of tracing.
Missing: rounds of more than 40,000 steps, which are cut short (`c61_violated`).  Isolated spans (all four sides boundary sides)
get no outline (`c61_isolated_skipped`). -/
theorem c61_outlines_partial (chf : CompactHeightfield) (hwf : chf.WellFormed) (hsym : chf.SymmetricLinks)
    (hu : ∀ s ∈ chf.spans, s.region < 65536)
    (hshort : ∀ r v, chf.IsCircuit r v → (∃ s ∈ v, chf.BoundarySide s) → v.length ≤ 40000)
    (t : Tests) (maxEdgeLen : Nat) (bf : ContourFlags) (set : ContourSet) (hok : chf.buildContours t maxEdgeLen bf = .ok set) :
    ∃ (outlines : List Outline) (stored : List (Option Contour)),
      (∀ o ∈ outlines, chf.IsOutline o) ∧
      (outlines.Pairwise fun o o' => ∀ s ∈ o.round, s ∉ o'.round) ∧
      (∀ s, s.2 < 4 → chf.BoundarySide s → ¬ chf.Isolated s.1 → ∃ o ∈ outlines, s ∈ o.round) ∧
      (∀ o ∈ outlines, ∀ s ∈ o.round, ¬ chf.Isolated s.1) ∧
      List.Forall₂ (StoredFor t maxEdgeLen bf chf.borderSize) outlines stored ∧ set.contours = stored.filterMap id := by
  unfold buildContours at hok
  obtain ⟨b2, _, hok⟩ := bind_inv hok
  obtain ⟨w, _, hok⟩ := bind_inv hok
  obtain ⟨h, _, hok⟩ := bind_inv hok
  obtain ⟨flags, hm, hok⟩ := bind_inv hok
  obtain ⟨st, hst, hok⟩ := bind_inv hok
  cases hok
  obtain ⟨flags', hm', hfl⟩ := markBoundaries_spec hwf
  rw [hm] at hm'
  cases hm'
  obtain ⟨outs, ocs, hinv⟩ := traceAll_inv hwf hsym hu hshort t maxEdgeLen bf _ hfl hst
  refine ⟨outs, ocs, hinv.outline, hinv.disjoint, ?_, ?_, hinv.each, hinv.stored⟩
  · intro s hd hb hiso
    exact all_covered hwf hsym hu hshort hinv hd hb hiso
  · intro o ho s hs hiso
    obtain ⟨s0, h1, h2, h3⟩ := hinv.orbit o ho
    rw [h3] at hs
    obtain ⟨m, rfl⟩ := (mem_orbitOf (followable hwf hsym) h1).1 hs
    exact h2 (isolated_iter hwf hsym h1 m hiso)

/-- **C61 (vertices).** On any well-formed field, with or without symmetric connections and however long the rounds: the raw vertices of
every contour returned record boundary sides, and every vertex of it is at the place of a raw vertex (both counted without the
border). -/
theorem c61_vertices (chf : CompactHeightfield) (hwf : chf.WellFormed) (hu : ∀ s ∈ chf.spans, s.region < 65536)
    (t : Tests) (maxEdgeLen : Nat) (bf : ContourFlags) (set : ContourSet) (hok : chf.buildContours t maxEdgeLen bf = .ok set)
    (c : Contour) (hc : c ∈ set.contours) :
    ∃ raw simplified : RawContour, c.rawVertices = withoutBorder chf.borderSize raw ∧ c.vertices = withoutBorder chf.borderSize simplified ∧
      (∀ p ∈ raw, ∃ area s, s.2 < 4 ∧ chf.BoundarySide s ∧ chf.RawVertex area s p) ∧ ∀ v ∈ simplified, ∃ p ∈ raw, v.1 = p.1 :=
  buildContours_recorded hwf hu t maxEdgeLen bf hok c hc

/-- **C61 (corollary).** A round faces every side of the field at most once, so fields of up to 10,000 spans meet the guard on the
length of rounds. -/
theorem c61_small_fields (chf : CompactHeightfield) (hn : chf.spans.length ≤ 10000) (r : Nat) (v : List (Nat × Nat))
    (hv : chf.IsCircuit r v) : v.length ≤ 40000 := by
  have hsub : ∀ s ∈ v, s.1 * 4 + s.2 < 4 * chf.spans.length := by
    intro s hs
    obtain ⟨sp, h1, _⟩ := hv.region s hs
    have := (List.getElem?_eq_some_iff.1 h1).1
    have := hv.dir s hs
    omega
  have hnd : (v.map fun s => s.1 * 4 + s.2).Nodup := by
    refine (List.nodup_map_iff_inj_on hv.nodup).2 ?_
    rintro ⟨a, b⟩ ha ⟨c, d⟩ hc e
    have := hv.dir _ ha
    have := hv.dir _ hc
    simp only at *
    rw [Prod.mk.injEq]
    omega
  have hle : (v.map fun s => s.1 * 4 + s.2).length ≤ (List.range (4 * chf.spans.length)).length := by
    refine List.Subperm.length_le (List.Nodup.subperm hnd ?_)
    intro k hk
    obtain ⟨s, hs, rfl⟩ := List.mem_map.1 hk
    exact List.mem_range.2 (hsub s hs)
  simp at hle
  omega

/-- Executable test of `SymmetricLinks`. -/
def symCheck (chf : CompactHeightfield) : Bool :=
  (List.range chf.spans.length).all fun i => (List.range 4).all fun d => (chf.nbr i d).all fun k => decide (chf.nbr k ((d + 2) % 4) = some i)

theorem symmetric_of_check {chf : CompactHeightfield} (hwf : chf.WellFormed) (h : symCheck chf = true) : chf.SymmetricLinks := by
  intro i k d hd hl
  have hk := (nbr_iff_link hwf hd).2 hl
  have hi := (nbr_lt hwf hd hk).1
  unfold symCheck at h
  have := List.all_eq_true.1 (List.all_eq_true.1 h i (List.mem_range.2 hi)) d (List.mem_range.2 hd)
  rw [hk] at this
  exact (nbr_iff_link hwf (Nat.mod_lt _ (by omega))).1 (of_decide_eq_true this)

/-- A ring of region 1 around a single span of region 2. -/
def ringChf : CompactHeightfield :=
  let c := layers 3 3 1 (List.replicate 9 255)
  { c with spans := c.spans.zipWith (fun s r => { s with region := r }) [1, 1, 1, 1, 2, 1, 1, 1, 1], maxRegion := 2 }

/-- All hypotheses of `c61_outlines_partial` and `c61_vertices` hold for the ring.  It has two rounds, of which the inner one keeps fewer than three
vertices. -/
example : ringChf.WellFormed ∧ ringChf.SymmetricLinks ∧ (∀ s ∈ ringChf.spans, s.region < 65536) ∧ ringChf.spans.length ≤ 10000 ∧
    (ringChf.buildContours (Tests.exact (13/10)) 12 ⟨true, false⟩).map (fun s => s.contours.map fun c => (c.region, c.vertices.map (·.1.xz))) =
      .ok [(1, [(0, 0), (0, 3), (3, 3), (3, 0)])] := by
  have hwf : ringChf.WellFormed := wellFormed_of_check (by decide +kernel)
  exact ⟨hwf, symmetric_of_check hwf (by decide +kernel), by decide +kernel, by decide +kernel, by decide +kernel⟩

/-- **C61 (isolated spans).** The span in the middle of the ring is a whole region, with four boundary sides, and no contour is
returned for its region. -/
theorem c61_isolated_skipped : ∃ (chf : CompactHeightfield) (set : ContourSet) (i r : Nat), chf.WellFormed ∧ chf.SymmetricLinks ∧
    chf.buildContours (Tests.exact 0) 0 ⟨true, false⟩ = .ok set ∧ chf.RegionOf i r ∧ ProperRegion r ∧ chf.Isolated i ∧
    ∀ c ∈ set.contours, c.region ≠ r := by
  have hwf : ringChf.WellFormed := wellFormed_of_check (by decide +kernel)
  have hok : (ringChf.buildContours (Tests.exact 0) 0 ⟨true, false⟩).map (fun s => s.contours.all fun c => decide (c.region ≠ 2)) = .ok true := by
    decide +kernel
  cases hx : ringChf.buildContours (Tests.exact 0) 0 ⟨true, false⟩ with
  | error e => rw [hx] at hok; cases hok
  | ok set =>
    rw [hx] at hok
    have hall : (set.contours.all fun c => decide (c.region ≠ 2)) = true := by
      have : (Except.ok (set.contours.all fun c => decide (c.region ≠ 2)) : Res Bool) = .ok true := hok
      exact Except.ok.inj this
    refine ⟨ringChf, set, 4, 2, hwf, symmetric_of_check hwf (by decide +kernel), hx, ?_, by decide, ?_, ?_⟩
    · exact (regionOf_iff hwf).2 ⟨by decide +kernel, by decide +kernel⟩
    · intro d hd
      refine (boundarySide_iff hwf (s := (4, d)) hd).2 ⟨⟨show ProperRegion (ringChf.reg 4) by decide +kernel, ?_⟩, show 4 < ringChf.spans.length by decide +kernel⟩
      have hn : ∀ d < 4, (ringChf.nbr 4 d).all (fun k => decide (ringChf.reg k ≠ ringChf.reg 4)) = true := by decide +kernel
      intro k hk
      have := hn d hd
      simp only at hk
      rw [hk] at this
      exact of_decide_eq_true this
    · intro c hc
      exact of_decide_eq_true (List.all_eq_true.1 hall c hc)

/-! A strip of `w` spans in one row, all in region 1. -/

/-- A row of `w` cells in one region. -/
def rowChf (w : Nat) : CompactHeightfield := (layers w 1 1 (List.replicate w 255)).oneRegion

theorem rowChf_wellFormed {w : Nat} (hw : w ≤ 65535) : (rowChf w).WellFormed :=
  (layers_wellFormed hw (by omega) (by omega) (by simp)).oneRegion

theorem rowChf_span {w i : Nat} (hi : i < w) : (rowChf w).spans[i]? = some { layerSpan w 1 i 0 0 with region := 1 } := by
  simp only [rowChf, oneRegion, layers, List.map_map, List.getElem?_map]
  rw [List.getElem?_range (by omega)]
  simp [Nat.mod_eq_of_lt hi, Nat.div_eq_of_lt hi, Nat.mod_one]

theorem rowChf_len (w : Nat) : (rowChf w).spans.length = w := by simp [rowChf, oneRegion, layers]

theorem rowChf_cell {w i : Nat} (hi : i < w) : (rowChf w).cells[i]? = some ⟨i, 1⟩ := by
  simp only [rowChf, oneRegion, layers, List.getElem?_map]
  rw [List.getElem?_range (by omega)]
  simp

theorem rowChf_col {w i : Nat} (hw : w ≤ 65535) (hi : i < w) : (rowChf w).colOf i = i :=
  col_unique (rowChf_wellFormed hw) (rowChf_cell hi) (by simp [CompactCell.indexRange])

theorem rowChf_reg {w i : Nat} (hi : i < w) : (rowChf w).reg i = 1 := reg_eq (rowChf_span hi)

theorem con_region (s : CompactSpan) (r d : Nat) : ({ s with region := r } : CompactSpan).con d = s.con d := rfl

theorem rowChf_nbr {w i d : Nat} (hw : w ≤ 65535) (hi : i < w) (hd : d < 4) :
    (rowChf w).nbr i d = if d = 0 then (if 0 < i then some (i - 1) else none) else if d = 2 then (if i + 1 < w then some (i + 1) else none) else none := by
  have hcon : ({ layerSpan w 1 i 0 0 with region := 1 } : CompactSpan).con d = (neighbourCell w 1 i 0 d).map fun _ => 0 := by
    rw [con_region]; exact layerSpan_con (by omega) hd
  unfold nbr
  rw [rowChf_span hi, Option.bind_some, hcon, rowChf_col hw hi]
  have e1 : (rowChf w).width = w := rfl
  have e2 : (rowChf w).height = 1 := rfl
  rw [e1, e2, Nat.mod_eq_of_lt hi, Nat.div_eq_of_lt hi]
  have h4 : d = 0 ∨ d = 1 ∨ d = 2 ∨ d = 3 := by omega
  rcases h4 with rfl | rfl | rfl | rfl
  · by_cases h0 : 0 < i
    · simp [neighbourCell, h0, rowChf_cell (show i - 1 < w by omega)]
    · simp [neighbourCell, h0]
  · simp [neighbourCell]
  · by_cases h0 : i + 1 < w
    · simp [neighbourCell, h0, rowChf_cell h0]
    · simp [neighbourCell, h0]
  · simp [neighbourCell]

theorem rowChf_symmetric {w : Nat} (hw : w ≤ 65535) : (rowChf w).SymmetricLinks := by
  have hwf := rowChf_wellFormed hw
  intro i k d hd hl
  have hk := (nbr_iff_link hwf hd).2 hl
  obtain ⟨hi, hkl⟩ := nbr_lt hwf hd hk
  rw [rowChf_len] at hi hkl
  refine (nbr_iff_link hwf (Nat.mod_lt _ (by omega))).1 ?_
  rw [rowChf_nbr hw hkl (Nat.mod_lt _ (by omega))]
  rw [rowChf_nbr hw hi hd] at hk
  have h4 : d = 0 ∨ d = 1 ∨ d = 2 ∨ d = 3 := by omega
  rcases h4 with rfl | rfl | rfl | rfl
  · simp at hk
    obtain ⟨h1, rfl⟩ := hk
    simp; omega
  · simp at hk
  · simp at hk
    obtain ⟨h1, rfl⟩ := hk
    simp
  · simp at hk

theorem rowChf_edge {w i d : Nat} (hw : w ≤ 65535) (hi : i < w) (hd : d < 4) :
    (rowChf w).Edge i d ↔ d = 1 ∨ d = 3 ∨ (d = 0 ∧ i = 0) ∨ (d = 2 ∧ i + 1 = w) := by
  unfold Edge
  rw [rowChf_reg hi, rowChf_nbr hw hi hd]
  have hp : ProperRegion 1 := by decide
  have h4 : d = 0 ∨ d = 1 ∨ d = 2 ∨ d = 3 := by omega
  rcases h4 with rfl | rfl | rfl | rfl
  · by_cases h0 : 0 < i
    · simp [h0, hp, rowChf_reg (show i - 1 < w by omega)]; omega
    · simp [h0, hp]; omega
  · simp [hp]
  · by_cases h0 : i + 1 < w
    · simp [h0, hp, rowChf_reg h0]; omega
    · simp [h0, hp]; omega
  · simp [hp]

/-- The first steps of the round: two per cell, along the row. -/
theorem rowChf_steps {w : Nat} (hw : w ≤ 65535) : ∀ k < w, (rowChf w).nextSide^[2 * k + 1] (0, 0) = (k, 1) ∧
    (rowChf w).nextSide^[2 * k + 2] (0, 0) = (k, 2) := by
  have hturn : ∀ i d, i < w → d < 4 → (rowChf w).Edge i d → (rowChf w).nextSide (i, d) = (i, (d + 1) % 4) := by
    intro i d hi hd he
    show follow _ _ _ = _
    unfold follow
    exact if_pos he
  intro k
  induction k with
  | zero =>
    intro h0
    have h1 : (rowChf w).nextSide (0, 0) = (0, 1) := hturn 0 0 h0 (by omega) ((rowChf_edge hw h0 (by omega)).2 (by simp))
    have h2 : (rowChf w).nextSide (0, 1) = (0, 2) := hturn 0 1 h0 (by omega) ((rowChf_edge hw h0 (by omega)).2 (by simp))
    refine ⟨h1, ?_⟩
    show (rowChf w).nextSide ((rowChf w).nextSide (0, 0)) = _
    rw [h1, h2]
  | succ k ih =>
    intro hk
    obtain ⟨_, h2⟩ := ih (by omega)
    have h3 : (rowChf w).nextSide (k, 2) = (k + 1, 1) := by
      show follow _ _ _ = _
      unfold follow
      have hne : ¬ (rowChf w).Edge k 2 := by
        rw [rowChf_edge hw (by omega) (by omega)]; omega
      rw [if_neg hne]
      simp only
      rw [rowChf_nbr hw (by omega) (by omega)]
      simp [hk]
    have h4 : (rowChf w).nextSide (k + 1, 1) = (k + 1, 2) := hturn _ 1 hk (by omega) ((rowChf_edge hw hk (by omega)).2 (by simp))
    have e1 : (rowChf w).nextSide^[2 * (k + 1) + 1] (0, 0) = (k + 1, 1) := by
      rw [show 2 * (k + 1) + 1 = (2 * k + 2) + 1 by omega, Function.iterate_succ_apply', h2, h3]
    refine ⟨e1, ?_⟩
    rw [Function.iterate_succ_apply', e1, h4]

/-- **C61 is violated** for rounds of more than 40,000 steps: around a row of 20,001 cells the walk is cut off on the first long
side, and the outline is an open line of points. -/
theorem c61_violated : ∃ (chf : CompactHeightfield) (flags fl : List (BitVec 8)) (raw : RawContour), chf.WellFormed ∧ chf.SymmetricLinks ∧
    (∀ s ∈ chf.spans, s.region < 65536) ∧ chf.markBoundaries = .ok flags ∧ chf.walkContour 0 0 0 flags = .ok (fl, raw) ∧
    ¬ ClosedUnitWalk raw := by
  have hw : (20001 : Nat) ≤ 65535 := by omega
  generalize hwv : (20001 : Nat) = w at hw
  have hwf := rowChf_wellFormed hw
  have hsym := rowChf_symmetric hw
  have hu : ∀ s ∈ (rowChf w).spans, s.region < 65536 := by
    intro s hs
    simp only [rowChf, oneRegion, List.mem_map] at hs
    obtain ⟨_, _, rfl⟩ := hs
    simp
  have h0 : 0 < w := by omega
  obtain ⟨flags, hm, hfl⟩ := markBoundaries_spec hwf
  have hE0 : (rowChf w).Edge 0 0 := (rowChf_edge hw h0 (by omega)).2 (by simp)
  have hs : (rowChf w).SideOk (0, 0) := ⟨⟨by rw [rowChf_len]; exact h0, hE0.1⟩, by simp⟩
  -- the round is longer than 40,000 steps
  have hper : 0 + 40000 < Function.minimalPeriod (rowChf w).nextSide (0, 0) := by
    have hp : 0 < Function.minimalPeriod (rowChf w).nextSide (0, 0) := period_pos (followable hwf hsym) hs
    by_contra hle
    have hper : (rowChf w).nextSide^[Function.minimalPeriod (rowChf w).nextSide (0, 0)] (0, 0) = (0, 0) := Function.iterate_minimalPeriod
    generalize Function.minimalPeriod (rowChf w).nextSide (0, 0) = p at hp hle hper
    rcases Nat.even_or_odd' p with ⟨k, hk | hk⟩
    · have := (rowChf_steps hw (k - 1) (by omega)).2
      rw [show 2 * (k - 1) + 2 = p by omega, hper] at this
      simp at this
    · have := (rowChf_steps hw k (by omega)).1
      rw [show 2 * k + 1 = p by omega, hper] at this
      simp at this
  have hi : 0 < (rowChf w).spans.length := by rw [rowChf_len]; exact h0
  have hil : 0 < flags.length := by rw [hfl.1]; exact hi
  have hf : flags[0]? = some flags[0] := List.getElem?_eq_getElem hil
  have hb0 : (flags[0]).getLsbD 0 = true := ((hfl.2 0 _ hf).1 0 (by omega)).2 hE0
  have hx0 : (rowChf w).xOf 0 = 0 := by unfold xOf; rw [rowChf_col hw h0]; simp
  have hz0 : (rowChf w).zOf 0 = 0 := by unfold zOf; rw [rowChf_col hw h0]; simp
  have hw0 : WalkAt (rowChf w) ((rowChf w).ara 0) (0, 0) (rowChf w).Edge 0 ⟨0, 0, 0, 0, flags, []⟩ := by
    refine ⟨⟨hi, hx0.symm, hz0.symm, by simp, hfl.1, hfl.high⟩, rfl, hfl.congr (by intro j e _ _; simp), by simp, ?_⟩
    simp only [hx0, hz0]
    rfl
  obtain ⟨w', hwl, hw'⟩ := walk_cut hwf hsym hu ((rowChf w).ara 0) hs (fun _ => Iff.rfl) 40000 0 hper _ hw0
  refine ⟨rowChf w, flags, w'.flags, w'.points, hwf, hsym, hu, hm, ?_, ?_⟩
  · have hfd : firstDir flags[0] 8 0 = .ok 0 := by simp only [firstDir]; rw [if_pos hb0]
    unfold walkContour
    rw [idx_some hf, bind_ok, hfd, bind_ok, idx_some (areas_get hwf hi), bind_ok]
    simp only at hwl
    rw [show WALK_LIMIT = 40000 from rfl, hwl, bind_ok]
  · intro hclosed
    -- where the walk stands
    have hh := hw'.here
    rw [show 0 + 40000 = 2 * 19999 + 2 by omega, (rowChf_steps hw 19999 (by omega)).2] at hh
    simp only [Prod.mk.injEq] at hh
    have hst := hw'.steps
    rw [hw'.ok.x_eq, hw'.ok.z_eq, hh.1, hh.2] at hst
    have hx1 : (rowChf w).xOf 19999 = 19999 := by
      unfold xOf; rw [rowChf_col hw (by omega)]; exact Nat.mod_eq_of_lt (by show 19999 < w; omega)
    have hz1 : (rowChf w).zOf 19999 = 0 := by
      unfold zOf; rw [rowChf_col hw (by omega)]; exact Nat.div_eq_of_lt (by show 19999 < w; omega)
    rw [hx1, hz1] at hst
    obtain ⟨_, hlast, _⟩ := steps_ends _ _ _ hst
    -- the first point
    have hpts := hw'.points
    have hcons : (List.range (0 + 40000)).map (fun j => (rowChf w).nextSide^[j] (0, 0)) =
        (0, 0) :: (List.range 39999).map (fun j => (rowChf w).nextSide^[j + 1] (0, 0)) := by
      rw [show 0 + 40000 = 39999 + 1 by omega, List.range_succ_eq_map, List.map_cons, List.map_map]
      rfl
    rw [hcons, List.filter_cons, if_pos (by simpa using hE0)] at hpts
    cases hq : w'.points with
    | nil => rw [hq] at hpts; cases hpts
    | cons p l =>
      rw [hq] at hpts
      have hrv := (List.forall₂_cons.1 hpts).1
      obtain ⟨x, z, sp, hat, hpos⟩ := hrv.position
      obtain ⟨ex, ez⟩ := at_unique hwf hat
      simp only at ex ez hpos
      rw [ex, ez, hx0, hz0] at hpos
      -- the last point
      have hne : w'.points ≠ [] := by rw [hq]; simp
      have hl := hlast _ (List.getLast?_eq_getLast_of_ne_nil hne)
      have hlen : 0 < w'.points.length := List.length_pos_of_ne_nil hne
      have := hclosed (w'.points.length - 1) (w'.points.getLast hne) p (by rw [List.getLast_eq_getElem]; exact List.getElem?_eq_getElem (by omega))
        (by rw [Nat.sub_add_cancel hlen, Nat.mod_self, hq]; rfl)
      rw [hl, hpos] at this
      simp [UnitStep, startCorner, cornerOf] at this

end Rerecast
