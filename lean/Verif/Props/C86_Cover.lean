import Verif.Lemmas.WindingCover
import Verif.Props.C83_Settings
/-! C86: every point of a region that is clear of its ends is under a polygon of that region. -/
set_option linter.unusedVariables false
namespace Rerecast
open CompactHeightfield

/-- **C86 (contours to polygons).** If a contour without double points winds around a point, a polygon of its region is over the point. -/
theorem c86_contour_polygon (cset : ContourSet) (fuel nvp : Nat) (h3 : 3 ≤ nvp) (hn : nvp ≤ 65535) (hb : cset.NoBorderVertices ∨ cset.FewVertices)
    (out : PolygonNavmesh) (hr : cset.intoPolygonMesh fuel nvp = .ok out) (c : Contour) (hc : c ∈ cset.contours) (hs : c.Simple) (p : Point)
    (hw : winding p (c.vertices.map fun v => v.1.plane) ≠ 0) :
    ∃ i, out.regions[i]? = some c.region ∧ out.areas[i]? = some c.area ∧ out.Over i p := by
  obtain ⟨blocks, h⟩ := c46_mesh cset fuel nvp h3 hn hb out hr
  have hl3 : 3 ≤ c.vertices.length := by
    by_contra hlt
    exact hw (winding_short (by simp; omega))
  have hcm : c ∈ blocks.map (·.contour) := by
    rw [h.contours, List.mem_filter]
    exact ⟨hc, by simpa using hl3⟩
  obtain ⟨b, hbm, rfl⟩ := List.mem_map.1 hcm
  have hm := h.makes b hbm
  have hnd := hm.distinct hs
  have hanti : Antisymmetric fun e : Nat × Nat => crossing p ((pos out.vertices e.1).plane, (pos out.vertices e.2).plane) :=
    fun a c => crossing_antisymm p _ _
  have hsum := hm.boundary hnd _ hanti
  have hring : b.ring.map (fun i => (pos out.vertices i).plane) = b.contour.vertices.map fun v => v.1.plane := by
    have hst := hm.stands
    unfold StandsFor at hst
    generalize b.contour.vertices = vs at hst
    generalize b.ring = rs at hst
    induction hst with
    | nil => rfl
    | cons hp _ ih =>
      rw [List.map_cons, List.map_cons, ih]
      congr 1
      obtain ⟨w, hw, hnear⟩ := hp
      unfold pos
      rw [List.getD_eq_getElem?_getD, hw, Option.getD_some]
      unfold U16Vec3.plane
      rw [hnear.1, hnear.2.1]
  have hne : ((allSides b.polys).map fun e => crossing p ((pos out.vertices e.1).plane, (pos out.vertices e.2).plane)).sum ≠ 0 := by
    rw [hsum]
    unfold winding at hw
    rw [← hring, around_map] at hw
    exact hw
  unfold allSides at hne
  rw [sum_flatMap_map] at hne
  obtain ⟨q, hq, hqw⟩ : ∃ q ∈ b.polys, around (fun e : Nat × Nat => crossing p ((pos out.vertices e.1).plane, (pos out.vertices e.2).plane)) q ≠ 0 := by
    by_contra hcon
    push Not at hcon
    apply hne
    apply List.sum_eq_zero
    intro a ha
    obtain ⟨q, hq, rfl⟩ := List.mem_map.1 ha
    exact hcon q hq
  have hqw' : winding p (q.map fun i => (pos out.vertices i).plane) ≠ 0 := by
    unfold winding
    rw [around_map]
    exact hqw
  obtain ⟨i, hi, hreg⟩ := flatMap_member (fun b : Block => b.polys) (fun b => (b.contour.region, b.contour.area)) blocks b q hbm hq
  rw [← h.polys] at hi
  have hcnt : out.polys.length = out.polygonCount := by unfold PolygonNavmesh.polys; simp
  have hil : i < out.polygonCount := by rw [← hcnt]; exact (List.getElem?_eq_some_iff.1 hi).1
  refine ⟨i, ?_, ?_, ?_⟩
  · have e : (blocks.flatMap fun b => b.polys.map fun _ => b.contour.region)[i]? = some b.contour.region := by
      have := congrArg (Option.map Prod.fst) hreg
      rw [← List.getElem?_map, List.map_flatMap] at this
      simpa using this
    rw [← h.regions, List.getElem?_take, if_pos hil] at e
    exact e
  · have := congrArg (Option.map Prod.snd) hreg
    rw [← List.getElem?_map, List.map_flatMap] at this
    rw [h.areas]
    simpa using this
  · obtain ⟨a, ha, a', ha', a'', ha'', ht⟩ := winding_triangle hqw'
    obtain ⟨u, hu, rfl⟩ := List.mem_map.1 ha
    obtain ⟨v, hv, rfl⟩ := List.mem_map.1 ha'
    obtain ⟨w, hw, rfl⟩ := List.mem_map.1 ha''
    have hget : ∀ u ∈ q, out.vertices[u]? = some (pos out.vertices u) := by
      intro u hu
      have hur := (hm.sizes q hq).2.2 u hu
      obtain ⟨v, _, w, hw, _⟩ := forall₂_mem_right hm.stands hur
      unfold pos
      rw [List.getD_eq_getElem?_getD, hw]; rfl
    exact ⟨q, _, _, _, hi, ⟨u, hu, v, hv, w, hw, hget u hu, hget v hv, hget w hw⟩, ht⟩

/-- If the simplified contour of an outline winds around a point, a polygon of the outline's region is over the point. -/
theorem outline_polygon {chf : CompactHeightfield} (hin : ∀ x z i s, chf.At x z i s → ProperRegion s.region → chf.borderSize ≤ x ∧ chf.borderSize ≤ z)
    {t : Tests} {maxEdgeLen : Nat} {bf : ContourFlags} {set : ContourSet}
    (hsimple : ∀ c ∈ set.contours, c.Simple) (hb : set.NoBorderVertices ∨ set.FewVertices)
    {fuel nvp : Nat} (h3 : 3 ≤ nvp) (hn : nvp ≤ 65535) {out : PolygonNavmesh} (hr : set.intoPolygonMesh fuel nvp = .ok out)
    {outlines : List Outline} {stored : List (Option Contour)} (hout : ∀ o ∈ outlines, chf.IsOutline o)
    (hst : List.Forall₂ (StoredFor t maxEdgeLen bf chf.borderSize) outlines stored) (hset : set.contours = stored.filterMap id)
    {o : Outline} (ho : o ∈ outlines) {simple : RawContour} (hsi : simplifyContour t o.raw maxEdgeLen bf = .ok simple) {p : Point}
    (hws : winding p (simple.map fun v => v.1.plane) ≠ 0) :
    ∃ j, out.regions[j]? = some o.region ∧ out.areas[j]? = some o.area ∧ out.Over j (p.1 - chf.borderSize, p.2 - chf.borderSize) := by
  obtain ⟨o?, hmem, simplified, res, h1, h2, h3'⟩ := forall₂_mem_right hst.flip ho
  rw [hsi] at h1
  cases h1
  have h1 := hsi
  have hw : winding p (res.map fun v => v.1.plane) ≠ 0 := by
    rw [removeDegenerate_winding h2 (p := p)]; exact hws
  have hlen : 3 ≤ res.length := by
    by_contra hlt
    exact hw (winding_short (by simp; omega))
  rw [if_pos hlen] at h3'
  subst h3'
  have hc : (⟨withoutBorder chf.borderSize res, withoutBorder chf.borderSize o.raw, o.region, o.area⟩ : Contour) ∈ set.contours := by
    rw [hset, List.mem_filterMap]
    exact ⟨_, hmem, rfl⟩
  have hraw : ∀ q ∈ o.raw, chf.borderSize ≤ q.1.x ∧ chf.borderSize ≤ q.1.z := by
    intro q hq
    obtain ⟨⟨i, d⟩, hside, hr⟩ := forall₂_mem_right (hout o ho).raw hq
    unfold CompactHeightfield.boundaryOf at hside
    rw [List.mem_filter] at hside
    obtain ⟨x, z, sp, hat, hxz⟩ := hr.position
    obtain ⟨sp', e1, e2⟩ := (hout o ho).circuit.region _ hside.1
    simp only at hat e1
    rw [hat.2.2.1] at e1; cases e1
    have hb := hin x z i sp hat (by rw [e2]; exact (hout o ho).proper)
    unfold U16Vec3.xz cornerOf at hxz
    dsimp only at hxz
    split at hxz <;> simp only [Prod.mk.injEq] at hxz <;> omega
  have hne : o.raw ≠ [] := by
    intro h
    rw [h] at h1
    cases h1
  have hsub : ∀ q ∈ res, chf.borderSize ≤ q.1.x ∧ chf.borderSize ≤ q.1.z := by
    intro q hq
    rw [removeDegenerate_eq] at h2
    cases h2
    have hq' := (degen_sublist simple.length [] simple (Nat.le_refl _)).subset hq
    rw [List.nil_append] at hq'
    rcases c40_terminates t o.raw hne maxEdgeLen bf with ⟨out, e', ho'⟩ | ⟨_, e'⟩
    · rw [h1] at e'; cases e'
      obtain ⟨j, r, hr, ev, _⟩ := ho' q hq'
      rw [ev]
      exact hraw r (List.mem_of_getElem? hr)
    · rw [h1] at e'; cases e'
  obtain ⟨j, j1, j2, j3⟩ := c86_contour_polygon set fuel nvp h3 hn hb out hr _ hc (hsimple _ hc)
    (p.1 - chf.borderSize, p.2 - chf.borderSize) (by
      dsimp only
      rw [winding_shift p chf.borderSize res hsub]
      exact hw)
  exact ⟨j, j1, j2, j3⟩

/-- `c86_cover_partial` for any tests that keep vertices within `e`. -/
theorem cover_of_tests (chf : CompactHeightfield) (hwf : chf.WellFormed) (hsym : chf.SymmetricLinks)
    (hu : ∀ s ∈ chf.spans, s.region < 65536)
    (hshort : ∀ r v, chf.IsCircuit r v → (∃ s ∈ v, chf.BoundarySide s) → v.length ≤ 40000)
    (hin : ∀ x z i s, chf.At x z i s → ProperRegion s.region → chf.borderSize ≤ x ∧ chf.borderSize ≤ z)
    (hua : ∀ i k r, ProperRegion r → chf.RegionOf i r → chf.RegionOf k r → chf.areas[i]? = chf.areas[k]?)
    (t : Tests) (gn : Nat) (e : Rat) (ht : t.Keeps gn e) (hgw : chf.width ≤ gn) (hgh : chf.height ≤ gn) (maxEdgeLen : Nat) (bf : ContourFlags) (set : ContourSet) (hok : chf.buildContours t maxEdgeLen bf = .ok set)
    (hsimple : ∀ c ∈ set.contours, c.Simple) (hb : set.NoBorderVertices ∨ set.FewVertices)
    (fuel nvp : Nat) (h3 : 3 ≤ nvp) (hn : nvp ≤ 65535) (out : PolygonNavmesh) (hr : set.intoPolygonMesh fuel nvp = .ok out)
    (x z i : Nat) (s : CompactSpan) (hat : chf.At x z i s) (hp : ProperRegion s.region) (hni : ¬ chf.Isolated i) (p : Point)
    (hx : (x : Rat) ≤ p.1 ∧ p.1 < (x : Rat) + 1) (hz : (z : Rat) ≤ p.2 ∧ p.2 < (z : Rat) + 1) (hclear : chf.Clear (2 * e) s.region p) :
    ∃ j, out.regions[j]? = some s.region ∧ out.areas[j]? = chf.areas[i]? ∧ out.Over j (p.1 - chf.borderSize, p.2 - chf.borderSize) := by
  obtain ⟨outlines, stored, hout, hdis, hcov, hiso, hst, hset⟩ := c61_outlines_partial chf hwf hsym hu hshort t maxEdgeLen bf set hok
  obtain ⟨rfl, rfl⟩ := at_unique hwf hat
  have hil : i < chf.spans.length := (List.getElem?_eq_some_iff.1 hat.2.2.1).1
  obtain ⟨o, ho, hor, hw⟩ := region_winding hwf hsym hp hout hdis hcov hiso hil (reg_eq hat.2.2.1) hni hx hz
  obtain ⟨_, _, simplified, _, h1, _, _⟩ := forall₂_mem_right hst.flip ho
  rw [← clear_simplify hwf (hout o ho) hua ht hgw hgh h1 (by rw [hor]; exact hclear)] at hw
  obtain ⟨j, j1, j2, j3⟩ := outline_polygon hin hsimple hb h3 hn hr hout hst hset ho h1 hw
  refine ⟨j, by rw [j1]; exact congrArg some hor, ?_, j3⟩
  rw [j2]
  exact (outline_area hwf (hout o ho) hua ⟨s, hat.2.2.1, hor.symm⟩).symm

/-- **C86 (partial).** On a well-formed field with symmetric connections, regions of one area and none in the border: a point in the cell of a
span of a region is under a polygon of that region, if it is clear of the region's ends: more than twice `max_error` from where the
region ends at no neighbour or at another area, and in no triangle of corners of sides at which it ends at one and the same other region.
The mesh is counted from the corner inside the border.
Missing: contours with double points, rounds of more than 40,000 steps, isolated spans (which get no contour, `c61_isolated_skipped`).  With rounding
in the error tests: `c87_cover_partial`. -/
theorem c86_cover_partial (chf : CompactHeightfield) (hwf : chf.WellFormed) (hsym : chf.SymmetricLinks)
    (hu : ∀ s ∈ chf.spans, s.region < 65536)
    (hshort : ∀ r v, chf.IsCircuit r v → (∃ s ∈ v, chf.BoundarySide s) → v.length ≤ 40000)
    (hin : ∀ x z i s, chf.At x z i s → ProperRegion s.region → chf.borderSize ≤ x ∧ chf.borderSize ≤ z)
    (hua : ∀ i k r, ProperRegion r → chf.RegionOf i r → chf.RegionOf k r → chf.areas[i]? = chf.areas[k]?)
    (e : Rat) (maxEdgeLen : Nat) (bf : ContourFlags) (set : ContourSet) (hok : chf.buildContours (Tests.exact e) maxEdgeLen bf = .ok set)
    (hsimple : ∀ c ∈ set.contours, c.Simple) (hb : set.NoBorderVertices ∨ set.FewVertices)
    (fuel nvp : Nat) (h3 : 3 ≤ nvp) (hn : nvp ≤ 65535) (out : PolygonNavmesh) (hr : set.intoPolygonMesh fuel nvp = .ok out)
    (x z i : Nat) (s : CompactSpan) (hat : chf.At x z i s) (hp : ProperRegion s.region) (hni : ¬ chf.Isolated i) (p : Point)
    (hx : (x : Rat) ≤ p.1 ∧ p.1 < (x : Rat) + 1) (hz : (z : Rat) ≤ p.2 ∧ p.2 < (z : Rat) + 1) (hclear : chf.Clear (2 * e) s.region p) :
    ∃ j, out.regions[j]? = some s.region ∧ out.areas[j]? = chf.areas[i]? ∧ out.Over j (p.1 - chf.borderSize, p.2 - chf.borderSize) :=
  cover_of_tests chf hwf hsym hu hshort hin hua _ (max chf.width chf.height) e (keeps_exact _ e) (Nat.le_max_left ..) (Nat.le_max_right ..) maxEdgeLen bf
    set hok hsimple hb fuel nvp h3 hn out hr x z i s hat hp hni p hx hz hclear

/-- The regions of a build have one area each. -/
theorem regions_uniform {F : Type} {env : BuildEnv F} {b : ConfigBuilder} {scene : List Affector} (hgood : GoodBuild env b scene)
    {cfg : Config} {m : TriMesh ℚ} {fr : Frame} {hf : Heightfield} {chf : CompactHeightfield} (st : Stages env b scene cfg m fr hf chf)
    (i k r : Nat) (hr : ProperRegion r) (hi : chf.RegionOf i r) (hk : chf.RegionOf k r) : chf.areas[i]? = chf.areas[k]? := by
  obtain ⟨w, h, c0, hw, _, _, hG, _, hc, hwf0, hlike⟩ := hgood.stages st
  have hok := st.compact
  rw [buildCompact, hc, bind_ok] at hok
  obtain ⟨c1, h1, hok⟩ := bind_inv hok
  obtain ⟨c2, h2, h3⟩ := bind_inv hok
  obtain ⟨e1, l1, _⟩ := c25_only_removes c0 hwf0 _ c1 h1
  have hwf1 : c1.WellFormed := by
    rw [e1]
    exact ⟨hwf0.width_u16, hwf0.height_u16, hwf0.cells_len, by simp only; rw [l1]; exact hwf0.areas_len, hwf0.partition, hwf0.con⟩
  have ew : c0.width = w := by rw [← hlike.width]; exact hG.width
  have hs1 : c1.width ≤ 32767 ∨ c1.height ≤ 32767 := by
    rw [e1]
    exact Or.inl (by simp only; omega)
  exact c35_regions_uniform c2 (ready_of_distance_field c1 hwf1 hs1 c2 h2).1 _ _ _ chf h3 i k r hr hi hk

/-- **C86 (builds, partial).** In a build, a point in the cell of a span of a region is under a polygon of that region, if it is clear of the
region's ends, with twice `edge_max_error` cells for the distance.  Missing: contours with double points, isolated spans, and the guards of
`c76_polygons_partial`. -/
theorem c86_build_partial {F : Type} (env : BuildEnv F) (b : ConfigBuilder) (flags : ContourFlags) (scene : List Affector)
    (hgood : GoodBuild env b scene) (hexact : env.tests = Tests.exact) (h3 : 3 ≤ b.vertsPerPoly) (cfg : Config) (m : TriMesh ℚ) (fr : Frame)
    (hf : Heightfield) (chf : CompactHeightfield) (set : ContourSet) (poly : PolygonNavmesh)
    (st : MeshStages env b flags scene cfg m fr hf chf set poly) (hclimb : cfg.walkableClimb < cfg.walkableHeight)
    (hlay : ∀ c ∈ chf.cells, c.count ≤ 62)
    (hshort : ∀ r v, chf.IsCircuit r v → (∃ s ∈ v, chf.BoundarySide s) → v.length ≤ 40000) (hfew : set.FewVertices)
    (hsimple : ∀ c ∈ set.contours, c.Simple) (x z i : Nat) (s : CompactSpan) (hat : chf.At x z i s) (hp : ProperRegion s.region)
    (hni : ¬ chf.Isolated i) (p : Point) (hx : (x : Rat) ≤ p.1 ∧ p.1 < (x : Rat) + 1) (hz : (z : Rat) ≤ p.2 ∧ p.2 < (z : Rat) + 1)
    (hclear : chf.Clear (2 * b.edgeMaxError) s.region p) :
    ∃ j, poly.regions[j]? = some s.region ∧ poly.areas[j]? = chf.areas[i]? ∧ poly.Over j (p.1 - cfg.borderSize, p.2 - cfg.borderSize) := by
  obtain ⟨w, h, c0, _, _, hM, hG, hwf, h0, _, hlike⟩ := hgood.stages st.toStages
  have hsym := symmetric_of hwf (hgood.spans cfg m fr hf st.config st.input st.solid) hclimb h0 hlike hlay
  have hcon := st.contours
  rw [hexact, (config_limits st.config).2.2.2] at hcon
  have hb : chf.borderSize = cfg.borderSize := hG.border
  rw [← hb]
  exact c86_cover_partial chf hG.wf hsym hG.u16 hshort (fun x z i s hat hr => by
    have := (hG.safe x z i s hat hr).inside
    rw [hG.border]
    exact ⟨this.1, this.2.2.1⟩) (regions_uniform hgood st.toStages) b.edgeMaxError cfg.maxEdgeLen flags set hcon hsimple (Or.inr hfew)
    env.fuel _ (nvp_ge st.config h3) (nvp_le st.config) poly st.mesh x z i s hat hp hni p hx hz hclear

/-! ### Examples -/

/-- Executable test of the sides at which a region ends. -/
def endsCheck (chf : CompactHeightfield) (r : Nat) (wall : Nat × Nat → Nat × Nat → Bool) (portal : Nat → Nat × Nat → Bool) : Bool :=
  (List.range chf.spans.length).all fun i => (List.range 4).all fun d => decide (chf.reg i ≠ r) ||
    match chf.nbr i d with
    | none => wall (chf.sideEnds (i, d)).1 (chf.sideEnds (i, d)).2
    | some k => decide (chf.reg k = r) || (wall (chf.sideEnds (i, d)).1 (chf.sideEnds (i, d)).2 || decide (chf.reg k ≠ 0 ∧ chf.ara k = chf.ara i)) &&
        portal (chf.reg k) (chf.sideEnds (i, d)).1 && portal (chf.reg k) (chf.sideEnds (i, d)).2

theorem runs_sideEnds {chf : CompactHeightfield} (hwf : chf.WellFormed) {s : Nat × Nat} {a b : Point} (h : chf.RunsBetween s a b) :
    a = cellCorner (chf.sideEnds s).1 ∧ b = cellCorner (chf.sideEnds s).2 := by
  obtain ⟨x, z, sp, hat, rfl, rfl⟩ := h
  obtain ⟨rfl, rfl⟩ := at_unique hwf hat
  exact ⟨rfl, rfl⟩

theorem ends_of_check {chf : CompactHeightfield} (hwf : chf.WellFormed) {r : Nat} {wall : Nat × Nat → Nat × Nat → Bool}
    {portal : Nat → Nat × Nat → Bool} (h : endsCheck chf r wall portal = true) :
    (∀ s a b, chf.FrontierSide r s → chf.RunsBetween s a b → ∃ a' b', a = cellCorner a' ∧ b = cellCorner b' ∧ wall a' b' = true) ∧
    ∀ w a, chf.PortalCorner r w a → ∃ c, a = cellCorner c ∧ portal w c = true := by
  have hall : ∀ i < chf.spans.length, ∀ d < 4, chf.reg i = r → match chf.nbr i d with
      | none => wall (chf.sideEnds (i, d)).1 (chf.sideEnds (i, d)).2 = true
      | some k => chf.reg k = r ∨ (wall (chf.sideEnds (i, d)).1 (chf.sideEnds (i, d)).2 = true ∨ (chf.reg k ≠ 0 ∧ chf.ara k = chf.ara i)) ∧
        portal (chf.reg k) (chf.sideEnds (i, d)).1 = true ∧ portal (chf.reg k) (chf.sideEnds (i, d)).2 = true := by
    intro i hi d hd hr
    have h1 := List.all_eq_true.1 (List.all_eq_true.1 h i (List.mem_range.2 hi)) d (List.mem_range.2 hd)
    rw [decide_eq_false (by simpa using hr), Bool.false_or] at h1
    cases hk : chf.nbr i d with
    | none => rw [hk] at h1; exact h1
    | some k =>
      rw [hk] at h1
      simpa [and_assoc] using h1
  refine ⟨?_, ?_⟩
  · rintro ⟨i, d⟩ a b ⟨hd, hr, hb, hor⟩ hrun
    obtain ⟨rfl, rfl⟩ := runs_sideEnds hwf hrun
    obtain ⟨hil, hreg⟩ := (regionOf_iff hwf).1 hr
    have h1 := hall i hil d hd hreg
    have hedge := ((boundarySide_iff hwf (s := (i, d)) hd).1 hb).1
    refine ⟨_, _, rfl, rfl, ?_⟩
    cases hk : chf.nbr i d with
    | none => rw [hk] at h1; exact h1
    | some k =>
      rw [hk] at h1
      have hl := (nbr_iff_link hwf hd).1 hk
      have hkl := (nbr_lt hwf hd hk).2
      rcases h1 with h1 | ⟨h1 | h1, _⟩
      · exact absurd (h1.trans hreg.symm) (hedge.2 k hk)
      · exact h1
      · rcases hor with hor | ⟨k', hk', hne⟩
        · exact absurd ((regionOf_iff hwf).1 (hor k hl)).2 h1.1
        · have := (nbr_iff_link hwf hd).2 hk'
          simp only at this
          rw [hk] at this; cases this
          rw [areas_get hwf hkl, areas_get hwf hil, h1.2] at hne
          exact absurd rfl hne
  · rintro w a ⟨⟨i, d⟩, b, ⟨hd, hr, hb, _, k, hl, hkr, _⟩, hrun⟩
    obtain ⟨hil, hreg⟩ := (regionOf_iff hwf).1 hr
    have h1 := hall i hil d hd hreg
    have hedge := ((boundarySide_iff hwf (s := (i, d)) hd).1 hb).1
    have hk := (nbr_iff_link hwf hd).2 hl
    simp only at hk
    rw [hk] at h1
    have hkr := ((regionOf_iff hwf).1 hkr).2
    rcases h1 with h1 | ⟨_, h1, h2⟩
    · exact absurd (h1.trans hreg.symm) (hedge.2 k hk)
    · rw [hkr] at h1 h2
      rcases hrun with hrun | hrun
      · exact ⟨_, (runs_sideEnds hwf hrun).1, h1⟩
      · exact ⟨_, (runs_sideEnds hwf hrun).2, h2⟩

theorem clear_of_check {chf : CompactHeightfield} (hwf : chf.WellFormed) {r : Nat} {wall : Nat × Nat → Nat × Nat → Bool}
    {portal : Nat → Nat × Nat → Bool} (h : endsCheck chf r wall portal = true) {d : Rat} {p : Point}
    (hw : ∀ a b, wall a b = true → ¬ NearSegment d p (cellCorner a) (cellCorner b))
    (hp : ∀ w a b c, portal w a = true → portal w b = true → portal w c = true → ¬ InPlaneTriangle p (cellCorner a) (cellCorner b) (cellCorner c)) :
    chf.Clear d r p := by
  obtain ⟨h1, h2⟩ := ends_of_check hwf h
  refine ⟨fun s a b hs hrun => ?_, fun w a b c ha hb hc => ?_⟩
  · obtain ⟨a', b', rfl, rfl, hab⟩ := h1 s a b hs hrun
    exact hw a' b' hab
  · obtain ⟨a', rfl, ha'⟩ := h2 w a ha
    obtain ⟨b', rfl, hb'⟩ := h2 w b hb
    obtain ⟨c', rfl, hc'⟩ := h2 w c hc
    exact hp w a' b' c' ha' hb' hc'

/-- A square of five by five cells in one region. -/
def squareChf : CompactHeightfield := (layers 5 5 1 (List.replicate 25 255)).oneRegion

theorem squareChf_clear {r : Rat} (hr : r ^ 2 < 25 / 4) : squareChf.Clear r 1 (5 / 2, 5 / 2) := by
  refine clear_of_check (wellFormed_of_check (by decide +kernel))
    (wall := fun a b => decide ((a.1 = 0 ∧ b.1 = 0) ∨ (a.1 = 5 ∧ b.1 = 5) ∨ (a.2 = 0 ∧ b.2 = 0) ∨ (a.2 = 5 ∧ b.2 = 5)))
    (portal := fun _ _ => false) (by decide +kernel) ?_ (by simp)
  rintro ⟨a, a'⟩ ⟨b, b'⟩ hw ⟨t, h0, h1, h⟩
  simp only [decide_eq_true_eq] at hw
  simp only [cellCorner] at h
  rcases hw with ⟨rfl, rfl⟩ | ⟨rfl, rfl⟩ | ⟨rfl, rfl⟩ | ⟨rfl, rfl⟩
  · have := sq_nonneg ((a' : Rat) + t * (b' - a') - 5 / 2)
    norm_num at h
    linarith
  · have := sq_nonneg ((a' : Rat) + t * (b' - a') - 5 / 2)
    norm_num at h
    linarith
  · have := sq_nonneg ((a : Rat) + t * (b - a) - 5 / 2)
    norm_num at h
    linarith
  · have := sq_nonneg ((a : Rat) + t * (b - a) - 5 / 2)
    norm_num at h
    linarith

/-- All hypotheses of `c86_cover_partial` hold for the point in the middle of the square, with `max_error` 1; the mesh is one polygon. -/
example : squareChf.WellFormed ∧ squareChf.SymmetricLinks ∧ (∀ s ∈ squareChf.spans, s.region < 65536) ∧ squareChf.spans.length ≤ 10000 ∧
    (∀ x z i s, squareChf.At x z i s → ProperRegion s.region → squareChf.borderSize ≤ x ∧ squareChf.borderSize ≤ z) ∧
    (∀ i k r, ProperRegion r → squareChf.RegionOf i r → squareChf.RegionOf k r → squareChf.areas[i]? = squareChf.areas[k]?) ∧
    (squareChf.buildContours (Tests.exact 1) 0 ⟨true, false⟩).map (fun s => (s.contours.map fun c => c.vertices.map (·.1.xz),
      decide (∀ c ∈ s.contours, c.vertices.all fun v => decide (v.2 &&& BORDER_VERTEX = 0)))) = .ok ([[(0, 0), (0, 5), (5, 5), (5, 0)]], true) ∧
    ((squareChf.buildContours (Tests.exact 1) 0 ⟨true, false⟩).bind fun s => s.intoPolygonMesh 10 6).map (fun o => (o.polys, o.regions)) =
      .ok ([[0, 1, 2, 3]], [1, 0]) ∧
    (∃ s, squareChf.At 2 2 12 s ∧ s.region = 1) ∧ ¬ squareChf.Isolated 12 ∧ squareChf.Clear (2 * 1) 1 (5 / 2, 5 / 2) := by
  have hwf : squareChf.WellFormed := wellFormed_of_check (by decide +kernel)
  refine ⟨hwf, symmetric_of_check hwf (by decide +kernel), by decide +kernel, by decide +kernel, fun _ _ _ _ _ _ => ⟨Nat.zero_le _, Nat.zero_le _⟩,
    ?_, by decide +kernel, by decide +kernel, ?_, ?_, squareChf_clear (by norm_num)⟩
  · intro i k r _ hi hk
    have h1 := ((regionOf_iff hwf).1 hi).1
    have h2 := ((regionOf_iff hwf).1 hk).1
    have : ∀ i < squareChf.spans.length, squareChf.areas[i]? = some 255 := by decide +kernel
    rw [this i h1, this k h2]
  · have hs : squareChf.spans[12]? = some { layerSpan 5 5 2 2 0 with region := 1 } := by decide +kernel
    have := at_spec hwf hs
    rw [show squareChf.xOf 12 = 2 by decide +kernel, show squareChf.zOf 12 = 2 by decide +kernel] at this
    exact ⟨_, this, rfl⟩
  · intro h
    have := ((boundarySide_iff hwf (s := (12, 0)) (by decide)).1 (h 0 (by decide))).1.2
    exact this 11 (by decide +kernel) (by decide +kernel)

/-- In the build of the flat square the region of two cells ends on each side at a border region; the centre of its first cell is clear of these ends. -/
theorem exChf_clear (r : Rat) : exChf.Clear r 5 (7 / 2, 7 / 2) := by
  refine clear_of_check (wellFormed_of_check (by decide +kernel)) (wall := fun _ _ => false)
    (portal := fun w a => decide ((w = 32769 ∧ a.1 = 3) ∨ (w = 32770 ∧ a.1 = 5) ∨ (w = 32771 ∧ a.2 = 3) ∨ (w = 32772 ∧ a.2 = 4))) (by decide +kernel) (by simp) ?_
  rintro w ⟨a, a'⟩ ⟨b, b'⟩ ⟨c, c'⟩ ha hb hc ⟨s, t, u, _, _, _, h1, hx, hz⟩
  simp only [decide_eq_true_eq] at ha hb hc
  simp only [cellCorner] at hx hz
  rcases ha with ⟨rfl, rfl⟩ | ⟨rfl, rfl⟩ | ⟨rfl, rfl⟩ | ⟨rfl, rfl⟩ <;> norm_num at hb hc <;> obtain rfl := hb <;> obtain rfl := hc
  · norm_num at hx; linarith
  · norm_num at hx; linarith
  · norm_num at hz; linarith
  · norm_num at hz; linarith

/-- All hypotheses of `c86_build_partial` hold for that point. -/
example : GoodBuild exEnv exBuilder exScene ∧ exEnv.tests = Tests.exact ∧ 3 ≤ exBuilder.vertsPerPoly ∧
    MeshStages exEnv exBuilder ⟨true, false⟩ exScene exCfg exM exFr exHf11 exChf exSet exPoly ∧
    exCfg.walkableClimb < exCfg.walkableHeight ∧ (∀ c ∈ exChf.cells, c.count ≤ 62) ∧
    (∀ r v, exChf.IsCircuit r v → (∃ s ∈ v, exChf.BoundarySide s) → v.length ≤ 40000) ∧ exSet.FewVertices ∧
    (∀ c ∈ exSet.contours, c.Simple) ∧ (∃ i s, exChf.At 3 3 i s ∧ s.region = 5 ∧ ¬ exChf.Isolated i) ∧
    exChf.Clear (2 * exBuilder.edgeMaxError) 5 (7 / 2, 7 / 2) := by
  have hwf : exChf.WellFormed := wellFormed_of_check (by decide +kernel)
  refine ⟨exBuild_good, rfl, by decide +kernel, ex_stages, by decide +kernel, by decide +kernel,
    fun r v hv _ => c61_small_fields exChf (by decide +kernel) r v hv, by unfold ContourSet.FewVertices; decide +kernel,
    by unfold Contour.Simple; decide +kernel, ?_, exChf_clear _⟩
  obtain ⟨i, hi, hr, hx, hz, hn⟩ : ∃ i, i < exChf.spans.length ∧ exChf.reg i = 5 ∧ exChf.xOf i = 3 ∧ exChf.zOf i = 3 ∧
      ∃ k, exChf.nbr i 2 = some k ∧ exChf.reg k = exChf.reg i :=
    ⟨14, by decide +kernel, by decide +kernel, by decide +kernel, by decide +kernel, 15, by decide +kernel, by decide +kernel⟩
  have hat := at_spec hwf (List.getElem?_eq_getElem hi)
  rw [hx, hz] at hat
  refine ⟨i, _, hat, by rw [← hr]; exact (reg_eq (List.getElem?_eq_getElem hi)).symm, fun h => ?_⟩
  obtain ⟨k, hk, he⟩ := hn
  exact ((boundarySide_iff hwf (s := (i, 2)) (show 2 < 4 by decide)).1 (h 2 (by decide))).1.2 k hk he

end Rerecast
