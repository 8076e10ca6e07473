import Verif.Lemmas.ContourRounded
import Verif.Spec.Rounding
import Verif.Props.C86_Cover
/-! C87: the tolerance of contours in single precision. -/
namespace Rerecast
open CompactHeightfield

/-- **C87 (one outline).** With every operation of the error tests rounded to `f32`, each raw vertex of an outline on a grid of at most 16777216
cells lies within `max_error`, with the rounding errors, of the simplified polygon if edges are not split, and within twice that otherwise,
except on a border with another region of the same area. -/
theorem c87_error_bound (e : Rat) (he : 0 ≤ e) (n : Nat) (hn : 0 < n) (hn' : n ≤ 2 ^ 24) (points : RawContour)
    (hg : ∀ p ∈ points, p.1.x ≤ n ∧ p.1.z ≤ n) (maxEdgeLen : Nat) (flags : ContourFlags) (out : RawContour)
    (hok : simplifyContour (Tests.f32 e) points maxEdgeLen flags = .ok out) (p : U16Vec3 × Nat) (hp : p ∈ points)
    (hportal : p.2 &&& REGION_MASK = 0 ∨ p.2 &&& AREA_BORDER ≠ 0) :
    WithinOfPolygon (2 * withRounding e n) p.1 out ∧
      (maxEdgeLen = 0 ∨ (flags.wallEdges = false ∧ flags.areaEdges = false) → WithinOfPolygon (withRounding e n) p.1 out) :=
  ⟨error_bound_split (keeps_f32 hn hn' he) points hg maxEdgeLen flags out hok p hp hportal,
    fun hns => error_bound (keeps_f32 hn hn' he) points hg maxEdgeLen flags hns out hok p hp hportal⟩

/-- Three vertices, the third at distance √13 from the first and farther from the others. -/
def slantedRaw : RawContour := [(⟨0, 0, 3⟩, 0), (⟨3, 0, 5⟩, 0), (⟨2, 0, 0⟩, 0)]

/-- The largest `f32` below √13. -/
def below13 : Rat := 7561389 / 2097152

/-- **C87 (the rounding errors are needed).** The square of this `max_error` rounds up to 13, so single precision accepts a deviation of √13, which is
more than `max_error`.  In exact arithmetic the vertex is kept. -/
theorem c87_exceeds : IsF32 below13 ∧ ∃ out p, simplifyContour (Tests.f32 below13) slantedRaw 0 ⟨true, false⟩ = .ok out ∧
    p ∈ slantedRaw ∧ p.2 &&& REGION_MASK = 0 ∧ ¬ WithinOfPolygon below13 p.1 out ∧
    (simplifyContour (Tests.exact below13) slantedRaw 0 ⟨true, false⟩).map List.length = .ok 3 := by
  refine ⟨⟨7561389, -21, by norm_num, by norm_num, by unfold below13; rw [pow2_eq]; norm_num⟩,
    [(⟨0, 0, 3⟩, 0), (⟨3, 0, 5⟩, 0)], (⟨2, 0, 0⟩, 0), by decide +kernel, by decide +kernel, by decide +kernel, ?_, by decide +kernel⟩
  rintro ⟨j, a, b, ha, hb, l, h0, h1, hd⟩
  have hj := (List.getElem?_eq_some_iff.1 ha).1
  simp at hj
  unfold below13 at hd
  match j, hj with
  | 0, _ => simp at ha hb; subst ha; subst hb; norm_num at hd; nlinarith
  | 1, _ => simp at ha hb; subst ha; subst hb; norm_num at hd; nlinarith

/-- The bound of `c87_error_bound` is used on it: the third vertex is dropped, and with a smaller `max_error` it is kept. -/
example : (∀ p ∈ slantedRaw, p.1.x ≤ 5 ∧ p.1.z ≤ 5) ∧ (∀ p ∈ slantedRaw, p.2 &&& REGION_MASK = 0) ∧
    (simplifyContour (Tests.f32 below13) slantedRaw 0 ⟨true, false⟩).map List.length = .ok 2 ∧
    (simplifyContour (Tests.f32 3) slantedRaw 0 ⟨true, false⟩).map List.length = .ok 3 ∧
    2 * withRounding below13 5 ≤ 2 * below13 + 1 / 100000 := by
  decide +kernel

theorem grid_of {chf : CompactHeightfield} (hwf : chf.WellFormed) {x z i : Nat} {s : CompactSpan} (h : chf.At x z i s) :
    0 < chf.extent ∧ chf.extent ≤ 2 ^ 24 := by
  have := h.1
  have := hwf.width_u16
  have := hwf.height_u16
  unfold CompactHeightfield.extent
  omega

/-- **C87 (contours, partial).** `c60_contours_partial` in single precision: every raw vertex stored with a contour lies within twice `max_error`, with the
rounding errors, of the contour's polygon, or once, if edges are not split.  Missing: as in `c60_contours_partial`. -/
theorem c87_contours_partial (chf : CompactHeightfield) (hwf : chf.WellFormed) (hsym : chf.SymmetricLinks)
    (hu : ∀ s ∈ chf.spans, s.region < 65536)
    (hshort : ∀ r v, chf.IsCircuit r v → (∃ s ∈ v, chf.BoundarySide s) → v.length ≤ 40000)
    (hin : ∀ x z i s, chf.At x z i s → ProperRegion s.region → chf.borderSize ≤ x ∧ chf.borderSize ≤ z)
    (hne : 0 < chf.width) (e : Rat) (he : 0 ≤ e) (maxEdgeLen : Nat) (bf : ContourFlags) (set : ContourSet)
    (hok : chf.buildContours (Tests.f32 e) maxEdgeLen bf = .ok set) (c : Contour) (hc : c ∈ set.contours) (p : U16Vec3 × Nat)
    (hp : p ∈ c.rawVertices) (hportal : p.2 &&& REGION_MASK = 0 ∨ p.2 &&& AREA_BORDER ≠ 0) :
    WithinOfPolygon (2 * withRounding e chf.extent) p.1 c.vertices ∧
      (maxEdgeLen = 0 ∨ (bf.wallEdges = false ∧ bf.areaEdges = false) → WithinOfPolygon (withRounding e chf.extent) p.1 c.vertices) :=
  have hl := hwf.width_u16
  have hl' := hwf.height_u16
  contours_error chf hwf hsym hu hshort hin _ chf.extent _ (keeps_f32 (by unfold extent; omega) (by unfold extent; omega) he)
    (Nat.le_max_left ..) (Nat.le_max_right ..) maxEdgeLen bf set hok c hc p hp hportal

/-- **C87 (cover, partial).** `c86_cover_partial` in single precision.  Missing: contours with double points, rounds of more than 40,000 steps,
isolated spans. -/
theorem c87_cover_partial (chf : CompactHeightfield) (hwf : chf.WellFormed) (hsym : chf.SymmetricLinks)
    (hu : ∀ s ∈ chf.spans, s.region < 65536)
    (hshort : ∀ r v, chf.IsCircuit r v → (∃ s ∈ v, chf.BoundarySide s) → v.length ≤ 40000)
    (hin : ∀ x z i s, chf.At x z i s → ProperRegion s.region → chf.borderSize ≤ x ∧ chf.borderSize ≤ z)
    (hua : ∀ i k r, ProperRegion r → chf.RegionOf i r → chf.RegionOf k r → chf.areas[i]? = chf.areas[k]?)
    (e : Rat) (he : 0 ≤ e) (maxEdgeLen : Nat) (bf : ContourFlags) (set : ContourSet) (hok : chf.buildContours (Tests.f32 e) maxEdgeLen bf = .ok set)
    (hsimple : ∀ c ∈ set.contours, c.Simple) (hb : set.NoBorderVertices ∨ set.FewVertices)
    (fuel nvp : Nat) (h3 : 3 ≤ nvp) (hn : nvp ≤ 65535) (out : PolygonNavmesh) (hr : set.intoPolygonMesh fuel nvp = .ok out)
    (x z i : Nat) (s : CompactSpan) (hat : chf.At x z i s) (hp : ProperRegion s.region) (hni : ¬ chf.Isolated i) (p : Point)
    (hx : (x : Rat) ≤ p.1 ∧ p.1 < (x : Rat) + 1) (hz : (z : Rat) ≤ p.2 ∧ p.2 < (z : Rat) + 1)
    (hclear : chf.Clear (2 * withRounding e chf.extent) s.region p) :
    ∃ j, out.regions[j]? = some s.region ∧ out.areas[j]? = chf.areas[i]? ∧ out.Over j (p.1 - chf.borderSize, p.2 - chf.borderSize) :=
  cover_of_tests chf hwf hsym hu hshort hin hua _ chf.extent _ (keeps_f32 (grid_of hwf hat).1 (grid_of hwf hat).2 he)
    (Nat.le_max_left ..) (Nat.le_max_right ..) maxEdgeLen bf set hok hsimple hb fuel nvp h3 hn out hr x z i s hat hp hni p hx hz hclear

/-- **C87 (outlines of a build, partial).** `c83_outlines_partial` with the error tests in single precision. -/
theorem c87_outlines_partial {F : Type} (env : BuildEnv F) (b : ConfigBuilder) (flags : ContourFlags) (scene : List Affector)
    (hgood : GoodBuild env b scene) (hf32 : env.tests = Tests.f32) (he : 0 ≤ b.edgeMaxError) (cfg : Config) (m : TriMesh ℚ) (fr : Frame)
    (hf : Heightfield) (chf : CompactHeightfield) (set : ContourSet) (poly : PolygonNavmesh)
    (st : MeshStages env b flags scene cfg m fr hf chf set poly)
    (hclimb : cfg.walkableClimb < cfg.walkableHeight) (hlay : ∀ c ∈ chf.cells, c.count ≤ 62)
    (hshort : ∀ r v, chf.IsCircuit r v → (∃ s ∈ v, chf.BoundarySide s) → v.length ≤ 40000) (c : Contour) (hc : c ∈ set.contours)
    (p : U16Vec3 × Nat) (hp : p ∈ c.rawVertices) (hportal : p.2 &&& REGION_MASK = 0 ∨ p.2 &&& AREA_BORDER ≠ 0) :
    WithinOfPolygon (2 * withRounding b.edgeMaxError chf.extent) p.1 c.vertices ∧
      (b.edgeMaxLen < b.cellSize ∨ (flags.wallEdges = false ∧ flags.areaEdges = false) →
        WithinOfPolygon (withRounding b.edgeMaxError chf.extent) p.1 c.vertices) := by
  obtain ⟨w, h, c0, hw, _, hM, hG, hwf, h0, _, hlike⟩ := hgood.stages st.toStages
  have hsym := symmetric_of hwf (hgood.spans cfg m fr hf st.config st.input st.solid) hclimb h0 hlike hlay
  have hcon := st.contours
  rw [hf32, (config_limits st.config).2.2.2] at hcon
  obtain ⟨k1, k2⟩ := c87_contours_partial chf hG.wf hsym hG.u16 hshort (fun x z i s hat hr => by
    have := (hG.safe x z i s hat hr).inside
    rw [hG.border]
    exact ⟨this.1, this.2.2.1⟩) (by rw [hG.width]; exact hw.1) b.edgeMaxError he cfg.maxEdgeLen flags set hcon c hc p hp hportal
  refine ⟨k1, fun h => k2 (h.imp_left fun h => ?_)⟩
  rw [(config_limits st.config).1]
  have hq : b.edgeMaxLen / b.cellSize < 1 := by rw [div_lt_one hgood.settings.cellSize]; exact h
  have : ⌊b.edgeMaxLen / b.cellSize⌋ < 1 := Int.floor_lt.2 (by exact_mod_cast hq)
  unfold satU16
  omega

/-- **C87 (cover of a build, partial).** `c86_build_partial` with the error tests in single precision. -/
theorem c87_build_partial {F : Type} (env : BuildEnv F) (b : ConfigBuilder) (flags : ContourFlags) (scene : List Affector)
    (hgood : GoodBuild env b scene) (hf32 : env.tests = Tests.f32) (he : 0 ≤ b.edgeMaxError) (h3 : 3 ≤ b.vertsPerPoly) (cfg : Config)
    (m : TriMesh ℚ) (fr : Frame) (hf : Heightfield) (chf : CompactHeightfield) (set : ContourSet) (poly : PolygonNavmesh)
    (st : MeshStages env b flags scene cfg m fr hf chf set poly) (hclimb : cfg.walkableClimb < cfg.walkableHeight)
    (hlay : ∀ c ∈ chf.cells, c.count ≤ 62)
    (hshort : ∀ r v, chf.IsCircuit r v → (∃ s ∈ v, chf.BoundarySide s) → v.length ≤ 40000) (hfew : set.FewVertices)
    (hsimple : ∀ c ∈ set.contours, c.Simple) (x z i : Nat) (s : CompactSpan) (hat : chf.At x z i s) (hp : ProperRegion s.region)
    (hni : ¬ chf.Isolated i) (p : Point) (hx : (x : Rat) ≤ p.1 ∧ p.1 < (x : Rat) + 1) (hz : (z : Rat) ≤ p.2 ∧ p.2 < (z : Rat) + 1)
    (hclear : chf.Clear (2 * withRounding b.edgeMaxError chf.extent) s.region p) :
    ∃ j, poly.regions[j]? = some s.region ∧ poly.areas[j]? = chf.areas[i]? ∧ poly.Over j (p.1 - cfg.borderSize, p.2 - cfg.borderSize) := by
  obtain ⟨w, h, c0, _, _, hM, hG, hwf, h0, _, hlike⟩ := hgood.stages st.toStages
  have hsym := symmetric_of hwf (hgood.spans cfg m fr hf st.config st.input st.solid) hclimb h0 hlike hlay
  have hcon := st.contours
  rw [hf32, (config_limits st.config).2.2.2] at hcon
  have hb : chf.borderSize = cfg.borderSize := hG.border
  rw [← hb]
  exact c87_cover_partial chf hG.wf hsym hG.u16 hshort (fun x z i s hat hr => by
    have := (hG.safe x z i s hat hr).inside
    rw [hG.border]
    exact ⟨this.1, this.2.2.1⟩) (regions_uniform hgood st.toStages) b.edgeMaxError he cfg.maxEdgeLen flags set hcon hsimple (Or.inr hfew)
    env.fuel _ (nvp_ge st.config h3) (nvp_le st.config) poly st.mesh x z i s hat hp hni p hx hz hclear

/-! ### Examples -/

/-- The square of five by five cells with `max_error` 1: the hypotheses of `c87_cover_partial` that mention the tests; the others are as in
`C86_Cover`. -/
example : (squareChf.buildContours (Tests.f32 1) 0 ⟨true, false⟩).map (fun s => (s.contours.map fun c => c.vertices.map (·.1.xz),
      decide (∀ c ∈ s.contours, c.vertices.all fun v => decide (v.2 &&& BORDER_VERTEX = 0)))) = .ok ([[(0, 0), (0, 5), (5, 5), (5, 0)]], true) ∧
    squareChf.extent = 5 ∧ squareChf.Clear (2 * withRounding 1 5) 1 (5 / 2, 5 / 2) :=
  ⟨by decide +kernel, rfl, squareChf_clear (by unfold withRounding; norm_num)⟩

/-- The small build with the error tests in single precision. -/
def exEnvF32 : BuildEnv ℚ := { exEnv with tests := Tests.f32 }

set_option maxRecDepth 100000 in
theorem ex_contours_f32 : exChf.buildContours (exEnvF32.tests exCfg.maxSimplificationError) exCfg.maxEdgeLen ⟨true, false⟩ = .ok exSet := by
  decide +kernel

/-- The hypotheses of the theorems on builds that mention the environment hold for it; the others are as in `C83_Settings` and `C86_Cover`. -/
example : GoodBuild exEnvF32 exBuilder exScene ∧ exEnvF32.tests = Tests.f32 ∧ 0 ≤ exBuilder.edgeMaxError ∧
    MeshStages exEnvF32 exBuilder ⟨true, false⟩ exScene exCfg exM exFr exHf11 exChf exSet exPoly ∧
    exChf.Clear (2 * withRounding exBuilder.edgeMaxError exChf.extent) 5 (7 / 2, 7 / 2) :=
  ⟨⟨exBuild_good.settings, exBuild_good.proper, exBuild_good.fits, exBuild_good.radius, exBuild_good.spans⟩, rfl, by decide +kernel,
    ⟨⟨ex_config, ex_input, ex_solid, ex_compact⟩, ex_contours_f32, ex_mesh⟩, exChf_clear _⟩

end Rerecast
