import Verif.Lemmas.PipelineIslands
import Verif.Props.C82_Boundary
import Verif.Props.C75_C79_Pipeline
/-! C83: what the settings for regions, outlines and polygons do in a whole build. -/
namespace Rerecast
open CompactHeightfield

theorem config_limits {b : ConfigBuilder} {cfg : Config} (h : b.build = .ok cfg) : cfg.maxEdgeLen = satU16 (b.edgeMaxLen / b.cellSize) ∧
    cfg.minRegionArea = satU16 (b.regionMinSize * b.regionMinSize) ∧ cfg.maxVerticesPerPolygon = satU16 b.vertsPerPoly ∧
    cfg.maxSimplificationError = b.edgeMaxError := by
  unfold ConfigBuilder.build at h
  obtain ⟨_, _, h⟩ := bind_inv h
  obtain ⟨_, _, h⟩ := bind_inv h
  obtain ⟨_, _, h⟩ := bind_inv h
  cases h
  exact ⟨rfl, rfl, rfl, rfl⟩

theorem satU16_floor_le {q : ℚ} (h : 0 ≤ q) : (satU16 q : ℚ) ≤ q := by
  unfold satU16
  have h1 : ((⌊q⌋.toNat : ℤ) : ℚ) = (⌊q⌋ : ℚ) := by
    rw [Int.toNat_of_nonneg (Int.floor_nonneg.2 h)]
  have h2 : ((min ⌊q⌋.toNat 65535 : Nat) : ℚ) ≤ ((⌊q⌋.toNat : ℤ) : ℚ) := by
    rw [Int.cast_natCast]
    exact_mod_cast Nat.min_le_left _ _
  exact h2.trans (h1.le.trans (Int.floor_le q))

theorem satU16_pos {q : ℚ} (h : 1 ≤ q) : 0 < satU16 q := by
  unfold satU16
  have : (1 : ℤ) ≤ ⌊q⌋ := Int.le_floor.2 (by exact_mod_cast h)
  omega

theorem satU16_gt {q : ℚ} (h : q < 65536) : q < satU16 q + 1 := by
  unfold satU16
  have h1 : ⌊q⌋ < 65536 := Int.floor_lt.2 (by exact_mod_cast h)
  have h2 : (⌊q⌋ : ℚ) ≤ (min ⌊q⌋.toNat 65535 : Nat) := by
    have : ⌊q⌋ ≤ (min ⌊q⌋.toNat 65535 : Nat) := by omega
    exact_mod_cast this
  have := Int.lt_floor_add_one q
  linarith

/-- **C83 (polygons, partial).** Every polygon of a build has at least three and at most `verts_per_poly` corners.  Missing: contours with 65535 or
more vertices. -/
theorem c83_polygon_sizes_partial {F : Type} (env : BuildEnv F) (b : ConfigBuilder) (flags : ContourFlags) (scene : List Affector)
    (h3 : 3 ≤ b.vertsPerPoly) (cfg : Config) (m : TriMesh ℚ) (fr : Frame) (hf : Heightfield)
    (chf : CompactHeightfield) (set : ContourSet) (poly : PolygonNavmesh) (st : MeshStages env b flags scene cfg m fr hf chf set poly)
    (hfew : set.FewVertices) : ∀ p ∈ poly.polys, 3 ≤ p.length ∧ (p.length : ℚ) ≤ b.vertsPerPoly := by
  intro p hp
  obtain ⟨_, _, _, _, _, _, h⟩ := c49_tables_partial set env.fuel _ (nvp_ge st.config h3) (nvp_le st.config) (Or.inr hfew) poly st.mesh
  obtain ⟨k1, k2, _⟩ := h p hp
  refine ⟨k1, le_trans (by exact_mod_cast k2) (?_ : (cfg.maxVerticesPerPolygon : ℚ) ≤ b.vertsPerPoly)⟩
  rw [(config_limits st.config).2.2.1]
  exact satU16_floor_le (by linarith)

/-- **C83 (edges, partial).** Along walls the outer sides of the polygons of a build are no longer than `edge_max_len`: a side that is not shared with
another polygon is an edge of a contour, and if no region is on its other side it is no longer than `edge_max_len` in the world.  Missing: a limit
below the cell size (which counts as no limit), contours with double points, and the guards of `c76_polygons_partial`. -/
theorem c83_edges_partial {F : Type} (env : BuildEnv F) (b : ConfigBuilder) (flags : ContourFlags) (scene : List Affector)
    (hgood : GoodBuild env b scene) (h3 : 3 ≤ b.vertsPerPoly) (cfg : Config) (m : TriMesh ℚ) (fr : Frame) (hf : Heightfield)
    (chf : CompactHeightfield) (set : ContourSet) (poly : PolygonNavmesh) (st : MeshStages env b flags scene cfg m fr hf chf set poly)
    (hclimb : cfg.walkableClimb < cfg.walkableHeight) (hlay : ∀ c ∈ chf.cells, c.count ≤ 62)
    (hshort : ∀ r v, chf.IsCircuit r v → (∃ s ∈ v, chf.BoundarySide s) → v.length ≤ 40000) (hfew : set.FewVertices)
    (hsimple : ∀ c ∈ set.contours, c.Simple) (hlen : b.cellSize ≤ b.edgeMaxLen) (i j u v : Nat)
    (hs : poly.side i j = some (u, v)) (hopen : ∀ k l, poly.side k l ≠ some (v, u)) :
    ∃ c ∈ set.contours, ∃ k a a', c.vertices[k]? = some a ∧ c.vertices[(k + 1) % c.vertices.length]? = some a' ∧
      Near (pos poly.vertices u) a.1 ∧ Near (pos poly.vertices v) a'.1 ∧ poly.regions[i]? = some c.region ∧
      (Splittable flags a.2 → (((pos poly.vertices v).x - (pos poly.vertices u).x) * b.cellSize) ^ 2 +
        (((pos poly.vertices v).z - (pos poly.vertices u).z) * b.cellSize) ^ 2 ≤ b.edgeMaxLen ^ 2) := by
  obtain ⟨w, h, c0, _, _, hM, hG, hwf, h0, _, hlike⟩ := hgood.stages st.toStages
  have hsym := symmetric_of hwf (hgood.spans cfg m fr hf st.config st.input st.solid) hclimb h0 hlike hlay
  obtain ⟨c, hc, k, a, a', ha, ha', n1, n2, hr, _⟩ := c82_open_sides set env.fuel _ (nvp_ge st.config h3) (nvp_le st.config) (Or.inr hfew) poly st.mesh
    hsimple i j u v hs hopen
  refine ⟨c, hc, k, a, a', ha, ha', n1, n2, hr, fun hsp => ?_⟩
  have hcs := hgood.settings.cellSize
  have hq : 1 ≤ b.edgeMaxLen / b.cellSize := by rw [le_div_iff₀ hcs]; linarith
  have hmx := (config_limits st.config).1
  have hE := c80_contours_partial chf hG.wf hsym hG.u16 hshort _ _ (by rw [hmx]; exact satU16_pos hq) flags set st.contours c hc k a a' ha ha' hsp
  unfold EdgeAtMost at hE
  rw [n1.1, n1.2.1, n2.1, n2.2.1]
  have hE' : ((a'.1.x : ℚ) - a.1.x) ^ 2 + ((a'.1.z : ℚ) - a.1.z) ^ 2 ≤ (cfg.maxEdgeLen : ℚ) ^ 2 := by exact_mod_cast hE
  have hm : (cfg.maxEdgeLen : ℚ) * b.cellSize ≤ b.edgeMaxLen := by
    rw [← le_div_iff₀ hcs, hmx]
    exact satU16_floor_le (by linarith)
  have hm2 : ((cfg.maxEdgeLen : ℚ) * b.cellSize) ^ 2 ≤ b.edgeMaxLen ^ 2 := by
    apply pow_le_pow_left₀ (by positivity) hm
  refine le_trans ?_ hm2
  rw [mul_pow, mul_pow, mul_pow, ← add_mul]
  exact mul_le_mul_of_nonneg_right hE' (by positivity)

/-- **C83 (outlines, partial).** In exact arithmetic, the outlines of a build deviate from the cells by at most twice `edge_max_error` cells (once, if
edges are not split), except between regions of the same area.  Missing: the guards of `c76_polygons_partial`. -/
theorem c83_outlines_partial {F : Type} (env : BuildEnv F) (b : ConfigBuilder) (flags : ContourFlags) (scene : List Affector)
    (hgood : GoodBuild env b scene) (hexact : env.tests = Tests.exact) (cfg : Config) (m : TriMesh ℚ) (fr : Frame) (hf : Heightfield)
    (chf : CompactHeightfield) (set : ContourSet) (poly : PolygonNavmesh) (st : MeshStages env b flags scene cfg m fr hf chf set poly)
    (hclimb : cfg.walkableClimb < cfg.walkableHeight) (hlay : ∀ c ∈ chf.cells, c.count ≤ 62)
    (hshort : ∀ r v, chf.IsCircuit r v → (∃ s ∈ v, chf.BoundarySide s) → v.length ≤ 40000) (c : Contour) (hc : c ∈ set.contours)
    (p : U16Vec3 × Nat) (hp : p ∈ c.rawVertices) (hportal : p.2 &&& REGION_MASK = 0 ∨ p.2 &&& AREA_BORDER ≠ 0) :
    WithinOfPolygon (2 * b.edgeMaxError) p.1 c.vertices ∧
      (b.edgeMaxLen < b.cellSize ∨ (flags.wallEdges = false ∧ flags.areaEdges = false) → WithinOfPolygon b.edgeMaxError p.1 c.vertices) := by
  obtain ⟨w, h, c0, _, _, hM, hG, hwf, h0, _, hlike⟩ := hgood.stages st.toStages
  have hsym := symmetric_of hwf (hgood.spans cfg m fr hf st.config st.input st.solid) hclimb h0 hlike hlay
  have hcon := st.contours
  rw [hexact, (config_limits st.config).2.2.2] at hcon
  obtain ⟨k1, k2⟩ := c60_contours_partial chf hG.wf hsym hG.u16 hshort (fun x z i s hat hr => by
    have := (hG.safe x z i s hat hr).inside
    rw [hG.border]
    exact ⟨this.1, this.2.2.1⟩) b.edgeMaxError cfg.maxEdgeLen flags set hcon c hc p hp hportal
  refine ⟨k1, fun h => k2 (h.imp_left fun h => ?_)⟩
  rw [(config_limits st.config).1]
  have hq : b.edgeMaxLen / b.cellSize < 1 := by rw [div_lt_one hgood.settings.cellSize]; exact h
  have : ⌊b.edgeMaxLen / b.cellSize⌋ < 1 := Int.floor_lt.2 (by exact_mod_cast hq)
  unfold satU16
  omega

/-- **C83 (islands, partial).** Every vertex of a built navmesh marks a safe place that is not on a small island: the roomy places to which the agent
can walk over roomy places from there number at least `region_min_size` squared (rounded down, at most 65535), or some of them are in the
margin of the grid.  Missing: the guards of `c76_vertices_partial` and more than 32768 regions. -/
theorem c83_islands_partial {F : Type} (env : BuildEnv F) (b : ConfigBuilder) (flags : ContourFlags) (scene : List Affector)
    (hgood : GoodBuild env b scene) (h3 : 3 ≤ b.vertsPerPoly) (cfg : Config) (m : TriMesh ℚ) (fr : Frame) (hf : Heightfield)
    (chf : CompactHeightfield) (set : ContourSet) (poly : PolygonNavmesh) (st : MeshStages env b flags scene cfg m fr hf chf set poly)
    (hids : FewRegions cfg hf) :
    ∃ W : World, W.Models env b scene ∧ ∀ v ∈ poly.vertices, ∃ p, W.Safe p ∧ W.Marks p v ∧
      ∀ L : List Spot, (∀ q, W.RoomyWalk p q → q ∈ L) →
        (b.regionMinSize * b.regionMinSize < 65536 → b.regionMinSize * b.regionMinSize < L.length + 1) ∨ ∃ q, W.RoomyWalk p q ∧ W.InMargin q := by
  obtain ⟨w, h, c0, hw, hh, hM, hG, hwf, h0, hwf0, hlike⟩ := hgood.stages st.toStages
  refine ⟨_, hM, fun v hv => ?_⟩
  obtain ⟨c, hc, hcv⟩ := (c45_mesh set env.fuel cfg.maxVerticesPerPolygon (nvp_ge st.config h3) poly st.mesh).2 v hv
  obtain ⟨x, z, i, s, hat, hp, hmk⟩ := contour_marks_at hG st.contours hc hcv
  refine ⟨⟨x, z, s.y⟩, hG.safe x z i s hat hp, hmk, fun L hL => ?_⟩
  have hsm := hgood.spans cfg m fr hf st.config st.input st.solid
  rcases island_of hw.2 hwf hsm h0 hwf0 (by rw [← hlike.width]; exact hG.width) (by rw [← hlike.height]; exact hG.height)
    (hlike.symm.inWorld hG.inWorld) (radius_le hgood.settings st.config hgood.radius) st.compact hids hat hp L hL with hl | hl
  · refine Or.inl fun hlt => ?_
    rw [(config_limits st.config).2.1] at hl
    have h1 := satU16_gt hlt
    have h2 : ((satU16 (b.regionMinSize * b.regionMinSize) : Nat) : ℚ) ≤ (L.length : ℚ) := by exact_mod_cast hl
    linarith
  · exact Or.inr hl

set_option maxRecDepth 100000 in
theorem ex_regions : FewRegions exCfg exHf11 := by
  intro c0 c1 c2 reg next h0 h1 h2 h3
  have h : ((do
      let c0 ← exHf11.intoCompact exCfg.walkableHeight exCfg.walkableClimb
      let c1 ← c0.erodeWalkableArea exCfg.walkableRadius
      let c2 ← c1.buildDistanceField
      let (_, next) ← c2.labelRegions exCfg.borderSize
      pure next : Res Nat) = .ok 6) := by decide +kernel
  rw [h0, bind_ok, h1, bind_ok, h2, bind_ok, h3, bind_ok] at h
  cases h
  omega

/-- The guards of the theorems above hold for a build of a flat square; its mesh is one polygon with four sides, all of them open. -/
example : GoodBuild exEnv exBuilder exScene ∧ exEnv.tests = Tests.exact ∧ 3 ≤ exBuilder.vertsPerPoly ∧ exBuilder.cellSize ≤ exBuilder.edgeMaxLen ∧
    MeshStages exEnv exBuilder ⟨true, false⟩ exScene exCfg exM exFr exHf11 exChf exSet exPoly ∧ FewRegions exCfg exHf11 ∧
    exCfg.walkableClimb < exCfg.walkableHeight ∧ (∀ c ∈ exChf.cells, c.count ≤ 62) ∧
    (∀ r v, exChf.IsCircuit r v → (∃ s ∈ v, exChf.BoundarySide s) → v.length ≤ 40000) ∧ exSet.FewVertices ∧
    (∀ c ∈ exSet.contours, c.Simple) ∧ exPoly.side 0 0 = some (0, 1) ∧ (∀ k l, exPoly.side k l ≠ some (1, 0)) ∧
    (∃ c ∈ exSet.contours, (⟨2, 1, 1⟩, 32772) ∈ c.rawVertices) :=
  ⟨exBuild_good, rfl, by decide +kernel, by decide +kernel, ex_stages, ex_regions, by decide +kernel, by decide +kernel,
    fun r v hv _ => c61_small_fields exChf (by decide +kernel) r v hv, by unfold ContourSet.FewVertices; decide +kernel,
    by unfold Contour.Simple; decide +kernel, by decide +kernel, fun k l h => by
      unfold PolygonNavmesh.side at h
      rw [show exPoly.polys = [[0, 1, 2, 3]] by decide +kernel] at h
      obtain ⟨p, hp, h⟩ := Option.bind_eq_some_iff.1 h
      have hp := List.mem_of_getElem? hp
      have h := List.mem_of_getElem? h
      simp only [List.mem_singleton] at hp
      subst hp
      exact absurd h (by decide), by decide +kernel⟩

end Rerecast
