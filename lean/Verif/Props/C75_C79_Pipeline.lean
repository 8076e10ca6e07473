import Verif.Lemmas.PipelineExample
/-!
C75-C79: whole builds, from the scene to the navmesh.

The vocabulary is in `Spec/Pipeline.lean`: the triangles of a scene, and where in it an agent can stand and walk.
-/
namespace Rerecast
open Relation CompactHeightfield

/-! ### C75 -/

/-- **C75.** The input of a build is the scene: for a proper scene with at least one vertex, the triangles handed to the rasterizer are
exactly the triangles of the readable meshes in world coordinates, walkable exactly if the slope test accepts them, and the box is the
smallest one around all vertices; without vertices the build is an error. -/
theorem c75_input {F : Type} (env : BuildEnv F) (cfg : Config) (scene : List Affector) (hg : GoodScene env.lo env.hi scene) :
    ((¬ ∃ v, SceneVertex scene v) → buildInput env cfg scene = .error .err) ∧
    ((∃ v, SceneVertex scene v) → ∃ m fr, buildInput env cfg scene = .ok (m, fr) ∧ InputOf env cfg scene m fr) :=
  buildInput_spec env cfg hg

/-- **C75 (order).** The meshes come one after the other, and are skipped if they cannot be read. -/
theorem c75_skipped {F : Type} (env : BuildEnv F) (cfg : Config) (before after : List Affector) (a : Affector)
    (ha : ¬ ∃ vertices indices, a.Readable vertices indices) :
    buildInput env cfg (before ++ a :: after) = buildInput env cfg (before ++ after) := by
  have hn : a.mesh.bind TriMesh.fromMesh = none := by
    cases hm : a.mesh with
    | none => rfl
    | some mesh =>
      simp only [Option.bind_some]
      unfold TriMesh.fromMesh
      split
      · rfl
      · rename_i ht
        split
        · rename_i vs is hv hi
          split
          · rfl
          · rename_i h3
            exact absurd ⟨vs, is, mesh, hm, by simpa using ht, hv, hi, by omega⟩ ha
        · rfl
  unfold buildInput collectAffectors
  rw [List.foldlM_append, List.foldlM_append]
  congr 1
  congr 1
  funext m
  rw [List.foldlM_cons]
  unfold addAffector
  rw [hn]
  rfl

/-- Two meshes of one triangle each.  The last index of the first one is out of range. -/
def strayScene : List Affector :=
  [⟨some ⟨true, some [⟨0, 0, 0⟩, ⟨0, 0, 1⟩], some [0, 1, 2]⟩, id⟩, ⟨some ⟨true, some [⟨5, 0, 5⟩, ⟨5, 0, 6⟩, ⟨6, 0, 5⟩], some [0, 1, 2]⟩, id⟩]

/-- **C75 (guard).** The guard on indices is needed: an index beyond the vertices of its mesh is not noticed if another mesh follows; it is
taken for a vertex of that mesh, and a triangle that is in no mesh is handed to the rasterizer. -/
theorem c75_stray_index : ∃ (env : BuildEnv ℚ) (scene : List Affector) (m : TriMesh ℚ) (fr : Frame) (k : Nat) (t : Triangle),
    buildInput env exCfg scene = .ok (m, fr) ∧ m.corners k = some t ∧ ¬ SceneTriangle scene t := by
  refine ⟨exEnv, strayScene, ⟨[⟨0, 0, 0⟩, ⟨0, 0, 1⟩, ⟨5, 0, 5⟩, ⟨5, 0, 6⟩, ⟨6, 0, 5⟩], [(0, 1, 2), (2, 3, 4)], [255, 255]⟩,
    ⟨⟨⟨0, 0, 0⟩, ⟨6, 0, 6⟩⟩, 1, 1⟩, 0, (⟨0, 0, 0⟩, ⟨0, 0, 1⟩, ⟨5, 0, 5⟩), by decide +kernel, by decide +kernel, ?_⟩
  rintro ⟨a, ha, vs, is, ⟨mesh, h1, _, h3, h4, _⟩, n, i, j, k, p, q, r, e1, e2, e3, f1, f2, f3, e⟩
  simp only [strayScene, List.mem_cons, List.not_mem_nil, or_false] at ha
  rcases ha with rfl | rfl
  · cases h1; cases h3; cases h4
    rcases n with _ | n
    · simp at e3
      subst e3
      simp at f3
    · rw [List.getElem?_eq_none (by simp only [List.length_cons, List.length_nil]; omega)] at e1
      cases e1
  · cases h1; cases h3; cases h4
    rcases n with _ | n
    · simp at e1
      subst e1
      simp at f1
      subst f1
      have := congrArg (fun t : Triangle => t.1.x) e
      simp at this
    · rw [List.getElem?_eq_none (by simp only [List.length_cons, List.length_nil]; omega)] at e1
      cases e1

theorem exScene_vertex {v : V3 ℚ} (h : SceneVertex exScene v) : ∃ k < 4, v ∈ exStrip k := by
  obtain ⟨a, ha, vs, is, ⟨mesh, h1, _, h3, h4, _⟩, p, hp, rfl⟩ := h
  obtain ⟨k, hk, rfl⟩ := List.mem_map.1 ha
  cases h1; cases h3; cases h4
  exact ⟨k, List.mem_range.1 hk, hp⟩

theorem exStrip_box {k : Nat} (hk : k < 4) {v : V3 ℚ} (hv : v ∈ exStrip k) : 0 ≤ v.x ∧ v.x ≤ 8 ∧ v.y = 0 ∧ 0 ≤ v.z ∧ v.z ≤ 7 := by
  revert v
  interval_cases k <;> decide +kernel

/-- The four strips are a proper scene. -/
theorem exScene_good : GoodScene exEnv.lo exEnv.hi exScene := by
  refine ⟨?_, ?_, by decide +kernel⟩
  · rintro a ha vs is ⟨mesh, h1, _, h3, h4, _⟩
    obtain ⟨k, hk, rfl⟩ := List.mem_map.1 ha
    cases h1; cases h3; cases h4
    simp [exStrip]
  · intro v hv
    obtain ⟨k, hk, hv⟩ := exScene_vertex hv
    obtain ⟨h1, h2, h3, h4, h5⟩ := exStrip_box hk hv
    simp only [exEnv]
    refine ⟨?_, ?_, ?_, ?_, ?_, ?_⟩ <;> linarith

example : GoodScene exEnv.lo exEnv.hi exScene ∧ (∃ v, SceneVertex exScene v) := by
  refine ⟨exScene_good, ⟨0, 0, 0⟩, _, List.mem_map_of_mem (List.mem_range.2 (by decide : 0 < 4)), _, _, ⟨_, rfl, rfl, rfl, rfl, by decide⟩, ?_⟩
  exact ⟨⟨0, 0, 0⟩, by decide +kernel, rfl⟩

/-! ### C76 -/

theorem radius_le {b : ConfigBuilder} (hb : b.Sensible) {cfg : Config} (h : b.build = .ok cfg) (hr : b.agentRadius ≤ 127 * b.cellSize) :
    cfg.walkableRadius ≤ 127 := by
  have h1 := (c53_rounding b cfg hb h).1.2
  have h2 : (cfg.walkableRadius : ℚ) * b.cellSize < 128 * b.cellSize := by linarith
  have h3 := lt_of_mul_lt_mul_right h2 (le_of_lt hb.cellSize)
  have : cfg.walkableRadius < 128 := by exact_mod_cast h3
  omega

theorem GoodBuild.stages {F : Type} {env : BuildEnv F} {b : ConfigBuilder} {scene : List Affector} (h : GoodBuild env b scene)
    {cfg : Config} {m : TriMesh ℚ} {fr : Frame} {hf : Heightfield} {chf : CompactHeightfield} (st : Stages env b scene cfg m fr hf chf) :
    ∃ w h c0, (1 ≤ w ∧ w ≤ 32767) ∧ (1 ≤ h ∧ h ≤ 32767) ∧ (World.ofBuild env cfg scene fr w h).Models env b scene ∧
      GoodField (World.ofBuild env cfg scene fr w h) chf ∧
      hf.WellFormed ∧ hf.intoCompact cfg.walkableHeight cfg.walkableClimb = .ok c0 ∧ c0.WellFormed ∧ Like c0 chf :=
  stages_spec h.settings h.proper h.fits st (radius_le h.settings st.config h.radius) (h.spans cfg m fr hf st.config st.input st.solid)

/-- A build goes through its stages. -/
theorem build_stages {F : Type} {env : BuildEnv F} {b : ConfigBuilder} {flags : ContourFlags} {scene : List Affector} {poly : PolygonNavmesh}
    {detail : DetailNavmesh F} (h : buildNavmesh env b flags scene = .ok (poly, detail)) :
    ∃ cfg m fr hf chf set, MeshStages env b flags scene cfg m fr hf chf set poly ∧
      detailNavmesh env.ops env.alloc (detailConfig env cfg fr set.borderSize) poly chf = .ok detail := by
  unfold buildNavmesh at h
  obtain ⟨cfg, h1, h⟩ := bind_inv h
  obtain ⟨⟨m, fr⟩, h2, h⟩ := bind_inv h
  obtain ⟨hf, h3, h⟩ := bind_inv h
  obtain ⟨chf, h4, h⟩ := bind_inv h
  unfold buildMeshes at h
  obtain ⟨set, h5, h⟩ := bind_inv h
  obtain ⟨poly', h6, h⟩ := bind_inv h
  obtain ⟨dm, h7, h⟩ := bind_inv h
  cases h
  exact ⟨cfg, m, fr, hf, chf, set, ⟨⟨h1, h2, h3, h4⟩, h5, h6⟩, h7⟩

/-- **C76 (regions, partial).** Every span to which a build gives a region is a place where the agent can stand, with ground of acceptable
slope and room above it, out of the border, and from which it can walk to every cell within its radius; and within a region the agent can
walk from any span to any other over such places.  Missing: radius above 127 cells and scenes beyond the range of the grid. -/
theorem c76_regions_partial {F : Type} (env : BuildEnv F) (b : ConfigBuilder) (scene : List Affector) (hgood : GoodBuild env b scene)
    (cfg : Config) (m : TriMesh ℚ) (fr : Frame) (hf : Heightfield) (chf : CompactHeightfield) (st : Stages env b scene cfg m fr hf chf) :
    ∃ W : World, W.Models env b scene ∧
      (∀ x z i s, chf.At x z i s → ProperRegion s.region → W.Safe ⟨x, z, s.y⟩) ∧
      ∀ x z i s x' z' i' s', chf.At x z i s → chf.At x' z' i' s' → ProperRegion s.region → s'.region = s.region →
        W.SafeWalk ⟨x, z, s.y⟩ ⟨x', z', s'.y⟩ := by
  obtain ⟨w, h, c0, _, _, hM, hG, _⟩ := hgood.stages st
  exact ⟨_, hM, hG.safe, hG.joined⟩

/-- **C76 (vertices, partial).** Every vertex of a navmesh is at a corner of the cell of a place where the agent can stand, out of the border and
with all cells within its radius in reach; its height is that of this place or of a higher floor at the same corner to which the agent can
walk.  Missing: radius above 127 cells and scenes beyond the range of the grid. -/
theorem c76_vertices_partial {F : Type} (env : BuildEnv F) (b : ConfigBuilder) (flags : ContourFlags) (scene : List Affector)
    (hgood : GoodBuild env b scene) (h3 : 3 ≤ b.vertsPerPoly) (poly : PolygonNavmesh) (detail : DetailNavmesh F)
    (hok : buildNavmesh env b flags scene = .ok (poly, detail)) :
    ∃ W : World, W.Models env b scene ∧ ∀ v ∈ poly.vertices, ∃ p, W.Safe p ∧ W.Marks p v := by
  obtain ⟨cfg, m, fr, hf, chf, set, st, _⟩ := build_stages hok
  obtain ⟨w, h, c0, _, _, hM, hG, _⟩ := hgood.stages st.toStages
  refine ⟨_, hM, fun v hv => ?_⟩
  obtain ⟨c, hc, hcv⟩ := (c45_mesh set env.fuel cfg.maxVerticesPerPolygon (nvp_ge st.config h3) poly st.mesh).2 v hv
  exact contour_marks hG st.contours hc hcv

/-- **C76 (polygons, partial).** For every polygon there are places where the agent can stand, one for each corner and marked by it (up to 2
voxels of height), between any two of which it can walk over safe places only.  Missing, besides the guards of `c76_vertices_partial`: climb
not below the agent's height, more than 62 floors in a cell, rounds of more than 40,000 steps along a wall, and meshes of 65535 or more
vertices. -/
theorem c76_polygons_partial {F : Type} (env : BuildEnv F) (b : ConfigBuilder) (flags : ContourFlags) (scene : List Affector)
    (hgood : GoodBuild env b scene) (h3 : 3 ≤ b.vertsPerPoly) (cfg : Config) (m : TriMesh ℚ) (fr : Frame) (hf : Heightfield)
    (chf : CompactHeightfield) (set : ContourSet) (poly : PolygonNavmesh) (st : MeshStages env b flags scene cfg m fr hf chf set poly)
    (hclimb : cfg.walkableClimb < cfg.walkableHeight) (hlay : ∀ c ∈ chf.cells, c.count ≤ 62)
    (hshort : ∀ r v, chf.IsCircuit r v → (∃ s ∈ v, chf.BoundarySide s) → v.length ≤ 40000) (hfew : set.FewVertices) :
    ∃ W : World, W.Models env b scene ∧ ∀ q ∈ poly.polys, ∃ spots : List Spot,
      List.Forall₂ (fun i p => ∃ v v', poly.vertices[i]? = some v ∧ Near v v' ∧ W.Safe p ∧ W.Marks p v') q spots ∧
      ∀ p ∈ spots, ∀ p' ∈ spots, W.SafeWalk p p' := by
  obtain ⟨w, h, c0, _, _, hM, hG, hwf, h0, _, hlike⟩ := hgood.stages st.toStages
  have hsym := symmetric_of hwf (hgood.spans cfg m fr hf st.config st.input st.solid) hclimb h0 hlike hlay
  exact ⟨_, hM, fun q hq => polygon_connected hG hsym hshort st.contours (nvp_ge st.config h3) (nvp_le st.config) (Or.inr hfew) st.mesh hq⟩

theorem exBuild_good : GoodBuild exEnv exBuilder exScene := by
  refine ⟨⟨by decide +kernel, by decide +kernel, by decide +kernel, by decide +kernel, by decide +kernel⟩, exScene_good, ?_, by decide +kernel, ?_⟩
  · intro u v hu hv
    obtain ⟨k, hk, hu⟩ := exScene_vertex hu
    obtain ⟨l, hl, hv⟩ := exScene_vertex hv
    obtain ⟨a1, a2, a3, a4, a5⟩ := exStrip_box hk hu
    obtain ⟨b1, b2, b3, b4, b5⟩ := exStrip_box hl hv
    simp only [exBuilder]
    refine ⟨?_, ?_, ?_⟩ <;> linarith
  · intro cfg m fr hf h1 h2 h3
    rw [ex_config] at h1; cases h1
    rw [ex_input] at h2; cases h2
    rw [ex_solid] at h3; cases h3
    decide +kernel

/-- All hypotheses of the theorems on whole builds are met by the four strips; the mesh is a rectangle of two cells. -/
example : GoodBuild exEnv exBuilder exScene ∧ 3 ≤ exBuilder.vertsPerPoly ∧
    MeshStages exEnv exBuilder ⟨true, false⟩ exScene exCfg exM exFr exHf11 exChf exSet exPoly ∧
    exCfg.walkableClimb < exCfg.walkableHeight ∧ (∀ c ∈ exChf.cells, c.count ≤ 62) ∧
    (∀ r v, exChf.IsCircuit r v → (∃ s ∈ v, exChf.BoundarySide s) → v.length ≤ 40000) ∧ exSet.FewVertices ∧
    buildNavmesh exEnv exBuilder ⟨true, false⟩ exScene = .ok (exPoly, exDetail) ∧ exPoly.polys = [[0, 1, 2, 3]] :=
  ⟨exBuild_good, by decide +kernel, ex_stages, by decide +kernel, by decide +kernel,
    fun r v hv _ => c61_small_fields exChf (by decide +kernel) r v hv, by unfold ContourSet.FewVertices; decide +kernel, ex_build, by decide +kernel⟩

/-! ### C77 -/

/-- **C77 (margin).** No vertex of a navmesh is closer to the sides of the box around the scene than the agent's radius and three cells (up to half
a cell, by which the grid may be too long). -/
theorem c77_margin {F : Type} (env : BuildEnv F) (b : ConfigBuilder) (flags : ContourFlags) (scene : List Affector)
    (hgood : GoodBuild env b scene) (h3 : 3 ≤ b.vertsPerPoly) (poly : PolygonNavmesh) (detail : DetailNavmesh F)
    (hok : buildNavmesh env b flags scene = .ok (poly, detail)) :
    ∃ W : World, W.Models env b scene ∧ ∀ v ∈ poly.vertices,
      (W.fr.aabb.min.x + b.agentRadius + 3 * b.cellSize ≤ W.fr.aabb.min.x + (v.x + W.border : Nat) * b.cellSize ∧
        W.fr.aabb.min.x + (v.x + W.border : Nat) * b.cellSize + b.agentRadius + 3 * b.cellSize ≤ W.fr.aabb.max.x + b.cellSize / 2) ∧
      (W.fr.aabb.min.z + b.agentRadius + 3 * b.cellSize ≤ W.fr.aabb.min.z + (v.z + W.border : Nat) * b.cellSize ∧
        W.fr.aabb.min.z + (v.z + W.border : Nat) * b.cellSize + b.agentRadius + 3 * b.cellSize ≤ W.fr.aabb.max.z + b.cellSize / 2) := by
  obtain ⟨W, hM, hv⟩ := c76_vertices_partial env b flags scene hgood h3 poly detail hok
  refine ⟨W, hM, fun v hmem => ?_⟩
  obtain ⟨p, hs, hp⟩ := hv v hmem
  have h1 := marks_cell hp
  have h2 := hs.inside
  have hcs := hgood.settings.cellSize
  have key : ∀ (n w : Nat) (lo hi : ℚ), n + 2 * W.border ≤ w → CoversSide w b.cellSize lo hi →
      lo + b.agentRadius + 3 * b.cellSize ≤ lo + (n + W.border : Nat) * b.cellSize ∧
        lo + (n + W.border : Nat) * b.cellSize + b.agentRadius + 3 * b.cellSize ≤ hi + b.cellSize / 2 := by
    intro n w lo hi hn hc
    have hr := hM.wide
    have e : (W.border : ℚ) = W.agentRadius + 3 := by rw [hM.border]; push_cast; ring
    have hn0 : (0 : ℚ) ≤ (n : ℚ) * b.cellSize := by positivity
    have hw : ((n : ℚ) + 2 * W.border) * b.cellSize ≤ w * b.cellSize := by
      refine mul_le_mul_of_nonneg_right ?_ (le_of_lt hcs)
      exact_mod_cast hn
    have := hc.1
    push_cast
    rw [e] at hw ⊢
    constructor <;> nlinarith
  exact ⟨key v.x W.width _ _ (by omega) hM.width, key v.z W.depth _ _ (by omega) hM.depth⟩

/-- **C77 is violated.** A place where the agent can stand, with everything within its radius in reach, is more than one cell away from all of the
navmesh: it is in the border of the grid, which lies over the scene and not around it. -/
theorem c77_violated : ∃ (env : BuildEnv ℚ) (b : ConfigBuilder) (flags : ContourFlags) (scene : List Affector) (poly : PolygonNavmesh)
    (detail : DetailNavmesh ℚ), GoodBuild env b scene ∧ buildNavmesh env b flags scene = .ok (poly, detail) ∧
    ∃ W : World, W.Models env b scene ∧ ∃ p : Spot, W.Standing p ∧
      (∀ dx dz : Int, octile dx dz ≤ 2 * W.agentRadius → ∃ q : Spot, (q.x : Int) = p.x + dx ∧ (q.z : Int) = p.z + dz ∧ W.CanWalk p q) ∧
      ∀ v ∈ poly.vertices, p.x + 2 ≤ v.x + W.border := by
  obtain ⟨w, h, c0, _, _, hM, hG, _⟩ := exBuild_good.stages ex_stages.toStages
  refine ⟨exEnv, exBuilder, ⟨true, false⟩, exScene, exPoly, exDetail, exBuild_good, ex_build, _, hM, ⟨1, 3, 1⟩, ?_, ?_, ?_⟩
  · exact (hG.inWorld.stand 1 3 12 exChf.spans[12] ⟨by decide, by decide, rfl, ⟨12, 1⟩, by decide +kernel, by decide⟩).1
  · intro dx dz hd
    refine ⟨⟨1, 3, 1⟩, ?_, ?_, ReflTransGen.refl⟩
    all_goals
      simp only [World.ofBuild, exCfg, octile] at hd
      simp only
      omega
  · have : (World.ofBuild exEnv exCfg exScene exFr w h).border = 3 := rfl
    rw [this]
    decide +kernel

/-! ### C78 -/

/-- **C78.** The detail mesh of a build belongs to its polygon mesh (`IsDetailMesh`): one sub-mesh for each polygon, with the corners of the polygon
and samples at the heights of the floors.  The arithmetic is any; the numbers of samples must fit their types. -/
theorem c78_detail_partial {F : Type} (env : BuildEnv F) (b : ConfigBuilder) (flags : ContourFlags) (scene : List Affector)
    (hgood : GoodBuild env b scene) (h3 : 3 ≤ b.vertsPerPoly) (h126 : b.vertsPerPoly < 127)
    (hlow : ∀ u v, SceneVertex scene u → SceneVertex scene v → v.y - u.y < 65534 * b.cellHeight)
    (cfg : Config) (m : TriMesh ℚ) (fr : Frame) (hf : Heightfield)
    (chf : CompactHeightfield) (set : ContourSet) (poly : PolygonNavmesh) (st : MeshStages env b flags scene cfg m fr hf chf set poly)
    (hfew : set.FewVertices) (hR : (detailConfig env cfg fr set.borderSize).radius env.ops ≤ 32767)
    (hst : SidesCountable env.ops (detailConfig env cfg fr set.borderSize) poly) (detail : DetailNavmesh F)
    (hd : detailNavmesh env.ops env.alloc (detailConfig env cfg fr set.borderSize) poly chf = .ok detail) :
    IsDetailMesh env.ops (detailConfig env cfg fr set.borderSize) poly chf detail := by
  obtain ⟨w, h, c0, hw, hh, hM, hG, _⟩ := hgood.stages st.toStages
  have hb : set.borderSize = chf.borderSize := contours_border st.contours
  have hin := detailInput_of hG st.contours (nvp_ge st.config h3) (nvp_le' st.config h126) hfew st.mesh (by show w ≤ 65535; omega)
    (by show h ≤ 65535; omega) (by rw [hM.border]; omega)
  refine c66_tables env.ops env.alloc _ poly chf hG.wf (by rw [hG.width]; exact hw.1) (by rw [hG.height]; exact hh.1) (spans_low hM hG hlow) ?_ hR hst
    detail hd
  show DetailInput poly chf set.borderSize
  rw [hb]; exact hin

/-- **C78 (success).** With a positive sample distance, and vectors that get exactly the capacity asked for, a build that has a polygon mesh gets a detail
mesh. -/
theorem c78_succeeds_partial {F : Type} (env : BuildEnv F) (b : ConfigBuilder) (flags : ContourFlags) (scene : List Affector)
    (hgood : GoodBuild env b scene) (h3 : 3 ≤ b.vertsPerPoly) (h126 : b.vertsPerPoly < 127)
    (hlow : ∀ u v, SceneVertex scene u → SceneVertex scene v → v.y - u.y < 65534 * b.cellHeight)
    (cfg : Config) (m : TriMesh ℚ) (fr : Frame) (hf : Heightfield)
    (chf : CompactHeightfield) (set : ContourSet) (poly : PolygonNavmesh) (st : MeshStages env b flags scene cfg m fr hf chf set poly)
    (hclimb : cfg.walkableClimb < cfg.walkableHeight) (hlay : ∀ c ∈ chf.cells, c.count ≤ 62)
    (hshort : ∀ r v, chf.IsCircuit r v → (∃ s ∈ v, chf.BoundarySide s) → v.length ≤ 40000) (hfew : set.FewVertices)
    (hR : (detailConfig env cfg fr set.borderSize).radius env.ops ≤ 32767)
    (hst : SidesCountable env.ops (detailConfig env cfg fr set.borderSize) poly) (halloc : ExactAllocator env.alloc)
    (hsd : env.ops.lt (env.ops.lit 0) (env.toF cfg.detailSampleDist) = true) :
    ∃ detail, buildNavmesh env b flags scene = .ok (poly, detail) := by
  obtain ⟨w, h, c0, hw, hh, hM, hG, hwf, h0, _, hlike⟩ := hgood.stages st.toStages
  have hsym := symmetric_of hwf (hgood.spans cfg m fr hf st.config st.input st.solid) hclimb h0 hlike hlay
  have hb : set.borderSize = chf.borderSize := contours_border st.contours
  have hin := detailInput_of hG st.contours (nvp_ge st.config h3) (nvp_le' st.config h126) hfew st.mesh (by show w ≤ 65535; omega)
    (by show h ≤ 65535; omega) (by rw [hM.border]; omega)
  have hreg := regionPresent_of hG st.contours (nvp_ge st.config h3) (nvp_le' st.config h126) hfew st.mesh hsym hshort
  obtain ⟨dm, hdm⟩ := c52_succeeds_partial env.ops env.alloc halloc (detailConfig env cfg fr set.borderSize) poly chf hG.wf
    (by rw [hG.width]; exact hw.1) (by rw [hG.height]; exact hh.1) (spans_low hM hG hlow)
    (by show DetailInput poly chf set.borderSize; rw [hb]; exact hin) hR hst
    (by show ∀ i < poly.polygonCount, RegionPresent poly chf set.borderSize i; rw [hb]; exact hreg) hsd
  refine ⟨dm, ?_⟩
  unfold buildNavmesh buildMeshes
  rw [st.config, bind_ok, st.input, bind_ok]
  simp only
  rw [st.solid, bind_ok, st.compact, bind_ok, st.contours, bind_ok, st.mesh, bind_ok, hdm, bind_ok]

/-- The remaining hypotheses of the theorems on detail meshes are met by the four strips. -/
example : exBuilder.vertsPerPoly < 127 ∧ (∀ u v, SceneVertex exScene u → SceneVertex exScene v → v.y - u.y < 65534 * exBuilder.cellHeight) ∧
    (detailConfig exEnv exCfg exFr exSet.borderSize).radius exEnv.ops ≤ 32767 ∧
    SidesCountable exEnv.ops (detailConfig exEnv exCfg exFr exSet.borderSize) exPoly ∧ ExactAllocator exEnv.alloc ∧
    exEnv.ops.lt (exEnv.ops.lit 0) (exEnv.toF exCfg.detailSampleDist) = true := by
  refine ⟨by decide +kernel, ?_, by decide +kernel, ?_, fun _ _ _ => rfl, by decide +kernel⟩
  · intro u v hu hv
    obtain ⟨k, hk, hu⟩ := exScene_vertex hu
    obtain ⟨l, hl, hv⟩ := exScene_vertex hv
    have a := (exStrip_box hk hu).2.2.1
    have b := (exStrip_box hl hv).2.2.1
    simp only [exBuilder]
    linarith
  · intro i vs h
    rcases i with _ | i
    · have : vs = exPoly.vertices := by
        refine forall2_unique h ?_
        rw [show exPoly.polygon 0 = [0, 1, 2, 3] by decide +kernel]
        exact .cons rfl (.cons rfl (.cons rfl (.cons rfl .nil)))
      subst this
      unfold StepsOk
      decide +kernel
    · have : exPoly.polygon (i + 1) = [] := by
        unfold PolygonNavmesh.polygon
        rw [List.drop_eq_nil_of_le (by show 6 ≤ (i + 1) * 6; omega)]; rfl
      rw [this] at h
      cases h
      simp [StepsOk]

/-! ### C79 -/

/-- **C79 (narrow levels).** No build succeeds for a scene that is narrower, along x or along z, than twice the agent's radius and six cells (up to
half a cell). -/
theorem c79_narrow {F : Type} (env : BuildEnv F) (b : ConfigBuilder) (flags : ContourFlags) (scene : List Affector) (hgood : GoodBuild env b scene)
    (hnarrow : (∀ u v, SceneVertex scene u → SceneVertex scene v → v.x - u.x + b.cellSize / 2 < 2 * (b.agentRadius + 3 * b.cellSize)) ∨
      ∀ u v, SceneVertex scene u → SceneVertex scene v → v.z - u.z + b.cellSize / 2 < 2 * (b.agentRadius + 3 * b.cellSize)) :
    ∀ r, buildNavmesh env b flags scene ≠ .ok r := by
  rintro ⟨poly, detail⟩ hok
  obtain ⟨cfg, m, fr, hf, chf, set, st, _⟩ := build_stages hok
  obtain ⟨w, h, c0, _, _, hM, hG, _⟩ := hgood.stages st.toStages
  obtain ⟨h1, h2⟩ := contours_room st.contours
  rw [hG.border, hG.width] at h1
  rw [hG.border, hG.height] at h2
  generalize World.ofBuild env cfg scene fr w h = W at *
  have hcs := hgood.settings.cellSize
  have key : ∀ (w : Nat) (lo hi : ℚ), 2 * W.border ≤ w → CoversSide w b.cellSize lo hi → 2 * (b.agentRadius + 3 * b.cellSize) ≤ hi - lo + b.cellSize / 2 := by
    intro w lo hi hn hc
    have hr := hM.wide
    have e : (W.border : ℚ) = W.agentRadius + 3 := by rw [hM.border]; push_cast; ring
    have hw : (2 * (W.border : ℚ)) * b.cellSize ≤ w * b.cellSize := by
      refine mul_le_mul_of_nonneg_right ?_ (le_of_lt hcs)
      exact_mod_cast hn
    have := hc.1
    rw [e] at hw
    nlinarith
  obtain ⟨⟨x0, hx0, ex0⟩, ⟨x1, hx1, ex1⟩, _, _, ⟨z0, hz0, ez0⟩, ⟨z1, hz1, ez1⟩⟩ := hM.tight
  rcases hnarrow with hn | hn
  · have := hn x0 x1 hx0 hx1
    have := key _ _ _ h1 hM.width
    rw [ex0, ex1] at *
    linarith
  · have := hn z0 z1 hz0 hz1
    have := key _ _ _ h2 hM.depth
    rw [ez0, ez1] at *
    linarith

/-- **C79 (no ground).** No build succeeds for a scene without any walkable triangle. -/
theorem c79_no_ground {F : Type} (env : BuildEnv F) (b : ConfigBuilder) (flags : ContourFlags) (scene : List Affector) (hgood : GoodBuild env b scene)
    (hno : ∀ t, SceneTriangle scene t → env.up b.agentMaxSlope t.1 t.2.1 t.2.2 = false) : ∀ r, buildNavmesh env b flags scene ≠ .ok r := by
  rintro ⟨poly, detail⟩ hok
  obtain ⟨cfg, m, fr, hf, chf, set, st, _⟩ := build_stages hok
  obtain ⟨w, h, c0, hw, hh, hM, hG, _, h0, hwf0, hlike⟩ := hgood.stages st.toStages
  obtain ⟨x, z, i, s, hat⟩ := some_span (by rw [← hlike.width, hG.width]; exact hw.2) h0 hwf0 hlike hG.wf st.compact
  obtain ⟨t, q, ht, hs, _⟩ := (hG.inWorld.stand x z i s hat).1.slope
  rw [hM.triangle] at ht
  rw [hM.slope, hno t ht] at hs
  cases hs

/-- One triangle, seen from below. -/
def exCeiling : List Affector := [⟨some ⟨true, some [⟨0, 0, 0⟩, ⟨1, 0, 0⟩, ⟨0, 0, 1⟩], some [0, 1, 2]⟩, id⟩]

/-- A flat square of 5 times 5 cells. -/
def exSmall : List Affector := [⟨some ⟨true, some [⟨0, 0, 0⟩, ⟨0, 0, 5⟩, ⟨5, 0, 5⟩, ⟨5, 0, 0⟩], some [0, 1, 2, 0, 2, 3]⟩, id⟩]

theorem goodBuild_single {vs : List (V3 ℚ)} {is : List Nat} (h1 : ∀ i ∈ is, i < vs.length) (h2 : ∀ v ∈ vs, 0 ≤ v.x ∧ v.x ≤ 5 ∧ v.y = 0 ∧ 0 ≤ v.z ∧ v.z ≤ 5)
    (h3 : vs.length ≤ 100) (n : Nat) (hn : n < 2 ^ 32) (h4 : (do
      let r ← buildInput exEnv exCfg [⟨some ⟨true, some vs, some is⟩, id⟩]
      let hf ← buildSolid exCfg r.1 r.2
      .ok hf.spanCount : Res Nat) = .ok n) : GoodBuild exEnv exBuilder [⟨some ⟨true, some vs, some is⟩, id⟩] := by
  have hv : ∀ v, SceneVertex [⟨some ⟨true, some vs, some is⟩, id⟩] v → v ∈ vs := by
    rintro v ⟨a, ha, vs', is', ⟨mesh, e1, _, e3, e4, _⟩, p, hp, rfl⟩
    simp only [List.mem_singleton] at ha
    subst ha
    cases e1; cases e3
    exact hp
  refine ⟨⟨by decide +kernel, by decide +kernel, by decide +kernel, by decide +kernel, by decide +kernel⟩, ⟨?_, ?_, ?_⟩, ?_, by decide +kernel, ?_⟩
  · rintro a ha vs' is' ⟨mesh, e1, _, e3, e4, _⟩
    simp only [List.mem_singleton] at ha
    subst ha
    cases e1; cases e3; cases e4
    exact h1
  · intro v h
    obtain ⟨a1, a2, a3, a4, a5⟩ := h2 v (hv v h)
    simp only [exEnv]
    refine ⟨?_, ?_, ?_, ?_, ?_, ?_⟩ <;> linarith
  · simp [Affector.vertexCount]
    omega
  · intro u v hu hv'
    obtain ⟨a1, a2, a3, a4, a5⟩ := h2 u (hv u hu)
    obtain ⟨b1, b2, b3, b4, b5⟩ := h2 v (hv v hv')
    simp only [exBuilder]
    refine ⟨?_, ?_, ?_⟩ <;> linarith
  · intro cfg m fr hf e1 e2 e3
    rw [ex_config] at e1; cases e1
    rw [e2, bind_ok] at h4
    simp only at h4
    rw [e3, bind_ok] at h4
    cases h4
    exact hn

/-- **C79 is violated (narrow levels).** The build of a flat square of 5 times 5 cells panics. -/
theorem c79_violated : GoodBuild exEnv exBuilder exSmall ∧ buildNavmesh exEnv exBuilder ⟨true, false⟩ exSmall = .error .panic := by
  refine ⟨goodBuild_single (by decide) (by decide +kernel) (by decide) 9 (by decide) (by decide +kernel), ?_⟩
  have h : (buildNavmesh exEnv exBuilder ⟨true, false⟩ exSmall).map (fun _ => 0) = .error .panic := by decide +kernel
  cases hb : buildNavmesh exEnv exBuilder ⟨true, false⟩ exSmall with
  | ok r => rw [hb] at h; cases h
  | error e => rw [hb] at h; cases h; rfl

/-- **C79 is violated (no ground).** The build of a single triangle seen from below panics. -/
theorem c79_violated_no_ground : GoodBuild exEnv exBuilder exCeiling ∧ buildNavmesh exEnv exBuilder ⟨true, false⟩ exCeiling = .error .panic := by
  refine ⟨goodBuild_single (by decide) (by decide +kernel) (by decide) 0 (by decide) (by decide +kernel), ?_⟩
  have h : (buildNavmesh exEnv exBuilder ⟨true, false⟩ exCeiling).map (fun _ => 0) = .error .panic := by decide +kernel
  cases hb : buildNavmesh exEnv exBuilder ⟨true, false⟩ exCeiling with
  | ok r => rw [hb] at h; cases h
  | error e => rw [hb] at h; cases h; rfl

end Rerecast
