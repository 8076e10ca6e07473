import Verif.Lemmas.MovedBuild
import Verif.Props.C103_Slope
/-! C104: moving the level moves the navmesh.  Exact arithmetic; the polygon mesh. -/
namespace Rerecast

/-- **C104 (one triangle).** A triangle that is moved together with the grid changes the same cells of the heightfield in the same way, or
fails in the same way. -/
theorem c104_triangle {fr : Frame} (hcs : 0 < fr.cellSize) (d : V3 ℚ) (hf : Heightfield) (a b c : V3 ℚ) (area : Area) (threshold : Nat)
    (hin : ∀ v ∈ [a, b, c], fr.aabb.min.x ≤ v.x ∧ fr.aabb.min.z ≤ v.z) :
    rasterizeTriangle (fr.moveBy d) hf (V3.moveBy d a, V3.moveBy d b, V3.moveBy d c) area threshold =
      rasterizeTriangle fr hf (a, b, c) area threshold :=
  rasterizeTriangle_move hcs d hf a b c area threshold hin

theorem stages_frame {F : Type} {env : BuildEnv F} {b : ConfigBuilder} {scene : List Affector} (hb : b.Sensible) (hg : GoodScene env.lo env.hi scene)
    {cfg : Config} {m : TriMesh ℚ} {fr : Frame} (h1 : b.build = .ok cfg) (h2 : buildInput env cfg scene = .ok (m, fr)) :
    0 < fr.cellSize ∧ ∀ v ∈ m.vertices, fr.aabb.min.x ≤ v.x ∧ fr.aabb.min.z ≤ v.z := by
  obtain ⟨hno, hyes⟩ := buildInput_spec env cfg hg
  by_cases hv : ∃ v, SceneVertex scene v
  · obtain ⟨m', fr', e, hI⟩ := hyes hv
    rw [h2] at e
    cases e
    refine ⟨by rw [hI.cellSize, (config_fields h1).1]; exact hb.cellSize, fun v hv => ?_⟩
    have hc := hI.contains v ((hI.vertices v).1 hv)
    exact ⟨hc.1, hc.2.2.2.2.1⟩
  · rw [hno hv] at h2
    cases h2

/-- **C104.** When every object of the level is moved by `d`, the build goes through the same heightfields, contours and polygons; the
triangles and the origin of the grid are moved by `d`. -/
theorem c104_moved {F : Type} {env : BuildEnv F} {b : ConfigBuilder} {flags : ContourFlags} {scene : List Affector} {d : V3 ℚ} (hb : b.Sensible)
    (hg : GoodScene env.lo env.hi scene) (hg' : GoodScene env.lo env.hi (movedScene d scene)) (hup : ∀ θ, PlaceBlind (env.up θ)) {cfg : Config}
    {m : TriMesh ℚ} {fr : Frame} {hf : Heightfield} {chf : CompactHeightfield} {set : ContourSet} {poly : PolygonNavmesh}
    (h : MeshStages env b flags scene cfg m fr hf chf set poly) :
    MeshStages env b flags (movedScene d scene) cfg (m.moved (V3.moveBy d)) (fr.moveBy d) hf chf set poly := by
  obtain ⟨hcs, hin⟩ := stages_frame hb hg h.config h.input
  refine ⟨⟨h.config, ?_, ?_, h.compact⟩, h.contours, h.mesh⟩
  · rw [buildInput_move hg hg' (hup _), h.input]
    rfl
  · rw [buildSolid_move hcs d cfg m hin]
    exact h.solid

/-- **C104 (the meshes are the same).** The navmesh of a moved level has the same vertices (counted in cells from the corner of the grid),
polygons, neighbours, regions, flags and areas. -/
theorem c104_same_mesh {F : Type} {env : BuildEnv F} {b : ConfigBuilder} {flags : ContourFlags} {scene : List Affector} {d : V3 ℚ} (hb : b.Sensible)
    (hg : GoodScene env.lo env.hi scene) (hg' : GoodScene env.lo env.hi (movedScene d scene)) (hup : ∀ θ, PlaceBlind (env.up θ))
    {poly poly' : PolygonNavmesh} {detail detail' : DetailNavmesh F} (h : buildNavmesh env b flags scene = .ok (poly, detail))
    (h' : buildNavmesh env b flags (movedScene d scene) = .ok (poly', detail')) : poly' = poly := by
  obtain ⟨cfg, m, fr, hf, chf, set, st, -⟩ := build_stages h
  obtain ⟨cfg', m', fr', hf', chf', set', st', -⟩ := build_stages h'
  have mt := c104_moved hb hg hg' hup st
  obtain rfl := Except.ok.inj (st'.config.symm.trans mt.config)
  have e := Except.ok.inj (st'.input.symm.trans mt.input)
  simp only [Prod.mk.injEq] at e
  obtain ⟨rfl, rfl⟩ := e
  obtain rfl := Except.ok.inj (st'.solid.symm.trans mt.solid)
  obtain rfl := Except.ok.inj (st'.compact.symm.trans mt.compact)
  obtain rfl := Except.ok.inj (st'.contours.symm.trans mt.contours)
  exact Except.ok.inj (st'.mesh.symm.trans mt.mesh)

/-- **C104 (both or neither).** A polygon mesh is built from the moved level exactly when one is built from the level. -/
theorem c104_both {F : Type} {env : BuildEnv F} {b : ConfigBuilder} {flags : ContourFlags} {scene : List Affector} {d : V3 ℚ} (hb : b.Sensible)
    (hg : GoodScene env.lo env.hi scene) (hg' : GoodScene env.lo env.hi (movedScene d scene)) (hup : ∀ θ, PlaceBlind (env.up θ)) (poly : PolygonNavmesh) :
    (∃ cfg m fr hf chf set, MeshStages env b flags scene cfg m fr hf chf set poly) ↔
      ∃ cfg m fr hf chf set, MeshStages env b flags (movedScene d scene) cfg m fr hf chf set poly := by
  constructor
  · rintro ⟨cfg, m, fr, hf, chf, set, st⟩
    exact ⟨_, _, _, _, _, _, c104_moved hb hg hg' hup st⟩
  · rintro ⟨cfg, m, fr, hf, chf, set, st⟩
    have := c104_moved (d := ⟨-d.x, -d.y, -d.z⟩) hb hg' (by rw [movedScene_back]; exact hg) hup st
    rw [movedScene_back] at this
    exact ⟨_, _, _, _, _, _, this⟩

/-- **C104 (positions).** With the origin of the grid moved by `d`, every vertex of the mesh is at a place moved by `d`. -/
theorem c104_positions {F : Type} (env : BuildEnv F) (cfg : Config) (scene : List Affector) (fr : Frame) (w h : Nat) (d : V3 ℚ) (v : U16Vec3) :
    let p := (World.ofBuild env cfg scene fr w h).position v
    (World.ofBuild env cfg (movedScene d scene) (fr.moveBy d) w h).position v = ⟨p.x + d.x, p.y + d.y, p.z + d.z⟩ := by
  simp only [World.position, World.ofBuild, Frame.moveBy, V3.moveBy, Vec3.mk.injEq]
  refine ⟨?_, ?_, ?_⟩ <;> ring

/-- **C104 (slopes).** The slope test of the library does not depend on where a triangle is. -/
theorem c104_slope (θ : ℝ) : PlaceBlind (slopeTest θ) := by
  intro d a b c
  unfold slopeTest triNormalY
  simp only [V3.moveBy, add_sub_add_right_eq_sub]

/-! ### Witnesses -/

/-- Moving a proper scene within the range of floats gives a proper scene. -/
theorem goodScene_moved {lo hi : ℚ} {scene : List Affector} {d : V3 ℚ} (hg : GoodScene lo hi scene)
    (hr : ∀ v, SceneVertex scene v → lo ≤ v.x + d.x ∧ v.x + d.x ≤ hi ∧ lo ≤ v.y + d.y ∧ v.y + d.y ≤ hi ∧ lo ≤ v.z + d.z ∧ v.z + d.z ≤ hi) :
    GoodScene lo hi (movedScene d scene) := by
  refine ⟨?_, ?_, ?_⟩
  · intro a ha vs is hrd
    obtain ⟨a0, ha0, rfl⟩ := List.mem_map.1 ha
    exact hg.indices a0 ha0 vs is hrd
  · rintro v ⟨a, ha, vs, is, hrd, p, hp, rfl⟩
    obtain ⟨a0, ha0, rfl⟩ := List.mem_map.1 ha
    exact hr _ ⟨a0, ha0, vs, is, hrd, p, hp, rfl⟩
  · have : (movedScene d scene).map Affector.vertexCount = scene.map Affector.vertexCount := by
      unfold movedScene
      rw [List.map_map]
      rfl
    rw [this]
    exact hg.count

/-- A move that is no multiple of the cell size. -/
def exMove : V3 ℚ := ⟨1000 / 3, -7, 1 / 2⟩

theorem exMoved_good : GoodScene exEnvSlope.lo exEnvSlope.hi (movedScene exMove exScene) := by
  refine goodScene_moved exScene_good fun v hv => ?_
  obtain ⟨k, hk, hv⟩ := exScene_vertex hv
  obtain ⟨h1, h2, h3, h4, h5⟩ := exStrip_box hk hv
  simp only [exEnvSlope, exEnv, exMove]
  refine ⟨?_, ?_, ?_, ?_, ?_, ?_⟩ <;> linarith

/-- The four strips, built with the slope test of the library: moved by no multiple of the cell size, they give the same mesh. -/
example : MeshStages exEnvSlope exBuilder ⟨true, false⟩ (movedScene exMove exScene) exCfg (exM.moved (V3.moveBy exMove)) (exFr.moveBy exMove) exHf11 exChf
      exSet exPoly ∧ exPoly.polygons ≠ [] ∧ (exFr.moveBy exMove).aabb.min.x = exFr.aabb.min.x + 1000 / 3 :=
  ⟨c104_moved (env := exEnvSlope) exBuild_good.settings exScene_good exMoved_good (fun θ => c104_slope θ)
    ⟨⟨ex_config, exSlope_input, ex_solid, ex_compact⟩, ex_contours, ex_mesh⟩, by decide +kernel, rfl⟩

example : exBuilder.Sensible ∧ GoodScene exEnvSlope.lo exEnvSlope.hi exScene ∧ GoodScene exEnvSlope.lo exEnvSlope.hi (movedScene exMove exScene) ∧
    (∀ θ, PlaceBlind (exEnvSlope.up θ)) ∧ ∃ p, buildNavmesh exEnvSlope exBuilder ⟨true, false⟩ exScene = .ok p :=
  ⟨exBuild_good.settings, exScene_good, exMoved_good, fun θ => c104_slope θ, _, exSlope_build⟩

end Rerecast
