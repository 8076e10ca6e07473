import Verif.Lemmas.ScaledBuild
import Verif.Props.C104_Moved
/-! C106: the unit of length does not matter.  Exact arithmetic; the polygon mesh. -/
namespace Rerecast

/-- **C106 (settings).** Enlarging all lengths among the settings enlarges the lengths of the configuration and leaves everything that is counted in
cells and voxels as it is. -/
theorem c106_settings {κ : ℚ} (hκ : 0 < κ) (b : ConfigBuilder) : (b.scaleBy κ).build = b.build.map (Config.scaleBy κ) := config_scale hκ b

/-- **C106 (one triangle).** A triangle that is enlarged together with the grid changes the same cells of the heightfield in the same way, or
fails in the same way. -/
theorem c106_triangle {fr : Frame} (hcs : 0 < fr.cellSize) {κ : ℚ} (hκ : 0 < κ) (hf : Heightfield) (a b c : V3 ℚ) (area : Area) (threshold : Nat)
    (hin : ∀ v ∈ [a, b, c], fr.aabb.min.x ≤ v.x ∧ fr.aabb.min.z ≤ v.z) :
    rasterizeTriangle (fr.scaleBy κ) hf (V3.scaleBy κ a, V3.scaleBy κ b, V3.scaleBy κ c) area threshold =
      rasterizeTriangle fr hf (a, b, c) area threshold :=
  rasterizeTriangle_scale hcs hκ hf a b c area threshold hin

/-- **C106.** When the level and all settings that are lengths are enlarged by the same factor, the build goes through the same heightfields,
contours and polygons; the triangles and the grid are enlarged by the factor. -/
theorem c106_scaled {F : Type} {env : BuildEnv F} {b : ConfigBuilder} {flags : ContourFlags} {scene : List Affector} {κ : ℚ} (hκ : 0 < κ) (hb : b.Sensible)
    (hg : GoodScene env.lo env.hi scene) (hg' : GoodScene env.lo env.hi (scaledScene κ scene)) (hup : ∀ θ, SizeBlind (env.up θ)) {cfg : Config}
    {m : TriMesh ℚ} {fr : Frame} {hf : Heightfield} {chf : CompactHeightfield} {set : ContourSet} {poly : PolygonNavmesh}
    (h : MeshStages env b flags scene cfg m fr hf chf set poly) :
    MeshStages env (b.scaleBy κ) flags (scaledScene κ scene) (cfg.scaleBy κ) (m.moved (V3.scaleBy κ)) (fr.scaleBy κ) hf chf set poly := by
  obtain ⟨hcs, hin⟩ := stages_frame hb hg h.config h.input
  refine ⟨⟨?_, ?_, ?_, h.compact⟩, h.contours, h.mesh⟩
  · rw [config_scale hκ, h.config]
    rfl
  · rw [buildInput_scale hκ hg hg' (hup _), h.input]
    rfl
  · rw [buildSolid_scale hcs hκ cfg m hin]
    exact h.solid

/-- **C106 (the meshes are the same).** The navmesh of the enlarged level has the same vertices (counted in cells), polygons, neighbours, regions, flags
and areas. -/
theorem c106_same_mesh {F : Type} {env : BuildEnv F} {b : ConfigBuilder} {flags : ContourFlags} {scene : List Affector} {κ : ℚ} (hκ : 0 < κ)
    (hb : b.Sensible) (hg : GoodScene env.lo env.hi scene) (hg' : GoodScene env.lo env.hi (scaledScene κ scene)) (hup : ∀ θ, SizeBlind (env.up θ))
    {poly poly' : PolygonNavmesh} {detail detail' : DetailNavmesh F} (h : buildNavmesh env b flags scene = .ok (poly, detail))
    (h' : buildNavmesh env (b.scaleBy κ) flags (scaledScene κ scene) = .ok (poly', detail')) : poly' = poly := by
  obtain ⟨cfg, m, fr, hf, chf, set, st, -⟩ := build_stages h
  obtain ⟨cfg', m', fr', hf', chf', set', st', -⟩ := build_stages h'
  have mt := c106_scaled hκ hb hg hg' hup st
  obtain rfl := Except.ok.inj (st'.config.symm.trans mt.config)
  have e := Except.ok.inj (st'.input.symm.trans mt.input)
  simp only [Prod.mk.injEq] at e
  obtain ⟨rfl, rfl⟩ := e
  obtain rfl := Except.ok.inj (st'.solid.symm.trans mt.solid)
  obtain rfl := Except.ok.inj (st'.compact.symm.trans mt.compact)
  obtain rfl := Except.ok.inj (st'.contours.symm.trans mt.contours)
  exact Except.ok.inj (st'.mesh.symm.trans mt.mesh)

/-- **C106 (both or neither).** A polygon mesh is built from the enlarged level with the enlarged settings exactly when one is built from the
level. -/
theorem c106_both {F : Type} {env : BuildEnv F} {b : ConfigBuilder} {flags : ContourFlags} {scene : List Affector} {κ : ℚ} (hκ : 0 < κ) (hb : b.Sensible)
    (hg : GoodScene env.lo env.hi scene) (hg' : GoodScene env.lo env.hi (scaledScene κ scene)) (hup : ∀ θ, SizeBlind (env.up θ)) (poly : PolygonNavmesh) :
    (∃ cfg m fr hf chf set, MeshStages env b flags scene cfg m fr hf chf set poly) ↔
      ∃ cfg m fr hf chf set, MeshStages env (b.scaleBy κ) flags (scaledScene κ scene) cfg m fr hf chf set poly := by
  constructor
  · rintro ⟨cfg, m, fr, hf, chf, set, st⟩
    exact ⟨_, _, _, _, _, _, c106_scaled hκ hb hg hg' hup st⟩
  · rintro ⟨cfg, m, fr, hf, chf, set, st⟩
    have hb' : (b.scaleBy κ).Sensible := ⟨mul_pos hκ hb.cellSize, mul_pos hκ hb.cellHeight, mul_nonneg hκ.le hb.agentHeight,
      mul_nonneg hκ.le hb.agentRadius, mul_nonneg hκ.le hb.agentMaxClimb⟩
    have := c106_scaled (κ := κ⁻¹) (inv_pos.2 hκ) hb' hg' (by rw [scaledScene_back hκ]; exact hg) hup st
    rw [scaledScene_back hκ, scaledBuilder_back hκ] at this
    exact ⟨_, _, _, _, _, _, this⟩

/-- **C106 (positions).** On the enlarged grid, every vertex of the mesh is at the enlarged place. -/
theorem c106_positions {F : Type} (env : BuildEnv F) (cfg : Config) (scene : List Affector) (fr : Frame) (w h : Nat) (κ : ℚ) (v : U16Vec3) :
    let p := (World.ofBuild env cfg scene fr w h).position v
    (World.ofBuild env (cfg.scaleBy κ) (scaledScene κ scene) (fr.scaleBy κ) w h).position v = ⟨κ * p.x, κ * p.y, κ * p.z⟩ := by
  simp only [World.position, World.ofBuild, Frame.scaleBy, Aabb3.scaleBy, V3.scaleBy, Config.scaleBy, Vec3.mk.injEq]
  refine ⟨?_, ?_, ?_⟩ <;> ring

/-- **C106 (slopes).** The slope test of the library does not depend on how large a triangle is. -/
theorem c106_slope (θ : ℝ) : SizeBlind (slopeTest θ) := by
  intro κ hκ a b c
  have hn : ∀ (s : ℚ) (u : V3 ℚ), 0 < s → (V3.scaleBy s u).normalizeOrZeroY = u.normalizeOrZeroY := by
    intro s u hs
    have hs' : (0 : ℝ) < (s : ℝ) := by exact_mod_cast hs
    have hl : (V3.scaleBy s u).length = s * u.length := by
      unfold V3.length
      have : (((V3.scaleBy s u).x * (V3.scaleBy s u).x + (V3.scaleBy s u).y * (V3.scaleBy s u).y + (V3.scaleBy s u).z * (V3.scaleBy s u).z : ℚ) : ℝ) =
          (s : ℝ) ^ 2 * ((u.x * u.x + u.y * u.y + u.z * u.z : ℚ) : ℝ) := by
        simp only [V3.scaleBy]
        push_cast
        ring
      rw [this, Real.sqrt_mul (sq_nonneg _), Real.sqrt_sq hs'.le]
    unfold V3.normalizeOrZeroY
    rw [hl]
    have hy : (V3.scaleBy s u).y = s * u.y := rfl
    by_cases h : 0 < u.length
    · rw [if_pos h, if_pos (mul_pos hs' h), hy]
      push_cast
      rw [mul_one_div, mul_one_div, mul_div_mul_left _ _ hs'.ne']
    · rw [if_neg h, if_neg (fun g => h ((mul_pos_iff_of_pos_left hs').1 g))]
  have hc : triNormalY (V3.scaleBy κ a) (V3.scaleBy κ b) (V3.scaleBy κ c) = triNormalY a b c := by
    unfold triNormalY
    conv_rhs => rw [← hn (κ * κ) _ (mul_pos hκ hκ)]
    congr 1
    simp only [V3.cross, V3.scaleBy, V3.mk.injEq]
    refine ⟨?_, ?_, ?_⟩ <;> ring
  unfold slopeTest
  rw [hc]

/-! ### Witnesses -/

/-- Enlarging a proper scene within the range of floats gives a proper scene. -/
theorem goodScene_scaled {lo hi : ℚ} {scene : List Affector} {κ : ℚ} (hg : GoodScene lo hi scene)
    (hr : ∀ v, SceneVertex scene v → lo ≤ κ * v.x ∧ κ * v.x ≤ hi ∧ lo ≤ κ * v.y ∧ κ * v.y ≤ hi ∧ lo ≤ κ * v.z ∧ κ * v.z ≤ hi) :
    GoodScene lo hi (scaledScene κ scene) := by
  refine ⟨?_, ?_, ?_⟩
  · intro a ha vs is hrd
    obtain ⟨a0, ha0, rfl⟩ := List.mem_map.1 ha
    exact hg.indices a0 ha0 vs is hrd
  · rintro v ⟨a, ha, vs, is, hrd, p, hp, rfl⟩
    obtain ⟨a0, ha0, rfl⟩ := List.mem_map.1 ha
    exact hr _ ⟨a0, ha0, vs, is, hrd, p, hp, rfl⟩
  · have : (scaledScene κ scene).map Affector.vertexCount = scene.map Affector.vertexCount := by
      unfold scaledScene
      rw [List.map_map]
      rfl
    rw [this]
    exact hg.count

/-- From metres to feet, roughly. -/
def exFactor : ℚ := 328 / 100

theorem exScaled_good : GoodScene exEnvSlope.lo exEnvSlope.hi (scaledScene exFactor exScene) := by
  refine goodScene_scaled exScene_good fun v hv => ?_
  obtain ⟨k, hk, hv⟩ := exScene_vertex hv
  obtain ⟨h1, h2, h3, h4, h5⟩ := exStrip_box hk hv
  simp only [exEnvSlope, exEnv, exFactor]
  refine ⟨?_, ?_, ?_, ?_, ?_, ?_⟩ <;> linarith

/-- The four strips in another unit give the same mesh, with cells of the enlarged size. -/
example : MeshStages exEnvSlope (exBuilder.scaleBy exFactor) ⟨true, false⟩ (scaledScene exFactor exScene) (exCfg.scaleBy exFactor)
      (exM.moved (V3.scaleBy exFactor)) (exFr.scaleBy exFactor) exHf11 exChf exSet exPoly ∧ exPoly.polygons ≠ [] ∧
      (exFr.scaleBy exFactor).cellSize = 328 / 100 :=
  ⟨c106_scaled (env := exEnvSlope) (by decide +kernel) exBuild_good.settings exScene_good exScaled_good (fun θ => c106_slope θ)
    ⟨⟨ex_config, exSlope_input, ex_solid, ex_compact⟩, ex_contours, ex_mesh⟩, by decide +kernel, by decide +kernel⟩

end Rerecast
