import Verif.Props.C75_C79_Pipeline
import Verif.Lemmas.PipelineWorld
/-! C81: where the detail mesh of a build is in the world. -/
namespace Rerecast
open Relation CompactHeightfield

/-- **C81 (partial).** In exact arithmetic, the sub-mesh for a polygon is where the polygon is in the world: its first vertices are the corners, each of which
marks a safe place; the other vertices are on the sides of the polygon or on the sample grid, at heights of floors near the polygon to which the agent
can walk from safe places near the polygon (or at the height of voxel 65535, if no height was found).  These floors are at most as many cells away from
the sampled point (or the box around the polygon) as the edge error set by the user, rounded up, and at least one.  Missing, besides the guards of C76: more than 126 corners,
scenes of 65534 voxels or more, negative edge errors and ones above 32767 cells, and sides with 2^64 or more samples; rounding. -/
theorem c81_positions_partial (env : BuildEnv ℚ) (hexact : ExactArithmetic env.ops) (hid : ∀ q, env.toF q = q) (b : ConfigBuilder) (flags : ContourFlags)
    (scene : List Affector) (hgood : GoodBuild env b scene) (h3 : 3 ≤ b.vertsPerPoly) (h126 : b.vertsPerPoly < 127)
    (hlow : ∀ u v, SceneVertex scene u → SceneVertex scene v → v.y - u.y < 65534 * b.cellHeight)
    (cfg : Config) (m : TriMesh ℚ) (fr : Frame) (hf : Heightfield)
    (chf : CompactHeightfield) (set : ContourSet) (poly : PolygonNavmesh) (st : MeshStages env b flags scene cfg m fr hf chf set poly)
    (hclimb : cfg.walkableClimb < cfg.walkableHeight) (hlay : ∀ c ∈ chf.cells, c.count ≤ 62)
    (hshort : ∀ r v, chf.IsCircuit r v → (∃ s ∈ v, chf.BoundarySide s) → v.length ≤ 40000) (hfew : set.FewVertices)
    (hE0 : 0 ≤ b.edgeMaxError) (hE : b.edgeMaxError ≤ 32767)
    (hst : SidesCountable env.ops (detailConfig env cfg fr set.borderSize) poly) (detail : DetailNavmesh ℚ)
    (hok : buildNavmesh env b flags scene = .ok (poly, detail)) :
    ∃ W : World, W.Models env b scene ∧ ∀ i sub, detail.meshes[i]? = some sub → ∃ vs : List U16Vec3,
      List.Forall₂ (fun k v => poly.vertices[k]? = some v) (poly.polygon i) vs ∧ (∀ v ∈ vs, ∃ p, W.Safe p ∧ W.Marks p v) ∧
      W.SubMeshAt (max 1 ⌈b.edgeMaxError⌉.toNat) (b.cellSize * b.detailSampleDist) vs (detail.part sub).1 := by
  have hd : detailNavmesh env.ops env.alloc (detailConfig env cfg fr set.borderSize) poly chf = .ok detail := by
    unfold buildNavmesh buildMeshes at hok
    rw [st.config, bind_ok, st.input, bind_ok] at hok
    simp only at hok
    rw [st.solid, bind_ok, st.compact, bind_ok, st.contours, bind_ok, st.mesh, bind_ok] at hok
    obtain ⟨dm, h1, h2⟩ := bind_inv hok
    cases h2
    exact h1
  have hrad : (detailConfig env cfg fr set.borderSize).radius env.ops = max 1 ⌈b.edgeMaxError⌉.toNat := by
    have he : cfg.maxSimplificationError = b.edgeMaxError := by
      have := st.config
      unfold ConfigBuilder.build at this
      obtain ⟨_, _, this⟩ := bind_inv this
      obtain ⟨_, _, this⟩ := bind_inv this
      obtain ⟨_, _, this⟩ := bind_inv this
      cases this
      rfl
    have h1 : 0 ≤ ⌈b.edgeMaxError⌉ := Int.ceil_nonneg hE0
    have h2 : ⌈b.edgeMaxError⌉ ≤ 32767 := Int.ceil_le.2 (by exact_mod_cast hE)
    have h3 := hexact.toU32 ⌈b.edgeMaxError⌉.toNat (by omega)
    rw [show ((⌈b.edgeMaxError⌉.toNat : Nat) : ℚ) = ((⌈b.edgeMaxError⌉ : Int) : ℚ) by
      exact_mod_cast congrArg (Int.cast : Int → ℚ) (Int.toNat_of_nonneg h1)] at h3
    unfold DetailConfig.radius detailConfig
    simp only [hid, hexact.ceil, he, h3]
  have hR : (detailConfig env cfg fr set.borderSize).radius env.ops ≤ 32767 := by
    have h2 : ⌈b.edgeMaxError⌉ ≤ 32767 := Int.ceil_le.2 (by exact_mod_cast hE)
    rw [hrad]
    omega
  have hdet := c78_detail_partial env b flags scene hgood h3 h126 hlow cfg m fr hf chf set poly st hfew hR hst detail hd
  obtain ⟨w, h, c0, hw, hh, hM, hG, hwf, h0, _, hlike⟩ := hgood.stages st.toStages
  have hsym := symmetric_of hwf (hgood.spans cfg m fr hf st.config st.input st.solid) hclimb h0 hlike hlay
  have hb : set.borderSize = chf.borderSize := contours_border st.contours
  have hin := detailInput_of hG st.contours (nvp_ge st.config h3) (nvp_le' st.config h126) hfew st.mesh (by show w ≤ 65535; omega)
    (by show h ≤ 65535; omega) (by rw [hM.border]; omega)
  have hreg := regionPresent_of hG st.contours (nvp_ge st.config h3) (nvp_le' st.config h126) hfew st.mesh hsym hshort
  refine ⟨_, hM, fun i sub hsub => ?_⟩
  have hi : i < poly.polygonCount := by
    rw [← hdet.count]
    exact (List.getElem?_eq_some_iff.1 hsub).1
  obtain ⟨vs, region, hp, d, hvs, hregion, hpatch, hsm, hpart, _⟩ := hdet.parts i sub hsub
  have hcb : (detailConfig env cfg fr set.borderSize).borderSize = chf.borderSize := hb
  rw [hcb] at hpatch
  have hproper := region_proper hG st.contours (nvp_ge st.config h3) (nvp_le' st.config h126) hfew st.mesh hsym hshort hi hregion
  obtain ⟨_, hroot⟩ := hreg i hi region hp vs hregion hvs hpatch.1 hpatch.2.1
  have hcorner : ∀ v ∈ vs, ∃ k ∈ poly.polygon i, poly.vertices[k]? = some v := fun v hv => forall₂_mem_right hvs hv
  refine ⟨vs, hvs, ?_, ?_⟩
  · intro v hv
    obtain ⟨k, _, hk⟩ := hcorner v hv
    obtain ⟨c, hc, hcv⟩ := (c45_mesh set env.fuel cfg.maxVerticesPerPolygon (nvp_ge st.config h3) poly st.mesh).2 v (List.mem_of_getElem? hk)
    exact contour_marks hG st.contours hc hcv
  · rw [hpart]
    dsimp only
    obtain ⟨e1, e2, e3⟩ : fr.cellSize = b.cellSize ∧ fr.cellHeight = b.cellHeight ∧ cfg.borderSize = chf.borderSize :=
      ⟨hM.cellSize, hM.cellHeight, hG.border.symm⟩
    have hne : vs ≠ [] := by
      intro hn
      subst hn
      have := (hin.corners i hi).1
      rw [hvs.length_eq] at this
      simp at this
    have hv : ∀ v ∈ vs, v.x ≤ 32767 ∧ v.z ≤ 32767 := by
      intro v hv
      obtain ⟨k, hk, hkv⟩ := hcorner v hv
      obtain ⟨v', hv', b1, b2, _⟩ := hin.inside i hi k hk
      rw [hkv] at hv'
      cases hv'
      rw [hG.width] at b1
      rw [hG.height] at b2
      have : (World.ofBuild env cfg scene fr w h).width = w := rfl
      have : (World.ofBuild env cfg scene fr w h).depth = h := rfl
      omega
    have hcov : CoversCorners hp vs := by
      intro v hv
      obtain ⟨k, hk, hkv⟩ := hcorner v hv
      obtain ⟨v', hv', b1, b2, _⟩ := hin.inside i hi k hk
      rw [hkv] at hv'
      cases hv'
      have r1 := hpatch.1.1 v.x (List.mem_map.2 ⟨v, hv, rfl⟩)
      have r2 := hpatch.2.1.1 v.z (List.mem_map.2 ⟨v, hv, rfl⟩)
      omega
    have hdist : cfg.detailSampleDist = if b.detailSampleDist < 9 / 10 then 0 else b.cellSize * b.detailSampleDist := by
      have := st.config
      unfold ConfigBuilder.build at this
      obtain ⟨_, _, this⟩ := bind_inv this
      obtain ⟨_, _, this⟩ := bind_inv this
      obtain ⟨_, _, this⟩ := bind_inv this
      cases this
      rfl
    have hpos : 0 < b.cellSize := hgood.settings.cellSize
    have hcfg : ConfigIn (World.ofBuild env cfg scene fr w h) cfg.detailSampleDist (detailConfig env cfg fr set.borderSize) := by
      refine ⟨by show 0 < fr.cellSize; rw [e1]; exact hpos, hid _, hid _, hid _, hid _, ?_, hid _, ?_⟩
      · unfold detailConfig
        dsimp only
        rw [hid, hid, hid, hb, ← e3]
        show _ = (⟨fr.aabb.min.x + cfg.borderSize * fr.cellSize, fr.aabb.min.y, fr.aabb.min.z + cfg.borderSize * fr.cellSize⟩ : Vec3 ℚ)
        by_cases h0 : cfg.borderSize > 0
        · rw [if_pos h0]
        · rw [if_neg h0, show cfg.borderSize = 0 by omega]; simp
      · show cfg.detailSampleDist = 0 ∨ 9 / 10 * fr.cellSize ≤ cfg.detailSampleDist
        rw [hdist, e1]
        split
        · exact .inl rfl
        · right; nlinarith
    have hres := submesh_at hexact hcfg hne hv hcov (fun x z h hh => patch_floor hG hpatch hproper hroot hh) hsm
    rw [hrad] at hres
    by_cases hcoarse : b.detailSampleDist < 9 / 10
    · rw [hdist, if_pos hcoarse] at hres
      refine ⟨hres.1, fun p hp => .inl ?_⟩
      rcases hres.2 p hp with h | ⟨_, _, ⟨gx, gz, _, _, ⟨⟨v, _, h1⟩, _⟩, _⟩, _⟩
      · exact h
      · exfalso
        have : (0 : ℚ) ≤ v.x * (World.ofBuild env cfg scene fr w h).fr.cellSize := mul_nonneg (by positivity) (le_of_lt hcfg.pos)
        linarith
    · rw [hdist, if_neg hcoarse] at hres
      exact hres

theorem exactOps_exact : ExactArithmetic exactOps where
  lit _ := rfl
  add _ _ := rfl
  sub _ _ := rfl
  mul _ _ := rfl
  div _ _ := rfl
  ofInt _ := rfl
  min a b := by simp only [exactOps, min_def]
  max a b := by simp only [exactOps, max_def]
  floor _ := rfl
  ceil q := by
    show ((q.ceil : Int) : ℚ) = _
    rw [Rat.ceil_eq_neg_floor_neg]
    rfl
  toI32 n h1 h2 := by
    simp only [exactOps]
    split
    · rw [show (-(n : ℚ)).floor = -n from by
        rw [show (-(n : ℚ)) = ((-n : Int) : ℚ) by push_cast; rfl]; exact Rat.floor_intCast _]
      omega
    · rw [Rat.floor_intCast]
      omega
  toU32 n h := by
    simp only [exactOps]
    rw [show (n : ℚ).floor = (n : Int) from Rat.floor_intCast n]
    omega

/-- The four strips again (see the examples for C76 and C78 for the other hypotheses): their mesh is the rectangle from (3, 3) to (5, 4), one voxel above
floors at height 1. -/
example : ExactArithmetic exEnv.ops ∧ (∀ q, exEnv.toF q = q) ∧ buildNavmesh exEnv exBuilder ⟨true, false⟩ exScene = .ok (exPoly, exDetail) ∧
    0 ≤ exBuilder.edgeMaxError ∧ exBuilder.edgeMaxError ≤ 32767 ∧
    exDetail.vertices = [⟨3, 2, 4⟩, ⟨5, 2, 4⟩, ⟨5, 2, 3⟩, ⟨3, 2, 3⟩] :=
  ⟨exactOps_exact, fun _ => rfl, ex_build, by norm_num [exBuilder], by norm_num [exBuilder], rfl⟩

end Rerecast
