import Verif.Lemmas.PipelineMesh
import Verif.Props.C50_C69_DetailMesh
/-! The polygon mesh of a build is good input for the detail mesh. -/
namespace Rerecast
open Relation CompactHeightfield

/-- In a scene of less than 65534 voxels no floor is as high as 65535. -/
theorem span_low {F : Type} {W : World} {env : BuildEnv F} {b : ConfigBuilder} {scene : List Affector} (hM : W.Models env b scene)
    {chf : CompactHeightfield} (hG : GoodField W chf)
    (hlow : ∀ u v, SceneVertex scene u → SceneVertex scene v → v.y - u.y < 65534 * b.cellHeight) {x z i : Nat} {s : CompactSpan}
    (hat : chf.At x z i s) : s.y ≤ 65534 := by
  obtain ⟨h1, t, q, ht, hq, _, hv⟩ := (hG.inWorld.stand x z i s hat).1.ground
  simp only at h1 hv
  rw [hM.triangle] at ht
  obtain ⟨a, ha, vs, is, hr, n, i1, j1, k1, p1, q1, r1, _, _, _, e1, e2, e3, rfl⟩ := ht
  have hv' : ∀ p ∈ vs, W.fr.aabb.Contains (a.transform p) := fun p hp => hM.contains _ ⟨a, ha, vs, is, hr, p, hp, rfl⟩
  have hb := inTriangle_box (hv' _ (List.mem_of_getElem? e1)) (hv' _ (List.mem_of_getElem? e2)) (hv' _ (List.mem_of_getElem? e3)) hq
  obtain ⟨_, _, ⟨u, hu, eu⟩, ⟨v, hv2, ev⟩, _, _⟩ := hM.tight
  have hlt := hlow u v hu hv2
  have hpos := hG.inWorld.pos
  rw [hM.cellHeight] at hpos
  have h3 : ((s.y - 1 : Nat) : ℚ) * b.cellHeight < 65534 * b.cellHeight := by
    have := hv.1
    rw [hM.cellHeight] at this
    have := hb.2.2.2.1
    linarith
  have h4 : ((s.y - 1 : Nat) : ℚ) < 65534 := lt_of_mul_lt_mul_right h3 (le_of_lt hpos)
  have : s.y - 1 < 65534 := by exact_mod_cast h4
  omega

/-- The cell of a marked spot is next to the vertex. -/
theorem marks_cell {W : World} {p : Spot} {v : U16Vec3} (h : W.Marks p v) :
    v.x + W.border ≤ p.x + 1 ∧ p.x ≤ v.x + W.border ∧ v.z + W.border ≤ p.z + 1 ∧ p.z ≤ v.z + W.border := by
  obtain ⟨d, hd, e⟩ := h.corner
  unfold cornerOf at e
  split at e <;> rw [Prod.mk.injEq] at e <;> omega

/-- The polygon with number `i` is in a block, whose region is listed for it. -/
theorem block_of {cset : ContourSet} {nvp : Nat} {out : PolygonNavmesh} {blocks : List Block} (hB : MeshOf cset nvp out blocks) {i : Nat}
    (hi : i < out.polygonCount) : ∃ b ∈ blocks, out.polygon i ∈ b.polys ∧ out.regions[i]? = some b.contour.region := by
  have key : ∀ (bs : List Block) (i : Nat) (q : List Nat), (bs.flatMap (·.polys))[i]? = some q →
      ∃ b ∈ bs, q ∈ b.polys ∧ (bs.flatMap fun b => b.polys.map fun _ => b.contour.region)[i]? = some b.contour.region := by
    intro bs
    induction bs with
    | nil => intro i q h; simp at h
    | cons b bs ih =>
      intro i q h
      rw [List.flatMap_cons] at h ⊢
      rw [List.getElem?_append] at h ⊢
      rw [List.length_map]
      split at h
      · rename_i hlt
        rw [if_pos hlt]
        exact ⟨b, by simp, List.mem_of_getElem? h, by rw [List.getElem?_map, h]; rfl⟩
      · rename_i hlt
        rw [if_neg hlt]
        obtain ⟨b', h1, h2, h3⟩ := ih _ q h
        exact ⟨b', by simp [h1], h2, h3⟩
  have hp : out.polys[i]? = some (out.polygon i) := by
    unfold PolygonNavmesh.polys
    rw [List.getElem?_map, List.getElem?_range hi]; rfl
  rw [hB.polys] at hp
  obtain ⟨b, h1, h2, h3⟩ := key blocks i _ hp
  refine ⟨b, h1, h2, ?_⟩
  rw [← hB.regions, List.getElem?_take_of_lt hi] at h3
  exact h3

section
variable {W : World} {chf : CompactHeightfield} (hG : GoodField W chf) {t : Tests} {maxEdgeLen : Nat} {bf : ContourFlags} {set : ContourSet}
  (hok : chf.buildContours t maxEdgeLen bf = .ok set) {fuel nvp : Nat} (h3 : 3 ≤ nvp) (hn : nvp ≤ 126) (hfew : set.FewVertices)
  {poly : PolygonNavmesh} (hm : set.intoPolygonMesh fuel nvp = .ok poly)
include hG hok h3 hn hfew hm

theorem detailInput_of (hw : W.width ≤ 65535) (hd : W.depth ≤ 65535) (hb1 : 1 ≤ W.border) : DetailInput poly chf chf.borderSize := by
  obtain ⟨blocks, hB⟩ := c46_mesh set fuel nvp h3 (by omega) (Or.inr hfew) poly hm
  have hcount : poly.polygonCount ≤ 65535 := by
    have e : poly.polys.length = poly.polygonCount := by unfold PolygonNavmesh.polys; simp
    rw [← e, hB.polys, List.length_flatMap]
    have : ∀ bs : List Block, (∀ b ∈ bs, b ∈ blocks) → (bs.map fun b => b.polys.length).sum ≤ ((bs.map (·.contour)).map (·.vertices.length)).sum := by
      intro bs
      induction bs with
      | nil => intro _; simp
      | cons b bs ih =>
        intro h
        have h1 := (hB.makes b (h b (by simp))).count.2
        have h2 := ih fun c hc => h c (by simp [hc])
        simp only [List.map_cons, List.sum_cons]
        omega
    have h1 := this blocks fun b hb => hb
    rw [hB.contours] at h1
    have h2 := hfew
    unfold ContourSet.FewVertices at h2
    exact Nat.le_of_lt (Nat.lt_of_le_of_lt h1 h2)
  refine ⟨by omega, ?_, ?_, ?_⟩
  · intro i hi
    obtain ⟨b, hb, hq, _⟩ := block_of hB hi
    obtain ⟨k1, k2, _⟩ := (hB.makes b hb).sizes _ hq
    exact ⟨k1, by omega⟩
  · intro i hi k hk
    obtain ⟨b, hb, hq, _⟩ := block_of hB hi
    have hM := hB.makes b hb
    obtain ⟨v, hv, w, hwv, hnear⟩ := forall₂_mem_right hM.stands ((hM.sizes _ hq).2.2 k hk)
    refine ⟨w, hwv, ?_⟩
    obtain ⟨c, hc, hcv⟩ := (c45_mesh set fuel nvp h3 poly hm).2 w (List.mem_of_getElem? hwv)
    obtain ⟨p, hs, hmk⟩ := contour_marks hG hok hc hcv
    have := marks_cell hmk
    have := hs.inside
    have e1 := hG.border
    have e2 := hG.width
    have e3 := hG.height
    omega
  · have e := congrArg List.length hB.regions
    have : (blocks.flatMap fun b => b.polys.map fun _ => b.contour.region).length = poly.polys.length := by
      rw [hB.polys, List.length_flatMap, List.length_flatMap]
      simp
    rw [this, List.length_take] at e
    have e2 : poly.polys.length = poly.polygonCount := by unfold PolygonNavmesh.polys; simp
    omega

theorem regionPresent_of (hsym : chf.SymmetricLinks)
    (hshort : ∀ r v, chf.IsCircuit r v → (∃ s ∈ v, chf.BoundarySide s) → v.length ≤ 40000) :
    ∀ i < poly.polygonCount, RegionPresent poly chf chf.borderSize i := by
  obtain ⟨blocks, hB⟩ := c46_mesh set fuel nvp h3 (by omega) (Or.inr hfew) poly hm
  intro i hi region hp vs hr hvs hx hz
  obtain ⟨b, hb, hq, hreg⟩ := block_of hB hi
  rw [hr] at hreg; cases hreg
  have hM := hB.makes b hb
  have hbc : b.contour ∈ set.contours := by
    have : b.contour ∈ blocks.map (·.contour) := List.mem_map_of_mem hb
    rw [hB.contours] at this
    exact (List.mem_filter.1 this).1
  obtain ⟨k1, _, k3⟩ := hM.sizes _ hq
  obtain ⟨k, hk⟩ : ∃ k, k ∈ poly.polygon i := by
    cases e : poly.polygon i with
    | nil => rw [e] at k1; simp at k1
    | cons k _ => exact ⟨k, by simp⟩
  obtain ⟨v, hv, w, hw, hnear⟩ := forall₂_mem_right hM.stands (k3 k hk)
  obtain ⟨x, z, j, s, a1, a2, a3, a4⟩ := contour_region hG hsym hshort hok hbc (v := v.1) (List.mem_map_of_mem hv)
  have hwm : w ∈ vs := by
    obtain ⟨u, hu, e⟩ := forall₂_mem_right hvs.flip hk
    rw [hw] at e; cases e; exact hu
  have hcell := marks_cell a4
  simp only at hcell
  have hs := hG.safe x z j s a1 a2
  have hsi := hs.inside
  simp only at hsi
  have e1 := hG.border
  have hx1 := hx.1 w.x (List.mem_map_of_mem hwm)
  have hz1 := hz.1 w.z (List.mem_map_of_mem hwm)
  have hlt := a1.1
  have hlt2 := a1.2.1
  obtain ⟨n1, n2, _, _⟩ := hnear
  have hin : hp.InPatch chf.borderSize x z := by
    unfold HeightPatch.InPatch
    omega
  refine ⟨?_, ?_⟩
  · rw [← a3]
    intro h0
    rw [h0] at a2
    revert a2
    decide
  · have hex : ∃ j s, chf.At x z j s ∧ s.region = b.contour.region := ⟨j, s, a1, a3⟩
    classical
    obtain ⟨s0, h1, h2⟩ := Nat.find_spec hex
    exact ⟨Nat.find hex, x, z, s0, h1, hin, h2, fun i t hi ht => Nat.find_min' hex ⟨t, hi, ht⟩⟩

end

/-- Connections of the field are symmetric. -/
theorem symmetric_of {hf : Heightfield} (hwf : hf.WellFormed) (hsm : hf.spanCount < 2 ^ 32) {wh climb : Nat} (hlt : climb < wh)
    {c0 chf : CompactHeightfield} (h0 : hf.intoCompact wh climb = .ok c0) (hlike : Like c0 chf) (hlay : ∀ c ∈ chf.cells, c.count ≤ 62) :
    chf.SymmetricLinks := by
  intro i k d hd hl
  obtain ⟨x, z, hc⟩ := hlike.symm.link hl
  have hc' := hc
  obtain ⟨s, l, nx, nz, nb, hat, _, hn, _⟩ := hc'
  refine hlike.link ⟨nx, nz, ?_⟩
  exact (c23_connections_symmetric_partial hf hwf hsm wh climb hlt c0 h0 (by rw [← hlike.cells]; exact hlay) x z nx nz i k d hat.1 hat.2.1 hd hn).1 hc

theorem nvp_ge {b : ConfigBuilder} {cfg : Config} (h : b.build = .ok cfg) (h3 : 3 ≤ b.vertsPerPoly) : 3 ≤ cfg.maxVerticesPerPolygon := by
  unfold ConfigBuilder.build at h
  obtain ⟨_, _, h⟩ := bind_inv h
  obtain ⟨_, _, h⟩ := bind_inv h
  obtain ⟨_, _, h⟩ := bind_inv h
  cases h
  simp only [satU16]
  have : (3 : ℤ) ≤ ⌊b.vertsPerPoly⌋ := Int.le_floor.2 (by exact_mod_cast h3)
  omega

theorem nvp_le {b : ConfigBuilder} {cfg : Config} (h : b.build = .ok cfg) : cfg.maxVerticesPerPolygon ≤ 65535 := by
  unfold ConfigBuilder.build at h
  obtain ⟨_, _, h⟩ := bind_inv h
  obtain ⟨_, _, h⟩ := bind_inv h
  obtain ⟨_, _, h⟩ := bind_inv h
  cases h
  simp only [satU16]
  omega

theorem nvp_le' {b : ConfigBuilder} {cfg : Config} (h : b.build = .ok cfg) (h3 : b.vertsPerPoly < 127) : cfg.maxVerticesPerPolygon ≤ 126 := by
  unfold ConfigBuilder.build at h
  obtain ⟨_, _, h⟩ := bind_inv h
  obtain ⟨_, _, h⟩ := bind_inv h
  obtain ⟨_, _, h⟩ := bind_inv h
  cases h
  simp only [satU16]
  have : ⌊b.vertsPerPoly⌋ < 127 := Int.floor_lt.2 (by exact_mod_cast h3)
  omega

theorem contours_border {chf : CompactHeightfield} {t : Tests} {maxEdgeLen : Nat} {bf : ContourFlags} {set : ContourSet}
    (hok : chf.buildContours t maxEdgeLen bf = .ok set) : set.borderSize = chf.borderSize := by
  unfold buildContours at hok
  obtain ⟨_, _, hok⟩ := bind_inv hok
  obtain ⟨_, _, hok⟩ := bind_inv hok
  obtain ⟨_, _, hok⟩ := bind_inv hok
  obtain ⟨_, _, hok⟩ := bind_inv hok
  obtain ⟨_, _, hok⟩ := bind_inv hok
  cases hok
  rfl

theorem contours_room {chf : CompactHeightfield} {t : Tests} {maxEdgeLen : Nat} {bf : ContourFlags} {set : ContourSet}
    (hok : chf.buildContours t maxEdgeLen bf = .ok set) : 2 * chf.borderSize ≤ chf.width ∧ 2 * chf.borderSize ≤ chf.height := by
  unfold buildContours at hok
  obtain ⟨b2, h1, hok⟩ := bind_inv hok
  obtain ⟨_, h2, hok⟩ := bind_inv hok
  obtain ⟨_, h3, hok⟩ := bind_inv hok
  unfold mulU16 at h1
  split at h1
  · cases h1
    unfold subU at h2 h3
    split at h2
    · split at h3
      · omega
      · cases h3
    · cases h2
  · cases h1

theorem spans_low {F : Type} {W : World} {env : BuildEnv F} {b : ConfigBuilder} {scene : List Affector} (hM : W.Models env b scene)
    {chf : CompactHeightfield} (hG : GoodField W chf)
    (hlow : ∀ u v, SceneVertex scene u → SceneVertex scene v → v.y - u.y < 65534 * b.cellHeight) : ∀ s ∈ chf.spans, s.y ≠ 0xFFFF := by
  intro s hs
  obtain ⟨i, hi⟩ := List.mem_iff_getElem?.1 hs
  have hat := at_spec hG.wf hi
  have := span_low hM hG hlow hat
  omega

theorem some_span {cfg : Config} {hf : Heightfield} {c0 chf : CompactHeightfield} (hw : c0.width ≤ 32767)
    (h0 : hf.intoCompact cfg.walkableHeight cfg.walkableClimb = .ok c0) (hwf0 : c0.WellFormed) (hlike : Like c0 chf) (hwf : chf.WellFormed)
    (hok : buildCompact cfg hf = .ok chf) : ∃ x z i s, chf.At x z i s := by
  have hne : c0.spans ≠ [] := by
    intro hsp
    rw [buildCompact, h0, bind_ok] at hok
    obtain ⟨c1, hc1, hok⟩ := bind_inv hok
    obtain ⟨c2, hc2, hok⟩ := bind_inv hok
    obtain ⟨d1, l1, _⟩ := c25_only_removes c0 hwf0 _ c1 hc1
    have hwf1 : c1.WellFormed := by
      rw [d1]
      exact ⟨hwf0.width_u16, hwf0.height_u16, hwf0.cells_len, by simp only; rw [l1]; exact hwf0.areas_len, hwf0.partition, hwf0.con⟩
    rw [c32_empty_panics c1 hwf1 (by rw [d1]; exact Or.inl hw) (by rw [d1]; exact hsp)] at hc2
    cases hc2
  obtain ⟨s, hs⟩ := List.exists_mem_of_ne_nil _ hne
  obtain ⟨i, hi⟩ := List.mem_iff_getElem?.1 hs
  obtain ⟨t, ht, _⟩ := hlike.span hi
  have hat := at_spec hwf ht
  exact ⟨_, _, i, t, hat⟩

end Rerecast
