import Verif.Lemmas.Jordan14
import Verif.Props.C70_C71_DetailError
import Verif.Props.C81_World
import Verif.Props.C98_SimpleContours
/-!
C100: the triangles of the detail mesh fill the polygons.
-/
set_option linter.unusedVariables false
namespace Rerecast
open Jordan

/-- The outline of a polygon in the world, seen from above. -/
def PolygonNavmesh.outline (mesh : PolygonNavmesh) (c : DetailConfig Rat) (i : Nat) : List Point :=
  (mesh.polygon i).map fun k => ((pos mesh.vertices k).x * c.cellSize + c.origin.x, (pos mesh.vertices k).z * c.cellSize + c.origin.z)

/-- The places of the vertices of a sub-mesh in the world, seen from above. -/
def DetailNavmesh.place (dm : DetailNavmesh Rat) (m : SubMesh) (v : Nat) : Point := ((dm.part m).1.getD v ⟨0, 0, 0⟩).plane

/-- The sub-mesh `m` has a vertex that is an interior sample of the polygon `i`, taken from a height patch of the polygon. -/
def HasInterior (o : FloatOps Rat) (c : DetailConfig Rat) (mesh : PolygonNavmesh) (chf : CompactHeightfield) (dm : DetailNavmesh Rat) (i : Nat) (m : SubMesh) : Prop :=
  ∃ region hp, mesh.regions[i]? = some region ∧ IsPatch chf c.borderSize region ((mesh.polygon i).map (pos mesh.vertices)) hp ∧
    ∃ p, IsInterior o c hp (((mesh.polygon i).map (pos mesh.vertices)).map (cornerPos o c)) p ∧ worldPos o c p ∈ (dm.part m).1

/-- The polygon `i` is narrow: its extent, as computed, is below the square of twice the sample distance. -/
def IsNarrow (o : FloatOps Rat) (c : DetailConfig Rat) (mesh : PolygonNavmesh) (i : Nat) : Prop :=
  ∃ ext, polyMinExtent o (((mesh.polygon i).map (pos mesh.vertices)).map (cornerPos o c)) (mesh.polygon i).length = .ok ext ∧
    o.lt ext (o.mul (o.mul c.sampleDist (o.lit 2)) (o.mul c.sampleDist (o.lit 2))) = true

/-- **C100.** In a detail mesh computed without rounding, the triangles of the sub-mesh of a strictly convex polygon fill the polygon, seen from above: those
that are not flat do not overlap, do not stick out, and leave no part uncovered; unless the sub-mesh has interior samples.  Narrow polygons always
are filled. -/
theorem c100_fills (o : FloatOps Rat) (ho : ExactArithmetic o) (alloc : Allocator) (c : DetailConfig Rat) (hcs : 0 < c.cellSize) (mesh : PolygonNavmesh)
    (chf : CompactHeightfield) (hwf : chf.WellFormed) (hw : 1 ≤ chf.width) (hh : 1 ≤ chf.height) (hy : ∀ s ∈ chf.spans, s.y ≠ 0xFFFF)
    (hin : DetailInput mesh chf c.borderSize) (hR : c.radius o ≤ 32767) (hst : SidesCountable o c mesh) (dm : DetailNavmesh Rat)
    (hdm : detailNavmesh o alloc c mesh chf = .ok dm) (i : Nat) (m : SubMesh) (hm : dm.meshes[i]? = some m)
    (hconv : StrictlyConvex ((mesh.polygon i).map (pos mesh.vertices))) :
    (HasInterior o c mesh chf dm i m ∨ Fills (dm.place m) (dm.part m).2.1 (mesh.outline c i)) ∧
    (IsNarrow o c mesh i → Fills (dm.place m) (dm.part m).2.1 (mesh.outline c i)) := by
  have hD := c66_tables o alloc c mesh chf hwf hw hh hy hin hR hst dm hdm
  obtain ⟨vs, region, hp, d, h1, h2, h3, h4, h5, h6, h7⟩ := hD.parts i m hm
  have hi : i < mesh.polygonCount := by rw [← hD.count]; exact (List.getElem?_eq_some_iff.1 hm).1
  have hlen := h1.length_eq
  have hvs : vs = (mesh.polygon i).map (pos mesh.vertices) := by
    clear hlen h3 h4 hconv
    generalize mesh.polygon i = p at h1
    induction h1 with
    | nil => rfl
    | cons h _ ih =>
      rw [List.map_cons, ← ih]
      unfold pos
      rw [List.getD_eq_getElem?_getD, h]
      rfl
  obtain ⟨hull, k, g1, g2, g3, _, g5, _, _, g8⟩ := h4.outline
  have fill : d.nverts = k → Fills (dm.place m) (dm.part m).2.1 (mesh.outline c i) := by
    intro e
    have := submesh_fills ho hcs (by rw [← hlen]; exact (hin.corners i hi).1) (hvs ▸ hconv) h4 g1 e (g5 e)
    unfold DetailNavmesh.place PolygonNavmesh.outline
    rw [h5]
    rw [hvs, List.map_map] at this
    exact this
  constructor
  · rcases g2.lt_or_eq with hlt | heq
    · obtain ⟨p, hv, hI⟩ := g3 k (le_refl _) hlt
      refine Or.inl ⟨region, hp, h2, hvs ▸ h3, p, hvs ▸ hI, ?_⟩
      rw [h5]
      refine List.mem_map.2 ⟨p, ?_, rfl⟩
      refine List.mem_of_getElem? (i := k) ?_
      rw [List.getElem?_take_of_lt hlt, hv]
    · exact Or.inr (fill heq.symm)
  · rintro ⟨ext, e1, e2⟩
    rw [hvs, List.length_map, List.length_map] at g8
    exact fill (g8 ext e1 e2)

/-- **C100 (contours).** The same for all polygons of a contour that does not touch itself and runs in the direction of outer contours, of any shape:
from the contours through the polygon mesh to the detail mesh.  Together with `c98_mesh`, what the contour encloses is partitioned. -/
theorem c100_contours (cset : ContourSet) (fuel nvp : Nat) (hn3 : 3 ≤ nvp) (hn : nvp ≤ 65535) (hb : cset.NoBorderVertices ∨ cset.FewVertices)
    (hs : cset.Small) (mesh : PolygonNavmesh) (hmesh : cset.intoPolygonMesh fuel nvp = .ok mesh)
    (o : FloatOps Rat) (ho : ExactArithmetic o) (alloc : Allocator) (c : DetailConfig Rat) (hcs : 0 < c.cellSize)
    (chf : CompactHeightfield) (hwf : chf.WellFormed) (hw : 1 ≤ chf.width) (hh : 1 ≤ chf.height) (hy : ∀ s ∈ chf.spans, s.y ≠ 0xFFFF)
    (hin : DetailInput mesh chf c.borderSize) (hR : c.radius o ≤ 32767) (hst : SidesCountable o c mesh) (dm : DetailNavmesh Rat)
    (hdm : detailNavmesh o alloc c mesh chf = .ok dm) :
    ∃ blocks, MeshOf cset nvp mesh blocks ∧ ∀ b ∈ blocks, SimplePolygon (b.contour.points.map U16Vec3.plane) → shoelace id b.contour.points < 0 →
      ∀ i m, mesh.polygon i ∈ b.polys → dm.meshes[i]? = some m →
        (HasInterior o c mesh chf dm i m ∨ Fills (dm.place m) (dm.part m).2.1 (mesh.outline c i)) ∧
        (IsNarrow o c mesh i → Fills (dm.place m) (dm.part m).2.1 (mesh.outline c i)) := by
  obtain ⟨blocks, h1, h2⟩ := c98_mesh cset fuel nvp hn3 hn hb hs mesh hmesh
  refine ⟨blocks, h1, fun b hbm S hd i m hi hm => ?_⟩
  exact c100_fills o ho alloc c hcs mesh chf hwf hw hh hy hin hR hst dm hdm i m hm ((h2 b hbm S hd).1 _ hi)

/-- The two triangles over the plain (see `sampleMesh_ok` for the other hypotheses) are strictly convex and are filled by one triangle each. -/
example : 0 < (sampleConfig 1).cellSize ∧ StrictlyConvex ((sampleMesh.polygon 0).map (pos sampleMesh.vertices)) ∧
    (detailNavmesh exactOps doublingAllocator (sampleConfig 1) sampleMesh flatChf.oneRegion).map (fun dm => dm.meshes.map fun m => (dm.part m).2.1) =
      .ok [[(2, 0, 1)], [(2, 0, 1)]] := by
  refine ⟨by norm_num [sampleConfig], ?_, by decide +kernel⟩
  rw [show (sampleMesh.polygon 0).map (pos sampleMesh.vertices) = [⟨0, 5, 0⟩, ⟨0, 5, 3⟩, ⟨3, 5, 3⟩] by decide +kernel]
  intro i j k hij hjk hk
  obtain ⟨rfl, rfl, rfl⟩ : i = 0 ∧ j = 1 ∧ k = 2 := by simp at hk; omega
  simp [cross]

end Rerecast
