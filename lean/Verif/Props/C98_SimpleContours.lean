import Verif.Lemmas.Jordan12
import Verif.Props.C44_C49_PolyMesh
/-! C98: contours that do not touch themselves. -/
namespace Rerecast
open Jordan

/-- **C98 (triangulation).** A contour of any number of corners, convex or not, that does not touch itself and runs around in the direction of
outer contours, with coordinates up to 32767, is triangulated: without panic, error or endless loop, into two triangles fewer than corners,
all of which turn like the contour. -/
theorem c98_triangulated (verts : List U16Vec3) (hs : ∀ v ∈ verts, v.x ≤ 32767 ∧ v.z ≤ 32767) (S : SimplePolygon (verts.map U16Vec3.plane))
    (hd : shoelace id verts < 0) : ∃ T, triangulate verts = .ok T ∧ T.length = verts.length - 2 ∧ ∀ t ∈ T, t.turn verts < 0 := by
  obtain ⟨T, h1, h2, h3, _⟩ := triangulate_simple hs (simple_pt S) (val_pt S hd)
  exact ⟨T, h1, h2.count, h3⟩

/-- **C98 (the triangles).** No point is strictly inside two of the triangles; every point the contour encloses is in one of them; what is
strictly inside a triangle is enclosed by the contour. -/
theorem c98_triangles (verts : List U16Vec3) (hs : ∀ v ∈ verts, v.x ≤ 32767 ∧ v.z ≤ 32767) (S : SimplePolygon (verts.map U16Vec3.plane))
    (hd : shoelace id verts < 0) (T : List Tri) (hT : triangulate verts = .ok T) :
    let corner := fun i => (verts.getD i ⟨0, 0, 0⟩).plane
    (T.Pairwise fun t t' => ∀ p, ¬ (InsideTriangle p (corner t.1) (corner t.2.1) (corner t.2.2) ∧
      InsideTriangle p (corner t'.1) (corner t'.2.1) (corner t'.2.2))) ∧
    (∀ p, Encloses (verts.map U16Vec3.plane) p → ∃ t ∈ T, InPlaneTriangle p (corner t.1) (corner t.2.1) (corner t.2.2)) ∧
    ∀ t ∈ T, ∀ p, InsideTriangle p (corner t.1) (corner t.2.1) (corner t.2.2) → Encloses (verts.map U16Vec3.plane) p := by
  obtain ⟨T', h1, h2, h3, _⟩ := triangulate_simple hs (simple_pt S) (val_pt S hd)
  rw [hT] at h1
  injection h1 with e
  subst e
  exact ⟨tris_apart (simple_pt S) (val_pt S hd) h2 h3, tris_cover h2 h3, fun t m p hp => tris_within (simple_pt S) (val_pt S hd) h2 h3 m p hp⟩

/-- **C98 (the mesh).** In the polygon mesh, the polygons of such a contour are convex, no point is enclosed by two of them, and together they
enclose what the contour encloses. -/
theorem c98_mesh (cset : ContourSet) (fuel nvp : Nat) (h3 : 3 ≤ nvp) (hn : nvp ≤ 65535) (hb : cset.NoBorderVertices ∨ cset.FewVertices)
    (hs : cset.Small) (out : PolygonNavmesh) (hr : cset.intoPolygonMesh fuel nvp = .ok out) :
    ∃ blocks, MeshOf cset nvp out blocks ∧ ∀ b ∈ blocks, SimplePolygon (b.contour.points.map U16Vec3.plane) → shoelace id b.contour.points < 0 →
      let outline := fun p : List Nat => p.map fun i => (pos out.vertices i).plane
      (∀ p ∈ b.polys, StrictlyConvex (p.map (pos out.vertices))) ∧
      (b.polys.Pairwise fun p p' => ∀ q, ¬ (Encloses (outline p) q ∧ Encloses (outline p') q)) ∧
      ∀ q, Encloses (b.contour.points.map U16Vec3.plane) q ↔ ∃ p ∈ b.polys, Encloses (outline p) q := by
  obtain ⟨blocks, hm⟩ := c46_mesh cset fuel nvp h3 hn hb out hr
  refine ⟨blocks, hm, ?_⟩
  intro b hbm S hd
  have M := hm.makes b hbm
  have hs' : ∀ v ∈ b.contour.points, v.x ≤ 32767 ∧ v.z ≤ 32767 := by
    have : b.contour ∈ cset.contours := by
      have h : b.contour ∈ blocks.map (·.contour) := List.mem_map.2 ⟨b, hbm, rfl⟩
      rw [hm.contours] at h
      exact (List.mem_filter.1 h).1
    exact hs _ this
  exact ⟨M.convex (M.distinct (simple_corners S)) (wellTriangulated S hd hs'), polys_apart M S hd hs', polys_cover M S hd hs'⟩

/-- An L-shaped contour. -/
def exampleL : List U16Vec3 := [⟨0, 0, 0⟩, ⟨0, 0, 8⟩, ⟨4, 0, 8⟩, ⟨4, 0, 4⟩, ⟨8, 0, 4⟩, ⟨8, 0, 0⟩]

/-- The L-shaped contour meets the hypotheses of `c98_triangulated` and `c98_triangles`. -/
theorem exampleL_simple : SimplePolygon (exampleL.map U16Vec3.plane) := by
  have hs : sides (exampleL.map U16Vec3.plane) = [((0, 0), (0, 8)), ((0, 8), (4, 8)), ((4, 8), (4, 4)), ((4, 4), (8, 4)), ((8, 4), (8, 0)), ((8, 0), (0, 0))] := by
    simp [exampleL, sides, U16Vec3.plane]
  refine ⟨by decide, by decide +kernel, ?_⟩
  rw [hs]
  rintro e he f hf hne ⟨x, y⟩ ⟨t, t0, t1, e1, e2⟩ ⟨s, s0, s1, e3, e4⟩
  simp only [List.mem_cons, List.not_mem_nil, or_false] at he hf
  rcases he with rfl | rfl | rfl | rfl | rfl | rfl <;> rcases hf with rfl | rfl | rfl | rfl | rfl | rfl <;> dsimp only at e1 e2 e3 e4 <;>
    first
    | exact absurd rfl hne
    | (exfalso; linarith)
    | (left; constructor <;> (apply Prod.ext <;> dsimp only <;> linarith))
    | (right; constructor <;> (apply Prod.ext <;> dsimp only <;> linarith))

example : (∀ v ∈ exampleL, v.x ≤ 32767 ∧ v.z ≤ 32767) ∧ shoelace id exampleL < 0 := by decide

/-- It encloses points in both of its arms, and not the one in its notch. -/
example : Encloses (exampleL.map U16Vec3.plane) (1, 7) ∧ Encloses (exampleL.map U16Vec3.plane) (7, 1) ∧
    ¬ Encloses (exampleL.map U16Vec3.plane) (7, 7) := by
  refine ⟨?_, ?_, ?_⟩ <;> rw [encloses_iff] <;> decide +kernel

/-- The contours of `exampleContours` meet the hypotheses of `c98_mesh`; the first is the L. -/
example : exampleContours.Small ∧ exampleContours.contours.head?.map Contour.points = some exampleL := by
  refine ⟨?_, by decide⟩
  unfold ContourSet.Small
  decide

end Rerecast
