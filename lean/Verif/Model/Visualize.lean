import Verif.Model.DetailMesh
import Verif.Model.TriMesh
/-!
Model of what the editor draws (`bevy_rerecast_editor/src/visualization.rs`): the lines and the triangles shown for a polygon mesh, for a
detail mesh and for the affectors, and when they are shown and hidden.

Colours, materials, line widths and everything else that does not depend on the navmesh are left out.  The world position of a vertex of a
polygon mesh is a parameter `pos` (lines 160, 175, 186, 187: the same expression `origin + vertex * to_local` at all four places).
-/
namespace Rerecast

/-- `chunks_exact(n)` for `n > 0`: the rest at the end is left out. -/
def chunksExact {α : Type} (n : Nat) : Nat → List α → List (List α)
  | 0, _ => []
  | fuel + 1, l => if n ≤ l.length then l.take n :: chunksExact n fuel (l.drop n) else []

/-- poly_mesh.rs:159-164 `polygons`; `chunks_exact(0)` panics.  There are at most as many chunks as entries, if there is a chunk at all. -/
def PolygonNavmesh.iterPolygons (n : PolygonNavmesh) : Res (List (List Nat)) :=
  if n.nvp = 0 then .error .panic
  else .ok ((chunksExact n.nvp n.polygons.length n.polygons).map fun chunk => chunk.takeWhile (· ≠ NO_INDEX))

namespace Visualize
variable {P : Type}

/-- What is drawn: line strips (`gizmo.linestrip`), and the vertices and indices of the visual mesh. -/
structure Drawing (P : Type) where
  strips : List (List P)
  verts : List P
  indices : List Nat
  deriving DecidableEq, Repr

/-- `&l[i..]`: panics if `i` is beyond the end. -/
def sliceFrom {α : Type} (l : List α) (i : Nat) : Res (List α) := if i ≤ l.length then .ok (l.drop i) else .error .panic

/-- `&l[..n]`: panics if the list is shorter. -/
def sliceTo {α : Type} (l : List α) (n : Nat) : Res (List α) := if n ≤ l.length then .ok (l.take n) else .error .panic

/-- `n as u32` on a `usize`: wraps. -/
def asU32 (n : Nat) : Nat := n % 4294967296

/-- visualization.rs:163-164, 244-245, 308-309: the first point is repeated at the end; `verts[0]` panics on an empty list. -/
def closeStrip (verts : List P) : Res (List P) := do
  let first ← idx verts 0
  .ok (verts ++ [first])

/-- visualization.rs:152-167: the line strip of polygon `i`. -/
def polyStrip (pos : U16Vec3 → P) (mesh : PolygonNavmesh) (i : Nat) : Res (List P) := do
  let poly ← sliceFrom mesh.polygons (i * mesh.nvp)
  let poly ← sliceTo poly mesh.nvp
  let verts ← (poly.filter (· ≠ NO_INDEX)).mapM fun k => do
    let v ← idx mesh.vertices k
    .ok (pos v)
  closeStrip verts

/-- visualization.rs:180-197: one step of the fan around the vertex with index `a`. -/
def fanStep (pos : U16Vec3 → P) (mesh : PolygonNavmesh) (a : Nat) (st : List P × List Nat) (bc : Nat × Nat) : Res (List P × List Nat) :=
  if bc.1 = NO_INDEX ∨ bc.2 = NO_INDEX then .ok st
  else do
    let b ← idx mesh.vertices bc.1
    let c ← idx mesh.vertices bc.2
    let bi := asU32 st.1.length
    let verts := st.1 ++ [pos b]
    let ci := asU32 verts.length
    .ok (verts ++ [pos c], st.2 ++ [a, bi, ci])

/-- visualization.rs:173-198: the fan of polygon `i`; `poly[1..nvp]` panics if `nvp` is 0 or beyond the end.  `windows(2)` are the pairs of
neighbouring entries. -/
def fanPoly (pos : U16Vec3 → P) (mesh : PolygonNavmesh) (st : List P × List Nat) (i : Nat) : Res (List P × List Nat) := do
  let poly ← sliceFrom mesh.polygons (i * mesh.nvp)
  let k ← idx poly 0
  let a ← idx mesh.vertices k
  let ai := asU32 st.1.length
  let row ← sliceTo poly mesh.nvp
  if mesh.nvp = 0 then .error .panic
  else ((row.drop 1).zip (row.drop 2)).foldlM (fanStep pos mesh ai) (st.1 ++ [pos a], st.2)

/-- visualization.rs:131-214 `draw_poly_mesh`; `polygon_count` divides by `nvp`. -/
def drawPolyMesh (pos : U16Vec3 → P) (mesh : PolygonNavmesh) : Res (Drawing P) :=
  if mesh.nvp = 0 then .error .panic
  else do
    let strips ← (List.range mesh.polygonCount).mapM (polyStrip pos mesh)
    let r ← (List.range mesh.polygonCount).foldlM (fanPoly pos mesh) ([], [])
    .ok ⟨strips, r.1, r.2⟩

/-- visualization.rs:235-238, 256-260: vertices and triangles of a sub-mesh. -/
def subMeshSlices {F : Type} (mesh : DetailNavmesh F) (m : SubMesh) : Res (List (Vec3 F) × List DTri) := do
  let vs ← sliceFrom mesh.vertices m.baseVertex
  let vs ← sliceTo vs m.vertexCount
  let ts ← sliceFrom mesh.triangles m.baseTriangle
  let ts ← sliceTo ts m.triangleCount
  .ok (vs, ts)

/-- visualization.rs:239-248: the line strip of a triangle. -/
def triStrip (verts : List P) (t : Nat × Nat × Nat) : Res (List P) := do
  let vs ← [t.1, t.2.1, t.2.2].mapM (idx verts)
  closeStrip vs

/-- visualization.rs:234-249: the line strips of a sub-mesh. -/
def subMeshStrips {F : Type} (mesh : DetailNavmesh F) (m : SubMesh) : Res (List (List (Vec3 F))) := do
  let s ← subMeshSlices mesh m
  s.2.mapM (triStrip s.1)

/-- visualization.rs:255-267: vertices and indices of a sub-mesh.  The number of vertices so far is added to every index. -/
def subMeshFill {F : Type} (mesh : DetailNavmesh F) (st : List (Vec3 F) × List Nat) (m : SubMesh) : Res (List (Vec3 F) × List Nat) := do
  let s ← subMeshSlices mesh m
  let is ← (s.2.flatMap fun t => [t.1, t.2.1, t.2.2]).mapM fun i => addU32 i (asU32 st.1.length)
  .ok (st.1 ++ s.1, st.2 ++ is)

/-- visualization.rs:216-283 `draw_detail_mesh` -/
def drawDetailMesh {F : Type} (mesh : DetailNavmesh F) : Res (Drawing (Vec3 F)) := do
  let strips ← mesh.meshes.mapM (subMeshStrips mesh)
  let r ← mesh.meshes.foldlM (subMeshFill mesh) ([], [])
  .ok ⟨strips.flatten, r.1, r.2⟩

/-- visualization.rs:285-314 `draw_navmesh_affector`: the line strips of the triangle mesh of an affector. -/
def drawAffector {F : Type} (mesh : TriMesh F) : Res (List (List (V3 F))) := mesh.indices.mapM (triStrip mesh.vertices)

end Visualize

end Rerecast
