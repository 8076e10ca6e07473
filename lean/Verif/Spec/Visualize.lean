import Verif.Spec.PolyMesh
import Verif.Spec.DetailMesh
import Verif.Model.Visualize
/-! What it means that a drawing shows given polygons or triangles.  Only `PolygonNavmesh`, `DetailNavmesh` and `Drawing` come from the model. -/
namespace Rerecast.Visualize
variable {P : Type}

/-- A closed line through the points. -/
def closedLine (l : List P) : List P := l ++ l.take 1

/-- The triangles of the fan around the first corner. -/
def fanOf : List P → List (P × P × P)
  | [] => []
  | a :: rest => (rest.zip rest.tail).map fun bc => (a, bc.1, bc.2)

/-- Vertices and indices show the triangles `ts`, in this order, and nothing else: three indices for each triangle, each of a vertex. -/
inductive Shows (verts : List P) : List Nat → List (P × P × P) → Prop
  | nil : Shows verts [] []
  | cons {a b c : Nat} {p q r : P} {is : List Nat} {ts : List (P × P × P)} : verts[a]? = some p → verts[b]? = some q → verts[c]? = some r →
      Shows verts is ts → Shows verts (a :: b :: c :: is) ((p, q, r) :: ts)

/-- The corners of the polygons, at their positions. -/
def CornersAt (pos : U16Vec3 → P) (mesh : PolygonNavmesh) (corners : List (List P)) : Prop :=
  List.Forall₂ (List.Forall₂ fun k p => ∃ v, mesh.vertices[k]? = some v ∧ p = pos v) mesh.polys corners

/-- `p` are the corners of the triangle `t` among the vertices. -/
def CornersOf (verts : List P) (t : Nat × Nat × Nat) (p : P × P × P) : Prop :=
  verts[t.1]? = some p.1 ∧ verts[t.2.1]? = some p.2.1 ∧ verts[t.2.2]? = some p.2.2

/-- `ts` are the triangles of the sub-meshes of a detail mesh, sub-mesh by sub-mesh. -/
def DetailTriangles {F : Type} (dm : DetailNavmesh F) (ts : List (List (Vec3 F × Vec3 F × Vec3 F))) : Prop :=
  List.Forall₂ (fun m l => List.Forall₂ (CornersOf (dm.part m).1) (dm.part m).2.1 l) dm.meshes ts

end Rerecast.Visualize
