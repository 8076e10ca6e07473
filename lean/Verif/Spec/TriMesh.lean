import Verif.Model.TriMesh
/-! What a triangle mesh denotes: its list of triangles by coordinates, with their areas. -/
namespace Rerecast
variable {K : Type}

namespace TriMesh

/-- Every index is in range and there is one area per triangle. -/
structure WF (m : TriMesh K) : Prop where
  inRange : ∀ t ∈ m.indices, t.1 < m.vertices.length ∧ t.2.1 < m.vertices.length ∧
    t.2.2 < m.vertices.length
  areas : m.areaTypes.length = m.indices.length

/-- The coordinates of the three corners of triangle `t`. -/
def corners (m : TriMesh K) (t : Nat) : Option (V3 K × V3 K × V3 K) :=
  match m.indices[t]? with
  | none => none
  | some i =>
    match m.vertices[i.1]?, m.vertices[i.2.1]?, m.vertices[i.2.2]? with
    | some a, some b, some c => some (a, b, c)
    | _, _, _ => none

/-- The triangles of a mesh, in order: corner coordinates and area. -/
def soup (m : TriMesh K) : List (Option (V3 K × V3 K × V3 K) × Option Area) :=
  (List.range m.indices.length).map fun t => (m.corners t, m.areaTypes[t]?)

/-- The mesh with every vertex moved. -/
def moved (f : V3 K → V3 K) (m : TriMesh K) : TriMesh K := { m with vertices := m.vertices.map f }

end TriMesh

/-- `v` lies in the box. -/
def Aabb3.Contains [LinearOrder K] (b : Aabb3 K) (v : V3 K) : Prop :=
  b.min.x ≤ v.x ∧ v.x ≤ b.max.x ∧ b.min.y ≤ v.y ∧ v.y ≤ b.max.y ∧ b.min.z ≤ v.z ∧ v.z ≤ b.max.z

end Rerecast
