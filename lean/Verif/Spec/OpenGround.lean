import Verif.Spec.Coverage
import Verif.Spec.Joined
/-! Specification vocabulary for open ground: places of a scene around which the agent can walk freely, and polygons over places. -/
namespace Rerecast
namespace World

/-- Seen from above, some point of the cell `(cx, cz)` is at most `d` cell sizes away from the point `(x, z)` of the world. -/
def NearCell (w : World) (d x z : ℚ) (cx cz : Nat) : Prop :=
  ∃ q : V3 ℚ, InCell w.fr cx cz q ∧ (q.x - x) ^ 2 + (q.z - z) ^ 2 ≤ (d * w.fr.cellSize) ^ 2

/-- The ground around the point `(x, z)` of the world is open, up to a distance of `d` cell sizes, with the spots in `S`. -/
structure OpenGround (w : World) (d x z : ℚ) (S : Spot → Prop) : Prop where
  /-- the point is over a spot -/
  here : ∃ q, S q ∧ InCell w.fr q.x q.z ⟨x, 0, z⟩
  /-- around each spot there is firm ground up to the agent's radius, and it is not in the border of the grid -/
  spacious : ∀ q, S q → w.Spacious w.agentRadius q ∧ ¬ w.InMargin q
  /-- from each spot that is near there are firm steps to all four sides -/
  step : ∀ q, S q → w.NearCell d x z q.x q.z → ∀ nx nz, Beside q.x q.z nx nz → ∃ y, S ⟨nx, nz, y⟩ ∧ w.FirmStep q ⟨nx, nz, y⟩
  /-- near the point there are no other places where the agent can stand -/
  only : ∀ q, w.NearCell d x z q.x q.z → w.Standing q → S q

/-- Where a vertex of the mesh is in the world, seen from above. -/
def above (w : World) (v : U16Vec3) : Point := ((w.position v).x, (w.position v).z)

/-- Seen from above, three corners of polygon `j` of the mesh have a triangle containing the point `(x, z)` of the world. -/
def PolygonOver (w : World) (mesh : PolygonNavmesh) (j : Nat) (x z : ℚ) : Prop :=
  ∃ poly a b c, mesh.polys[j]? = some poly ∧ (∃ u ∈ poly, ∃ v ∈ poly, ∃ t ∈ poly, mesh.vertices[u]? = some a ∧ mesh.vertices[v]? = some b ∧
    mesh.vertices[t]? = some c) ∧ InPlaneTriangle (x, z) (w.above a) (w.above b) (w.above c)

end World
end Rerecast
