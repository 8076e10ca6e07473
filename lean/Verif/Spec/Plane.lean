import Verif.Model.PolyMesh
import Mathlib.Data.Rat.Defs
import Mathlib.Algebra.Order.Ring.Unbundled.Rat
/-! Specification vocabulary for points of the xz-plane, in cells. -/
namespace Rerecast

/-- A point of the xz-plane. -/
abbrev Point := Rat × Rat

/-- The place of a vertex in the plane. -/
def U16Vec3.plane (v : U16Vec3) : Point := ((v.x : Rat), (v.z : Rat))

/-- The point `p` is in the triangle `a b c` or on its boundary: a mean of the corners. -/
def InPlaneTriangle (p a b c : Point) : Prop :=
  ∃ s t u : Rat, 0 ≤ s ∧ 0 ≤ t ∧ 0 ≤ u ∧ s + t + u = 1 ∧ p.1 = s * a.1 + t * b.1 + u * c.1 ∧ p.2 = s * a.2 + t * b.2 + u * c.2

/-- The point `p` is within distance `d` of the segment from `a` to `b`. -/
def NearSegment (d : Rat) (p a b : Point) : Prop :=
  ∃ t : Rat, 0 ≤ t ∧ t ≤ 1 ∧ (a.1 + t * (b.1 - a.1) - p.1) ^ 2 + (a.2 + t * (b.2 - a.2) - p.2) ^ 2 ≤ d ^ 2

end Rerecast
