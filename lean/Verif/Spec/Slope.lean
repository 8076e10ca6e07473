import Verif.Model.TriMesh
import Mathlib.Analysis.SpecialFunctions.Trigonometric.Basic
/-! Specification vocabulary for the slope of triangles. -/
namespace Rerecast

/-- Seen from above, the corners are listed counter-clockwise (with x to the right and z down), and are not on one line. -/
def FacesUp (a b c : V3 ℚ) : Prop := 0 < (b.z - a.z) * (c.x - a.x) - (b.x - a.x) * (c.z - a.z)

/-- Walking on the plane of the triangle, in whatever direction, one never rises by more than `s` times the horizontal distance.  The walk is
`u` times the first and `v` times the second of the two sides from `a`. -/
def RisesAtMost (s : ℝ) (a b c : V3 ℚ) : Prop :=
  ∀ u v : ℝ, |u * (b.y - a.y) + v * (c.y - a.y)| ≤
    s * Real.sqrt ((u * (b.x - a.x) + v * (c.x - a.x)) ^ 2 + (u * (b.z - a.z) + v * (c.z - a.z)) ^ 2)

end Rerecast
