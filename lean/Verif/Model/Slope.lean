import Verif.Model.TriMesh
import Mathlib.Analysis.SpecialFunctions.Trigonometric.Basic
/-!
Model of the slope test of `mark_walkable_triangles`.  Coordinates are exact rationals; the normal and the cosine are exact real numbers (rounding and
overflow are not modelled).
-/
namespace Rerecast

/-- glam `Vec3A::cross` -/
def V3.cross (u v : V3 ℚ) : V3 ℚ := ⟨u.y * v.z - v.y * u.z, u.z * v.x - v.z * u.x, u.x * v.y - v.x * u.y⟩

/-- glam `Vec3A::length` -/
noncomputable def V3.length (u : V3 ℚ) : ℝ := Real.sqrt ((u.x * u.x + u.y * u.y + u.z * u.z : ℚ) : ℝ)

/-- glam `Vec3A::normalize_or_zero`, the y component: the vector times the reciprocal of its length, if that is finite and positive; zero otherwise. -/
noncomputable def V3.normalizeOrZeroY (u : V3 ℚ) : ℝ :=
  haveI := Classical.propDecidable
  if 0 < u.length then (u.y : ℝ) * (1 / u.length) else 0

/-- math.rs:101-111 `TriangleIndices::normal`, the y component. -/
noncomputable def triNormalY (a b c : V3 ℚ) : ℝ :=
  (V3.cross ⟨b.x - a.x, b.y - a.y, b.z - a.z⟩ ⟨c.x - a.x, c.y - a.y, c.z - a.z⟩).normalizeOrZeroY

/-- trimesh.rs:55, 59: `normal.y > threshold_rad.cos()` -/
noncomputable def slopeTest (threshold : ℝ) (a b c : V3 ℚ) : Bool :=
  haveI := Classical.propDecidable
  decide (triNormalY a b c > Real.cos threshold)

end Rerecast
