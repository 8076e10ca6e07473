import Verif.Spec.Simple
import Verif.Spec.DetailMesh
/-! Specification vocabulary for triangles that fill a polygon. -/
namespace Rerecast

/-- The place of a vertex in the plane, seen from above. -/
def Vec3.plane (v : Vec3 Rat) : Point := (v.x, v.z)

/-- The triangle is not flat: its corners are not on one line. -/
def HasArea (a b c : Point) : Prop := (b.1 - a.1) * (c.2 - a.2) - (c.1 - a.1) * (b.2 - a.2) ≠ 0

/-- The triangles `T`, with corners at `place`, fill the polygon `outline`: those that are not flat have no point inside two of them, none has a
point inside that the polygon does not enclose, and every point that the polygon encloses is in one of them. -/
structure Fills (place : Nat → Point) (T : List DTri) (outline : List Point) : Prop where
  apart : T.Pairwise fun t t' => HasArea (place t.1) (place t.2.1) (place t.2.2) → HasArea (place t'.1) (place t'.2.1) (place t'.2.2) →
    ∀ p, ¬ (InsideTriangle p (place t.1) (place t.2.1) (place t.2.2) ∧ InsideTriangle p (place t'.1) (place t'.2.1) (place t'.2.2))
  within : ∀ t ∈ T, HasArea (place t.1) (place t.2.1) (place t.2.2) → ∀ p, InsideTriangle p (place t.1) (place t.2.1) (place t.2.2) → Encloses outline p
  cover : ∀ p, Encloses outline p → ∃ t ∈ T, HasArea (place t.1) (place t.2.1) (place t.2.2) ∧
    InPlaneTriangle p (place t.1) (place t.2.1) (place t.2.2)

end Rerecast
