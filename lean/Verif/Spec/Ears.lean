import Verif.Spec.Polygon
import Verif.Spec.Plane
/-! Specification vocabulary for cutting ears off a polygon. -/
namespace Rerecast

/-- `t` is an ear of the polygon `ring` (indices into `verts`): three consecutive corners that turn like a contour and have no other corner in
their triangle. -/
structure EarOf (verts : List U16Vec3) (ring : List Nat) (t : Tri) : Prop where
  first : (t.1, t.2.1) ∈ sides ring
  second : (t.2.1, t.2.2) ∈ sides ring
  turns : t.turn verts < 0
  free : ∀ q ∈ ring, q ≠ t.1 → q ≠ t.2.1 → q ≠ t.2.2 →
    ¬ InPlaneTriangle (pos verts q).plane (pos verts t.1).plane (pos verts t.2.1).plane (pos verts t.2.2).plane

/-- The squared length of the new side that appears when the ear `t` is cut off. -/
def Tri.base (verts : List U16Vec3) (t : Tri) : Nat :=
  (((pos verts t.2.2).x : Int) - (pos verts t.1).x).natAbs ^ 2 + (((pos verts t.2.2).z : Int) - (pos verts t.1).z).natAbs ^ 2

/-- The triangles `T` cut one ear after the other off the polygon `ring` until a triangle is left, each time one that is at least as good as all
other ears. -/
inductive CutsEars (verts : List U16Vec3) (good : Tri → Tri → Prop) : List Nat → List Tri → Prop
  | last (a b c : Nat) : CutsEars verts good [a, b, c] [(a, b, c)]
  | cut (ring : List Nat) (t : Tri) (T : List Tri) : 3 < ring.length → EarOf verts ring t → (∀ t', EarOf verts ring t' → good t t') →
      CutsEars verts good (ring.erase t.2.1) T → CutsEars verts good ring (t :: T)

end Rerecast
