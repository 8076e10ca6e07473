import Verif.Model.PolyMesh
import Mathlib.Data.List.Rotate
import Mathlib.Algebra.BigOperators.Group.List.Basic
/-! Specification vocabulary for polygons given by lists of vertices in cyclic order. -/
namespace Rerecast

/-- The directed sides of the closed polygon `p`: from each vertex to the next, and from the last to the first. -/
def sides (p : List α) : List (α × α) := p.zip (p.rotate 1)

/-- All directed sides of a list of polygons. -/
def allSides (ps : List (List α)) : List (α × α) := ps.flatMap sides

/-- A weight of directed sides that changes sign when the side is reversed. -/
def Antisymmetric (f : α × α → Int) : Prop := ∀ a b, f (b, a) = -f (a, b)

/-- The polygons `ps` together have the same boundary as the polygon `p`: walking around all of `ps`, whatever is gained along
a side is lost along its reverse, and what remains is the boundary of `p`.  (For `f` the cross product of the two ends this
says that the signed areas add up.) -/
def SameBoundary (ps : List (List α)) (p : List α) : Prop :=
  ∀ f, Antisymmetric f → ((allSides ps).map f).sum = ((sides p).map f).sum

/-- Twice the signed area of the triangle `a b c` in the xz-plane. -/
def cross (a b c : U16Vec3) : Int :=
  ((b.x : Int) - a.x) * ((c.z : Int) - a.z) - ((c.x : Int) - a.x) * ((b.z : Int) - a.z)

/-- Twice the signed area enclosed by the polygon with corners `v i`, `i ∈ p` (shoelace formula). -/
def shoelace (v : α → U16Vec3) (p : List α) : Int :=
  ((sides p).map fun e => ((v e.1).x : Int) * (v e.2).z - ((v e.2).x : Int) * (v e.1).z).sum

/-- The corners of a triangle as a polygon. -/
def Tri.corners (t : Tri) : List Nat := [t.1, t.2.1, t.2.2]

/-- Orientation of a triangle of the polygon with corners `verts`: negative like `cross` if it turns like a contour. -/
def Tri.turn (verts : List U16Vec3) (t : Tri) : Int :=
  cross (verts.getD t.1 ⟨0, 0, 0⟩) (verts.getD t.2.1 ⟨0, 0, 0⟩) (verts.getD t.2.2 ⟨0, 0, 0⟩)

/-- A strictly convex polygon, in the orientation of contours: any three corners, in order, turn the same way. -/
def StrictlyConvex (verts : List U16Vec3) : Prop :=
  ∀ (i j k : Nat) (hij : i < j) (hjk : j < k) (hk : k < verts.length), cross verts[i] verts[j] verts[k] < 0

/-- Three consecutive corners of a closed polygon, for each of its corners. -/
def corners3 (p : List α) : List (α × α × α) := p.zip ((p.rotate 1).zip (p.rotate 2))

/-- Position of mesh vertex `v`. -/
def pos (verts : List U16Vec3) (v : Nat) : U16Vec3 := verts.getD v ⟨0, 0, 0⟩

/-- Every corner of the polygon `p` of mesh vertices is strictly convex (in the orientation of contours). -/
def ConvexCorners (verts : List U16Vec3) (p : List Nat) : Prop :=
  ∀ c ∈ corners3 p, cross (pos verts c.1) (pos verts c.2.1) (pos verts c.2.2) < 0

/-- The vertices of `p` are among those of the polygon `l`, in the same cyclic order. -/
def InOrder (p l : List α) : Prop := ∃ k, (p.rotate k).Sublist l

end Rerecast
