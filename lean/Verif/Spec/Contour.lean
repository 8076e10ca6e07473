import Verif.Model.Contour
import Verif.Lemmas.Res
import Mathlib.Data.List.Rotate
/-! Specification vocabulary for contours. -/
namespace Rerecast

/-- The vertex `v` is raw vertex number `i`: same position; its word describes the raw edge that leaves it and carries its
border flag (`finalWord`, see C04). -/
def IsRaw (points : RawContour) (v : U16Vec3 × Nat) (i : Nat) : Prop :=
  ∃ p, points[i]? = some p ∧ v.1 = p.1 ∧ finalWord points i = .ok v.2

/-- Vertex numbers in cyclic order, without repetition: some rotation is strictly ascending. -/
def CyclicAscending (idxs : List Nat) : Prop := ∃ k, (idxs.rotate k).Pairwise (· < ·)

/-- The raw contour visits at least two different positions. -/
def TwoPositions (points : RawContour) : Prop := ∃ p ∈ points, ∃ q ∈ points, p.1.xz ≠ q.1.xz

/-- The point `p` is within distance `e` of the segment from `a` to `b` (x and z only). -/
def WithinOfSegment (e : Rat) (p a b : U16Vec3) : Prop :=
  ∃ l : Rat, 0 ≤ l ∧ l ≤ 1 ∧
    ((a.x : Rat) + l * ((b.x : Rat) - a.x) - p.x) ^ 2 + ((a.z : Rat) + l * ((b.z : Rat) - a.z) - p.z) ^ 2 ≤ e ^ 2

/-- The point is within distance `e` of some side of the closed polygon. -/
def WithinOfPolygon (e : Rat) (p : U16Vec3) (out : RawContour) : Prop :=
  ∃ (j : Nat) (a b : U16Vec3 × Nat), out[j]? = some a ∧ out[(j + 1) % out.length]? = some b ∧ WithinOfSegment e p a.1 b.1

/-- The position is on the grid lines 0 to `n`. -/
def OnGrid (n : Nat) (p : U16Vec3) : Prop := p.x ≤ n ∧ p.z ≤ n

/-- On grids of `n` cells, the tests keep vertices within `e`: a vertex is within distance `e` of a segment if its measured deviation is
no more than one that is zero or accepted. -/
def Tests.Keeps (t : Tests) (n : Nat) (e : Rat) : Prop :=
  ∀ p a b : U16Vec3, OnGrid n p → OnGrid n a → OnGrid n b → ∀ d, t.dev p.xz a.xz b.xz ≤ d → (d = 0 ∨ t.exceeds d = false) →
    WithinOfSegment e p a b

/-- An edge with this word is to be split when it is long: walls (no region on the other side) if the settings say so, borders
between areas if the settings say so. -/
def Splittable (flags : ContourFlags) (w : Nat) : Prop :=
  (flags.wallEdges = true ∧ w &&& REGION_MASK = 0) ∨ (flags.areaEdges = true ∧ w &&& AREA_BORDER ≠ 0)

/-- The points are at most `m` units apart (x and z only). -/
def EdgeAtMost (m : Nat) (a b : U16Vec3) : Prop := ((b.x : Int) - a.x) ^ 2 + ((b.z : Int) - a.z) ^ 2 ≤ (m : Int) ^ 2

/-- No two cyclically adjacent vertices have the same x and z. -/
def NoZeroSegments (out : RawContour) : Prop :=
  ∀ (j : Nat) (a b : U16Vec3 × Nat), out[j]? = some a → out[(j + 1) % out.length]? = some b → a.1.xz ≠ b.1.xz

/-- No three cyclically consecutive vertices have the same x and z. -/
def NoTripleZeros (out : RawContour) : Prop :=
  ∀ (j : Nat) (a b c : U16Vec3 × Nat), out[j]? = some a → out[(j + 1) % out.length]? = some b →
    out[(j + 2) % out.length]? = some c → ¬ (a.1.xz = b.1.xz ∧ b.1.xz = c.1.xz)

end Rerecast
