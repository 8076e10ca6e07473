import Verif.Model.RasterizeRounded
import Verif.Lemmas.Float32
/-!
When rasterization in single precision is safe: the conditions of C84 in terms of the mesh, the box and the cell size.
-/
namespace Rerecast

/-- All coordinates are `f32`s. -/
def TriMesh.Single (m : TriMesh ℚ) : Prop := ∀ v ∈ m.vertices, IsF32 v.x ∧ IsF32 v.y ∧ IsF32 v.z

/-- A field of `w` x `h` cells of moderate size at a moderate distance from the origin: no coordinate exceeds `M`, and `M` is at most `2^15` cells. -/
structure Frame.Moderate (fr : Frame) (w h : Nat) (M : ℚ) : Prop where
  single : IsF32 fr.cellSize ∧ IsF32 fr.aabb.min.x ∧ IsF32 fr.aabb.min.y ∧ IsF32 fr.aabb.min.z
  left : |fr.aabb.min.x| ≤ M
  right : |fr.aabb.min.x + w * fr.cellSize| ≤ M
  front : |fr.aabb.min.z| ≤ M
  back : |fr.aabb.min.z + h * fr.cellSize| ≤ M
  heights : |fr.aabb.min.y| ≤ M ∧ |fr.aabb.max.y| ≤ M
  scale : fr.cellSize ≤ M ∧ M ≤ 2 ^ 15 * fr.cellSize
  cellSize : 1 / 2 ^ 20 ≤ fr.cellSize ∧ fr.cellSize ≤ 2 ^ 20
  cellHeight : 1 / 2 ^ 20 ≤ fr.cellHeight ∧ fr.cellHeight ≤ 2 ^ 20
  tall : fr.aabb.min.y ≤ fr.aabb.max.y
  notTooTall : fr.aabb.max.y - fr.aabb.min.y ≤ 65000 * fr.cellHeight

/-- No vertex of the mesh lies close to a line between two rows of cells.  At the far side of the field it is enough that no vertex is
beyond it. -/
structure TriMesh.ClearOfRows (m : TriMesh ℚ) (fr : Frame) (h : Nat) (M : ℚ) : Prop where
  bounded : ∀ v ∈ m.vertices, |v.x| ≤ M ∧ |v.y| ≤ M ∧ |v.z| ≤ M
  inside : ∀ v ∈ m.vertices, fr.aabb.min.z ≤ v.z
  rows : ∀ v ∈ m.vertices, ∀ k : Nat, 1 ≤ k → k < h → M / 2 ^ 18 ≤ |v.z - (fr.aabb.min.z + k * fr.cellSize)|
  last : (∀ v ∈ m.vertices, M / 2 ^ 18 ≤ |v.z - (fr.aabb.min.z + h * fr.cellSize)|) ∨
    ∀ v ∈ m.vertices, v.z ≤ roundF32 (roundF32 (fr.aabb.min.z + roundF32 ((h - 1 : Int) * fr.cellSize)) + fr.cellSize)

/-- `q` is in voxel `v` of cell `(x, z)` up to `d`; in x, `q` may be up to one cell before it. -/
def NearVoxel (fr : Frame) (d : ℚ) (x z v : Nat) (q : V3 ℚ) : Prop :=
  (fr.aabb.min.x + ((x : ℚ) - 1) * fr.cellSize - d ≤ q.x ∧ q.x ≤ fr.aabb.min.x + (x + 1) * fr.cellSize + d) ∧
  (fr.aabb.min.z + z * fr.cellSize - d ≤ q.z ∧ q.z ≤ fr.aabb.min.z + (z + 1) * fr.cellSize + d) ∧
  (fr.aabb.min.y + v * fr.cellHeight - d ≤ q.y ∧ q.y ≤ fr.aabb.min.y + (v + 1) * fr.cellHeight + d)

/-- What rounding can add up to in a field of `w` x `h` cells: about a millionth of the scene per cell. -/
def roundingError (fr : Frame) (w h : Nat) (M : ℚ) : ℚ := ((w + h + 7) * M + fr.cellHeight) / 2 ^ 20

/-- `q` is inside cell `(x, z)`, at least `d` away from the cell's sides. -/
def DeepInCell (fr : Frame) (d : ℚ) (x z : Nat) (q : V3 ℚ) : Prop :=
  (fr.aabb.min.x + x * fr.cellSize + d ≤ q.x ∧ q.x ≤ fr.aabb.min.x + (x + 1) * fr.cellSize - d) ∧
  (fr.aabb.min.z + z * fr.cellSize + d ≤ q.z ∧ q.z ≤ fr.aabb.min.z + (z + 1) * fr.cellSize - d)

/-- `q` is at least `d` away from the bottom and the top of the box, or on a level triangle. -/
def ClearHeight (fr : Frame) (d : ℚ) (tri : V3 ℚ × V3 ℚ × V3 ℚ) (q : V3 ℚ) : Prop :=
  (fr.aabb.min.y + d ≤ q.y ∧ q.y + d ≤ fr.aabb.max.y) ∨ (tri.1.y = tri.2.1.y ∧ tri.2.1.y = tri.2.2.y)

/-- The height `y` is in voxel `v` up to `d`. -/
def NearHeight (fr : Frame) (d : ℚ) (v : Nat) (y : ℚ) : Prop :=
  fr.aabb.min.y + v * fr.cellHeight - d ≤ y ∧ y ≤ fr.aabb.min.y + (v + 1) * fr.cellHeight + d

end Rerecast
