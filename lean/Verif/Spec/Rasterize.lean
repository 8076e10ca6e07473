import Verif.Model.Rasterize
/-! Vocabulary for rasterization: plain geometry of triangles, grid cells and voxels. -/
namespace Rerecast

/-- `q` is a point of the (filled, possibly degenerate) triangle: a convex combination of its corners. -/
def InTriangle (t : V3 Rat × V3 Rat × V3 Rat) (q : V3 Rat) : Prop :=
  ∃ a b c : Rat, 0 ≤ a ∧ 0 ≤ b ∧ 0 ≤ c ∧ a + b + c = 1 ∧
    q.x = a * t.1.x + b * t.2.1.x + c * t.2.2.x ∧
    q.y = a * t.1.y + b * t.2.1.y + c * t.2.2.y ∧
    q.z = a * t.1.z + b * t.2.1.z + c * t.2.2.z

/-- `q` lies above the open square of grid cell `(x, z)`. -/
def InOpenCell (fr : Frame) (x z : Nat) (q : V3 Rat) : Prop :=
  fr.aabb.min.x + x * fr.cellSize < q.x ∧ q.x < fr.aabb.min.x + (x + 1) * fr.cellSize ∧
  fr.aabb.min.z + z * fr.cellSize < q.z ∧ q.z < fr.aabb.min.z + (z + 1) * fr.cellSize

/-- `q` lies above the closed square of grid cell `(x, z)`. -/
def InCell (fr : Frame) (x z : Nat) (q : V3 Rat) : Prop :=
  fr.aabb.min.x + x * fr.cellSize ≤ q.x ∧ q.x ≤ fr.aabb.min.x + (x + 1) * fr.cellSize ∧
  fr.aabb.min.z + z * fr.cellSize ≤ q.z ∧ q.z ≤ fr.aabb.min.z + (z + 1) * fr.cellSize

/-- The height `y` lies in the closed height interval of voxel `v`. -/
def InVoxel (fr : Frame) (v : Nat) (y : Rat) : Prop :=
  v * fr.cellHeight ≤ y - fr.aabb.min.y ∧ y - fr.aabb.min.y ≤ (v + 1) * fr.cellHeight

/-- The height `y` lies in the field's box. -/
def InHeightRange (fr : Frame) (y : Rat) : Prop := fr.aabb.min.y ≤ y ∧ y ≤ fr.aabb.max.y

/-- The field has positive cell sizes, and its box is less than 65535 voxels tall. -/
structure Frame.Sane (fr : Frame) : Prop where
  cellSize : 0 < fr.cellSize
  cellHeight : 0 < fr.cellHeight
  tall : fr.aabb.min.y ≤ fr.aabb.max.y
  notTooTall : fr.aabb.max.y - fr.aabb.min.y < 65535 * fr.cellHeight

end Rerecast
