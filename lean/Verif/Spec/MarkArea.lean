import Verif.Model.MarkArea
/-! Specification of area volumes. -/
namespace Rerecast

/-- The sides of a closed polygon, as (previous vertex, vertex). -/
def sidesFrom (prev : V2) : List V2 → List (V2 × V2)
  | [] => []
  | v :: vs => (prev, v) :: sidesFrom v vs

def polySides (vs : List V2) : List (V2 × V2) :=
  match vs.getLast? with
  | none => []
  | some last => sidesFrom last vs

/-- The side meets the ray that leaves `p` in direction +x: its ends are on different sides of the ray's line (one above, one on or
below), and the point where it meets the line is to the right of `p`. -/
def RayHits (p : V2) (s : V2 × V2) : Prop :=
  (s.1.y > p.y ↔ ¬ s.2.y > p.y) ∧
    ∃ l : Rat, s.2.y + l * (s.1.y - s.2.y) = p.y ∧ p.x < s.2.x + l * (s.1.x - s.2.x)

open Classical in
/-- Even-odd rule: the ray meets an odd number of sides. -/
noncomputable def InsidePoly (p : V2) (vs : List V2) : Prop := ((polySides vs).filter (RayHits p)).length % 2 = 1

/-- World x and z of the centre of cell `(x, z)`. -/
def cellCentre (fr : Frame) (x z : Nat) : V2 :=
  ⟨fr.aabb.min.x + ((x : Rat) + 1 / 2) * fr.cellSize, fr.aabb.min.z + ((z : Rat) + 1 / 2) * fr.cellSize⟩

/-- The floor voxel `y` (which spans the heights from `y` to `y + 1` cells above the field's minimum) reaches above the bottom of
the volume and does not start above its top. -/
def InVolumeRange (fr : Frame) (v : ConvexVolume) (y : Nat) : Prop :=
  v.minY < fr.aabb.min.y + ((y : Rat) + 1) * fr.cellHeight ∧ fr.aabb.min.y + (y : Rat) * fr.cellHeight ≤ v.maxY

end Rerecast
