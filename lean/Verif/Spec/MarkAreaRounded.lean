import Verif.Spec.MarkArea
import Verif.Spec.SinglePrecision
/-! Specification vocabulary for area volumes in single precision. -/
namespace Rerecast

/-- The outline of the polygon stays more than `d` away from `p`, along x: no point of a side level with `p` is closer. -/
def ClearOfOutline (d : ℚ) (p : V2) (vs : List V2) : Prop :=
  ∀ s ∈ polySides vs, ∀ l, 0 ≤ l → l ≤ 1 → s.2.y + l * (s.1.y - s.2.y) = p.y → d < |s.2.x + l * (s.1.x - s.2.x) - p.x|

/-- The vertices of the volume have coordinates up to `M`, and no side is nearly but not quite parallel to x: its ends are equal in z or differ by
2^-60 or more. -/
structure ConvexVolume.Moderate (vol : ConvexVolume) (M : ℚ) : Prop where
  bounded : ∀ v ∈ vol.vertices, |v.x| ≤ M ∧ |v.y| ≤ M
  sides : ∀ s ∈ polySides vol.vertices, s.1.y = s.2.y ∨ 1 / 2 ^ 60 ≤ |s.1.y - s.2.y|

/-- What rounding can do to the height `v` in a field. -/
def heightTolerance (fr : Frame) (v : ℚ) : ℚ := (|v - fr.aabb.min.y| + fr.cellHeight) / 2 ^ 22

/-- The floor voxel `y` is in the vertical range of the volume, whatever rounding does. -/
def ClearlyInRange (fr : Frame) (v : ConvexVolume) (y : Nat) : Prop :=
  v.minY + heightTolerance fr v.minY < fr.aabb.min.y + ((y : ℚ) + 1) * fr.cellHeight ∧
  fr.aabb.min.y + (y : ℚ) * fr.cellHeight + heightTolerance fr v.maxY ≤ v.maxY

/-- The floor voxel `y` is below or above the volume, whatever rounding does.  (Volumes that end less than one cell height below the field still count as
reaching into it.) -/
def ClearlyOutOfRange (fr : Frame) (v : ConvexVolume) (y : Nat) : Prop :=
  fr.aabb.min.y + ((y : ℚ) + 1) * fr.cellHeight + heightTolerance fr v.minY ≤ v.minY ∨
  (v.maxY + heightTolerance fr v.maxY < fr.aabb.min.y + (y : ℚ) * fr.cellHeight ∧
    (0 < y ∨ v.maxY + heightTolerance fr v.maxY ≤ fr.aabb.min.y - fr.cellHeight))

/-- All points around the centre of the cell, up to a 4194304th of the extent `M` of the scene, are inside the polygon and more than a 1048576th of `M` away
from its outline. -/
def SurelyInside (fr : Frame) (M : ℚ) (x z : Nat) (vs : List V2) : Prop :=
  ∀ p : V2, |p.x - (cellCentre fr x z).x| ≤ M / 2 ^ 22 → |p.y - (cellCentre fr x z).y| ≤ M / 2 ^ 22 → ClearOfOutline (M / 2 ^ 20) p vs ∧ InsidePoly p vs

/-- The same for the outside. -/
def SurelyOutside (fr : Frame) (M : ℚ) (x z : Nat) (vs : List V2) : Prop :=
  ∀ p : V2, |p.x - (cellCentre fr x z).x| ≤ M / 2 ^ 22 → |p.y - (cellCentre fr x z).y| ≤ M / 2 ^ 22 → ClearOfOutline (M / 2 ^ 20) p vs ∧ ¬ InsidePoly p vs

end Rerecast
