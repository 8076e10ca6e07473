import Verif.Spec.Plane
import Verif.Spec.Polygon
/-! Specification vocabulary for polygons that do not touch themselves. -/
namespace Rerecast

/-- The point `p` is on the closed segment `e`. -/
def OnSeg (p : Point) (e : Point × Point) : Prop :=
  ∃ t : Rat, 0 ≤ t ∧ t ≤ 1 ∧ p.1 = e.1.1 + t * (e.2.1 - e.1.1) ∧ p.2 = e.1.2 + t * (e.2.2 - e.1.2)

/-- The closed polygon `l` does not touch itself: its corners are different points, and two different sides have at most the corner between
them in common. -/
structure SimplePolygon (l : List Point) : Prop where
  three : 3 ≤ l.length
  corners : l.Nodup
  apart : ∀ e ∈ sides l, ∀ f ∈ sides l, e ≠ f → ∀ p, OnSeg p e → OnSeg p f → (p = e.2 ∧ p = f.1) ∨ (p = e.1 ∧ p = f.2)

/-- The point `p` is strictly inside the triangle `a b c`: a mean of the corners in which each has a positive weight. -/
def InsideTriangle (p a b c : Point) : Prop :=
  ∃ s t u : Rat, 0 < s ∧ 0 < t ∧ 0 < u ∧ s + t + u = 1 ∧ p.1 = s * a.1 + t * b.1 + u * c.1 ∧ p.2 = s * a.2 + t * b.2 + u * c.2

/-- The ray from `p` in the direction of the second axis crosses the side `e` (which counts with its lower end and without its upper end,
in the direction of the first axis). -/
def RayMeets (p : Point) (e : Point × Point) : Prop :=
  ((e.1.1 ≤ p.1 ∧ p.1 < e.2.1) ∨ (e.2.1 ≤ p.1 ∧ p.1 < e.1.1)) ∧ ∃ y, p.2 < y ∧ OnSeg (p.1, y) e

open Classical in
/-- The polygon `l` encloses the point `p`: a ray from `p` crosses an odd number of sides. -/
def Encloses (l : List Point) (p : Point) : Prop := ((sides l).countP fun e => decide (RayMeets p e)) % 2 = 1

end Rerecast
