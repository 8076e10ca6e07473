import Verif.Spec.Plane
import Verif.Spec.Outline
import Verif.Spec.PolyMesh
/-! Specification vocabulary for the part of a region that simplification leaves alone.  A side is a span number and a direction. -/
namespace Rerecast

/-- A grid point as a point of the plane. -/
def cellCorner (c : Nat × Nat) : Point := ((c.1 : Rat), (c.2 : Rat))

namespace CompactHeightfield

/-- The side `s` runs from the grid point `a` to the grid point `b`. -/
def RunsBetween (chf : CompactHeightfield) (s : Nat × Nat) (a b : Point) : Prop :=
  ∃ x z sp, chf.At x z s.1 sp ∧ a = cellCorner (cornerOf x z ((s.2 + 3) % 4)) ∧ b = cellCorner (cornerOf x z s.2)

/-- A side at which the region `r` ends without a neighbour in a region, or at a neighbour of another area. -/
def FrontierSide (chf : CompactHeightfield) (r : Nat) (s : Nat × Nat) : Prop :=
  s.2 < 4 ∧ chf.RegionOf s.1 r ∧ chf.BoundarySide s ∧
    ((∀ k, chf.Link s.1 s.2 k → chf.RegionOf k 0) ∨ ∃ k, chf.Link s.1 s.2 k ∧ chf.areas[k]? ≠ chf.areas[s.1]?)

/-- A side at which the region `r` ends at a neighbour of the same area in the region `w`. -/
def PortalSide (chf : CompactHeightfield) (r w : Nat) (s : Nat × Nat) : Prop :=
  s.2 < 4 ∧ chf.RegionOf s.1 r ∧ chf.BoundarySide s ∧ w ≠ 0 ∧ ∃ k, chf.Link s.1 s.2 k ∧ chf.RegionOf k w ∧ chf.areas[k]? = chf.areas[s.1]?

/-- The point `a` is an end of a side at which the region `r` ends at the region `w`. -/
def PortalCorner (chf : CompactHeightfield) (r w : Nat) (a : Point) : Prop :=
  ∃ s b, chf.PortalSide r w s ∧ (chf.RunsBetween s a b ∨ chf.RunsBetween s b a)

/-- The point `p` is farther than `d` from every frontier side of the region `r`, and in no triangle of corners of sides at which `r` ends at
one and the same other region. -/
def Clear (chf : CompactHeightfield) (d : Rat) (r : Nat) (p : Point) : Prop :=
  (∀ s a b, chf.FrontierSide r s → chf.RunsBetween s a b → ¬ NearSegment d p a b) ∧
  ∀ w a b c, chf.PortalCorner r w a → chf.PortalCorner r w b → chf.PortalCorner r w c → ¬ InPlaneTriangle p a b c

end CompactHeightfield

/-- Three corners of polygon `i` of the mesh have a triangle containing `p`. -/
def PolygonNavmesh.Over (mesh : PolygonNavmesh) (i : Nat) (p : Point) : Prop :=
  ∃ poly a b c, mesh.polys[i]? = some poly ∧ (∃ u ∈ poly, ∃ v ∈ poly, ∃ w ∈ poly, mesh.vertices[u]? = some a ∧ mesh.vertices[v]? = some b ∧
    mesh.vertices[w]? = some c) ∧ InPlaneTriangle p a.plane b.plane c.plane

end Rerecast
