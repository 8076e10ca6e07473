import Verif.Spec.Regions
import Verif.Spec.Contour
/-! Specification vocabulary for the outlines of regions.  A side is a span number and a direction. -/
namespace Rerecast

/-- The grid point at which the side `d` of the cell `(x, z)` ends, going clockwise around the cell. -/
def cornerOf (x z d : Nat) : Nat × Nat :=
  match d with
  | 0 => (x, z + 1)
  | 1 => (x + 1, z + 1)
  | 2 => (x + 1, z)
  | _ => (x, z)

/-- Two grid points one unit apart, along x or along z. -/
def UnitStep (a b : Nat × Nat) : Prop :=
  (a.1 = b.1 ∧ (a.2 = b.2 + 1 ∨ b.2 = a.2 + 1)) ∨ (a.2 = b.2 ∧ (a.1 = b.1 + 1 ∨ b.1 = a.1 + 1))

/-- Consecutive vertices, cyclically, are one unit apart. -/
def ClosedUnitWalk (raw : RawContour) : Prop :=
  ∀ (j : Nat) (p q : U16Vec3 × Nat), raw[j]? = some p → raw[(j + 1) % raw.length]? = some q → UnitStep p.1.xz q.1.xz

namespace CompactHeightfield

/-- Every reported neighbour reports the span back. -/
def SymmetricLinks (chf : CompactHeightfield) : Prop := ∀ i k, ∀ d < 4, chf.Link i d k → chf.Link k ((d + 2) % 4) i

/-- The span belongs to a proper region and has, on that side, no neighbour of its region. -/
def BoundarySide (chf : CompactHeightfield) (s : Nat × Nat) : Prop :=
  ∃ r, ProperRegion r ∧ chf.RegionOf s.1 r ∧ ∀ k, chf.Link s.1 s.2 k → ¬ chf.RegionOf k r

/-- All four sides of the span are boundary sides. -/
def Isolated (chf : CompactHeightfield) (i : Nat) : Prop := ∀ d < 4, chf.BoundarySide (i, d)

/-- Walking along a wall on the left hand: at a boundary side turn clockwise to the next side of the span, otherwise step
over the side and turn counterclockwise. -/
inductive WallStep (chf : CompactHeightfield) : Nat × Nat → Nat × Nat → Prop
  | turn {i d} : chf.BoundarySide (i, d) → WallStep chf (i, d) (i, (d + 1) % 4)
  | cross {i d k} : ¬ chf.BoundarySide (i, d) → chf.Link i d k → WallStep chf (i, d) (k, (d + 3) % 4)

/-- A complete round along the wall inside the region `r`: every side faced on the way, each once, back to the first. -/
structure IsCircuit (chf : CompactHeightfield) (r : Nat) (v : List (Nat × Nat)) : Prop where
  ne : v ≠ []
  nodup : v.Nodup
  dir : ∀ s ∈ v, s.2 < 4
  region : ∀ s ∈ v, chf.RegionOf s.1 r
  step : ∀ (j : Nat) (a b : Nat × Nat), v[j]? = some a → v[(j + 1) % v.length]? = some b → chf.WallStep a b

open Classical in
/-- The boundary sides met on a round, in order. -/
noncomputable def boundaryOf (chf : CompactHeightfield) (v : List (Nat × Nat)) : List (Nat × Nat) :=
  v.filter fun s => chf.BoundarySide s

/-- The spans that meet the end corner of side `d` of span `i`. -/
inductive MeetsCorner (chf : CompactHeightfield) (i d : Nat) : Nat → Prop
  | self : MeetsCorner chf i d i
  | left {k} : chf.Link i d k → MeetsCorner chf i d k
  | ahead {k} : chf.Link i ((d + 1) % 4) k → MeetsCorner chf i d k
  | leftAhead {a k} : chf.Link i d a → chf.Link a ((d + 1) % 4) k → MeetsCorner chf i d k
  | aheadLeft {a k} : chf.Link i ((d + 1) % 4) a → chf.Link a d k → MeetsCorner chf i d k

/-- The span diagonally opposite at the end corner of side `d`: preferably reached ahead first and then to the left. -/
def Diagonal (chf : CompactHeightfield) (i d k : Nat) : Prop :=
  (∃ a, chf.Link i ((d + 1) % 4) a ∧ chf.Link a d k) ∨
  ((¬ ∃ a j, chf.Link i ((d + 1) % 4) a ∧ chf.Link a d j) ∧ ∃ a, chf.Link i d a ∧ chf.Link a ((d + 1) % 4) k)

/-- Region and area of the span described by `P`; `(0, 0)` if there is none. -/
def Looks (chf : CompactHeightfield) (P : Nat → Prop) (w : Nat × Nat) : Prop :=
  (∃ k, P k ∧ chf.RegionOf k w.1 ∧ chf.areas[k]? = some w.2) ∨ ((∀ k, ¬ P k) ∧ w = (0, 0))

/-- Of four spans in cyclic order, the first two lie in the same border region with the same area, the other two in no border
region and share an area; none of the four is missing (or without region and area). -/
def BorderCorner (a b c e : Nat × Nat) : Prop :=
  a = b ∧ isBorderRegion a.1 = true ∧ isBorderRegion c.1 = false ∧ isBorderRegion e.1 = false ∧ c.2 = e.2 ∧
  a ≠ (0, 0) ∧ b ≠ (0, 0) ∧ c ≠ (0, 0) ∧ e ≠ (0, 0)

/-- The end corner of side `d` of span `i` lies on the border of the tile. -/
def TileCorner (chf : CompactHeightfield) (i d : Nat) : Prop :=
  ∃ w0 w1 w2 w3, chf.Looks (fun k => k = i) w0 ∧ chf.Looks (chf.Link i d) w1 ∧ chf.Looks (chf.Diagonal i d) w2 ∧
    chf.Looks (chf.Link i ((d + 1) % 4)) w3 ∧
    (BorderCorner w0 w1 w2 w3 ∨ BorderCorner w1 w2 w3 w0 ∨ BorderCorner w2 w3 w0 w1 ∨ BorderCorner w3 w0 w1 w2)

/-- The raw vertex that records the side `s` in an outline of the given area: it lies at the end of the side, at the height of
the highest span that meets this corner; its word names the region across the side (0 if there is no neighbour) and tells
whether the area across differs and whether the corner lies on the tile border. -/
structure RawVertex (chf : CompactHeightfield) (area : Area) (s : Nat × Nat) (p : U16Vec3 × Nat) : Prop where
  position : ∃ x z sp, chf.At x z s.1 sp ∧ p.1.xz = cornerOf x z s.2
  height_some : ∃ k sp, chf.MeetsCorner s.1 s.2 k ∧ chf.spans[k]? = some sp ∧ sp.y = p.1.y
  height_max : ∀ k sp, chf.MeetsCorner s.1 s.2 k → chf.spans[k]? = some sp → sp.y ≤ p.1.y
  region : (∃ k, chf.Link s.1 s.2 k ∧ chf.RegionOf k (p.2 &&& REGION_MASK)) ∨
    ((∀ k, ¬ chf.Link s.1 s.2 k) ∧ p.2 &&& REGION_MASK = 0)
  area : p.2 &&& AREA_BORDER ≠ 0 ↔ ∃ k a, chf.Link s.1 s.2 k ∧ chf.areas[k]? = some a ∧ a ≠ area
  border : p.2 &&& BORDER_VERTEX ≠ 0 ↔ chf.TileCorner s.1 s.2

end CompactHeightfield

/-- A traced outline: the round along the wall, its raw vertices, its region and its area. -/
structure Outline where
  round : List (Nat × Nat)
  raw : RawContour
  region : Nat
  area : Area

/-- What a traced outline is: a complete round along the wall of a proper region, started at a boundary side of a span of the
given area, with one raw vertex for every boundary side met, in order. -/
structure CompactHeightfield.IsOutline (chf : CompactHeightfield) (o : Outline) : Prop where
  proper : ProperRegion o.region
  circuit : chf.IsCircuit o.region o.round
  start : ∃ s, o.round.head? = some s ∧ chf.BoundarySide s ∧ chf.areas[s.1]? = some o.area
  raw : List.Forall₂ (chf.RawVertex o.area) (chf.boundaryOf o.round) o.raw
  closed : ClosedUnitWalk o.raw

/-- The same points counted from the corner inside the border of `b` cells (never below 0). -/
def withoutBorder (b : Nat) (l : RawContour) : RawContour := l.map fun v => (⟨v.1.x - b, v.1.y, v.1.z - b⟩, v.2)

/-- The contour stored for an outline: the simplified outline without degenerate segments, if it keeps at least three
vertices; counted without the border. -/
def StoredFor (t : Tests) (maxEdgeLen : Nat) (bf : ContourFlags) (borderSize : Nat) (o : Outline) (c : Option Contour) : Prop :=
  ∃ simplified out, simplifyContour t o.raw maxEdgeLen bf = .ok simplified ∧ removeDegenerate simplified = .ok out ∧
    c = if 3 ≤ out.length then some ⟨withoutBorder borderSize out, withoutBorder borderSize o.raw, o.region, o.area⟩ else none

end Rerecast
