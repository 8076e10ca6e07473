import Verif.Spec.Cover
/-! Specification vocabulary for regions that meet along portals.  A side is a span number and a direction. -/
namespace Rerecast
namespace CompactHeightfield

/-- The first boundary side met on the walk along the wall from side `t` on is `s`. -/
inductive FirstFrom (chf : CompactHeightfield) : Nat × Nat → Nat × Nat → Prop
  | here {s} : chf.BoundarySide s → FirstFrom chf s s
  | on {t u s} : ¬ chf.BoundarySide t → chf.WallStep t u → FirstFrom chf u s → FirstFrom chf t s

/-- In the outline of its region, the boundary side `s` is followed by the boundary side `s'`. -/
def NextSide (chf : CompactHeightfield) (s s' : Nat × Nat) : Prop := chf.BoundarySide s ∧ ∃ t, chf.WallStep s t ∧ chf.FirstFrom t s'

/-- The same side seen from the neighbour across it. -/
def Across (chf : CompactHeightfield) (s u : Nat × Nat) : Prop := ∃ k, chf.Link s.1 s.2 k ∧ u = (k, (s.2 + 2) % 4)

/-- Wherever two consecutive sides of the outline of a region in `S` have one and the same region of `S` across, the sides
of that region they meet are consecutive in its outline, the other way around.  (It fails where two regions touch in a corner like the squares
of one colour on a chessboard.) -/
def Matched (chf : CompactHeightfield) (S : Nat → Prop) : Prop :=
  ∀ r w s s' u u', S r → S w → chf.PortalSide r w s → chf.PortalSide r w s' → chf.NextSide s s' → chf.Across s u → chf.Across s' u' → chf.NextSide u' u

/-- The point `p` is farther than `d` from every frontier side of the regions in `S`, and in no triangle of corners of sides at which a region
in `S` ends at one and the same region that is not in `S`. -/
def ClearOfSet (chf : CompactHeightfield) (d : Rat) (S : Nat → Prop) (p : Point) : Prop :=
  (∀ r s a b, S r → chf.FrontierSide r s → chf.RunsBetween s a b → ¬ NearSegment d p a b) ∧
  ∀ r w a b c, S r → ¬ S w → chf.PortalCorner r w a → chf.PortalCorner r w b → chf.PortalCorner r w c → ¬ InPlaneTriangle p a b c

end CompactHeightfield
end Rerecast
