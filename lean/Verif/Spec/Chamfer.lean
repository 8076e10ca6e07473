import Verif.Spec.CompactHeightfield
/-! Specification vocabulary for erosion and the distance field: walks and path costs over the reported neighbours. -/
namespace Rerecast
namespace CompactHeightfield

/-- Following the neighbours in the directions `ds` from span `i` leads to span `k`. -/
def Path (chf : CompactHeightfield) : Nat → List Nat → Nat → Prop
  | i, [], k => i = k
  | i, d :: ds, k => ∃ j, chf.Link i d j ∧ Path chf j ds k

/-- Like `Path`, and every span met (including the ends) has property `G`. -/
def PathThrough (chf : CompactHeightfield) (G : Nat → Prop) : Nat → List Nat → Nat → Prop
  | i, [], k => i = k ∧ G i
  | i, d :: ds, k => G i ∧ ∃ j, chf.Link i d j ∧ PathThrough chf G j ds k

/-- `k` can be reached from `i` by axis steps of cost 2 and diagonal steps (two perpendicular neighbours in a row) of
cost 3, with total cost `c`. -/
inductive Reach (chf : CompactHeightfield) : Nat → Nat → Nat → Prop
  | refl (i) : Reach chf i i 0
  | axis {i j k d c} : d < 4 → chf.Link i d j → Reach chf j k c → Reach chf i k (c + 2)
  | diag {i j m k d d' c} : d < 4 → d' < 4 → d % 2 ≠ d' % 2 → chf.Link i d j → chf.Link j d' m → Reach chf m k c →
      Reach chf i k (c + 3)

/-- A span at the edge of the walkable area: unwalkable, or without a walkable neighbour in some direction. -/
def WalkableEdge (chf : CompactHeightfield) (k : Nat) : Prop :=
  k < chf.spans.length ∧ (¬ chf.WalkableAt k ∨ ∃ d < 4, ¬ ∃ j, chf.Link k d j ∧ chf.WalkableAt j)

/-- A span at the edge of its area: in some direction there is no neighbour with the same area. -/
def AreaEdge (chf : CompactHeightfield) (k : Nat) : Prop :=
  k < chf.spans.length ∧ ∃ d < 4, ¬ ∃ j, chf.Link k d j ∧ chf.areas[j]? = chf.areas[k]?

/-- `u` is the table entry of the neighbour of `i` in direction `d`, or the default `v` if there is no such neighbour. -/
def AxisValue (chf : CompactHeightfield) (table : List Nat) (i v d u : Nat) : Prop :=
  (∃ a, chf.Link i d a ∧ table[a]? = some u) ∨ ((¬ ∃ a, chf.Link i d a) ∧ u = v)

/-- `w` is the table entry of the diagonal neighbour of `i` (direction `d`, then the next direction), or the default `v`
if there is none. -/
def DiagonalValue (chf : CompactHeightfield) (table : List Nat) (i v d w : Nat) : Prop :=
  (∃ a b, chf.Link i d a ∧ chf.Link a ((d + 1) % 4) b ∧ table[b]? = some w) ∨
  ((¬ ∃ a b, chf.Link i d a ∧ chf.Link a ((d + 1) % 4) b) ∧ w = v)

/-- Span `k` lies in the cell `(x, z)` (signed coordinates). -/
def InCell (chf : CompactHeightfield) (k : Nat) (x z : Int) : Prop :=
  ∃ (cx cz : Nat) (s : CompactSpan), (cx : Int) = x ∧ (cz : Int) = z ∧ chf.At cx cz k s

end CompactHeightfield

/-- Cost of the straight chamfer route to a cell offset: 2 per axis step and 3 per diagonal step. -/
def octile (dx dz : Int) : Nat := 2 * max dx.natAbs dz.natAbs + min dx.natAbs dz.natAbs

end Rerecast
