import Verif.Spec.CompactHeightfield
/-! Specification vocabulary for regions. -/
namespace Rerecast

/-- An id that stands for a region of the final mesh: neither "none" nor flagged as border. -/
def ProperRegion (r : Nat) : Prop := r ≠ REGION_NONE ∧ isBorderRegion r = false

instance (r : Nat) : Decidable (ProperRegion r) := inferInstanceAs (Decidable (_ ∧ _))

namespace CompactHeightfield

/-- Spans `i` and `k` are joined by reported neighbours (in either direction), all of them and both ends having property
`G`. -/
inductive JoinedWithin (chf : CompactHeightfield) (G : Nat → Prop) : Nat → Nat → Prop
  | refl {i} : G i → JoinedWithin chf G i i
  | step {i j k d} : JoinedWithin chf G i j → G k → d < 4 → (chf.Link j d k ∨ chf.Link k d j) → JoinedWithin chf G i k

/-- Span `k` is reached from span `i` by following reported neighbours, all of them and both ends having property `G`. -/
inductive ReachedWithin (chf : CompactHeightfield) (G : Nat → Prop) : Nat → Nat → Prop
  | refl {i} : G i → ReachedWithin chf G i i
  | step {i j k d} : ReachedWithin chf G i j → G k → d < 4 → chf.Link j d k → ReachedWithin chf G i k

/-- The region of span `i`. -/
def RegionOf (chf : CompactHeightfield) (i r : Nat) : Prop := ∃ s, chf.spans[i]? = some s ∧ s.region = r

/-- Span `i` lies in one of the outer `b` rows or columns. -/
def InBorder (chf : CompactHeightfield) (b i : Nat) : Prop :=
  ∃ x z s, chf.At x z i s ∧ (x < b ∨ z < b ∨ chf.width ≤ x + b ∨ chf.height ≤ z + b)

/-- Walking along the wall of a basin (a set of spans with the same label), the wall on the left: at a side that does not lead into the
basin turn clockwise to the next side of the span, otherwise step over the side and turn counterclockwise. -/
inductive BasinStep (chf : CompactHeightfield) (reg : List Nat) : Nat × Nat → Nat × Nat → Prop
  | turn {i d} : (∀ k, chf.Link i d k → reg[k]? ≠ reg[i]?) → BasinStep chf reg (i, d) (i, (d + 1) % 4)
  | cross {i d k} : chf.Link i d k → reg[k]? = reg[i]? → BasinStep chf reg (i, d) (k, (d + 3) % 4)

/-- The wall of the basin `l` that runs along the west side of its first span comes, within 40,000 steps, past a side behind which there is no
span, or one without label. -/
def ReachesOpen (chf : CompactHeightfield) (reg : List Nat) (l : Nat) : Prop :=
  ∃ i, reg[i]? = some l ∧ (∀ k, reg[k]? = some l → i ≤ k) ∧ ∃ (n : Nat) (p : Nat → Nat × Nat), n < 40000 ∧ p 0 = (i, 0) ∧
    (∀ j < n, BasinStep chf reg (p j) (p (j + 1))) ∧ ∀ k, chf.Link (p n).1 (p n).2 k → reg[k]? = some REGION_NONE

/-- The number of spans with label `l`. -/
def basinSize (reg : List Nat) (l : Nat) : Nat := reg.count l

end CompactHeightfield

end Rerecast
