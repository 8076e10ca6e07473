import Verif.Spec.Regions
import Mathlib.Data.List.Destutter
/-! Specification vocabulary for the joining of basins: which basins touch, in how many stretches, and which could be joined. -/
namespace Rerecast
namespace CompactHeightfield

/-- Behind the side `d` of span `i` is a span with the label `v`, or no span, and then `v` is "none". -/
def LabelBehind (chf : CompactHeightfield) (reg : List Nat) (i d v : Nat) : Prop :=
  (∃ k, chf.Link i d k ∧ reg[k]? = some v) ∨ ((∀ k, ¬ chf.Link i d k) ∧ v = REGION_NONE)

/-- A walk along the wall of a basin, of `n` steps, with the labels behind the sides of the wall it comes past. -/
inductive WallWalk (chf : CompactHeightfield) (reg : List Nat) : Nat × Nat → Nat × Nat → Nat → List Nat → Prop
  | done {a} : WallWalk chf reg a a 0 []
  | turn {i d v e n vs} : chf.LabelBehind reg i d v → reg[i]? ≠ some v → WallWalk chf reg (i, (d + 1) % 4) e n vs →
      WallWalk chf reg (i, d) e (n + 1) (v :: vs)
  | cross {i d k e n vs} : chf.Link i d k → reg[k]? = reg[i]? → WallWalk chf reg (k, (d + 3) % 4) e n vs →
      WallWalk chf reg (i, d) e (n + 1) vs

/-- `vs` are the labels behind the wall of basin `l`, once around from the west side of its first span, in at most 40,000 steps. -/
def Wall (chf : CompactHeightfield) (reg : List Nat) (l : Nat) (vs : List Nat) : Prop :=
  ∃ i n, reg[i]? = some l ∧ (∀ k, reg[k]? = some l → i ≤ k) ∧ 0 < n ∧ n ≤ 40000 ∧ chf.WallWalk reg (i, 0) (i, 0) n vs ∧
    ∀ m ws, 0 < m → m < n → ¬ chf.WallWalk reg (i, 0) (i, 0) m ws

/-- The stretches of equal labels on the way around: labels that repeat the one before are left out, and so is the last if it is the first. -/
def stretches (vs : List Nat) : List Nat :=
  let s := vs.destutter (· ≠ ·)
  if 1 < s.length ∧ s.head? = s.getLast? then s.dropLast else s

/-- The wall of basin `l` runs along basin `m` in `n` stretches. -/
def Touching (chf : CompactHeightfield) (reg : List Nat) (l m n : Nat) : Prop := ∃ vs, chf.Wall reg l vs ∧ (stretches vs).count m = n

/-- A span of basin `l` and another span, of basin `m`, are in the same column. -/
def StackedOn (chf : CompactHeightfield) (reg : List Nat) (l m : Nat) : Prop :=
  ∃ x z i k s t, i ≠ k ∧ chf.At x z i s ∧ chf.At x z k t ∧ reg[i]? = some l ∧ reg[k]? = some m

/-- The basins `l` and `m` have spans in the same region of the result. -/
def SameRegion (out : CompactHeightfield) (reg : List Nat) (l m : Nat) : Prop :=
  ∃ i j r, reg[i]? = some l ∧ reg[j]? = some m ∧ ProperRegion r ∧ out.RegionOf i r ∧ out.RegionOf j r

/-- The number of spans of the region of basin `l`. -/
def RegionSize (out : CompactHeightfield) (reg : List Nat) (l n : Nat) : Prop :=
  ∃ i r, reg[i]? = some l ∧ out.RegionOf i r ∧ (out.spans.map CompactSpan.region).count r = n

/-- Basin `l` could be joined with the region that basin `m` is in: they are of the same area and touch in one stretch, basin `l` touches no other
basin of this region, and none of them is above or below basin `l`.  Basin `m` is not above itself. -/
structure CouldJoin (chf out : CompactHeightfield) (reg : List Nat) (l m : Nat) : Prop where
  kept : out.SameRegion reg m m
  area : ∃ i j : Nat, reg[i]? = some l ∧ reg[j]? = some m ∧ chf.areas[i]? = chf.areas[j]?
  flat : ¬ chf.StackedOn reg m m
  there : chf.Touching reg l m 1
  back : chf.Touching reg m l 1
  others : ∀ k, out.SameRegion reg m k → k ≠ m → chf.Touching reg l k 0 ∧ chf.Touching reg k l 0
  apart : ∀ k, out.SameRegion reg m k → ¬ chf.StackedOn reg l k ∧ ¬ chf.StackedOn reg k l

end CompactHeightfield
end Rerecast
