import Verif.Spec.Heightfield
/-! Independent per-span descriptions of the three heightfield filters, over plain lists of solids. -/
namespace Rerecast

/-- Bottom of the first solid of a (part of a) column, or the top of the representable range. -/
def bottom (l : List Solid) : Int :=
  match l with
  | [] => 65535
  | s :: _ => s.min

/-- The free space above each solid of a column: `(floor, ceiling)`, lowest first. -/
def openings : List Solid → List (Int × Int)
  | [] => []
  | s :: l => ((s.max : Int), bottom l) :: openings l

/-- Two openings share at least `height` voxels of vertical space. -/
def Shares (height : Nat) (f c nf nc : Int) : Prop := (height : Int) ≤ min c nc - max f nf

/-- The (at most) four neighbouring columns of `(x, z)` in a `w × h` grid; `none` is outside. -/
def neighbourCell (w h x z d : Nat) : Option (Nat × Nat) :=
  match d with
  | 0 => if 0 < x then some (x - 1, z) else none
  | 1 => if z + 1 < h then some (x, z + 1) else none
  | 2 => if x + 1 < w then some (x + 1, z) else none
  | _ => if 0 < z then some (x, z - 1) else none

/-- Side `d` is a drop into the void: outside the grid, or the space below the lowest solid of the neighbouring
column is open at this height. -/
def VoidSide (height : Nat) (nbr : Nat → Option (List Solid)) (f c : Int) (d : Nat) : Prop :=
  match nbr d with
  | none => True
  | some l => (height : Int) ≤ min c (bottom l) - f

/-- `nf` is the floor of a neighbouring opening an agent can pass into (ignoring the step height). -/
def Passable (height : Nat) (nbr : Nat → Option (List Solid)) (f c : Int) (nf : Int) : Prop :=
  ∃ d < 4, ∃ l, nbr d = some l ∧ ∃ nc, (nf, nc) ∈ openings l ∧ Shares height f c nf nc

/-- The independent ledge test: a side is void, or a passable neighbouring floor is more than `climb` below, or
the floors that can be stepped to (including the own floor) differ by more than `climb`. -/
def IsLedgeSpec (height climb : Nat) (nbr : Nat → Option (List Solid)) (f c : Int) : Prop :=
  (∃ d < 4, VoidSide height nbr f c d) ∨
  (∃ nf, Passable height nbr f c nf ∧ nf < f - climb) ∨
  (∃ a b, (a = f ∨ Passable height nbr f c a ∧ (a - f).natAbs ≤ climb) ∧
    (b = f ∨ Passable height nbr f c b ∧ (b - f).natAbs ≤ climb) ∧ a - b > climb)

end Rerecast
