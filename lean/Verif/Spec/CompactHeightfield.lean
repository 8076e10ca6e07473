import Verif.Spec.PreFilter
import Verif.Model.CompactHeightfield
/-! Specification vocabulary for compact heightfields. -/
namespace Rerecast

/-- A standing surface: floor height, clearance above it and area type. -/
structure Surface where
  floor : Nat
  clearance : Nat
  area : Area
  deriving DecidableEq, Repr

/-- The walkable surfaces of a column of solids, lowest first: on top of every walkable solid, with the free space
up to the next solid (or the top of the range), capped at 255. -/
def surfaces : List Solid → List Surface
  | [] => []
  | s :: l =>
    if isWalkable s.area then ⟨s.max, min (bottom l - s.max).toNat 255, s.area⟩ :: surfaces l else surfaces l

namespace CompactHeightfield

/-- The surfaces stored for the cell in column `c`, through the public fields `cells`, `spans`, `areas`. -/
def cellSurfaces (chf : CompactHeightfield) (c : Nat) : Res (List Surface) := do
  let cell ← idx chf.cells c
  cell.indexRange.mapM fun i => do
    let s ← idx chf.spans i
    let a ← idx chf.areas i
    .ok ⟨s.y, s.height, a⟩

/-- A well-formed compact heightfield: `u16` dimensions, one cell per column, one area per span, the cell ranges in column order
enumerate all spans exactly once, and a stored connection leads to a span of the adjacent in-grid cell. -/
structure WellFormed (chf : CompactHeightfield) : Prop where
  width_u16 : chf.width ≤ 65535
  height_u16 : chf.height ≤ 65535
  cells_len : chf.cells.length = chf.width * chf.height
  areas_len : chf.areas.length = chf.spans.length
  partition : chf.cells.flatMap CompactCell.indexRange = List.range chf.spans.length
  con : ∀ x < chf.width, ∀ z < chf.height, ∀ cell, chf.cells[x + z * chf.width]? = some cell →
    ∀ i ∈ cell.indexRange, ∀ s, chf.spans[i]? = some s → ∀ d < 4, ∀ k, s.con d = some k →
      ∃ nx nz nb, neighbourCell chf.width chf.height x z d = some (nx, nz) ∧
        chf.cells[nx + nz * chf.width]? = some nb ∧ k < nb.count

end CompactHeightfield

/-- Two surfaces are connectable: the shared vertical opening is at least `height` and the step between the floors
at most `climb`. -/
def Connectable (height climb : Nat) (a b : CompactSpan) : Prop :=
  (height : Int) ≤ (min (a.y + a.height) (b.y + b.height) : Nat) - ((max a.y b.y : Nat) : Int) ∧
  ((b.y : Int) - a.y).natAbs ≤ climb

instance (h c a b) : Decidable (Connectable h c a b) := inferInstanceAs (Decidable (_ ∧ _))

/-- The same relation between two surfaces of a solid heightfield. -/
def Joinable (height climb : Nat) (a b : Surface) : Prop :=
  (height : Int) ≤ (min (a.floor + a.clearance) (b.floor + b.clearance) : Nat) - ((max a.floor b.floor : Nat) : Int) ∧
  ((b.floor : Int) - a.floor).natAbs ≤ climb

namespace CompactHeightfield

/-- Span number `i` belongs to the cell `(x, z)` and is `s`. -/
def At (chf : CompactHeightfield) (x z i : Nat) (s : CompactSpan) : Prop :=
  x < chf.width ∧ z < chf.height ∧ chf.spans[i]? = some s ∧
  ∃ cell, chf.cells[x + z * chf.width]? = some cell ∧ i ∈ cell.indexRange

/-- The span number `j` (counted from the lowest) of the cell next to `(x, z)` in direction `d` has index `k`, is `t`
and is connectable with `s`. -/
def Reaches (chf : CompactHeightfield) (x z : Nat) (s : CompactSpan) (d j k : Nat) (t : CompactSpan) : Prop :=
  ∃ nx nz nb, neighbourCell chf.width chf.height x z d = some (nx, nz) ∧
    chf.cells[nx + nz * chf.width]? = some nb ∧ j < nb.count ∧ k = nb.index + j ∧ chf.spans[k]? = some t ∧
    Connectable chf.walkableHeight chf.walkableClimb s t

/-- Span number `i` of the cell `(x, z)` reports span number `k` as its neighbour in direction `d`. -/
def Connects (chf : CompactHeightfield) (x z i d k : Nat) : Prop :=
  ∃ s l nx nz nb, chf.At x z i s ∧ s.con d = some l ∧ neighbourCell chf.width chf.height x z d = some (nx, nz) ∧
    chf.cells[nx + nz * chf.width]? = some nb ∧ k = nb.index + l

end CompactHeightfield

namespace CompactHeightfield

/-- Span `i` reports span `k` as its neighbour in direction `d`. -/
def Link (chf : CompactHeightfield) (i d k : Nat) : Prop := ∃ x z, chf.Connects x z i d k

/-- Span `i` has a walkable area. -/
def WalkableAt (chf : CompactHeightfield) (i : Nat) : Prop := ∃ a, chf.areas[i]? = some a ∧ isWalkable a = true

end CompactHeightfield

namespace Heightfield

/-- The walkable surfaces of the column at `(x, z)` are `l`. -/
def HasSurfaces (hf : Heightfield) (x z : Nat) (l : List Surface) : Prop :=
  x < hf.width ∧ z < hf.height ∧ ∃ sol, hf.column (x + z * hf.width) = .ok sol ∧ surfaces sol = l

/-- Number of live walkable spans.  (A `SlotMap` panics beyond `2 ^ 32 - 2` live entries, so fewer than `2 ^ 32` is
not a restriction on real heightfields.) -/
def spanCount (hf : Heightfield) : Nat :=
  (hf.allocated.filter fun o => match o with
    | some s => isWalkable s.area
    | none => false).length

/-- Some surface can only be connected, in some direction, to surfaces from number 62 on, and one of number 63 or
higher qualifies. -/
def NeedsHighLayer (hf : Heightfield) (height climb : Nat) : Prop :=
  ∃ x z l a d nx nz l', hf.HasSurfaces x z l ∧ a ∈ l ∧ d < 4 ∧ neighbourCell hf.width hf.height x z d = some (nx, nz) ∧
    hf.HasSurfaces nx nz l' ∧ (∀ (j : Nat) (b : Surface), j < 62 → l'[j]? = some b → ¬ Joinable height climb a b) ∧
    ∃ (j : Nat) (b : Surface), 62 < j ∧ l'[j]? = some b ∧ Joinable height climb a b

end Heightfield

end Rerecast
