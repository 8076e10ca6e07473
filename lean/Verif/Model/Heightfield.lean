import Verif.Model.CompactSpan
import Verif.Model.Math
/-!
Model of `heightfield.rs`: a grid of columns, each a linked list of spans stored in a `SlotMap`.

The float fields (`aabb`, `cell_size`, `cell_height`) are not touched by any function modelled here and
are omitted.
-/
namespace Rerecast

/-- span.rs:11-14 `SpanKey`.  A slot number; the generational `SlotMap` never hands out a key twice
(barring 2^31 reuses of one slot), so the model appends a fresh slot on every insertion. -/
notation "SpanKey" => Nat

/-- span.rs:69-84 `Span` -/
structure Span where
  min : Nat
  max : Nat
  area : Area
  next : Option SpanKey
  deriving DecidableEq, Repr

/-- heightfield.rs:57-73 `Heightfield`; `allocated_spans` is the slot list (`none` = removed). -/
structure Heightfield where
  width : Nat
  height : Nat
  spans : List (Option SpanKey)
  allocated : List (Option Span)
  deriving DecidableEq, Repr

namespace Heightfield

/-- heightfield.rs:260-277 `HeightfieldBuilder::build` for a width and height that fit `u16`
(the float computation of the two sizes is not modelled here). -/
def new (width height : Nat) : Heightfield :=
  { width, height, spans := List.replicate (width * height) none, allocated := [] }

/-- heightfield.rs:183-185 `column_index` -/
def columnIndex (hf : Heightfield) (x z : Nat) : Nat := x + z * hf.width

/-- heightfield.rs:188-191 `contains` -/
def contains (hf : Heightfield) (x z : Int) : Bool :=
  decide (x ≥ 0 ∧ x < hf.width ∧ z ≥ 0 ∧ z < hf.height)

/-- heightfield.rs:196-203 `span_key_at` -/
def spanKeyAt (hf : Heightfield) (x z : Nat) : Option SpanKey :=
  match hf.spans[hf.columnIndex x z]? with
  | none => none
  | some k => k

/-- heightfield.rs:231-241 `span` / `span_mut` (read): panics if the key is not present. -/
def span (hf : Heightfield) (k : SpanKey) : Res Span :=
  match hf.allocated[k]? with
  | some (some s) => .ok s
  | _ => .error .panic

/-- Assignment through `span_mut(key)`, heightfield.rs:239-241. -/
def setSpan (hf : Heightfield) (k : SpanKey) (s : Span) : Res Heightfield :=
  match hf.allocated[k]? with
  | some (some _) => .ok { hf with allocated := hf.allocated.set k (some s) }
  | _ => .error .panic

/-- `self.allocated_spans.insert(span)` -/
def insertSpan (hf : Heightfield) (s : Span) : Heightfield × SpanKey :=
  ({ hf with allocated := hf.allocated ++ [some s] }, hf.allocated.length)

/-- `self.allocated_spans.remove(key)` (a missing key is ignored) -/
def removeSpan (hf : Heightfield) (k : SpanKey) : Heightfield :=
  { hf with allocated := hf.allocated.set k none }

/-- Growing the new span over an overlapping one, heightfield.rs:139-153. -/
def mergeSpan (thr : Nat) (new c : Span) : Span :=
  let new := if c.min < new.min then { new with min := c.min } else new
  let new := if c.max > new.max then { new with max := c.max } else new
  if ((new.max : Int) - (c.max : Int)).natAbs ≤ thr
    then { new with area := max new.area c.area } else new

/-- Removing the absorbed span `cur` (whose successor is `next`) from the list, heightfield.rs:157-163. -/
def unlink (hf : Heightfield) (col : Nat) (prev : Option SpanKey) (cur : SpanKey)
    (next : Option SpanKey) : Res Heightfield :=
  let hf := hf.removeSpan cur
  match prev with
  | some p => do
    let ps ← hf.span p
    hf.setSpan p { ps with next := next }
  | none => do
    let spans ← setIdx hf.spans col next
    .ok { hf with spans }

/-- The body of the insertion loop, heightfield.rs:126-164.  Returns the heightfield with the absorbed
spans unlinked, the (grown) new span and the key of the span after which it must be linked. -/
def addSpanLoop (thr col : Nat) :
    Nat → Heightfield → Span → Option SpanKey → Option SpanKey → Res (Heightfield × Span × Option SpanKey)
  | _, hf, new, prev, none => .ok (hf, new, prev)
  | 0, _, _, _, some _ => .error .diverge
  | fuel + 1, hf, new, prev, some cur => do
    let c ← hf.span cur
    if c.min > new.max then
      .ok (hf, new, prev)
    else if c.max < new.min then
      addSpanLoop thr col fuel hf new (some cur) c.next
    else
      let hf ← hf.unlink col prev cur c.next
      addSpanLoop thr col fuel hf (mergeSpan thr new c) prev c.next

/-- heightfield.rs:113-180 `add_span` for `SpanInsertion { x, z, flag_merge_threshold: thr, span }`.
The loop fuel is the number of slots plus one. -/
def addSpan (hf : Heightfield) (x z thr : Nat) (new : Span) : Res Heightfield := do
  let col := hf.columnIndex x z
  if col ≥ hf.spans.length then
    .error .err
  else
    let head ← idx hf.spans col
    let (hf, new, prev) ← addSpanLoop thr col (hf.allocated.length + 1) hf new none head
    match prev with
    | some p =>
      let ps ← hf.span p
      let (hf, k) := hf.insertSpan { new with next := ps.next }
      let ps ← hf.span p
      hf.setSpan p { ps with next := some k }
    | none =>
      let lowest ← idx hf.spans col
      let (hf, k) := hf.insertSpan { new with next := lowest }
      let spans ← setIdx hf.spans col (some k)
      .ok { hf with spans }

end Heightfield
end Rerecast
