import Verif.Model.Heightfield
/-!
Specification vocabulary for heightfield columns.  Independent of the insertion algorithm.
-/
namespace Rerecast

/-- The user-visible content of a span, without the link: a solid block `[min, max)` of voxels with an
area type. -/
structure Solid where
  min : Nat
  max : Nat
  area : Area
  deriving DecidableEq, Repr

/-- Forget the link of a span. -/
def Span.solid (s : Span) : Solid := ⟨s.min, s.max, s.area⟩

namespace Heightfield

/-- The documented way to iterate a column (heightfield.rs:42-51): start at the head key and follow
`next`.  Returns the visited keys with their spans. -/
def visitFrom (hf : Heightfield) : Nat → Option SpanKey → Res (List (SpanKey × Span))
  | _, none => .ok []
  | 0, some _ => .error .diverge
  | fuel + 1, some k => do
    let s ← hf.span k
    let rest ← hf.visitFrom fuel s.next
    .ok ((k, s) :: rest)

/-- Visit column number `c`; more steps than there are slots would mean a cycle. -/
def visit (hf : Heightfield) (c : Nat) : Res (List (SpanKey × Span)) := do
  let head ← idx hf.spans c
  hf.visitFrom hf.allocated.length head

/-- The solids of column `c`, lowest first, as seen by iteration. -/
def column (hf : Heightfield) (c : Nat) : Res (List Solid) := do
  let l ← hf.visit c
  .ok (l.map fun p => p.2.solid)

/-- A live key of the slot map. -/
def Live (hf : Heightfield) (k : SpanKey) : Prop := ∃ s, hf.span k = .ok s

end Heightfield

/-- Strictly ascending, pairwise separated by at least one free voxel: `a.max < b.min` for every earlier
`a` and later `b`. -/
def Separated (l : List Solid) : Prop := l.Pairwise fun a b => a.max < b.min

/-- A voxel height `v` is solid in a column. -/
def Occupied (l : List Solid) (v : Nat) : Prop := ∃ s ∈ l, s.min ≤ v ∧ v < s.max

/-- The `(min, max)` geometry of a column. -/
def geom (l : List Solid) : List (Nat × Nat) := l.map fun s => (s.min, s.max)

/-- The new block and an existing one overlap or touch. -/
def Touches (n c : Solid) : Prop := c.min ≤ n.max ∧ n.min ≤ c.max
instance (n c : Solid) : Decidable (Touches n c) := inferInstanceAs (Decidable (_ ∧ _))

/-- A well-formed heightfield, in terms of iteration only: the table has one head per column, iterating
any column works, the visited spans of a column are distinct, sorted and separated with heights in `u16`, and
every live slot belongs to exactly one column. -/
structure Heightfield.WellFormed (hf : Heightfield) : Prop where
  size : hf.spans.length = hf.width * hf.height
  iter : ∃ vis : Nat → List (SpanKey × Span),
    (∀ c < hf.width * hf.height, hf.visit c = .ok (vis c)) ∧
    (∀ c < hf.width * hf.height, ((vis c).map Prod.fst).Nodup) ∧
    (∀ c < hf.width * hf.height, ∀ c' < hf.width * hf.height, c ≠ c' →
      ∀ k ∈ (vis c).map Prod.fst, k ∉ (vis c').map Prod.fst) ∧
    (∀ k, hf.Live k → ∃ c < hf.width * hf.height, k ∈ (vis c).map Prod.fst) ∧
    (∀ c < hf.width * hf.height, Separated ((vis c).map fun p => p.2.solid)) ∧
    (∀ c < hf.width * hf.height, ∀ p ∈ vis c, p.2.min ≤ p.2.max ∧ p.2.max ≤ 65535)

/-- One insertion request (heightfield.rs:306-315 `SpanInsertion`). -/
structure Insertion where
  x : Nat
  z : Nat
  thr : Nat
  min : Nat
  max : Nat
  area : Area
  deriving DecidableEq, Repr

/-- The solid block requested by an insertion. -/
def Insertion.solid (i : Insertion) : Solid := ⟨i.min, i.max, i.area⟩

namespace Heightfield

/-- Perform one insertion request with the modelled `add_span`. -/
def insert (hf : Heightfield) (i : Insertion) : Res Heightfield :=
  hf.addSpan i.x i.z i.thr ⟨i.min, i.max, i.area, none⟩

/-- Requests addressed to a `w × h` grid with `min ≤ max`. -/
def _root_.Rerecast.ValidOps (w h : Nat) (ops : List Insertion) : Prop :=
  ∀ i ∈ ops, i.x < w ∧ i.z < h ∧ i.min ≤ i.max

/-- Perform a history of insertion requests. -/
def insertAll (hf : Heightfield) (ops : List Insertion) : Res Heightfield :=
  ops.foldlM insert hf

end Heightfield
end Rerecast
