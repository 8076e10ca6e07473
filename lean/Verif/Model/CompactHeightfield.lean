import Verif.Model.Heightfield
/-!
Model of `compact_heightfield.rs`.  The float fields (`aabb`, `cell_size`, `cell_height`) are omitted: no
modelled function reads them, and `into_compact` only raises `aabb.max.y`.
-/
namespace Rerecast

/-- compact_heightfield.rs:78-113 `CompactHeightfield` -/
structure CompactHeightfield where
  width : Nat
  height : Nat
  walkableHeight : Nat
  walkableClimb : Nat
  borderSize : Nat
  maxDistance : Nat
  maxRegion : Nat
  cells : List CompactCell
  spans : List CompactSpan
  dist : List Nat
  areas : List Area
  deriving DecidableEq, Repr

/-- compact_heightfield.rs:117 `MAX_HEIGHT` -/
def MAX_HEIGHT : Nat := 65535

/-- compact_heightfield.rs:187 `MAX_LAYERS = NOT_CONNECTED - 1` -/
def MAX_LAYERS : Nat := NOT_CONNECTED - 1

/-- Mutable state of the first pass of `into_compact`. -/
structure FillState where
  cells : List CompactCell
  spans : List CompactSpan
  areas : List Area
  cellIndex : Nat
  deriving DecidableEq, Repr

namespace Heightfield

/-- compact_heightfield.rs:128-132: the number of walkable spans in the slot map. -/
def walkableSpanCount (hf : Heightfield) : Nat :=
  hf.allocated.countP fun o => match o with
    | some s => isWalkable s.area
    | none => false

/-- compact_heightfield.rs:166-171 `span.next.map(|span| self.span(span).min).unwrap_or(MAX_HEIGHT)` -/
def topOf (hf : Heightfield) (next : Option SpanKey) : Res Nat :=
  match next with
  | some k => do let s ← hf.span k; .ok s.min
  | none => .ok MAX_HEIGHT

/-- compact_heightfield.rs:166-179: the loop over the spans of one column.  The cell is a reference into
`cells`; the model carries it separately and `fillCell` stores it. -/
def fillColumn (hf : Heightfield) : Nat → Option SpanKey → CompactCell → FillState → Res (CompactCell × FillState)
  | _, none, cell, st => .ok (cell, st)
  | 0, some _, _, _ => .error .diverge
  | fuel + 1, some k, cell, st => do
    let s ← hf.span k
    if !isWalkable s.area then
      fillColumn hf fuel s.next cell st
    else
      let bot := s.max
      let top ← hf.topOf s.next
      let c ← idx st.spans st.cellIndex
      let spans ← setIdx st.spans st.cellIndex
        (({ c with y := bot } : CompactSpan).setHeight (min (top - bot) 255))
      let areas ← setIdx st.areas st.cellIndex s.area
      let cell ← cell.incCount
      fillColumn hf fuel s.next cell { st with spans, areas, cellIndex := st.cellIndex + 1 }

/-- compact_heightfield.rs:154-180: one cell of the first pass. -/
def fillCell (hf : Heightfield) (st : FillState) (p : Nat × Nat) : Res FillState :=
  match hf.spanKeyAt p.1 p.2 with
  | none => .ok st
  | some k => do
    let col := hf.columnIndex p.1 p.2
    let _ ← idx st.cells col
    let (cell, st) ← hf.fillColumn hf.allocated.length (some k) ⟨st.cellIndex % 2 ^ 32, 0⟩ st
    let cells ← setIdx st.cells col cell
    .ok { st with cells }

/-- compact_heightfield.rs:134-183: the first pass of `into_compact`. -/
def fill (hf : Heightfield) : Res FillState :=
  let n := hf.walkableSpanCount
  (gridCells hf.width hf.height).foldlM hf.fillCell
    { cells := List.replicate (hf.width * hf.height) CompactCell.default
      spans := List.replicate n CompactSpan.default
      areas := List.replicate n NOT_WALKABLE
      cellIndex := 0 }

end Heightfield

/-- compact_heightfield.rs:212-238: search the neighbouring cell's spans `ks` for the first connectable one.
Returns the layer to store and the updated `max_layer_index`. -/
def connectScan (walkableHeight walkableClimb : Nat) (spans : List CompactSpan) (s : CompactSpan)
    (nbIndex : Nat) : List Nat → Nat → Res (Option Nat × Nat)
  | [], maxLayer => .ok (none, maxLayer)
  | k :: ks, maxLayer => do
    let ns ← idx spans k
    let bot := max s.y ns.y
    let t1 ← addU16 s.y s.height
    let t2 ← addU16 ns.y ns.height
    let top := min t1 t2
    let walkable := decide ((top : Int) - (bot : Int) ≥ walkableHeight)
    let climbable := decide ((((ns.y : Int) - (s.y : Int)).natAbs : Int) ≤ walkableClimb)
    if !walkable || !climbable then
      connectScan walkableHeight walkableClimb spans s nbIndex ks maxLayer
    else
      let layer := k - nbIndex
      if layer ≥ MAX_LAYERS then
        connectScan walkableHeight walkableClimb spans s nbIndex ks (max maxLayer layer)
      else
        .ok (some layer, maxLayer)

/-- compact_heightfield.rs:194-240: connect span `i` of cell `(x, z)` in one direction. -/
def connectDir (hf : Heightfield) (walkableHeight walkableClimb : Nat) (cells : List CompactCell)
    (x z i : Nat) (st : List CompactSpan × Nat) (dir : Nat) : Res (List CompactSpan × Nat) := do
  let s ← idx st.1 i
  let spans ← setIdx st.1 i (s.setCon dir none)
  let nx := (x : Int) + dirOffsetX dir
  let nz := (z : Int) + dirOffsetZ dir
  if !hf.contains nx nz then
    .ok (spans, st.2)
  else
    let nb ← idx cells (hf.columnIndex nx.toNat nz.toNat)
    let s ← idx spans i
    let (con, maxLayer) ← connectScan walkableHeight walkableClimb spans s nb.index nb.indexRange st.2
    match con with
    | none => .ok (spans, maxLayer)
    | some layer => do
      let spans ← setIdx spans i (s.setCon dir (some layer))
      .ok (spans, maxLayer)

/-- compact_heightfield.rs:190-244: the second pass of `into_compact`. -/
def connectAll (hf : Heightfield) (walkableHeight walkableClimb : Nat) (cells : List CompactCell)
    (spans : List CompactSpan) : Res (List CompactSpan × Nat) :=
  (gridCells hf.width hf.height).foldlM (fun st (x, z) => do
    let cell ← idx cells (x + z * hf.width)
    cell.indexRange.foldlM (fun st i =>
      [0, 1, 2, 3].foldlM (connectDir hf walkableHeight walkableClimb cells x z i) st) st) (spans, 0)

/-- compact_heightfield.rs:123-252 `into_compact` -/
def Heightfield.intoCompact (hf : Heightfield) (walkableHeight walkableClimb : Nat) : Res CompactHeightfield := do
  let st ← hf.fill
  let (spans, maxLayer) ← connectAll hf walkableHeight walkableClimb st.cells st.spans
  if maxLayer > MAX_LAYERS then
    .error .err
  else
    .ok { width := hf.width, height := hf.height, walkableHeight, walkableClimb, borderSize := 0,
          maxDistance := 0, maxRegion := REGION_NONE, cells := st.cells, spans, dist := [], areas := st.areas }

namespace CompactHeightfield

/-- compact_heightfield.rs:256-258 `column_index` -/
def columnIndex (chf : CompactHeightfield) (x z : Nat) : Nat := x + z * chf.width

/-- compact_heightfield.rs:272-274 `cell_at` -/
def cellAt (chf : CompactHeightfield) (x z : Nat) : Res CompactCell := idx chf.cells (chf.columnIndex x z)

/-- compact_heightfield.rs:298-304 `con_indices`; the column number is computed in `i32` and cast to
`usize`. -/
def conIndices (chf : CompactHeightfield) (x z : Int) (dir con : Nat) : Res (Int × Int × Nat) := do
  let ax := x + dirOffsetX dir
  let az := z + dirOffsetZ dir
  let cellIndex := ax + az * chf.width
  if cellIndex < 0 then .error .panic
  else
    let cell ← idx chf.cells cellIndex.toNat
    .ok (ax, az, cell.index + con)

/-- `v as u16` for an `i32` value -/
def _root_.Rerecast.asU16 (v : Int) : Nat := (v % 65536).toNat

/-- The neighbour computation used all over erosion.rs and watershed_distance_field.rs, e.g. erosion.rs:64-66:
`let a_x = (x as i32 + dir_offset_x(dir) as i32) as u16; let a_z = ..;
let a_index = self.cell_at(a_x, a_z).index() as usize + con as usize;` -/
def neighbour (chf : CompactHeightfield) (x z dir con : Nat) : Res (Nat × Nat × Nat) := do
  let ax := asU16 ((x : Int) + dirOffsetX dir)
  let az := asU16 ((z : Int) + dirOffsetZ dir)
  let cell ← chf.cellAt ax az
  .ok (ax, az, cell.index + con)

/-- The triple loop over all spans used all over the code: for the cells of `order`, for every index of the cell's
range, run the body `f state x z index`, e.g. watershed_distance_field.rs:62-66. -/
def forSpans (chf : CompactHeightfield) (order : List (Nat × Nat)) (f : σ → Nat → Nat → Nat → Res σ) (init : σ) : Res σ :=
  order.foldlM (fun st p => do
    let cell ← chf.cellAt p.1 p.2
    cell.indexRange.foldlM (fun st i => f st p.1 p.2 i) st) init

end CompactHeightfield
end Rerecast
