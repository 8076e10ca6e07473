import Verif.Model.Heightfield
/-!
Model of `pre_filter.rs`: the three filters that adjust span areas.  All height arithmetic is done in `i32`
by the code and cannot overflow for `u16` inputs, so the model computes in `Int`.
-/
namespace Rerecast
namespace Heightfield

/-- pre_filter.rs:163 `MAX_HEIGHTFIELD_HEIGHT` -/
def MAX_HEIGHTFIELD_HEIGHT : Nat := 65535

/-- pre_filter.rs:19-30: the area of the current span after the test.  `prev` is the top of the previous span
together with its walkability before the filter and its current area. -/
def lowHangingArea (climb : Nat) (prev : Option (Nat × Bool × Area)) (max : Nat) (area : Area) : Area :=
  match prev with
  | some (pmax, pwalk, parea) =>
    if !isWalkable area && pwalk && decide ((max : Int) - (pmax : Int) ≤ climb) then parea else area
  | none => area

/-- pre_filter.rs:12-38: the loop over one column. -/
def lowHangingLoop (climb : Nat) :
    Nat → Heightfield → Option (Nat × Bool × Area) → Option SpanKey → Res Heightfield
  | _, hf, _, none => .ok hf
  | 0, _, _, some _ => .error .diverge
  | fuel + 1, hf, prev, some k => do
    let s ← hf.span k
    let area := lowHangingArea climb prev s.max s.area
    let hf ← hf.setSpan k { s with area := area }
    lowHangingLoop climb fuel hf (some (s.max, isWalkable s.area, area)) s.next

/-- pre_filter.rs:9-41 `filter_low_hanging_walkable_obstacles` -/
def filterLowHangingWalkableObstacles (hf : Heightfield) (climb : Nat) : Res Heightfield :=
  (gridCells hf.width hf.height).foldlM
    (fun hf (x, z) => lowHangingLoop climb hf.allocated.length hf none (hf.spanKeyAt x z)) hf

/-- `span.next.map(|key| self.span(key).min).unwrap_or(MAX_HEIGHTFIELD_HEIGHT)`,
pre_filter.rs:60-63, 104-107, 176-179 -/
def ceilingOf (hf : Heightfield) (next : Option SpanKey) : Res Int :=
  match next with
  | some k => do let s ← hf.span k; .ok (s.min : Int)
  | none => .ok (MAX_HEIGHTFIELD_HEIGHT : Int)

/-- Running values of the ledge test: `lowest_neighbor_floor_difference`,
`lowest_traversable_neighbor_floor`, `highest_traversable_neighbor_floor`. -/
structure LedgeAcc where
  diff : Int
  lo : Int
  hi : Int
  deriving DecidableEq, Repr

/-- pre_filter.rs:102-138: scan the spans of one neighbouring column. -/
def ledgeNeighbourLoop (hf : Heightfield) (height climb : Nat) (floor ceiling : Int) :
    Nat → LedgeAcc → Option SpanKey → Res LedgeAcc
  | _, acc, none => .ok acc
  | 0, _, some _ => .error .diverge
  | fuel + 1, acc, some k => do
    let s ← hf.span k
    let nfloor : Int := s.max
    let nceiling ← hf.ceilingOf s.next
    if min ceiling nceiling - max floor nfloor < height then
      ledgeNeighbourLoop hf height climb floor ceiling fuel acc s.next
    else
      let d := nfloor - floor
      let acc := { acc with diff := min acc.diff d }
      if (d.natAbs : Int) ≤ climb then
        ledgeNeighbourLoop hf height climb floor ceiling fuel
          { acc with lo := min acc.lo nfloor, hi := max acc.hi nfloor } s.next
      else if d < -(climb : Int) then
        .ok acc
      else
        ledgeNeighbourLoop hf height climb floor ceiling fuel acc s.next

/-- pre_filter.rs:75-139: the loop over the (remaining) directions. -/
def ledgeDirections (hf : Heightfield) (height climb : Nat) (x z : Nat) (floor ceiling : Int) :
    List Nat → LedgeAcc → Res LedgeAcc
  | [], acc => .ok acc
  | d :: dirs, acc => do
    let nx := (x : Int) + dirOffsetX d
    let nz := (z : Int) + dirOffsetZ d
    if !hf.contains nx nz then
      .ok { acc with diff := -(climb : Int) - 1 }
    else
      let head := hf.spanKeyAt nx.toNat nz.toNat
      let nceiling ← hf.ceilingOf head
      if min ceiling nceiling - floor ≥ height then
        .ok { acc with diff := -(climb : Int) - 1 }
      else
        let acc ← ledgeNeighbourLoop hf height climb floor ceiling hf.allocated.length acc head
        ledgeDirections hf height climb x z floor ceiling dirs acc

/-- pre_filter.rs:59-151: whether a walkable span is next to a ledge. -/
def isLedge (hf : Heightfield) (height climb : Nat) (x z : Nat) (s : Span) : Res Bool := do
  let floor : Int := s.max
  let ceiling ← hf.ceilingOf s.next
  let acc ← ledgeDirections hf height climb x z floor ceiling [0, 1, 2, 3]
    { diff := MAX_HEIGHTFIELD_HEIGHT, lo := floor, hi := floor }
  if acc.diff < -(climb : Int) then .ok true
  else .ok (decide (acc.hi - acc.lo > climb))

/-- pre_filter.rs:48-157: the loop over one column. -/
def ledgeLoop (height climb : Nat) (x z : Nat) : Nat → Heightfield → Option SpanKey → Res Heightfield
  | _, hf, none => .ok hf
  | 0, _, some _ => .error .diverge
  | fuel + 1, hf, some k => do
    let s ← hf.span k
    if !isWalkable s.area then
      ledgeLoop height climb x z fuel hf s.next
    else
      let filtered ← isLedge hf height climb x z s
      let hf ← if filtered then hf.setSpan k { s with area := NOT_WALKABLE } else .ok hf
      ledgeLoop height climb x z fuel hf s.next

/-- pre_filter.rs:44-160 `filter_ledge_spans` -/
def filterLedgeSpans (hf : Heightfield) (height climb : Nat) : Res Heightfield :=
  (gridCells hf.width hf.height).foldlM
    (fun hf (x, z) => ledgeLoop height climb x z hf.allocated.length hf (hf.spanKeyAt x z)) hf

/-- pre_filter.rs:171-189: the loop over one column. -/
def lowHeightLoop (height : Nat) : Nat → Heightfield → Option SpanKey → Res Heightfield
  | _, hf, none => .ok hf
  | 0, _, some _ => .error .diverge
  | fuel + 1, hf, some k => do
    let s ← hf.span k
    let ceiling ← hf.ceilingOf s.next
    let hf ← if ceiling - (s.max : Int) < height then hf.setSpan k { s with area := NOT_WALKABLE } else .ok hf
    lowHeightLoop height fuel hf s.next

/-- pre_filter.rs:166-192 `filter_walkable_low_height_spans` -/
def filterWalkableLowHeightSpans (hf : Heightfield) (height : Nat) : Res Heightfield :=
  (gridCells hf.width hf.height).foldlM
    (fun hf (x, z) => lowHeightLoop height hf.allocated.length hf (hf.spanKeyAt x z)) hf

end Heightfield
end Rerecast
