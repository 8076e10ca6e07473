import Verif.Model.CompactHeightfield
/-!
Models of `erosion.rs` and `watershed_distance_field.rs`.  Both contain the same two chamfer sweeps written out in
full, differing only in the integer type (`u8` with `saturating_add`, `u16` with `+`); the model has one copy of the
sweeps with the addition as a parameter.
-/
namespace Rerecast

/-- `u8::saturating_add` -/
def satAddU8 (a b : Nat) : Res Nat := .ok (min 255 (a + b))

/-- erosion.rs:68-71 `new_distance = dist[j].saturating_add(cost); if new_distance < dist[i] { dist[i] = new_distance }`,
watershed_distance_field.rs:74 `dist[i] = dist[i].min(dist[j] + cost)` -/
def relaxVia (add : Nat → Nat → Res Nat) (i : Nat) (dist : List Nat) (j cost : Nat) : Res (List Nat) := do
  let dj ← idx dist j
  let nd ← add dj cost
  let di ← idx dist i
  setIdx dist i (min di nd)

namespace CompactHeightfield

/-- erosion.rs:62-83 (directions 0 then 3), 84-105 (3, 2), 118-139 (2, 1), 140-161 (1, 0);
watershed_distance_field.rs:68-83, 85-100, 112-127, 129-144: relax over the neighbour in direction `dA` and over that
neighbour's neighbour in direction `dB`. -/
def relaxPair (chf : CompactHeightfield) (add : Nat → Nat → Res Nat) (x z i dA dB : Nat) (dist : List Nat) :
    Res (List Nat) := do
  let span ← idx chf.spans i
  match span.con dA with
  | none => .ok dist
  | some con => do
    let (ax, az, a) ← chf.neighbour x z dA con
    let aSpan ← idx chf.spans a
    let dist ← relaxVia add i dist a 2
    match aSpan.con dB with
    | none => .ok dist
    | some con => do
      let (_, _, b) ← chf.neighbour ax az dB con
      relaxVia add i dist b 3

/-- erosion.rs:54-108, watershed_distance_field.rs:61-103: first sweep. -/
def sweep1 (chf : CompactHeightfield) (add : Nat → Nat → Res Nat) (dist : List Nat) : Res (List Nat) :=
  chf.forSpans (gridCells chf.width chf.height) (fun dist x z i => do
    let dist ← chf.relaxPair add x z i 0 3 dist
    chf.relaxPair add x z i 3 2 dist) dist

/-- erosion.rs:110-164, watershed_distance_field.rs:105-147: second sweep, columns in reverse order. -/
def sweep2 (chf : CompactHeightfield) (add : Nat → Nat → Res Nat) (dist : List Nat) : Res (List Nat) :=
  chf.forSpans (gridCellsRev chf.width chf.height) (fun dist x z i => do
    let dist ← chf.relaxPair add x z i 2 1 dist
    chf.relaxPair add x z i 1 0 dist) dist

/-- erosion.rs:27-42: count the leading directions with a walkable neighbour (`break` at the first one without). -/
def walkableNeighbours (chf : CompactHeightfield) (x z : Nat) (span : CompactSpan) : List Nat → Nat → Res Nat
  | [], count => .ok count
  | dir :: dirs, count =>
    match span.con dir with
    | none => .ok count
    | some con => do
      let (_, _, a) ← chf.neighbour x z dir con
      let area ← idx chf.areas a
      if !isWalkable area then .ok count
      else chf.walkableNeighbours x z span dirs (count + 1)

/-- erosion.rs:9-50: mark boundary spans with distance 0. -/
def erosionBoundary (chf : CompactHeightfield) : Res (List Nat) :=
  chf.forSpans (gridCells chf.width chf.height) (fun dist x z i => do
    let area ← idx chf.areas i
    if !isWalkable area then setIdx dist i 0
    else
      let span ← idx chf.spans i
      let count ← chf.walkableNeighbours x z span [0, 1, 2, 3] 0
      if count ≠ 4 then setIdx dist i 0 else .ok dist) (List.replicate chf.spans.length 255)

/-- erosion.rs:8-177 `erode_walkable_area` -/
def erodeWalkableArea (chf : CompactHeightfield) (radius : Nat) : Res CompactHeightfield := do
  let dist ← chf.erosionBoundary
  let dist ← chf.sweep1 satAddU8 dist
  let dist ← chf.sweep2 satAddU8 dist
  let twice ← mulU16 radius 2
  let threshold := twice % 256
  let areas ← (List.range chf.spans.length).foldlM (fun areas i => do
    let d ← idx dist i
    if d < threshold then setIdx areas i NOT_WALKABLE else .ok areas) chf.areas
  .ok { chf with areas }

/-- watershed_distance_field.rs:43-53: number of directions whose neighbour has the same area. -/
def sameAreaNeighbours (chf : CompactHeightfield) (x z : Nat) (span : CompactSpan) (area : Area) : List Nat → Nat → Res Nat
  | [], count => .ok count
  | dir :: dirs, count =>
    match span.con dir with
    | none => chf.sameAreaNeighbours x z span area dirs count
    | some con => do
      let (_, _, a) ← chf.neighbour x z dir con
      let area' ← idx chf.areas a
      chf.sameAreaNeighbours x z span area dirs (if area = area' then count + 1 else count)

/-- watershed_distance_field.rs:27-59: mark boundary spans with distance 0. -/
def distanceBoundary (chf : CompactHeightfield) : Res (List Nat) :=
  chf.forSpans (gridCells chf.width chf.height) (fun dist x z i => do
    let span ← idx chf.spans i
    let area ← idx chf.areas i
    let count ← chf.sameAreaNeighbours x z span area [0, 1, 2, 3] 0
    if count < 4 then setIdx dist i 0 else .ok dist) (List.replicate chf.spans.length 65535)

/-- watershed_distance_field.rs:26-150 `calculate_distance_field` -/
def calculateDistanceField (chf : CompactHeightfield) : Res (List Nat) := do
  let dist ← chf.distanceBoundary
  let dist ← chf.sweep1 addU16 dist
  chf.sweep2 addU16 dist

/-- watershed_distance_field.rs:169-188: the contribution of one direction to the blurred sum.  The sum is a `u32` of
at most nine `u16` values, which cannot overflow. -/
def blurDir (chf : CompactHeightfield) (field : List Nat) (x z : Nat) (span : CompactSpan) (cd : Nat) (d dir : Nat) : Res Nat :=
  match span.con dir with
  | none => .ok (d + cd * 2)
  | some con => do
    let (ax, az, a) ← chf.neighbour x z dir con
    let da ← idx field a
    let aSpan ← idx chf.spans a
    let dir2 := (dir + 1) % 4
    match aSpan.con dir2 with
    | none => .ok (d + da + cd)
    | some con => do
      let (_, _, b) ← chf.neighbour ax az dir2 con
      let db ← idx field b
      .ok (d + da + db)

/-- watershed_distance_field.rs:152-195 `box_blur` -/
def boxBlur (chf : CompactHeightfield) (threshold : Nat) (field : List Nat) : Res (List Nat) :=
  let threshold := min 65535 (threshold * 2)
  chf.forSpans (gridCells chf.width chf.height) (fun result x z i => do
    let span ← idx chf.spans i
    let cd ← idx field i
    if cd ≤ threshold then setIdx result i cd
    else
      let d ← [0, 1, 2, 3].foldlM (chf.blurDir field x z span cd) cd
      setIdx result i ((d + 5) / 9 % 65536)) (List.replicate field.length 0)

/-- `iter().max().unwrap()` -/
def _root_.Rerecast.maxUnwrap : List Nat → Res Nat
  | [] => .error .panic
  | a :: l => .ok (l.foldl max a)

/-- watershed_distance_field.rs:18-24 `build_distance_field` -/
def buildDistanceField (chf : CompactHeightfield) : Res CompactHeightfield := do
  let field ← chf.calculateDistanceField
  let maxDistance ← maxUnwrap field
  let dist ← chf.boxBlur 1 field
  .ok { chf with maxDistance, dist }

end CompactHeightfield
end Rerecast
