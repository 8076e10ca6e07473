import Verif.Model.Floats
import Verif.Model.CompactHeightfield
/-!
Model of `HeightPatch` and `get_height` in `detail_mesh.rs`.  `i32` arithmetic on cell coordinates is done in `Int`: an overflow
needs a field of more than 2^31 cells or a float coordinate below -2^31 + 65535.
-/
namespace Rerecast

/-- detail_mesh.rs:1508 `RC_UNSET_HEIGHT` -/
def UNSET_HEIGHT : Nat := 0xFFFF

/-- detail_mesh.rs:1225-1232 `HeightPatch` -/
structure HeightPatch where
  data : List Nat
  xmin : Nat
  zmin : Nat
  width : Nat
  height : Nat
  deriving DecidableEq, Repr

/-- `v[i as usize]` for an `i32` index: a negative one becomes huge and is out of range. -/
def idxI (l : List α) (i : Int) : Res α := if i < 0 then .error .panic else idx l i.toNat

/-- `v[i as usize] = a` for an `i32` index. -/
def setIdxI (l : List α) (i : Int) (a : α) : Res (List α) := if i < 0 then .error .panic else setIdx l i.toNat a

/-- detail_mesh.rs: the queue entries `(x, z, span index)`. -/
abbrev Seed := Int × Int × Nat

namespace HeightPatch

/-- detail_mesh.rs:1492-1495 `data_len` -/
def dataLen (hp : HeightPatch) : Nat := hp.width * hp.height

/-- detail_mesh.rs:1497-1500 `data_at` -/
def dataAt (hp : HeightPatch) (x z : Int) : Res Nat := idxI hp.data (x + z * hp.width)

/-- detail_mesh.rs:1502-1505 `data_at_mut`, followed by an assignment. -/
def setDataAt (hp : HeightPatch) (x z : Int) (v : Nat) : Res HeightPatch := do
  let data ← setIdxI hp.data (x + z * hp.width) v
  .ok { hp with data }

/-- `self.data[..data_len].fill(v)` -/
def fill (hp : HeightPatch) (v : Nat) : Res HeightPatch :=
  if hp.dataLen ≤ hp.data.length then .ok { hp with data := List.replicate hp.dataLen v ++ hp.data.drop hp.dataLen }
  else .error .panic

/-- detail_mesh.rs:1274-1285: has the span a neighbour in another region? -/
def regionBorder (chf : CompactHeightfield) (s : CompactSpan) (x z region : Nat) : List Nat → Res Bool
  | [] => .ok false
  | dir :: dirs =>
    match s.con dir with
    | none => regionBorder chf s x z region dirs
    | some con => do
      let (_, _, ai) ← chf.conIndices x z dir con
      let as ← idx chf.spans ai
      if as.region ≠ region then .ok true else regionBorder chf s x z region dirs

/-- detail_mesh.rs:1247-1252: the patch, the queue and the variable `empty`. -/
structure Gather where
  hp : HeightPatch
  queue : List Seed
  empty : Bool
  deriving DecidableEq, Repr

/-- detail_mesh.rs:1265-1291: the spans `is` of one cell; the first one in the region counts. -/
def gatherCell (chf : CompactHeightfield) (region x z hx hz : Nat) (g : Gather) : List Nat → Res Gather
  | [] => .ok g
  | i :: is => do
    let s ← idx chf.spans i
    if s.region = region then do
      let hp ← g.hp.setDataAt hx hz s.y
      let border ← regionBorder chf s x z region [0, 1, 2, 3]
      .ok { hp, queue := if border then g.queue ++ [((x : Int), (z : Int), i)] else g.queue, empty := false }
    else gatherCell chf region x z hx hz g is

/-- detail_mesh.rs:1262-1292: one cell of the patch. -/
def gatherStep (chf : CompactHeightfield) (bs region : Nat) (g : Gather) (p : Nat × Nat) : Res Gather := do
  let z ← addU16 g.hp.zmin p.2
  let z ← addU16 z bs
  let x ← addU16 g.hp.xmin p.1
  let x ← addU16 x bs
  let c ← idx chf.cells (x + z * chf.width)
  gatherCell chf region x z p.1 p.2 g c.indexRange

/-- detail_mesh.rs:1257-1294: copy the heights of the spans in the region.  (The `u16` addition of the row is done once per row
in the source; a row without cells is only skipped if the patch has no cells at all.) -/
def gather (chf : CompactHeightfield) (bs region : Nat) (g : Gather) : Res Gather :=
  if region ≠ REGION_NONE then (gridCells g.hp.width g.hp.height).foldlM (gatherStep chf bs region) g else .ok g

/-- detail_mesh.rs:1318-1340: one direction of the flood from span `s` at `(cx, cz)`. -/
def floodDir (chf : CompactHeightfield) (bs : Nat) (cx cz : Int) (s : CompactSpan) (st : HeightPatch × List Seed) (dir : Nat) :
    Res (HeightPatch × List Seed) :=
  match s.con dir with
  | none => .ok st
  | some con =>
    let ax := cx + dirOffsetX dir
    let az := cz + dirOffsetZ dir
    let hx := ax - st.1.xmin - bs
    let hz := az - st.1.zmin - bs
    if asU16 hx ≥ st.1.width || asU16 hz ≥ st.1.height then .ok st
    else do
      let old ← st.1.dataAt hx hz
      if old ≠ UNSET_HEIGHT then .ok st
      else
        let cell ← idxI chf.cells (ax + az * chf.width)
        let as ← idx chf.spans (cell.index + con)
        let hp ← st.1.setDataAt hx hz as.y
        .ok (hp, st.2 ++ [(ax, az, cell.index + con)])

/-- detail_mesh.rs:1301 `RETRACT_SIZE` -/
def RETRACT_SIZE : Nat := 256

/-- detail_mesh.rs:1309-1316: after `head` was advanced, the entries in front of it are dropped once there are 256 of them. -/
def retract (queue : List Seed) (head : Nat) : Res (List Seed × Nat) :=
  if head ≥ RETRACT_SIZE then do
    let moved := if queue.length > RETRACT_SIZE then queue.drop RETRACT_SIZE ++ queue.drop (queue.length - RETRACT_SIZE) else queue
    let len ← subU queue.length RETRACT_SIZE
    .ok (moved.take len, 0)
  else .ok (queue, head)

/-- detail_mesh.rs:1302-1341: the flood. -/
def flood (chf : CompactHeightfield) (bs : Nat) : Nat → HeightPatch → List Seed → Nat → Res HeightPatch
  | fuel, hp, queue, head =>
    match queue[head]? with
    | none => .ok hp
    | some (cx, cz, ci) =>
      match fuel with
      | 0 => .error .diverge
      | fuel + 1 => do
        let (queue, head) ← retract queue (head + 1)
        let s ← idx chf.spans ci
        let (hp, queue) ← [0, 1, 2, 3].foldlM (floodDir chf bs cx cz s) (hp, queue)
        flood chf bs fuel hp queue head

/-- detail_mesh.rs:1355 `OFFSET` -/
def seedOffsets : List (Int × Int) := [(0, 0), (-1, -1), (0, -1), (1, -1), (1, 0), (1, 1), (0, 1), (-1, 1), (-1, 0)]

/-- detail_mesh.rs:1358-1361: `start_cell_x`, `start_cell_z`, `start_span_index`, `dmin`. -/
structure Start where
  x : Int
  z : Int
  span : Option Nat
  dmin : Int
  deriving DecidableEq, Repr

/-- detail_mesh.rs:1382-1391: one span of a candidate cell. -/
def startSpan (chf : CompactHeightfield) (ax ay az : Int) (st : Start) (i : Nat) : Res Start := do
  let s ← idx chf.spans i
  let d := ((ay - s.y).natAbs : Int)
  if d < st.dmin then .ok ⟨ax, az, some i, d⟩ else .ok st

section
variable {F : Type} (o : FloatOps F)

/-- detail_mesh.rs:1366-1392: one candidate cell next to a corner of the polygon. -/
def startCell (chf : CompactHeightfield) (hp : HeightPatch) (bs : Nat) (v : Vec3 F) (st : Start) (off : Int × Int) : Res Start :=
  if st.dmin ≤ 0 then .ok st
  else
    let ax := o.toI32 v.x + off.1
    let az := o.toI32 v.z + off.2
    if ax < hp.xmin || ax ≥ (hp.xmin : Int) + hp.width || az < hp.zmin || az ≥ (hp.zmin : Int) + hp.height then .ok st
    else do
      let c ← idxI chf.cells ((ax + bs) + (az + bs) * chf.width)
      c.indexRange.foldlM (startSpan chf ax (o.toI32 v.y) az) st

/-- detail_mesh.rs:1362-1393: one corner of the polygon.  (`verts` is read for every candidate cell in the source.) -/
def startCorner (chf : CompactHeightfield) (hp : HeightPatch) (bs : Nat) (verts : List (Vec3 F)) (st : Start) (j : Nat) :
    Res Start :=
  if st.dmin ≤ 0 then .ok st
  else do
    let v ← idx verts j
    seedOffsets.foldlM (startCell o chf hp bs v) st

/-- detail_mesh.rs:1398-1406: the centre of the polygon; Rust division truncates.  An `i32` overflow of the sum is not
modelled. -/
def center (verts : List (Vec3 F)) (poly : List Nat) : Res (Int × Int) := do
  let c ← poly.foldlM (fun (c : Int × Int) j => do
    let v ← idx verts j
    .ok (c.1 + o.toI32 v.x, c.2 + o.toI32 v.z)) (0, 0)
  if poly.length = 0 then .error .panic else .ok (c.1.tdiv poly.length, c.2.tdiv poly.length)

end

/-- detail_mesh.rs:1453-1475: one direction of the walk towards the centre. -/
def walkDir (chf : CompactHeightfield) (bs : Nat) (cx cz : Int) (s : CompactSpan) (st : HeightPatch × List Seed) (dir : Nat) :
    Res (HeightPatch × List Seed) :=
  match s.con dir with
  | none => .ok st
  | some con =>
    let nx := cx + dirOffsetX dir
    let nz := cz + dirOffsetZ dir
    let hx := nx - st.1.xmin
    let hz := nz - st.1.zmin
    if hx < 0 || hx ≥ st.1.width || hz < 0 || hz ≥ st.1.height then .ok st
    else do
      let old ← st.1.dataAt hx hz
      if old ≠ 0 then .ok st
      else
        let hp ← st.1.setDataAt hx hz 1
        let cell ← idxI chf.cells ((nx + bs) + (nz + bs) * chf.width)
        .ok (hp, st.2 ++ [(nx, nz, cell.index + con)])

/-- detail_mesh.rs:1440-1450, 1476: the direction to try first, and the order of directions (it is tried last, so that it ends on top
of the stack). -/
def walkDirs (cx cz pcx pcz : Int) : Res (List Nat) := do
  let d ← if cx = pcx then dirOffset 0 (if pcz > cz then 1 else -1) else dirOffset (if pcx > cx then 1 else -1) 0
  if d < 0 || d > 3 then .error .panic
  else .ok ((([0, 1, 2, 3] : List Nat).set d.toNat 3).set 3 d.toNat)

/-- detail_mesh.rs:1422-1477: the walk towards the centre; `last` is the entry popped last. -/
def walk (chf : CompactHeightfield) (bs : Nat) (pcx pcz : Int) : Nat → HeightPatch → List Seed → Option Seed →
    Res (HeightPatch × Option Seed)
  | fuel, hp, stack, last =>
    match stack.getLast? with
    | none => .ok (hp, last)
    | some (cx, cz, ci) =>
      match fuel with
      | 0 => .error .diverge
      | fuel + 1 =>
        if cx = pcx ∧ cz = pcz then .ok (hp, some (cx, cz, ci))
        else do
          let dirs ← walkDirs cx cz pcx pcz
          let s ← idx chf.spans ci
          let (hp, stack) ← dirs.foldlM (walkDir chf bs cx cz s) (hp, stack.dropLast)
          walk chf bs pcx pcz fuel hp stack (some (cx, cz, ci))

/-- detail_mesh.rs:1344-1490 `seed_array_with_poly_center`; `poly` are the `npoly` corners.  Returns the patch and the new
queue. -/
def seedCenter {F : Type} (o : FloatOps F) (chf : CompactHeightfield) (hp : HeightPatch) (poly : List Nat) (verts : List (Vec3 F))
    (bs : Nat) : Res (HeightPatch × List Seed) := do
  let start ← poly.foldlM (startCorner o chf hp bs verts) ⟨0, 0, none, UNSET_HEIGHT⟩
  match start.span with
  | none => .error .panic
  | some si => do
    let (pcx, pcz) ← center o verts poly
    let hp ← hp.fill 0
    let (hp, last) ← walk chf bs pcx pcz (hp.dataLen + 1) hp [(start.x, start.z, si)] none
    match last with
    | none => .error .panic
    | some (cx, cz, ci) => do
      let hp ← hp.fill UNSET_HEIGHT
      let s ← idx chf.spans ci
      let data ← setIdxI hp.data (cx - hp.xmin + (cz - hp.zmin) * hp.width) s.y
      .ok ({ hp with data }, [(cx + bs, cz + bs, ci)])

/-- detail_mesh.rs:1235-1342 `get_height_data` -/
def getHeightData {F : Type} (o : FloatOps F) (chf : CompactHeightfield) (hp : HeightPatch) (poly : List Nat) (verts : List (Vec3 F))
    (bs region : Nat) : Res HeightPatch := do
  let hp ← hp.fill UNSET_HEIGHT
  let g ← gather chf bs region ⟨hp, [], true⟩
  let (hp, queue) ← if g.empty then seedCenter o chf g.hp poly verts bs else .ok (g.hp, g.queue)
  flood chf bs (queue.length + hp.dataLen) hp queue 0

end HeightPatch

/-- detail_mesh.rs:1140-1150: the state of the spiral. -/
structure Spiral (F : Type) where
  x : Int
  z : Int
  dx : Int
  dz : Int
  ringStart : Nat
  ringIters : Nat
  h : Nat
  dmin : F

section
variable {F : Type} (o : FloatOps F)

/-- detail_mesh.rs:1152-1163: look at the current cell of the spiral. -/
def spiralLook (hp : HeightPatch) (ix iz : Int) (ch fy : F) (s : Spiral F) : Res (Spiral F) :=
  let nx := ix + s.x
  let nz := iz + s.z
  if nx ≥ 0 ∧ nz ≥ 0 ∧ nx < hp.width ∧ nz < hp.height then do
    let nh ← hp.dataAt nx nz
    if nh ≠ UNSET_HEIGHT then
      let d := o.abs (o.sub (o.mul (o.ofInt nh) ch) fy)
      if o.lt d s.dmin then .ok { s with h := nh, dmin := d } else .ok s
    else .ok s
  else .ok s

/-- detail_mesh.rs:1189-1195: turn at the corners and step to the next cell. -/
def spiralMove (s : Spiral F) : Spiral F :=
  let s := if s.x = s.z ∨ (s.x < 0 ∧ s.x = -s.z) ∨ (s.x > 0 ∧ s.x = 1 - s.z) then { s with dx := -s.dz, dz := s.dx } else s
  { s with x := s.x + s.dx, z := s.z + s.dz }

/-- detail_mesh.rs:1185-1186: enter the next ring. -/
def Spiral.nextRing (s : Spiral F) : Spiral F := { s with ringStart := s.ringStart + s.ringIters, ringIters := s.ringIters + 8 }

/-- detail_mesh.rs:1151-1196: the loop of the spiral: `n` iterations are left, the next one has number `i`. -/
def spiralLoop (hp : HeightPatch) (ix iz : Int) (ch fy : F) : Nat → Nat → Spiral F → Res Nat
  | 0, _, s => .ok s.h
  | n + 1, i, s => do
    let s ← spiralLook o hp ix iz ch fy s
    if i + 1 = s.ringStart then
      if s.h ≠ UNSET_HEIGHT then .ok s.h
      else spiralLoop hp ix iz ch fy n (i + 1) (spiralMove s.nextRing)
    else spiralLoop hp ix iz ch fy n (i + 1) (spiralMove s)

/-- `i32::clamp`: panics if `min > max`. -/
def clampIndex (v lo hi : Int) : Res Int := if lo ≤ hi then .ok (max lo (min v hi)) else .error .panic

/-- `u32` arithmetic of detail_mesh.rs:1144-1145: `max_size * max_size - 1` for `max_size = radius * 2 + 1`. -/
def spiralCells (radius : Nat) : Res Nat :=
  if (radius * 2 + 1) * (radius * 2 + 1) < 4294967296 then .ok ((radius * 2 + 1) * (radius * 2 + 1) - 1) else .error .panic

/-- detail_mesh.rs:1130-1199 `get_height` -/
def getHeight (f : Vec3 F) (ics ch : F) (radius : Nat) (hp : HeightPatch) : Res Nat := do
  let ix := o.toI32 (o.floor (o.add (o.mul f.x ics) (o.lit (1 / 100))))
  let iz := o.toI32 (o.floor (o.add (o.mul f.z ics) (o.lit (1 / 100))))
  let ix ← clampIndex (ix - hp.xmin) 0 ((hp.width : Int) - 1)
  let iz ← clampIndex (iz - hp.zmin) 0 ((hp.height : Int) - 1)
  let h ← hp.dataAt ix iz
  if h = UNSET_HEIGHT then do
    let n ← spiralCells radius
    spiralLoop o hp ix iz ch f.y n 0 ⟨1, 0, 1, 0, 8, 16, h, o.maxVal⟩
  else .ok h

end

end Rerecast
