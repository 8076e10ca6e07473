import Verif.Model.CompactHeightfield
/-!
Model of crates/rerecast/src/watershed_build_regions.rs.

Simplifications: `RegionId` is its `u16` bit pattern as a `Nat`; the `reserve`/`with_capacity` calls, the `tracing` output
and the `Region` fields `connects_to_border`, `y_min`, `y_max` (never read) are left out; `usize` counters do not
overflow.
-/
namespace Rerecast

/-- watershed_build_regions.rs:818-823 `LevelStackEntry` -/
structure LevelEntry where
  x : Nat
  z : Nat
  index : Option Nat
  deriving DecidableEq, Repr

/-- The two work arrays `src_reg`, `src_dist` of watershed_build_regions.rs:37-38. -/
structure Labels where
  reg : List Nat
  dist : List Nat
  deriving DecidableEq, Repr

/-- watershed_build_regions.rs:832-848 `Region` -/
structure Region where
  spanCount : Nat
  id : Nat
  area : Area
  remap : Bool
  visited : Bool
  overlap : Bool
  connections : List Nat
  floors : List Nat
  deriving DecidableEq, Repr

namespace Region

/-- watershed_build_regions.rs:850-864 `Region::new` -/
def new (id : Nat) : Region := ⟨0, id, NOT_WALKABLE, false, false, false, [], []⟩

/-- watershed_build_regions.rs:866-871 `add_unique_floor_region` -/
def addUniqueFloor (r : Region) (f : Nat) : Region :=
  if r.floors.contains f then r else { r with floors := r.floors ++ [f] }

/-- watershed_build_regions.rs:873-877 `is_region_connected_to_border` -/
def connectedToBorder (r : Region) : Bool := r.connections.contains REGION_NONE

/-- watershed_build_regions.rs:879-898 `can_merge_with` -/
def canMergeWith (r other : Region) : Bool :=
  if r.area ≠ other.area then false
  else if r.connections.count other.id > 1 then false
  else !r.floors.contains other.id

end Region

/-- watershed_build_regions.rs:918-933 `remove_adjacent_neighbours`, from position `i` on; one unit of fuel per
iteration. -/
def removeAdjacent : Nat → Nat → List Nat → Res (List Nat)
  | 0, i, c => if i < c.length ∧ c.length > 1 then .error .diverge else .ok c
  | fuel + 1, i, c =>
    if i < c.length ∧ c.length > 1 then do
      let a ← idx c i
      let b ← idx c ((i + 1) % c.length)
      if a = b then removeAdjacent fuel i (c.eraseIdx i) else removeAdjacent fuel (i + 1) c
    else .ok c

/-- watershed_build_regions.rs:491-505: the loop at the end of `walk_contour`, from position `j` on.  Unlike
`remove_adjacent_neighbours` it does not stop when one entry is left. -/
def removeAdjacentWalk : Nat → Nat → List Nat → Res (List Nat)
  | 0, j, c => if j < c.length then .error .diverge else .ok c
  | fuel + 1, j, c =>
    if j < c.length then do
      let a ← idx c j
      let b ← idx c ((j + 1) % c.length)
      if a = b then removeAdjacentWalk fuel j (c.eraseIdx j) else removeAdjacentWalk fuel (j + 1) c
    else .ok c

namespace Region

/-- watershed_build_regions.rs:900-916 `replace_neighbour` -/
def replaceNeighbour (r : Region) (old new : Nat) : Res Region := do
  let connections := r.connections.map fun c => if c = old then new else c
  let floors := r.floors.map fun c => if c = old then new else c
  if r.connections.contains old then
    let connections ← removeAdjacent connections.length 0 connections
    .ok { r with connections, floors }
  else .ok { r with connections, floors }

/-- The entries of a cyclic list after position `ins`, without that position itself
(watershed_build_regions.rs:964-968, 970-974). -/
def cyclicRest (c : List Nat) (ins : Nat) : Res (List Nat) :=
  (List.range (c.length - 1)).mapM fun i => idx c ((ins + 1 + i) % c.length)

/-- watershed_build_regions.rs:940-983 `merge_regions`; `none` when it returns `false` (nothing is changed then). -/
def mergeRegions (r other : Region) : Res (Option Region) :=
  match r.connections.findIdx? (· = other.id), other.connections.findIdx? (· = r.id) with
  | some insA, some insB => do
    let a ← cyclicRest r.connections insA
    let b ← cyclicRest other.connections insB
    let connections ← removeAdjacent (a ++ b).length 0 (a ++ b)
    let r := other.floors.foldl addUniqueFloor { r with connections }
    .ok (some { r with spanCount := r.spanCount + other.spanCount })
  | _, _ => .ok none

end Region

namespace CompactHeightfield

/-- The neighbour of span `i` of cell `(x, z)` in direction `dir`, as computed throughout the file, e.g.
watershed_build_regions.rs:439-442; `none` when the span has no connection there. -/
def conNeighbour (chf : CompactHeightfield) (x z i dir : Nat) : Res (Option (Nat × Nat × Nat)) := do
  let s ← idx chf.spans i
  match s.con dir with
  | none => .ok none
  | some con => do
    let n ← chf.neighbour x z dir con
    .ok (some n)

/-- The grid coordinates of `for z in min_z..max_z { for x in min_x..max_x { .. } }`. -/
def rectCells (minX maxX minZ maxZ : Nat) : List (Nat × Nat) :=
  (List.range' minZ (maxZ - minZ)).flatMap fun z => (List.range' minX (maxX - minX)).map fun x => (x, z)

/-- watershed_build_regions.rs:624-645 `paint_rect_region` -/
def paintRectRegion (chf : CompactHeightfield) (minX maxX minZ maxZ region : Nat) (reg : List Nat) : Res (List Nat) :=
  chf.forSpans (rectCells minX maxX minZ maxZ) (fun reg _ _ i => do
    let a ← idx chf.areas i
    if isWalkable a then setIdx reg i region else .ok reg) reg

/-- watershed_build_regions.rs:666-681: one span of `sort_cells_by_level`. -/
def sortSpan (chf : CompactHeightfield) (reg : List Nat) (startLevel : Nat) (stacks : List (List LevelEntry)) (x z i : Nat) :
    Res (List (List LevelEntry)) := do
  let a ← idx chf.areas i
  if !isWalkable a then .ok stacks
  else
    let r ← idx reg i
    if r ≠ REGION_NONE then .ok stacks
    else
      let d ← idx chf.dist i
      let s := startLevel - d / 2
      if s ≥ 8 then .ok stacks
      else
        let st ← idx stacks s
        setIdx stacks s (st ++ [⟨x, z, some i⟩])

/-- watershed_build_regions.rs:647-684 `sort_cells_by_level` with `nb_stacks = 8`, `log_levels_per_stack = 1`. -/
def sortCellsByLevel (chf : CompactHeightfield) (level : Nat) (reg : List Nat) : Res (List (List LevelEntry)) :=
  chf.forSpans (gridCells chf.width chf.height) (chf.sortSpan reg (level / 2)) (List.replicate 8 [])

/-- watershed_build_regions.rs:802-816 `append_stacks` -/
def appendStacks (src dst : List LevelEntry) (reg : List Nat) : Res (List LevelEntry) :=
  src.foldlM (fun dst e =>
    match e.index with
    | none => .ok dst
    | some i => do
      let r ← idx reg i
      if r ≠ REGION_NONE then .ok dst else .ok (dst ++ [e])) dst

/-- watershed_build_regions.rs:695-716: the stack of `expand_regions` when `fill_stack` is set. -/
def expandFill (chf : CompactHeightfield) (level : Nat) (reg : List Nat) : Res (List LevelEntry) :=
  chf.forSpans (gridCells chf.width chf.height) (fun (st : List LevelEntry) x z i => do
    let d ← idx chf.dist i
    let r ← idx reg i
    let a ← idx chf.areas i
    if d ≥ level ∧ r = REGION_NONE ∧ isWalkable a then .ok (st ++ [⟨x, z, some i⟩]) else .ok st) []

/-- watershed_build_regions.rs:717-728: entries which already have a region are marked as used. -/
def expandMark (reg : List Nat) (stack : List LevelEntry) : Res (List LevelEntry) :=
  stack.mapM fun e =>
    match e.index with
    | none => .ok e
    | some i => do
      let r ← idx reg i
      if r ≠ REGION_NONE then .ok { e with index := none } else .ok e

/-- watershed_build_regions.rs:749-768: one direction of the search for the nearest region of the same area; the state is
`(r, d2)`. -/
def expandDir (chf : CompactHeightfield) (lab : Labels) (x z i area : Nat) (st : Nat × Nat) (dir : Nat) : Res (Nat × Nat) := do
  let n ← chf.conNeighbour x z i dir
  match n with
  | none => .ok st
  | some (_, _, a) => do
    let aArea ← idx chf.areas a
    if aArea ≠ area then .ok st
    else
      let aRegion ← idx lab.reg a
      let aDist ← idx lab.dist a
      let aDist ← addU16 aDist 2
      if aRegion ≠ REGION_NONE ∧ isBorderRegion aRegion = false ∧ aDist < st.2 then .ok (aRegion, aDist) else .ok st

/-- watershed_build_regions.rs:737-780: one entry of a pass: the entry afterwards and, if it found a region, the
`DirtyEntry` `(index, region, distance2)`. -/
def expandEntry (chf : CompactHeightfield) (lab : Labels) (e : LevelEntry) : Res (LevelEntry × Option (Nat × Nat × Nat)) :=
  match e.index with
  | none => .ok (e, none)
  | some i => do
    let r ← idx lab.reg i
    let area ← idx chf.areas i
    let rd ← [0, 1, 2, 3].foldlM (chf.expandDir lab e.x e.z i area) (r, 65535)
    if rd.1 ≠ REGION_NONE then .ok ({ e with index := none }, some (i, rd.1, rd.2)) else .ok (e, none)

/-- watershed_build_regions.rs:781-786: write one dirty entry back. -/
def applyDirty (lab : Labels) (d : Nat × Nat × Nat) : Res Labels := do
  let reg ← setIdx lab.reg d.1 d.2.1
  let dist ← setIdx lab.dist d.1 d.2.2
  .ok { reg, dist }

/-- watershed_build_regions.rs:730-798: the passes of `expand_regions`; one unit of fuel per pass.  `failed` is the
number of entries that produced no dirty entry. -/
def expandLoop (chf : CompactHeightfield) (maxIter level : Nat) :
    Nat → Nat → Labels → List LevelEntry → Res (Labels × List LevelEntry)
  | 0, _, lab, stack => if stack.isEmpty then .ok (lab, stack) else .error .diverge
  | fuel + 1, iter, lab, stack =>
    if stack.isEmpty then .ok (lab, stack)
    else do
      let out ← stack.mapM (chf.expandEntry lab)
      let stack := out.map (·.1)
      let dirty := out.filterMap (·.2)
      let lab ← dirty.foldlM applyDirty lab
      let failed := (out.filter fun o => o.2.isNone).length
      if failed = stack.length then .ok (lab, stack)
      else if level > 0 then
        if iter + 1 ≥ maxIter then .ok (lab, stack) else chf.expandLoop maxIter level fuel (iter + 1) lab stack
      else chf.expandLoop maxIter level fuel iter lab stack

/-- watershed_build_regions.rs:686-799 `expand_regions`.  Every pass but the last uses up an entry. -/
def expandRegions (chf : CompactHeightfield) (maxIter level : Nat) (lab : Labels) (stack : List LevelEntry) (fill : Bool) :
    Res (Labels × List LevelEntry) := do
  let stack ← if fill then chf.expandFill level lab.reg else expandMark lab.reg stack
  chf.expandLoop maxIter level (stack.length + 1) 0 lab stack

/-- watershed_build_regions.rs:573-588: the diagonal part of the neighbour check; `some ar` leaves the loop. -/
def floodDiagonal (chf : CompactHeightfield) (reg : List Nat) (area region : Nat) (ax az a dir : Nat) : Res (Option Nat) := do
  let n ← chf.conNeighbour ax az a ((dir + 1) % 4)
  match n with
  | none => .ok none
  | some (_, _, b) => do
    let bArea ← idx chf.areas b
    if bArea ≠ area then .ok none
    else
      let nr ← idx reg b
      if nr ≠ REGION_NONE ∧ nr ≠ region then .ok (some nr) else .ok none

/-- watershed_build_regions.rs:554-590: one direction of the neighbour check.  `some ar` means that the loop has been
left with that value of `ar`. -/
def floodCheckDir (chf : CompactHeightfield) (reg : List Nat) (area region : Nat) (x z i : Nat) (st : Option Nat) (dir : Nat) :
    Res (Option Nat) :=
  match st with
  | some ar => .ok (some ar)
  | none => do
    let n ← chf.conNeighbour x z i dir
    match n with
    | none => .ok none
    | some (ax, az, a) => do
      let aArea ← idx chf.areas a
      if aArea ≠ area then .ok none
      else
        let nr ← idx reg a
        if isBorderRegion nr then .ok (some REGION_NONE)
        else if nr ≠ REGION_NONE ∧ nr ≠ region then .ok (some nr)
        else chf.floodDiagonal reg area region ax az a dir

/-- watershed_build_regions.rs:600-619: one direction of "Expand neighbours". -/
def floodExpandDir (chf : CompactHeightfield) (level area region : Nat) (x z i : Nat) (st : Labels × List LevelEntry)
    (dir : Nat) : Res (Labels × List LevelEntry) := do
  let n ← chf.conNeighbour x z i dir
  match n with
  | none => .ok st
  | some (ax, az, a) => do
    let aArea ← idx chf.areas a
    if aArea ≠ area then .ok st
    else
      let d ← idx chf.dist a
      let r ← idx st.1.reg a
      if d ≥ level ∧ r = REGION_NONE then
        let reg ← setIdx st.1.reg a region
        let dist ← setIdx st.1.dist a 0
        .ok ({ reg, dist }, ⟨ax, az, some a⟩ :: st.2)
      else .ok st

/-- watershed_build_regions.rs:542-620: the flood loop; the head of the list is the top of the stack; one unit of fuel
per popped entry. -/
def floodLoop (chf : CompactHeightfield) (level area region : Nat) :
    Nat → Nat → Labels → List LevelEntry → Res (Labels × Nat)
  | _, count, lab, [] => .ok (lab, count)
  | 0, _, _, _ :: _ => .error .diverge
  | fuel + 1, count, lab, e :: stack =>
    match e.index with
    | none => chf.floodLoop level area region fuel count lab stack
    | some ci => do
      let ar ← [0, 1, 2, 3].foldlM (chf.floodCheckDir lab.reg area region e.x e.z ci) none
      if ar.getD REGION_NONE ≠ REGION_NONE then
        let reg ← setIdx lab.reg ci REGION_NONE
        chf.floodLoop level area region fuel count { lab with reg } stack
      else
        let (lab, stack) ← [0, 1, 2, 3].foldlM (chf.floodExpandDir level area region e.x e.z ci) (lab, stack)
        chf.floodLoop level area region fuel (count + 1) lab stack

/-- watershed_build_regions.rs:520-622 `flood_region` for an entry with index `i`; the result says whether the region got
any span.  An accepted span pushes at most four others, so at most `4 * spans + 1` entries are popped. -/
def floodRegion (chf : CompactHeightfield) (x z i level region : Nat) (lab : Labels) : Res (Labels × Bool) := do
  let area ← idx chf.areas i
  let reg ← setIdx lab.reg i region
  let dist ← setIdx lab.dist i 0
  let (lab, count) ← chf.floodLoop (level - 2) area region (4 * chf.spans.length + 1) 0 { reg, dist } [⟨x, z, some i⟩]
  .ok (lab, decide (count > 0))

/-- watershed_build_regions.rs:118-137: one entry of "Mark new regions with IDs"; the state is the labels and
`region_id`. -/
def seedEntry (chf : CompactHeightfield) (level : Nat) (st : Labels × Nat) (e : LevelEntry) : Res (Labels × Nat) :=
  match e.index with
  | none => .ok st
  | some i => do
    let r ← idx st.1.reg i
    if r ≠ REGION_NONE then .ok st
    else
      let (lab, grown) ← chf.floodRegion e.x e.z i level st.2 st.1
      if grown then
        if st.2 = 65535 then .error .err
        else .ok (lab, st.2 + 1)
      else .ok (lab, st.2)

/-- State of the level loop, watershed_build_regions.rs:95-138. -/
structure LevelState where
  lab : Labels
  regionId : Nat
  stacks : List (List LevelEntry)
  deriving DecidableEq, Repr

/-- watershed_build_regions.rs:100-106: fill the stack of this level. -/
def levelStacks (chf : CompactHeightfield) (level sId : Nat) (st : LevelState) : Res (List (List LevelEntry)) :=
  if sId = 0 then chf.sortCellsByLevel level st.lab.reg
  else do
    let src ← idx st.stacks (sId - 1)
    let dst ← idx st.stacks sId
    let dst ← appendStacks src dst st.lab.reg
    setIdx st.stacks sId dst

/-- watershed_build_regions.rs:96-138: one iteration of the level loop; `level` and `sId` are the values after the update
at lines 97-98. -/
def levelStep (chf : CompactHeightfield) (level sId : Nat) (st : LevelState) : Res LevelState := do
  let stacks ← chf.levelStacks level sId st
  let stack ← idx stacks sId
  let (lab, stack) ← chf.expandRegions 8 level st.lab stack false
  let stacks ← setIdx stacks sId stack
  let (lab, regionId) ← stack.foldlM (chf.seedEntry level) (lab, st.regionId)
  .ok { lab, regionId, stacks }

/-- watershed_build_regions.rs:96-138: the level loop, `n` iterations (`level = 2 * n`, `s_id` counted modulo 8). -/
def levelLoop (chf : CompactHeightfield) : Nat → Nat → LevelState → Res LevelState
  | 0, _, st => .ok st
  | n + 1, sId, st => do
    let st ← chf.levelStep (2 * n) sId st
    chf.levelLoop n ((sId + 1) % 8) st

/-- watershed_build_regions.rs:50-92: paint the border; the result is `src_reg` and `region_id`.  (The ids `1..4` get the
flag bit.) -/
def paintBorder (chf : CompactHeightfield) (borderSize : Nat) (reg : List Nat) : Res (List Nat × Nat) :=
  if borderSize > 0 then do
    let bw := min borderSize chf.width
    let bh := min borderSize chf.height
    let reg ← chf.paintRectRegion 0 bw 0 chf.height (1 ||| BORDER_REGION) reg
    let reg ← chf.paintRectRegion (chf.width - bw) chf.width 0 chf.height (2 ||| BORDER_REGION) reg
    let reg ← chf.paintRectRegion 0 chf.width 0 bh (3 ||| BORDER_REGION) reg
    let reg ← chf.paintRectRegion 0 chf.width (chf.height - bh) chf.height (4 ||| BORDER_REGION) reg
    .ok (reg, 5)
  else .ok (reg, 1)

/-- watershed_build_regions.rs:28-148: the labelling phase of `build_regions`; the result is `src_reg` and `region_id`
(one more than the last id given out). -/
def labelRegions (chf : CompactHeightfield) (borderSize : Nat) : Res (List Nat × Nat) := do
  let m ← addU16 chf.maxDistance 1
  let (reg, regionId) ← chf.paintBorder borderSize (List.replicate chf.spans.length REGION_NONE)
  let lab : Labels := { reg, dist := List.replicate chf.spans.length 0 }
  let st ← chf.levelLoop (m / 2) 0 { lab, regionId, stacks := List.replicate 8 [] }
  let (lab, _) ← chf.expandRegions 64 0 st.lab [] true
  .ok (lab.reg, st.regionId)

/-- The region on the other side of a span's side, `NONE` without a connection (watershed_build_regions.rs:438-444,
452-458, 510-516). -/
def sideReg (chf : CompactHeightfield) (reg : List Nat) (x z i dir : Nat) : Res Nat := do
  let n ← chf.conNeighbour x z i dir
  match n with
  | none => .ok REGION_NONE
  | some (_, _, a) => idx reg a

/-- watershed_build_regions.rs:508-518 `is_solid_edge` -/
def isSolidEdge (chf : CompactHeightfield) (reg : List Nat) (x z i dir : Nat) : Res Bool := do
  let r ← chf.sideReg reg x z i dir
  let own ← idx reg i
  .ok (decide (r ≠ own))

/-- State of the walk of watershed_build_regions.rs:448-489. -/
structure WalkPos where
  x : Nat
  z : Nat
  i : Nat
  dir : Nat
  current : Nat
  connections : List Nat
  deriving DecidableEq, Repr

/-- watershed_build_regions.rs:449-485: one step of the walk; `none` for the early `return`. -/
def outlineStep (chf : CompactHeightfield) (reg : List Nat) (p : WalkPos) : Res (Option WalkPos) := do
  let solid ← chf.isSolidEdge reg p.x p.z p.i p.dir
  if solid then
    let r ← chf.sideReg reg p.x p.z p.i p.dir
    if r ≠ p.current then
      .ok (some { p with current := r, connections := p.connections ++ [r], dir := (p.dir + 1) % 4 })
    else .ok (some { p with dir := (p.dir + 1) % 4 })
  else
    let n ← chf.conNeighbour p.x p.z p.i p.dir
    match n with
    | none => .ok none
    | some (nx, nz, ni) => .ok (some { p with x := nx, z := nz, i := ni, dir := (p.dir + 3) % 4 })

/-- watershed_build_regions.rs:448-489: at most `n` steps; the result says whether the loop was left through `return`. -/
def outlineLoop (chf : CompactHeightfield) (reg : List Nat) (startI startDir : Nat) : Nat → WalkPos → Res (List Nat × Bool)
  | 0, p => .ok (p.connections, false)
  | n + 1, p => do
    let q ← chf.outlineStep reg p
    match q with
    | none => .ok (p.connections, true)
    | some q => if startI = q.i ∧ startDir = q.dir then .ok (q.connections, false) else chf.outlineLoop reg startI startDir n q

/-- watershed_build_regions.rs:425-506 `walk_contour`, called with empty `connections` (line 221-232); returns the
connections. -/
def outlineRegions (chf : CompactHeightfield) (reg : List Nat) (x z i dir : Nat) : Res (List Nat) := do
  let r ← chf.sideReg reg x z i dir
  let (c, returned) ← chf.outlineLoop reg i dir 40000 ⟨x, z, i, dir, r, [r]⟩
  if returned then .ok c
  else if c.length > 1 then removeAdjacentWalk c.length 0 c else .ok c

/-- watershed_build_regions.rs:205-218: the floors loop for span `i` of region `r`. -/
def floorStep (reg : List Nat) (nreg r i : Nat) (rg : Region) (j : Nat) : Res Region :=
  if i = j then .ok rg
  else do
    let f ← idx reg j
    if f = REGION_NONE ∨ f ≥ nreg then .ok rg
    else .ok ((if f = r then { rg with overlap := true } else rg).addUniqueFloor f)

/-- watershed_build_regions.rs:228: the first direction with a solid edge. -/
def findSolid (chf : CompactHeightfield) (reg : List Nat) (x z i : Nat) : Res (Option Nat) :=
  [0, 1, 2, 3].foldlM (fun (st : Option Nat) dir =>
    match st with
    | some d => .ok (some d)
    | none => do
      let s ← chf.isSolidEdge reg x z i dir
      .ok (if s then some dir else none)) none

/-- watershed_build_regions.rs:220-233: the connections of a region, found from its span `i`. -/
def findOutline (chf : CompactHeightfield) (reg : List Nat) (x z i : Nat) (rg : Region) : Res Region :=
  if !rg.connections.isEmpty then .ok rg
  else do
    let area ← idx chf.areas i
    let nd ← chf.findSolid reg x z i
    match nd with
    | none => .ok { rg with area }
    | some dir => do
      let connections ← chf.outlineRegions reg x z i dir
      .ok { rg with area, connections }

/-- watershed_build_regions.rs:198-233: one span of "Find edge of a region and find connections around the contour". -/
def collectSpan (chf : CompactHeightfield) (reg : List Nat) (nreg : Nat) (regions : List Region) (x z i : Nat) :
    Res (List Region) := do
  let r ← idx reg i
  if r = REGION_NONE ∨ r ≥ nreg then .ok regions
  else
    let rg ← idx regions r
    let cell ← chf.cellAt x z
    let rg ← cell.indexRange.foldlM (floorStep reg nreg r i) { rg with spanCount := rg.spanCount + 1 }
    let rg ← chf.findOutline reg x z i rg
    setIdx regions r rg

/-- watershed_build_regions.rs:186-236: the table of regions. -/
def collectRegions (chf : CompactHeightfield) (reg : List Nat) (nreg : Nat) : Res (List Region) :=
  chf.forSpans (gridCells chf.width chf.height) (chf.collectSpan reg nreg) ((List.range nreg).map Region.new)

end CompactHeightfield

/-- watershed_build_regions.rs:306: ids skipped by the passes over the region table. -/
def skipId (id : Nat) : Bool := id = REGION_NONE || isBorderRegion id

/-- State of the search of watershed_build_regions.rs:253-286. -/
structure SmallState where
  regions : List Region
  stack : List Nat
  trace : List Nat
  spanCount : Nat
  toBorder : Bool
  deriving DecidableEq, Repr

/-- watershed_build_regions.rs:268-285: one connection of the popped region. -/
def smallConn (st : SmallState) (c : Nat) : Res SmallState :=
  if isBorderRegion c then .ok { st with toBorder := true }
  else do
    let nei ← idx st.regions c
    if nei.visited then .ok st
    else if skipId nei.id then .ok st
    else
      let regions ← setIdx st.regions c { nei with visited := true }
      .ok { st with regions, stack := nei.id :: st.stack }

/-- watershed_build_regions.rs:263-286: the search; one unit of fuel per popped region.  The head of the list is the top of
the stack. -/
def smallLoop : Nat → SmallState → Res SmallState
  | fuel, st =>
    match st.stack with
    | [] => .ok st
    | ri :: stack =>
      match fuel with
      | 0 => .error .diverge
      | fuel + 1 => do
        let c ← idx st.regions ri
        let st ← c.connections.foldlM smallConn
          { st with stack, spanCount := st.spanCount + c.spanCount, trace := st.trace ++ [ri] }
        smallLoop fuel st

/-- watershed_build_regions.rs:293-297: forget one region of a group that is too small. -/
def killRegion (regions : List Region) (t : Nat) : Res (List Region) := do
  let r ← idx regions t
  setIdx regions t { r with spanCount := 0, id := REGION_NONE }

/-- watershed_build_regions.rs:241-299: one region of "Remove too small regions". -/
def removeSmallStep (minRegionArea : Nat) (regions : List Region) (i : Nat) : Res (List Region) := do
  let r ← idx regions i
  if skipId r.id then .ok regions
  else if r.spanCount = 0 then .ok regions
  else if r.visited then .ok regions
  else
    let regions ← setIdx regions i { r with visited := true }
    let st ← smallLoop (regions.length + 1) ⟨regions, [i], [], 0, false⟩
    if st.spanCount < minRegionArea ∧ st.toBorder = false then st.trace.foldlM killRegion st.regions
    else .ok st.regions

/-- watershed_build_regions.rs:238-299 -/
def removeSmall (minRegionArea : Nat) (regions : List Region) : Res (List Region) :=
  (List.range regions.length).foldlM (removeSmallStep minRegionArea) regions

/-- watershed_build_regions.rs:338 `mreg.span_count < smallest` -/
def belowSmallest (n : Nat) : Option Nat → Bool
  | none => true
  | some s => decide (n < s)

/-- watershed_build_regions.rs:327-345: one connection in the search for the smallest neighbour region; the state is
`(smallest, merge_id)`, `none` standing for `usize::MAX`. -/
def mergeTarget (regions : List Region) (r : Region) (st : Option Nat × Nat) (c : Nat) : Res (Option Nat × Nat) :=
  if isBorderRegion c then .ok st
  else do
    let m ← idx regions c
    if skipId m.id || m.overlap then .ok st
    else if belowSmallest m.spanCount st.1 && r.canMergeWith m && m.canMergeWith r then
      .ok (some m.spanCount, m.id)
    else .ok st

/-- watershed_build_regions.rs:355-370: the fix-up of one region after `old` was merged into `new`. -/
def fixupRegion (old new : Nat) (r : Region) : Res Region :=
  if skipId r.id then .ok r
  else (if r.id = old then { r with id := new } else r).replaceNeighbour old new

/-- watershed_build_regions.rs:347-373: merge region number `i` into the one with id `mergeId`. -/
def mergeInto (regions : List Region) (i : Nat) (r : Region) (mergeId : Nat) : Res (List Region × Bool) := do
  let target ← idx regions mergeId
  let merged ← target.mergeRegions r
  match merged with
  | none => .ok (regions, false)
  | some merged => do
    let regions ← setIdx regions mergeId merged
    let ri ← idx regions i
    let regions ← setIdx regions i { ri with spanCount := 0, connections := [] }
    let regions ← regions.mapM (fixupRegion r.id mergeId)
    .ok (regions, true)

/-- watershed_build_regions.rs:304-374: one region of a pass of the merge loop; the state is the table and whether a merge
happened. -/
def mergeStep (mergeRegionSize : Nat) (st : List Region × Bool) (i : Nat) : Res (List Region × Bool) := do
  let r ← idx st.1 i
  if skipId r.id then .ok st
  else if r.overlap then .ok st
  else if r.spanCount = 0 then .ok st
  else if r.spanCount > mergeRegionSize && r.connectedToBorder then .ok st
  else
    let t ← r.connections.foldlM (mergeTarget st.1 r) (none, r.id)
    if t.2 = r.id then .ok st
    else
      let (regions, merged) ← mergeInto st.1 i r t.2
      .ok (regions, st.2 || merged)

/-- watershed_build_regions.rs:301-379: the merge loop; one unit of fuel per pass. -/
def mergeLoop (mergeRegionSize : Nat) : Nat → List Region → Res (List Region)
  | 0, _ => .error .diverge
  | fuel + 1, regions => do
    let (regions, merged) ← (List.range regions.length).foldlM (mergeStep mergeRegionSize) (regions, false)
    if merged then mergeLoop mergeRegionSize fuel regions else .ok regions

/-- watershed_build_regions.rs:390-404: one region of "Compress region IDs"; the state is the table and `reg_id_gen`. -/
def compressStep (st : List Region × Nat) (i : Nat) : Res (List Region × Nat) := do
  let r ← idx st.1 i
  if !r.remap then .ok st
  else
    let g ← addU16 st.2 1
    .ok (st.1.mapIdx fun j q => if i ≤ j ∧ q.id = r.id then { q with id := g, remap := false } else q, g)

/-- watershed_build_regions.rs:381-405: the table with the final ids, and the new `max_region`. -/
def compressIds (regions : List Region) : Res (List Region × Nat) :=
  let regions := regions.map fun r => { r with remap := !skipId r.id }
  (List.range regions.length).foldlM compressStep (regions, 0)

namespace CompactHeightfield

/-- watershed_build_regions.rs:174-423 `merge_and_filter_regions` for `self.max_region = maxRegion`: the new `src_reg`, the
new `max_region` and the overlapping regions. -/
def mergeAndFilter (chf : CompactHeightfield) (minRegionArea mergeRegionSize : Nat) (reg : List Nat) (maxRegion : Nat) :
    Res (List Nat × Nat × List Nat) := do
  let nreg ← addU16 maxRegion 1
  let regions ← chf.collectRegions reg nreg
  let regions ← removeSmall minRegionArea regions
  let regions ← mergeLoop mergeRegionSize (nreg + 1) regions
  let (regions, maxRegion) ← compressIds regions
  let reg ← reg.mapM fun r => if isBorderRegion r then .ok r else do
    let g ← idx regions r
    .ok g.id
  .ok (reg, maxRegion, (regions.filter (·.overlap)).map (·.id))

/-- watershed_build_regions.rs:22-172 `build_regions` -/
def buildRegions (chf : CompactHeightfield) (borderSize minRegionArea mergeRegionArea : Nat) : Res CompactHeightfield := do
  let (reg, regionId) ← chf.labelRegions borderSize
  let (reg, maxRegion, _) ← chf.mergeAndFilter minRegionArea mergeRegionArea reg regionId
  let spans := List.zipWith (fun s r => ({ s with region := r } : CompactSpan)) chf.spans reg
  .ok { chf with borderSize, maxRegion, spans }

end CompactHeightfield

end Rerecast
