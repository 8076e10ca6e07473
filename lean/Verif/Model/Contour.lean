import Verif.Model.CompactHeightfield
/-!
Model of `contours.rs`.  Float fields of `ContourSet` (`aabb`, cell sizes, `max_error`) are omitted: they are only
copied (`aabb` is shrunk by the border).  A contour vertex word (`RegionVertexId`, `u32`) is a `Nat`.
-/
namespace Rerecast

/-- glam `U16Vec3` -/
structure U16Vec3 where
  x : Nat
  y : Nat
  z : Nat
  deriving DecidableEq, Repr, Inhabited

/-- glam `U16Vec3::xz` -/
def U16Vec3.xz (p : U16Vec3) : Nat × Nat := (p.x, p.z)

/-- contours.rs:545 `RegionVertexId::REGION_MASK` -/
def REGION_MASK : Nat := 0xFFFF
/-- contours.rs:553 `RegionVertexId::BORDER_VERTEX` -/
def BORDER_VERTEX : Nat := 0x10000
/-- contours.rs:559 `RegionVertexId::AREA_BORDER` -/
def AREA_BORDER : Nat := 0x20000

/-- bitflags `intersects` on `RegionVertexId` -/
def intersects (w m : Nat) : Bool := decide (w &&& m ≠ 0)
/-- bitflags `contains` on `RegionVertexId` -/
def containsBits (w m : Nat) : Bool := decide (w &&& m = m)

/-- contours.rs:569-573 `From<RegionId> for RegionVertexId`: `bits() as u32` -/
def regionWord (region : Nat) : Nat := region
/-- contours.rs:575-581 `From<RegionVertexId> for RegionId`; the `assert!` cannot fail on masked bits, and the model
keeps it. -/
def wordRegion (w : Nat) : Res Nat :=
  let bits := w &&& REGION_MASK
  if bits ≤ 65535 then .ok (bits % 65536) else .error .panic

/-- contours.rs:200-205: the word of a raw contour vertex: the neighbour's region id and the two flags. -/
def vertexWord (region : Nat) (isBorderVertex isAreaBorder : Bool) : Nat :=
  let r := regionWord region
  let r := if isBorderVertex then r ||| BORDER_VERTEX else r
  if isAreaBorder then r ||| AREA_BORDER else r

/-- Points of a raw contour with their vertex words. -/
abbrev RawContour := List (U16Vec3 × Nat)

namespace CompactHeightfield

/-- contours.rs:61-68: the region on the other side of side `dir`. -/
def sideRegion (chf : CompactHeightfield) (x z : Nat) (span : CompactSpan) (dir : Nat) : Res Nat :=
  match span.con dir with
  | some con => do
    let (_, _, ai) ← chf.conIndices x z dir con
    let s ← idx chf.spans ai
    .ok s.region
  | none => .ok REGION_NONE

/-- contours.rs:52-75: the four boundary flags of span `i` of cell `(x, z)`; bit `dir` is set when the span is not
connected to a span of the same region in direction `dir`. -/
def boundaryFlags (chf : CompactHeightfield) (x z i : Nat) : Res (BitVec 8) := do
  let span ← idx chf.spans i
  if span.region = REGION_NONE || isBorderRegion span.region then .ok 0
  else
    let res ← [0, 1, 2, 3].foldlM (fun (res : BitVec 8) (dir : Nat) => do
      let r ← chf.sideRegion x z span dir
      .ok (if r = span.region then res ||| (1#8 <<< dir) else res)) 0#8
    .ok (res ^^^ 0xf#8)

/-- contours.rs:46-79: mark boundaries. -/
def markBoundaries (chf : CompactHeightfield) : Res (List (BitVec 8)) :=
  chf.forSpans (gridCells chf.width chf.height)
    (fun flags x z i => do
      let f ← chf.boundaryFlags x z i
      setIdx flags i f) (List.replicate chf.spans.length 0)

/-- contours.rs:250-254 `get_reg` inside `get_corner_height`: region and area in one word. -/
def regArea (chf : CompactHeightfield) (i : Nat) : Res Nat := do
  let s ← idx chf.spans i
  let a ← idx chf.areas i
  .ok (s.region ||| (a <<< 16))

/-- contours.rs:257-267 and 268-278: the neighbour of `s` in direction `d1` and that neighbour's neighbour in
direction `d2`.  Returns the greatest height so far and, where they exist, the two region/area words. -/
def cornerPair (chf : CompactHeightfield) (x z : Nat) (s : CompactSpan) (d1 d2 ch : Nat) :
    Res (Nat × Option (Nat × Option Nat)) :=
  match s.con d1 with
  | none => .ok (ch, none)
  | some con => do
    let (ax, az, ai) ← chf.conIndices x z d1 con
    let a ← idx chf.spans ai
    let ch := max ch a.y
    let ra ← chf.regArea ai
    match a.con d2 with
    | none => .ok (ch, some (ra, none))
    | some con => do
      let (_, _, bi) ← chf.conIndices ax az d2 con
      let b ← idx chf.spans bi
      let rb ← chf.regArea bi
      .ok (max ch b.y, some (ra, some rb))

/-- contours.rs:284-303: the test for a border vertex in one rotation. -/
def borderVertexAt (r0 r1 r2 r3 : Nat) : Bool :=
  let twoSameExts := decide (r0 = r1) && containsBits r0 BORDER_REGION
  let twoInts := !containsBits (r2 ||| r3) BORDER_REGION
  let intsSameArea := decide (r2 >>> 16 = r3 >>> 16)
  let noZeros := decide (r0 ≠ 0) && decide (r1 ≠ 0) && decide (r2 ≠ 0) && decide (r3 ≠ 0)
  twoSameExts && twoInts && noZeros && intsSameArea

/-- contours.rs:238-306 `get_corner_height` -/
def getCornerHeight (chf : CompactHeightfield) (x z i dir : Nat) : Res (Nat × Bool) := do
  let s ← idx chf.spans i
  let dirP := (dir + 1) % 4
  let r0 ← chf.regArea i
  let (ch, p) ← chf.cornerPair x z s dir dirP s.y
  let r1 := match p with | some (ra, _) => ra | none => 0
  let r2 := match p with | some (_, some rb) => rb | _ => 0
  let (ch, q) ← chf.cornerPair x z s dirP dir ch
  let r3 := match q with | some (ra, _) => ra | none => 0
  let r2 := match q with | some (_, some rb) => rb | _ => r2
  .ok (ch, borderVertexAt r0 r1 r2 r3 || borderVertexAt r1 r2 r3 r0 || borderVertexAt r2 r3 r0 r1 ||
    borderVertexAt r3 r0 r1 r2)

/-- State of `walk_contour_build`. -/
structure Walk where
  x : Nat
  z : Nat
  i : Nat
  dir : Nat
  flags : List (BitVec 8)
  points : RawContour
  deriving DecidableEq

/-- contours.rs:176-190: the corner of cell `(x, z)` at which the edge in direction `dir` ends.  `+ 1` on `u16`. -/
def corner (x z dir : Nat) : Res (Nat × Nat) :=
  match dir with
  | 0 => do let z ← addU16 z 1; .ok (x, z)
  | 1 => do let x ← addU16 x 1; let z ← addU16 z 1; .ok (x, z)
  | 2 => do let x ← addU16 x 1; .ok (x, z)
  | _ => .ok (x, z)

/-- contours.rs:191-199: the region on the other side, and whether the area changes. -/
def sideInfo (chf : CompactHeightfield) (area : Area) (x z : Nat) (s : CompactSpan) (dir : Nat) : Res (Nat × Bool) :=
  match s.con dir with
  | some con => do
    let (_, _, ai) ← chf.conIndices x z dir con
    let a ← idx chf.spans ai
    let ar ← idx chf.areas ai
    .ok (a.region, decide (area ≠ ar))
  | none => .ok (0, false)

/-- contours.rs:172-210: record the end of a boundary edge and turn clockwise. -/
def walkEdge (chf : CompactHeightfield) (area : Area) (w : Walk) (f : BitVec 8) : Res Walk := do
  let (py, isBorderVertex) ← chf.getCornerHeight w.x w.z w.i w.dir
  let (px, pz) ← corner w.x w.z w.dir
  let s ← idx chf.spans w.i
  let (region, isAreaBorder) ← chf.sideInfo area w.x w.z s w.dir
  let flags ← setIdx w.flags w.i (f &&& ~~~(1#8 <<< w.dir))
  .ok { w with dir := (w.dir + 1) % 4, flags,
               points := w.points ++ [(⟨px, py, pz⟩, vertexWord region isBorderVertex isAreaBorder)] }

/-- contours.rs:211-230: move into the neighbouring span and turn counterclockwise; `none` models the early `return`. -/
def walkMove (chf : CompactHeightfield) (w : Walk) : Res (Option Walk) := do
  let s ← idx chf.spans w.i
  match s.con w.dir with
  | none => .ok none
  | some con => do
    let (nx, nz, ni) ← chf.neighbour w.x w.z w.dir con
    .ok (some { w with x := nx, z := nz, i := ni, dir := (w.dir + 3) % 4 })

/-- contours.rs:171-235: at most `n` iterations of the walk. -/
def walkLoop (chf : CompactHeightfield) (area : Area) (startI startDir : Nat) : Nat → Walk → Res Walk
  | 0, w => .ok w
  | n + 1, w => do
    let f ← idx w.flags w.i
    let next ← if f.getLsbD w.dir then do
        let w ← chf.walkEdge area w f
        .ok (some w)
      else chf.walkMove w
    match next with
    | none => .ok w
    | some w => if startI = w.i ∧ startDir = w.dir then .ok w else walkLoop chf area startI startDir n w

/-- contours.rs:171 -/
def WALK_LIMIT : Nat := 40000

/-- contours.rs:162-166: the first direction, from 0, whose flag is set; `1 << 8` overflows a `u8`. -/
def firstDir (f : BitVec 8) : Nat → Nat → Res Nat
  | 0, _ => .error .panic
  | fuel + 1, dir => if f.getLsbD dir then .ok dir else firstDir f fuel (dir + 1)

/-- contours.rs:154-236 `walk_contour_build`: returns the flags and the raw contour. -/
def walkContour (chf : CompactHeightfield) (x z i : Nat) (flags : List (BitVec 8)) :
    Res (List (BitVec 8) × RawContour) := do
  let f ← idx flags i
  let dir ← firstDir f 8 0
  let area ← idx chf.areas i
  let w ← chf.walkLoop area i dir WALK_LIMIT ⟨x, z, i, dir, flags, []⟩
  .ok (w.flags, w.points)

end CompactHeightfield

/-- The floating-point tests of `simplify_contour`: `dev p a b` is the value of
`distance_squared_between_point_and_line_u16vec2(p, (a, b))` (an `f32`, hence a rational; it is finite for `u16`
arguments) and `exceeds d` the outcome of `d > max_error * max_error`.  Theorems quantify over both, so they hold
whatever the rounding. -/
structure Tests where
  dev : Nat × Nat → Nat × Nat → Nat × Nat → Rat
  exceeds : Rat → Bool

/-- math.rs:194: `t` limited to the segment. -/
def clamp01 (t : Rat) : Rat := if t < 0 then 0 else if t > 1 then 1 else t

/-- math.rs:183-194: the parameter of the point of the segment closest to `pt`. -/
def segParam (pt p q : Nat × Nat) : Rat :=
  let pqx : Rat := (q.1 : Rat) - p.1
  let pqz : Rat := (q.2 : Rat) - p.2
  let d := pqx * pqx + pqz * pqz
  let t := pqx * ((pt.1 : Rat) - p.1) + pqz * ((pt.2 : Rat) - p.2)
  clamp01 (if d > 0 then t / d else t)

/-- math.rs:182-197 `distance_squared_between_point_and_line_vec2` in exact rational arithmetic. -/
def segDistSq (pt p q : Nat × Nat) : Rat :=
  let dx := (p.1 : Rat) + segParam pt p q * ((q.1 : Rat) - p.1) - pt.1
  let dz := (p.2 : Rat) + segParam pt p q * ((q.2 : Rat) - p.2) - pt.2
  dx * dx + dz * dz

/-- The tests of `simplify_contour` in exact arithmetic, with tolerance `maxError`. -/
def Tests.exact (maxError : Rat) : Tests := ⟨segDistSq, fun d => decide (d > maxError * maxError)⟩

/-- A vertex of the contour being simplified: position and index into the raw contour. -/
abbrev Chosen := List (U16Vec3 × Nat)

/-- contours.rs:322-336: a point at every change of region or area border. -/
def portalVertices (points : RawContour) : Res Chosen :=
  (List.range points.length).foldlM (fun (acc : Chosen) i => do
    let p ← idx points i
    let q ← idx points ((i + 1) % points.length)
    if p.2 &&& REGION_MASK ≠ q.2 &&& REGION_MASK ∨ p.2 &&& AREA_BORDER ≠ q.2 &&& AREA_BORDER then
      .ok (acc ++ [(p.1, i)])
    else .ok acc) []

/-- contours.rs:341-355: lower-left and upper-right vertex. -/
def extremeVertices (points : RawContour) : Res Chosen := do
  let p0 ← idx points 0
  let (ll, ur) ← (List.range points.length).foldlM
    (fun (st : (U16Vec3 × Nat) × (U16Vec3 × Nat)) i => do
      let p ← idx points i
      let ll := st.1
      let ur := st.2
      let ll' := if p.1.x < ll.1.x ∨ (p.1.x = ll.1.x ∧ p.1.z < ll.1.z) then (p.1, i) else ll
      let ur' := if p.1.x > ur.1.x ∨ (p.1.x = ur.1.x ∧ p.1.z > ur.1.z) then (p.1, i) else ur
      .ok (ll', ur')) ((p0.1, 0), (p0.1, 0))
  .ok [ll, ur]

/-- contours.rs:316-358: the initial points. -/
def initialVertices (points : RawContour) : Res Chosen := do
  let hasConnections := points.any fun p => intersects p.2 REGION_MASK
  let s ← if hasConnections then portalVertices points else .ok []
  if s.isEmpty then extremeVertices points else .ok s

/-- contours.rs:397-406: the search for the raw point of maximal deviation, from `ci` in steps of `cinc` up to `endi`. -/
def maxDeviation (t : Tests) (points : RawContour) (a b : Nat × Nat) (cinc endi : Nat) :
    Nat → Nat → Rat × Option Nat → Res (Rat × Option Nat)
  | 0, ci, m => if ci = endi then .ok m else .error .diverge
  | fuel + 1, ci, m =>
    if ci = endi then .ok m
    else do
      let p ← idx points ci
      let d := t.dev p.1.xz a b
      let m := if d > m.1 then (d, some ci) else m
      maxDeviation t points a b cinc endi fuel ((ci + cinc) % points.length) m

/-- contours.rs:363-406: the deviation of the raw points between two consecutive chosen vertices. -/
def segmentDeviation (t : Tests) (points : RawContour) (a b : U16Vec3 × Nat) : Res (Rat × Option Nat) := do
  let n := points.length
  let forward := decide (b.1.x > a.1.x) || (decide (b.1.x = a.1.x) && decide (b.1.z > a.1.z))
  let cinc := if forward then 1 else n - 1
  let ci := if forward then (a.2 + cinc) % n else (b.2 + cinc) % n
  let endi := if forward then b.2 else a.2
  let p := if forward then a.1.xz else b.1.xz
  let q := if forward then b.1.xz else a.1.xz
  let r ← idx points ci
  if !intersects r.2 REGION_MASK || intersects r.2 AREA_BORDER then
    maxDeviation t points p q cinc endi n ci (0, none)
  else .ok (0, none)

/-- contours.rs:414-421: make room after position `i` and store the raw point `m` there. -/
def insertAfter (points : RawContour) (s : Chosen) (i m : Nat) : Res Chosen := do
  let p ← idx points m
  .ok (s.take (i + 1) ++ (p.1, m) :: s.drop (i + 1))

/-- contours.rs:361-425: add points until all raw points are within the tolerance. -/
def refine (t : Tests) (points : RawContour) : Nat → Nat → Chosen → Res Chosen
  | 0, i, s => if i < s.length then .error .diverge else .ok s
  | fuel + 1, i, s =>
    if i < s.length then do
      let a ← idx s i
      let b ← idx s ((i + 1) % s.length)
      let (maxd, maxi) ← segmentDeviation t points a b
      match maxi with
      | some m =>
        if t.exceeds maxd then do
          let s ← insertAfter points s i m
          refine t points fuel i s
        else refine t points fuel (i + 1) s
      | none => refine t points fuel (i + 1) s
    else .ok s

/-- contours.rs:638-663 `BuildContoursFlags` -/
structure ContourFlags where
  wallEdges : Bool
  areaEdges : Bool
  deriving DecidableEq, Repr

/-- glam `IVec2::length_squared`: `x * x + y * y` on `i32`, overflow-checked.  Both products are nonnegative, so some
operation overflows exactly when the sum is too large. -/
def lenSqI32 (x z : Int) : Res Int :=
  if x * x + z * z ≤ 2147483647 then .ok (x * x + z * z) else .error .panic

/-- contours.rs:438-468: the raw point at which a too long edge is split, if any. -/
def splitPoint (points : RawContour) (maxEdgeLen : Nat) (flags : ContourFlags) (a b : U16Vec3 × Nat) :
    Res (Option Nat) := do
  let n := points.length
  let r ← idx points ((a.2 + 1) % n)
  let isWall := flags.wallEdges && !intersects r.2 REGION_MASK
  let isArea := flags.areaEdges && intersects r.2 AREA_BORDER
  if isWall || isArea then do
    let dx : Int := (b.1.x : Int) - a.1.x
    let dz : Int := (b.1.z : Int) - a.1.z
    let len2 ← lenSqI32 dx dz
    let lim ← mulU16 maxEdgeLen maxEdgeLen
    if len2 > (lim : Int) then
      let k := if b.2 < a.2 then b.2 + n - a.2 else b.2 - a.2
      if k > 1 then
        if b.1.x > a.1.x ∨ (b.1.x = a.1.x ∧ b.1.z > a.1.z) then .ok (some ((a.2 + k / 2) % n))
        else .ok (some ((a.2 + (k + 1) / 2) % n))
      else .ok none
    else .ok none
  else .ok none

/-- contours.rs:434-484: split too long edges. -/
def splitLong (points : RawContour) (maxEdgeLen : Nat) (flags : ContourFlags) : Nat → Nat → Chosen → Res Chosen
  | 0, i, s => if i < s.length then .error .diverge else .ok s
  | fuel + 1, i, s =>
    if i < s.length then do
      let a ← idx s i
      let b ← idx s ((i + 1) % s.length)
      let m ← splitPoint points maxEdgeLen flags a b
      match m with
      | some m => do
        let s ← insertAfter points s i m
        splitLong points maxEdgeLen flags fuel i s
      | none => splitLong points maxEdgeLen flags fuel (i + 1) s
    else .ok s

/-- contours.rs:485-491: the word of a simplified vertex. -/
def finalWord (points : RawContour) (i : Nat) : Res Nat := do
  let a ← idx points ((i + 1) % points.length)
  let b ← idx points i
  .ok ((a.2 &&& (REGION_MASK ||| AREA_BORDER)) ||| (b.2 &&& BORDER_VERTEX))

/-- contours.rs:309-492 `simplify_contour`.  The two `while` loops get `4 * n + 4` iterations (`n` raw points), which
the proofs show to be enough. -/
def simplifyContour (t : Tests) (points : RawContour) (maxEdgeLen : Nat) (flags : ContourFlags) : Res RawContour := do
  let fuel := 4 * points.length + 4
  let s ← initialVertices points
  let s ← refine t points fuel 0 s
  let s ← if maxEdgeLen > 0 ∧ (flags.wallEdges || flags.areaEdges) then splitLong points maxEdgeLen flags fuel 0 s
    else .ok s
  s.mapM fun v => do
    let w ← finalWord points v.2
    .ok (v.1, w)

/-- contours.rs:494-511 `remove_degenerate_segments`: the loop from position `i`.  Shifting the tail left and popping
removes element `i`. -/
def removeDegenerateFrom : Nat → Nat → RawContour → Res RawContour
  | 0, i, s => if i < s.length then .error .diverge else .ok s
  | fuel + 1, i, s =>
    if i < s.length then do
      let a ← idx s i
      let b ← idx s ((i + 1) % s.length)
      if a.1.xz = b.1.xz then removeDegenerateFrom fuel (i + 1) (s.eraseIdx i)
      else removeDegenerateFrom fuel (i + 1) s
    else .ok s

/-- contours.rs:494-511 `remove_degenerate_segments` -/
def removeDegenerate (s : RawContour) : Res RawContour := removeDegenerateFrom s.length 0 s

/-- contours.rs:612-634 `Contour` -/
structure Contour where
  vertices : RawContour
  rawVertices : RawContour
  region : Nat
  area : Area
  deriving DecidableEq, Repr

/-- contours.rs:518-535 `ContourSet` -/
structure ContourSet where
  contours : List Contour
  width : Nat
  height : Nat
  borderSize : Nat
  deriving DecidableEq, Repr

/-- contours.rs:131-136 and 140-145: remove the border offset (`saturating_sub`). -/
def unborder (b : Nat) (l : RawContour) : RawContour :=
  if b > 0 then l.map fun v => ({ v.1 with x := v.1.x - b, z := v.1.z - b }, v.2) else l

namespace CompactHeightfield

/-- contours.rs:86-112, 128-148: trace the contour starting at span `i`, if one does.  Returns the flags and the new
contour. -/
def traceSpan (chf : CompactHeightfield) (t : Tests) (maxEdgeLen : Nat) (bf : ContourFlags)
    (flags : List (BitVec 8)) (x z i : Nat) : Res (List (BitVec 8) × Option Contour) := do
  let f ← idx flags i
  if f = 0 ∨ f = 0xf#8 then do
    let flags ← setIdx flags i 0
    .ok (flags, none)
  else
    let s ← idx chf.spans i
    if s.region = REGION_NONE || isBorderRegion s.region then .ok (flags, none)
    else do
      let area ← idx chf.areas i
      let (flags, verts) ← chf.walkContour x z i flags
      let simplified ← simplifyContour t verts maxEdgeLen bf
      let simplified ← removeDegenerate simplified
      if simplified.length ≥ 3 then
        .ok (flags, some ⟨unborder chf.borderSize simplified, unborder chf.borderSize verts, s.region, area⟩)
      else .ok (flags, none)

/-- contours.rs:112-149 (storing): `cset.contours` has `cap` entries, of which the first `stored.length` are in use.
When all are in use the code calls `truncate` (which never grows a `Vec`), so the indexing that follows panics; the
doubling of `max_contours` may overflow, which is the same panic. -/
def storeContour (cap : Nat) (stored : List Contour) : Option Contour → Res (List Contour)
  | none => .ok stored
  | some c => if stored.length < cap then .ok (stored ++ [c]) else .error .panic

/-- contours.rs:83-151: the main loop of `build_contours`, with room for `cap` contours. -/
def traceAll (chf : CompactHeightfield) (t : Tests) (maxEdgeLen : Nat) (bf : ContourFlags) (cap : Nat)
    (flags : List (BitVec 8)) : Res (List (BitVec 8) × List Contour) :=
  chf.forSpans (gridCells chf.width chf.height) (fun st x z i => do
    let (flags, c) ← chf.traceSpan t maxEdgeLen bf st.1 x z i
    let stored ← storeContour cap st.2 c
    .ok (flags, stored)) (flags, [])

/-- contours.rs:16-152 `build_contours` -/
def buildContours (chf : CompactHeightfield) (t : Tests) (maxEdgeLen : Nat) (bf : ContourFlags) : Res ContourSet := do
  let b2 ← mulU16 chf.borderSize 2
  let width ← subU chf.width b2
  let height ← subU chf.height b2
  let flags ← chf.markBoundaries
  let st ← chf.traceAll t maxEdgeLen bf (max chf.maxRegion 8) flags
  .ok { contours := st.2, width, height, borderSize := chf.borderSize }

end CompactHeightfield
end Rerecast
