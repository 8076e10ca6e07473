import Verif.Model.DetailTri
import Verif.Model.HeightPatch
import Verif.Model.PolyMesh
/-! Model of `build_poly_detail` and `DetailNavmesh::new` in `detail_mesh.rs`. -/
namespace Rerecast

/-- detail_mesh.rs:137 `MAX_VERTICES_PER_SUBMESH` -/
def MAX_SUBMESH_VERTS : Nat := 127
/-- detail_mesh.rs:140 `MAX_TRIANGLES_PER_SUBMESH` -/
def MAX_SUBMESH_TRIS : Nat := 255
/-- detail_mesh.rs:141 `MAX_VERTS_PER_EDGE` -/
def MAX_EDGE_VERTS : Nat := 32

/-- The float settings of `DetailNavmesh::new`, from the polygon mesh, the heightfield and the arguments. -/
structure DetailConfig (F : Type) where
  /-- `mesh.cell_size`, `mesh.cell_height`, `mesh.aabb.min` -/
  cellSize : F
  cellHeight : F
  origin : Vec3 F
  maxEdgeError : F
  /-- `heightfield.cell_size`, `heightfield.cell_height` -/
  chfCellSize : F
  chfCellHeight : F
  sampleDist : F
  sampleMaxError : F
  /-- `mesh.border_size` -/
  borderSize : Nat

section
variable {F : Type} (o : FloatOps F)

/-- detail_mesh.rs:160 `height_search_radius` -/
def DetailConfig.radius (c : DetailConfig F) : Nat := max 1 (o.toU32 (o.ceil c.maxEdgeError))

/-- `get_height` with the arguments of the callers: `ics = 1.0 / cs`. -/
def DetailConfig.height (c : DetailConfig F) (hp : HeightPatch) (p : Vec3 F) : Res Nat :=
  getHeight o p (o.div (o.lit 1) c.chfCellSize) c.chfCellHeight (c.radius o) hp

/-- detail_mesh.rs:1202-1220 `poly_min_extent_squared` -/
def polyMinExtent (verts : List (Vec3 F)) (nverts : Nat) : Res F :=
  (List.range nverts).foldlM (fun (minDist : F) i => do
    let ni ← nextIdx i nverts
    let p1 ← idx verts i
    let p2 ← idx verts ni
    let maxEdge := ((verts.take nverts).zipIdx).foldl (fun (m : F) (vj : Vec3 F × Nat) =>
      if vj.2 = i || vj.2 = ni then m else o.max m (distPtSeg2 o vj.1 p1 p2)) (o.lit 0)
    .ok (o.min minDist maxEdge)) o.maxVal

/-- detail_mesh.rs:356-367: are the ends of an edge swapped before sampling? -/
def swapEnds (vj vi : Vec3 F) : Bool :=
  if o.lt (o.abs (o.sub vj.x vi.x)) (o.lit (1 / 1000000)) then o.lt vi.z vj.z else o.lt vi.x vj.x

/-- detail_mesh.rs:369-371: `(d / sample_dist).floor() as usize` for the edge between two points. -/
def edgeSteps (sampleDist : F) (vj vi : Vec3 F) : Nat :=
  let dij := Vec3.sub o vi vj
  o.toUsize (o.floor (o.div (o.sqrt (Vec3.dotXZ o dij dij)) sampleDist))

/-- detail_mesh.rs:371-377: the number of steps used, limited by the space left. -/
def sampleCount (steps nverts : Nat) : Res Nat :=
  if steps + 1 ≥ 18446744073709551616 then .error .panic
  else
    let nn := if 1 + steps ≥ MAX_EDGE_VERTS then MAX_EDGE_VERTS - 1 else 1 + steps
    if nverts + nn ≥ MAX_SUBMESH_VERTS then subU (MAX_SUBMESH_VERTS - 1) nverts else .ok nn

/-- detail_mesh.rs:331, 378-383: the samples along an edge.  The array `edge` has room for 33 entries, of which the first `nn + 1` are
written and only these are read. -/
def edgeSamples (c : DetailConfig F) (hp : HeightPatch) (vj vi : Vec3 F) (nn : Nat) : Res (List (Vec3 F)) :=
  (List.range (min (nn + 1) (MAX_EDGE_VERTS + 1))).mapM fun (k : Nat) => do
    let p := Vec3.add o vj (Vec3.scale o (Vec3.sub o vi vj) (o.div (o.ofInt k) (o.ofInt nn)))
    let h ← c.height o hp p
    .ok { p with y := o.mul (o.ofInt h) c.chfCellHeight }

/-- detail_mesh.rs:394-405: the sample between `a` and `b` that deviates most; `m` runs over `ms`. -/
def edgeDeviation (edge : List (Vec3 F)) (va vb : Vec3 F) (ms : List Nat) : Res (F × Option Nat) :=
  ms.foldlM (fun (st : F × Option Nat) m => do
    let vm ← idx edge m
    let dev := distPtSeg3 o vm va vb
    if o.lt st.1 dev then .ok (dev, some m) else .ok st) (o.lit 0, none)

/-- detail_mesh.rs:408-409: is there a sample to be added? -/
def deviant (sampleMaxError : F) (d : F × Option Nat) : Option Nat :=
  match d.2 with
  | some maxi => if o.lt (o.mul sampleMaxError sampleMaxError) d.1 then some maxi else none
  | none => none

/-- detail_mesh.rs:384-419: simplify the samples.  `ids` is the filled part (`nidx` entries) of the array `idx` of 32 entries;
inserting into a full array panics. -/
def simplifyEdge (sampleMaxError : F) (edge : List (Vec3 F)) : Nat → Nat → List Nat → Res (List Nat)
  | fuel, k, ids =>
    if k + 1 < ids.length then
      match fuel with
      | 0 => .error .diverge
      | fuel + 1 => do
        let a ← idx ids k
        let b ← idx ids (k + 1)
        let va ← idx edge a
        let vb ← idx edge b
        let d ← edgeDeviation o edge va vb (List.range' (a + 1) (b - (a + 1)))
        match deviant o sampleMaxError d with
        | some maxi =>
          if ids.length < MAX_EDGE_VERTS then simplifyEdge sampleMaxError edge fuel k (ids.insertIdx (k + 1) maxi)
          else .error .panic
        | none => simplifyEdge sampleMaxError edge fuel (k + 1) ids
    else .ok ids

/-- detail_mesh.rs:332-337: the vertex buffer, `nverts` and the hull. -/
structure Tess (F : Type) where
  verts : List (Vec3 F)
  nverts : Nat
  hull : List Nat

/-- `hull[nhull] = v; nhull += 1` on the array of 127 entries. -/
def pushHull (hull : List Nat) (v : Nat) : Res (List Nat) :=
  if hull.length < MAX_SUBMESH_VERTS then .ok (hull ++ [v]) else .error .panic

/-- detail_mesh.rs:426-429, 433-436: one new vertex on the hull. -/
def addHullVert (edge : List (Vec3 F)) (st : Tess F) (i : Nat) : Res (Tess F) := do
  let v ← idx edge i
  let verts ← setIdx st.verts st.nverts v
  let hull ← pushHull st.hull st.nverts
  .ok ⟨verts, st.nverts + 1, hull⟩

/-- detail_mesh.rs:354-438: tessellate the edge from corner `j` to corner `i`. -/
def tessEdge (c : DetailConfig F) (hp : HeightPatch) (poly : List (Vec3 F)) (st : Tess F) (ji : Nat × Nat) : Res (Tess F) := do
  let pj ← idx poly ji.1
  let pi ← idx poly ji.2
  let swapped := swapEnds o pj pi
  let vj := if swapped then pi else pj
  let vi := if swapped then pj else pi
  let nn ← sampleCount (edgeSteps o c.sampleDist vj vi) st.nverts
  let edge ← edgeSamples o c hp vj vi nn
  let ids ← simplifyEdge o c.sampleMaxError edge (2 * nn + 2) 0 [0, nn]
  let hull ← pushHull st.hull ji.1
  let inner := ids.tail.dropLast
  (if swapped then inner.reverse else inner).foldlM (addHullVert edge) { st with hull }

/-- detail_mesh.rs:352-353, 439: the pairs `(j, i)` of consecutive corners, from `(nin - 1, 0)` on. -/
def cornerPairs (nin : Nat) : List (Nat × Nat) := (List.range nin).map fun i => ((i + nin - 1) % nin, i)

/-- detail_mesh.rs:348-441: tessellate the outline, if there is a sample distance. -/
def tessellate (c : DetailConfig F) (hp : HeightPatch) (poly : List (Vec3 F)) (st : Tess F) : Res (Tess F) :=
  if o.lt (o.lit 0) c.sampleDist then do
    let _ ← subU poly.length 1
    (cornerPairs poly.length).foldlM (tessEdge o c hp poly) st
  else .ok st

/-- detail_mesh.rs:970-994 `dist_pt_tri` -/
def distPtTri (p a b c : Vec3 F) : Option F :=
  let v0 := Vec3.sub o c a
  let v1 := Vec3.sub o b a
  let v2 := Vec3.sub o p a
  let dot00 := Vec3.dotXZ o v0 v0
  let dot01 := Vec3.dotXZ o v0 v1
  let dot02 := Vec3.dotXZ o v0 v2
  let dot11 := Vec3.dotXZ o v1 v1
  let dot12 := Vec3.dotXZ o v1 v2
  let inv := o.div (o.lit 1) (o.sub (o.mul dot00 dot11) (o.mul dot01 dot01))
  let u := o.mul (o.sub (o.mul dot11 dot02) (o.mul dot01 dot12)) inv
  let v := o.mul (o.sub (o.mul dot00 dot12) (o.mul dot01 dot02)) inv
  let eps := o.lit (1 / 10000)
  if o.le (o.neg eps) u && o.le (o.neg eps) v && o.le (o.add u v) (o.add (o.lit 1) eps) then
    some (o.abs (o.sub (o.add (o.add a.y (o.mul v0.y u)) (o.mul v1.y v)) p.y))
  else none

/-- detail_mesh.rs:959-964: the smaller distance. -/
def smallerDist (dmin : F) : Option F → F
  | some d => if o.lt d dmin then d else dmin
  | none => dmin

/-- detail_mesh.rs:952-967 `dist_to_tri_mesh` -/
def distToTriMesh (p : Vec3 F) (verts : List (Vec3 F)) (tris : List DTri) : Res (Option F) := do
  let dmin ← tris.foldlM (fun (dmin : F) t => do
    let va ← idx verts t.1
    let vb ← idx verts t.2.1
    let vc ← idx verts t.2.2
    .ok (smallerDist o dmin (distPtTri o p va vb vc))) o.maxVal
  .ok (if o.beq dmin o.maxVal then none else some dmin)

/-- detail_mesh.rs:1004-1022 `dist_to_poly` -/
def distToPoly (poly : List (Vec3 F)) (p : Vec3 F) : Res F := do
  let _ ← subU poly.length 1
  let (dmin, c) ← (cornerPairs poly.length).foldlM (fun (st : F × Bool) ji => do
    let vi ← idx poly ji.2
    let vj ← idx poly ji.1
    let crosses := (o.lt p.z vi.z != o.lt p.z vj.z) &&
      o.lt p.x (o.add (o.div (o.mul (o.sub vj.x vi.x) (o.sub p.z vi.z)) (o.sub vj.z vi.z)) vi.x)
    .ok (o.min st.1 (distPtSeg2 o p vj vi), if crosses then !st.2 else st.2)) (o.maxVal, false)
  .ok (if c then o.neg dmin else dmin)

/-- detail_mesh.rs:996-998 `get_jitter_x`, 1000-1002 `get_jitter_y`; the `usize` product does not overflow for fewer than 2^32
samples. -/
def jitter (m i : Nat) : F :=
  o.sub (o.mul (o.div (o.ofInt ((i * m) % 65536 : Nat)) (o.lit 65535)) (o.lit 2)) (o.lit 1)

/-- A sample: the grid position, the height and whether it was added. -/
structure Sample where
  x : Nat
  y : Nat
  z : Nat
  added : Bool
  deriving DecidableEq, Repr

/-- The integers of the range `a..b`. -/
def sampleRange (a b : Int) : List Int := (List.range (b - a).toNat).map fun (k : Nat) => a + (k : Int)

/-- detail_mesh.rs:480-490: one position of the sample grid. -/
def sampleStep (c : DetailConfig F) (hp : HeightPatch) (poly : List (Vec3 F)) (midY : F) (l : List Sample) (p : Int × Int) :
    Res (List Sample) := do
  let pt : Vec3 F := ⟨o.mul (o.ofInt p.1) c.sampleDist, midY, o.mul (o.ofInt p.2) c.sampleDist⟩
  let d ← distToPoly o poly pt
  if o.lt (o.div (o.neg c.sampleDist) (o.lit 2)) d then .ok l
  else do
    let y ← c.height o hp pt
    .ok (l ++ [⟨asU16 p.1, y, asU16 p.2, false⟩])

/-- detail_mesh.rs:464-492: the sample locations. -/
def gridSamples (c : DetailConfig F) (hp : HeightPatch) (poly : List (Vec3 F)) : Res (List Sample) := do
  let p0 ← idx poly 0
  let lo := poly.foldl (fun (m : Vec3 F) p => ⟨o.min m.x p.x, o.min m.y p.y, o.min m.z p.z⟩) p0
  let hi := poly.foldl (fun (m : Vec3 F) p => ⟨o.max m.x p.x, o.max m.y p.y, o.max m.z p.z⟩) p0
  let x0 := o.toI32 (o.floor (o.div lo.x c.sampleDist))
  let x1 := o.toI32 (o.ceil (o.div hi.x c.sampleDist))
  let z0 := o.toI32 (o.floor (o.div lo.z c.sampleDist))
  let z1 := o.toI32 (o.ceil (o.div hi.z c.sampleDist))
  let midY := o.mul (o.add hi.y lo.y) (o.lit (1 / 2))
  ((sampleRange z0 z1).flatMap fun z => (sampleRange x0 x1).map fun x => (x, z)).foldlM (sampleStep o c hp poly midY) []

/-- detail_mesh.rs:503-505: `bestpt`, `bestd`, `besti`. -/
structure BestSample (F : Type) where
  pt : Vec3 F
  d : F
  i : Option Nat

/-- detail_mesh.rs:506-526: one sample of the search for the one with the largest error. -/
def sampleError (c : DetailConfig F) (verts : List (Vec3 F)) (tris : List DTri) (b : BestSample F) (si : Sample × Nat) :
    Res (BestSample F) :=
  if si.1.added then .ok b
  else do
    let pt : Vec3 F := ⟨o.add (o.mul (o.ofInt si.1.x) c.sampleDist) (o.mul (o.mul (jitter o 0x8da6b343 si.2) c.chfCellSize) (o.lit (1 / 10))),
      o.mul (o.ofInt si.1.y) c.chfCellHeight,
      o.add (o.mul (o.ofInt si.1.z) c.sampleDist) (o.mul (o.mul (jitter o 0xd8163841 si.2) c.chfCellSize) (o.lit (1 / 10)))⟩
    let d ← distToTriMesh o pt verts tris
    match d with
    | none => .ok b
    | some d => .ok (if o.lt b.d d then ⟨pt, d, some si.2⟩ else b)

/-- detail_mesh.rs:334-340, 477: the vertices, the triangles and the samples while samples are added. -/
structure Interior (F : Type) where
  verts : List (Vec3 F)
  nverts : Nat
  tris : List DTri
  samples : List Sample

/-- detail_mesh.rs:534-545: add the sample found. -/
def addSample (hull : List Nat) (st : Interior F) (b : BestSample F) (i : Nat) : Res (Interior F) := do
  let s ← idx st.samples i
  let samples ← setIdx st.samples i { s with added := true }
  let verts ← setIdx st.verts st.nverts b.pt
  let tris ← delaunayHull o verts (st.nverts + 1) hull
  .ok ⟨verts, st.nverts + 1, tris, samples⟩

/-- detail_mesh.rs:497-546: add samples until the error is small enough; `n` iterations are left. -/
def addSamples (c : DetailConfig F) (hull : List Nat) : Nat → Interior F → Res (Interior F)
  | 0, st => .ok st
  | n + 1, st =>
    if st.nverts ≥ MAX_SUBMESH_VERTS then .ok st
    else do
      let b ← st.samples.zipIdx.foldlM (sampleError o c st.verts st.tris) ⟨Vec3.zero o, o.lit 0, none⟩
      if o.le b.d c.sampleMaxError then .ok st
      else match b.i with
        | none => .ok st
        | some i => do
          let st ← addSample o hull st b i
          addSamples c hull n st

/-- detail_mesh.rs:463-547: interior samples, if there is a sample distance. -/
def interior (c : DetailConfig F) (hp : HeightPatch) (poly : List (Vec3 F)) (t : Tess F) (tris : List DTri) : Res (Interior F) :=
  if o.lt (o.lit 0) c.sampleDist then do
    let samples ← gridSamples o c hp poly
    addSamples o c t.hull samples.length ⟨t.verts, t.nverts, tris, samples⟩
  else .ok ⟨t.verts, t.nverts, tris, []⟩

/-- The results of `build_poly_detail`: vertex buffer, number of vertices, triangles and their flags. -/
structure Detail (F : Type) where
  verts : List (Vec3 F)
  nverts : Nat
  tris : List DTri
  flags : List Nat

/-- detail_mesh.rs:316-560 `build_poly_detail`; `poly` are the `nin` corners, `verts` is the vertex buffer with what the previous
calls left in it.  In the first case of 449-453 and at the end (555-566) the flags are set; without triangles there are none. -/
def buildPolyDetail (c : DetailConfig F) (hp : HeightPatch) (poly verts : List (Vec3 F)) : Res (Detail F) := do
  let verts ← if poly.length ≤ verts.length then .ok (poly ++ verts.drop poly.length) else .error .panic
  let ext ← polyMinExtent o verts poly.length
  let t ← tessellate o c hp poly ⟨verts, poly.length, []⟩
  let tris ← triangulateHull o t.verts t.hull poly.length
  let twice := o.mul c.sampleDist (o.lit 2)
  if o.lt ext (o.mul twice twice) then do
    let flags ← setTriFlags t.hull tris
    .ok ⟨t.verts, t.nverts, tris, flags⟩
  else if tris.isEmpty then .ok ⟨t.verts, t.nverts, [], []⟩
  else do
    let r ← interior o c hp poly t tris
    let tris := r.tris.take MAX_SUBMESH_TRIS
    let flags ← setTriFlags t.hull tris
    .ok ⟨r.verts, r.nverts, tris, flags⟩

/-- detail_mesh.rs:1510-1516 `Bounds` -/
structure Bounds where
  xmin : Nat
  xmax : Nat
  zmin : Nat
  zmax : Nat
  deriving DecidableEq, Repr

end

/-- detail_mesh.rs:124-133 `SubMesh` -/
structure SubMesh where
  baseVertex : Nat
  vertexCount : Nat
  baseTriangle : Nat
  triangleCount : Nat
  deriving DecidableEq, Repr

/-- detail_mesh.rs:32-111 `DetailNavmesh` -/
structure DetailNavmesh (F : Type) where
  meshes : List SubMesh
  vertices : List (Vec3 F)
  triangles : List DTri
  flags : List Nat
  deriving DecidableEq, Repr

namespace PolygonNavmesh

/-- detail_mesh.rs:189-199, 224-233: the corners of polygon `i`. -/
def cornersOf (mesh : PolygonNavmesh) (i : Nat) : Res (List U16Vec3) := (mesh.polygon i).mapM (idx mesh.vertices)

/-- detail_mesh.rs:177-206: the bounds of polygon `i`. -/
def boundsOf (mesh : PolygonNavmesh) (chf : CompactHeightfield) (i : Nat) : Res Bounds := do
  let vs ← mesh.cornersOf i
  let b := vs.foldl (fun (b : Bounds) v => ⟨min b.xmin v.x, max b.xmax v.x, min b.zmin v.z, max b.zmax v.z⟩)
    ⟨chf.width, 0, chf.height, 0⟩
  let x1 ← addU16 b.xmax 1
  let z1 ← addU16 b.zmax 1
  .ok ⟨b.xmin - 1, min chf.width x1, b.zmin - 1, min chf.height z1⟩

end PolygonNavmesh

/-- detail_mesh.rs:204-208: the largest width and height of the (non-empty) bounds. -/
def patchSize (bs : List Bounds) : Nat × Nat :=
  bs.foldl (fun m b => if b.xmin ≥ b.xmax || b.zmin ≥ b.zmax then m else (max m.1 (b.xmax - b.xmin), max m.2 (b.zmax - b.zmin))) (0, 0)

/-- `Vec::reserve` decides on the new capacity: the arguments are the capacity, the length and the additional space asked
for.  The documentation promises only that the result is at least length plus additional. -/
abbrev Allocator := Nat → Nat → Nat → Nat

/-- An output vector with its capacity and the variable `vcap` or `tcap`. -/
structure Buffer (α : Type) where
  items : List α
  capacity : Nat
  cap : Nat

/-- The capacity after pushing `n` more items onto a vector with `len` items: a push onto a full vector makes it grow. -/
def pushCapacity (alloc : Allocator) : Nat → Nat → Nat → Nat
  | 0, _, capacity => capacity
  | n + 1, len, capacity => pushCapacity alloc n (len + 1) (if len < capacity then capacity else alloc capacity len 1)

/-- detail_mesh.rs:286-295 and 297-306: make room for `new` and append it.  The growth of `cap` is the closed form of the `while` loop. -/
def Buffer.store (alloc : Allocator) (b : Buffer α) (new : List α) : Res (Buffer α) :=
  let need := b.items.length + new.length
  if need > b.cap then do
    let cap := b.cap + 256 * ((need - b.cap + 255) / 256)
    let more ← subU cap b.capacity
    .ok { items := b.items ++ new, capacity := pushCapacity alloc new.length b.items.length (alloc b.capacity b.items.length more), cap }
  else .ok { items := b.items ++ new, capacity := pushCapacity alloc new.length b.items.length b.capacity, cap := b.cap }

/-- detail_mesh.rs:150-174, 210-217: the mutable state of `DetailNavmesh::new`. -/
structure DetailState (F : Type) where
  /-- the vertex buffer of 256 entries, kept between polygons -/
  verts : List (Vec3 F)
  /-- the data of the height patch, kept between polygons -/
  data : List Nat
  meshes : List SubMesh
  vertices : Buffer (Vec3 F)
  triangles : Buffer DTri
  flags : List Nat

section
variable {F : Type} (o : FloatOps F)

/-- detail_mesh.rs:228-231: a polygon corner in the units of the cell sizes. -/
def DetailConfig.corner (c : DetailConfig F) (v : U16Vec3) : Vec3 F :=
  ⟨o.mul (o.ofInt v.x) c.cellSize, o.mul (o.ofInt v.y) c.cellHeight, o.mul (o.ofInt v.z) c.cellSize⟩

/-- detail_mesh.rs:268-273: a detail vertex in world space. -/
def DetailConfig.toWorld (c : DetailConfig F) (v : Vec3 F) : Vec3 F :=
  let w := Vec3.add o v c.origin
  { w with y := o.add w.y c.chfCellHeight }

/-- detail_mesh.rs:219-310: one polygon. -/
def detailStep (alloc : Allocator) (c : DetailConfig F) (mesh : PolygonNavmesh) (chf : CompactHeightfield) (st : DetailState F)
    (ib : Nat × Bounds) : Res (DetailState F) := do
  let vs ← mesh.cornersOf ib.1
  let poly := vs.map (c.corner o)
  let w ← subU ib.2.xmax ib.2.xmin
  let h ← subU ib.2.zmax ib.2.zmin
  let region ← idx mesh.regions ib.1
  let hp ← HeightPatch.getHeightData o chf ⟨st.data, ib.2.xmin, ib.2.zmin, w, h⟩ (mesh.polygon ib.1) st.verts c.borderSize region
  let d ← buildPolyDetail o c hp poly st.verts
  let world := (d.verts.take d.nverts).map (c.toWorld o)
  let sub : SubMesh := ⟨st.vertices.items.length % 4294967296, d.nverts % 4294967296, st.triangles.items.length % 4294967296,
    d.tris.length % 4294967296⟩
  let vertices ← st.vertices.store alloc world
  let triangles ← st.triangles.store alloc d.tris
  .ok { verts := world ++ d.verts.drop d.nverts, data := hp.data, meshes := st.meshes ++ [sub], vertices, triangles,
        flags := st.flags ++ d.flags }

/-- detail_mesh.rs:144-313 `DetailNavmesh::new`.  `meshes` grows by one entry per polygon instead of being filled in place. -/
def detailNavmesh (alloc : Allocator) (c : DetailConfig F) (mesh : PolygonNavmesh) (chf : CompactHeightfield) :
    Res (DetailNavmesh F) :=
  if mesh.vertices.isEmpty || mesh.polygonCount = 0 then .ok ⟨[], [], [], []⟩
  else do
    let bounds ← (List.range mesh.polygonCount).mapM (mesh.boundsOf chf)
    let size := patchSize bounds
    let n := ((List.range mesh.polygonCount).map fun i => (mesh.polygon i).length).sum
    let vcap := n + n / 2
    let st ← ((List.range mesh.polygonCount).zip bounds).foldlM (detailStep o alloc c mesh chf)
      { verts := List.replicate 256 (Vec3.zero o), data := List.replicate (size.1 * size.2) 0, meshes := [],
        vertices := ⟨[], vcap, vcap⟩, triangles := ⟨[], vcap * 2, vcap * 2⟩, flags := [] }
    .ok ⟨st.meshes, st.vertices.items, st.triangles.items, st.flags⟩

end

end Rerecast
