import Verif.Model.Triangulate
/-!
Model of poly_mesh.rs (lines 1-428, 430-515, 862-1033).

Simplifications: float fields are omitted (only copied).  A slot of the flat arrays `polys` (stride `nvp`) is the list of its
entries before the first `NO_INDEX`; a slot of `mesh.polygons` (stride `2 * nvp`) is the pair of its two halves, entries
`NO_INDEX` included.  `mesh.vertices` and `next_vert` are the lists of their first `nvertices` entries (the rest is never
read), with the capacity checked on insertion.  `usize` counters do not overflow.  The model is meant for `nvp ≥ 3` (with a
smaller `nvp` the triangles of the Rust code overlap in the flat array).
-/
namespace Rerecast

/-- poly_mesh.rs:154 `NO_INDEX`, 157 `NO_CONNECTION` -/
def NO_INDEX : Nat := 0xFFFF

/-- The vertices found so far, with the hash chains of poly_mesh.rs:241-242. -/
structure VertexTable where
  verts : List U16Vec3
  first : List (Option Nat)
  next : List (Option Nat)
  deriving DecidableEq, Repr

/-- poly_mesh.rs:1019-1031 `compute_vertex_hash` with `y = 0` (line 998): `u32` wrapping arithmetic, low 12 bits. -/
def vertexHash (x z : Nat) : Nat := ((0x8da6b343 * x + 0xd8163841 * 0 + 0xcb1ab31f * z) % 4294967296) % 4096

/-- poly_mesh.rs:1003: equal x and z, y at most 2 apart. -/
def sameVertex (v w : U16Vec3) : Bool := v.x == w.x && decide (v.y ≤ w.y + 2 ∧ w.y ≤ v.y + 2) && v.z == w.z

namespace VertexTable

/-- poly_mesh.rs:1001-1007: search the chain from entry `i`; one unit of fuel per entry. -/
def find (t : VertexTable) (v : U16Vec3) : Nat → Option Nat → Res (Option Nat)
  | _, none => .ok none
  | 0, some _ => .error .diverge
  | fuel + 1, some i => do
    let w ← idx t.verts i
    if sameVertex w v then .ok (some i)
    else do
      let n ← idx t.next i
      t.find v fuel n

/-- poly_mesh.rs:991-1017 `add_vertex`; `cap` is the length of `verts` and `next_vert`. -/
def add (cap : Nat) (t : VertexTable) (v : U16Vec3) : Res (VertexTable × Nat) := do
  let bucket := vertexHash v.x v.z
  let head ← idx t.first bucket
  let found ← t.find v (t.verts.length + 1) head
  match found with
  | some i => .ok (t, i)
  | none => do
    let i := t.verts.length
    let _ ← addU16 i 1
    if i < cap then do
      let first ← setIdx t.first bucket (some i)
      .ok ({ verts := t.verts ++ [v], first, next := t.next ++ [head] }, i)
    else .error .panic

end VertexTable

/-- poly_mesh.rs:971-975 `uleft` -/
def uleft (a b c : U16Vec3) : Res Bool := do
  let p ← i32 (((b.x : Int) - a.x) * ((c.z : Int) - a.z))
  let q ← i32 (((c.x : Int) - a.x) * ((b.z : Int) - a.z))
  let v ← i32 (p - q)
  .ok (decide (v < 0))

/-- The two ends of edge `i` of a polygon. -/
def polyEdge (p : List Nat) (i : Nat) : Res (Nat × Nat) := do
  let a ← idx p i
  let b ← idx p ((i + 1) % p.length)
  .ok (a, b)

/-- poly_mesh.rs:927, 931: the two ends in ascending order. -/
def sorted (e : Nat × Nat) : Nat × Nat := if e.1 ≤ e.2 then e else (e.2, e.1)

/-- poly_mesh.rs:928-937: edge `i` of `pa` against the edges of `pb`; the first match wins. -/
def sharedWith (pb : List Nat) (ea : Nat × Nat) : Res (Option Nat) :=
  (List.range pb.length).foldlM (fun (st : Option Nat) j =>
    match st with
    | some j => .ok (some j)
    | none => do
      let eb ← polyEdge pb j
      .ok (if sorted ea = sorted eb then some j else none)) none

/-- poly_mesh.rs:920-941: the shared edge; the last edge of `pa` that has one wins. -/
def sharedEdge (pa pb : List Nat) : Res (Option (Nat × Nat)) :=
  (List.range pa.length).foldlM (fun (st : Option (Nat × Nat)) i => do
    let ea ← polyEdge pa i
    let j ← sharedWith pb ea
    .ok (match j with
      | some j => some (i, j)
      | none => st)) none

/-- `verts[p[i]]` -/
def polyVert (verts : List U16Vec3) (p : List Nat) (i : Nat) : Res U16Vec3 := do
  let v ← idx p i
  idx verts v

/-- poly_mesh.rs:943-956: are the two corners where the polygons meet strictly convex? -/
def cornersConvex (verts : List U16Vec3) (pa pb : List Nat) (ea eb : Nat) : Res Bool := do
  let va ← polyVert verts pa ((ea + pa.length - 1) % pa.length)
  let vb ← polyVert verts pa ea
  let vc ← polyVert verts pb ((eb + 2) % pb.length)
  let l ← uleft va vb vc
  if !l then .ok false
  else do
    let va ← polyVert verts pb ((eb + pb.length - 1) % pb.length)
    let vb ← polyVert verts pb eb
    let vc ← polyVert verts pa ((ea + 2) % pa.length)
    uleft va vb vc

/-- poly_mesh.rs:906-968 `get_poly_merge_value`: `(length_squared, edge_a, edge_b)`. -/
def mergeValue (verts : List U16Vec3) (nvp : Nat) (pa pb : List Nat) : Res (Option (Nat × Nat × Nat)) := do
  let n ← subU (pa.length + pb.length) 2
  if n > nvp then .ok none
  else do
    let e ← sharedEdge pa pb
    match e with
    | none => .ok none
    | some (ea, eb) => do
      let c ← cornersConvex verts pa pb ea eb
      if !c then .ok none
      else do
        let va ← polyVert verts pa ea
        let vb ← polyVert verts pa ((ea + 1) % pa.length)
        let l ← lenSqI32 ((va.x : Int) - vb.x) ((va.z : Int) - vb.z)
        .ok (some (l.toNat, ea, eb))

/-- poly_mesh.rs:891-900: the vertices of a polygon after edge `e`, all but its start. -/
def polyRest (p : List Nat) (e : Nat) : Res (List Nat) := do
  let n ← subU p.length 1
  (List.range n).mapM fun i => idx p ((e + 1 + i) % p.length)

/-- poly_mesh.rs:876-904 `merge_poly_verts` -/
def mergePolyVerts (pa pb : List Nat) (ea eb : Nat) : Res (List Nat) := do
  let a ← polyRest pa ea
  let b ← polyRest pb eb
  .ok (a ++ b)

/-- The best pair of polygons to merge found so far (poly_mesh.rs:298-302). -/
structure Best where
  value : Nat
  pa : Nat
  pb : Nat
  ea : Nat
  eb : Nat
  deriving DecidableEq, Repr

/-- A polygon of the merge loop with its attributes: none in `into_polygon_mesh`, `(region, area)` in `remove_vertex`. -/
abbrev Poly (α : Type) := List Nat × α

/-- poly_mesh.rs:306-320: one pair of polygons. -/
def bestStep (verts : List U16Vec3) (nvp : Nat) (polys : List (Poly α)) (best : Best) (jk : Nat × Nat) : Res Best := do
  let pj ← idx polys jk.1
  let pk ← idx polys jk.2
  let m ← mergeValue verts nvp pj.1 pk.1
  match m with
  | none => .ok best
  | some (v, ea, eb) => if v > best.value then .ok ⟨v, jk.1, jk.2, ea, eb⟩ else .ok best

/-- poly_mesh.rs:303-305: the pairs `j < k < npolys`. -/
def pairs (n : Nat) : List (Nat × Nat) :=
  (List.range (n - 1)).flatMap fun j => (List.range' (j + 1) (n - (j + 1))).map fun k => (j, k)

/-- poly_mesh.rs:297-322: the best pair; `value` is 0 if there is none. -/
def bestMerge (verts : List U16Vec3) (nvp : Nat) (polys : List (Poly α)) : Res Best := do
  let _ ← subU polys.length 1
  (pairs polys.length).foldlM (bestStep verts nvp polys) ⟨0, 0, 0, 0, 0⟩

/-- poly_mesh.rs:323-340 and 730-753: merge the best pair; `combine` gives the attributes of the merged polygon. -/
def mergeBest (combine : α → α → α) (polys : List (Poly α)) (b : Best) : Res (List (Poly α)) := do
  let pa ← idx polys b.pa
  let pb ← idx polys b.pb
  let p ← mergePolyVerts pa.1 pb.1 b.ea b.eb
  let polys ← setIdx polys b.pa (p, combine pa.2 pb.2)
  let last ← idx polys (polys.length - 1)
  let polys ← setIdx polys b.pb last
  .ok polys.dropLast

/-- poly_mesh.rs:295-346 and 705-759: merge as long as a pair is found; one unit of fuel per round. -/
def mergePolys (combine : α → α → α) (verts : List U16Vec3) (nvp : Nat) : Nat → List (Poly α) → Res (List (Poly α))
  | 0, _ => .error .diverge
  | fuel + 1, polys => do
    let b ← bestMerge verts nvp polys
    if b.value > 0 then do
      let polys ← mergeBest combine polys b
      mergePolys combine verts nvp fuel polys
    else .ok polys

/-- A slot of `mesh.polygons`: `nvp` vertex entries and `nvp` neighbour entries. -/
structure Slot where
  verts : List Nat
  neis : List Nat
  deriving DecidableEq, Repr

/-- poly_mesh.rs:12-27 `InternalPolygonNavmesh`: the vertices are those of the table, `npolys` counts the slots in use. -/
structure Mesh where
  verts : List U16Vec3
  slots : List Slot
  npolys : Nat
  regions : List Nat
  areas : List Area
  deriving DecidableEq, Repr

/-- poly_mesh.rs:977-982 `count_poly_verts` -/
def countPolyVerts (nvp : Nat) (p : List Nat) : Nat := ((p.take nvp).findIdx? (· = NO_INDEX)).getD nvp

/-- The entries of a polygon followed by `NO_INDEX` up to `nvp` entries. -/
def pad (nvp : Nat) (p : List Nat) : List Nat := p ++ List.replicate (nvp - p.length) NO_INDEX

/-- A slot as allocated (poly_mesh.rs:237). -/
def emptySlot (nvp : Nat) : Slot := ⟨List.replicate nvp NO_INDEX, List.replicate nvp NO_INDEX⟩

/-- poly_mesh.rs:348-363: store one polygon. -/
def storePoly (nvp maxTris region : Nat) (area : Area) (m : Mesh) (p : List Nat) : Res Mesh := do
  let slot ← idx m.slots m.npolys
  let slots ← setIdx m.slots m.npolys { slot with verts := pad nvp p }
  let regions ← setIdx m.regions m.npolys region
  let areas ← setIdx m.areas m.npolys area
  if m.npolys + 1 > maxTris then .error .err
  else .ok { m with slots, regions, areas, npolys := m.npolys + 1 }

/-- State of the loop over the contours: the mesh (without vertices), the vertex table and `vflags`. -/
structure Build where
  table : VertexTable
  vflags : List Bool
  mesh : Mesh
  deriving DecidableEq, Repr

/-- poly_mesh.rs:264-277: add one contour vertex; the state is the table, the flags and the `indices` so far. -/
def addContourVertex (cap : Nat) (st : VertexTable × List Bool × List Nat) (v : U16Vec3 × Nat) :
    Res (VertexTable × List Bool × List Nat) := do
  let (table, i) ← st.1.add cap v.1
  if v.2 &&& BORDER_VERTEX ≠ 0 then do
    let vflags ← setIdx st.2.1 i true
    .ok (table, vflags, st.2.2 ++ [i])
  else .ok (table, st.2.1, st.2.2 ++ [i])

/-- poly_mesh.rs:281-288: the polygon of a triangle, none if two corners are the same contour vertex. -/
def initialPoly (indices : List Nat) (t : Tri) : Res (Option (Poly Unit)) :=
  if t.1 ≠ t.2.1 ∧ t.1 ≠ t.2.2 ∧ t.2.1 ≠ t.2.2 then do
    let a ← idx indices t.1
    let b ← idx indices t.2.1
    let c ← idx indices t.2.2
    .ok (some ([a, b, c], ()))
  else .ok none

/-- poly_mesh.rs:278-346: the polygons of a contour, given its triangles and mesh vertices. -/
def contourPolys (nvp : Nat) (verts : List U16Vec3) (indices : List Nat) (tris : List Tri) : Res (List (List Nat)) := do
  let polys ← tris.mapM (initialPoly indices)
  let polys := polys.filterMap id
  if polys.isEmpty then .ok []
  else if nvp > 3 then do
    let polys ← mergePolys (fun a _ => a) verts nvp (polys.length + 1) polys
    .ok (polys.map (·.1))
  else .ok (polys.map (·.1))

/-- poly_mesh.rs:249-364: one contour. -/
def addContour (nvp maxVerts maxTris : Nat) (st : Build) (c : Contour) : Res Build :=
  if c.vertices.length < 3 then .ok st
  else do
    let tris ← triangulate (c.vertices.map (·.1))
    let (table, vflags, indices) ← c.vertices.foldlM (addContourVertex maxVerts) (st.table, st.vflags, [])
    let polys ← contourPolys nvp table.verts indices tris
    let mesh ← polys.foldlM (storePoly nvp maxTris c.region c.area) st.mesh
    .ok { table, vflags, mesh }

/-- poly_mesh.rs:455-459: the end of the edge that starts at entry `j`. -/
def edgeEnd (nvp : Nat) (p : List Nat) (j : Nat) : Res Nat :=
  if j + 1 ≥ nvp then idx p 0
  else do
    let v ← idx p (j + 1)
    if v = NO_INDEX then idx p 0 else .ok v

/-- poly_mesh.rs:430-435 `Edge` -/
structure MeshEdge where
  v0 : Nat
  v1 : Nat
  poly0 : Nat
  edge0 : Nat
  poly1 : Nat
  edge1 : Nat
  deriving DecidableEq, Repr

/-- The edges and the chains `first_edge` of poly_mesh.rs:443-447. -/
structure EdgeTable where
  edges : List MeshEdge
  first : List Nat
  deriving DecidableEq, Repr

/-- poly_mesh.rs:450-473: entry `j` of polygon `i`; `nv` is `next_edge_index`.  The indices are truncated to `u16`. -/
def collectEdge (nvp nv : Nat) (i : Nat) (p : List Nat) (t : EdgeTable) (j : Nat) : Res EdgeTable := do
  let v0 ← idx p j
  let v1 ← edgeEnd nvp p j
  if v0 < v1 then do
    let e := t.edges.length
    let old ← idx t.first v0
    let first ← setIdx t.first (nv + e) old
    let first ← setIdx first v0 (e % 65536)
    .ok { edges := t.edges ++ [⟨v0, v1, i % 65536, j % 65536, i % 65536, 0⟩], first }
  else .ok t

/-- poly_mesh.rs:490-498: search the chain from edge `e`; one unit of fuel per edge. -/
def matchEdge (first : List Nat) (nv i j v0 : Nat) : Nat → Nat → List MeshEdge → Res (List MeshEdge)
  | fuel, e, edges =>
    if e = NO_INDEX then .ok edges
    else match fuel with
      | 0 => .error .diverge
      | fuel + 1 => do
        let ed ← idx edges e
        if ed.v1 = v0 ∧ ed.poly0 = ed.poly1 then setIdx edges e { ed with poly1 := i % 65536, edge1 := j % 65536 }
        else do
          let e ← idx first (nv + e)
          matchEdge first nv i j v0 fuel e edges

/-- poly_mesh.rs:478-500: entry `j` of polygon `i`. -/
def pairEdge (nvp nv : Nat) (first : List Nat) (i : Nat) (p : List Nat) (edges : List MeshEdge) (j : Nat) : Res (List MeshEdge) := do
  let v0 ← idx p j
  let v1 ← edgeEnd nvp p j
  if v0 > v1 then do
    let e ← idx first v1
    matchEdge first nv i j v0 (edges.length + 1) e edges
  else .ok edges

/-- Set neighbour entry `j` of slot `i`. -/
def setNei (slots : List Slot) (i j v : Nat) : Res (List Slot) := do
  let s ← idx slots i
  let neis ← setIdx s.neis j v
  setIdx slots i { s with neis }

/-- poly_mesh.rs:504-513: store one edge. -/
def storeEdge (slots : List Slot) (e : MeshEdge) : Res (List Slot) :=
  if e.poly0 ≠ e.poly1 then do
    let slots ← setNei slots e.poly0 e.edge0 e.poly1
    setNei slots e.poly1 e.edge1 e.poly0
  else .ok slots

/-- The entries `(polygon number, polygon, j)` visited by the loops of poly_mesh.rs:448-453 and 475-481. -/
def polyEntries (nvp : Nat) (slots : List Slot) : List (Nat × List Nat × Nat) :=
  slots.zipIdx.flatMap fun s => (List.range (countPolyVerts nvp s.1.verts)).map fun j => (s.2, s.1.verts, j)

/-- poly_mesh.rs:438-515 `build_mesh_adjacency` (the slots in use only; its `Result` is always `Ok`). -/
def buildAdjacency (nvp nv : Nat) (slots : List Slot) : Res (List Slot) := do
  let t ← (polyEntries nvp slots).foldlM (fun t e => collectEdge nvp nv e.1 e.2.1 t e.2.2)
    ⟨[], List.replicate (nv + slots.length * nvp) NO_INDEX⟩
  let edges ← (polyEntries nvp slots).foldlM (fun edges e => pairEdge nvp nv t.first e.1 e.2.1 edges e.2.2) t.edges
  edges.foldlM storeEdge slots

/-- poly_mesh.rs:410-418: the portal value of an open edge, none if it is not on the border of the tile. -/
def portalValue (w h : Nat) (va vb : U16Vec3) : Option Nat :=
  if va.x = 0 ∧ vb.x = 0 then some BORDER_REGION
  else if va.z = h ∧ vb.z = h then some (BORDER_REGION ||| 1)
  else if va.x = w ∧ vb.x = w then some (BORDER_REGION ||| 2)
  else if va.z = 0 ∧ vb.z = 0 then some (BORDER_REGION ||| 3)
  else none

/-- poly_mesh.rs:394-419: entry `j` of a polygon. -/
def portalEntry (nvp w h : Nat) (verts : List U16Vec3) (s : Slot) (j : Nat) : Res Slot := do
  let n ← idx s.neis j
  if n ≠ NO_INDEX then .ok s
  else do
    let va ← polyVert verts s.verts j
    let b ← edgeEnd nvp s.verts j
    let vb ← idx verts b
    match portalValue w h va vb with
    | none => .ok s
    | some v => do
      let neis ← setIdx s.neis j v
      .ok { s with neis }

/-- poly_mesh.rs:388-421: "Find portal edges". -/
def portals (nvp w h : Nat) (verts : List U16Vec3) (slots : List Slot) : Res (List Slot) :=
  slots.mapM fun s => (List.range (countPolyVerts nvp s.verts)).foldlM (portalEntry nvp w h verts) s

/-- poly_mesh.rs:81-143 `PolygonNavmesh` -/
structure PolygonNavmesh where
  vertices : List U16Vec3
  polygons : List Nat
  polygonNeighbors : List Nat
  flags : List Nat
  regions : List Nat
  areas : List Area
  nvp : Nat
  deriving DecidableEq, Repr

/-- poly_mesh.rs:167-195 `From<InternalPolygonNavmesh>`; `chunks_exact` panics on a chunk size of 0.  `regions` is not
truncated. -/
def Mesh.toNavmesh (m : Mesh) (nvp : Nat) (flags : List Nat) : Res PolygonNavmesh :=
  if nvp = 0 then .error .panic
  else
    let slots := m.slots.take m.npolys
    .ok { vertices := m.verts, polygons := slots.flatMap (·.verts), polygonNeighbors := slots.flatMap (·.neis), flags,
          regions := m.regions, areas := m.areas.take m.npolys, nvp }

namespace PolygonNavmesh

/-- poly_mesh.rs:148-151 `polygon_count`; division by zero for `nvp = 0`. -/
def polygonCount (n : PolygonNavmesh) : Nat := n.polygons.length / n.nvp

/-- poly_mesh.rs:159-164: item `i` of `polygons()`. -/
def polygon (n : PolygonNavmesh) (i : Nat) : List Nat := ((n.polygons.drop (i * n.nvp)).take n.nvp).takeWhile (· ≠ NO_INDEX)

/-- poly_mesh.rs:116-119: entry `j` of the neighbours of polygon `i`. -/
def neighbor (n : PolygonNavmesh) (i j : Nat) : Option Nat := n.polygonNeighbors[i * n.nvp + j]?

end PolygonNavmesh

end Rerecast
