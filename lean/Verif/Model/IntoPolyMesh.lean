import Verif.Model.PolyMesh
/-!
Model of poly_mesh.rs: removal of border vertices (lines 517-860) and `into_polygon_mesh` (lines 197-428).

Simplification: `hole`, `hreg` and `harea` are one list of triples; its capacity is checked on insertion.
-/
namespace Rerecast

/-- poly_mesh.rs:562, 825: the pairs `(j, k)` of `(0..nv).zip(nv - 1..)`; note that `k` is not the position before `j` but
`nv - 1 + j`. -/
def zipPairs (nv : Nat) : List (Nat × Nat) := (List.range nv).map fun j => (j, nv - 1 + j)

/-- poly_mesh.rs:826-851: one pair of a polygon; the state is the list of `(vertex, share count)` of the edges found, with room
for `cap`. -/
def openEdge (rem cap : Nat) (s : Slot) (edges : List (Nat × Nat)) (jk : Nat × Nat) : Res (List (Nat × Nat)) := do
  let pj ← idx (s.verts ++ s.neis) jk.1
  let pk ← idx (s.verts ++ s.neis) jk.2
  if !(pj = rem || pk = rem) then .ok edges
  else
    let b := if pk ≠ rem then pk else pj
    if edges.any (·.1 = b) then
      edges.mapM fun e => if e.1 = b then do
        let n ← addU16 e.2 1
        .ok (e.1, n)
      else .ok e
    else if edges.length < cap then .ok (edges ++ [(b, 1)])
    else .error .panic

/-- The vertices of a slot in use. -/
def Slot.poly (nvp : Nat) (s : Slot) : List Nat := s.verts.take (countPolyVerts nvp s.verts)

/-- poly_mesh.rs:785-859 `can_remove_vertex`.  The unused entries of `edges` count as open (line 857). -/
def canRemoveVertex (nvp : Nat) (slots : List Slot) (rem : Nat) : Res Bool := do
  let touched := (slots.map fun s => (s.poly nvp).count rem).sum
  let remaining := (slots.map fun s =>
    if (s.poly nvp).count rem ≠ 0 then ((s.poly nvp).length : Int) - ((s.poly nvp).count rem + 1) else 0).sum
  if remaining ≤ 2 then .ok false
  else do
    let edges ← slots.foldlM (fun edges s =>
      (zipPairs (countPolyVerts nvp s.verts)).foldlM (openEdge rem (touched * 2) s) edges) []
    let numOpen := (edges.filter fun e => e.2 < 2).length + (touched * 2 - edges.length)
    .ok (decide (numOpen ≤ 2))

/-- poly_mesh.rs:535-540 `Edge` of `remove_vertex` -/
structure HoleEdge where
  p1 : Nat
  p2 : Nat
  region : Nat
  area : Area
  deriving DecidableEq, Repr

/-- poly_mesh.rs:562-571: one pair of a removed polygon; `cap` is the length of `edges`. -/
def holeEdge (rem cap : Nat) (s : Slot) (region : Nat) (area : Area) (edges : List HoleEdge) (jk : Nat × Nat) :
    Res (List HoleEdge) := do
  let pj ← idx (s.verts ++ s.neis) jk.1
  let pk ← idx (s.verts ++ s.neis) jk.2
  if pj ≠ rem && pk ≠ rem then
    if edges.length < cap then .ok (edges ++ [⟨pk, pj, region, area⟩]) else .error .panic
  else .ok edges

/-- poly_mesh.rs:573-582: replace polygon `i` by the last one. -/
def removePoly (nvp : Nat) (m : Mesh) (i : Nat) : Res Mesh := do
  let last ← idx m.slots (m.npolys - 1)
  let slots ← setIdx m.slots i ⟨last.verts, List.replicate nvp NO_INDEX⟩
  let r ← idx m.regions (m.npolys - 1)
  let regions ← setIdx m.regions i r
  let a ← idx m.areas (m.npolys - 1)
  let areas ← setIdx m.areas i a
  .ok { m with slots, regions, areas, npolys := m.npolys - 1 }

/-- poly_mesh.rs:549-583: take out the polygons with vertex `rem`, collecting their edges; every iteration uses up one unit of
fuel (it either moves on or removes a polygon). -/
def collectHole (nvp rem cap : Nat) : Nat → Nat → Mesh → List HoleEdge → Res (Mesh × List HoleEdge)
  | 0, i, m, edges => if i < m.npolys then .error .diverge else .ok (m, edges)
  | fuel + 1, i, m, edges =>
    if i < m.npolys then do
      let s ← idx m.slots i
      if !(s.poly nvp).contains rem then collectHole nvp rem cap fuel (i + 1) m edges
      else do
        let r ← idx m.regions i
        let a ← idx m.areas i
        let edges ← (zipPairs (countPolyVerts nvp s.verts)).foldlM (holeEdge rem cap s r a) edges
        let m ← removePoly nvp m i
        collectHole nvp rem cap fuel i m edges
    else .ok (m, edges)

/-- poly_mesh.rs:596-598: an index after vertex `rem` is gone. -/
def shiftIndex (rem v : Nat) : Nat := if v > rem then v - 1 else v

/-- poly_mesh.rs:584-599: remove the vertex and adjust the polygons in use. -/
def dropVertex (nvp rem : Nat) (m : Mesh) : Res Mesh := do
  let _ ← subU m.verts.length 1
  let slots := m.slots.mapIdx fun i s =>
    if i < m.npolys then
      { s with verts := s.verts.mapIdx fun j v => if j < countPolyVerts nvp s.verts then shiftIndex rem v else v }
    else s
  .ok { m with slots, verts := m.verts.eraseIdx rem }

/-- State of the loop that strings the edges together, poly_mesh.rs:614-655; `edges` is the whole array, of which `nedges`
entries are in use. -/
structure HoleState where
  edges : List HoleEdge
  nedges : Nat
  hole : List (Nat × Nat × Area)
  matched : Bool
  deriving DecidableEq, Repr

/-- poly_mesh.rs:630-650: the edge at position `i` was added to the hole: `i` has been incremented, and the edge now at `i` is
overwritten by the last one. -/
def takeEdge (cap : Nat) (st : HoleState) (i : Nat) (hole : List (Nat × Nat × Area)) : Res (HoleState × Nat) :=
  if st.hole.length < cap then do
    let last ← idx st.edges (st.nedges - 1)
    let edges ← setIdx st.edges (i + 1) last
    .ok ({ edges, nedges := st.nedges - 1, hole, matched := true }, i + 1)
  else .error .panic

/-- poly_mesh.rs:624-650: look at the edge at position `i`.  Without a match `i` is not incremented. -/
def holeStep (cap : Nat) (st : HoleState) (i : Nat) : Res (HoleState × Nat) := do
  let e ← idx st.edges i
  let first ← idx st.hole 0
  let last ← idx st.hole (st.hole.length - 1)
  if first.1 = e.p2 then takeEdge cap st i ((e.p1, e.region, e.area) :: st.hole)
  else if last.1 = e.p1 then takeEdge cap st i (st.hole ++ [(e.p2, e.region, e.area)])
  else .ok (st, i)

/-- poly_mesh.rs:623-651: the inner loop; one unit of fuel per iteration. -/
def holeScan (cap : Nat) : Nat → HoleState → Nat → Res HoleState
  | 0, st, i => if i < st.nedges then .error .diverge else .ok st
  | fuel + 1, st, i =>
    if i < st.nedges then do
      let (st, i) ← holeStep cap st i
      holeScan cap fuel st i
    else .ok st

/-- poly_mesh.rs:620-655: the outer loop; `scan` is the fuel of the inner loop. -/
def holeLoop (cap scan : Nat) : Nat → HoleState → Res HoleState
  | 0, st => if st.nedges ≠ 0 then .error .diverge else .ok st
  | fuel + 1, st =>
    if st.nedges ≠ 0 then do
      let st ← holeScan cap scan { st with matched := false } 0
      if st.matched then holeLoop cap scan fuel st else .ok st
    else .ok st

/-- poly_mesh.rs:680-699: the polygon of a triangle of the hole. -/
def holePoly (hole : List (Nat × Nat × Area)) (t : Tri) : Res (Option (Poly (Nat × Area))) :=
  if t.1 ≠ t.2.1 ∧ t.1 ≠ t.2.2 ∧ t.2.1 ≠ t.2.2 then do
    let a ← idx hole t.1
    let b ← idx hole t.2.1
    let c ← idx hole t.2.2
    .ok (some ([a.1, b.1, c.1], if a.2.1 ≠ b.2.1 ∨ b.2.1 ≠ c.2.1 then REGION_NONE else a.2.1, a.2.2))
  else .ok none

/-- poly_mesh.rs:743-745: attributes of a merged polygon. -/
def combineHole (a b : Nat × Area) : Nat × Area := (if a.1 ≠ b.1 then REGION_NONE else a.1, a.2)

/-- poly_mesh.rs:656-759: the polygons that fill the hole. -/
def holePolys (nvp : Nat) (verts : List U16Vec3) (hole : List (Nat × Nat × Area)) : Res (List (Poly (Nat × Area))) := do
  let tverts ← hole.mapM fun h => idx verts h.1
  let tris ← triangulate tverts
  let polys ← tris.mapM (holePoly hole)
  let polys := polys.filterMap id
  if polys.isEmpty then .ok []
  else if nvp > 3 then mergePolys combineHole verts nvp (polys.length + 1) polys
  else .ok polys

/-- poly_mesh.rs:762-779: store one polygon of the hole; `break` is modelled by skipping the rest. -/
def storeHolePoly (nvp maxTris : Nat) (m : Mesh) (p : Poly (Nat × Area)) : Res Mesh :=
  if m.npolys ≥ maxTris then .ok m
  else do
    let slots ← setIdx m.slots m.npolys ⟨pad nvp p.1, List.replicate nvp NO_INDEX⟩
    let regions ← setIdx m.regions m.npolys p.2.1
    let areas ← setIdx m.areas m.npolys p.2.2
    .ok { m with slots, regions, areas, npolys := m.npolys + 1 }

/-- poly_mesh.rs:600-608: adjust the edges (the entries in use). -/
def shiftEdge (rem : Nat) (e : HoleEdge) : HoleEdge := { e with p1 := shiftIndex rem e.p1, p2 := shiftIndex rem e.p2 }

/-- poly_mesh.rs:236: the array behind the vertices of the mesh, which has room for `maxVerts` and of which the entries not in use can be
read, too.  Simplification: these entries are zero here, while in the code they are stale after a removal. -/
def vertexArray (maxVerts : Nat) (verts : List U16Vec3) : List U16Vec3 :=
  verts ++ List.replicate (maxVerts - verts.length) ⟨0, 0, 0⟩

/-- poly_mesh.rs:610-782: fill the hole left by the removed polygons. -/
def fillHole (fuel maxVerts nvp maxTris cap : Nat) (m : Mesh) (edges : List HoleEdge) : Res Mesh :=
  match edges with
  | [] => .ok m
  | e :: _ => do
    let array := edges ++ List.replicate (cap - edges.length) ⟨0, 0, REGION_NONE, 0⟩
    if cap = 0 then .error .panic
    else do
      let st ← holeLoop cap fuel (edges.length + 1) ⟨array, edges.length, [(e.p1, e.region, e.area)], false⟩
      let polys ← holePolys nvp (vertexArray maxVerts m.verts) st.hole
      polys.foldlM (storeHolePoly nvp maxTris) m

/-- poly_mesh.rs:517-783 `remove_vertex`; `fuel` bounds the inner loop of lines 623-651. -/
def removeVertex (fuel maxVerts nvp maxTris : Nat) (m : Mesh) (rem : Nat) : Res Mesh := do
  let touched := ((m.slots.take m.npolys).map fun s => (s.poly nvp).count rem).sum
  let (m, edges) ← collectHole nvp rem (touched * nvp) (m.npolys + 1) 0 m []
  let m ← dropVertex nvp rem m
  fillHole fuel maxVerts nvp maxTris (touched * nvp) m (edges.map (shiftEdge rem))

/-- poly_mesh.rs:378: `vflags.copy_within((i + 1)..=nvertices, i)` -/
def shiftFlags (vflags : List Bool) (i nv : Nat) : Res (List Bool) :=
  if nv < vflags.length ∧ i ≤ nv then .ok (vflags.take i ++ (vflags.drop (i + 1)).take (nv - i) ++ vflags.drop nv)
  else .error .panic

/-- poly_mesh.rs:366-384: "Remove edge vertices"; every iteration brings `i` and the number of vertices closer by one. -/
def removeBorder (fuel maxVerts nvp maxTris : Nat) : Nat → Nat → List Bool → Mesh → Res Mesh
  | 0, i, _, m => if i < m.verts.length then .error .diverge else .ok m
  | n + 1, i, vflags, m =>
    if i < m.verts.length then do
      let f ← idx vflags i
      if f then do
        let can ← canRemoveVertex nvp (m.slots.take m.npolys) i
        if !can then removeBorder fuel maxVerts nvp maxTris n (i + 1) vflags m
        else do
          let m ← removeVertex fuel maxVerts nvp maxTris m i
          let vflags ← shiftFlags vflags i m.verts.length
          let i ← subU i 1
          removeBorder fuel maxVerts nvp maxTris n (i + 1) vflags m
      else removeBorder fuel maxVerts nvp maxTris n (i + 1) vflags m
    else .ok m

namespace ContourSet

/-- poly_mesh.rs:217-225: the contours that are not skipped. -/
def proper (cset : ContourSet) : List Contour := cset.contours.filter fun c => 3 ≤ c.vertices.length

/-- poly_mesh.rs:222: `max_vertices` -/
def maxVertices (cset : ContourSet) : Nat := (cset.proper.map (·.vertices.length)).sum

/-- poly_mesh.rs:223: `max_tris` -/
def maxTris (cset : ContourSet) : Nat := (cset.proper.map (·.vertices.length - 2)).sum

/-- poly_mesh.rs:203-364: the mesh of all contours, before vertices are removed. -/
def buildMesh (cset : ContourSet) (nvp : Nat) : Res Build :=
  if cset.maxVertices > 65535 then .error .err
  else
    let mesh : Mesh := ⟨[], List.replicate cset.maxTris (emptySlot nvp), 0, List.replicate cset.maxTris REGION_NONE,
      List.replicate cset.maxTris NOT_WALKABLE⟩
    cset.contours.foldlM (addContour nvp cset.maxVertices cset.maxTris)
      ⟨⟨[], List.replicate 4096 none, []⟩, List.replicate cset.maxVertices false, mesh⟩

/-- poly_mesh.rs:198-427 `into_polygon_mesh`; `fuel` bounds one inner loop of `remove_vertex` (see `removeVertex`). -/
def intoPolygonMesh (fuel : Nat) (cset : ContourSet) (nvp : Nat) : Res PolygonNavmesh := do
  let b ← cset.buildMesh nvp
  let m : Mesh := { b.mesh with verts := b.table.verts, slots := b.mesh.slots.take b.mesh.npolys }
  let m ← removeBorder fuel cset.maxVertices nvp cset.maxTris m.verts.length 0 b.vflags m
  let slots ← buildAdjacency nvp m.verts.length (m.slots.take m.npolys)
  let slots ← if cset.borderSize > 0 then portals nvp cset.width cset.height m.verts slots else .ok slots
  { m with slots }.toNavmesh nvp (List.replicate m.npolys 0)

end ContourSet
end Rerecast
