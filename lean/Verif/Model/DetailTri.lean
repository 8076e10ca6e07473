import Verif.Model.Floats
/-! Model of the triangulations of `detail_mesh.rs`: `triangulate_hull`, `set_tri_flags` and `delaunay_hull`. -/
namespace Rerecast

/-- `v as u8` for a `usize` -/
def asU8 (v : Nat) : Nat := v % 256

/-- detail_mesh.rs:94 `[u8; 3]` -/
abbrev DTri := Nat × Nat × Nat

section
variable {F : Type} (o : FloatOps F)

/-- `verts[hull[i]]` -/
def hullVert (verts : List (Vec3 F)) (hull : List Nat) (i : Nat) : Res (Vec3 F) := do
  let h ← idx hull i
  idx verts h

/-- detail_mesh.rs:1073-1079: the variables `start`, `left`, `right` and `dmin`. -/
structure HullEar (F : Type) where
  start : Nat
  left : Nat
  right : Nat
  dmin : F

/-- detail_mesh.rs:1081-1096: one step of the search for the first ear. -/
def hullEarStep (verts : List (Vec3 F)) (hull : List Nat) (nin : Nat) (e : HullEar F) (i : Nat) : Res (HullEar F) := do
  let h ← idx hull i
  if h ≥ nin then .ok e
  else
    let pi ← prevIdx i hull.length
    let ni ← nextIdx i hull.length
    let pv ← hullVert verts hull pi
    let cv ← hullVert verts hull i
    let nv ← hullVert verts hull ni
    let d := o.add (o.add (Vec3.distXZ o pv cv) (Vec3.distXZ o cv nv)) (Vec3.distXZ o nv pv)
    if o.lt d e.dmin then .ok ⟨i, ni, pi, d⟩ else .ok e

/-- `[hull[a] as u8, hull[b] as u8, hull[c] as u8]` -/
def hullTri (hull : List Nat) (a b c : Nat) : Res DTri := do
  let x ← idx hull a
  let y ← idx hull b
  let z ← idx hull c
  .ok (asU8 x, asU8 y, asU8 z)

/-- detail_mesh.rs:1112-1118: is the perimeter of the triangle on the left shorter? -/
def goLeft (verts : List (Vec3 F)) (hull : List Nat) (left nleft right nright : Nat) : Res Bool := do
  let cvleft ← hullVert verts hull left
  let nvleft ← hullVert verts hull nleft
  let cvright ← hullVert verts hull right
  let nvright ← hullVert verts hull nright
  let dleft := o.add (Vec3.distXZ o cvleft nvleft) (Vec3.distXZ o nvleft cvright)
  let dright := o.add (Vec3.distXZ o cvright nvright) (Vec3.distXZ o cvleft nvright)
  .ok (o.lt dleft dright)

/-- detail_mesh.rs:1107-1127: the loop of `triangulate_hull`. -/
def hullLoop (verts : List (Vec3 F)) (hull : List Nat) : Nat → Nat → Nat → List DTri → Res (List DTri)
  | 0, _, _, _ => .error .diverge
  | fuel + 1, left, right, tris => do
    let nleft ← nextIdx left hull.length
    if nleft = right then .ok tris
    else
      let nright ← prevIdx right hull.length
      let b ← goLeft o verts hull left nleft right nright
      if b then do
        let t ← hullTri hull left nleft right
        hullLoop verts hull fuel nleft right (tris ++ [t])
      else do
        let t ← hullTri hull left nright right
        hullLoop verts hull fuel left nright (tris ++ [t])

/-- detail_mesh.rs:1065-1128 `triangulate_hull`, called with empty `tris`.  `hull` is the filled part (`nhull` entries) of the
array; `flags`, which gets a 0 for every triangle, is left to the caller. -/
def triangulateHull (verts : List (Vec3 F)) (hull : List Nat) (nin : Nat) : Res (List DTri) := do
  let right ← subU hull.length 1
  let e ← (List.range hull.length).foldlM (hullEarStep o verts hull nin) ⟨0, 1, right, o.maxVal⟩
  let t ← hullTri hull e.start e.left e.right
  hullLoop o verts hull hull.length e.left e.right [t]

end

/-- detail_mesh.rs:1055-1062: the loop of `on_hull` from index `i` on, with `j` the index before. -/
def onHullLoop (hull : List Nat) (a b : Nat) : List Nat → Nat → Res Bool
  | [], _ => .ok false
  | i :: is, j => do
    let hj ← idx hull j
    let hi ← idx hull i
    if a = hj && b = hi then .ok true else onHullLoop hull a b is i

/-- detail_mesh.rs:1050-1063 `on_hull` -/
def onHull (hull : List Nat) (a b : Nat) : Res Bool :=
  if a ≥ hull.length || b ≥ hull.length then .ok false
  else do
    let j ← subU hull.length 1
    onHullLoop hull a b (List.range hull.length) j

/-- detail_mesh.rs:1030-1046: the flags of one triangle. -/
def triFlags (hull : List Nat) (t : DTri) : Res Nat := do
  let ab ← onHull hull t.1 t.2.1
  let bc ← onHull hull t.2.1 t.2.2
  let ca ← onHull hull t.2.2 t.1
  .ok ((if ab then 1 else 0) ||| ((if bc then 1 else 0) <<< 2) ||| ((if ca then 1 else 0) <<< 4))

/-- detail_mesh.rs:1025-1048 `set_tri_flags`; `flags` has as many entries as `tris`. -/
def setTriFlags (hull : List Nat) (tris : List DTri) : Res (List Nat) := tris.mapM (triFlags hull)

/-- detail_mesh.rs:910-915 `Edge` -/
inductive DEdge
  | regular (n : Nat)
  | undefined
  | hull
  deriving DecidableEq, Repr

namespace DEdge
/-- detail_mesh.rs:924-930 `unwrap` -/
def unwrap : DEdge → Res Nat
  | regular n => .ok n
  | _ => .error .panic
/-- detail_mesh.rs:940-943 `is_undefined` -/
def isUndefined : DEdge → Bool
  | undefined => true
  | _ => false
end DEdge

/-- detail_mesh.rs:890-908 `Edges`: the two ends, the face on the left and the face on the right; also used for triangles. -/
structure DEdges where
  e0 : DEdge
  e1 : DEdge
  e2 : DEdge
  e3 : DEdge
  deriving DecidableEq, Repr

/-- detail_mesh.rs:893 `Edges::UNDEFINED` -/
def DEdges.undef : DEdges := ⟨.undefined, .undefined, .undefined, .undefined⟩

/-- detail_mesh.rs:879-888 `find_edge`; `edges` is the filled part (`nedges` entries) of the vector.  Nothing found is `none`. -/
def findEdge (edges : List DEdges) (s t : DEdge) : Option Nat :=
  edges.findIdx? fun e => (e.e0 = s && e.e1 = t) || (e.e0 = t && e.e1 = s)

/-- detail_mesh.rs:846-877 `add_edge`; the result is never used. -/
def addEdge (maxEdges : Nat) (edges : List DEdges) (s t l r : DEdge) : List DEdges :=
  if edges.length ≥ maxEdges then edges
  else match findEdge edges s t with
    | none => edges ++ [⟨s, t, l, r⟩]
    | some _ => edges

/-- detail_mesh.rs:772-781 `update_left_face` -/
def updateLeftFace (e : DEdges) (s t f : DEdge) : DEdges :=
  if e.e0 = s && e.e1 = t && e.e2.isUndefined then { e with e2 := f }
  else if e.e1 = s && e.e0 = t && e.e3.isUndefined then { e with e3 := f }
  else e

section
variable {F : Type} (o : FloatOps F)

/-- detail_mesh.rs:802-813 `overlap_seg_seg2` -/
def overlapSegSeg (a b c d : Vec3 F) : Bool :=
  let a1 := cross2 o a b d
  let a2 := cross2 o a b c
  if o.lt (o.mul a1 a2) (o.lit 0) then
    let a3 := cross2 o c d a
    let a4 := o.sub (o.add a3 a2) a1
    o.lt (o.mul a3 a4) (o.lit 0)
  else false

/-- detail_mesh.rs:783-799 `overlap_edges` -/
def overlapEdges (pts : List (Vec3 F)) (s1 t1 : Nat) : List DEdges → Res Bool
  | [] => .ok false
  | e :: es => do
    let s0 ← e.e0.unwrap
    let t0 ← e.e1.unwrap
    if s0 = s1 || s0 = t1 || t0 = s1 || t0 = t1 then overlapEdges pts s1 t1 es
    else
      let ps0 ← idx pts s0
      let pt0 ← idx pts t0
      let ps1 ← idx pts s1
      let pt1 ← idx pts t1
      if overlapSegSeg o ps0 pt0 ps1 pt1 then .ok true else overlapEdges pts s1 t1 es

/-- detail_mesh.rs:815-837 `circum_circle_squared`: the centre and the squared radius. -/
def circumCircle (p1 p2 p3 : Vec3 F) : Vec3 F × F :=
  let v2 := Vec3.sub o p2 p1
  let v3 := Vec3.sub o p3 p1
  let cp := cross2 o (Vec3.zero o) v2 v3
  if o.lt (o.lit (1 / 1000000)) (o.abs cp) then
    let s2 := Vec3.dotXZ o v2 v2
    let s3 := Vec3.dotXZ o v3 v3
    let c : Vec3 F := ⟨o.div (o.add (o.mul s2 v3.z) (o.mul s3 (o.neg v2.z))) (o.mul (o.lit 2) cp), o.lit 0,
      o.div (o.add (o.mul s2 (o.neg v3.x)) (o.mul s3 v2.x)) (o.mul (o.lit 2) cp)⟩
    (Vec3.add o c p1, Vec3.dotXZ o c c)
  else (p1, o.lit 0)

/-- detail_mesh.rs:701-703: the best point so far and its circle; `none` is `pt = npts` with `r_squared = None`. -/
abbrev BestPt (F : Type) := Option (Nat × Vec3 F × F)

/-- detail_mesh.rs:734-741: a point within the tolerance of the circle is taken if the new edges overlap no old one. -/
def tryPoint (pts : List (Vec3 F)) (edges : List DEdges) (s t u : Nat) (best : BestPt F) (new : BestPt F) : Res (BestPt F) := do
  let b1 ← overlapEdges o pts s u edges
  if b1 then .ok best
  else
    let b2 ← overlapEdges o pts t u edges
    if b2 then .ok best else .ok new

/-- detail_mesh.rs:710-743: one point of the search for the best point on the left of the edge. -/
def facetStep (pts : List (Vec3 F)) (edges : List DEdges) (s t : Nat) (best : BestPt F) (u : Nat) : Res (BestPt F) :=
  if u = s || u = t then .ok best
  else do
    let ps ← idx pts s
    let pt ← idx pts t
    let pu ← idx pts u
    if o.lt (o.lit (1 / 100000)) (cross2 o ps pt pu) then
      let new : BestPt F := some (u, circumCircle o ps pt pu)
      match best with
      | none => .ok new
      | some (_, c, r) =>
        let d := Vec3.distSqXZ o c pu
        let hi := o.add (o.lit 1) (o.lit (1 / 1000))
        let lo := o.sub (o.lit 1) (o.lit (1 / 1000))
        if o.lt (o.mul (o.mul r hi) hi) d then .ok best
        else if o.lt d (o.mul (o.mul r lo) lo) then .ok new
        else tryPoint o pts edges s t u best new
    else .ok best

/-- detail_mesh.rs:752-757 and 760-765: add an edge of the new face, or update it. -/
def faceEdge (maxEdges : Nat) (edges : List DEdges) (s t : Nat) (f : Nat) : Res (List DEdges) :=
  match findEdge edges (.regular s) (.regular t) with
  | none => .ok (addEdge maxEdges edges (.regular s) (.regular t) (.regular f) .undefined)
  | some e => do
    let old ← idx edges e
    setIdx edges e (updateLeftFace old (.regular s) (.regular t) (.regular f))

/-- detail_mesh.rs:746-769: the end of `complete_facet`. -/
def closeFacet (maxEdges : Nat) (edges : List DEdges) (nfaces e s t : Nat) (old : DEdges) :
    BestPt F → Res (List DEdges × Nat)
  | some (pt, _) => do
    let edges ← setIdx edges e (updateLeftFace old (.regular s) (.regular t) (.regular nfaces))
    let edges ← faceEdge maxEdges edges pt s nfaces
    let edges ← faceEdge maxEdges edges t pt nfaces
    .ok (edges, nfaces + 1)
  | none => do
    let edges ← setIdx edges e (updateLeftFace old (.regular s) (.regular t) .hull)
    .ok (edges, nfaces)

/-- detail_mesh.rs:691-698: the ends of the edge, seen from its open side. -/
def openEnds (e : DEdges) : Option (DEdge × DEdge) :=
  if e.e2.isUndefined then some (e.e0, e.e1)
  else if e.e3.isUndefined then some (e.e1, e.e0)
  else none

/-- detail_mesh.rs:676-770 `complete_facet` -/
def completeFacet (pts : List (Vec3 F)) (npts maxEdges : Nat) (st : List DEdges × Nat) (e : Nat) : Res (List DEdges × Nat) := do
  let edge ← idx st.1 e
  match openEnds edge with
  | none => .ok st
  | some (s, t) => do
    let s ← s.unwrap
    let t ← t.unwrap
    let best ← (List.range npts).foldlM (facetStep o pts st.1 s t) none
    closeFacet maxEdges st.1 st.2 e s t edge best

/-- detail_mesh.rs:592-602 / 603-613: complete the facet if that side of the edge is open. -/
def completeIf (pts : List (Vec3 F)) (npts maxEdges : Nat) (st : List DEdges × Nat) (e : Nat) (side : DEdges → DEdge) :
    Res (List DEdges × Nat) := do
  let edge ← idx st.1 e
  if (side edge).isUndefined then completeFacet o pts npts maxEdges st e else .ok st

/-- detail_mesh.rs:590-615: the loop over the edges. -/
def facetLoop (pts : List (Vec3 F)) (npts maxEdges : Nat) : Nat → Nat → List DEdges × Nat → Res (List DEdges × Nat)
  | 0, _, _ => .error .diverge
  | fuel + 1, cur, st =>
    if cur < st.1.length then do
      let st ← completeIf o pts npts maxEdges st cur (·.e2)
      let st ← completeIf o pts npts maxEdges st cur (·.e3)
      facetLoop pts npts maxEdges fuel (cur + 1) st
    else .ok st

end

/-- detail_mesh.rs:576-588: add the edges of the hull. -/
def hullEdges (maxEdges : Nat) (hull : List Nat) : Res (List DEdges) := do
  let j ← subU hull.length 1
  let r ← (List.range hull.length).foldlM (fun (st : List DEdges × Nat) i => do
    let hj ← idx hull st.2
    let hi ← idx hull i
    .ok (addEdge maxEdges st.1 (.regular hj) (.regular hi) .hull .undefined, i)) ([], j)
  .ok r.1

/-- detail_mesh.rs:625-636: the face on the right of an edge. -/
def faceRight (e t : DEdges) : DEdges :=
  if t.e0.isUndefined then { t with e0 := e.e0, e1 := e.e1 }
  else if t.e0 = e.e1 then { t with e2 := e.e0 }
  else if t.e1 = e.e0 then { t with e2 := e.e1 }
  else t

/-- detail_mesh.rs:637-648: the face on the left of an edge. -/
def faceLeft (e t : DEdges) : DEdges :=
  if t.e0.isUndefined then { t with e0 := e.e1, e1 := e.e0 }
  else if t.e0 = e.e0 then { t with e2 := e.e1 }
  else if t.e1 = e.e1 then { t with e2 := e.e0 }
  else t

/-- Update the face recorded in a field of an edge, if there is one. -/
def onFace (tris : List DEdges) (f : DEdge) (g : DEdges → DEdges) : Res (List DEdges) :=
  match f with
  | .regular i => do
    let t ← idx tris i
    setIdx tris i (g t)
  | _ => .ok tris

/-- detail_mesh.rs:624-649: enter one edge into its two faces. -/
def enterEdge (tris : List DEdges) (e : DEdges) : Res (List DEdges) := do
  let tris ← onFace tris e.e3 (faceRight e)
  onFace tris e.e2 (faceLeft e)

/-- detail_mesh.rs:650-664: faces with missing corners are removed by `swap_remove`. -/
def dropDangling : Nat → Nat → List DEdges → Res (List DEdges)
  | 0, i, tris => if i < tris.length then .error .diverge else .ok tris
  | fuel + 1, i, tris =>
    match tris[i]? with
    | none => .ok tris
    | some t =>
      if t.e0.isUndefined || t.e1.isUndefined || t.e2.isUndefined then
        dropDangling fuel i ((tris.set i (tris.getLastD t)).dropLast)
      else dropDangling fuel (i + 1) tris

/-- detail_mesh.rs:668-670: the triangle stored for a face. -/
def faceTri (t : DEdges) : Res DTri := do
  let a ← t.e0.unwrap
  let b ← t.e1.unwrap
  let c ← t.e2.unwrap
  .ok (asU8 a, asU8 b, asU8 c)

/-- detail_mesh.rs:562-674 `delaunay_hull`, called with empty `tris` and `edges`; the flags are overwritten by the caller. -/
def delaunayHull {F : Type} (o : FloatOps F) (pts : List (Vec3 F)) (npts : Nat) (hull : List Nat) : Res (List DTri) := do
  let maxEdges := npts * 10
  let edges ← hullEdges maxEdges hull
  let (edges, nfaces) ← facetLoop o pts npts maxEdges (maxEdges + 1) 0 (edges, 0)
  let tris ← edges.foldlM enterEdge (List.replicate nfaces DEdges.undef)
  let tris ← dropDangling tris.length 0 tris
  tris.mapM faceTri

end Rerecast
