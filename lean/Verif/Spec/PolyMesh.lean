import Verif.Spec.Polygon
import Verif.Model.IntoPolyMesh
import Mathlib.Data.List.Forall2
/-! Specification vocabulary for polygon meshes. -/
namespace Rerecast

/-- Mesh vertex `w` stands for contour vertex `v`: same x and z, y at most 2 apart. -/
def Near (w v : U16Vec3) : Prop := w.x = v.x ∧ w.z = v.z ∧ w.y ≤ v.y + 2 ∧ v.y ≤ w.y + 2

/-- Add the vertices one after the other, collecting the indices returned. -/
def VertexTable.addAll (cap : Nat) (vs : List U16Vec3) : Res (VertexTable × List Nat) :=
  vs.foldlM (fun (st : VertexTable × List Nat) v => do
    let (t, i) ← st.1.add cap v
    .ok (t, st.2 ++ [i])) (⟨[], List.replicate 4096 none, []⟩, [])

/-- The list `l` of mesh vertices stands for the contour `c`, vertex by vertex. -/
def StandsFor (verts : List U16Vec3) (c : Contour) (l : List Nat) : Prop :=
  List.Forall₂ (fun v i => ∃ w, verts[i]? = some w ∧ Near w v.1) c.vertices l

/-- No two vertices of the contour are at the same place in the plane. -/
def Contour.Simple (c : Contour) : Prop := (c.vertices.map fun v => v.1.xz).Nodup

/-- The corners of a contour. -/
def Contour.points (c : Contour) : List U16Vec3 := c.vertices.map (·.1)

/-- The triangulation of the contour has only triangles that turn like the contour. -/
def Contour.WellTriangulated (c : Contour) : Prop := ∀ T, triangulate c.points = .ok T → ∀ t ∈ T, t.turn c.points < 0

/-- Side `ea` of `pa` and side `eb` of `pb` join the same two vertices. -/
def Shared (pa pb : List Nat) (ea eb : Nat) : Prop :=
  ∃ e f, (sides pa)[ea]? = some e ∧ (sides pb)[eb]? = some f ∧ (f = e ∨ f = (e.2, e.1))

/-- Entry `i` of a polygon, counted around. -/
def cornerAt (p : List Nat) (i : Nat) : Nat := p.getD (i % p.length) 0

/-- The two corners where polygons sharing sides `ea` and `eb` meet are strictly convex. -/
def JointConvex (verts : List U16Vec3) (pa pb : List Nat) (ea eb : Nat) : Prop :=
  cross (pos verts (cornerAt pa (ea + pa.length - 1))) (pos verts (cornerAt pa ea)) (pos verts (cornerAt pb (eb + 2))) < 0 ∧
  cross (pos verts (cornerAt pb (eb + pb.length - 1))) (pos verts (cornerAt pb eb)) (pos verts (cornerAt pa (ea + 2))) < 0

/-- The length of side `ea` of `pa` in the plane, squared. -/
def sideLen (verts : List U16Vec3) (pa : List Nat) (ea : Nat) : Int :=
  let p := pos verts (cornerAt pa ea)
  let q := pos verts (cornerAt pa (ea + 1))
  ((p.x : Int) - q.x) * ((p.x : Int) - q.x) + ((p.z : Int) - q.z) * ((p.z : Int) - q.z)

/-- The two polygons cannot be merged: together they have too many corners, or they share no side, or at a shared side a corner
of the union would not be strictly convex (or the side has length 0). -/
def Unmergeable (verts : List U16Vec3) (nvp : Nat) (pa pb : List Nat) : Prop :=
  nvp + 2 < pa.length + pb.length ∨ (∀ i j, ¬ Shared pa pb i j) ∨
    ∃ ea eb, Shared pa pb ea eb ∧ (¬ JointConvex verts pa pb ea eb ∨ sideLen verts pa ea = 0)

/-- No two of the polygons can be merged. -/
def Finished (verts : List U16Vec3) (nvp : Nat) (polys : List (List Nat)) : Prop :=
  ∀ (j k : Nat) (pj pk : List Nat), j < k → polys[j]? = some pj → polys[k]? = some pk → Unmergeable verts nvp pj pk

/-- `polys` are polygons with at most `nvp` corners that make up the contour `c`; `l` are the mesh vertices standing for it. -/
structure MakesUp (verts : List U16Vec3) (nvp : Nat) (c : Contour) (l : List Nat) (polys : List (List Nat)) : Prop where
  /-- `l` stands for the contour. -/
  stands : StandsFor verts c l
  /-- Between 3 and `nvp` corners, all of them on the contour. -/
  sizes : ∀ p ∈ polys, 3 ≤ p.length ∧ p.length ≤ nvp ∧ ∀ v ∈ p, v ∈ l
  /-- At least one polygon, and never more than triangles. -/
  count : polys ≠ [] ∧ polys.length ≤ c.vertices.length - 2
  /-- Merging went on as long as possible. -/
  finished : 3 < nvp → Finished verts nvp polys
  /-- The vertices are different ones if the contour's are. -/
  distinct : c.Simple → l.Nodup
  /-- Every polygon goes around in the same direction as the contour. -/
  order : l.Nodup → ∀ p ∈ polys, InOrder p l
  /-- No directed side is used twice. -/
  once : l.Nodup → (allSides polys).Nodup
  /-- Together they have the boundary of the contour: they cover it, each part once. -/
  boundary : l.Nodup → SameBoundary polys l
  /-- Merging keeps polygons convex: any three corners of a polygon, in order, turn the same way. -/
  convex : l.Nodup → c.WellTriangulated → ∀ p ∈ polys, StrictlyConvex (p.map (pos verts))
  /-- Every polygon is put together from triangles of the contour's triangulation. -/
  parts : l.Nodup → ∃ T, triangulate c.points = .ok T ∧ ∀ p ∈ polys, ∃ g : List Tri, (∀ t ∈ g, t ∈ T) ∧
    SameBoundary (g.map fun t => t.corners.map fun i => l.getD i 0) p

/-- A contour, the mesh vertices standing for it and the polygons made from it. -/
structure Block where
  contour : Contour
  ring : List Nat
  polys : List (List Nat)

namespace PolygonNavmesh

/-- All polygons of the mesh. -/
def polys (n : PolygonNavmesh) : List (List Nat) := (List.range n.polygonCount).map n.polygon

/-- Side `j` of polygon `i`: the two vertices it joins. -/
def side (n : PolygonNavmesh) (i j : Nat) : Option (Nat × Nat) := n.polys[i]?.bind fun p => (sides p)[j]?

end PolygonNavmesh

/-- `out` is the mesh of the contours of `cset` with at least 3 vertices: its polygons are those of the blocks, one block per
contour, in order, each with the region and area of its contour. -/
structure MeshOf (cset : ContourSet) (nvp : Nat) (out : PolygonNavmesh) (blocks : List Block) : Prop where
  contours : blocks.map (·.contour) = cset.contours.filter fun c => 3 ≤ c.vertices.length
  makes : ∀ b ∈ blocks, MakesUp out.vertices nvp b.contour b.ring b.polys
  polys : out.polys = blocks.flatMap (·.polys)
  areas : out.areas = blocks.flatMap fun b => b.polys.map fun _ => b.contour.area
  regions : out.regions.take out.polygonCount = blocks.flatMap fun b => b.polys.map fun _ => b.contour.region

/-- No contour vertex is marked for removal (the marks are made at the border of a tile only). -/
def ContourSet.NoBorderVertices (cset : ContourSet) : Prop := ∀ c ∈ cset.contours, ∀ v ∈ c.vertices, v.2 &&& BORDER_VERTEX = 0

/-- The contours that count, those of at least 3 vertices, have fewer than 65535 vertices in total.  (More than 65535 are an error.) -/
def ContourSet.FewVertices (cset : ContourSet) : Prop :=
  ((cset.contours.filter fun c => 3 ≤ c.vertices.length).map (·.vertices.length)).sum < 65535

/-- All coordinates of contour vertices are below 2^15. -/
def ContourSet.Small (cset : ContourSet) : Prop := ∀ c ∈ cset.contours, ∀ v ∈ c.points, v.x ≤ 32767 ∧ v.z ≤ 32767

/-- The segment from `a` to `b` runs along border `k` of a tile of `w` times `h` cells. -/
def OnTileBorder (w h : Nat) (a b : U16Vec3) : Nat → Prop
  | 0 => a.x = 0 ∧ b.x = 0
  | 1 => a.z = h ∧ b.z = h
  | 2 => a.x = w ∧ b.x = w
  | 3 => a.z = 0 ∧ b.z = 0
  | _ => False

/-- The value for an open side from `a` to `b`: `0x8000 + k` for the first border `k` it runs along, `0xFFFF` if there is none. -/
def OpenSide (w h : Nat) (a b : U16Vec3) (v : Nat) : Prop :=
  (∃ k, OnTileBorder w h a b k ∧ (∀ l < k, ¬ OnTileBorder w h a b l) ∧ v = 0x8000 + k) ∨
  ((∀ k, ¬ OnTileBorder w h a b k) ∧ v = 0xFFFF)

end Rerecast
