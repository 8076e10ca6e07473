import Verif.Spec.Polygon
import Verif.Model.DetailMesh
import Verif.Spec.CompactHeightfield
import Mathlib.Logic.Relation
/-! Specification vocabulary for detail meshes. -/
namespace Rerecast

/-- `T` is a triangulation of the closed polygon with vertices `hull`: two triangles fewer than vertices, each with its corners in
the order of the polygon, no directed side used twice, and together with the boundary of the polygon. -/
structure Triangulates (T : List DTri) (hull : List Nat) : Prop where
  count : T.length = hull.length - 2
  order : ∀ t ∈ T, InOrder (Tri.corners t) hull
  once : hull.Nodup → (allSides (T.map Tri.corners)).Nodup
  boundary : SameBoundary (T.map Tri.corners) hull

/-- The triangle turns the way of the polygons, by more than the tolerance `1e-5` of the code, when seen from one of its corners:
from there the cross product computed by the code is at least that large. -/
def Turns {F : Type} (o : FloatOps F) (verts : List (Vec3 F)) (t : DTri) : Prop :=
  ∃ i j k a b c, (∃ n, (Tri.corners t).reverse.rotate n = [i, j, k]) ∧ verts[i]? = some a ∧ verts[j]? = some b ∧ verts[k]? = some c ∧
    o.lt (o.lit (1 / 100000)) (cross2 o a b c) = true

/-- The height patch has the height `h` for its cell `(x, z)`. -/
def HeightPatch.Has (hp : HeightPatch) (x z : Int) (h : Nat) : Prop :=
  0 ≤ x ∧ x < hp.width ∧ 0 ≤ z ∧ z < hp.height ∧ h ≠ 0xFFFF ∧ hp.data[(x + z * hp.width).toNat]? = some h

/-- The cell `(x, z)` of the heightfield belongs to the height patch (patches leave out the border of `bs` cells). -/
def HeightPatch.InPatch (hp : HeightPatch) (bs x z : Nat) : Prop :=
  hp.xmin + bs ≤ x ∧ x < hp.xmin + bs + hp.width ∧ hp.zmin + bs ≤ z ∧ z < hp.zmin + bs + hp.height

/-- Span `j` is a span of region `region` inside the patch, and no lower span of its cell is. -/
def HeightPatch.IsRoot (chf : CompactHeightfield) (hp : HeightPatch) (bs region j : Nat) : Prop :=
  ∃ x z s, chf.At x z j s ∧ hp.InPatch bs x z ∧ s.region = region ∧
    ∀ i t, chf.At x z i t → t.region = region → j ≤ i

/-- The heights of the patch are those of a set `C` of spans, at most one in every cell, that contains the `root` spans, that is reached
from these by steps between connected spans, and that has a span in every cell of the patch into which one of its spans has a connection. -/
structure HeightPatch.Covers (chf : CompactHeightfield) (hp : HeightPatch) (bs : Nat) (root : Nat → Prop) (C : Nat → Prop) : Prop where
  inside : ∀ i, C i → ∃ x z s, chf.At x z i s ∧ hp.InPatch bs x z
  one : ∀ i j x z s t, C i → C j → chf.At x z i s → chf.At x z j t → i = j
  height : ∀ (x z h : Nat), hp.Has x z h ↔ ∃ i s, C i ∧ chf.At (x + hp.xmin + bs) (z + hp.zmin + bs) i s ∧ s.y = h
  roots : ∀ i, root i → C i
  reached : ∀ k, C k → ∃ j, root j ∧ Relation.ReflTransGen (fun i k => C i ∧ C k ∧ ∃ d < 4, chf.Link i d k) j k
  closed : ∀ i d k x z t, C i → d < 4 → chf.Link i d k → chf.At x z k t → hp.InPatch bs x z → ∃ j s, C j ∧ chf.At x z j s

/-- A queue that serves its entries in the order of arrival: `visit` handles an entry and returns the new arrivals. -/
def fifo {σ : Type} (visit : σ → Seed → Res (σ × List Seed)) : Nat → σ → List Seed → Res σ
  | _, st, [] => .ok st
  | 0, _, _ :: _ => .error .diverge
  | fuel + 1, st, e :: rest => do
    let (st, new) ← visit st e
    fifo visit fuel st (rest ++ new)

/-- Number of cells between `a` and `b`, counting diagonal steps as one. -/
def chebyshev (a b : Int × Int) : Nat := max (a.1 - b.1).natAbs (a.2 - b.2).natAbs

/-- `h` is the height of a cell within `radius` of `c` that has one, as close to `c` as possible, and among the equally close ones none has a
height closer to the wanted one, as `closer` says; or no cell within `radius` has a height, and `h` is `0xFFFF`. -/
def HeightPatch.NearestHeight (hp : HeightPatch) (closer : Nat → Nat → Prop) (radius : Nat) (c : Int × Int) (h : Nat) : Prop :=
  (∃ x z, hp.Has x z h ∧ chebyshev (x, z) c ≤ radius ∧ ∀ x' z' h', hp.Has x' z' h' →
      chebyshev (x, z) c ≤ chebyshev (x', z') c ∧ (chebyshev (x', z') c = chebyshev (x, z) c → ¬ closer h' h)) ∨
  (h = 0xFFFF ∧ ∀ x z h', hp.Has x z h' → radius < chebyshev (x, z) c)

section
variable {F : Type}

/-- The error of the height `h` in cells of height `ch`, when `fy` is wanted. -/
def heightError (o : FloatOps F) (ch fy : F) (h : Nat) : F := o.abs (o.sub (o.mul (o.ofInt h) ch) fy)

/-- The cell in which a height is looked up first. -/
def lookupCell (o : FloatOps F) (f : Vec3 F) (ics : F) (hp : HeightPatch) : Int × Int :=
  (max 0 (min (o.toI32 (o.floor (o.add (o.mul f.x ics) (o.lit (1 / 100)))) - hp.xmin) ((hp.width : Int) - 1)),
   max 0 (min (o.toI32 (o.floor (o.add (o.mul f.z ics) (o.lit (1 / 100)))) - hp.zmin) ((hp.height : Int) - 1)))

/-- The edges of the polygon are not so long that counting the steps overflows (2^64 steps). -/
def StepsOk (o : FloatOps F) (c : DetailConfig F) (poly : List (Vec3 F)) : Prop :=
  ∀ a ∈ poly, ∀ b ∈ poly, edgeSteps o c.sampleDist a b + 1 < 18446744073709551616

end

/-- The float comparisons are an order (there are no NaNs). -/
structure FloatOrder {F : Type} (o : FloatOps F) : Prop where
  irrefl : ∀ a, o.lt a a = false
  trans : ∀ a b c, o.lt a b = true → o.lt b c = true → o.lt a c = true
  split : ∀ a b c, o.lt a c = true → o.lt a b = true ∨ o.lt b c = true
  le_iff : ∀ a b, o.le a b = true ↔ o.lt b a = false

section
variable {F : Type} (o : FloatOps F) (c : DetailConfig F) (hp : HeightPatch)

/-- `p` is the sample number `k` of `n` on the segment from `a` to `b`: the point `a + (b - a) * (k / n)` with the height found in
the height patch there. -/
def IsSample (a b : Vec3 F) (n k : Nat) (p : Vec3 F) : Prop :=
  ∃ h q, q = Vec3.add o a (Vec3.scale o (Vec3.sub o b a) (o.div (o.ofInt k) (o.ofInt n))) ∧ c.height o hp q = .ok h ∧
    p = { q with y := o.mul (o.ofInt h) c.chfCellHeight }

/-- Of the samples of the segment from `a` to `b` in `n` steps, those with the numbers `ids` are chosen such that the others are close: as
computed, their squared distance to the line between the chosen neighbours is not above the squared error.  (If comparison is an order.) -/
def SideClose (a b : Vec3 F) (n : Nat) (ids : List Nat) : Prop :=
  FloatOrder o → 0 < n → ∀ i p q m vp vq vm, ids[i]? = some p → ids[i + 1]? = some q → p < m → m < q →
    IsSample o c hp a b n p vp → IsSample o c hp a b n q vq → IsSample o c hp a b n m vm →
    ¬ (o.lt (o.lit 0) (distPtSeg3 o vm vp vq) = true ∧ o.lt (o.mul c.sampleMaxError c.sampleMaxError) (distPtSeg3 o vm vp vq) = true)

/-- The number of steps along a side from `a` to `b` when there are `nverts` vertices: the length divided by the sample distance, rounded down, and one,
at most 31, and no more than there is space for. -/
def sideSteps (a b : Vec3 F) (nverts : Nat) : Nat :=
  let n := min (1 + o.toUsize (o.floor (o.div (Vec3.distXZ o b a) c.sampleDist))) 31
  min n (126 - nverts)

/-- Of the samples of the segment from `a` to `b` in `n` steps, those with the numbers `ks` are kept: which ones depends on the samples alone. -/
def Kept (a b : Vec3 F) (n : Nat) (ks : List Nat) : Prop :=
  ∃ edge ids, edge.length = n + 1 ∧ (∀ (k : Nat) p, edge[k]? = some p → IsSample o c hp a b n k p) ∧
    simplifyEdge o c.sampleMaxError edge (2 * n + 2) 0 [0, n] = .ok ids ∧ ids.tail.dropLast = ks

/-- The vertices `l` are proper samples of the side from `a` to `b`, in this order, and close enough.  The side is sampled from `a` to `b` or from
`b` to `a`, as `swapEnds` says. -/
def OnSide (verts : List (Vec3 F)) (nverts : Nat) (a b : Vec3 F) (l : List Nat) : Prop :=
  ∃ n ks, (∀ k ∈ ks, 0 < k ∧ k < n) ∧
    ((ks.Pairwise (· < ·) ∧ List.Forall₂ (fun v k => ∃ p, verts[v]? = some p ∧ IsSample o c hp a b n k p) l ks ∧
        n = sideSteps o c a b nverts ∧ SideClose o c hp a b n (0 :: (ks ++ [n])) ∧ swapEnds o a b = false ∧ Kept o c hp a b n ks) ∨
     (ks.Pairwise (· > ·) ∧ List.Forall₂ (fun v k => ∃ p, verts[v]? = some p ∧ IsSample o c hp b a n k p) l ks ∧
        n = sideSteps o c b a nverts ∧ SideClose o c hp b a n (0 :: (ks.reverse ++ [n])) ∧ swapEnds o a b = true ∧ Kept o c hp b a n ks.reverse))

/-- The outline `hull` of a sub-mesh with `nverts` vertices on the outline: the sides of the polygon `poly` one after the other, beginning
with the one from the last corner to the first.  Each contributes its first corner and samples of the side; the
vertices which are samples are numbered from the number of corners on, in the order of the outline.  `ext` are the samples of the sides. -/
def OutlineBy (ext : List (List Nat)) (verts poly : List (Vec3 F)) (nverts : Nat) (hull : List Nat) : Prop :=
  ext.length = poly.length ∧
    hull = (ext.zipIdx).flatMap (fun li => ((li.2 + poly.length - 1) % poly.length) :: li.1) ∧
    poly.length ≤ nverts ∧ ext.flatten = List.range' poly.length (nverts - poly.length) ∧
    ∀ i l, ext[i]? = some l → ∃ a b, poly[(i + poly.length - 1) % poly.length]? = some a ∧ poly[i]? = some b ∧
      OnSide o c hp verts (poly.length + (ext.take i).flatten.length) a b l
/-- See `OutlineBy`. -/
def IsOutline (verts poly : List (Vec3 F)) (nverts : Nat) (hull : List Nat) : Prop := ∃ ext, OutlineBy o c hp ext verts poly nverts hull

/-- The lowest and the highest coordinates of the corners. -/
def lowest (poly : List (Vec3 F)) : Vec3 F :=
  poly.foldl (fun (m : Vec3 F) p => ⟨o.min m.x p.x, o.min m.y p.y, o.min m.z p.z⟩) (poly.headD (Vec3.zero o))
/-- See `lowest`. -/
def highest (poly : List (Vec3 F)) : Vec3 F :=
  poly.foldl (fun (m : Vec3 F) p => ⟨o.max m.x p.x, o.max m.y p.y, o.max m.z p.z⟩) (poly.headD (Vec3.zero o))

/-- The point of the sample grid with the numbers `g`, in the middle height of the polygon. -/
def gridPoint (poly : List (Vec3 F)) (g : Int × Int) : Vec3 F :=
  ⟨o.mul (o.ofInt g.1) c.sampleDist, o.mul (o.add (highest o poly).y (lowest o poly).y) (o.lit (1 / 2)), o.mul (o.ofInt g.2) c.sampleDist⟩

/-- The grid point `g` with height `h` belongs to the polygon: it is in the box around the polygon, its distance from the sides (negative inside) is
not above half the negative sample distance, and `h` is the height looked up there. -/
def InGrid (poly : List (Vec3 F)) (g : Int × Int) (h : Nat) : Prop :=
  (o.toI32 (o.floor (o.div (lowest o poly).x c.sampleDist)) ≤ g.1 ∧ g.1 < o.toI32 (o.ceil (o.div (highest o poly).x c.sampleDist))) ∧
  (o.toI32 (o.floor (o.div (lowest o poly).z c.sampleDist)) ≤ g.2 ∧ g.2 < o.toI32 (o.ceil (o.div (highest o poly).z c.sampleDist))) ∧
  (∃ d, distToPoly o poly (gridPoint o c poly g) = .ok d ∧ o.lt (o.div (o.neg c.sampleDist) (o.lit 2)) d = false) ∧
  c.height o hp (gridPoint o c poly g) = .ok h

/-- The vertex for sample number `i`, at the grid point `g` with height `h`: moved by up to a tenth of a cell. -/
def jittered (g : Int × Int) (h i : Nat) : Vec3 F :=
  ⟨o.add (o.mul (o.ofInt (asU16 g.1)) c.sampleDist) (o.mul (o.mul (jitter o 0x8da6b343 i) c.chfCellSize) (o.lit (1 / 10))),
    o.mul (o.ofInt h) c.chfCellHeight,
    o.add (o.mul (o.ofInt (asU16 g.2)) c.sampleDist) (o.mul (o.mul (jitter o 0xd8163841 i) c.chfCellSize) (o.lit (1 / 10)))⟩

/-- `p` is an interior sample. -/
def IsInterior (poly : List (Vec3 F)) (p : Vec3 F) : Prop := ∃ g h i, InGrid o c hp poly g h ∧ p = jittered o c g h i

/-- The grid points of the polygon, numbered, are all vertices (with numbers from `m` to `nverts`) or close to the triangles: as computed, their vertical
distance from the triangles is not above the error.  (If comparison is an order.) -/
def GridClose (poly verts : List (Vec3 F)) (m nverts : Nat) (tris : List DTri) : Prop :=
  FloatOrder o → ∃ num : Int × Int → Nat, (∀ g h g' h', InGrid o c hp poly g h → InGrid o c hp poly g' h' → num g = num g' → g = g') ∧
    ∀ g h, InGrid o c hp poly g h → (∃ v, m ≤ v ∧ v < nverts ∧ verts[v]? = some (jittered o c g h (num g))) ∨
      ∀ e, distToTriMesh o (jittered o c g h (num g)) verts tris = .ok (some e) → ¬ (o.lt (o.lit 0) e = true ∧ o.lt c.sampleMaxError e = true)

/-- The flags of a triangle: a bit at positions 0, 2 and 4 for each side that belongs to the hull. -/
def HullFlags (hull : List Nat) (t : DTri) (f : Nat) : Prop :=
  ∃ ab bc ca : Bool, (ab = true ↔ (t.1, t.2.1) ∈ sides hull) ∧ (bc = true ↔ (t.2.1, t.2.2) ∈ sides hull) ∧
    (ca = true ↔ (t.2.2, t.1) ∈ sides hull) ∧ f = ab.toNat + 4 * bc.toNat + 16 * ca.toNat

/-- `d` is a proper sub-mesh for the polygon with corners `poly`. -/
structure IsSubMesh (poly : List (Vec3 F)) (d : Detail F) : Prop where
  /-- the vertex buffer keeps its size, and begins with the corners of the polygon -/
  buffer : d.verts.length = 256
  corners : d.verts.take poly.length = poly
  max_verts : d.nverts ≤ 127
  max_tris : d.tris.length ≤ 255
  /-- every triangle has three different vertices of the sub-mesh -/
  tris : ∀ t ∈ d.tris, (∀ v ∈ Tri.corners t, v < d.nverts) ∧ (Tri.corners t).Nodup
  /-- the vertices are the corners, samples of the sides, and interior samples; the flags tell which triangle sides belong to the
  outline; without interior samples the triangles triangulate the outline, otherwise they turn the right way; unless the polygon is narrow or the
limits are reached, the interior samples suffice; narrow polygons have none -/
  outline : ∃ hull m, IsOutline o c hp d.verts poly m hull ∧ m ≤ d.nverts ∧
    (∀ (v : Nat), m ≤ v → v < d.nverts → ∃ p, d.verts[v]? = some p ∧ IsInterior o c hp poly p) ∧
    List.Forall₂ (HullFlags hull) d.tris d.flags ∧
    (d.nverts = m → Triangulates d.tris hull) ∧ (m < d.nverts → ∀ t ∈ d.tris, Turns o d.verts t) ∧
    ((∃ ext, polyMinExtent o poly poly.length = .ok ext ∧ o.lt ext (o.mul (o.mul c.sampleDist (o.lit 2)) (o.mul c.sampleDist (o.lit 2))) = true) ∨
      (d.nverts < 127 → d.tris.length < 255 → GridClose o c hp poly d.verts m d.nverts d.tris)) ∧
    (∀ ext, polyMinExtent o poly poly.length = .ok ext → o.lt ext (o.mul (o.mul c.sampleDist (o.lit 2)) (o.mul c.sampleDist (o.lit 2))) = true → d.nverts = m)

/-- The box from `lo` to `hi` (exclusive) around the numbers `l`, one cell larger on each side, but not beyond `0` and `size`. -/
def IsRange (l : List Nat) (size lo hi : Nat) : Prop :=
  (∀ v ∈ l, lo ≤ v - 1 ∧ min size (v + 1) ≤ hi) ∧ (∃ v ∈ l, lo = v - 1) ∧ ∃ v ∈ l, hi = min size (v + 1)

/-- `hp` is a height patch for the polygon with corners `vs` of region `region`: it extends over the box around the polygon, and its
heights start from the spans of the region, if there are some in the box, and from a single span otherwise. -/
def IsPatch (chf : CompactHeightfield) (bs region : Nat) (vs : List U16Vec3) (hp : HeightPatch) : Prop :=
  IsRange (vs.map (·.x)) chf.width hp.xmin (hp.xmin + hp.width) ∧ IsRange (vs.map (·.z)) chf.height hp.zmin (hp.zmin + hp.height) ∧
  ((region ≠ REGION_NONE ∧ (∃ i, hp.IsRoot chf bs region i) ∧ ∃ C, hp.Covers chf bs (hp.IsRoot chf bs region) C) ∨
   ((region = REGION_NONE ∨ ∀ i, ¬ hp.IsRoot chf bs region i) ∧ ∃ i C, hp.Covers chf bs (· = i) C))

/-- The vertices, triangles and flags listed for the sub-mesh `m`. -/
def DetailNavmesh.part (dm : DetailNavmesh F) (m : SubMesh) : List (Vec3 F) × List DTri × List Nat :=
  ((dm.vertices.drop m.baseVertex).take m.vertexCount, (dm.triangles.drop m.baseTriangle).take m.triangleCount,
    (dm.flags.drop m.baseTriangle).take m.triangleCount)

/-- The position of a polygon corner relative to the origin of the mesh. -/
def cornerPos (v : U16Vec3) : Vec3 F := ⟨o.mul (o.ofInt v.x) c.cellSize, o.mul (o.ofInt v.y) c.cellHeight, o.mul (o.ofInt v.z) c.cellSize⟩
/-- The position in the world: moved by the origin, and up by one cell height. -/
def worldPos (p : Vec3 F) : Vec3 F :=
  ⟨o.add p.x c.origin.x, o.add (o.add p.y c.origin.y) c.chfCellHeight, o.add p.z c.origin.z⟩

/-- A detail mesh: one sub-mesh for each polygon, which together use up all vertices, triangles and flags in order, and each of which is a
proper sub-mesh for its polygon moved to world space. -/
structure IsDetailMesh (mesh : PolygonNavmesh) (chf : CompactHeightfield) (dm : DetailNavmesh F) : Prop where
  count : dm.meshes.length = mesh.polygonCount
  bases : ∀ i m, dm.meshes[i]? = some m → m.baseVertex = ((dm.meshes.take i).map SubMesh.vertexCount).sum ∧
    m.baseTriangle = ((dm.meshes.take i).map SubMesh.triangleCount).sum
  vertices : dm.vertices.length = (dm.meshes.map SubMesh.vertexCount).sum
  triangles : dm.triangles.length = (dm.meshes.map SubMesh.triangleCount).sum
  flags : dm.flags.length = dm.triangles.length
  parts : ∀ i m, dm.meshes[i]? = some m → ∃ vs region hp d, List.Forall₂ (fun k v => mesh.vertices[k]? = some v) (mesh.polygon i) vs ∧
    mesh.regions[i]? = some region ∧ IsPatch chf c.borderSize region vs hp ∧ IsSubMesh o c hp (vs.map (cornerPos o c)) d ∧
    dm.part m = ((d.verts.take d.nverts).map (worldPos o c), d.tris, d.flags) ∧ m.vertexCount = d.nverts ∧ m.triangleCount = d.tris.length

end

/-- What a detail mesh needs of its polygon mesh: polygons with 3 to 126 corners, all in the list of vertices, with coordinates in the field
without its border and below 65535, and a region for every polygon; and few enough polygons for the `u32` numbers of vertices. -/
structure DetailInput (mesh : PolygonNavmesh) (chf : CompactHeightfield) (bs : Nat) : Prop where
  few : mesh.polygonCount * 255 < 4294967296
  corners : ∀ i < mesh.polygonCount, 3 ≤ (mesh.polygon i).length ∧ (mesh.polygon i).length ≤ 126
  inside : ∀ i < mesh.polygonCount, ∀ k ∈ mesh.polygon i, ∃ v, mesh.vertices[k]? = some v ∧ v.x + 2 * bs ≤ chf.width ∧ v.z + 2 * bs ≤ chf.height ∧
    v.x < 65535 ∧ v.z < 65535
  regions : mesh.polygonCount ≤ mesh.regions.length

/-- Vectors never get more capacity than asked for. -/
def ExactAllocator (alloc : Allocator) : Prop := ∀ capacity len more, alloc capacity len more = max capacity (len + more)

/-- The region of polygon `i` occurs in the box around the polygon. -/
def RegionPresent (mesh : PolygonNavmesh) (chf : CompactHeightfield) (bs i : Nat) : Prop :=
  ∀ region hp vs, mesh.regions[i]? = some region → List.Forall₂ (fun k v => mesh.vertices[k]? = some v) (mesh.polygon i) vs →
    IsRange (vs.map (·.x)) chf.width hp.xmin (hp.xmin + hp.width) → IsRange (vs.map (·.z)) chf.height hp.zmin (hp.zmin + hp.height) →
    region ≠ REGION_NONE ∧ ∃ i, HeightPatch.IsRoot chf hp bs region i

end Rerecast
