import Verif.Spec.Rasterize
import Verif.Spec.Chamfer
import Verif.Spec.TriMesh
import Verif.Spec.Outline
import Verif.Spec.Config
import Verif.Model.Pipeline
import Mathlib.Logic.Relation
/-! Specification vocabulary for whole builds: the triangles of a scene, and where in it an agent can stand and walk. -/
namespace Rerecast

/-- A triangle, by its corners. -/
abbrev Triangle := V3 ℚ × V3 ℚ × V3 ℚ

/-- The affector has a loaded mesh that can be read: a triangle list with positions and with three indices per triangle. -/
def Affector.Readable (a : Affector) (vertices : List (V3 ℚ)) (indices : List Nat) : Prop :=
  ∃ mesh, a.mesh = some mesh ∧ mesh.triangleList = true ∧ mesh.positions = some vertices ∧ mesh.indices = some indices ∧
    indices.length % 3 = 0

/-- `t` is a triangle of the scene, in world coordinates: three consecutive indices, from a multiple of 3 on, of a readable mesh,
moved by its transform. -/
def SceneTriangle (scene : List Affector) (t : Triangle) : Prop :=
  ∃ a ∈ scene, ∃ vertices indices, a.Readable vertices indices ∧ ∃ (n i j k : Nat) (p q r : V3 ℚ),
    indices[3 * n]? = some i ∧ indices[3 * n + 1]? = some j ∧ indices[3 * n + 2]? = some k ∧
    vertices[i]? = some p ∧ vertices[j]? = some q ∧ vertices[k]? = some r ∧ t = (a.transform p, a.transform q, a.transform r)

/-- `v` is a vertex of the scene, in world coordinates. -/
def SceneVertex (scene : List Affector) (v : V3 ℚ) : Prop :=
  ∃ a ∈ scene, ∃ vertices indices, a.Readable vertices indices ∧ ∃ p ∈ vertices, v = a.transform p

/-- The number of vertices of an affector. -/
def Affector.vertexCount (a : Affector) : Nat :=
  match a.mesh with
  | some mesh => (mesh.positions.getD []).length
  | none => 0

/-- A proper scene: the indices of every readable mesh refer to its own vertices, all coordinates are in the range of floats, and the
vertices can be numbered with 32 bits. -/
structure GoodScene (lo hi : ℚ) (scene : List Affector) : Prop where
  indices : ∀ a ∈ scene, ∀ vertices indices, a.Readable vertices indices → ∀ i ∈ indices, i < vertices.length
  finite : ∀ v, SceneVertex scene v → lo ≤ v.x ∧ v.x ≤ hi ∧ lo ≤ v.y ∧ v.y ≤ hi ∧ lo ≤ v.z ∧ v.z ≤ hi
  count : (scene.map Affector.vertexCount).sum ≤ 4294967295

/-- A place on the grid: a cell and the height of the floor, in voxels. -/
structure Spot where
  x : Nat
  z : Nat
  y : Nat

/-- A scene on a grid, and an agent: the triangles, the test for acceptable slopes, the size of the grid in cells and of the border around
it, and the height and climb of the agent in voxels and its radius in cells. -/
structure World where
  fr : Frame
  triangle : Triangle → Prop
  slope : V3 ℚ → V3 ℚ → V3 ℚ → Bool
  width : Nat
  depth : Nat
  border : Nat
  agentHeight : Nat
  agentClimb : Nat
  agentRadius : Nat

namespace World

/-- Nothing of the scene is inside the cell `(x, z)` strictly between the floor `y` and the agent's height above it. -/
def Free (w : World) (x z y : Nat) : Prop :=
  ∀ t q, w.triangle t → InTriangle t q → InOpenCell w.fr x z q →
    ¬ (y * w.fr.cellHeight < q.y - w.fr.aabb.min.y ∧ q.y - w.fr.aabb.min.y < ((y + w.agentHeight : Nat) : ℚ) * w.fr.cellHeight)

/-- No side of the spot is an open drop: the four neighbouring cells are in the grid, and in each of them something of the scene reaches up
to at most the agent's climb below the floor `y`, and begins less than the agent's height above it. -/
structure NoDrop (w : World) (x z y : Nat) : Prop where
  inside : 1 ≤ x ∧ x + 1 < w.width ∧ 1 ≤ z ∧ z + 1 < w.depth
  side : ∀ nx nz : Nat, (z = nz ∧ (x = nx + 1 ∨ nx = x + 1)) ∨ (x = nx ∧ (z = nz + 1 ∨ nz = z + 1)) →
    ∃ v, y ≤ v + 1 + w.agentClimb ∧ v < y + w.agentHeight ∧
      ∃ t q, w.triangle t ∧ InTriangle t q ∧ InCell w.fr nx nz q ∧ InVoxel w.fr v q.y

/-- The agent can stand at the spot: some triangle of the scene is in the topmost voxel of the floor; there is ground with an acceptable
slope at or below the floor; there is room above the floor; and no side is an open drop. -/
structure Standing (w : World) (p : Spot) : Prop where
  ground : 1 ≤ p.y ∧ ∃ t q, w.triangle t ∧ InTriangle t q ∧ InCell w.fr p.x p.z q ∧ InVoxel w.fr (p.y - 1) q.y
  slope : ∃ t q, w.triangle t ∧ w.slope t.1 t.2.1 t.2.2 = true ∧ InTriangle t q ∧ InCell w.fr p.x p.z q ∧
    q.y - w.fr.aabb.min.y ≤ p.y * w.fr.cellHeight
  room : w.Free p.x p.z p.y
  edge : w.NoDrop p.x p.z p.y

/-- One step of the agent: to a neighbouring cell, up or down by at most its climb; it can stand at both ends, and over the higher of the
two floors there is room in both cells. -/
structure Step (w : World) (a b : Spot) : Prop where
  adjacent : (a.z = b.z ∧ (a.x = b.x + 1 ∨ b.x = a.x + 1)) ∨ (a.x = b.x ∧ (a.z = b.z + 1 ∨ b.z = a.z + 1))
  climb : a.y ≤ b.y + w.agentClimb ∧ b.y ≤ a.y + w.agentClimb
  before : w.Standing a
  after : w.Standing b
  room : w.Free a.x a.z (max a.y b.y) ∧ w.Free b.x b.z (max a.y b.y)

/-- The agent can walk from `a` to `b`. -/
def CanWalk (w : World) : Spot → Spot → Prop := Relation.ReflTransGen w.Step

/-- A spot the navmesh may use: the agent can stand there; it is not in the border of the grid; and every cell around it, up to the
agent's radius, can be walked to. -/
structure Safe (w : World) (p : Spot) : Prop where
  standing : w.Standing p
  inside : w.border ≤ p.x ∧ p.x + w.border < w.width ∧ w.border ≤ p.z ∧ p.z + w.border < w.depth
  clear : ∀ dx dz : Int, octile dx dz ≤ 2 * w.agentRadius →
    ∃ q : Spot, (q.x : Int) = p.x + dx ∧ (q.z : Int) = p.z + dz ∧ w.CanWalk p q

/-- The agent can stand at the spot, and every cell around it, up to the agent's radius, can be walked to. -/
structure Roomy (w : World) (p : Spot) : Prop where
  standing : w.Standing p
  clear : ∀ dx dz : Int, octile dx dz ≤ 2 * w.agentRadius →
    ∃ q : Spot, (q.x : Int) = p.x + dx ∧ (q.z : Int) = p.z + dz ∧ w.CanWalk p q

/-- The agent can walk from `a` to `b` over roomy spots only. -/
def RoomyWalk (w : World) : Spot → Spot → Prop := Relation.ReflTransGen fun a b => w.Step a b ∧ w.Roomy a ∧ w.Roomy b

/-- The cell is in the border of the grid. -/
def InMargin (w : World) (p : Spot) : Prop := p.x < w.border ∨ w.width ≤ p.x + w.border ∨ p.z < w.border ∨ w.depth ≤ p.z + w.border

/-- The agent can walk from `a` to `b` over safe spots only. -/
def SafeWalk (w : World) : Spot → Spot → Prop := Relation.ReflTransGen fun a b => w.Step a b ∧ w.Safe a ∧ w.Safe b

/-- The world of a build: the scene, on a grid of `w` times `h` cells, with the agent of the configuration. -/
def ofBuild {F : Type} (env : BuildEnv F) (cfg : Config) (scene : List Affector) (fr : Frame) (w h : Nat) : World where
  fr := fr
  triangle := SceneTriangle scene
  slope := env.up cfg.walkableSlopeAngle
  width := w
  depth := h
  border := cfg.borderSize
  agentHeight := cfg.walkableHeight
  agentClimb := cfg.walkableClimb
  agentRadius := cfg.walkableRadius

/-- The vertex `v` of the mesh, counted without the border, marks the spot `p`: it is at a corner of its cell, and at the height of a floor
that can be walked to from `p`, meets the same corner, and is not lower than `p`. -/
structure Marks (w : World) (p : Spot) (v : U16Vec3) : Prop where
  corner : ∃ d < 4, cornerOf p.x p.z d = (v.x + w.border, v.z + w.border)
  notBelow : p.y ≤ v.y
  floor : ∃ q : Spot, w.CanWalk p q ∧ q.y = v.y ∧ ∃ d < 4, cornerOf q.x q.z d = (v.x + w.border, v.z + w.border)

/-- The world as the user describes it: the scene, cells of the given size over the bounding box of the scene, an agent at least as tall
and as wide and at most as climbing as asked for, and a border of three cells more than its radius. -/
structure Models {F : Type} (w : World) (env : BuildEnv F) (b : ConfigBuilder) (scene : List Affector) : Prop where
  triangle : w.triangle = SceneTriangle scene
  slope : w.slope = env.up b.agentMaxSlope
  cellSize : w.fr.cellSize = b.cellSize
  cellHeight : w.fr.cellHeight = b.cellHeight
  contains : ∀ v, SceneVertex scene v → w.fr.aabb.Contains v
  tight : (∃ v, SceneVertex scene v ∧ v.x = w.fr.aabb.min.x) ∧ (∃ v, SceneVertex scene v ∧ v.x = w.fr.aabb.max.x) ∧
    (∃ v, SceneVertex scene v ∧ v.y = w.fr.aabb.min.y) ∧ (∃ v, SceneVertex scene v ∧ v.y = w.fr.aabb.max.y) ∧
    (∃ v, SceneVertex scene v ∧ v.z = w.fr.aabb.min.z) ∧ (∃ v, SceneVertex scene v ∧ v.z = w.fr.aabb.max.z)
  width : CoversSide w.width b.cellSize w.fr.aabb.min.x w.fr.aabb.max.x
  depth : CoversSide w.depth b.cellSize w.fr.aabb.min.z w.fr.aabb.max.z
  tall : b.agentHeight ≤ 65535 * b.cellHeight → b.agentHeight ≤ w.agentHeight * b.cellHeight
  climb : (w.agentClimb : ℚ) * b.cellHeight ≤ b.agentMaxClimb
  wide : b.agentRadius ≤ w.agentRadius * b.cellSize
  border : w.border = w.agentRadius + 3

end World

/-- The arithmetic of the detail mesh is exact (square roots and the rest may be anything). -/
structure ExactArithmetic (o : FloatOps ℚ) : Prop where
  lit : ∀ q, o.lit q = q
  add : ∀ a b, o.add a b = a + b
  sub : ∀ a b, o.sub a b = a - b
  mul : ∀ a b, o.mul a b = a * b
  div : ∀ a b, o.div a b = a / b
  ofInt : ∀ n : Int, o.ofInt n = n
  min : ∀ a b, o.min a b = Min.min a b
  max : ∀ a b, o.max a b = Max.max a b
  floor : ∀ q, o.floor q = (⌊q⌋ : Int)
  ceil : ∀ q, o.ceil q = (⌈q⌉ : Int)
  toI32 : ∀ n : Int, -2147483648 ≤ n → n ≤ 2147483647 → o.toI32 (n : ℚ) = n
  toU32 : ∀ n : Nat, n ≤ 4294967295 → o.toU32 (n : ℚ) = n

namespace World

/-- Where a vertex of the mesh is in the world: it is counted without the border, and drawn one voxel above the floor. -/
def position (w : World) (v : U16Vec3) : Vec3 ℚ :=
  ⟨w.fr.aabb.min.x + (v.x + w.border : Nat) * w.fr.cellSize, w.fr.aabb.min.y + (v.y + 1 : Nat) * w.fr.cellHeight,
    w.fr.aabb.min.z + (v.z + w.border : Nat) * w.fr.cellSize⟩

/-- The cell `(x, z)` is in the box around the polygon with corners `vs`, or next to it. -/
def NearPolygon (w : World) (vs : List U16Vec3) (x z : Nat) : Prop :=
  ((∃ v ∈ vs, v.x + w.border ≤ x + 1) ∧ ∃ v ∈ vs, x ≤ v.x + w.border) ∧
  ((∃ v ∈ vs, v.z + w.border ≤ z + 1) ∧ ∃ v ∈ vs, z ≤ v.z + w.border)

/-- Along one axis: the cell that begins at `a` is at most `R` cells of size `cs` away from the cell of the point `x`, or, if the point is beyond the corners
at `l`, from the cells at the last of them.  (The point may count as in the next cell if it is less than a hundredth of a cell before it.) -/
def WithinAxis (R : Nat) (cs : ℚ) (l : List ℚ) (x a : ℚ) : Prop := ∀ v ∈ l, min x v ≤ a + (R + 1) * cs ∧ a ≤ max x v + (R + 1 / 100) * cs

/-- Seen from above, the spot `q` is within `R` cells of the point `(x, z)`, or, if the point is outside, of the box around the corners `vs`. -/
def WithinCells (w : World) (R : Nat) (vs : List U16Vec3) (x z : ℚ) (q : Spot) : Prop :=
  WithinAxis R w.fr.cellSize (vs.map fun v => (w.position v).x) x (w.fr.aabb.min.x + q.x * w.fr.cellSize) ∧
  WithinAxis R w.fr.cellSize (vs.map fun v => (w.position v).z) z (w.fr.aabb.min.z + q.z * w.fr.cellSize)

/-- The height `y` is that of a floor near the polygon with corners `vs` and within `R` cells of the point `(x, z)`, to which the agent can walk from a safe place
near the polygon (drawn one voxel above it); or no height was found, and it is that of voxel 65535. -/
def FloorHeight (w : World) (R : Nat) (vs : List U16Vec3) (x z y : ℚ) : Prop :=
  ∃ h : Nat, y = w.fr.aabb.min.y + (h + 1 : Nat) * w.fr.cellHeight ∧
    (h = 65535 ∨ ∃ p q : Spot, w.Safe p ∧ w.CanWalk p q ∧ q.y = h ∧ w.NearPolygon vs p.x p.z ∧ w.NearPolygon vs q.x q.z ∧ w.WithinCells R vs x z q)

/-- Seen from above, `p` is on a side of the polygon with corners `vs`, between its ends. -/
def OverSide (w : World) (vs : List U16Vec3) (p : Vec3 ℚ) : Prop :=
  ∃ j a b, vs[j]? = some a ∧ vs[(j + 1) % vs.length]? = some b ∧ ∃ l : ℚ, 0 < l ∧ l < 1 ∧
    p.x = (w.position a).x + l * ((w.position b).x - (w.position a).x) ∧ p.z = (w.position a).z + l * ((w.position b).z - (w.position a).z)

/-- Seen from above, `(x, z)` is a point of the grid of samples with distance `dist`, in the box around the polygon with corners `vs`, enlarged by one
sample distance. -/
def OnGrid (w : World) (dist : ℚ) (vs : List U16Vec3) (x z : ℚ) : Prop :=
  ∃ gx gz : Nat, x = w.fr.aabb.min.x + w.border * w.fr.cellSize + gx * dist ∧ z = w.fr.aabb.min.z + w.border * w.fr.cellSize + gz * dist ∧
    ((∃ v ∈ vs, v.x * w.fr.cellSize < gx * dist + dist) ∧ ∃ v ∈ vs, gx * dist < v.x * w.fr.cellSize) ∧
    ((∃ v ∈ vs, v.z * w.fr.cellSize < gz * dist + dist) ∧ ∃ v ∈ vs, gz * dist < v.z * w.fr.cellSize)

/-- The vertices `l` of a sub-mesh, in the world, for the polygon with corners `vs`: first the corners, then others on the sides or at most a tenth of a cell
from the grid of samples, at the heights of floors within `R` cells. -/
def SubMeshAt (w : World) (R : Nat) (dist : ℚ) (vs : List U16Vec3) (l : List (Vec3 ℚ)) : Prop :=
  l.take vs.length = vs.map w.position ∧
  ∀ p ∈ l.drop vs.length, (w.OverSide vs p ∧ w.FloorHeight R vs p.x p.z p.y) ∨
    ∃ x z, w.OnGrid dist vs x z ∧ |p.x - x| ≤ w.fr.cellSize / 10 ∧ |p.z - z| ≤ w.fr.cellSize / 10 ∧ w.FloorHeight R vs x z p.y

end World

/-- The scene is less than 32767 cells wide and deep and less than 65535 voxels tall. -/
def SceneFits (b : ConfigBuilder) (scene : List Affector) : Prop :=
  ∀ u v, SceneVertex scene u → SceneVertex scene v →
    v.x - u.x < 32767 * b.cellSize ∧ v.z - u.z < 32767 * b.cellSize ∧ v.y - u.y < 65535 * b.cellHeight

/-- What the marked mesh and the frame are. -/
structure InputOf {F : Type} (env : BuildEnv F) (cfg : Config) (scene : List Affector) (m : TriMesh ℚ) (fr : Frame) : Prop where
  wf : m.WF
  triangles : ∀ t, (∃ k, m.corners k = some t) ↔ SceneTriangle scene t
  vertices : ∀ v, v ∈ m.vertices ↔ SceneVertex scene v
  areas : ∀ k t, m.corners k = some t → m.areaTypes[k]? = some (if env.up cfg.walkableSlopeAngle t.1 t.2.1 t.2.2 then 255 else 0)
  cellSize : fr.cellSize = cfg.cellSize
  cellHeight : fr.cellHeight = cfg.cellHeight
  contains : ∀ v, SceneVertex scene v → fr.aabb.Contains v
  tight : (∃ v, SceneVertex scene v ∧ v.x = fr.aabb.min.x) ∧ (∃ v, SceneVertex scene v ∧ v.x = fr.aabb.max.x) ∧
    (∃ v, SceneVertex scene v ∧ v.y = fr.aabb.min.y) ∧ (∃ v, SceneVertex scene v ∧ v.y = fr.aabb.max.y) ∧
    (∃ v, SceneVertex scene v ∧ v.z = fr.aabb.min.z) ∧ (∃ v, SceneVertex scene v ∧ v.z = fr.aabb.max.z)

/-- What the theorems about whole builds ask for: settings within the documented limits, a proper scene that fits the grid, an agent of at most
127 cells radius, and fewer than 2^32 spans. -/
structure GoodBuild {F : Type} (env : BuildEnv F) (b : ConfigBuilder) (scene : List Affector) : Prop where
  settings : b.Sensible
  proper : GoodScene env.lo env.hi scene
  fits : SceneFits b scene
  radius : b.agentRadius ≤ 127 * b.cellSize
  spans : ∀ cfg m fr hf, b.build = .ok cfg → buildInput env cfg scene = .ok (m, fr) → buildSolid cfg m fr = .ok hf → hf.spanCount < 2 ^ 32

/-- The results of the stages of a build up to the regions. -/
structure Stages {F : Type} (env : BuildEnv F) (b : ConfigBuilder) (scene : List Affector) (cfg : Config) (m : TriMesh ℚ) (fr : Frame)
    (hf : Heightfield) (chf : CompactHeightfield) : Prop where
  config : b.build = .ok cfg
  input : buildInput env cfg scene = .ok (m, fr)
  solid : buildSolid cfg m fr = .ok hf
  compact : buildCompact cfg hf = .ok chf

/-- Fewer than 32768 regions are tried (more do not fit the region ids, see C37). -/
def FewRegions (cfg : Config) (hf : Heightfield) : Prop :=
  ∀ c0 c1 c2 reg next, hf.intoCompact cfg.walkableHeight cfg.walkableClimb = .ok c0 → c0.erodeWalkableArea cfg.walkableRadius = .ok c1 →
    c1.buildDistanceField = .ok c2 → c2.labelRegions cfg.borderSize = .ok (reg, next) → next ≤ 32768

/-- The results of the stages of a build up to the polygon mesh. -/
structure MeshStages {F : Type} (env : BuildEnv F) (b : ConfigBuilder) (flags : ContourFlags) (scene : List Affector) (cfg : Config) (m : TriMesh ℚ)
    (fr : Frame) (hf : Heightfield) (chf : CompactHeightfield) (set : ContourSet) (poly : PolygonNavmesh) : Prop
    extends Stages env b scene cfg m fr hf chf where
  contours : chf.buildContours (env.tests cfg.maxSimplificationError) cfg.maxEdgeLen flags = .ok set
  mesh : set.intoPolygonMesh env.fuel cfg.maxVerticesPerPolygon = .ok poly

end Rerecast
