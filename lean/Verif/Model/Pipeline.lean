import Verif.Model.Config
import Verif.Model.Rasterize
import Verif.Model.PreFilter
import Verif.Model.Chamfer
import Verif.Model.Regions
import Verif.Model.Contour
import Verif.Model.IntoPolyMesh
import Verif.Model.DetailMesh
/-!
Model of the whole way from the scene to the navmesh: `TriMesh::from_mesh` in `bevy_rerecast_core/src/mesh.rs`,
`HeightfieldBuilder::build` in `heightfield.rs` and `build_navmesh` in `bevy_rerecast_editor/src/build.rs`.

As in the models of the single stages, `f32` values are exact rationals up to the contours; the detail mesh uses an arbitrary float type
`F` and a conversion to it.
-/
namespace Rerecast

/-- The parts of a Bevy `Mesh` that `from_mesh` reads: is it a triangle list; the position attribute, if it is there and of type
`Float32x3`; the indices (16 or 32 bits), if there are any. -/
structure BevyMesh (K : Type) where
  triangleList : Bool
  positions : Option (List (V3 K))
  indices : Option (List Nat)

/-- mesh.rs:60-65 `chunks(3)`, for a length that is a multiple of 3. -/
def chunks3 : List Nat → List (Nat × Nat × Nat)
  | a :: b :: c :: l => (a, b, c) :: chunks3 l
  | _ => []

/-- mesh.rs:46-70 `from_mesh` -/
def TriMesh.fromMesh {K : Type} (mesh : BevyMesh K) : Option (TriMesh K) :=
  if mesh.triangleList = false then none
  else
    match mesh.positions, mesh.indices with
    | some vertices, some indices =>
      if indices.length % 3 ≠ 0 then none
      else some ⟨vertices, chunks3 indices, List.replicate (chunks3 indices).length NOT_WALKABLE⟩
    | _, _ => none

/-- An entity with `Mesh3d`, `GlobalTransform` and `NavmeshAffector`: the mesh, if the asset is loaded, and its transform. -/
structure Affector where
  mesh : Option (BevyMesh ℚ)
  transform : V3 ℚ → V3 ℚ

/-- build.rs:33-46: one affector. -/
def addAffector (trimesh : TriMesh ℚ) (a : Affector) : Res (TriMesh ℚ) :=
  match a.mesh.bind TriMesh.fromMesh with
  | none => .ok trimesh
  | some current => trimesh.extend { current with vertices := current.vertices.map a.transform }

/-- build.rs:31-46: the triangles of all affectors. -/
def collectAffectors (affectors : List Affector) : Res (TriMesh ℚ) := affectors.foldlM addAffector TriMesh.empty

/-- `x as u128` for an `f32`: truncation, saturating at both ends. -/
def satU128 (q : ℚ) : Nat := min ⌊q⌋.toNat (2 ^ 128 - 1)

/-- heightfield.rs:259-277 `HeightfieldBuilder::build`; `Frame` has the fields of the builder.  Running out of memory is not modelled. -/
def Frame.buildHeightfield (fr : Frame) : Res Heightfield :=
  let width := (fr.aabb.max.x - fr.aabb.min.x) / fr.cellSize + 1 / 2
  let height := (fr.aabb.max.z - fr.aabb.min.z) / fr.cellSize + 1 / 2
  let columns := satU128 width * satU128 height
  if columns ≥ 2 ^ 128 then .error .panic
  else if columns ≥ 2 ^ 64 then .error .err
  else .ok { width := satU16 width, height := satU16 height, spans := List.replicate columns none, allocated := [] }

/-- What the build depends on besides the scene and the configuration: the range of `f32` (`lo`, `hi`), the slope test with a given angle, the
distance tests with a given error, the floats of the detail mesh, the growth of vectors, and the steps granted to the loop that may not
end (see `intoPolygonMesh`). -/
structure BuildEnv (F : Type) where
  lo : ℚ
  hi : ℚ
  up : ℚ → V3 ℚ → V3 ℚ → V3 ℚ → Bool
  tests : ℚ → Tests
  ops : FloatOps F
  toF : ℚ → F
  alloc : Allocator
  fuel : Nat

section
variable {F : Type} (env : BuildEnv F)

/-- build.rs:48-58: the marked triangles and the frame of the heightfield. -/
def buildInput (cfg : Config) (affectors : List Affector) : Res (TriMesh ℚ × Frame) := do
  let trimesh ← collectAffectors affectors
  match trimesh.computeAabb env.lo env.hi with
  | none => .error .err
  | some aabb =>
    let trimesh ← trimesh.markWalkableTriangles (env.up cfg.walkableSlopeAngle)
    .ok (trimesh, ⟨aabb, cfg.cellSize, cfg.cellHeight⟩)

/-- build.rs:52-67: the rasterized and filtered heightfield. -/
def buildSolid (cfg : Config) (trimesh : TriMesh ℚ) (fr : Frame) : Res Heightfield := do
  let hf ← fr.buildHeightfield
  let hf ← rasterizeTriangles fr hf trimesh cfg.walkableClimb
  let hf ← hf.filterLowHangingWalkableObstacles cfg.walkableClimb
  let hf ← hf.filterLedgeSpans cfg.walkableHeight cfg.walkableClimb
  hf.filterWalkableLowHeightSpans cfg.walkableHeight

/-- build.rs:69-94: the compact heightfield with its regions. -/
def buildCompact (cfg : Config) (hf : Heightfield) : Res CompactHeightfield := do
  let chf ← hf.intoCompact cfg.walkableHeight cfg.walkableClimb
  let chf ← chf.erodeWalkableArea cfg.walkableRadius
  let chf ← chf.buildDistanceField
  chf.buildRegions cfg.borderSize cfg.minRegionArea cfg.mergeRegionArea

/-- contours.rs:32-39 and poly_mesh.rs:188: the settings with which `DetailNavmesh::new` is called in build.rs:104-109; the origin of the mesh is
moved by the border. -/
def detailConfig (cfg : Config) (fr : Frame) (borderSize : Nat) : DetailConfig F :=
  let pad := if borderSize > 0 then (borderSize : ℚ) * fr.cellSize else 0
  { cellSize := env.toF fr.cellSize, cellHeight := env.toF fr.cellHeight
    origin := ⟨env.toF (fr.aabb.min.x + pad), env.toF fr.aabb.min.y, env.toF (fr.aabb.min.z + pad)⟩
    maxEdgeError := env.toF cfg.maxSimplificationError
    chfCellSize := env.toF fr.cellSize, chfCellHeight := env.toF fr.cellHeight
    sampleDist := env.toF cfg.detailSampleDist, sampleMaxError := env.toF cfg.detailSampleMaxError
    borderSize }

/-- build.rs:96-116: contours, polygon mesh and detail mesh. -/
def buildMeshes (cfg : Config) (flags : ContourFlags) (fr : Frame) (chf : CompactHeightfield) : Res (PolygonNavmesh × DetailNavmesh F) := do
  let contours ← chf.buildContours (env.tests cfg.maxSimplificationError) cfg.maxEdgeLen flags
  let polyMesh ← contours.intoPolygonMesh env.fuel cfg.maxVerticesPerPolygon
  let detailMesh ← detailNavmesh env.ops env.alloc (detailConfig env cfg fr contours.borderSize) polyMesh chf
  .ok (polyMesh, detailMesh)

/-- build.rs:24-117 `build_navmesh`; `config.contour_flags` is given separately.  The navmesh is returned instead of being stored as a
resource. -/
def buildNavmesh (builder : ConfigBuilder) (flags : ContourFlags) (affectors : List Affector) : Res (PolygonNavmesh × DetailNavmesh F) := do
  let cfg ← builder.build
  let (trimesh, fr) ← buildInput env cfg affectors
  let hf ← buildSolid cfg trimesh fr
  let chf ← buildCompact cfg hf
  buildMeshes env cfg flags fr chf

end

end Rerecast
