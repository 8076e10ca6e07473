import Verif.Model.TriMesh
import Mathlib.Algebra.Order.Floor.Defs
import Mathlib.Data.Rat.Floor
/-!
Model of `config.rs`: the conversion of metric settings to voxel units.  `f32` values are exact rationals (rounding and
non-finite values are not modelled; the cell sizes are positive wherever they are divided by).
-/
namespace Rerecast

/-- `x as u16` for an `f32`: truncation, saturating at both ends. -/
def satU16 (q : ℚ) : Nat := min ⌊q⌋.toNat 65535

/-- config.rs:200-251 `NavmeshConfigBuilder`; `contour_flags` is passed through and left out. -/
structure ConfigBuilder where
  cellSize : ℚ
  cellHeight : ℚ
  agentHeight : ℚ
  agentRadius : ℚ
  agentMaxClimb : ℚ
  agentMaxSlope : ℚ
  regionMinSize : ℚ
  regionMergeSize : ℚ
  edgeMaxLen : ℚ
  edgeMaxError : ℚ
  vertsPerPoly : ℚ
  detailSampleDist : ℚ
  detailSampleMaxError : ℚ
  tileSize : Nat
  aabb : Aabb3 ℚ
  tiling : Bool
  deriving DecidableEq, Repr

/-- config.rs:23-194 `NavmeshConfig`; `contour_flags` is left out. -/
structure Config where
  width : Nat
  height : Nat
  tileSize : Nat
  borderSize : Nat
  cellSize : ℚ
  cellHeight : ℚ
  aabb : Aabb3 ℚ
  walkableSlopeAngle : ℚ
  walkableHeight : Nat
  walkableClimb : Nat
  walkableRadius : Nat
  maxEdgeLen : Nat
  maxSimplificationError : ℚ
  minRegionArea : Nat
  mergeRegionArea : Nat
  maxVerticesPerPolygon : Nat
  detailSampleDist : ℚ
  detailSampleMaxError : ℚ
  deriving DecidableEq, Repr

namespace ConfigBuilder

/-- config.rs:253-275 `default`; the slope is a parameter (`45.0_f32.to_radians()`). -/
def default (slope : ℚ) : ConfigBuilder :=
  { cellSize := 3 / 10, cellHeight := 2 / 10, agentHeight := 2, agentRadius := 6 / 10, agentMaxClimb := 9 / 10
    agentMaxSlope := slope, regionMinSize := 8, regionMergeSize := 20, edgeMaxLen := 12, edgeMaxError := 13 / 10
    vertsPerPoly := 6, detailSampleDist := 6, detailSampleMaxError := 1, tileSize := 32
    aabb := ⟨⟨0, 0, 0⟩, ⟨0, 0, 0⟩⟩, tiling := false }

/-- config.rs:284-293: one side of the grid. -/
def side (b : ConfigBuilder) (border : Nat) (lo hi : ℚ) : Res Nat :=
  if b.tiling then do
    let d ← mulU16 border 2
    addU16 b.tileSize d
  else .ok (satU16 ((hi - lo) / b.cellSize + 1 / 2))

/-- config.rs:279-316 `build` -/
def build (b : ConfigBuilder) : Res Config := do
  let radius := satU16 ⌈b.agentRadius / b.cellSize⌉
  let border ← addU16 radius 3
  let width ← b.side border b.aabb.min.x b.aabb.max.x
  let height ← b.side border b.aabb.min.z b.aabb.max.z
  .ok
    { width, height
      tileSize := b.tileSize
      borderSize := border
      cellSize := b.cellSize
      cellHeight := b.cellHeight
      aabb := b.aabb
      walkableSlopeAngle := b.agentMaxSlope
      walkableHeight := satU16 ⌈b.agentHeight / b.cellHeight⌉
      walkableClimb := satU16 ⌊b.agentMaxClimb / b.cellHeight⌋
      walkableRadius := radius
      maxEdgeLen := satU16 (b.edgeMaxLen / b.cellSize)
      maxSimplificationError := b.edgeMaxError
      minRegionArea := satU16 (b.regionMinSize * b.regionMinSize)
      mergeRegionArea := satU16 (b.regionMergeSize * b.regionMergeSize)
      maxVerticesPerPolygon := satU16 b.vertsPerPoly
      detailSampleDist := if b.detailSampleDist < 9 / 10 then 0 else b.cellSize * b.detailSampleDist
      detailSampleMaxError := b.cellHeight * b.detailSampleMaxError }

end ConfigBuilder
end Rerecast
