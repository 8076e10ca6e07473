import Verif.Model.Config
import Verif.Model.Float32
/-!
Model of `config.rs` with rounding after every operation on `f32`s.

`rnd` is the rounding: `roundF32` for single precision; without rounding this is Model/Config.lean (`buildR_id`).  The settings are
numbers, not necessarily `f32`s.  `ceil`, `floor` and `as u16` are exact.
-/
namespace Rerecast
namespace ConfigBuilder
variable (rnd : ℚ → ℚ)

/-- config.rs:284-293: one side of the grid. -/
def sideR (b : ConfigBuilder) (border : Nat) (lo hi : ℚ) : Res Nat :=
  if b.tiling then do
    let d ← mulU16 border 2
    addU16 b.tileSize d
  else .ok (satU16 (rnd (rnd (rnd (hi - lo) / b.cellSize) + 1 / 2)))

/-- config.rs:279-316 `build`; `0.9` is the nearest `f32`. -/
def buildR (b : ConfigBuilder) : Res Config := do
  let radius := satU16 ⌈rnd (b.agentRadius / b.cellSize)⌉
  let border ← addU16 radius 3
  let width ← b.sideR rnd border b.aabb.min.x b.aabb.max.x
  let height ← b.sideR rnd border b.aabb.min.z b.aabb.max.z
  .ok
    { width, height
      tileSize := b.tileSize
      borderSize := border
      cellSize := b.cellSize
      cellHeight := b.cellHeight
      aabb := b.aabb
      walkableSlopeAngle := b.agentMaxSlope
      walkableHeight := satU16 ⌈rnd (b.agentHeight / b.cellHeight)⌉
      walkableClimb := satU16 ⌊rnd (b.agentMaxClimb / b.cellHeight)⌋
      walkableRadius := radius
      maxEdgeLen := satU16 (rnd (b.edgeMaxLen / b.cellSize))
      maxSimplificationError := b.edgeMaxError
      minRegionArea := satU16 (rnd (b.regionMinSize * b.regionMinSize))
      mergeRegionArea := satU16 (rnd (b.regionMergeSize * b.regionMergeSize))
      maxVerticesPerPolygon := satU16 b.vertsPerPoly
      detailSampleDist := if b.detailSampleDist < rnd (9 / 10) then 0 else rnd (b.cellSize * b.detailSampleDist)
      detailSampleMaxError := rnd (b.cellHeight * b.detailSampleMaxError) }

end ConfigBuilder
end Rerecast
