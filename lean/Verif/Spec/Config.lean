import Verif.Model.Config
/-! Specification vocabulary for configurations. -/
namespace Rerecast
namespace ConfigBuilder

/-- The settings `[Limit: > 0]` / `[Limit: >= 0]` of the documentation. -/
structure Sensible (b : ConfigBuilder) : Prop where
  cellSize : 0 < b.cellSize
  cellHeight : 0 < b.cellHeight
  agentHeight : 0 ≤ b.agentHeight
  agentRadius : 0 ≤ b.agentRadius
  agentMaxClimb : 0 ≤ b.agentMaxClimb

end ConfigBuilder

/-- The number of cells `n` covers a side from `lo` to `hi` up to half a cell. -/
def CoversSide (n : Nat) (cs lo hi : ℚ) : Prop := (n : ℚ) * cs ≤ hi - lo + cs / 2 ∧ hi - lo < n * cs + cs / 2

/-- `CoversSide` up to errors of `d` times the side and `d` cells. -/
def CoversSideWithin (d : ℚ) (n : Nat) (cs lo hi : ℚ) : Prop :=
  (n : ℚ) * cs ≤ (hi - lo) * (1 + d) + (1 / 2 + d) * cs ∧ (hi - lo) * (1 - d) < n * cs + (1 / 2 + d) * cs

end Rerecast
