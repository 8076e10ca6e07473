import Verif.Model.Pipeline
/-! Specification vocabulary for scenes and settings that are enlarged as a whole (a change of the unit of length). -/
namespace Rerecast

/-- The point `v` in a unit of length in which numbers are `κ` times larger. -/
def V3.scaleBy (κ : ℚ) (v : V3 ℚ) : V3 ℚ := ⟨κ * v.x, κ * v.y, κ * v.z⟩

def Aabb3.scaleBy (κ : ℚ) (b : Aabb3 ℚ) : Aabb3 ℚ := ⟨V3.scaleBy κ b.min, V3.scaleBy κ b.max⟩

/-- The grid with origin and cells enlarged. -/
def Frame.scaleBy (κ : ℚ) (fr : Frame) : Frame := ⟨Aabb3.scaleBy κ fr.aabb, κ * fr.cellSize, κ * fr.cellHeight⟩

/-- The same object, enlarged in the world. -/
def Affector.scaleBy (κ : ℚ) (a : Affector) : Affector := { a with transform := fun v => V3.scaleBy κ (a.transform v) }

/-- All objects of the scene enlarged. -/
def scaledScene (κ : ℚ) (scene : List Affector) : List Affector := scene.map (Affector.scaleBy κ)

/-- The settings that are lengths in the world enlarged: size and height of the cells, height, radius and climb of the agent, the length of edges.
The other settings are angles, counts, or lengths counted in cells. -/
def ConfigBuilder.scaleBy (κ : ℚ) (b : ConfigBuilder) : ConfigBuilder :=
  { b with
    cellSize := κ * b.cellSize, cellHeight := κ * b.cellHeight, agentHeight := κ * b.agentHeight, agentRadius := κ * b.agentRadius
    agentMaxClimb := κ * b.agentMaxClimb, edgeMaxLen := κ * b.edgeMaxLen, aabb := Aabb3.scaleBy κ b.aabb }

/-- The configuration with its lengths in the world enlarged. -/
def Config.scaleBy (κ : ℚ) (c : Config) : Config :=
  { c with
    cellSize := κ * c.cellSize, cellHeight := κ * c.cellHeight, aabb := Aabb3.scaleBy κ c.aabb
    detailSampleDist := κ * c.detailSampleDist, detailSampleMaxError := κ * c.detailSampleMaxError }

/-- The slope test does not see how large a triangle is. -/
def SizeBlind (up : V3 ℚ → V3 ℚ → V3 ℚ → Bool) : Prop :=
  ∀ κ : ℚ, 0 < κ → ∀ a b c, up (V3.scaleBy κ a) (V3.scaleBy κ b) (V3.scaleBy κ c) = up a b c

end Rerecast
