import Verif.Model.Pipeline
/-! Specification vocabulary for scenes that are moved as a whole. -/
namespace Rerecast

/-- The point `v` moved by `d`. -/
def V3.moveBy (d v : V3 ℚ) : V3 ℚ := ⟨v.x + d.x, v.y + d.y, v.z + d.z⟩

/-- The grid with its origin moved by `d`. -/
def Frame.moveBy (d : V3 ℚ) (fr : Frame) : Frame := { fr with aabb := ⟨V3.moveBy d fr.aabb.min, V3.moveBy d fr.aabb.max⟩ }

/-- The same object, moved by `d` in the world. -/
def Affector.moveBy (d : V3 ℚ) (a : Affector) : Affector := { a with transform := fun v => V3.moveBy d (a.transform v) }

/-- All objects of the scene moved by `d`. -/
def movedScene (d : V3 ℚ) (scene : List Affector) : List Affector := scene.map (Affector.moveBy d)

/-- The slope test does not see where a triangle is. -/
def PlaceBlind (up : V3 ℚ → V3 ℚ → V3 ℚ → Bool) : Prop := ∀ d a b c, up (V3.moveBy d a) (V3.moveBy d b) (V3.moveBy d c) = up a b c

end Rerecast
