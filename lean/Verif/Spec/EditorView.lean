import Verif.Model.EditorView
/-! What the editor should show after a history of events.  Only the names of gizmos, systems and events come from the model. -/
namespace Rerecast.EditorView
variable {N : Type}

/-- At start the detail mesh and the visual meshes are checked. -/
def checkedAtStart : Gizmo → Bool
  | .detailMesh | .visual => true
  | .polyMesh | .affector => false

/-- Whether a box is checked after the events: every click changes it. -/
def checked [DecidableEq N] (h : List (Event N)) (g : Gizmo) : Bool := xor (checkedAtStart g) (decide (h.count (.toggle g) % 2 = 1))

/-- The navmesh of the last build. -/
def latest : List (Event N) → Option N
  | [] => none
  | .build n :: h => (latest h).or (some n)
  | _ :: h => latest h

/-- The numbers of affectors and visual meshes of the scene loaded last. -/
def scene : List (Event N) → Option (Nat × Nat)
  | [] => none
  | .load a v :: h => (scene h).or (some (a, v))
  | _ :: h => scene h

/-- A frame: only systems run, each at least once, in any order. -/
def IsFrame (p : List (Event N)) : Prop := (∀ e ∈ p, ∃ y, e = .system y) ∧ ∀ y, Event.system y ∈ p

/-- A click. -/
def Event.IsToggle (e : Event N) : Prop := ∃ g, e = .toggle g
/-- A build. -/
def Event.IsBuild (e : Event N) : Prop := ∃ n, e = .build n

/-- Whenever a scene was loaded, a box was clicked or a navmesh built afterwards. -/
def RefreshedAfterLoad (h : List (Event N)) : Prop :=
  ∀ h₁ a v h₂, h = h₁ ++ .load a v :: h₂ → ∃ e ∈ h₂, e.IsToggle ∨ e.IsBuild

/-- Whenever a scene was loaded, box `g` was in the state `b` then, or a box was clicked afterwards. -/
def LoadedWhile [DecidableEq N] (g : Gizmo) (b : Bool) (h : List (Event N)) : Prop :=
  ∀ h₁ a v h₂, h = h₁ ++ .load a v :: h₂ → checked h₁ g = b ∨ ∃ e ∈ h₂, e.IsToggle

end Rerecast.EditorView
