import Mathlib.Logic.Function.Basic
/-!
Model of what is visible in the editor: the check boxes (`GizmosToDraw`), the navmesh resource, the scene that was loaded, and the eight systems
of `bevy_rerecast_editor/src/visualization.rs` with their run conditions.

A history is a list of events: clicks on a check box, finished builds, loaded scenes, and runs of single systems, in any order.  A condition and
the system it guards run as one step.

Change detection of Bevy: a clock ticks with every run of a condition and every change of a resource; a resource is changed for a condition if the
last change is later than the last run of this condition.  A condition that has never run sees every resource as changed.  `and` and `or` do not
run their second condition if the first decides.  (The wrap-around of the 32-bit clock is not modelled.)  `N` is the type of navmeshes.

That the gizmo assets exist is assumed (the handles are held by the entities); the editor's entities for lines are the four kinds below.
-/
namespace Rerecast.EditorView
variable {N : Type}

/-- visualization.rs:61-67 `AvailableGizmos` -/
inductive Gizmo
  | visual | affector | polyMesh | detailMesh
  deriving DecidableEq, Repr

/-- visualization.rs:19-38: the systems; `draw .polyMesh` is `draw_poly_mesh` and so on. -/
inductive System
  | draw (g : Gizmo)
  | hide (g : Gizmo)
  deriving DecidableEq, Repr

/-- The conditions that look for changes: `resource_changed::<Navmesh>` (lines 24, 29), `toggled_gizmo_on` (24, 29, 32, 33),
`toggled_gizmo_off` (34-37); one instance for each system that uses it. -/
inductive Cond
  | navmeshChanged (g : Gizmo)
  | toggledOn (g : Gizmo)
  | toggledOff (g : Gizmo)
  deriving DecidableEq, Repr

/-- The state of the editor, as far as it decides what is seen. -/
structure View (N : Type) where
  clock : Nat
  /-- `GizmosToDraw` and the time of its last change -/
  enabled : Gizmo → Bool
  enabledAt : Nat
  /-- the resource `Navmesh` and the time of its last change -/
  navmesh : Option N
  navmeshAt : Nat
  /-- the last run of the conditions; 0 if there was none -/
  lastRun : Cond → Nat
  /-- the two gizmo entities: visibility, the navmesh whose lines are in the gizmo asset, the navmesh whose triangles are in the mesh -/
  shown : Gizmo → Bool
  lines : Gizmo → Option N
  fill : Gizmo → Option N
  /-- for every affector of the scene: whether its lines are drawn -/
  affectors : List Bool
  /-- for every visual mesh of the scene: whether it is visible -/
  visuals : List Bool

/-- visualization.rs:85-93 `Default`, 100-129 `spawn_gizmos`: the state after start-up. -/
def View.init : View N where
  clock := 1
  enabled := fun g => g = .detailMesh ∨ g = .visual
  enabledAt := 1
  navmesh := none
  navmeshAt := 0
  lastRun := fun _ => 0
  shown := fun _ => false
  lines := fun _ => none
  fill := fun _ => none
  affectors := []
  visuals := []

/-- visualization.rs:52-58 `toggle`, called by ui.rs:205-211. -/
def View.toggle (s : View N) (g : Gizmo) : View N :=
  { s with clock := s.clock + 1, enabledAt := s.clock + 1,
           enabled := if s.enabled g then Function.update s.enabled g false else Function.update s.enabled g true }

/-- build.rs:111-114: the resource is inserted. -/
def View.build (s : View N) (n : N) : View N :=
  { s with clock := s.clock + 1, navmesh := some n, navmeshAt := s.clock + 1 }

/-- get_navmesh_input.rs:55-63: the entities of the old scene are despawned and all gizmos are cleared.  Lines 77-92: the affectors, with empty
gizmos.  Lines 129-134: the visual meshes, with the default visibility. -/
def View.load (s : View N) (affectors visuals : Nat) : View N :=
  { s with clock := s.clock + 1, lines := fun _ => none, affectors := List.replicate affectors false, visuals := List.replicate visuals true }

/-- A condition runs at the next tick. -/
def View.ran (s : View N) (c : Cond) : View N :=
  { s with clock := s.clock + 1, lastRun := Function.update s.lastRun c (s.clock + 1) }

/-- visualization.rs:69-73 `toggled_gizmo_on` -/
def View.toggledOn (s : View N) (g : Gizmo) : Bool × View N :=
  (decide (s.lastRun (.toggledOn g) < s.enabledAt) && s.enabled g, s.ran (.toggledOn g))

/-- visualization.rs:75-79 `toggled_gizmo_off` -/
def View.toggledOff (s : View N) (g : Gizmo) : Bool × View N :=
  (decide (s.lastRun (.toggledOff g) < s.enabledAt) && !s.enabled g, s.ran (.toggledOff g))

/-- `resource_changed::<Navmesh>` -/
def View.navmeshChanged (s : View N) (g : Gizmo) : Bool × View N :=
  (decide (s.lastRun (.navmeshChanged g) < s.navmeshAt), s.ran (.navmeshChanged g))

/-- visualization.rs:22-31: whether `draw_poly_mesh` (`draw_detail_mesh`) runs. -/
def View.drawCondition (s : View N) (g : Gizmo) : Bool × View N :=
  if s.navmesh.isNone then (false, s)
  else if !s.enabled g then (false, s)
  else
    let r := s.navmeshChanged g
    if r.1 then (true, r.2) else r.2.toggledOn g

/-- visualization.rs:143-146 (228-231) and the drawing: the gizmo is cleared and drawn anew, shown, and gets the mesh. -/
def View.drawNavmesh (s : View N) (g : Gizmo) : View N :=
  { s with shown := Function.update s.shown g true, lines := Function.update s.lines g s.navmesh, fill := Function.update s.fill g s.navmesh }

/-- visualization.rs:322-333 `hide_poly_mesh`, 348-359 `hide_detail_mesh` -/
def View.hideNavmesh (s : View N) (g : Gizmo) : View N :=
  { s with shown := Function.update s.shown g false, lines := Function.update s.lines g none }

/-- The body of a system: visualization.rs:131-214, 216-283 (`draw_poly_mesh`, `draw_detail_mesh`), 285-320 (`draw_navmesh_affector`,
`draw_visual`), 322-365 (`hide_*`). -/
def View.body (s : View N) : System → View N
  | .draw .polyMesh => s.drawNavmesh .polyMesh
  | .draw .detailMesh => s.drawNavmesh .detailMesh
  | .draw .affector => { s with affectors := s.affectors.map fun _ => true }
  | .draw .visual => { s with visuals := s.visuals.map fun _ => true }
  | .hide .polyMesh => s.hideNavmesh .polyMesh
  | .hide .detailMesh => s.hideNavmesh .detailMesh
  | .hide .affector => { s with affectors := s.affectors.map fun _ => false }
  | .hide .visual => { s with visuals := s.visuals.map fun _ => false }

/-- visualization.rs:19-38: the run condition of a system. -/
def View.condition (s : View N) : System → Bool × View N
  | .draw .polyMesh => s.drawCondition .polyMesh
  | .draw .detailMesh => s.drawCondition .detailMesh
  | .draw .affector => s.toggledOn .affector
  | .draw .visual => s.toggledOn .visual
  | .hide g => s.toggledOff g

/-- A system runs if its condition holds. -/
def View.system (s : View N) (y : System) : View N :=
  let r := s.condition y
  if r.1 then r.2.body y else r.2

/-- What can happen. -/
inductive Event (N : Type)
  | toggle (g : Gizmo)
  | build (n : N)
  | load (affectors visuals : Nat)
  | system (y : System)
  deriving DecidableEq, Repr

/-- One event. -/
def View.step (s : View N) : Event N → View N
  | .toggle g => s.toggle g
  | .build n => s.build n
  | .load a v => s.load a v
  | .system y => s.system y

/-- The state after a history. -/
def View.run (h : List (Event N)) : View N := h.foldl View.step View.init

end Rerecast.EditorView
