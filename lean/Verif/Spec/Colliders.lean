import Verif.Model.Backend
import Verif.Spec.TriMesh
import Verif.Spec.Editor
/-! What the collider of a body contributes to a navmesh, as documented in collider_to_trimesh.rs:22-34 and lib.rs:15. -/
namespace Rerecast.Backend
open Transmission
variable {F V T P : Type}

abbrev Tri (F : Type) := V3 F × V3 F × V3 F

/-- A triangle moved. -/
def moveTriangle (f : V3 F → V3 F) (t : Tri F) : Tri F := (f t.1, f t.2.1, f t.2.2)

/-- The triangles of vertices and indices. -/
def Raw.triangles (r : Raw F) : List (Tri F) :=
  r.2.filterMap fun (t : Nat × Nat × Nat) =>
    match r.1[t.1]?, r.1[t.2.1]?, r.1[t.2.2]? with
    | some a, some b, some c => some (a, b, c)
    | _, _, _ => none

/-- All indices are in range. -/
def Raw.Valid (r : Raw F) : Prop := ∀ t ∈ r.2, t.1 < r.1.length ∧ t.2.1 < r.1.length ∧ t.2.2 < r.1.length

/-- A rounded shape without its rounding. -/
def Simple.unrounded : Simple F P → Simple F P
  | .roundCuboid p => .cuboid p
  | .roundTriangle a b c => .triangle a b c
  | .roundConvexPolyhedron p => .convexPolyhedron p
  | .roundCylinder p => .cylinder p
  | .roundCone p => .cone p
  | s => s

/-- Segments, polylines, half spaces and custom shapes are not supported. -/
def Simple.Unsupported : Simple F P → Prop
  | .segment _ | .polyline _ | .halfSpace _ | .custom _ => True
  | _ => False

instance (s : Simple F P) : Decidable s.Unsupported := by cases s <;> unfold Simple.Unsupported <;> infer_instance

/-- The surface of a shape that is not rounded: a triangle is itself, a triangle mesh is itself, the rest is what parry makes
of it, curved shapes with 10 subdivisions. -/
def Simple.plainSurface (par : Parry F P) : Simple F P → Raw F
  | .triangle a b c => ([a, b, c], [(0, 1, 2)])
  | .triMesh vertices indices => (vertices, indices)
  | .cuboid p => par.cuboid p
  | .convexPolyhedron p => par.convexPolyhedron p
  | .heightField p => par.heightField p
  | .ball p => par.ball p 10 10
  | .capsule p => par.capsule p 10 10
  | .cylinder p => par.cylinder p 10
  | .cone p => par.cone p 10
  | _ => ([], [])

/-- The surface of a shape: that of the shape without rounding; none if it is not supported. -/
def Simple.surface (par : Parry F P) (s : Simple F P) : Option (Raw F) :=
  if s.Unsupported then none else some (s.unrounded.plainSurface par)

/-- The parts of a shape with their poses. -/
def Shape.parts : Shape F P → List ((V3 F → V3 F) × Simple F P)
  | .simple s => [(id, s)]
  | .compound l => l

/-- The triangles of a shape: those of its parts, each part at its pose. -/
def Shape.triangles (par : Parry F P) (s : Shape F P) : List (Tri F) :=
  s.parts.flatMap fun c => match c.2.surface par with
    | none => []
    | some r => r.triangles.map (moveTriangle c.1)

/-- The number of vertices of a shape. -/
def Shape.vertexCount (par : Parry F P) (s : Shape F P) : Nat :=
  (s.parts.map fun c => match c.2.surface par with
    | none => 0
    | some r => r.1.length).sum

/-- The surfaces of the parts have no index out of range. -/
def Shape.Valid (par : Parry F P) (s : Shape F P) : Prop := ∀ c ∈ s.parts, ∀ r, c.2.surface par = some r → r.Valid

/-- The collider belongs to a static body. -/
def World.IsStatic (w : World F V T P) (c : Collider F T P) : Prop := w.bodies c.body = some .static

instance (w : World F V T P) (c : Collider F T P) : Decidable (w.IsStatic c) := by unfold World.IsStatic; infer_instance

/-- The colliders of static bodies, in order. -/
def World.statics (w : World F V T P) : List (Collider F T P) := w.colliders.filter fun c => w.IsStatic c

/-- The backend in force after a history: the one set last. -/
def lastBackend (l : List (AppEvent F V T P)) : Option (System F V T P) :=
  (l.filterMap fun e => match e with
    | .setBackend b => some b
    | .request _ _ => none).getLast?

end Rerecast.Backend
