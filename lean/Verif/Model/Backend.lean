import Verif.Model.Editor
/-!
Model of the collider backend (`avian_rerecast/src/lib.rs`, `avian_rerecast/src/collider_to_trimesh.rs`), of the registration
of backends (`bevy_rerecast_core/src/backend.rs`) and of the first part of the remote method that answers the editor
(`bevy_rerecast_editor_integration/src/brp.rs`).

The shapes of the physics engine are values of a type `P`; how the engine turns one of them into vertices and triangles is
left uninterpreted (`Parry`).
-/
namespace Rerecast.Backend
open Transmission
variable {F V T P : Type}

/-- The vertices and the triangles parry's `to_trimesh` gives. -/
abbrev Raw (F : Type) := List (V3 F) × List (Nat × Nat × Nat)

/-- The conversions of parry called in collider_to_trimesh.rs:46-79.  A ball and a capsule take two numbers of subdivisions, a
cylinder and a cone one. -/
structure Parry (F P : Type) where
  cuboid : P → Raw F
  convexPolyhedron : P → Raw F
  heightField : P → Raw F
  ball : P → Nat → Nat → Raw F
  capsule : P → Nat → Nat → Raw F
  cylinder : P → Nat → Raw F
  cone : P → Nat → Raw F

/-- parry's `TypedShape` except for compounds.  The rounded shapes carry the inner shape; the radius of the rounding is never
read. -/
inductive Simple (F P : Type)
  | cuboid (p : P)
  | convexPolyhedron (p : P)
  | heightField (p : P)
  | triangle (a b c : V3 F)
  | triMesh (vertices : List (V3 F)) (indices : List (Nat × Nat × Nat))
  | ball (p : P)
  | capsule (p : P)
  | cylinder (p : P)
  | cone (p : P)
  | roundCuboid (p : P)
  | roundTriangle (a b c : V3 F)
  | roundConvexPolyhedron (p : P)
  | roundCylinder (p : P)
  | roundCone (p : P)
  | segment (p : P)
  | polyline (p : P)
  | halfSpace (p : P)
  | custom (p : P)
  deriving DecidableEq, Repr

/-- parry's `TypedShape`: parts of a compound are not compounds themselves (parry panics when such a compound is made).  A
part has a pose, a map of points. -/
inductive Shape (F P : Type)
  | simple (s : Simple F P)
  | compound (parts : List ((V3 F → V3 F) × Simple F P))

/-- collider_to_trimesh.rs:44-89 `shape_to_trimesh` for a shape that is not a compound. -/
def simpleToTrimesh (par : Parry F P) (subdivisions : Nat) (s : Simple F P) : Option (TriMesh F) := do
  let (vertices, indices) ← match s with
    | .cuboid p => some (par.cuboid p)
    | .convexPolyhedron p => some (par.convexPolyhedron p)
    | .heightField p => some (par.heightField p)
    | .triangle a b c => some ([a, b, c], [(0, 1, 2)])
    | .triMesh vertices indices => some (vertices, indices)
    | .ball p => some (par.ball p subdivisions subdivisions)
    | .capsule p => some (par.capsule p subdivisions subdivisions)
    | .cylinder p => some (par.cylinder p subdivisions)
    | .cone p => some (par.cone p subdivisions)
    | .roundCuboid p => some (par.cuboid p)
    | .roundTriangle a b c => some ([a, b, c], [(0, 1, 2)])
    | .roundConvexPolyhedron p => some (par.convexPolyhedron p)
    | .roundCylinder p => some (par.cylinder p subdivisions)
    | .roundCone p => some (par.cone p subdivisions)
    | .segment _ => none
    | .polyline _ => none
    | .halfSpace _ => none
    | .custom _ => none
  some { vertices, indices, areaTypes := List.replicate indices.length NOT_WALKABLE }

/-- collider_to_trimesh.rs:37-90 `to_trimesh`, `shape_to_trimesh`; a compound goes through `compound_trimesh`
(collider_to_trimesh.rs:62-64, 92-113). -/
def shapeToTrimesh (par : Parry F P) (subdivisions : Nat) : Shape F P → Res (Option (TriMesh F))
  | .simple s => .ok (simpleToTrimesh par subdivisions s)
  | .compound parts => do
    let m ← TriMesh.compoundTrimesh
      (parts.map fun (c : (V3 F → V3 F) × Simple F P) => (c.1, simpleToTrimesh par subdivisions c.2))
    .ok (some m)

/-- avian's `RigidBody` -/
inductive RigidBody
  | dynamic
  | static
  | kinematic
  deriving DecidableEq, Repr

/-- lib.rs:28: the components of an entity of the query; `body` is the entity `ColliderOf` names. -/
structure Collider (F T P : Type) where
  transform : T
  shape : Shape F P
  body : Nat

/-- What the systems of the game read: the colliders in the order of the query, the rigid bodies (an entity may not have one),
and the scene the editor shows. -/
structure World (F V T P : Type) where
  colliders : List (Collider F T P)
  bodies : Nat → Option RigidBody
  scene : Scene F V T

/-- lib.rs:33-41: one collider. -/
def colliderAffector (par : Parry F P) (bodies : Nat → Option RigidBody) (c : Collider F T P) : Res (Option (T × TriMesh F)) :=
  match bodies c.body with
  | none => .ok none
  | some body =>
    if body ≠ .static then .ok none
    else do
      let mesh ← shapeToTrimesh par 10 c.shape
      .ok (mesh.map fun m => (c.transform, m))

/-- lib.rs:27-43 `collider_backend` -/
def colliderBackend (par : Parry F P) (w : World F V T P) : Res (List (T × TriMesh F)) := do
  let l ← w.colliders.mapM (colliderAffector par w.bodies)
  .ok l.reduceOption

/-- backend.rs:8-9 `NavmeshAffectorBackend`: a system that reads the world. -/
abbrev System (F V T P : Type) := World F V T P → Res (List (T × TriMesh F))

/-- brp.rs:37-66: the errors of the remote method. -/
inductive BrpError
  | invalidParams
  | noBackend
  deriving DecidableEq, Repr

/-- brp.rs:36-168 `get_navmesh_input`.  `params` tells whether parameters were passed.  A registered system is never removed,
so `run_system` does not fail. -/
def remoteMethod (backend : Option (System F V T P)) (params : Bool) (w : World F V T P) :
    Res (Except BrpError (Payload F V T)) :=
  if params then .ok (.error .invalidParams)
  else
    match backend with
    | none => .ok (.error .noBackend)
    | some system => do
      let affectors ← system w
      .ok (.ok (getNavmeshInput w.scene affectors))

/-- What happens to the app: a backend is set, or the editor asks for the input. -/
inductive AppEvent (F V T P : Type)
  | setBackend (s : System F V T P)
  | request (params : Bool) (w : World F V T P)

/-- backend.rs:22-30 `set_navmesh_affector_backend` (`insert_resource` replaces the resource), and a request.  The state is the
resource and the answers so far. -/
def appStep (s : Option (System F V T P) × List (Res (Except BrpError (Payload F V T)))) :
    AppEvent F V T P → Option (System F V T P) × List (Res (Except BrpError (Payload F V T)))
  | .setBackend b => (some b, s.2)
  | .request params w => (s.1, s.2 ++ [remoteMethod s.1 params w])

/-- A history of an app: the answers to its requests, in order. -/
def answers (l : List (AppEvent F V T P)) : List (Res (Except BrpError (Payload F V T))) :=
  (l.foldl appStep (none, [])).2

/-- build.rs:24-48 of the editor: what a build starts from, given the affectors spawned and the meshes.  The affectors are
queried in the order they were spawned. -/
def editorTrimesh (point : T → V3 F → V3 F) (affs : List (EditorEntity T)) (assets : EditorAssets F V) : Res (TriMesh F) :=
  gatherAffectors point (affs.map fun (x : EditorEntity T) => (x.transform, assets.meshes[x.mesh]?))

end Rerecast.Backend
