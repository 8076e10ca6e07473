import Verif.Model.Transmission
/-!
Model of the exchange between the game and the editor (`bevy_rerecast_editor_integration/src/brp.rs`,
`bevy_rerecast_editor/src/get_navmesh_input.rs`), of the conversion of Bevy meshes (`bevy_rerecast_core/src/mesh.rs`) and of
the queue of generation requests (`bevy_rerecast_core/src/generator.rs`).

A handle of the game is a number; the assets of the game are functions from handles to values.  In the editor assets are only
added: a handle is the position in the list of assets.  `T` is the type of transforms.
-/
namespace Rerecast.Transmission
variable {F V T : Type}

/-- brp.rs:69-74: the components of an entity of the query. -/
structure VisualEntity (T : Type) where
  transform : T
  mesh : Nat
  visible : Bool
  material : Option Nat
  deriving DecidableEq, Repr

/-- The world as seen by brp.rs:69-95: the entities in the order of the query and the assets. -/
structure Scene (F V T : Type) where
  entities : List (VisualEntity T)
  meshes : Nat → Option (Mesh F)
  materials : Nat → Option (StandardMaterial V Nat)
  images : Nat → Option (Image V)

/-- brp.rs:199-206 `VisualMesh` -/
structure VisualMesh (T : Type) where
  transform : T
  mesh : Nat
  material : Option Nat
  deriving DecidableEq, Repr

/-- brp.rs:190-195 `AffectorMesh` -/
structure AffectorMesh (F T : Type) where
  transform : T
  mesh : TriMesh F
  deriving DecidableEq, Repr

/-- brp.rs:175-186 `NavmeshInputResponse` -/
structure Payload (F V T : Type) where
  affectors : List (AffectorMesh F T)
  visuals : List (VisualMesh T)
  materials : List (SerializedMaterial V)
  meshes : List (SerializedMesh F)
  images : List (SerializedImage V)
  deriving DecidableEq, Repr

/-- brp.rs:97-102: the index maps and the lists of the response. -/
structure SendState (F V : Type) where
  imageCache : ImageCache V
  materialIndices : List (Nat × Nat)
  meshIndices : List (Nat × Nat)
  materials : List (SerializedMaterial V)
  meshes : List (SerializedMesh F)
  deriving DecidableEq, Repr

/-- brp.rs:111-119: the index of a mesh; `none` if there is no such asset. -/
def sendMesh (scene : Scene F V T) (h : Nat) (s : SendState F V) : Option (Nat × SendState F V) :=
  match s.meshIndices.lookup h with
  | some index => some (index, s)
  | none =>
    match scene.meshes h with
    | none => none
    | some mesh =>
      let index := lenU32 s.meshes
      some (index, { s with meshes := s.meshes ++ [SerializedMesh.fromMesh mesh]
                            meshIndices := (h, index) :: s.meshIndices })

/-- brp.rs:124-142: a material that was not sent before. -/
def sendNewMaterial (scene : Scene F V T) (h : Nat) (s : SendState F V) : Option Nat × SendState F V :=
  match scene.materials h with
  | none => (none, s)
  | some material =>
    let index := lenU32 s.materials
    match (SerializedMaterial.tryFromMaterial scene.images material).run.run s.imageCache with
    | (.ok serialized, cache) =>
      (some index, { s with imageCache := cache
                            materials := s.materials ++ [serialized]
                            materialIndices := (h, index) :: s.materialIndices })
    | (.error _, cache) => (none, { s with imageCache := cache })

/-- brp.rs:120-146: the index of a material. -/
def sendMaterial (scene : Scene F V T) (h : Option Nat) (s : SendState F V) : Option Nat × SendState F V :=
  match h with
  | none => (none, s)
  | some h =>
    match s.materialIndices.lookup h with
    | some index => (some index, s)
    | none => sendNewMaterial scene h s

/-- brp.rs:106-153: one entity. -/
def sendEntity (scene : Scene F V T) (s : SendState F V) (e : VisualEntity T) : Option (VisualMesh T) × SendState F V :=
  if e.visible = false then (none, s)
  else
    match sendMesh scene e.mesh s with
    | none => (none, s)
    | some (mesh, s) =>
      let (material, s) := sendMaterial scene e.material s
      (some { transform := e.transform, mesh, material }, s)

/-- brp.rs:104-154: all entities. -/
def sendStep (scene : Scene F V T) (acc : List (VisualMesh T) × SendState F V) (e : VisualEntity T) :
    List (VisualMesh T) × SendState F V :=
  let (v, s) := sendEntity scene acc.2 e
  (acc.1 ++ v.toList, s)

/-- brp.rs:97-102 -/
def SendState.empty : SendState F V := ⟨⟨[], []⟩, [], [], [], []⟩

/-- brp.rs:36-168 `get_navmesh_input`, from the point where the affectors and the assets are known. -/
def getNavmeshInput (scene : Scene F V T) (affectors : List (T × TriMesh F)) : Payload F V T :=
  let (visuals, s) := scene.entities.foldl (sendStep scene) ([], SendState.empty)
  { affectors := affectors.map fun (a : T × TriMesh F) => { transform := a.1, mesh := a.2 }
    visuals
    materials := s.materials
    meshes := s.meshes
    images := s.imageCache.cache }

/-! ## The editor -/

/-- An entity of the editor: get_navmesh_input.rs:77-92 (an affector, without material) and 129-134 (a visual mesh). -/
structure EditorEntity (T : Type) where
  transform : T
  mesh : Nat
  material : Option Nat
  deriving DecidableEq, Repr

/-- The assets of the editor. -/
structure EditorAssets (F V : Type) where
  images : List (Image V)
  materials : List (StandardMaterial V Nat)
  meshes : List (Mesh F)
  deriving DecidableEq, Repr

/-- get_navmesh_input.rs:66-75: the mesh of an affector. -/
def affectorMesh (m : TriMesh F) : Mesh F :=
  { topology := .triangleList
    attributes := [(POSITION, .float32x3 (m.vertices.map fun (v : V3 F) => (v.x, v.y, v.z)))]
    indices := some (.u32 (m.indices.flatMap fun (t : Nat × Nat × Nat) => [t.1, t.2.1, t.2.2])) }

/-- get_navmesh_input.rs:65-93: one affector; `tf` stands for `GlobalTransform::compute_transform`. -/
def receiveAffector (tf : T → T) (acc : List (EditorEntity T) × EditorAssets F V) (a : AffectorMesh F T) :
    List (EditorEntity T) × EditorAssets F V :=
  (acc.1 ++ [{ transform := tf a.transform, mesh := acc.2.meshes.length, material := none }],
    { acc.2 with meshes := acc.2.meshes ++ [affectorMesh a.mesh] })

/-- get_navmesh_input.rs:95-98: the index maps of the editor (`HashMap`s, most recent entry first). -/
structure ReceiveState (F V : Type) where
  imageIndices : List (Nat × Nat)
  materialIndices : List (Nat × Nat)
  meshIndices : List (Nat × Nat)
  assets : EditorAssets F V
  deriving DecidableEq, Repr

/-- get_navmesh_input.rs:101-109: the mesh of a visual. -/
def receiveMesh (p : Payload F V T) (i : Nat) (s : ReceiveState F V) : Res (Nat × ReceiveState F V) :=
  match s.meshIndices.lookup i with
  | some handle => .ok (handle, s)
  | none => do
    let serialized ← idx p.meshes i
    let mesh ← serialized.intoMesh
    let handle := s.assets.meshes.length
    .ok (handle, { s with meshIndices := (i, handle) :: s.meshIndices
                          assets := { s.assets with meshes := s.assets.meshes ++ [mesh] } })

/-- get_navmesh_input.rs:111-127: the material of a visual. -/
def receiveMaterial (p : Payload F V T) (fallback : Nat) (i : Option Nat) (s : ReceiveState F V) :
    Res (Nat × ReceiveState F V) :=
  match i with
  | none => .ok (fallback, s)
  | some i =>
    match s.materialIndices.lookup i with
    | some handle => .ok (handle, s)
    | none => do
      let serialized ← idx p.materials i
      match (serialized.intoMaterial p.images).run.run ⟨s.imageIndices, s.assets.images⟩ with
      | (.error e, _) => .error e
      | (.ok material, store) =>
        let handle := s.assets.materials.length
        .ok (handle, { s with imageIndices := store.indices
                              materialIndices := (i, handle) :: s.materialIndices
                              assets := { s.assets with images := store.images
                                                        materials := s.assets.materials ++ [material] } })

/-- get_navmesh_input.rs:100-135: one visual. -/
def receiveVisual (p : Payload F V T) (tf : T → T) (fallback : Nat)
    (acc : List (EditorEntity T) × ReceiveState F V) (v : VisualMesh T) : Res (List (EditorEntity T) × ReceiveState F V) := do
  let (mesh, s) ← receiveMesh p v.mesh acc.2
  let (material, s) ← receiveMaterial p fallback v.material s
  .ok (acc.1 ++ [{ transform := tf v.transform, mesh, material := some material }], s)

/-- get_navmesh_input.rs:23-138 `fetch_navmesh_input`, once the response has been received: the affectors and the visuals
spawned and the assets.  `white` is the fallback material. -/
def fetchNavmeshInput (tf : T → T) (white : StandardMaterial V Nat) (assets : EditorAssets F V) (p : Payload F V T) :
    Res (List (EditorEntity T) × List (EditorEntity T) × EditorAssets F V) := do
  let (affectors, assets) := p.affectors.foldl (receiveAffector tf) ([], assets)
  let fallback := assets.materials.length
  let assets := { assets with materials := assets.materials ++ [white] }
  let (visuals, s) ← p.visuals.foldlM (receiveVisual p tf fallback) ([], ⟨[], [], [], assets⟩)
  .ok (affectors, visuals, s.assets)

/-! ## Meshes to triangle meshes -/

/-- bevy `VertexAttributeValues::as_float3` -/
def VertexValues.asFloat3 : VertexValues F → Option (List (F × F × F))
  | .float32x3 v => some v
  | _ => none

/-- bevy `Indices::iter` -/
def Indices.toList : Indices → List Nat
  | .u16 l => l
  | .u32 l => l

/-- `indices.chunks(3)` with `indices[0]`, `indices[1]`, `indices[2]` (mesh.rs:60-65), for a length divisible by 3. -/
def chunks3 : List Nat → List (Nat × Nat × Nat)
  | a :: b :: c :: l => (a, b, c) :: chunks3 l
  | _ => []

/-- mesh.rs:46-69 `TriMesh::from_mesh` -/
def triMeshFromMesh (m : Mesh F) : Option (TriMesh F) :=
  if m.topology ≠ .triangleList then none
  else do
    let position ← m.attribute POSITION
    let float ← position.asFloat3
    let indices ← m.indices.map Indices.toList
    if indices.length % 3 ≠ 0 then none
    else
      let triangles := chunks3 indices
      some { vertices := float.map fun (v : F × F × F) => ⟨v.1, v.2.1, v.2.2⟩
             indices := triangles
             areaTypes := List.replicate triangles.length NOT_WALKABLE }

/-- mesh.rs:24-37 `mesh3d_backend`: all entities with a mesh. -/
def mesh3dBackend (meshes : Nat → Option (Mesh F)) (affectors : List (T × Nat)) : List (T × TriMesh F) :=
  affectors.filterMap fun (a : T × Nat) => do
    let mesh ← meshes a.2
    let proxy ← triMeshFromMesh mesh
    some (a.1, proxy)

/-- build.rs:33-47: one affector of the editor; `tf t` stands for `compute_transform().transform_point`.  An entity whose
mesh is missing or cannot be converted is skipped. -/
def gatherAffector (tf : T → V3 F → V3 F) (acc : TriMesh F) (a : T × Option (Mesh F)) : Res (TriMesh F) :=
  match a.2 with
  | none => .ok acc
  | some mesh =>
    match triMeshFromMesh mesh with
    | none => .ok acc
    | some t => acc.extend { t with vertices := t.vertices.map (tf a.1) }

/-- build.rs:31-48: the triangle mesh of all affectors. -/
def gatherAffectors (tf : T → V3 F → V3 F) (l : List (T × Option (Mesh F))) : Res (TriMesh F) :=
  l.foldlM (gatherAffector tf) TriMesh.empty

end Rerecast.Transmission

namespace Rerecast.Generator
variable {C : Type}

/-- generator.rs:39-40 `NavmeshQueue`, and the number of handles reserved so far (`Assets::reserve_handle` gives a new handle
each time). -/
structure State (C : Type) where
  queue : List (Nat × C)
  reserved : Nat
  /-- the handles whose navmesh is in `Assets<Navmesh>` -/
  done : List Nat
  deriving DecidableEq, Repr

/-- generator.rs:13-15 `plugin`, lib.rs:25-30 -/
def State.init : State C := ⟨[], 0, []⟩

/-- What can happen to the queue: a call of `generate`, or an update of the app.  `NavmeshQueue` is private to generator.rs. -/
inductive Event (C : Type)
  | generate (config : C)
  | update
  deriving DecidableEq, Repr

/-- generator.rs:32-36 `generate`; and an update: generator.rs:13-15 registers no system, nothing reads the queue. -/
def step (s : State C) : Event C → State C
  | .generate config => { s with reserved := s.reserved + 1, queue := s.queue ++ [(s.reserved, config)] }
  | .update => s

/-- A history of events. -/
def run (l : List (Event C)) : State C := l.foldl step State.init

end Rerecast.Generator
