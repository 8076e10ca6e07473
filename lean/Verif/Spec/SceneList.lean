import Verif.Spec.Pipeline
/-! Specification vocabulary: the triangles of a scene as a list. -/
namespace Rerecast

/-- The `n`th triangle of an index list, in the world: three consecutive indices from `3 * n` on, looked up and moved by the transform. -/
def nthTriangle (transform : V3 ℚ → V3 ℚ) (vertices : List (V3 ℚ)) (indices : List Nat) (n : Nat) : Option Triangle :=
  match indices[3 * n]?, indices[3 * n + 1]?, indices[3 * n + 2]? with
  | some i, some j, some k =>
    match vertices[i]?, vertices[j]?, vertices[k]? with
    | some p, some q, some r => some (transform p, transform q, transform r)
    | _, _, _ => none
  | _, _, _ => none

/-- The triangles of an object in the world, in the order of its index list; none if its mesh is missing or cannot be read. -/
def Affector.triangles (a : Affector) : List Triangle :=
  match a.mesh with
  | none => []
  | some mesh =>
    match mesh.triangleList, mesh.positions, mesh.indices with
    | true, some vertices, some indices =>
      if indices.length % 3 = 0 then (List.range (indices.length / 3)).filterMap (nthTriangle a.transform vertices indices) else []
    | _, _, _ => []

/-- The triangles of all objects of a scene, one object after the other. -/
def sceneTriangles (scene : List Affector) : List Triangle := scene.flatMap Affector.triangles

/-- Every vertex is a corner of some triangle. -/
def NoStrayVertex (scene : List Affector) : Prop := ∀ v, SceneVertex scene v → ∃ t ∈ sceneTriangles scene, v = t.1 ∨ v = t.2.1 ∨ v = t.2.2

/-- No triangle of the scene is too steep for the agent. -/
def NoSteep {F : Type} (env : BuildEnv F) (b : ConfigBuilder) (scene : List Affector) : Prop :=
  ∀ t ∈ sceneTriangles scene, env.up b.agentMaxSlope t.1 t.2.1 t.2.2 = true

/-- The two scenes have the same bounding box: a box that holds one of them holds the other. -/
def SameBox (scene scene' : List Affector) : Prop :=
  ∀ box : Aabb3 ℚ, (∀ v, SceneVertex scene v → box.Contains v) ↔ ∀ v, SceneVertex scene' v → box.Contains v

end Rerecast
