import Verif.Model.CompactSpan
import Mathlib.Order.Defs.LinearOrder
/-!
Model of `trimesh.rs`, of `Aabb3d` in `math.rs` and of the compound-collider conversion in
`avian_rerecast/src/collider_to_trimesh.rs`.

Coordinates are elements of an arbitrary type `K`; where they are compared, of an arbitrary linear order.
Finite `f32`s are such an order (`-0.0` and `0.0` identified), so comparisons are not approximated; NaN is
excluded.
-/
namespace Rerecast

/-- glam `Vec3` / `Vec3A` -/
structure V3 (K : Type) where
  x : K
  y : K
  z : K
  deriving DecidableEq, Repr

/-- trimesh.rs:13-24 `TriMesh` -/
structure TriMesh (K : Type) where
  vertices : List (V3 K)
  indices : List (Nat × Nat × Nat)
  areaTypes : List Area
  deriving DecidableEq, Repr

/-- `a + b` on `u32`, overflow-checked. -/
def addU32 (a b : Nat) : Res Nat :=
  if a + b ≤ 4294967295 then .ok (a + b) else .error .panic

/-- `i + next_vertex_index` on a `UVec3` (component-wise, overflow-checked), trimesh.rs:36. -/
def offsetTriangle (n : Nat) (t : Nat × Nat × Nat) : Res (Nat × Nat × Nat) := do
  let a ← addU32 t.1 n
  let b ← addU32 t.2.1 n
  let c ← addU32 t.2.2 n
  .ok (a, b, c)

namespace TriMesh
variable {K : Type}

/-- `TriMesh::default()`, trimesh.rs:11 -/
def empty : TriMesh K := ⟨[], [], []⟩

/-- trimesh.rs:29-38 `extend`.  `usize` is taken to be 64 bits wide. -/
def extend (self other : TriMesh K) : Res (TriMesh K) :=
  if self.vertices.length > 4294967295 then .error .panic
  else do
    let next_vertex_index := self.vertices.length
    let shifted ← other.indices.mapM (offsetTriangle next_vertex_index)
    .ok { vertices := self.vertices ++ other.vertices
          indices := self.indices ++ shifted
          areaTypes := self.areaTypes ++ other.areaTypes }

/-- One iteration of the marking loop, trimesh.rs:56-62.  `up a b c` stands for
`normal(a, b, c).y > threshold_rad.cos()`, a computation on floats that is left uninterpreted. -/
def markStep (up : V3 K → V3 K → V3 K → Bool) (m : TriMesh K) (i : Nat) : Res (TriMesh K) := do
  let t ← idx m.indices i
  let a ← idx m.vertices t.1
  let b ← idx m.vertices t.2.1
  let c ← idx m.vertices t.2.2
  if up a b c then
    let areas ← setIdx m.areaTypes i DEFAULT_WALKABLE
    .ok { m with areaTypes := areas }
  else .ok m

/-- trimesh.rs:54-63 `mark_walkable_triangles` -/
def markWalkableTriangles (up : V3 K → V3 K → V3 K → Bool) (m : TriMesh K) : Res (TriMesh K) :=
  (List.range m.indices.length).foldlM (markStep up) m

/-- collider_to_trimesh.rs:116-120 `apply_isometry`; an isometry is any map of points. -/
def applyIsometry (m : TriMesh K) (iso : V3 K → V3 K) : TriMesh K :=
  { m with vertices := m.vertices.map iso }

/-- collider_to_trimesh.rs:95-111, the fold step of `compound_trimesh`; a child is its isometry and the
result of `shape_to_trimesh` (`none` for an unsupported shape). -/
def compoundStep (acc : TriMesh K) (child : (V3 K → V3 K) × Option (TriMesh K)) : Res (TriMesh K) :=
  match child.2 with
  | none => .ok acc
  | some trimesh => (acc.applyIsometry child.1).extend trimesh

/-- collider_to_trimesh.rs:92-113 `compound_trimesh` -/
def compoundTrimesh (shapes : List ((V3 K → V3 K) × Option (TriMesh K))) : Res (TriMesh K) :=
  shapes.foldlM compoundStep empty

end TriMesh

/-- math.rs:13-18 `Aabb3d` -/
structure Aabb3 (K : Type) where
  min : V3 K
  max : V3 K
  deriving DecidableEq, Repr

section
variable {K : Type} [LinearOrder K]

/-- glam `Vec3::min` (component-wise) -/
def V3.min (a b : V3 K) : V3 K := ⟨Min.min a.x b.x, Min.min a.y b.y, Min.min a.z b.z⟩

/-- glam `Vec3::max` (component-wise) -/
def V3.max (a b : V3 K) : V3 K := ⟨Max.max a.x b.x, Max.max a.y b.y, Max.max a.z b.z⟩

/-- math.rs:36-50 `Aabb3d::from_verts`; `lo` and `hi` stand for `f32::MIN` and `f32::MAX`. -/
def Aabb3.fromVerts (lo hi : K) (verts : List (V3 K)) : Option (Aabb3 K) :=
  if verts.isEmpty then none
  else
    some { min := verts.foldl V3.min ⟨hi, hi, hi⟩
           max := verts.foldl V3.max ⟨lo, lo, lo⟩ }

/-- trimesh.rs:42-44 `compute_aabb` -/
def TriMesh.computeAabb (lo hi : K) (m : TriMesh K) : Option (Aabb3 K) :=
  Aabb3.fromVerts lo hi m.vertices

/-- math.rs:54-56 `intersects` -/
def Aabb3.intersects (a b : Aabb3 K) : Bool :=
  decide (a.min.x ≤ b.max.x ∧ a.min.y ≤ b.max.y ∧ a.min.z ≤ b.max.z ∧
    a.max.x ≥ b.min.x ∧ a.max.y ≥ b.min.y ∧ a.max.z ≥ b.min.z)

/-- math.rs:117-124 `TriangleVertices::aabb` -/
def triangleAabb (t : V3 K × V3 K × V3 K) : Aabb3 K :=
  { min := (t.1.min t.2.1).min t.2.2, max := (t.1.max t.2.1).max t.2.2 }
end

end Rerecast
