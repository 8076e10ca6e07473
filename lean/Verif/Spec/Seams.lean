import Verif.Spec.DetailMesh
/-! Specification vocabulary for the sides that two polygons have in common. -/
namespace Rerecast
variable {F : Type}

/-- The two patches give the same heights at all points `a + (b - a) * (k / n)` of the segment from `a` to `b`, for `n` up to 31. -/
def HeightsAgree (o : FloatOps F) (c : DetailConfig F) (hp hp' : HeightPatch) (a b : Vec3 F) : Prop :=
  ∀ n k : Nat, k ≤ n → n ≤ 31 → let q := Vec3.add o a (Vec3.scale o (Vec3.sub o b a) (o.div (o.ofInt k) (o.ofInt n)))
    c.height o hp q = c.height o hp' q

/-- The comparisons tell the two corners apart, in the same way from both: by x if they differ by a millionth or more in x, and by z otherwise. -/
def ToldApart (o : FloatOps F) (a b : Vec3 F) : Prop :=
  o.lt (o.abs (o.sub a.x b.x)) (o.lit (1 / 1000000)) = o.lt (o.abs (o.sub b.x a.x)) (o.lit (1 / 1000000)) ∧
  if o.lt (o.abs (o.sub a.x b.x)) (o.lit (1 / 1000000)) = true then o.lt a.z b.z ≠ o.lt b.z a.z else o.lt a.x b.x ≠ o.lt b.x a.x

/-- `hp` is the height patch of polygon `i`, with the sub-mesh `m`, and `ext` are the numbers of the vertices on its sides: `ext[j]` for the side from corner
`j - 1` to corner `j`. -/
def SideVertices (o : FloatOps F) (c : DetailConfig F) (mesh : PolygonNavmesh) (chf : CompactHeightfield) (dm : DetailNavmesh F) (i : Nat) (m : SubMesh)
    (hp : HeightPatch) (ext : List (List Nat)) : Prop :=
  ∃ vs region verts tris flags hull k, List.Forall₂ (fun k v => mesh.vertices[k]? = some v) (mesh.polygon i) vs ∧ mesh.regions[i]? = some region ∧
    IsPatch chf c.borderSize region vs hp ∧ dm.part m = ((verts.take m.vertexCount).map (worldPos o c), tris, flags) ∧ k ≤ m.vertexCount ∧
    OutlineBy o c hp ext verts (vs.map (cornerPos o c)) k hull

end Rerecast
