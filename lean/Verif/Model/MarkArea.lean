import Verif.Model.Rasterize
import Verif.Model.CompactHeightfield
/-! Model of `mark_convex_poly_area.rs`.  Floats are exact rationals. -/
namespace Rerecast

/-- glam `Vec2`; the two components are a world x and z. -/
structure V2 where
  x : Rat
  y : Rat
  deriving DecidableEq, Repr

/-- mark_convex_poly_area.rs:91-101 `ConvexVolume` -/
structure ConvexVolume where
  vertices : List V2
  minY : Rat
  maxY : Rat
  area : Area

/-- math.rs:72-84 `Aabb2d::from_verts`; `lo` and `hi` stand for `f32::MIN` and `f32::MAX`. -/
def aabb2dFromVerts (lo hi : Rat) (verts : List V2) : Option (V2 × V2) :=
  if verts.isEmpty then none
  else some (verts.foldl (fun a v => ⟨min a.x v.x, min a.y v.y⟩) ⟨hi, hi⟩,
    verts.foldl (fun a v => ⟨max a.x v.x, max a.y v.y⟩) ⟨lo, lo⟩)

/-- mark_convex_poly_area.rs:77-81: does the side from `a` to `b` cross the ray? -/
def crosses (p a b : V2) : Bool :=
  (decide (a.y > p.y) != decide (b.y > p.y)) && decide (p.x < (b.x - a.x) * (p.y - a.y) / (b.y - a.y) + a.x)

/-- mark_convex_poly_area.rs:69-87 `point_in_poly`; the fold carries the previous vertex (`j`). -/
def pointInPoly (p : V2) (vertices : List V2) : Res Bool :=
  match vertices.getLast? with
  | none => .error .panic
  | some last => .ok (vertices.foldl (fun (st : Bool × V2) v => ((if crosses p v st.2 then !st.1 else st.1), v)) (false, last)).1

/-- i32 arithmetic: overflow-checked. -/
def checkI32 (v : Int) : Res Int := if -2147483648 ≤ v ∧ v ≤ 2147483647 then .ok v else .error .panic

namespace CompactHeightfield

/-- mark_convex_poly_area.rs:44-63: one span. -/
def markSpan (chf : CompactHeightfield) (fr : Frame) (volume : ConvexVolume) (minY maxY : Int) (x z : Int) (areas : List Area)
    (i : Nat) : Res (List Area) := do
  let span ← idx chf.spans i
  let a ← idx areas i
  if !isWalkable a then .ok areas
  else if (span.y : Int) < minY ∨ (span.y : Int) > maxY then .ok areas
  else do
    let point : V2 := ⟨fr.aabb.min.x + ((x : Rat) + 1 / 2) * fr.cellSize, fr.aabb.min.z + ((z : Rat) + 1 / 2) * fr.cellSize⟩
    let inside ← pointInPoly point volume.vertices
    if inside then setIdx areas i volume.area else .ok areas

/-- mark_convex_poly_area.rs:38-64: one cell. -/
def markCell (chf : CompactHeightfield) (fr : Frame) (volume : ConvexVolume) (minY maxY : Int) (z : Int) (areas : List Area)
    (x : Int) : Res (List Area) := do
  let zw ← checkI32 (z * chf.width)
  let c ← checkI32 (x + zw)
  let cell ← idx chf.cells c.toNat
  cell.indexRange.foldlM (chf.markSpan fr volume minY maxY x z) areas

/-- mark_convex_poly_area.rs:7-66 `mark_convex_poly_area` -/
def markConvexPolyArea (chf : CompactHeightfield) (lo hi : Rat) (fr : Frame) (volume : ConvexVolume) : Res CompactHeightfield :=
  match aabb2dFromVerts lo hi volume.vertices with
  | none => .ok chf
  | some (bmin, bmax) => do
    let minX := ratAsI32 ((bmin.x - fr.aabb.min.x) / fr.cellSize)
    let minY := ratAsI32 ((volume.minY - fr.aabb.min.y) / fr.cellHeight)
    let minZ := ratAsI32 ((bmin.y - fr.aabb.min.z) / fr.cellSize)
    let maxX := ratAsI32 ((bmax.x - fr.aabb.min.x) / fr.cellSize)
    let maxY := ratAsI32 ((volume.maxY - fr.aabb.min.y) / fr.cellHeight)
    let maxZ := ratAsI32 ((bmax.y - fr.aabb.min.z) / fr.cellSize)
    if maxX < 0 ∨ minX ≥ chf.width ∨ maxZ < 0 ∨ minZ ≥ chf.height then .ok chf
    else do
      let minX := max minX 0
      let maxX := min maxX ((chf.width : Int) - 1)
      let minZ := max minZ 0
      let maxZ := min maxZ ((chf.height : Int) - 1)
      let areas ← (intRange minZ maxZ).foldlM (fun areas z =>
        (intRange minX maxX).foldlM (chf.markCell fr volume minY maxY z) areas) chf.areas
      .ok { chf with areas }

end CompactHeightfield
end Rerecast
