import Verif.Model.MarkArea
/-!
Model of `mark_convex_poly_area.rs` once more, with every floating-point operation rounded by `rnd` (`roundF32` for single precision).
Infinities and NaN are not modelled.  `x as f32` is exact for cell numbers, which are below 2^16.
-/
namespace Rerecast

/-- mark_convex_poly_area.rs:80: where the side from `a` to `b` meets the line through `p` along x, as computed. -/
def crossingR (rnd : Rat → Rat) (p a b : V2) : Rat := rnd (rnd (rnd (rnd (b.x - a.x) * rnd (p.y - a.y)) / rnd (b.y - a.y)) + a.x)

/-- mark_convex_poly_area.rs:79-81: does the side from `a` to `b` cross the ray? -/
def crossesR (rnd : Rat → Rat) (p a b : V2) : Bool :=
  (decide (a.y > p.y) != decide (b.y > p.y)) && decide (p.x < crossingR rnd p a b)

/-- mark_convex_poly_area.rs:69-87 `point_in_poly`; the fold carries the previous vertex (`j`). -/
def pointInPolyR (rnd : Rat → Rat) (p : V2) (vertices : List V2) : Res Bool :=
  match vertices.getLast? with
  | none => .error .panic
  | some last => .ok (vertices.foldl (fun (st : Bool × V2) v => ((if crossesR rnd p v st.2 then !st.1 else st.1), v)) (false, last)).1

/-- mark_convex_poly_area.rs:55-58: the centre of a cell, as computed. -/
def centreR (rnd : Rat → Rat) (fr : Frame) (x z : Int) : V2 :=
  ⟨rnd (fr.aabb.min.x + rnd (rnd ((x : Rat) + 1 / 2) * fr.cellSize)), rnd (fr.aabb.min.z + rnd (rnd ((z : Rat) + 1 / 2) * fr.cellSize))⟩

/-- mark_convex_poly_area.rs:16-25: a world coordinate `v` in cells of size `c` from `m`. -/
def inCellsR (rnd : Rat → Rat) (v m c : Rat) : Rat := rnd (rnd (v - m) / c)

namespace CompactHeightfield

/-- mark_convex_poly_area.rs:44-63: one span. -/
def markSpanR (rnd : Rat → Rat) (chf : CompactHeightfield) (fr : Frame) (volume : ConvexVolume) (minY maxY : Int) (x z : Int) (areas : List Area)
    (i : Nat) : Res (List Area) := do
  let span ← idx chf.spans i
  let a ← idx areas i
  if !isWalkable a then .ok areas
  else if (span.y : Int) < minY ∨ (span.y : Int) > maxY then .ok areas
  else do
    let inside ← pointInPolyR rnd (centreR rnd fr x z) volume.vertices
    if inside then setIdx areas i volume.area else .ok areas

/-- mark_convex_poly_area.rs:38-64: one cell. -/
def markCellR (rnd : Rat → Rat) (chf : CompactHeightfield) (fr : Frame) (volume : ConvexVolume) (minY maxY : Int) (z : Int) (areas : List Area)
    (x : Int) : Res (List Area) := do
  let zw ← checkI32 (z * chf.width)
  let c ← checkI32 (x + zw)
  let cell ← idx chf.cells c.toNat
  cell.indexRange.foldlM (chf.markSpanR rnd fr volume minY maxY x z) areas

/-- mark_convex_poly_area.rs:7-66 `mark_convex_poly_area` -/
def markConvexPolyAreaR (rnd : Rat → Rat) (chf : CompactHeightfield) (lo hi : Rat) (fr : Frame) (volume : ConvexVolume) : Res CompactHeightfield :=
  match aabb2dFromVerts lo hi volume.vertices with
  | none => .ok chf
  | some (bmin, bmax) => do
    let minX := ratAsI32 (inCellsR rnd bmin.x fr.aabb.min.x fr.cellSize)
    let minY := ratAsI32 (inCellsR rnd volume.minY fr.aabb.min.y fr.cellHeight)
    let minZ := ratAsI32 (inCellsR rnd bmin.y fr.aabb.min.z fr.cellSize)
    let maxX := ratAsI32 (inCellsR rnd bmax.x fr.aabb.min.x fr.cellSize)
    let maxY := ratAsI32 (inCellsR rnd volume.maxY fr.aabb.min.y fr.cellHeight)
    let maxZ := ratAsI32 (inCellsR rnd bmax.y fr.aabb.min.z fr.cellSize)
    if maxX < 0 ∨ minX ≥ chf.width ∨ maxZ < 0 ∨ minZ ≥ chf.height then .ok chf
    else do
      let minX := max minX 0
      let maxX := min maxX ((chf.width : Int) - 1)
      let minZ := max minZ 0
      let maxZ := min maxZ ((chf.height : Int) - 1)
      let areas ← (intRange minZ maxZ).foldlM (fun areas z =>
        (intRange minX maxX).foldlM (chf.markCellR rnd fr volume minY maxY z) areas) chf.areas
      .ok { chf with areas }

end CompactHeightfield
end Rerecast
