import Verif.Model.Pipeline
import Verif.Model.Float32
/-!
Model of `rasterize.rs` with rounding.  The functions are those of `Verif/Model/Rasterize.lean`, except that the result of every
operation on floats goes through a function `rnd`: with `rnd := roundF32` they compute with the finite `f32`s as the code does, with `rnd := id`
they are the functions of `Verif/Model/Rasterize.lean` (see `rasterizeTriangleR_id`).  Comparisons, `min`, `max`, `floor`, `ceil` and the conversions of
small integers to floats are exact in `f32`, too.
-/
namespace Rerecast
section
variable (rnd : Rat → Rat)

/-- `b + (a - b) * s`, rasterize.rs:231-232 -/
def lerpR (b a : V3 Rat) (s : Rat) : V3 Rat :=
  ⟨rnd (b.x + rnd (rnd (a.x - b.x) * s)), rnd (b.y + rnd (rnd (a.y - b.y) * s)), rnd (b.z + rnd (rnd (a.z - b.z) * s))⟩

/-- The point at which the edge from `b` to `a` is cut, rasterize.rs:229-232. -/
def cutR (axis : DivisionAxis) (offset : Rat) (b a : V3 Rat) : V3 Rat :=
  let da := rnd (offset - axis.coord a)
  let db := rnd (offset - axis.coord b)
  lerpR rnd b a (rnd (db / rnd (db - da)))

/-- Adding the vertex `a` (and the crossing before it, if any) to the outputs, rasterize.rs:225-259. -/
def divideAddR (axis : DivisionAxis) (offset : Rat) (st : DivState) (a : V3 Rat) : Res DivState :=
  let da := rnd (offset - axis.coord a)
  let db := rnd (offset - axis.coord st.prev)
  if decide (da ≥ 0) ≠ decide (db ≥ 0) then do
    let m := cutR rnd axis offset st.prev a
    let st ← st.push1 m
    let st ← st.push2 m
    if da > 0 then st.push1 a
    else if da < 0 then st.push2 a
    else .ok st
  else if da ≥ 0 then do
    let st ← st.push1 a
    if da ≠ 0 then .ok st else st.push2 a
  else st.push2 a

/-- One iteration of the clipping loop, rasterize.rs:224-262. -/
def divideStepR (axis : DivisionAxis) (offset : Rat) (st : DivState) (a : V3 Rat) : Res DivState := do
  let st ← divideAddR rnd axis offset st a
  .ok { st with prev := a }

/-- rasterize.rs:197-268 `divide_poly` -/
def dividePolyR (inVerts : List (V3 Rat)) (n : Nat) (out1 : List (V3 Rat)) (n1 : Nat)
    (out2 : List (V3 Rat)) (n2 : Nat) (offset : Rat) (axis : DivisionAxis) :
    Res (List (V3 Rat) × Nat × List (V3 Rat) × Nat) :=
  if n > 12 then .error .err
  else if n = 0 then .ok (out1, n1, out2, n2)
  else if n > inVerts.length then .error .panic
  else do
    let vs := inVerts.take n
    let last ← idx inVerts (n - 1)
    let st ← vs.foldlM (divideStepR rnd axis offset) ⟨out1, 0, out2, 0, last⟩
    .ok (st.out1, st.n1, st.out2, st.n2)

/-- rasterize.rs:146-163 (and 44, 49) -/
def snapSpanR (fr : Frame) (lo hi : Rat) : Res (Option (Nat × Nat)) :=
  let inverse_cell_height := rnd (1 / fr.cellHeight)
  let by_ := rnd (fr.aabb.max.y - fr.aabb.min.y)
  let span_min := rnd (lo - fr.aabb.min.y)
  let span_max := rnd (hi - fr.aabb.min.y)
  if span_max < 0 ∨ span_min > by_ then .ok none
  else do
    let span_min := max span_min 0
    let span_max := min span_max by_
    let mn ← clampI (ratAsI32 ((rnd (span_min * inverse_cell_height)).floor : Int)) 0 65535
    let mx ← clampI (ratAsI32 ((rnd (span_max * inverse_cell_height)).ceil : Int)) (mn + 1) 65535
    .ok (some (mn.toNat, mx.toNat))

/-- The grid line at the end of row or column `k`, rasterize.rs:85, 93 and 121, 129. -/
def gridLineR (m cs : Rat) (k : Int) : Rat := rnd (rnd (m + rnd ((k : Rat) * cs)) + cs)

/-- One iteration of the column loop, rasterize.rs:119-177. -/
def colStepR (fr : Frame) (area : Area) (thr : Nat) (z : Int) (st : ColState) (x : Int) :
    Res ColState := do
  let (p1, nv, p2, nv2) ← dividePolyR rnd st.inRow st.nv2 st.p1 st.nv st.p2 st.nv2 (gridLineR rnd fr.aabb.min.x fr.cellSize x) .X
  -- `std::mem::swap(&mut in_row, &mut p2)`
  let st := { st with p1, nv, nv2, inRow := p2, p2 := st.inRow }
  if nv < 3 ∨ x < 0 then .ok st
  else do
    let (lo, hi) ← bounds V3.y st.p1 nv
    match ← snapSpanR rnd fr lo hi with
    | none => .ok st
    | some (mn, mx) =>
      let hf ← st.hf.addSpan x.toNat z.toNat thr ⟨mn, mx, area, none⟩
      .ok { st with hf }

/-- One iteration of the row loop, rasterize.rs:83-178. -/
def rowStepR (fr : Frame) (width : Nat) (area : Area) (thr : Nat) (st : RowState) (z : Int) :
    Res RowState := do
  let inverse_cell_size := rnd (1 / fr.cellSize)
  let w := u16AsI16 width
  let (inRow, nvRow, p1, nvIn) ←
    dividePolyR rnd st.inTri st.nvIn st.inRow st.nvRow st.p1 st.nvIn (gridLineR rnd fr.aabb.min.z fr.cellSize z) .Z
  -- `std::mem::swap(&mut in_tri, &mut p1)`
  let st := { st with inRow, nvRow, nvIn, inTri := p1, p1 := st.inTri }
  if nvRow < 3 ∨ z < 0 then .ok st
  else do
    let (min_x, max_x) ← bounds V3.x st.inRow nvRow
    let x0 := ratAsI16 (rnd (rnd (min_x - fr.aabb.min.x) * inverse_cell_size))
    let x1 := ratAsI16 (rnd (rnd (max_x - fr.aabb.min.x) * inverse_cell_size))
    if x1 < 0 ∨ x0 ≥ w then .ok st
    else do
      let w1 ← predI16 w
      let x0 ← clampI x0 (-1) w1
      let x1 ← clampI x1 0 w1
      let c ← (intRange x0 x1).foldlM (colStepR rnd fr area thr z)
        ⟨st.hf, st.inRow, st.p1, st.p2, 0, nvRow⟩
      .ok { st with hf := c.hf, inRow := c.inRow, p1 := c.p1, p2 := c.p2 }

/-- rasterize.rs:34-180 `rasterize_triangle` -/
def rasterizeTriangleR (fr : Frame) (hf : Heightfield) (tri : V3 Rat × V3 Rat × V3 Rat) (area : Area)
    (thr : Nat) : Res Heightfield :=
  let aabb := triangleAabb tri
  if !fr.aabb.intersects aabb then .ok hf
  else do
    let inverse_cell_size := rnd (1 / fr.cellSize)
    let h := u16AsI16 hf.height
    let z0 := ratAsI16 (rnd (rnd (aabb.min.z - fr.aabb.min.z) * inverse_cell_size))
    let z1 := ratAsI16 (rnd (rnd (aabb.max.z - fr.aabb.min.z) * inverse_cell_size))
    let h1 ← predI16 h
    let z0 ← clampI z0 (-1) h1
    let z1 ← clampI z1 0 h1
    let in_tri := ((zeroBuf.set 0 tri.1).set 1 tri.2.1).set 2 tri.2.2
    let st ← (intRange z0 z1).foldlM (rowStepR rnd fr hf.width area thr)
      ⟨hf, in_tri, zeroBuf, zeroBuf, zeroBuf, 0, 3⟩
    .ok st.hf

/-- One iteration of `rasterize_triangles`, rasterize.rs:21-29. -/
def rasterizeMeshStepR (fr : Frame) (m : TriMesh Rat) (thr : Nat) (hf : Heightfield) (i : Nat) :
    Res Heightfield := do
  let t ← idx m.indices i
  let a ← idx m.vertices t.1
  let b ← idx m.vertices t.2.1
  let c ← idx m.vertices t.2.2
  let area ← idx m.areaTypes i
  rasterizeTriangleR rnd fr hf (a, b, c) area thr

/-- rasterize.rs:16-31 `rasterize_triangles` -/
def rasterizeTrianglesR (fr : Frame) (hf : Heightfield) (m : TriMesh Rat) (thr : Nat) :
    Res Heightfield :=
  (List.range m.indices.length).foldlM (rasterizeMeshStepR rnd fr m thr) hf

/-- heightfield.rs:259-277 `HeightfieldBuilder::build` -/
def Frame.buildHeightfieldR (fr : Frame) : Res Heightfield :=
  let width := rnd (rnd (rnd (fr.aabb.max.x - fr.aabb.min.x) / fr.cellSize) + 1 / 2)
  let height := rnd (rnd (rnd (fr.aabb.max.z - fr.aabb.min.z) / fr.cellSize) + 1 / 2)
  let columns := satU128 width * satU128 height
  if columns ≥ 2 ^ 128 then .error .panic
  else if columns ≥ 2 ^ 64 then .error .err
  else .ok { width := satU16 width, height := satU16 height, spans := List.replicate columns none, allocated := [] }
end

/-- Without rounding, this is the model of `Verif/Model/Rasterize.lean`. -/
theorem rasterizeTriangleR_id : rasterizeTriangleR id = rasterizeTriangle := rfl
theorem rasterizeTrianglesR_id : rasterizeTrianglesR id = rasterizeTriangles := rfl
theorem buildHeightfieldR_id : Frame.buildHeightfieldR id = Frame.buildHeightfield := rfl

end Rerecast
