import Verif.Model.Heightfield
import Verif.Model.TriMesh
import Mathlib.Algebra.Order.Field.Rat
/-!
Model of `rasterize.rs`.

`f32` arithmetic is modelled by exact rational arithmetic: no rounding, no overflow, no NaN.  Conversions to
integers truncate and saturate as `as` does.  The four clipping buffers keep their seven slots and their old
contents, because the code reads stale contents in one case.
-/
namespace Rerecast

/-- The float fields of `Heightfield`, heightfield.rs:62-67. -/
structure Frame where
  aabb : Aabb3 Rat
  cellSize : Rat
  cellHeight : Rat
  deriving DecidableEq

/-- Truncation toward zero. -/
def ratTrunc (q : Rat) : Int := q.num.tdiv q.den

/-- `q as i16` for a float: truncates and saturates. -/
def ratAsI16 (q : Rat) : Int := max (-32768) (min 32767 (ratTrunc q))

/-- `q as i32` for a float: truncates and saturates. -/
def ratAsI32 (q : Rat) : Int := max (-2147483648) (min 2147483647 (ratTrunc q))

/-- `n as i16` for a `u16`: two's complement. -/
def u16AsI16 (n : Nat) : Int := if n ≤ 32767 then n else (n : Int) - 65536

/-- `a - 1` on `i16`, overflow-checked. -/
def predI16 (a : Int) : Res Int := if a = -32768 then .error .panic else .ok (a - 1)

/-- `v.clamp(lo, hi)`: panics if `lo > hi`. -/
def clampI (v lo hi : Int) : Res Int := if lo ≤ hi then .ok (max lo (min v hi)) else .error .panic

/-- rasterize.rs:281-285 `DivisionAxis`, with `v[axis]`. -/
inductive DivisionAxis
  | X
  | Z
  deriving DecidableEq

/-- `v[axis_dir]`, rasterize.rs:218 -/
def DivisionAxis.coord : DivisionAxis → V3 Rat → Rat
  | X, v => v.x
  | Z, v => v.z

/-- `b + (a - b) * s`, rasterize.rs:231-232 -/
def lerp (b a : V3 Rat) (s : Rat) : V3 Rat :=
  ⟨b.x + (a.x - b.x) * s, b.y + (a.y - b.y) * s, b.z + (a.z - b.z) * s⟩

/-- The variables of the clipping loop: the two output buffers, their fill counts and the previous vertex
(`in_verts[in_vert_b]`). -/
structure DivState where
  out1 : List (V3 Rat)
  n1 : Nat
  out2 : List (V3 Rat)
  n2 : Nat
  prev : V3 Rat
  deriving DecidableEq

/-- `out_verts_1[poly_1_vert] = v; poly_1_vert += 1` -/
def DivState.push1 (st : DivState) (v : V3 Rat) : Res DivState := do
  let out1 ← setIdx st.out1 st.n1 v
  .ok { st with out1, n1 := st.n1 + 1 }

/-- `out_verts_2[poly_2_vert] = v; poly_2_vert += 1` -/
def DivState.push2 (st : DivState) (v : V3 Rat) : Res DivState := do
  let out2 ← setIdx st.out2 st.n2 v
  .ok { st with out2, n2 := st.n2 + 1 }

/-- Adding the vertex `a` (and the crossing before it, if any) to the outputs, rasterize.rs:225-259. -/
def divideAdd (axis : DivisionAxis) (offset : Rat) (st : DivState) (a : V3 Rat) : Res DivState :=
  let da := offset - axis.coord a
  let db := offset - axis.coord st.prev
  if decide (da ≥ 0) ≠ decide (db ≥ 0) then do
    let s := db / (db - da)
    let m := lerp st.prev a s
    let st ← st.push1 m
    let st ← st.push2 m
    if da > 0 then st.push1 a
    else if da < 0 then st.push2 a
    else .ok st
  else if da ≥ 0 then do
    let st ← st.push1 a
    if da ≠ 0 then .ok st else st.push2 a
  else st.push2 a

/-- One iteration of the clipping loop, rasterize.rs:224-262, for the vertex `a` with predecessor
`st.prev`. -/
def divideStep (axis : DivisionAxis) (offset : Rat) (st : DivState) (a : V3 Rat) : Res DivState := do
  let st ← divideAdd axis offset st a
  .ok { st with prev := a }

/-- rasterize.rs:197-268 `divide_poly`.  The input buffer is walked as its first `n` vertices.  Note the early
return for `n = 0`, which leaves all outputs, counts included, as they were. -/
def dividePoly (inVerts : List (V3 Rat)) (n : Nat) (out1 : List (V3 Rat)) (n1 : Nat)
    (out2 : List (V3 Rat)) (n2 : Nat) (offset : Rat) (axis : DivisionAxis) :
    Res (List (V3 Rat) × Nat × List (V3 Rat) × Nat) :=
  if n > 12 then .error .err
  else if n = 0 then .ok (out1, n1, out2, n2)
  else if n > inVerts.length then .error .panic
  else do
    let vs := inVerts.take n
    let last ← idx inVerts (n - 1)
    let st ← vs.foldlM (divideStep axis offset) ⟨out1, 0, out2, 0, last⟩
    .ok (st.out1, st.n1, st.out2, st.n2)

/-- The integers `a..=b`. -/
def intRange (a b : Int) : List Int := (List.range (b + 1 - a).toNat).map fun (i : Nat) => a + (i : Int)

/-- Minimum and maximum of `f` over the first `n` vertices, rasterize.rs:103-108 and 139-145. -/
def bounds (f : V3 Rat → Rat) (buf : List (V3 Rat)) (n : Nat) : Res (Rat × Rat) := do
  let v0 ← idx buf 0
  (List.range' 1 (n - 1)).foldlM (fun (mm : Rat × Rat) i => do
    let v ← idx buf i
    .ok (min mm.1 (f v), max mm.2 (f v))) (f v0, f v0)

/-- rasterize.rs:146-163: clamp the height range of a cell polygon to the field and snap it to voxels;
`none` if it lies outside the field (149-151). -/
def snapSpan (fr : Frame) (lo hi : Rat) : Res (Option (Nat × Nat)) :=
  let inverse_cell_height := 1 / fr.cellHeight
  let by_ := fr.aabb.max.y - fr.aabb.min.y
  let span_min := lo - fr.aabb.min.y
  let span_max := hi - fr.aabb.min.y
  if span_max < 0 ∨ span_min > by_ then .ok none
  else do
    let span_min := max span_min 0
    let span_max := min span_max by_
    let mn ← clampI (ratAsI32 ((span_min * inverse_cell_height).floor : Int)) 0 65535
    let mx ← clampI (ratAsI32 ((span_max * inverse_cell_height).ceil : Int)) (mn + 1) 65535
    .ok (some (mn.toNat, mx.toNat))

/-- The variables of the column loop, rasterize.rs:117-177. -/
structure ColState where
  hf : Heightfield
  inRow : List (V3 Rat)
  p1 : List (V3 Rat)
  p2 : List (V3 Rat)
  nv : Nat
  nv2 : Nat
  deriving DecidableEq

/-- One iteration of the column loop, rasterize.rs:119-177. -/
def colStep (fr : Frame) (area : Area) (thr : Nat) (z : Int) (st : ColState) (x : Int) :
    Res ColState := do
  let cx := fr.aabb.min.x + (x : Rat) * fr.cellSize
  let (p1, nv, p2, nv2) ← dividePoly st.inRow st.nv2 st.p1 st.nv st.p2 st.nv2 (cx + fr.cellSize) .X
  -- `std::mem::swap(&mut in_row, &mut p2)`
  let st := { st with p1, nv, nv2, inRow := p2, p2 := st.inRow }
  if nv < 3 ∨ x < 0 then .ok st
  else do
    let (lo, hi) ← bounds V3.y st.p1 nv
    match ← snapSpan fr lo hi with
    | none => .ok st
    | some (mn, mx) =>
      let hf ← st.hf.addSpan x.toNat z.toNat thr ⟨mn, mx, area, none⟩
      .ok { st with hf }

/-- The variables of the row loop, rasterize.rs:80-178. -/
structure RowState where
  hf : Heightfield
  inTri : List (V3 Rat)
  inRow : List (V3 Rat)
  p1 : List (V3 Rat)
  p2 : List (V3 Rat)
  nvRow : Nat
  nvIn : Nat
  deriving DecidableEq

/-- One iteration of the row loop, rasterize.rs:83-178. -/
def rowStep (fr : Frame) (width : Nat) (area : Area) (thr : Nat) (st : RowState) (z : Int) :
    Res RowState := do
  let inverse_cell_size := 1 / fr.cellSize
  let w := u16AsI16 width
  let cell_z := fr.aabb.min.z + (z : Rat) * fr.cellSize
  let (inRow, nvRow, p1, nvIn) ←
    dividePoly st.inTri st.nvIn st.inRow st.nvRow st.p1 st.nvIn (cell_z + fr.cellSize) .Z
  -- `std::mem::swap(&mut in_tri, &mut p1)`
  let st := { st with inRow, nvRow, nvIn, inTri := p1, p1 := st.inTri }
  if nvRow < 3 ∨ z < 0 then .ok st
  else do
    let (min_x, max_x) ← bounds V3.x st.inRow nvRow
    let x0 := ratAsI16 ((min_x - fr.aabb.min.x) * inverse_cell_size)
    let x1 := ratAsI16 ((max_x - fr.aabb.min.x) * inverse_cell_size)
    if x1 < 0 ∨ x0 ≥ w then .ok st
    else do
      let w1 ← predI16 w
      let x0 ← clampI x0 (-1) w1
      let x1 ← clampI x1 0 w1
      let c ← (intRange x0 x1).foldlM (colStep fr area thr z)
        ⟨st.hf, st.inRow, st.p1, st.p2, 0, nvRow⟩
      .ok { st with hf := c.hf, inRow := c.inRow, p1 := c.p1, p2 := c.p2 }

/-- A zeroed clipping buffer of seven vertices, rasterize.rs:65-74. -/
def zeroBuf : List (V3 Rat) := List.replicate 7 ⟨0, 0, 0⟩

/-- rasterize.rs:34-180 `rasterize_triangle` -/
def rasterizeTriangle (fr : Frame) (hf : Heightfield) (tri : V3 Rat × V3 Rat × V3 Rat) (area : Area)
    (thr : Nat) : Res Heightfield :=
  let aabb := triangleAabb tri
  if !fr.aabb.intersects aabb then .ok hf
  else do
    let inverse_cell_size := 1 / fr.cellSize
    let h := u16AsI16 hf.height
    let z0 := ratAsI16 ((aabb.min.z - fr.aabb.min.z) * inverse_cell_size)
    let z1 := ratAsI16 ((aabb.max.z - fr.aabb.min.z) * inverse_cell_size)
    let h1 ← predI16 h
    let z0 ← clampI z0 (-1) h1
    let z1 ← clampI z1 0 h1
    let in_tri := ((zeroBuf.set 0 tri.1).set 1 tri.2.1).set 2 tri.2.2
    let st ← (intRange z0 z1).foldlM (rowStep fr hf.width area thr)
      ⟨hf, in_tri, zeroBuf, zeroBuf, zeroBuf, 0, 3⟩
    .ok st.hf

/-- One iteration of `rasterize_triangles`, rasterize.rs:21-29. -/
def rasterizeMeshStep (fr : Frame) (m : TriMesh Rat) (thr : Nat) (hf : Heightfield) (i : Nat) :
    Res Heightfield := do
  let t ← idx m.indices i
  let a ← idx m.vertices t.1
  let b ← idx m.vertices t.2.1
  let c ← idx m.vertices t.2.2
  let area ← idx m.areaTypes i
  rasterizeTriangle fr hf (a, b, c) area thr

/-- rasterize.rs:16-31 `rasterize_triangles` -/
def rasterizeTriangles (fr : Frame) (hf : Heightfield) (m : TriMesh Rat) (thr : Nat) :
    Res Heightfield :=
  (List.range m.indices.length).foldlM (rasterizeMeshStep fr m thr) hf

end Rerecast
