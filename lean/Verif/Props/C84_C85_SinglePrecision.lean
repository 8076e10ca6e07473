import Verif.Lemmas.RasterRoundedMesh
import Verif.Props.C14_C59_Rasterize
/-!
C84, C85: rasterization in single precision.

`rasterizeTrianglesR rnd` (`Verif/Model/RasterizeRounded.lean`) is the rasterizer with `rnd` applied to the result of every operation on floats.
`roundF32` rounds to the nearest `f32` (`roundF32_isF32`, `roundF32_nearest` in `Verif/Lemmas/Float32.lean`), `IsF32` are the `f32`s.
`rasterizeTrianglesR id` is the exact rasterizer of C57 and C58.
-/
namespace Rerecast
open Heightfield

/-- The greatest `f32`. -/
def f32Max : ℚ := 2 ^ 128 - 2 ^ 104

/-- A triangle on a square floor of 3 m x 3 m, all at height 0. -/
def crashMesh : TriMesh ℚ :=
  ⟨[⟨roundF32 (3 / 10), 0, roundF32 (4 / 10)⟩, ⟨roundF32 (3 / 10), 0, roundF32 (7 / 10)⟩, ⟨roundF32 (18 / 10), 0, roundF32 (5 / 10)⟩,
    ⟨0, 0, roundF32 (-1 / 2)⟩, ⟨roundF32 3, 0, roundF32 (-1 / 2)⟩, ⟨roundF32 3, 0, roundF32 (5 / 2)⟩, ⟨0, 0, roundF32 (5 / 2)⟩],
   [(0, 1, 2), (3, 4, 5), (3, 5, 6)], [255, 255, 255]⟩

/-- Its box, with cells of 0.3 m and voxels of 0.2 m. -/
def crashFrame : Frame := ⟨⟨⟨0, 0, roundF32 (-1 / 2)⟩, ⟨roundF32 3, 0, roundF32 (5 / 2)⟩⟩, roundF32 (3 / 10), roundF32 (2 / 10)⟩

theorem f32_zero : IsF32 0 := by rw [← roundF32_zero]; exact roundF32_isF32 0

theorem crashMesh_single : crashMesh.Single := by
  intro v hv
  simp only [crashMesh, List.mem_cons, List.not_mem_nil, or_false] at hv
  rcases hv with rfl | rfl | rfl | rfl | rfl | rfl | rfl <;>
    exact ⟨by first | exact f32_zero | exact roundF32_isF32 3 | exact roundF32_isF32 _, by first | exact f32_zero | exact roundF32_isF32 3 | exact roundF32_isF32 _,
      by first | exact f32_zero | exact roundF32_isF32 3 | exact roundF32_isF32 _⟩

/-- **C84 is violated.** A well-formed mesh with coordinates between -0.5 and 3, rasterized with the default cell size 0.3 into the field of
its bounding box, makes the program abort in single precision: the seven slots of a clipping buffer do not suffice.  With exact arithmetic the same mesh
is rasterized. -/
theorem c84_violated :
    crashMesh.WF ∧ crashMesh.Single ∧ crashMesh.computeAabb (-f32Max) f32Max = some crashFrame.aabb ∧ crashFrame.Sane ∧
    crashFrame.buildHeightfieldR roundF32 = .ok (Heightfield.new 10 10) ∧
    rasterizeTrianglesR roundF32 crashFrame (Heightfield.new 10 10) crashMesh 1 = .error .panic ∧
    ∃ hf, rasterizeTrianglesR id crashFrame (Heightfield.new 10 10) crashMesh 1 = .ok hf := by
  have hwf : crashMesh.WF := ⟨by decide +kernel, by decide +kernel⟩
  have hs : crashFrame.Sane := ⟨by decide +kernel, by decide +kernel, by decide +kernel, by decide +kernel⟩
  refine ⟨hwf, crashMesh_single, by decide +kernel, hs, by decide +kernel, by decide +kernel, ?_⟩
  obtain ⟨hf, hf', _, e1, e2, -⟩ := c57_mesh_coverage 10 10 (by omega) (by omega) [] (by intro i hi; cases hi) crashFrame hs crashMesh hwf 1
  rw [insertAll, List.foldlM_nil] at e1
  cases e1
  exact ⟨hf', e2⟩

/-- **C84, the part that holds.** However the operations on floats are rounded, rasterizing a mesh after any history either aborts or returns
normally, never with an error, and then the field has been changed by inserting nonempty blocks of at most 65535 voxels inside the grid, each with the area of
a triangle of the mesh and the given merge threshold.  Missing: that it does not abort (see `c84_violated`; `c57_mesh_coverage` for exact arithmetic). -/
theorem c84_outcomes_partial (rnd : ℚ → ℚ) (w h : Nat) (hw : 1 ≤ w ∧ w ≤ 32767) (hh : 1 ≤ h ∧ h ≤ 32767) (ops : List Insertion)
    (hv : ValidOps w h ops) (fr : Frame) (m : TriMesh ℚ) (thr : Nat) :
    ∃ hf, (Heightfield.new w h).insertAll ops = .ok hf ∧
      (rasterizeTrianglesR rnd fr hf m thr = .error .panic ∨
       ∃ hf' done, rasterizeTrianglesR rnd fr hf m thr = .ok hf' ∧ hf.insertAll done = .ok hf' ∧ ValidOps w h done ∧
        ∀ i ∈ done, i.min < i.max ∧ i.max ≤ 65535 ∧ i.thr = thr ∧ i.area ∈ m.areaTypes) := by
  obtain ⟨hf, cols, h1, hr⟩ := reached_of_valid ops hv
  refine ⟨hf, h1, ?_⟩
  rcases rasterizeTrianglesR_ok rnd (fr := fr) (thr := thr) hw hh hr m with e | ⟨hf', e, done, hd⟩
  · exact .inl e
  · refine .inr ⟨hf', done, e, hd.run, fun i hi => ?_, fun i hi => ?_⟩
    · obtain ⟨a1, a2, a3, -⟩ := hd.each i hi
      exact ⟨a1, a2, Nat.le_of_lt a3⟩
    · obtain ⟨-, -, a3, a4, a5, t, tri, -, a6, -⟩ := hd.each i hi
      exact ⟨a3, a4, a5, List.mem_of_getElem? a6⟩

/-- **C84, when no vertex is close to a row line.** In single precision, a well-formed mesh of `f32` vertices is rasterized without abort after any history
if the field is moderate (no coordinate exceeds `M`, `M` is at most `2^15` cells, and the field is at most 65000 voxels tall) and no vertex comes
closer than `M / 2^18` to a line between two rows of cells; vertices may lie on the field's border.  The field is then changed by inserting nonempty blocks inside
the grid, each with the area of a triangle of the mesh and the given merge threshold.  Missing: meshes with vertices on a row line, for which it
is false (`c84_violated`). -/
theorem c84_clear_rows_partial (w h : Nat) (hw : 1 ≤ w ∧ w ≤ 32767) (hh : 1 ≤ h ∧ h ≤ 32767) (ops : List Insertion)
    (hv : ValidOps w h ops) (fr : Frame) (M : ℚ) (hfr : fr.Moderate w h M) (m : TriMesh ℚ) (hwf : m.WF) (hs : m.Single)
    (hc : m.ClearOfRows fr h M) (thr : Nat) :
    ∃ hf hf' done, (Heightfield.new w h).insertAll ops = .ok hf ∧ rasterizeTrianglesR roundF32 fr hf m thr = .ok hf' ∧
      hf.insertAll done = .ok hf' ∧ ValidOps w h done ∧
      ∀ i ∈ done, i.min < i.max ∧ i.max ≤ 65535 ∧ i.thr = thr ∧ i.area ∈ m.areaTypes := by
  obtain ⟨hf, cols, h1, hr⟩ := reached_of_valid ops hv
  obtain ⟨hf', done, e, hd⟩ := rasterizeTrianglesR_safe hw hh hr hfr hwf hs hc thr
  refine ⟨hf, hf', done, h1, e, hd.run, fun i hi => ?_, fun i hi => ?_⟩
  · obtain ⟨a1, a2, a3, -⟩ := hd.each i hi
    exact ⟨a1, a2, Nat.le_of_lt a3⟩
  · obtain ⟨-, -, a3, a4, a5, t, tri, -, a6, -⟩ := hd.each i hi
    exact ⟨a3, a4, a5, List.mem_of_getElem? a6⟩

/-- The mesh of `c84_violated` with its floor moved half a meter, so that no vertex of the triangle is on a row line. -/
def clearMesh : TriMesh ℚ :=
  ⟨[⟨roundF32 (3 / 10), 0, roundF32 (4 / 10)⟩, ⟨roundF32 (3 / 10), 0, roundF32 (7 / 10)⟩, ⟨roundF32 (18 / 10), 0, roundF32 (5 / 10)⟩,
    ⟨0, 0, 0⟩, ⟨roundF32 3, 0, 0⟩, ⟨roundF32 3, 0, roundF32 (5 / 2)⟩, ⟨0, 0, roundF32 (5 / 2)⟩],
   [(0, 1, 2), (3, 4, 5), (3, 5, 6)], [255, 255, 255]⟩

/-- Its box, with cells of 0.3 m and voxels of 0.2 m. -/
def clearFrame : Frame := ⟨⟨⟨0, 0, 0⟩, ⟨roundF32 3, 0, roundF32 (5 / 2)⟩⟩, roundF32 (3 / 10), roundF32 (2 / 10)⟩

/-- The hypotheses of `c84_clear_rows_partial` and `c85_clear_rows_partial` hold for this mesh in its own bounding box, and the error allowed
is a tenth of a millimetre. -/
example : clearMesh.WF ∧ clearMesh.Single ∧ clearMesh.computeAabb (-f32Max) f32Max = some clearFrame.aabb ∧
    clearFrame.buildHeightfieldR roundF32 = .ok (Heightfield.new 10 8) ∧ clearFrame.Moderate 10 8 4 ∧ clearMesh.ClearOfRows clearFrame 8 4 ∧
    (∀ v ∈ clearMesh.vertices, clearFrame.aabb.min.x ≤ v.x) ∧ roundingError clearFrame 10 8 4 ≤ 1 / 10000 := by
  refine ⟨⟨by decide +kernel, by decide +kernel⟩, ?_, by decide +kernel, by decide +kernel,
    ⟨⟨roundF32_isF32 _, f32_zero, f32_zero, f32_zero⟩, by decide +kernel, by decide +kernel, by decide +kernel, by decide +kernel, by decide +kernel, by decide +kernel, by decide +kernel,
      by decide +kernel, by decide +kernel, by decide +kernel⟩,
    ⟨by decide +kernel, by decide +kernel, ?_, .inl (by decide +kernel)⟩, by decide +kernel, by decide +kernel⟩
  · intro v hv
    simp only [clearMesh, List.mem_cons, List.not_mem_nil, or_false] at hv
    rcases hv with rfl | rfl | rfl | rfl | rfl | rfl | rfl <;>
      exact ⟨by first | exact f32_zero | exact roundF32_isF32 3 | exact roundF32_isF32 _, by first | exact f32_zero | exact roundF32_isF32 3 | exact roundF32_isF32 _,
        by first | exact f32_zero | exact roundF32_isF32 3 | exact roundF32_isF32 _⟩
  · intro v hv k h1 h2
    have : ∀ v ∈ clearMesh.vertices, ∀ k ∈ List.range 8, 1 ≤ k → (4 : ℚ) / 2 ^ 18 ≤ |v.z - (clearFrame.aabb.min.z + k * clearFrame.cellSize)| := by
      decide +kernel
    exact this v hv k (List.mem_range.2 h2) h1

/-- **C85, when no vertex is close to a row line.** Under the conditions of `c84_clear_rows_partial`, if no vertex lies below the field's minimum in x,
every voxel that rasterization in single precision adds is near a point of one of the mesh's triangles: in z and in height up to the
rounding error, in x up to the rounding error and one cell.  Missing: meshes with vertices on a row line, for which it is false (`c85_violated`), and
vertices below the minimum in x, for which it is false even with exact arithmetic (`c58_violated`). -/
theorem c85_clear_rows_partial (w h : Nat) (hw : 1 ≤ w ∧ w ≤ 32767) (hh : 1 ≤ h ∧ h ≤ 32767) (ops : List Insertion)
    (hv : ValidOps w h ops) (fr : Frame) (M : ℚ) (hfr : fr.Moderate w h M) (m : TriMesh ℚ) (hwf : m.WF) (hs : m.Single)
    (hc : m.ClearOfRows fr h M) (hx : ∀ v ∈ m.vertices, fr.aabb.min.x ≤ v.x) (thr : Nat) :
    ∃ hf hf', (Heightfield.new w h).insertAll ops = .ok hf ∧ rasterizeTrianglesR roundF32 fr hf m thr = .ok hf' ∧
      ∀ x < w, ∀ z < h, ∃ l l', hf.column (x + z * w) = .ok l ∧ hf'.column (x + z * w) = .ok l' ∧
        ∀ v, Occupied l' v → Occupied l v ∨
          ∃ t tri q, m.corners t = some tri ∧ InTriangle tri q ∧ NearVoxel fr (roundingError fr w h M) x z v q := by
  obtain ⟨hf, cols, h1, hr⟩ := reached_of_valid ops hv
  obtain ⟨hf', done, e, hd⟩ := rasterizeTrianglesR_safe hw hh hr hfr hwf hs hc thr
  obtain ⟨cols', hr'⟩ := hd.reached
  refine ⟨hf, hf', h1, e, fun x hx' z hz => ⟨_, _, hr.rep.column (by rw [hr.len]; exact col_lt hx' hz),
    hr'.rep.column (by rw [hr'.len]; exact col_lt hx' hz), ?_⟩⟩
  intro v hv'
  rw [hr'.occ _ (col_lt hx' hz)] at hv'
  obtain ⟨i, hi, hcol, h2, h3⟩ := hv'
  rw [List.mem_append] at hi
  rcases hi with hi | hi
  · left
    rw [hr.occ _ (col_lt hx' hz)]
    exact ⟨i, hi, hcol, h2, h3⟩
  · right
    obtain ⟨a1, a2, -, -, -, t, tri, ht, -, g⟩ := hd.each i hi
    obtain ⟨q, hq, hn⟩ := g hx v h2 h3
    obtain ⟨rfl, rfl⟩ := col_inj a1 hx' hcol
    exact ⟨t, tri, q, ht, hq, hn⟩

/-- A small triangle, 3 m up, above a floor of 2.4 m x 0.9 m, 1 m down. -/
def ghostMesh : TriMesh ℚ :=
  ⟨[⟨roundF32 (13 / 10), 3, 0⟩, ⟨roundF32 (14 / 10), 3, 0⟩, ⟨roundF32 (13 / 10), 3, roundF32 (2 / 10)⟩,
    ⟨roundF32 (-6 / 10), -1, roundF32 (-1 / 10)⟩, ⟨roundF32 (18 / 10), -1, roundF32 (-1 / 10)⟩,
    ⟨roundF32 (18 / 10), -1, roundF32 (8 / 10)⟩, ⟨roundF32 (-6 / 10), -1, roundF32 (8 / 10)⟩],
   [(0, 1, 2), (3, 4, 5), (3, 5, 6)], [255, 255, 255]⟩

/-- Its box, with cells of 0.3 m and voxels of 0.2 m. -/
def ghostFrame : Frame :=
  ⟨⟨⟨roundF32 (-6 / 10), -1, roundF32 (-1 / 10)⟩, ⟨roundF32 (18 / 10), 3, roundF32 (8 / 10)⟩⟩, roundF32 (3 / 10), roundF32 (2 / 10)⟩

theorem ghostMesh_single : ghostMesh.Single := by
  have h3 : IsF32 3 := ⟨3, 0, by norm_num, by norm_num, by norm_num [pow2]⟩
  have h1 : IsF32 (-1) := ⟨-1, 0, by norm_num, by norm_num, by norm_num [pow2]⟩
  intro v hv
  simp only [ghostMesh, List.mem_cons, List.not_mem_nil, or_false] at hv
  rcases hv with rfl | rfl | rfl | rfl | rfl | rfl | rfl <;>
    exact ⟨by first | exact f32_zero | exact roundF32_isF32 3 | exact roundF32_isF32 _, by first | exact h3 | exact h1,
      by first | exact f32_zero | exact roundF32_isF32 3 | exact roundF32_isF32 _⟩

/-- What the rasterizer inserts for `ghostMesh`, column by column. -/
theorem ghost_columns :
    (rasterizeTrianglesR roundF32 ghostFrame (Heightfield.new 8 3) ghostMesh 1).toOption.map (fun hf => hf.column (2 + 1 * 8)) =
      some (.ok [⟨0, 1, 255⟩, ⟨5, 6, 255⟩]) := by decide +kernel

/-- **C85 is violated.** A well-formed mesh of a floor at height -1 and a small triangle at height 3, rasterized in single precision into the field of its
bounding box, has a solid voxel for the heights from 0 to 0.2, in a cell more than 0.9 m away from the small triangle: every point of the
mesh is at least 0.8 m away from that voxel in height. -/
theorem c85_violated :
    ghostMesh.WF ∧ ghostMesh.Single ∧ ghostMesh.computeAabb (-f32Max) f32Max = some ghostFrame.aabb ∧ ghostFrame.Sane ∧
    ghostFrame.buildHeightfieldR roundF32 = .ok (Heightfield.new 8 3) ∧
    ∃ hf l, rasterizeTrianglesR roundF32 ghostFrame (Heightfield.new 8 3) ghostMesh 1 = .ok hf ∧ hf.column (2 + 1 * 8) = .ok l ∧
      Occupied l 5 ∧
      ∀ t tri q, ghostMesh.corners t = some tri → InTriangle tri q → ∀ y, InVoxel ghostFrame 5 y → 4 / 5 ≤ |q.y - y| := by
  have hcol := ghost_columns
  refine ⟨⟨by decide +kernel, by decide +kernel⟩, ghostMesh_single, by decide +kernel,
    ⟨by decide +kernel, by decide +kernel, by decide +kernel, by decide +kernel⟩, by decide +kernel, ?_⟩
  cases e : rasterizeTrianglesR roundF32 ghostFrame (Heightfield.new 8 3) ghostMesh 1 with
  | error x => rw [e] at hcol; simp [Except.toOption] at hcol
  | ok hf =>
    rw [e] at hcol
    simp only [Except.toOption, Option.map_some, Option.some.injEq] at hcol
    refine ⟨hf, _, rfl, hcol, ⟨⟨5, 6, 255⟩, by simp, by simp⟩, ?_⟩
    intro t tri q ht hq y hy
    have hheight : q.y = 3 ∨ q.y = -1 := by
      obtain ⟨a, b, c, -, -, -, hs, -, hy, -⟩ := hq
      have key : ∀ k : ℚ, tri.1.y = k → tri.2.1.y = k → tri.2.2.y = k → q.y = k := by
        intro k k1 k2 k3
        rw [hy, k1, k2, k3, ← add_mul, ← add_mul, hs, one_mul]
      rcases t with _ | _ | _ | t
      · have e : tri = _ := (Option.some.inj ht).symm
        subst e
        exact .inl (key 3 rfl rfl rfl)
      · have e : tri = _ := (Option.some.inj ht).symm
        subst e
        exact .inr (key (-1) rfl rfl rfl)
      · have e : tri = _ := (Option.some.inj ht).symm
        subst e
        exact .inr (key (-1) rfl rfl rfl)
      · simp [TriMesh.corners, ghostMesh] at ht
    obtain ⟨y1, y2⟩ := hy
    have c1 : (199 : ℚ) / 1000 ≤ ghostFrame.cellHeight := by decide +kernel
    have c2 : ghostFrame.cellHeight ≤ 201 / 1000 := by decide +kernel
    have c3 : ghostFrame.aabb.min.y = -1 := rfl
    rw [c3] at y1 y2
    push_cast at y1 y2
    rw [le_abs]
    rcases hheight with h | h <;> rw [h]
    · left; linarith
    · right; linarith

/-- **C85, the part that holds.** In single precision, with a cell size between 2^-20 and 2^20, every block that a mesh adds stands in a row of
cells that one of its triangles reaches, up to 2^-22 of the distance from the field's border and of a cell; it was added with that triangle's
area.  Triangles that begin beyond the last row may add to the last row.  Missing: that the triangle reaches the cell and the height of the block, too (see
`c85_violated`; `c58_sound_partial` for exact arithmetic). -/
theorem c85_rows_partial (w h : Nat) (hw : 1 ≤ w ∧ w ≤ 32767) (hh : 1 ≤ h ∧ h ≤ 32767) (ops : List Insertion)
    (hv : ValidOps w h ops) (fr : Frame) (hc1 : 1 / 2 ^ 20 ≤ fr.cellSize) (hc2 : fr.cellSize ≤ 2 ^ 20) (m : TriMesh ℚ) (thr : Nat)
    (hf' : Heightfield) :
    ∃ hf, (Heightfield.new w h).insertAll ops = .ok hf ∧ (rasterizeTrianglesR roundF32 fr hf m thr = .ok hf' →
      ∃ done, hf.insertAll done = .ok hf' ∧ ValidOps w h done ∧ ∀ i ∈ done, ∃ t a b c, m.corners t = some (a, b, c) ∧
        m.areaTypes[t]? = some i.area ∧
        (∃ p ∈ [a, b, c], (i.z : ℚ) * fr.cellSize ≤ (p.z - fr.aabb.min.z) * (1 + 1 / 2 ^ 22) + fr.cellSize * (1 / 2 ^ 22)) ∧
        (i.z + 1 = h ∨
         ∃ p ∈ [a, b, c], (p.z - fr.aabb.min.z) * (1 - 1 / 2 ^ 22) - fr.cellSize * (1 / 2 ^ 22) ≤ (i.z + 1) * fr.cellSize)) := by
  obtain ⟨hf, cols, h1, hr⟩ := reached_of_valid ops hv
  refine ⟨hf, h1, fun e => ?_⟩
  rcases rasterizeTrianglesR_ok roundF32 (fr := fr) (thr := thr) hw hh hr m with e' | ⟨hf1, e', done, hd⟩
  · rw [e'] at e; cases e
  · rw [e'] at e
    cases e
    refine ⟨done, hd.run, fun i hi => ?_, fun i hi => ?_⟩
    · obtain ⟨a1, a2, a3, -⟩ := hd.each i hi
      exact ⟨a1, a2, Nat.le_of_lt a3⟩
    · obtain ⟨-, b2, -, -, -, t, ⟨a, b, c⟩, a1, a2, a3, a4, a5⟩ := hd.each i hi
      refine ⟨t, a, b, c, a1, a2, ?_, ?_⟩
      · have hint : fr.aabb.min.z ≤ (triangleAabb (a, b, c)).max.z := by
          simp only [Aabb3.intersects, decide_eq_true_eq] at a3
          tauto
        have hu := rowOf_upper hc1 hc2 hint a4
        simp only [triangleAabb, V3.max] at hu
        rcases max_choice (max a.z b.z) c.z with q | q
        · rcases max_choice a.z b.z with q' | q'
          · exact ⟨a, by simp, by rw [q, q'] at hu; exact hu⟩
          · exact ⟨b, by simp, by rw [q, q'] at hu; exact hu⟩
        · exact ⟨c, by simp, by rw [q] at hu; exact hu⟩
      · rcases a5 with a5 | a5
        · right
          by_cases hlast : i.z < 32767
          · have hl := rowOf_lower hc1 hc2 hlast a5
            simp only [triangleAabb, V3.min] at hl
            rcases min_choice (min a.z b.z) c.z with q | q
            · rcases min_choice a.z b.z with q' | q'
              · exact ⟨a, by simp, by rw [q, q'] at hl; exact hl⟩
              · exact ⟨b, by simp, by rw [q, q'] at hl; exact hl⟩
            · exact ⟨c, by simp, by rw [q] at hl; exact hl⟩
          · omega
        · exact .inl a5

/-- The hypotheses of C84 and C85 hold for the mesh of `c85_violated`, and the rasterization returns. -/
example : ValidOps 8 3 [⟨0, 0, 1, 0, 2, 255⟩] ∧ 1 / 2 ^ 20 ≤ ghostFrame.cellSize ∧ ghostFrame.cellSize ≤ 2 ^ 20 ∧
    ∃ hf', rasterizeTrianglesR roundF32 ghostFrame (Heightfield.new 8 3) ghostMesh 1 = .ok hf' := by
  refine ⟨by unfold ValidOps; decide, by decide +kernel, by decide +kernel, ?_⟩
  obtain ⟨-, -, -, -, -, hf, l, e, -⟩ := c85_violated
  exact ⟨hf, e⟩

end Rerecast
