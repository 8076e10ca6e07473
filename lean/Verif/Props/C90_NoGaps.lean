import Verif.Lemmas.RasterRoundedKeep
import Verif.Props.C84_C85_SinglePrecision
/-!
C90: rasterization in single precision leaves no gaps.

The specification is in `Verif/Spec/SinglePrecision.lean`: `Frame.Moderate` (fields of moderate size at a moderate distance from the origin),
`roundingError` (about a millionth of the scene per cell), `DeepInCell`, `ClearHeight` and `NearHeight`.
-/
namespace Rerecast
open Heightfield

/-- **C90.** If rasterization in single precision returns, nothing that lies well inside a cell has been lost: after any history, for every mesh of `f32`
vertices within `M` of the origin and every field of moderate size, every point of a triangle that lies in the field's box, at least the rounding
error away from the sides of a cell, and at least the rounding error away from the box's bottom and top or on a level triangle, has an occupied voxel
in that cell's column at its height, up to the rounding error.  Vertices may lie anywhere, also outside the field and on the lines between cells. -/
theorem c90_no_gaps (w h : Nat) (hw : 1 ≤ w ∧ w ≤ 32767) (hh : 1 ≤ h ∧ h ≤ 32767) (ops : List Insertion) (hv : ValidOps w h ops)
    (fr : Frame) (M : ℚ) (hfr : fr.Moderate w h M) (m : TriMesh ℚ) (hs : m.Single) (hb : ∀ v ∈ m.vertices, |v.x| ≤ M ∧ |v.y| ≤ M ∧ |v.z| ≤ M)
    (thr : Nat) :
    ∃ hf, (Heightfield.new w h).insertAll ops = .ok hf ∧ ∀ hf', rasterizeTrianglesR roundF32 fr hf m thr = .ok hf' →
      ∀ t tri q x z, m.corners t = some tri → InTriangle tri q → fr.aabb.Contains q → x < w → z < h →
        DeepInCell fr (roundingError fr w h M) x z q → ClearHeight fr (roundingError fr w h M) tri q →
        ∃ l v, hf'.column (x + z * w) = .ok l ∧ Occupied l v ∧ NearHeight fr (roundingError fr w h M) v q.y := by
  obtain ⟨hf, cols, h1, hr⟩ := reached_of_valid ops hv
  refine ⟨hf, h1, fun hf' e t tri q x z k1 k2 k3 k4 k5 k6 k7 => ?_⟩
  rcases rasterizeTrianglesR_keep hw hh hr hfr.safe hs hb thr ⟨q, x, z⟩ with e' | ⟨hf1, e', done, ⟨cols', hr'⟩, hcov⟩
  · rw [e'] at e; cases e
  · rw [e'] at e
    cases e
    obtain ⟨i, hi, rfl, rfl, v, v1, v2, v3⟩ := hcov ⟨t, k4, k5, k3, k6, tri, k1, k2, k7⟩
    refine ⟨_, v, hr'.rep.column (by rw [hr'.len]; exact col_lt k4 k5), ?_, v3⟩
    rw [hr'.occ _ (col_lt k4 k5)]
    exact ⟨i, List.mem_append_right _ hi, rfl, v1, v2⟩

/-- A point of the floor of `ghostMesh`. -/
def ghostPoint : V3 ℚ :=
  ⟨1 / 2 * roundF32 (-6 / 10) + 5 / 16 * roundF32 (18 / 10) + 3 / 16 * roundF32 (-6 / 10), -1,
   1 / 2 * roundF32 (-1 / 10) + 5 / 16 * roundF32 (8 / 10) + 3 / 16 * roundF32 (8 / 10)⟩

/-- The hypotheses of C90 hold for the mesh of `c85_violated` in its own bounding box, for which the rasterization returns; two of its vertices lie on the
field's border.  The point is in the middle of cell (2, 1), and the error allowed is less than a tenth of a millimetre. -/
example : ghostFrame.Moderate 8 3 4 ∧ ghostMesh.Single ∧ (∀ v ∈ ghostMesh.vertices, |v.x| ≤ 4 ∧ |v.y| ≤ 4 ∧ |v.z| ≤ 4) ∧
    (∃ hf', rasterizeTrianglesR roundF32 ghostFrame (Heightfield.new 8 3) ghostMesh 1 = .ok hf') ∧
    (∃ tri, ghostMesh.corners 2 = some tri ∧ InTriangle tri ghostPoint ∧ ClearHeight ghostFrame (roundingError ghostFrame 8 3 4) tri ghostPoint) ∧
    ghostFrame.aabb.Contains ghostPoint ∧ DeepInCell ghostFrame (roundingError ghostFrame 8 3 4) 2 1 ghostPoint ∧
    roundingError ghostFrame 8 3 4 ≤ 1 / 13000 := by
  refine ⟨⟨⟨roundF32_isF32 _, roundF32_isF32 _, ⟨-1, 0, by norm_num, by norm_num, by norm_num [ghostFrame, pow2]⟩, roundF32_isF32 _⟩, by decide +kernel, by decide +kernel, by decide +kernel,
      by decide +kernel, by decide +kernel, by decide +kernel, by decide +kernel, by decide +kernel, by decide +kernel, by decide +kernel⟩,
    ghostMesh_single, by decide +kernel, ?_, ⟨_, rfl, ⟨1 / 2, 5 / 16, 3 / 16, by norm_num, by norm_num, by norm_num, by norm_num, rfl, by norm_num [ghostMesh, ghostPoint], rfl⟩, .inr ⟨rfl, rfl⟩⟩,
    by unfold Aabb3.Contains; decide +kernel, by unfold DeepInCell; decide +kernel, by decide +kernel⟩
  obtain ⟨-, -, -, -, -, hf, l, e, -⟩ := c85_violated
  exact ⟨hf, e⟩

end Rerecast
