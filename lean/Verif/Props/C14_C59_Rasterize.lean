import Verif.Lemmas.RasterRow
/-!
C14, C57-C59: rasterization of triangles.

Vocabulary (`Verif/Spec/Rasterize.lean`): `InTriangle` (convex combinations of the corners), `InOpenCell` and
`InCell` (the square of a grid cell), `InVoxel` (the height interval of a voxel), `Frame.Sane` (positive cell
sizes, box less than 65535 voxels tall).  Coordinates are exact rationals.
-/
namespace Rerecast
open Heightfield

/-- A field of 2 x 2 cells, 10 voxels tall, for the witnesses below. -/
def frame2 : Frame := ⟨⟨⟨0, 0, 0⟩, ⟨2, 10, 2⟩⟩, 1, 1⟩

theorem frame2_sane : frame2.Sane :=
  ⟨by decide +kernel, by decide +kernel, by decide +kernel, by decide +kernel⟩

/-- **C14, the part that holds.** In a sane field, snapping the height range `[lo, hi]` of a clipped polygon
either reports that the range misses the field's box, or yields a block `[mn, mx)` with
`0 ≤ mn < mx ≤ 65535` that contains a voxel for every height of the range inside the box, and only voxels
touched by the range.  Missing: boxes of 65535 voxels or more (see `c14_violated`). -/
theorem c14_snap_partial (fr : Frame) (hs : fr.Sane) (lo hi : Rat) (h : lo ≤ hi) :
    (snapSpan fr lo hi = .ok none ∧ ∀ y, lo ≤ y → y ≤ hi → ¬ InHeightRange fr y) ∨
    ∃ mn mx, snapSpan fr lo hi = .ok (some (mn, mx)) ∧ mn < mx ∧ mx ≤ 65535 ∧
      (∀ y, lo ≤ y → y ≤ hi → InHeightRange fr y → ∃ v, mn ≤ v ∧ v < mx ∧ InVoxel fr v y) ∧
      ∀ v, mn ≤ v → v < mx → ∃ y, lo ≤ y ∧ y ≤ hi ∧ InHeightRange fr y ∧ InVoxel fr v y := by
  rcases snapSpan_spec fr lo hi h hs.cellHeight (by linarith [hs.tall]) hs.notTooTall with
    ⟨e, ho⟩ | ⟨mn, mx, e, h1, h2, h3, h4⟩
  · left
    refine ⟨e, fun y y1 y2 ⟨y3, y4⟩ => ?_⟩
    rcases ho with h | h <;> linarith
  · right
    refine ⟨mn, mx, e, h1, h2, fun y y1 y2 ⟨y3, y4⟩ => h3 y y1 y2 y3 y4, fun v v1 v2 => ?_⟩
    obtain ⟨y, a, b, c, d, g⟩ := h4 v v1 v2
    exact ⟨y, a, b, ⟨c, d⟩, g⟩

example : snapSpan frame2 (5 / 2) (7 / 2) = .ok (some (2, 4)) ∧ snapSpan frame2 3 3 = .ok (some (3, 4)) ∧
    snapSpan frame2 11 12 = .ok none := by decide +kernel

/-- **C14 is violated.** A horizontal triangle 66000 voxels above the bottom of a 70000 voxel tall field
makes `rasterize_triangle` abort. -/
theorem c14_violated :
    rasterizeTriangle ⟨⟨⟨0, 0, 0⟩, ⟨2, 70000, 2⟩⟩, 1, 1⟩ (Heightfield.new 2 2)
      (⟨0, 66000, 0⟩, ⟨0, 66000, 2⟩, ⟨2, 66000, 0⟩) 255 1 = .error .panic := by decide +kernel

/-- **C57 (one triangle).** In a sane field of at most 32767 x 32767 cells, whatever was inserted before,
rasterizing any triangle succeeds, keeps everything solid that was solid, and every point of the triangle that
lies in the field's box, above the inside of a cell, lies in a solid voxel of that cell.  In particular the
clipping buffers never overflow. -/
theorem c57_coverage (w h : Nat) (hw : 1 ≤ w ∧ w ≤ 32767) (hh : 1 ≤ h ∧ h ≤ 32767) (ops : List Insertion)
    (hv : ValidOps w h ops) (fr : Frame) (hs : fr.Sane) (tri : V3 Rat × V3 Rat × V3 Rat) (area : Area)
    (thr : Nat) :
    ∃ hf hf', (Heightfield.new w h).insertAll ops = .ok hf ∧
      rasterizeTriangle fr hf tri area thr = .ok hf' ∧
      ∀ x < w, ∀ z < h, ∃ l l', hf.column (x + z * w) = .ok l ∧ hf'.column (x + z * w) = .ok l' ∧
        (∀ v, Occupied l v → Occupied l' v) ∧
        ∀ q, InTriangle tri q → fr.aabb.Contains q → InOpenCell fr x z q →
          ∃ v, Occupied l' v ∧ InVoxel fr v q.y := by
  obtain ⟨hf, cols, h1, hr⟩ := reached_of_valid ops hv
  obtain ⟨hf', done, e, hd, hcov⟩ := rasterizeTriangle_spec (c := ⟨fr, w, h, area, thr, ops, hf, tri, False⟩)
    hs hw hh hr (fun g => g.elim)
  obtain ⟨cols', hr'⟩ := hd.reached
  simp only at hr'
  refine ⟨hf, hf', h1, e, fun x hx z hz => ⟨_, _, hr.rep.column (by rw [hr.len]; exact col_lt hx hz),
    hr'.rep.column (by rw [hr'.len]; exact col_lt hx hz), ?_, ?_⟩⟩
  · intro v
    rw [hr.occ _ (col_lt hx hz), hr'.occ _ (col_lt hx hz)]
    rintro ⟨i, hi, h⟩
    exact ⟨i, List.mem_append_left _ hi, h⟩
  · intro q hq hbox hcell
    obtain ⟨i, hi, i1, i2, v, v1, v2, v3⟩ := hcov q hq hbox x z hx hz hcell
    refine ⟨v, (hr'.occ _ (col_lt hx hz) v).2 ⟨i, List.mem_append_right _ hi, by rw [i1, i2], v1, v2⟩, v3⟩

/-- **C57 (a whole mesh).** Rasterizing any well-formed mesh after any history succeeds and equals a history
of valid insertions with the given merge threshold; for every triangle, every point in the field's box above
the inside of a cell lies in a voxel of a block inserted there with the triangle's area. -/
theorem c57_mesh_coverage (w h : Nat) (hw : 1 ≤ w ∧ w ≤ 32767) (hh : 1 ≤ h ∧ h ≤ 32767)
    (ops : List Insertion) (hv : ValidOps w h ops) (fr : Frame) (hs : fr.Sane) (m : TriMesh Rat) (hm : m.WF)
    (thr : Nat) :
    ∃ hf hf' done, (Heightfield.new w h).insertAll ops = .ok hf ∧
      rasterizeTriangles fr hf m thr = .ok hf' ∧ hf.insertAll done = .ok hf' ∧
      ValidOps w h done ∧ (∀ i ∈ done, i.min < i.max ∧ i.max ≤ 65535 ∧ i.thr = thr ∧
        i.area ∈ m.areaTypes) ∧
      ∀ t tri area, m.corners t = some tri → m.areaTypes[t]? = some area →
        ∀ q, InTriangle tri q → fr.aabb.Contains q → ∀ x < w, ∀ z < h, InOpenCell fr x z q →
          ∃ i ∈ done, i.area = area ∧ i.x = x ∧ i.z = z ∧ ∃ v, i.min ≤ v ∧ v < i.max ∧ InVoxel fr v q.y := by
  obtain ⟨hf, cols, h1, hr⟩ := reached_of_valid ops hv
  obtain ⟨done, hf', e, hd⟩ := rasterizeMesh_spec (thr := thr) hs hw hh hr hm m.indices.length (Nat.le_refl _)
  refine ⟨hf, hf', done, h1, e, hd.run, ?_, ?_, ?_⟩
  · intro i hi
    obtain ⟨a1, a2, a3, -⟩ := hd.each i hi
    exact ⟨a1, a2, Nat.le_of_lt a3⟩
  · intro i hi
    obtain ⟨-, -, a3, a4, a5, t, ht, a6, -⟩ := hd.each i hi
    exact ⟨a3, a4, a5, List.mem_of_getElem? a6⟩
  · intro t tri area ht ha q hq hbox x hx z hz hcell
    have htl : t < m.indices.length := by
      have := (List.getElem?_eq_some_iff.1 ha).1
      rw [hm.areas] at this; exact this
    exact hd.cov t htl tri ht area ha q hq hbox x z hx hz hcell

/-- A mesh of two triangles over the witness field. -/
def mesh2 : TriMesh Rat :=
  ⟨[⟨0, 0, 0⟩, ⟨2, 4, 0⟩, ⟨0, 1, 2⟩, ⟨2, 9, 2⟩], [(0, 1, 2), (1, 2, 3)], [255, 7]⟩

theorem mesh2_wf : mesh2.WF := ⟨by decide, by decide⟩

example : frame2.Sane ∧ mesh2.WF ∧ frame2.aabb.Contains ⟨1 / 2, 5 / 4, 1 / 2⟩ ∧
    InOpenCell frame2 0 0 ⟨1 / 2, 5 / 4, 1 / 2⟩ ∧
    (rasterizeTriangles frame2 (Heightfield.new 2 2) mesh2 1).toOption.map
      (fun hf => (List.range 4).map fun c => hf.column c) =
        some [.ok [⟨0, 3, 255⟩], .ok [⟨2, 7, 7⟩], .ok [⟨0, 5, 7⟩], .ok [⟨2, 9, 7⟩]] :=
  ⟨frame2_sane, mesh2_wf, by unfold Aabb3.Contains; decide +kernel, by unfold InOpenCell; decide +kernel,
    by decide +kernel⟩

/-- **C58, the part that holds.** If no vertex lies below the field's minimum in `x` or `z` (as when the
field's box is the mesh's bounding box), every voxel a mesh adds is touched by one of its triangles inside the
closed cell, and was added with that triangle's area.  Missing: triangles reaching below the minimum (see
`c58_violated`). -/
theorem c58_sound_partial (w h : Nat) (hw : 1 ≤ w ∧ w ≤ 32767) (hh : 1 ≤ h ∧ h ≤ 32767)
    (ops : List Insertion) (hv : ValidOps w h ops) (fr : Frame) (hs : fr.Sane) (m : TriMesh Rat) (hm : m.WF)
    (thr : Nat) (hmin : ∀ v ∈ m.vertices, fr.aabb.min.x ≤ v.x ∧ fr.aabb.min.z ≤ v.z) :
    ∃ hf hf', (Heightfield.new w h).insertAll ops = .ok hf ∧ rasterizeTriangles fr hf m thr = .ok hf' ∧
      ∀ x < w, ∀ z < h, ∃ l l', hf.column (x + z * w) = .ok l ∧ hf'.column (x + z * w) = .ok l' ∧
        ∀ v, Occupied l' v → Occupied l v ∨ ∃ t tri q, m.corners t = some tri ∧ InTriangle tri q ∧
          InCell fr x z q ∧ InHeightRange fr q.y ∧ InVoxel fr v q.y := by
  obtain ⟨hf, cols, h1, hr⟩ := reached_of_valid ops hv
  obtain ⟨done, hf', e, hd⟩ := rasterizeMesh_spec (thr := thr) hs hw hh hr hm m.indices.length (Nat.le_refl _)
  obtain ⟨cols', hr'⟩ := hd.reached
  refine ⟨hf, hf', h1, e, fun x hx z hz => ⟨_, _, hr.rep.column (by rw [hr.len]; exact col_lt hx hz),
    hr'.rep.column (by rw [hr'.len]; exact col_lt hx hz), ?_⟩⟩
  intro v hv'
  rw [hr'.occ _ (col_lt hx hz)] at hv'
  obtain ⟨i, hi, hc, h2, h3⟩ := hv'
  rw [List.mem_append] at hi
  rcases hi with hi | hi
  · left
    rw [hr.occ _ (col_lt hx hz)]
    exact ⟨i, hi, hc, h2, h3⟩
  · right
    obtain ⟨a1, a2, -, -, -, t, -, -, g⟩ := hd.each i hi
    obtain ⟨tri, ht, g⟩ := g hmin
    obtain ⟨q, q1, q2, q3, q4⟩ := g v h2 h3
    have e1 : i.x = x := by
      have := congrArg (· % w) hc
      simp only [Nat.add_mul_mod_self_right, Nat.mod_eq_of_lt a1, Nat.mod_eq_of_lt hx] at this
      exact this
    have e2 : i.z = z := by
      rw [e1] at hc
      have : i.z * w = z * w := by omega
      exact Nat.eq_of_mul_eq_mul_right (by omega) this
    rw [e1, e2] at q2
    exact ⟨t, tri, q, ht, q1, q2, q3, q4⟩

example : ∀ v ∈ mesh2.vertices, frame2.aabb.min.x ≤ v.x ∧ frame2.aabb.min.z ≤ v.z := by decide +kernel

/-- A triangle that over the first row of cells stays at least half a cell outside the field. -/
def slantTri : V3 Rat × V3 Rat × V3 Rat := (⟨-4, 9, 0⟩, ⟨-4, 9, 1⟩, ⟨3, 0, 2⟩)

/-- **C58 is violated.** Rasterizing this triangle into an empty field makes cell (0, 0) solid from height 4
to 9, although no point of the triangle lies above that cell. -/
theorem c58_violated : frame2.Sane ∧
    (rasterizeTriangle frame2 (Heightfield.new 2 2) slantTri 255 1).toOption.map
      (fun hf => hf.column 0) = some (.ok [⟨4, 9, 255⟩]) ∧
    ∀ q, InTriangle slantTri q → ¬ InCell frame2 0 0 q := by
  refine ⟨frame2_sane, by decide +kernel, ?_⟩
  rintro q ⟨a, b, c, ha, hb, hc, hs, hx, hy, hz⟩ ⟨h1, h2, h3, h4⟩
  simp only [slantTri, frame2] at *
  norm_num at *
  linarith

/-- **C59 (wide fields).** In a field of 32768 or more cells along `x`, a triangle that does not reach below
the field's minimum `x` is silently ignored. -/
theorem c59_wide_field_ignores_triangles (w h : Nat) (hw : 32768 ≤ w ∧ w ≤ 65535) (hh : 1 ≤ h ∧ h ≤ 32767)
    (ops : List Insertion) (hv : ValidOps w h ops) (fr : Frame) (hs : fr.Sane)
    (tri : V3 Rat × V3 Rat × V3 Rat) (area : Area) (thr : Nat)
    (hx : fr.aabb.min.x ≤ tri.1.x ∧ fr.aabb.min.x ≤ tri.2.1.x ∧ fr.aabb.min.x ≤ tri.2.2.x) :
    ∃ hf, (Heightfield.new w h).insertAll ops = .ok hf ∧
      rasterizeTriangle fr hf tri area thr = .ok hf := by
  obtain ⟨hf, cols, h1, hr⟩ := reached_of_valid ops hv
  exact ⟨hf, h1, rasterizeTriangle_wide hs hw hh hr.width hr.height hx⟩

/-- **C59 (long fields).** In a field of 32768 or more cells along `z`, every triangle that meets the field's
box makes rasterization abort. -/
theorem c59_long_field_aborts (fr : Frame) (hf : Heightfield) (hh : 32768 ≤ hf.height ∧ hf.height ≤ 65535)
    (tri : V3 Rat × V3 Rat × V3 Rat) (area : Area) (thr : Nat)
    (hm : ∃ q, InTriangle tri q ∧ fr.aabb.Contains q) :
    rasterizeTriangle fr hf tri area thr = .error .panic := by
  obtain ⟨q, hq, hb⟩ := hm
  unfold rasterizeTriangle
  dsimp only
  rw [if_neg (by simp [intersects_of_common hq hb])]
  have hI : u16AsI16 hf.height = (hf.height : Int) - 65536 := by
    unfold u16AsI16; rw [if_neg (by omega)]
  rw [hI]
  unfold predI16 clampI
  by_cases h : (hf.height : Int) - 65536 = -32768
  · rw [if_pos h]; rfl
  · rw [if_neg h, bind_ok, if_neg (by omega)]; rfl

example : ∃ q, InTriangle slantTri q ∧ frame2.aabb.Contains q :=
  ⟨⟨2, 9 / 7, 13 / 7⟩, ⟨0, 1 / 7, 6 / 7, by norm_num [slantTri]⟩,
    by unfold Aabb3.Contains; decide +kernel⟩

end Rerecast
