import Verif.Lemmas.RasterRoundedLoops
import Verif.Spec.SinglePrecision
/-! Meshes in single precision. -/
set_option linter.unusedVariables false
namespace Rerecast
open Heightfield

theorem Frame.Moderate.safe {fr : Frame} {w h : Nat} {M : ℚ} (s : fr.Moderate w h M) : SafeFrame fr w h M := by
  have c0 : 0 < fr.cellSize := lt_of_lt_of_le (by norm_num) s.cellSize.1
  have hM : 1 / 2 ^ 100 ≤ M := by
    have h1 := s.cellSize.1
    have h2 := s.scale.1
    norm_num at *
    linarith
  exact ⟨⟨s.single.2.1, s.single.1, hM, s.left, s.right, c0, s.scale.1, s.scale.2⟩,
    ⟨s.single.2.2.2, s.single.1, hM, s.front, s.back, c0, s.scale.1, s.scale.2⟩,
    s.cellSize.1, s.cellSize.2, s.cellHeight.1, s.cellHeight.2, s.tall, s.notTooTall, s.single.2.2.1, s.heights.1, s.heights.2⟩

theorem okAt_of_clear {m cs M : ℚ} {n : Nat} (g : GridAxis m cs M n) {last : Bool} {k : Int} (h0 : 0 ≤ k) (hk : k < n) {v : V3 ℚ}
    (hmode : ¬ (last = true ∧ k + 1 = n)) (h : M / 2 ^ 18 ≤ |v.z - (m + (k + 1) * cs)|) : OkAt m cs M n last k v := by
  unfold OkAt
  rw [if_neg hmode]
  have hcl := g.close (by omega : -1 ≤ k) (by omega)
  have ht : |v.z - (m + (k + 1) * cs)| ≤ |gridLineR roundF32 m cs k - v.z| + |gridLineR roundF32 m cs k - (m + (k + 1) * cs)| := by
    have := abs_sub (gridLineR roundF32 m cs k - (m + (k + 1) * cs)) (gridLineR roundF32 m cs k - v.z)
    rw [show gridLineR roundF32 m cs k - (m + (k + 1) * cs) - (gridLineR roundF32 m cs k - v.z) = v.z - (m + (k + 1) * cs) by ring] at this
    linarith
  have := g.pos
  norm_num at *
  linarith

theorem safeTriangle_of_clear {m : TriMesh ℚ} {fr : Frame} {w h : Nat} {M : ℚ} (hs : m.Single) (hfr : fr.Moderate w h M) (hc : m.ClearOfRows fr h M) :
    ∃ last, ∀ c : RCtx, c.fr = fr → c.h = h → (∀ v ∈ cornerList c.tri, v ∈ m.vertices) → SafeTriangle c M last := by
  have g := hfr.safe.gz
  have main : ∀ last : Bool, (last = false → ∀ v ∈ m.vertices, M / 2 ^ 18 ≤ |v.z - (fr.aabb.min.z + h * fr.cellSize)|) →
      (last = true → ∀ v ∈ m.vertices, v.z ≤ gridLineR roundF32 fr.aabb.min.z fr.cellSize (h - 1)) →
      ∀ v ∈ m.vertices, ∀ k : Int, 0 ≤ k → k < h → OkAt fr.aabb.min.z fr.cellSize M h last k v := by
    intro last l1 l2 v hv k hk0 hk
    by_cases hmode : last = true ∧ k + 1 = h
    · unfold OkAt
      rw [if_pos hmode, show k = (h : Int) - 1 by omega]
      exact l2 hmode.1 v hv
    · refine okAt_of_clear g hk0 hk hmode ?_
      have hcast : (((k + 1).toNat : Nat) : ℚ) = (k : ℚ) + 1 := by
        have : (((k + 1).toNat : Nat) : Int) = k + 1 := Int.toNat_of_nonneg (by omega)
        have := congrArg (Int.cast (R := ℚ)) this
        push_cast at this
        exact this
      by_cases hlast : k + 1 = h
      · have hl : last = false := by
          cases last
          · rfl
          · exact absurd ⟨rfl, hlast⟩ hmode
        have := l1 hl v hv
        rwa [show (h : ℚ) = (k : ℚ) + 1 by exact_mod_cast hlast.symm] at this
      · have := hc.rows v hv (k + 1).toNat (by omega) (by omega)
        rwa [hcast] at this
  have pack : ∀ last, (∀ v ∈ m.vertices, ∀ k : Int, 0 ≤ k → k < h → OkAt fr.aabb.min.z fr.cellSize M h last k v) →
      ∀ c : RCtx, c.fr = fr → c.h = h → (∀ v ∈ cornerList c.tri, v ∈ m.vertices) → SafeTriangle c M last := by
    intro last hz c hcf hch mem
    subst hcf hch
    exact ⟨fun v hv => hs v (mem v hv), fun v hv => hz v (mem v hv), fun v hv => hc.inside v (mem v hv), fun v hv => hc.rows v (mem v hv)⟩
  rcases hc.last with hl | hl
  · exact ⟨false, pack false (main false (fun _ => hl) (by simp))⟩
  · exact ⟨true, pack true (main true (by simp) (fun _ => hl))⟩

/-- After some triangles of a mesh. -/
structure MeshDoneS (fr : Frame) (w h thr : Nat) (M : ℚ) (pre : List Insertion) (hf0 : Heightfield) (m : TriMesh ℚ)
    (done : List Insertion) (hf : Heightfield) : Prop where
  reached : ∃ cols, Reached w h (pre ++ done) hf cols
  run : hf0.insertAll done = .ok hf
  each : ∀ i ∈ done, i.x < w ∧ i.z < h ∧ i.min < i.max ∧ i.max ≤ 65535 ∧ i.thr = thr ∧ ∃ t tri, m.corners t = some tri ∧
    m.areaTypes[t]? = some i.area ∧ ((∀ v ∈ m.vertices, fr.aabb.min.x ≤ v.x) → ∀ v, i.min ≤ v → v < i.max → ∃ q, InTriangle tri q ∧
      NearVoxel fr (roundingError fr w h M) i.x i.z v q)

theorem rasterizeTrianglesR_safe {fr : Frame} {w h : Nat} (hw : 1 ≤ w ∧ w ≤ 32767) (hh : 1 ≤ h ∧ h ≤ 32767) {pre hf0 cols}
    (hr : Reached w h pre hf0 cols) {M : ℚ} (hfr : fr.Moderate w h M) {m : TriMesh ℚ} (hwf : m.WF) (hs : m.Single) (hc : m.ClearOfRows fr h M) (thr : Nat) :
    ∃ hf' done, rasterizeTrianglesR roundF32 fr hf0 m thr = .ok hf' ∧ MeshDoneS fr w h thr M pre hf0 m done hf' := by
  obtain ⟨last, hsafe⟩ := safeTriangle_of_clear hs hfr hc
  unfold rasterizeTrianglesR
  have key : ∀ (l : List Nat) (hf : Heightfield) (done : List Insertion), MeshDoneS fr w h thr M pre hf0 m done hf → (∀ i ∈ l, i < m.indices.length) →
      ∃ hf' done', l.foldlM (rasterizeMeshStepR roundF32 fr m thr) hf = .ok hf' ∧ MeshDoneS fr w h thr M pre hf0 m done' hf' := by
    intro l
    induction l with
    | nil => intro hf done hd _; exact ⟨hf, done, rfl, hd⟩
    | cons i l ih =>
      intro hf done hd hl
      rw [List.foldlM_cons]
      have hi := hl i (by simp)
      obtain ⟨r1, r2, r3⟩ := hwf.inRange _ (List.getElem_mem hi)
      have hla : i < m.areaTypes.length := by rw [hwf.areas]; omega
      obtain ⟨cols1, hr1⟩ := hd.reached
      let c : RCtx := ⟨fr, w, h, m.areaTypes[i], thr, pre ++ done, hf, (m.vertices[(m.indices[i]).1], m.vertices[(m.indices[i]).2.1],
        m.vertices[(m.indices[i]).2.2]), False⟩
      have hdc : c.Done [] hf := ⟨⟨cols1, by simpa [c] using hr1⟩, rfl, by simp⟩
      have mem : ∀ v ∈ cornerList c.tri, v ∈ m.vertices := by
        intro v hv
        simp only [cornerList, c, List.mem_cons, List.not_mem_nil, or_false] at hv
        rcases hv with rfl | rfl | rfl <;> exact List.getElem_mem _
      have hctx : SafeCtx c M := ⟨hfr.safe, id, hw, hh, fun v hv => hc.bounded v (mem v hv)⟩
      obtain ⟨hf', d', e, hd', ht⟩ := rasterizeTriangleR_safe hctx (hsafe c rfl rfl mem) hdc
      have e1 : rasterizeMeshStepR roundF32 fr m thr hf i = .ok hf' := by
        unfold rasterizeMeshStepR
        rw [idx_ok hi, bind_ok, idx_ok r1, bind_ok, idx_ok r2, bind_ok, idx_ok r3, bind_ok, idx_ok hla, bind_ok]
        exact e
      rw [e1, bind_ok]
      refine ih hf' (done ++ d') ⟨?_, ?_, ?_⟩ fun j hj => hl j (by simp [hj])
      · obtain ⟨cols', hr'⟩ := hd'.reached
        exact ⟨cols', by rw [← List.append_assoc]; exact hr'⟩
      · have h2 := hd'.run
        have hrun := hd.run
        simp only [insertAll] at hrun h2 ⊢
        rw [List.foldlM_append, hrun, bind_ok]
        exact h2
      · intro j hj
        rw [List.mem_append] at hj
        rcases hj with hj | hj
        · exact hd.each j hj
        · obtain ⟨a1, a2, a3, a4, a5, a6, -⟩ := hd'.each j hj
          refine ⟨a1, a2, a3, a4, a6, i, c.tri, ?_, ?_, fun hx => ht (fun v hv => hx v (mem v hv)) j hj⟩
          · simp only [TriMesh.corners, c, List.getElem?_eq_getElem hi, List.getElem?_eq_getElem r1, List.getElem?_eq_getElem r2, List.getElem?_eq_getElem r3]
          · rw [a5, List.getElem?_eq_getElem hla]
  exact key _ hf0 [] ⟨⟨cols, by simpa using hr⟩, rfl, by simp⟩ fun i hi => List.mem_range.1 hi

end Rerecast
