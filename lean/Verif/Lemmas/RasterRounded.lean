import Verif.Model.RasterizeRounded
import Verif.Lemmas.RasterRow
import Verif.Lemmas.Float32
/-! The rasterizer with an arbitrary rounding. -/
set_option linter.unusedVariables false
namespace Rerecast
open Heightfield

/-- `x` panics or returns a value satisfying `P`. -/
def OrPanic {α : Type} (x : Res α) (P : α → Prop) : Prop := x = .error .panic ∨ ∃ a, x = .ok a ∧ P a

namespace OrPanic
theorem ok {α : Type} {a : α} {P : α → Prop} (h : P a) : OrPanic (.ok a) P := .inr ⟨a, rfl, h⟩
theorem panic {α : Type} {P : α → Prop} : OrPanic (α := α) (.error .panic) P := .inl rfl
theorem bind {α β : Type} {x : Res α} {f : α → Res β} {P : α → Prop} {Q : β → Prop} (hx : OrPanic x P)
    (hf : ∀ a, P a → OrPanic (f a) Q) : OrPanic (x >>= f) Q := by
  rcases hx with rfl | ⟨a, rfl, ha⟩
  · exact .inl rfl
  · exact hf a ha
theorem foldlM {α σ : Type} {f : σ → α → Res σ} {P : σ → Prop} : ∀ (l : List α) (init : σ), P init →
    (∀ a ∈ l, ∀ s, P s → OrPanic (f s a) P) → OrPanic (l.foldlM f init) P
  | [], init, h0, _ => .inr ⟨init, rfl, h0⟩
  | a :: l, init, h0, step => by
    rw [List.foldlM_cons]
    refine (step a (by simp) init h0).bind fun s hs => foldlM l s hs fun b hb => step b (by simp [hb])
end OrPanic

theorem orPanic_idx {α : Type} (l : List α) (i : Nat) : OrPanic (idx l i) (fun a => l[i]? = some a) := by
  unfold idx
  cases h : l[i]? with
  | none => exact .inl rfl
  | some a => exact .inr ⟨a, rfl, rfl⟩

/-- The clipping buffers keep their seven slots. -/
def DivState.Seven (st : DivState) : Prop := st.out1.length = 7 ∧ st.n1 ≤ 7 ∧ st.out2.length = 7 ∧ st.n2 ≤ 7

theorem push1_seven {st : DivState} (h : st.Seven) (v : V3 Rat) : OrPanic (st.push1 v) DivState.Seven := by
  unfold DivState.push1 setIdx
  split
  · obtain ⟨h1, h2, h3, h4⟩ := h
    exact .ok ⟨by rw [List.length_set]; exact h1, by dsimp only; omega, h3, h4⟩
  · exact .panic
theorem push2_seven {st : DivState} (h : st.Seven) (v : V3 Rat) : OrPanic (st.push2 v) DivState.Seven := by
  unfold DivState.push2 setIdx
  split
  · obtain ⟨h1, h2, h3, h4⟩ := h
    exact .ok ⟨h1, h2, by rw [List.length_set]; exact h3, by dsimp only; omega⟩
  · exact .panic

variable (rnd : Rat → Rat)

theorem divideAddR_seven (axis : DivisionAxis) (offset : Rat) {st : DivState} (h : st.Seven) (a : V3 Rat) :
    OrPanic (divideAddR rnd axis offset st a) DivState.Seven := by
  unfold divideAddR
  dsimp only
  split
  · refine (push1_seven h _).bind fun s1 h1 => (push2_seven h1 _).bind fun s2 h2 => ?_
    split
    · exact push1_seven h2 a
    · split
      · exact push2_seven h2 a
      · exact .ok h2
  · split
    · refine (push1_seven h _).bind fun s1 h1 => ?_
      split
      · exact .ok h1
      · exact push2_seven h1 a
    · exact push2_seven h a

theorem dividePolyR_seven {inVerts out1 out2 : List (V3 Rat)} {n n1 n2 : Nat} (h1 : out1.length = 7) (h2 : out2.length = 7) (hn : n ≤ 7) (hn1 : n1 ≤ 7)
    (hn2 : n2 ≤ 7) (offset : Rat) (axis : DivisionAxis) :
    OrPanic (dividePolyR rnd inVerts n out1 n1 out2 n2 offset axis) (fun r => r.1.length = 7 ∧ r.2.1 ≤ 7 ∧ r.2.2.1.length = 7 ∧ r.2.2.2 ≤ 7) := by
  unfold dividePolyR
  rw [if_neg (by omega)]
  split
  · exact .ok ⟨h1, hn1, h2, hn2⟩
  · split
    · exact .panic
    · refine (orPanic_idx _ _).bind fun last _ => ?_
      refine (OrPanic.foldlM (P := DivState.Seven) _ _ ⟨h1, by simp, h2, by simp⟩ ?_).bind fun s hs => .ok hs
      intro a _ s hs
      unfold divideStepR
      exact (divideAddR_seven rnd axis offset hs a).bind fun s1 h1 => .ok h1

theorem bounds_orPanic (f : V3 Rat → Rat) (buf : List (V3 Rat)) (n : Nat) : OrPanic (bounds f buf n) (fun _ => True) := by
  unfold bounds
  refine (orPanic_idx _ _).bind fun v _ => OrPanic.foldlM _ _ trivial fun i _ s _ => ?_
  exact (orPanic_idx _ _).bind fun v _ => .ok trivial

theorem clampI_orPanic (v lo hi : Int) : OrPanic (clampI v lo hi) (fun r => lo ≤ r ∧ r ≤ hi) := by
  unfold clampI
  split
  · exact .ok ⟨by omega, by omega⟩
  · exact .panic

theorem snapSpanR_orPanic (fr : Frame) (lo hi : Rat) :
    OrPanic (snapSpanR rnd fr lo hi) (fun r => ∀ mn mx, r = some (mn, mx) → mn < mx ∧ mx ≤ 65535) := by
  unfold snapSpanR
  dsimp only
  split
  · exact .ok (by intro _ _ h; cases h)
  · refine (clampI_orPanic _ _ _).bind fun mn h1 => (clampI_orPanic _ _ _).bind fun mx h2 => .ok ?_
    intro a b h
    cases h
    omega

/-- What holds between the columns. -/
structure ColOk (c : RCtx) (Q : Nat → Prop) (st : ColState) : Prop where
  l0 : st.inRow.length = 7
  l1 : st.p1.length = 7
  l2 : st.p2.length = 7
  nv : st.nv ≤ 7
  nv2 : st.nv2 ≤ 7
  fin : ∃ done, c.Done done st.hf ∧ ∀ i ∈ done, Q i.z

theorem colStepR_ok {c : RCtx} (hG : ¬ c.G) {Q : Nat → Prop} {z : Int} (hz : 0 ≤ z ∧ z < c.h) (hQ : Q z.toNat) {st : ColState} (h : ColOk c Q st) {x : Int} (hx : x < c.w) :
    OrPanic (colStepR rnd c.fr c.area c.thr z st x) (ColOk c Q) := by
  unfold colStepR
  refine (dividePolyR_seven rnd h.l1 h.l2 h.nv2 h.nv h.nv2 _ _).bind ?_
  rintro ⟨p1, nv, p2, nv2⟩ ⟨e1, e2, e3, e4⟩
  dsimp only at e1 e2 e3 e4 ⊢
  split
  · exact .ok ⟨e3, e1, h.l0, e2, e4, h.fin⟩
  · refine (bounds_orPanic _ _ _).bind ?_
    rintro ⟨lo, hi⟩ _
    refine (snapSpanR_orPanic rnd _ _ _).bind ?_
    rintro (_ | ⟨mn, mx⟩) hs
    · exact .ok ⟨e3, e1, h.l0, e2, e4, h.fin⟩
    · obtain ⟨s1, s2⟩ := hs mn mx rfl
      obtain ⟨done, hd, hq⟩ := h.fin
      obtain ⟨hf', k1, k2⟩ := hd.snoc ⟨x.toNat, z.toNat, c.thr, mn, mx, c.area⟩
        ⟨by dsimp only; omega, by dsimp only; omega, s1, s2, rfl, rfl, fun g => absurd g hG⟩
      dsimp only at k1 ⊢
      rw [k1, bind_ok]
      refine .ok ⟨e3, e1, h.l0, e2, e4, _, k2, fun i hi => ?_⟩
      rw [List.mem_append, List.mem_singleton] at hi
      rcases hi with hi | rfl
      · exact hq i hi
      · exact hQ

/-- What holds between the rows. -/
structure RowOk (c : RCtx) (Q : Nat → Prop) (st : RowState) : Prop where
  l0 : st.inTri.length = 7
  l1 : st.inRow.length = 7
  l2 : st.p1.length = 7
  l3 : st.p2.length = 7
  nvRow : st.nvRow ≤ 7
  nvIn : st.nvIn ≤ 7
  fin : ∃ done, c.Done done st.hf ∧ ∀ i ∈ done, Q i.z

theorem bounds_of_mem_intRange {a b x : Int} (h : x ∈ intRange a b) : a ≤ x ∧ x ≤ b := by
  unfold intRange at h
  obtain ⟨i, hi, rfl⟩ := List.mem_map.1 h
  rw [List.mem_range] at hi
  omega

theorem rowStepR_ok {c : RCtx} (hG : ¬ c.G) (hw : 1 ≤ c.w ∧ c.w ≤ 32767) {Q : Nat → Prop} {st : RowState} (h : RowOk c Q st) {z : Int} (hz : z < c.h)
    (hQ : 0 ≤ z → Q z.toNat) :
    OrPanic (rowStepR rnd c.fr c.w c.area c.thr st z) (RowOk c Q) := by
  unfold rowStepR
  dsimp only
  refine (dividePolyR_seven rnd h.l1 h.l2 h.nvIn h.nvRow h.nvIn _ _).bind ?_
  rintro ⟨inRow, nvRow, p1, nvIn⟩ ⟨e1, e2, e3, e4⟩
  dsimp only at e1 e2 e3 e4 ⊢
  split
  · exact .ok ⟨e3, e1, h.l0, h.l3, e2, e4, h.fin⟩
  · rename_i hz0
    refine (bounds_orPanic _ _ _).bind ?_
    rintro ⟨lo, hi⟩ _
    dsimp only
    split
    · exact .ok ⟨e3, e1, h.l0, h.l3, e2, e4, h.fin⟩
    · have hwI : u16AsI16 c.w = (c.w : Int) := by unfold u16AsI16; rw [if_pos hw.2]
      rw [hwI]
      unfold predI16
      rw [if_neg (by omega), bind_ok]
      refine (clampI_orPanic _ _ _).bind fun x0 _ => (clampI_orPanic _ _ _).bind fun x1 hx1 => ?_
      refine (OrPanic.foldlM (P := ColOk c Q) _ _ ⟨e1, h.l0, h.l3, by simp, e2, h.fin⟩ ?_).bind fun s hs =>
        .ok ⟨e3, hs.l0, hs.l1, hs.l2, e2, e4, hs.fin⟩
      intro x hx s hs
      have := bounds_of_mem_intRange hx
      exact colStepR_ok rnd hG ⟨by omega, hz⟩ (hQ (by omega)) hs (by omega)

/-- The computed row of a `z` coordinate. -/
def rowOf (fr : Frame) (z : Rat) : Int := ratAsI16 (rnd (rnd (z - fr.aabb.min.z) * rnd (1 / fr.cellSize)))

/-- Whatever the rounding, a triangle is rasterized by inserting blocks into the computed rows of the grid, or the program aborts. -/
theorem rasterizeTriangleR_ok {c : RCtx} (hG : ¬ c.G) (hw : 1 ≤ c.w ∧ c.w ≤ 32767) (hh : 1 ≤ c.h ∧ c.h ≤ 32767) {hf : Heightfield}
    (hd : c.Done [] hf) : OrPanic (rasterizeTriangleR rnd c.fr hf c.tri c.area c.thr) (fun hf' => ∃ done', c.Done done' hf' ∧
      ∀ i ∈ done', (i.z : Int) ≤ max 0 (rowOf rnd c.fr (triangleAabb c.tri).max.z) ∧
        (rowOf rnd c.fr (triangleAabb c.tri).min.z ≤ i.z ∨ i.z + 1 = c.h) ∧ c.fr.aabb.intersects (triangleAabb c.tri) = true) := by
  obtain ⟨cols, hr⟩ := hd.reached
  unfold rasterizeTriangleR
  dsimp only
  split
  · exact .ok ⟨[], hd, by simp⟩
  · rename_i hint
    have hhI : u16AsI16 hf.height = (c.h : Int) := by unfold u16AsI16; rw [hr.height, if_pos hh.2]
    rw [hhI, hr.width]
    unfold predI16
    rw [if_neg (by omega), bind_ok]
    change OrPanic (clampI (rowOf rnd c.fr (triangleAabb c.tri).min.z) (-1) (↑c.h - 1) >>= fun z0 =>
      clampI (rowOf rnd c.fr (triangleAabb c.tri).max.z) 0 (↑c.h - 1) >>= _) _
    have hcl : ∀ v lo hi : Int, OrPanic (clampI v lo hi) (fun r => lo ≤ hi ∧ r = max lo (min v hi)) := by
      intro v lo hi
      unfold clampI
      split
      · exact .ok ⟨by assumption, by omega⟩
      · exact .panic
    refine (hcl _ _ _).bind fun z0 hz0 => (hcl _ _ _).bind fun z1 hz1 => ?_
    refine (OrPanic.foldlM (P := RowOk c fun k => (k : Int) ≤ z1 ∧ z0 ≤ k) _ _ ⟨by simp [zeroBuf], by simp [zeroBuf], by simp [zeroBuf], by simp [zeroBuf],
      by simp, by simp, [], hd, by simp⟩ ?_).bind fun s hs => .ok ?_
    · intro z hz s hs
      have := bounds_of_mem_intRange hz
      exact rowStepR_ok rnd hG hw hs (by omega) (fun _ => by omega)
    · obtain ⟨done, h1, h2⟩ := hs.fin
      refine ⟨done, h1, fun i hi => ?_⟩
      obtain ⟨a, b⟩ := h2 i hi
      obtain ⟨-, b2, -⟩ := h1.each i hi
      exact ⟨by omega, by omega, by simpa using hint⟩

/-- The insertions made for the first triangles of a mesh, with any rounding. -/
structure MeshDoneR (fr : Frame) (w h thr : Nat) (pre : List Insertion) (hf0 : Heightfield) (m : TriMesh Rat) (done : List Insertion)
    (hf : Heightfield) : Prop where
  reached : ∃ cols, Reached w h (pre ++ done) hf cols
  run : hf0.insertAll done = .ok hf
  each : ∀ i ∈ done, i.x < w ∧ i.z < h ∧ i.min < i.max ∧ i.max ≤ 65535 ∧ i.thr = thr ∧
    ∃ t tri, m.corners t = some tri ∧ m.areaTypes[t]? = some i.area ∧ fr.aabb.intersects (triangleAabb tri) = true ∧
      (i.z : Int) ≤ max 0 (rowOf rnd fr (triangleAabb tri).max.z) ∧ (rowOf rnd fr (triangleAabb tri).min.z ≤ i.z ∨ i.z + 1 = h)

theorem rasterizeTrianglesR_ok {fr : Frame} {w h thr : Nat} (hw : 1 ≤ w ∧ w ≤ 32767) (hh : 1 ≤ h ∧ h ≤ 32767) {pre hf0 cols}
    (hr : Reached w h pre hf0 cols) (m : TriMesh Rat) :
    OrPanic (rasterizeTrianglesR rnd fr hf0 m thr) (fun hf => ∃ done, MeshDoneR rnd fr w h thr pre hf0 m done hf) := by
  unfold rasterizeTrianglesR
  refine OrPanic.foldlM _ _ ⟨[], ⟨cols, by simpa using hr⟩, rfl, by simp⟩ ?_
  rintro t _ hf ⟨done, ⟨cols1, hr1⟩, hrun, heach⟩
  unfold rasterizeMeshStepR
  refine (orPanic_idx _ _).bind fun ix h1 => (orPanic_idx _ _).bind fun a ha => (orPanic_idx _ _).bind fun b hb =>
    (orPanic_idx _ _).bind fun c hc => (orPanic_idx _ _).bind fun ar har => ?_
  have hcorn : m.corners t = some (a, b, c) := by simp only [TriMesh.corners, h1, ha, hb, hc]
  rcases rasterizeTriangleR_ok rnd (c := ⟨fr, w, h, ar, thr, pre ++ done, hf, (a, b, c), False⟩) id hw hh (hf := hf)
    ⟨⟨cols1, by simpa using hr1⟩, rfl, by simp⟩ with e | ⟨hf', e, d', hd', hz'⟩
  · exact .inl e
  · refine .inr ⟨hf', e, done ++ d', ?_, ?_, ?_⟩
    · obtain ⟨cols', hr'⟩ := hd'.reached
      exact ⟨cols', by rw [← List.append_assoc]; exact hr'⟩
    · have h2 := hd'.run
      simp only [insertAll] at hrun h2 ⊢
      rw [List.foldlM_append, hrun, bind_ok, h2]
    · intro i hi
      rw [List.mem_append] at hi
      rcases hi with hi | hi
      · exact heach i hi
      · obtain ⟨a1, a2, a3, a4, a5, a6, -⟩ := hd'.each i hi
        obtain ⟨b1, b2, b3⟩ := hz' i hi
        exact ⟨a1, a2, a3, a4, a6, t, _, hcorn, by rw [a5]; exact har, b3, b1, b2⟩

/-! ### The rows in single precision -/

theorem rowOf_close {D cs : ℚ} (hD : 0 ≤ D) (h1 : 1 / 2 ^ 20 ≤ cs) (h2 : cs ≤ 2 ^ 20) :
    |roundF32 (roundF32 D * roundF32 (1 / cs)) - D / cs| ≤ D / cs * (1 / 2 ^ 22) + 1 / 2 ^ 22 := by
  have c0 : 0 < cs := lt_of_lt_of_le (by norm_num) h1
  have k0 : 0 < 1 / cs := by positivity
  have kM : 1 / cs ≤ 2 ^ 20 := by
    rw [div_le_iff₀ c0]
    linarith
  have e1 := roundF32_error D
  have e2 := roundF32_error (1 / cs)
  have e3 := roundF32_error (roundF32 D * roundF32 (1 / cs))
  have hu : pow2 (-24) = 1 / 2 ^ 24 := by unfold pow2; rw [if_neg (by norm_num)]; push_cast; rfl
  have hn : pow2 (-150) = 1 / 2 ^ 150 := by unfold pow2; rw [if_neg (by norm_num)]; push_cast; rfl
  rw [hu, hn] at e1 e2 e3
  have ha : D / cs = D * (1 / cs) := by ring
  rw [ha]
  have hDa : D ≤ 2 ^ 20 * (D * (1 / cs)) := by
    have : D = D * (1 / cs) * cs := by field_simp
    calc D = D * (1 / cs) * cs := this
      _ ≤ D * (1 / cs) * 2 ^ 20 := by gcongr
      _ = _ := by ring
  generalize roundF32 (roundF32 D * roundF32 (1 / cs)) = P at *
  generalize hk : (1 : ℚ) / cs = k at *
  generalize roundF32 D = t at *
  generalize roundF32 k = v at *
  rw [abs_of_nonneg hD] at e1
  rw [abs_of_pos k0] at e2
  have f1 : |v| ≤ k * (1 + 1 / 2 ^ 24) + 1 / 2 ^ 150 := by
    have : |v| ≤ |v - k| + |k| := by
      have := abs_add_le (v - k) k
      simpa using this
    rw [abs_of_pos k0] at this
    linarith
  have f2 : |t * v - D * k| ≤ (1 / 2 ^ 24 * D + 1 / 2 ^ 150) * (k * (1 + 1 / 2 ^ 24) + 1 / 2 ^ 150) + D * (1 / 2 ^ 24 * k + 1 / 2 ^ 150) := by
    have : t * v - D * k = (t - D) * v + D * (v - k) := by ring
    rw [this]
    refine (abs_add_le _ _).trans ?_
    rw [abs_mul, abs_mul, abs_of_nonneg hD]
    gcongr
  generalize hA : D * k = A at *
  have f3 : (1 / 2 ^ 24 * D + 1 / 2 ^ 150) * (k * (1 + 1 / 2 ^ 24) + 1 / 2 ^ 150) + D * (1 / 2 ^ 24 * k + 1 / 2 ^ 150) =
    (1 / 2 ^ 24 * (1 + 1 / 2 ^ 24) + 1 / 2 ^ 24) * A + (1 / 2 ^ 24 * (1 / 2 ^ 150) + 1 / 2 ^ 150) * D + (1 / 2 ^ 150 * (1 + 1 / 2 ^ 24)) * k +
      1 / 2 ^ 150 * (1 / 2 ^ 150) := by rw [← hA]; ring
  rw [f3] at f2
  have A0 : 0 ≤ A := by rw [← hA]; positivity
  have f4 : |t * v| ≤ |t * v - A| + A := by
    have := abs_add_le (t * v - A) A
    rw [abs_of_nonneg A0] at this
    simpa using this
  have f5 : |P - A| ≤ |P - t * v| + |t * v - A| := by
    have := abs_add_le (P - t * v) (t * v - A)
    simpa using this
  have g : |t * v - A| ≤ 9 / 2 ^ 26 * A + 1 / 2 ^ 100 := by
    refine f2.trans ?_
    norm_num at hDa kM ⊢
    linarith
  norm_num at *
  linarith

theorem rowOf_upper {fr : Frame} (h1 : 1 / 2 ^ 20 ≤ fr.cellSize) (h2 : fr.cellSize ≤ 2 ^ 20) {z : ℚ} (hz : fr.aabb.min.z ≤ z) {k : Nat}
    (hk : (k : Int) ≤ max 0 (rowOf roundF32 fr z)) :
    (k : ℚ) * fr.cellSize ≤ (z - fr.aabb.min.z) * (1 + 1 / 2 ^ 22) + fr.cellSize * (1 / 2 ^ 22) := by
  have c0 : 0 < fr.cellSize := lt_of_lt_of_le (by norm_num) h1
  have hD : 0 ≤ z - fr.aabb.min.z := by linarith
  have hc := (abs_le.1 (rowOf_close hD h1 h2)).2
  have hP : (k : ℚ) ≤ (z - fr.aabb.min.z) / fr.cellSize * (1 + 1 / 2 ^ 22) + 1 / 2 ^ 22 := by
    by_cases h0 : (k : Int) ≤ 0
    · have : k = 0 := by omega
      subst this
      push_cast
      positivity
    · have hP0 : 0 ≤ roundF32 (roundF32 (z - fr.aabb.min.z) * roundF32 (1 / fr.cellSize)) := by
        have a := roundF32_mono hD
        have b := roundF32_mono (a := 0) (b := 1 / fr.cellSize) (by positivity)
        rw [roundF32_zero] at a b
        have := roundF32_mono (mul_nonneg a b)
        rwa [roundF32_zero] at this
      have hk' : (k : Int) ≤ ratTrunc (roundF32 (roundF32 (z - fr.aabb.min.z) * roundF32 (1 / fr.cellSize))) := by
        unfold rowOf ratAsI16 at hk
        omega
      rw [ratTrunc_nonneg hP0] at hk'
      have := Rat.le_floor_iff.1 hk'
      push_cast at this
      linarith
  calc (k : ℚ) * fr.cellSize ≤ ((z - fr.aabb.min.z) / fr.cellSize * (1 + 1 / 2 ^ 22) + 1 / 2 ^ 22) * fr.cellSize := by gcongr
    _ = _ := by field_simp

theorem rowOf_lower {fr : Frame} (h1 : 1 / 2 ^ 20 ≤ fr.cellSize) (h2 : fr.cellSize ≤ 2 ^ 20) {z : ℚ} {k : Nat} (hk2 : k < 32767)
    (hk : rowOf roundF32 fr z ≤ k) :
    (z - fr.aabb.min.z) * (1 - 1 / 2 ^ 22) - fr.cellSize * (1 / 2 ^ 22) ≤ (k + 1 : ℚ) * fr.cellSize := by
  have c0 : 0 < fr.cellSize := lt_of_lt_of_le (by norm_num) h1
  by_cases hD : 0 ≤ z - fr.aabb.min.z
  · have hc := (abs_le.1 (rowOf_close hD h1 h2)).1
    have hP0 : 0 ≤ roundF32 (roundF32 (z - fr.aabb.min.z) * roundF32 (1 / fr.cellSize)) := by
      have a := roundF32_mono hD
      have b := roundF32_mono (a := 0) (b := 1 / fr.cellSize) (by positivity)
      rw [roundF32_zero] at a b
      have := roundF32_mono (mul_nonneg a b)
      rwa [roundF32_zero] at this
    have hk' : ratTrunc (roundF32 (roundF32 (z - fr.aabb.min.z) * roundF32 (1 / fr.cellSize))) ≤ k := by
      unfold rowOf ratAsI16 at hk
      omega
    rw [ratTrunc_nonneg hP0] at hk'
    have hlt : roundF32 (roundF32 (z - fr.aabb.min.z) * roundF32 (1 / fr.cellSize)) < (k : ℚ) + 1 := by
      have := Rat.floor_lt_iff.1 (Int.lt_add_one_of_le hk')
      push_cast at this
      exact this
    have hle : (z - fr.aabb.min.z) / fr.cellSize * (1 - 1 / 2 ^ 22) - 1 / 2 ^ 22 ≤ (k : ℚ) + 1 := by linarith
    calc (z - fr.aabb.min.z) * (1 - 1 / 2 ^ 22) - fr.cellSize * (1 / 2 ^ 22) =
          ((z - fr.aabb.min.z) / fr.cellSize * (1 - 1 / 2 ^ 22) - 1 / 2 ^ 22) * fr.cellSize := by field_simp
      _ ≤ _ := by gcongr
  · have : (0 : ℚ) ≤ (k + 1 : ℚ) * fr.cellSize := by positivity
    push Not at hD
    nlinarith

end Rerecast
