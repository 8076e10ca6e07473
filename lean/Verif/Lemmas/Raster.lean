import Verif.Lemmas.RasterArith
import Verif.Lemmas.HeightfieldHistory
import Verif.Spec.Rasterize
/-! The row and column loops of the rasterizer. -/
set_option linter.unusedVariables false
namespace Rerecast
open Heightfield

/-- Grid lines. -/
def gx (fr : Frame) (k : Int) : Rat := fr.aabb.min.x + (k : Rat) * fr.cellSize
def gz (fr : Frame) (k : Int) : Rat := fr.aabb.min.z + (k : Rat) * fr.cellSize

theorem gx_succ (fr : Frame) (k : Int) : fr.aabb.min.x + (k : Rat) * fr.cellSize + fr.cellSize = gx fr (k + 1) := by
  simp only [gx]; push_cast; ring
theorem gz_succ (fr : Frame) (k : Int) : fr.aabb.min.z + (k : Rat) * fr.cellSize + fr.cellSize = gz fr (k + 1) := by
  simp only [gz]; push_cast; ring
theorem gx_lt {fr : Frame} (h : 0 < fr.cellSize) {a b : Int} (hab : a < b) : gx fr a < gx fr b := by
  have : (a : Rat) < b := by exact_mod_cast hab
  have := mul_lt_mul_of_pos_right this h
  simp only [gx]; linarith
theorem gz_lt {fr : Frame} (h : 0 < fr.cellSize) {a b : Int} (hab : a < b) : gz fr a < gz fr b := by
  have : (a : Rat) < b := by exact_mod_cast hab
  have := mul_lt_mul_of_pos_right this h
  simp only [gz]; linarith
theorem gx_le {fr : Frame} (h : 0 < fr.cellSize) {a b : Int} (hab : a ≤ b) : gx fr a ≤ gx fr b := by
  rcases eq_or_lt_of_le hab with rfl | h1
  · exact le_refl _
  · exact le_of_lt (gx_lt h h1)
theorem gz_le {fr : Frame} (h : 0 < fr.cellSize) {a b : Int} (hab : a ≤ b) : gz fr a ≤ gz fr b := by
  rcases eq_or_lt_of_le hab with rfl | h1
  · exact le_refl _
  · exact le_of_lt (gz_lt h h1)

/-- The fixed data of one triangle's rasterization. -/
structure RCtx where
  fr : Frame
  w : Nat
  h : Nat
  area : Area
  thr : Nat
  pre : List Insertion
  hf0 : Heightfield
  tri : V3 Rat × V3 Rat × V3 Rat
  /-- the guard of the soundness part -/
  G : Prop

/-- Every voxel of an insertion is touched by the triangle inside the insertion's cell. -/
def RCtx.Touched (c : RCtx) (i : Insertion) : Prop :=
  ∀ v, i.min ≤ v → v < i.max → ∃ q, InTriangle c.tri q ∧ InCell c.fr i.x i.z q ∧
    InHeightRange c.fr q.y ∧ InVoxel c.fr v q.y

/-- `hf` is the starting field after the insertions `done`. -/
structure RCtx.Done (c : RCtx) (done : List Insertion) (hf : Heightfield) : Prop where
  reached : ∃ cols, Reached c.w c.h (c.pre ++ done) hf cols
  run : c.hf0.insertAll done = .ok hf
  each : ∀ i ∈ done, i.x < c.w ∧ i.z < c.h ∧ i.min < i.max ∧ i.max ≤ 65535 ∧ i.area = c.area ∧
    i.thr = c.thr ∧ (c.G → c.Touched i)

theorem RCtx.Done.snoc {c : RCtx} {done hf} (h : c.Done done hf) (i : Insertion)
    (hi : i.x < c.w ∧ i.z < c.h ∧ i.min < i.max ∧ i.max ≤ 65535 ∧ i.area = c.area ∧
      i.thr = c.thr ∧ (c.G → c.Touched i)) :
    ∃ hf', hf.addSpan i.x i.z i.thr ⟨i.min, i.max, i.area, none⟩ = .ok hf' ∧ c.Done (done ++ [i]) hf' := by
  obtain ⟨cols, hr⟩ := h.reached
  obtain ⟨hf', cols', e, hr', -⟩ := hr.step i hi.1 hi.2.1 (le_of_lt hi.2.2.1)
  refine ⟨hf', e, ⟨cols', by rw [← List.append_assoc]; exact hr'⟩, ?_, ?_⟩
  · have hrun := h.run
    simp only [insertAll] at hrun ⊢
    rw [List.foldlM_append, hrun, bind_ok, List.foldlM_cons, e, bind_ok, List.foldlM_nil]
    rfl
  · intro j hj
    rw [List.mem_append, List.mem_singleton] at hj
    rcases hj with hj | rfl
    · exact h.each j hj
    · exact hi

/-- Some insertion covers height `y` in cell `(x, z)`. -/
def Covers (fr : Frame) (done : List Insertion) (x z : Nat) (y : Rat) : Prop :=
  ∃ i ∈ done, i.x = x ∧ i.z = z ∧ ∃ v, i.min ≤ v ∧ v < i.max ∧ InVoxel fr v y

theorem Covers.mono {fr done done' x z y} (h : Covers fr done x z y) (hs : done ⊆ done') :
    Covers fr done' x z y := by
  obtain ⟨i, hi, h⟩ := h
  exact ⟨i, hs hi, h⟩

/-! ### Convex sets -/

theorem convex_inTriangle (t) : ConvexPred (InTriangle t) := by
  rintro p a s ⟨a1, b1, c1, h1, h2, h3, h4, h5, h6, h7⟩ ⟨a2, b2, c2, k1, k2, k3, k4, k5, k6, k7⟩ s0 s1
  have t0 : 0 ≤ 1 - s := by linarith
  refine ⟨a1 * (1 - s) + a2 * s, b1 * (1 - s) + b2 * s, c1 * (1 - s) + c2 * s, by positivity,
    by positivity, by positivity, ?_, ?_, ?_, ?_⟩
  · have : a1 * (1 - s) + a2 * s + (b1 * (1 - s) + b2 * s) + (c1 * (1 - s) + c2 * s) =
      (a1 + b1 + c1) * (1 - s) + (a2 + b2 + c2) * s := by ring
    rw [this, h4, k4]; ring
  · simp only [lerp, h5, k5]; ring
  · simp only [lerp, h6, k6]; ring
  · simp only [lerp, h7, k7]; ring

theorem ConvexPred.and {C D : V3 Rat → Prop} (h : ConvexPred C) (g : ConvexPred D) :
    ConvexPred fun v => C v ∧ D v :=
  fun p a s hp ha s0 s1 => ⟨h p a s hp.1 ha.1 s0 s1, g p a s hp.2 ha.2 s0 s1⟩

theorem convex_half (f : Aff) : ConvexPred fun v => 0 ≤ f.eval v := by
  intro p a s hp ha s0 s1
  rw [Aff.eval_lerp]
  have : f.eval p + (f.eval a - f.eval p) * s = f.eval p * (1 - s) + f.eval a * s := by ring
  rw [this]
  exact add_nonneg (mul_nonneg hp (by linarith)) (mul_nonneg ha s0)

theorem convex_ge_x (k : Rat) : ConvexPred fun v => k ≤ v.x := by
  have := convex_half ⟨1, 0, 0, -k⟩
  intro p a s hp ha s0 s1
  have h := this p a s (by simp only [Aff.eval]; linarith) (by simp only [Aff.eval]; linarith) s0 s1
  simp only [Aff.eval] at h; linarith
theorem convex_ge_z (k : Rat) : ConvexPred fun v => k ≤ v.z := by
  have := convex_half ⟨0, 0, 1, -k⟩
  intro p a s hp ha s0 s1
  have h := this p a s (by simp only [Aff.eval]; linarith) (by simp only [Aff.eval]; linarith) s0 s1
  simp only [Aff.eval] at h; linarith
theorem convex_le_x (k : Rat) : ConvexPred fun v => v.x ≤ k := by
  have := convex_half ⟨-1, 0, 0, k⟩
  intro p a s hp ha s0 s1
  have h := this p a s (by simp only [Aff.eval]; linarith) (by simp only [Aff.eval]; linarith) s0 s1
  simp only [Aff.eval] at h; linarith
theorem convex_le_z (k : Rat) : ConvexPred fun v => v.z ≤ k := by
  have := convex_half ⟨0, 0, -1, k⟩
  intro p a s hp ha s0 s1
  have h := this p a s (by simp only [Aff.eval]; linarith) (by simp only [Aff.eval]; linarith) s0 s1
  simp only [Aff.eval] at h; linarith

/-- Heights between those of two points are attained between them. -/
theorem attain_y {C : V3 Rat → Prop} (hC : ConvexPred C) {u w : V3 Rat} (hu : C u) (hw : C w) {y : Rat}
    (h1 : u.y ≤ y) (h2 : y ≤ w.y) : ∃ q, C q ∧ q.y = y := by
  by_cases he : u.y = w.y
  · exact ⟨u, hu, by linarith⟩
  · have hlt : 0 < w.y - u.y := by
      rcases lt_or_gt_of_ne he with h | h <;> linarith
    refine ⟨lerp u w ((y - u.y) / (w.y - u.y)), hC u w _ hu hw (div_nonneg (by linarith) (le_of_lt hlt))
      ((div_le_one hlt).2 (by linarith)), ?_⟩
    simp only [lerp]
    field_simp
    ring

theorem InHull.y_le {P : List (V3 Rat)} {q : V3 Rat} (h : InHull P q) {lo hi : Rat}
    (hb : ∀ v ∈ P, lo ≤ v.y ∧ v.y ≤ hi) : lo ≤ q.y ∧ q.y ≤ hi := by
  have h1 := h ⟨0, 1, 0, -lo⟩ (fun v hv => by simp only [Aff.eval]; have := hb v hv; linarith)
  have h2 := h ⟨0, -1, 0, hi⟩ (fun v hv => by simp only [Aff.eval]; have := hb v hv; linarith)
  simp only [Aff.eval] at h1 h2
  constructor <;> linarith

/-! ### Emitting one cell -/

/-- The tail of `colStep`. -/
def emit (fr : Frame) (area : Area) (thr : Nat) (z x : Int) (st : ColState) : Res ColState := do
  let (lo, hi) ← bounds V3.y st.p1 st.nv
  match ← snapSpan fr lo hi with
  | none => .ok st
  | some (mn, mx) =>
    let hf ← st.hf.addSpan x.toNat z.toNat thr ⟨mn, mx, area, none⟩
    .ok { st with hf }

theorem emit_spec {c : RCtx} (hs : c.fr.Sane) {st : ColState} {done} {P : List (V3 Rat)} {x z : Nat}
    (hx : x < c.w) (hz : z < c.h) (hd : c.Done done st.hf) (hb : Buf st.p1 st.nv P) (hne : P ≠ [])
    (hG : c.G → ∀ v ∈ P, InTriangle c.tri v ∧ InCell c.fr x z v) :
    ∃ hf' done', emit c.fr c.area c.thr z x st = .ok { st with hf := hf' } ∧ c.Done done' hf' ∧
      done ⊆ done' ∧ ∀ q, InHull P q → InHeightRange c.fr q.y → Covers c.fr done' x z q.y := by
  obtain ⟨lo, hi, e, b1, ⟨u, hu, hul⟩, ⟨w, hw, hwl⟩⟩ := bounds_spec (f := V3.y) hb hne
  have hlh : lo ≤ hi := le_trans (b1 u hu).1 (b1 u hu).2
  rcases snapSpan_spec c.fr lo hi hlh hs.cellHeight (by linarith [hs.tall]) hs.notTooTall with
    ⟨e2, hout⟩ | ⟨mn, mx, e2, hlt, hmx, hcov, hsound⟩
  · refine ⟨st.hf, done, ?_, hd, fun _ h => h, ?_⟩
    · unfold emit; rw [e, bind_ok]; dsimp only; rw [e2, bind_ok]
    · intro q hq ⟨h1, h2⟩
      obtain ⟨h3, h4⟩ := hq.y_le b1
      exfalso
      rcases hout with h | h <;> linarith
  · obtain ⟨hf', e3, hd'⟩ := hd.snoc ⟨x, z, c.thr, mn, mx, c.area⟩ ⟨hx, hz, hlt, hmx, rfl, rfl, by
      intro g v hv1 hv2
      obtain ⟨y, y1, y2, y3, y4, y5, y6⟩ := hsound v hv1 hv2
      have hC : ConvexPred fun v => InTriangle c.tri v ∧ InCell c.fr x z v :=
        (convex_inTriangle _).and ((convex_ge_x _).and ((convex_le_x _).and
          ((convex_ge_z _).and (convex_le_z _))))
      obtain ⟨q, ⟨q1, q2⟩, rfl⟩ := attain_y hC (hG g u hu) (hG g w hw) (y := y) (by linarith) (by linarith)
      exact ⟨q, q1, q2, ⟨y3, y4⟩, ⟨y5, y6⟩⟩⟩
    refine ⟨hf', _, ?_, hd', fun _ h => List.mem_append_left _ h, ?_⟩
    · unfold emit; rw [e, bind_ok]; dsimp only; rw [e2, bind_ok]; dsimp only
      rw [Int.toNat_natCast, Int.toNat_natCast, e3, bind_ok]
    · intro q hq ⟨h1, h2⟩
      obtain ⟨h3, h4⟩ := hq.y_le b1
      obtain ⟨v, v1, v2, v3, v4⟩ := hcov q.y h3 h4 h1 h2
      exact ⟨⟨x, z, c.thr, mn, mx, c.area⟩, by simp, rfl, rfl, v, v1, v2, v3, v4⟩

/-! ### The column loop -/

structure ColInv (c : RCtx) (B : List (V3 Rat)) (z : Nat) (mv : V3 Rat) (x0 x1 x : Int)
    (st : ColState) (done : List Insertion) : Prop where
  l1 : st.p1.length = 7
  l2 : st.p2.length = 7
  rest : ∃ R, Buf st.inRow st.nv2 R ∧ Unimodal R ∧ Rest .X B R (gx c.fr x) ∧
    (∀ q, InHull B q → gx c.fr x < q.x → InHull R q ∧ 3 ≤ R.length) ∧
    (c.G → (∀ v ∈ R, (InTriangle c.tri v ∧ gz c.fr z ≤ v.z ∧ v.z ≤ gz c.fr (z + 1)) ∧ gx c.fr x ≤ v.x) ∧
      (x ≤ x1 → mv ∈ R))
  cell : ∃ P, Buf st.p1 st.nv P
  fin : c.Done done st.hf
  cov : ∀ q, InHull B q → InHeightRange c.fr q.y → ∀ k : Nat, x0 ≤ k → (k : Int) < x →
    gx c.fr k < q.x → q.x < gx c.fr (k + 1) → Covers c.fr done k z q.y

theorem colStep_eq (fr : Frame) (area : Area) (thr : Nat) (z : Int) (st : ColState) (x : Int)
    {p1 nv p2 nv2} (h : dividePoly st.inRow st.nv2 st.p1 st.nv st.p2 st.nv2 (gx fr (x + 1)) .X =
      .ok (p1, nv, p2, nv2)) :
    colStep fr area thr z st x = if nv < 3 ∨ x < 0
      then .ok { st with p1, nv, nv2, inRow := p2, p2 := st.inRow }
      else emit fr area thr z x { st with p1, nv, nv2, inRow := p2, p2 := st.inRow } := by
  unfold colStep
  dsimp only
  rw [gx_succ, h, bind_ok]
  rfl

theorem colStep_spec {c : RCtx} (hs : c.fr.Sane) {B : List (V3 Rat)} {z : Nat} (hz : z < c.h)
    {mv : V3 Rat} {x0 x1 x : Int} (h5 : B.length ≤ 5) (hmv : c.G → gx c.fr x1 ≤ mv.x)
    (hx1 : x1 < c.w) (hx : -1 ≤ x) (hxx : x ≤ x1) {st done} (hi : ColInv c B z mv x0 x1 x st done) :
    ∃ st' done', colStep c.fr c.area c.thr z st x = .ok st' ∧ done ⊆ done' ∧
      ColInv c B z mv x0 x1 (x + 1) st' done' := by
  obtain ⟨R, hR, hU, hrest, hK, hG⟩ := hi.rest
  obtain ⟨P0, hP0⟩ := hi.cell
  have hltx : gx c.fr x < gx c.fr (x + 1) := gx_lt hs.cellSize (by omega)
  by_cases hne : R = []
  · subst hne
    have hn : st.nv2 = 0 := hR.count
    have notG : ¬ c.G := fun g => by have := (hG g).2 hxx; simp at this
    have hdiv := dividePoly_empty (inV := st.inRow) (o1 := st.p1) (o2 := st.p2) (n1 := st.nv)
      (n2 := st.nv2) .X (gx c.fr (x + 1))
    rw [← hn] at hdiv
    have hempty : ∀ q, InHull B q → gx c.fr x < q.x → False := by
      intro q hq hqx
      have := (hK q hq hqx).2
      simp at this
    have mk : ∀ hf' done', c.Done done' hf' → done ⊆ done' →
        ColInv c B z mv x0 x1 (x + 1) { st with hf := hf', inRow := st.p2, p2 := st.inRow } done' := by
      intro hf' done' hd hsub
      refine ⟨hi.l1, hR.len, ⟨[], ⟨hi.l2, hn, by simp only [hn]; rfl⟩, unimodal_nil, ?_, ?_, ?_⟩, ⟨P0, hP0⟩, hd, ?_⟩
      · have := hrest.step hU hltx
        exact this
      · intro q hq hqx
        exact (hempty q hq (by linarith)).elim
      · intro g; exact absurd g notG
      · intro q hq hy k hk1 hk2 hk3 hk4
        by_cases hkx : (k : Int) < x
        · exact (hi.cov q hq hy k hk1 hkx hk3 hk4).mono hsub
        · have : (k : Int) = x := by omega
          rw [this] at hk3
          exact (hempty q hq hk3).elim
    rw [colStep_eq _ _ _ _ _ _ hdiv]
    split
    · exact ⟨_, done, rfl, fun _ h => h, mk st.hf done hi.fin fun _ h => h⟩
    · rename_i hc
      push Not at hc
      obtain ⟨xn, hxn⟩ := Int.eq_ofNat_of_zero_le hc.2
      have hPne : P0 ≠ [] := by
        intro h
        have := hP0.count
        rw [h] at this
        simp at this; omega
      obtain ⟨hf', done', e, hd, hsub, -⟩ := emit_spec (c := c) hs (x := xn) (z := z)
        (st := { st with inRow := st.p2, p2 := st.inRow }) (done := done) (P := P0) (by omega) hz hi.fin
        hP0 hPne (fun g => absurd g notG)
      refine ⟨_, done', ?_, hsub, mk hf' done' hd hsub⟩
      rw [hxn]
      exact e
  · have hRl : R.length ≤ 6 := by have := hrest.len; omega
    have hk1 : (keep1 (sideAff .X (gx c.fr (x + 1))) R).length ≤ 7 := by
      have := keep1_length (e := sideAff .X (gx c.fr (x + 1))) hU; omega
    have hk2 : (keep2 (sideAff .X (gx c.fr (x + 1))) R).length ≤ 7 := by
      have := keep2_length (e := sideAff .X (gx c.fr (x + 1))) hU; omega
    obtain ⟨p1, nv, p2, nv2, hdiv, hB1, hB2⟩ := dividePoly_spec (n1 := st.nv) (n2 := st.nv2) .X
      (gx c.fr (x + 1)) hR hne hi.l1 hi.l2 hk1 hk2
    have hev : ∀ v, (sideAff .X (gx c.fr (x + 1))).eval v = gx c.fr (x + 1) - v.x :=
      sideAff_eval .X (gx c.fr (x + 1))
    set e := sideAff .X (gx c.fr (x + 1)) with he
    have hmono : ∀ hf' done', c.Done done' hf' → done ⊆ done' →
        (0 ≤ x → ∀ q, InHull B q → InHeightRange c.fr q.y → gx c.fr x < q.x → q.x < gx c.fr (x + 1) →
          Covers c.fr done' x.toNat z q.y) →
        ColInv c B z mv x0 x1 (x + 1) ⟨hf', p2, p1, st.inRow, nv, nv2⟩ done' := by
      intro hf' done' hd hsub hnew
      refine ⟨hB1.len, hR.len, ⟨_, hB2, unimodal_keep2 hU, hrest.step hU hltx, ?_, ?_⟩, ⟨_, hB1⟩, hd, ?_⟩
      · intro q hq hqx
        obtain ⟨g1, g2⟩ := hK q hq (by linarith)
        exact ⟨hull_keep2 hU hne g1 (by rw [hev]; linarith), keep2_three hU g2 g1 (by rw [hev]; linarith)⟩
      · intro g
        obtain ⟨g1, g2⟩ := hG g
        refine ⟨?_, ?_⟩
        · intro v hv
          refine ⟨?_, ?_⟩
          · have hC : ConvexPred fun v => InTriangle c.tri v ∧ gz c.fr z ≤ v.z ∧ v.z ≤ gz c.fr (z + 1) :=
              (convex_inTriangle _).and ((convex_ge_z _).and (convex_le_z _))
            exact keep2_convex hC (fun v hv => (g1 v hv).1) v hv
          · have := (keep2_mem hv).1
            rw [hev] at this; linarith
        · intro hle
          apply mem_keep2_of (g2 (by omega))
          rw [hev]
          have h1 := hmv g
          have h2 := gx_le hs.cellSize hle
          linarith
      · intro q hq hy k hk1 hk2 hk3 hk4
        by_cases hkx : (k : Int) < x
        · exact (hi.cov q hq hy k hk1 hkx hk3 hk4).mono hsub
        · have hkx : x = (k : Int) := by omega
          have := hnew (by omega) q hq hy (by rw [hkx]; exact hk3) (by rw [hkx]; exact hk4)
          rw [hkx] at this
          simpa using this
    rw [colStep_eq _ _ _ _ _ _ hdiv]
    have three : ∀ q, InHull B q → gx c.fr x < q.x → q.x < gx c.fr (x + 1) →
        InHull (keep1 e R) q ∧ 3 ≤ (keep1 e R).length := by
      intro q hq h1 h2
      obtain ⟨g1, g2⟩ := hK q hq h1
      exact ⟨hull_keep1 hU hne g1 (by rw [hev]; linarith), keep1_three hU g2 g1 (by rw [hev]; linarith)⟩
    split
    · rename_i hc
      refine ⟨_, done, rfl, fun _ h => h, hmono st.hf done hi.fin (fun _ h => h) ?_⟩
      intro hx0 q hq hy h1 h2
      have := (three q hq h1 h2).2
      rw [← hB1.count] at this
      omega
    · rename_i hc
      push Not at hc
      obtain ⟨xn, hxn⟩ := Int.eq_ofNat_of_zero_le hc.2
      subst hxn
      have hPne : keep1 e R ≠ [] := by
        intro h
        have := hB1.count
        rw [h] at this
        simp at this; omega
      obtain ⟨hf', done', e', hd, hsub, hcov⟩ := emit_spec (c := c) hs (x := xn) (z := z)
        (st := ⟨st.hf, p2, p1, st.inRow, nv, nv2⟩) (done := done) (P := keep1 e R) (by omega) hz hi.fin
        hB1 hPne (by
          intro g v hv
          obtain ⟨g1, -⟩ := hG g
          have hC : ConvexPred fun v => (InTriangle c.tri v ∧ gz c.fr z ≤ v.z ∧ v.z ≤ gz c.fr (z + 1)) ∧
              gx c.fr xn ≤ v.x :=
            ((convex_inTriangle _).and ((convex_ge_z _).and (convex_le_z _))).and (convex_ge_x _)
          obtain ⟨⟨a1, a2, a3⟩, a4⟩ := keep1_convex hC g1 v hv
          have a5 := (keep1_mem hv).1
          rw [hev] at a5
          simp only [gx, gz] at a2 a3 a4 a5
          push_cast at a2 a3 a4 a5
          exact ⟨a1, a4, by linarith, a2, a3⟩)
      refine ⟨_, done', e', hsub, hmono hf' done' hd hsub ?_⟩
      intro _ q hq hy h1 h2
      exact hcov q (three q hq h1 h2).1 hy

theorem intRange_cons {a b : Int} (h : a ≤ b) : intRange a b = a :: intRange (a + 1) b := by
  unfold intRange
  have : (b + 1 - a).toNat = (b + 1 - (a + 1)).toNat + 1 := by omega
  rw [this, List.range_succ_eq_map, List.map_cons, List.map_map]
  simp only [Nat.cast_zero, add_zero, List.cons.injEq, true_and]
  apply List.map_congr_left
  intro i _
  simp only [Function.comp, Nat.succ_eq_add_one]
  push_cast; ring

theorem intRange_nil {a b : Int} (h : b < a) : intRange a b = [] := by
  unfold intRange
  have : (b + 1 - a).toNat = 0 := by omega
  rw [this]; rfl

theorem colLoop_spec {c : RCtx} (hs : c.fr.Sane) {B : List (V3 Rat)} {z : Nat} (hz : z < c.h)
    {mv : V3 Rat} {x0 x1 : Int} (h5 : B.length ≤ 5) (hmv : c.G → gx c.fr x1 ≤ mv.x)
    (hx1 : x1 < c.w) : ∀ (n : Nat) (x : Int), (x1 + 1 - x).toNat = n → -1 ≤ x → x ≤ x1 + 1 →
      ∀ st done, ColInv c B z mv x0 x1 x st done →
    ∃ st' done', (intRange x x1).foldlM (colStep c.fr c.area c.thr z) st = .ok st' ∧ done ⊆ done' ∧
      ColInv c B z mv x0 x1 (x1 + 1) st' done' := by
  intro n
  induction n with
  | zero =>
    intro x hn _ hle st done hi
    have : x = x1 + 1 := by omega
    subst this
    rw [intRange_nil (by omega)]
    exact ⟨st, done, rfl, fun _ h => h, hi⟩
  | succ n ih =>
    intro x hn hx hle st done hi
    rw [intRange_cons (by omega), List.foldlM_cons]
    obtain ⟨st1, d1, e1, s1, i1⟩ := colStep_spec hs hz h5 hmv hx1 hx (by omega) hi
    obtain ⟨st2, d2, e2, s2, i2⟩ := ih (x + 1) (by omega) (by omega) (by omega) st1 d1 i1
    exact ⟨st2, d2, by rw [e1, bind_ok, e2], fun _ h => s2 (s1 h), i2⟩

end Rerecast
