import Verif.Lemmas.Raster
import Verif.Spec.TriMesh
import Mathlib.Tactic.LinearCombination
/-! The row loop of the rasterizer, and whole meshes. -/
set_option linter.unusedVariables false
namespace Rerecast
open Heightfield

/-- The corners as a list. -/
def triList (t : V3 Rat × V3 Rat × V3 Rat) : List (V3 Rat) := [t.1, t.2.1, t.2.2]

theorem inHull_of_inTriangle {t q} (h : InTriangle t q) : InHull (triList t) q := by
  obtain ⟨a, b, c, ha, hb, hc, h1, hx, hy, hz⟩ := h
  intro f hf
  have f1 := hf t.1 (by simp [triList])
  have f2 := hf t.2.1 (by simp [triList])
  have f3 := hf t.2.2 (by simp [triList])
  have : f.eval q = a * f.eval t.1 + b * f.eval t.2.1 + c * f.eval t.2.2 := by
    simp only [Aff.eval, hx, hy, hz]
    have : f.d = (a + b + c) * f.d := by rw [h1]; ring
    linear_combination this
  rw [this]
  positivity

theorem inTriangle_corner (t) : ∀ v ∈ triList t, InTriangle t v := by
  intro v hv
  simp only [triList, List.mem_cons, List.not_mem_nil, or_false] at hv
  rcases hv with rfl | rfl | rfl
  · exact ⟨1, 0, 0, by norm_num, by norm_num, by norm_num, by norm_num, by ring, by ring, by ring⟩
  · exact ⟨0, 1, 0, by norm_num, by norm_num, by norm_num, by norm_num, by ring, by ring, by ring⟩
  · exact ⟨0, 0, 1, by norm_num, by norm_num, by norm_num, by norm_num, by ring, by ring, by ring⟩

structure RowInv (c : RCtx) (mv : V3 Rat) (z0 z1 z : Int) (st : RowState) (done : List Insertion) : Prop where
  l0 : st.inRow.length = 7
  l1 : st.p1.length = 7
  l2 : st.p2.length = 7
  rest : ∃ R, Buf st.inTri st.nvIn R ∧ Unimodal R ∧ Rest .Z (triList c.tri) R (gz c.fr z) ∧
    (∀ q, InHull (triList c.tri) q → gz c.fr z < q.z → InHull R q ∧ 3 ≤ R.length) ∧
    (z ≤ z1 → mv ∈ R) ∧
    (c.G → ∀ v ∈ R, (InTriangle c.tri v ∧ c.fr.aabb.min.x ≤ v.x) ∧ gz c.fr z ≤ v.z)
  fin : c.Done done st.hf
  cov : ∀ q, InHull (triList c.tri) q → InHeightRange c.fr q.y → ∀ kx kz : Nat, kx < c.w → z0 ≤ kz →
    (kz : Int) < z → InOpenCell c.fr kx kz q → Covers c.fr done kx kz q.y

/-- The tail of `rowStep`. -/
def rowTail (fr : Frame) (width : Nat) (area : Area) (thr : Nat) (z : Int) (st : RowState) :
    Res RowState := do
  let (min_x, max_x) ← bounds V3.x st.inRow st.nvRow
  let x0 := ratAsI16 ((min_x - fr.aabb.min.x) * (1 / fr.cellSize))
  let x1 := ratAsI16 ((max_x - fr.aabb.min.x) * (1 / fr.cellSize))
  if x1 < 0 ∨ x0 ≥ u16AsI16 width then .ok st
  else do
    let w1 ← predI16 (u16AsI16 width)
    let x0 ← clampI x0 (-1) w1
    let x1 ← clampI x1 0 w1
    let c ← (intRange x0 x1).foldlM (colStep fr area thr z)
      ⟨st.hf, st.inRow, st.p1, st.p2, 0, st.nvRow⟩
    .ok { st with hf := c.hf, inRow := c.inRow, p1 := c.p1, p2 := c.p2 }

theorem rowStep_eq (fr : Frame) (w : Nat) (area : Area) (thr : Nat) (st : RowState) (z : Int)
    {inRow nvRow p1 nvIn} (h : dividePoly st.inTri st.nvIn st.inRow st.nvRow st.p1 st.nvIn
      (gz fr (z + 1)) .Z = .ok (inRow, nvRow, p1, nvIn)) :
    rowStep fr w area thr st z = if nvRow < 3 ∨ z < 0
      then .ok { st with inRow, nvRow, nvIn, inTri := p1, p1 := st.inTri }
      else rowTail fr w area thr z { st with inRow, nvRow, nvIn, inTri := p1, p1 := st.inTri } := by
  unfold rowStep
  dsimp only
  rw [gz_succ, h, bind_ok]
  rfl

/-- The first and last cell index along an axis: sufficient to reach every open cell of `[lo, hi]`. -/
theorem cell_range {cs m lo hi q : Rat} (hcs : 0 < cs) (h1 : lo ≤ q) (h2 : q ≤ hi) {k : Int} (hk : 0 ≤ k)
    (hk2 : k ≤ 32766) (h3 : m + k * cs < q) (h4 : q < m + (k + 1) * cs) :
    ratAsI16 ((lo - m) * (1 / cs)) ≤ k ∧ k ≤ ratAsI16 ((hi - m) * (1 / cs)) := by
  constructor
  · have : ratTrunc ((lo - m) * (1 / cs)) ≤ k := ratTrunc_le hk (by
      rw [mul_one_div, div_lt_iff₀ hcs]; linarith)
    unfold ratAsI16; omega
  · have : k ≤ ratTrunc ((hi - m) * (1 / cs)) := le_ratTrunc hk (by
      rw [mul_one_div, le_div_iff₀ hcs]; linarith)
    unfold ratAsI16; omega

theorem trunc_line {cs m t : Rat} (hcs : 0 < cs) (h : m ≤ t) :
    0 ≤ ratAsI16 ((t - m) * (1 / cs)) ∧ m + (ratAsI16 ((t - m) * (1 / cs)) : Rat) * cs ≤ t := by
  have h0 : 0 ≤ (t - m) * (1 / cs) := mul_nonneg (by linarith) (by positivity)
  have h1 := ratTrunc_mul_le h0
  have h2 : 0 ≤ ratTrunc ((t - m) * (1 / cs)) := le_ratTrunc (le_refl _) (by push_cast; exact h0)
  have h3 : ratAsI16 ((t - m) * (1 / cs)) ≤ ratTrunc ((t - m) * (1 / cs)) := by unfold ratAsI16; omega
  have h4 : 0 ≤ ratAsI16 ((t - m) * (1 / cs)) := by unfold ratAsI16; omega
  refine ⟨h4, ?_⟩
  have h5 : (ratAsI16 ((t - m) * (1 / cs)) : Rat) ≤ (t - m) * (1 / cs) :=
    le_trans (by exact_mod_cast h3) h1
  rw [mul_one_div, le_div_iff₀ hcs] at h5
  rw [mul_one_div]
  linarith

theorem ratTrunc_mono {a b : Rat} (h : a ≤ b) : ratTrunc a ≤ ratTrunc b := by
  rcases le_or_gt 0 b with h0 | h0
  · have h1 : 0 ≤ ratTrunc b := le_ratTrunc (le_refl _) (by push_cast; exact h0)
    apply ratTrunc_le h1
    have := Rat.lt_floor_add_one b
    rw [← ratTrunc_nonneg h0] at this
    push_cast at this; linarith
  · have h1 := ratTrunc_neg (-a)
    have h2 := ratTrunc_neg (-b)
    rw [neg_neg] at h1 h2
    rw [h1, h2, ratTrunc_nonneg (by linarith), ratTrunc_nonneg (by linarith)]
    have : (-b).floor ≤ (-a).floor :=
      Rat.le_floor_iff.2 (le_trans (Rat.floor_le _) (by linarith))
    omega

theorem asI16_line_mono {cs m s t : Rat} (hcs : 0 < cs) (h : s ≤ t) :
    ratAsI16 ((s - m) * (1 / cs)) ≤ ratAsI16 ((t - m) * (1 / cs)) := by
  have hle : (s - m) * (1 / cs) ≤ (t - m) * (1 / cs) :=
    mul_le_mul_of_nonneg_right (by linarith) (by positivity)
  have := ratTrunc_mono hle
  unfold ratAsI16; omega

theorem rowTail_spec {c : RCtx} (hs : c.fr.Sane) (hw : 1 ≤ c.w ∧ c.w ≤ 32767) {z : Nat} (hz : z < c.h)
    {st : RowState} {done} {B : List (V3 Rat)} (hB : Buf st.inRow st.nvRow B) (hU : Unimodal B)
    (h3 : 3 ≤ B.length) (h5 : B.length ≤ 5) (l1 : st.p1.length = 7) (l2 : st.p2.length = 7)
    (hd : c.Done done st.hf)
    (hG : c.G → ∀ v ∈ B, (InTriangle c.tri v ∧ gz c.fr z ≤ v.z ∧ v.z ≤ gz c.fr (z + 1)) ∧
      c.fr.aabb.min.x ≤ v.x) :
    ∃ hf' inRow' p1' p2' done', rowTail c.fr c.w c.area c.thr z st =
        .ok { st with hf := hf', inRow := inRow', p1 := p1', p2 := p2' } ∧
      inRow'.length = 7 ∧ p1'.length = 7 ∧ p2'.length = 7 ∧ c.Done done' hf' ∧ done ⊆ done' ∧
      ∀ q, InHull B q → InHeightRange c.fr q.y → ∀ k : Nat, k < c.w →
        gx c.fr k < q.x → q.x < gx c.fr (k + 1) → Covers c.fr done' k z q.y := by
  have hne : B ≠ [] := by rintro rfl; simp at h3
  obtain ⟨lo, hi, e, b1, ⟨u, hu, hul⟩, ⟨mv, hmvB, hmvx⟩⟩ := bounds_spec (f := V3.x) hB hne
  have hwI : u16AsI16 c.w = (c.w : Int) := by unfold u16AsI16; rw [if_pos hw.2]
  have range : ∀ q, InHull B q → ∀ k : Nat, k < c.w → gx c.fr k < q.x → q.x < gx c.fr (k + 1) →
      ratAsI16 ((lo - c.fr.aabb.min.x) * (1 / c.fr.cellSize)) ≤ k ∧
      (k : Int) ≤ ratAsI16 ((hi - c.fr.aabb.min.x) * (1 / c.fr.cellSize)) := by
    intro q hq k hk h1 h2
    have hb : lo ≤ q.x ∧ q.x ≤ hi := by
      have h1 := hq ⟨1, 0, 0, -lo⟩ (fun v hv => by simp only [Aff.eval]; have := b1 v hv; linarith)
      have h2 := hq ⟨-1, 0, 0, hi⟩ (fun v hv => by simp only [Aff.eval]; have := b1 v hv; linarith)
      simp only [Aff.eval] at h1 h2
      constructor <;> linarith
    simp only [gx] at h1 h2
    push_cast at h1 h2
    exact cell_range hs.cellSize hb.1 hb.2 (by omega) (by omega) (by push_cast; exact h1)
      (by push_cast; exact h2)
  unfold rowTail
  rw [e, bind_ok]
  dsimp only
  set x0 := ratAsI16 ((lo - c.fr.aabb.min.x) * (1 / c.fr.cellSize)) with hx0
  set x1 := ratAsI16 ((hi - c.fr.aabb.min.x) * (1 / c.fr.cellSize)) with hx1
  rw [hwI]
  by_cases hskip : x1 < 0 ∨ x0 ≥ (c.w : Int)
  · rw [if_pos hskip]
    refine ⟨st.hf, st.inRow, st.p1, st.p2, done, rfl, hB.len, l1, l2, hd, fun _ h => h, ?_⟩
    intro q hq _ k hk h1 h2
    have := range q hq k hk h1 h2
    omega
  · rw [if_neg hskip]
    unfold predI16 clampI
    rw [if_neg (by omega), bind_ok, if_pos (by omega), bind_ok, if_pos (by omega), bind_ok]
    set X0 := max (-1) (min x0 ((c.w : Int) - 1)) with hX0
    set X1 := max 0 (min x1 ((c.w : Int) - 1)) with hX1
    have hG0 : c.G → gx c.fr X0 ≤ lo := by
      intro g
      have hlo : c.fr.aabb.min.x ≤ lo := by rw [← hul]; exact (hG g u hu).2
      obtain ⟨k1, k2⟩ := trunc_line hs.cellSize hlo
      rw [← hx0] at k1 k2
      have : X0 = x0 := by omega
      rw [this]
      exact k2
    have hG1 : c.G → gx c.fr X1 ≤ mv.x := by
      intro g
      obtain ⟨k1, k2⟩ := trunc_line (m := c.fr.aabb.min.x) (t := mv.x) hs.cellSize (hG g mv hmvB).2
      rw [hmvx, ← hx1] at k1 k2
      have : gx c.fr X1 ≤ gx c.fr x1 := gx_le hs.cellSize (by omega)
      rw [hmvx]
      exact le_trans this k2
    have h01 : x0 ≤ x1 := asI16_line_mono hs.cellSize (le_trans (b1 u hu).1 (b1 u hu).2)
    obtain ⟨st', done', e', hsub, hinv⟩ := colLoop_spec (c := c) hs (B := B) (z := z) hz (mv := mv)
      (x0 := X0) (x1 := X1) h5 hG1 (by omega) _ X0 rfl (by omega) (by omega)
      ⟨st.hf, st.inRow, st.p1, st.p2, 0, st.nvRow⟩ done
      ⟨l1, l2, ⟨B, hB, hU, Rest.base _ _ _, fun q hq _ => ⟨hq, h3⟩, fun g => ⟨fun v hv =>
          ⟨(hG g v hv).1, le_trans (hG0 g) (b1 v hv).1⟩, fun _ => hmvB⟩⟩,
        ⟨[], l1, rfl, rfl⟩, hd, by
          intro q _ _ k hk1 hk2; omega⟩
    rw [e', bind_ok]
    refine ⟨_, _, _, _, done', rfl, ?_, hinv.l1, hinv.l2, hinv.fin, hsub, ?_⟩
    · obtain ⟨R, hR, -⟩ := hinv.rest
      exact hR.len
    · intro q hq hy k hk h1 h2
      have := range q hq k hk h1 h2
      exact hinv.cov q hq hy k (by omega) (by omega) h1 h2

theorem rowStep_spec {c : RCtx} (hs : c.fr.Sane) (hw : 1 ≤ c.w ∧ c.w ≤ 32767) {mv : V3 Rat}
    {z0 z1 z : Int} (hmv : gz c.fr z1 ≤ mv.z) (hz1 : z1 < c.h) (hz : -1 ≤ z) (hzz : z ≤ z1) {st done}
    (hi : RowInv c mv z0 z1 z st done) :
    ∃ st' done', rowStep c.fr c.w c.area c.thr st z = .ok st' ∧ RowInv c mv z0 z1 (z + 1) st' done' := by
  obtain ⟨R, hR, hU, hrest, hK, hmvR, hG⟩ := hi.rest
  have hne : R ≠ [] := by rintro rfl; have := hmvR hzz; simp at this
  have hltz : gz c.fr z < gz c.fr (z + 1) := gz_lt hs.cellSize (by omega)
  have hRl : R.length ≤ 4 := by have := hrest.len; simpa [triList] using this
  have hk1 : (keep1 (sideAff .Z (gz c.fr (z + 1))) R).length ≤ 5 := by
    have := keep1_length (e := sideAff .Z (gz c.fr (z + 1))) hU; omega
  have hk2 : (keep2 (sideAff .Z (gz c.fr (z + 1))) R).length ≤ 7 := by
    have := keep2_length (e := sideAff .Z (gz c.fr (z + 1))) hU; omega
  obtain ⟨b1, n1, b2, n2, hdiv, hB1, hB2⟩ := dividePoly_spec (n1 := st.nvRow) (n2 := st.nvIn) .Z
    (gz c.fr (z + 1)) hR hne hi.l0 hi.l1 (by omega) hk2
  have hev : ∀ v, (sideAff .Z (gz c.fr (z + 1))).eval v = gz c.fr (z + 1) - v.z :=
    sideAff_eval .Z (gz c.fr (z + 1))
  set e := sideAff .Z (gz c.fr (z + 1)) with he
  have hmono : ∀ hf' inRow' p1' p2' done', inRow'.length = 7 → p1'.length = 7 → p2'.length = 7 →
      c.Done done' hf' → done ⊆ done' →
      (0 ≤ z → ∀ q, InHull (keep1 e R) q → 3 ≤ (keep1 e R).length → InHeightRange c.fr q.y →
        ∀ k : Nat, k < c.w → gx c.fr k < q.x →
        q.x < gx c.fr (k + 1) → Covers c.fr done' k z.toNat q.y) →
      RowInv c mv z0 z1 (z + 1) ⟨hf', b2, inRow', p1', p2', n1, n2⟩ done' := by
    intro hf' inRow' p1' p2' done' m0 m1 m2 hd hsub hnew
    refine ⟨m0, m1, m2, ⟨_, hB2, unimodal_keep2 hU, hrest.step hU hltz, ?_, ?_, ?_⟩, hd, ?_⟩
    · intro q hq hqz
      obtain ⟨g1, g2⟩ := hK q hq (by linarith)
      exact ⟨hull_keep2 hU hne g1 (by rw [hev]; linarith), keep2_three hU g2 g1 (by rw [hev]; linarith)⟩
    · intro hle
      apply mem_keep2_of (hmvR hzz)
      rw [hev]
      have h2 := gz_le hs.cellSize hle
      linarith
    · intro g v hv
      refine ⟨?_, ?_⟩
      · have hC : ConvexPred fun v => InTriangle c.tri v ∧ c.fr.aabb.min.x ≤ v.x :=
          (convex_inTriangle _).and (convex_ge_x _)
        exact keep2_convex hC (fun v hv => (hG g v hv).1) v hv
      · have := (keep2_mem hv).1
        rw [hev] at this; linarith
    · intro q hq hy kx kz hkx hkz1 hkz2 hcell
      by_cases hkz : (kz : Int) < z
      · exact (hi.cov q hq hy kx kz hkx hkz1 hkz hcell).mono hsub
      · have hkz : z = (kz : Int) := by omega
        obtain ⟨c1, c2, c3, c4⟩ := hcell
        have c3' : gz c.fr z < q.z := by rw [hkz]; simp only [gz]; push_cast; exact c3
        have c4' : q.z < gz c.fr (z + 1) := by rw [hkz]; simp only [gz]; push_cast; exact c4
        obtain ⟨g1, g2⟩ := hK q hq c3'
        have := hnew (by omega) q (hull_keep1 hU hne g1 (by rw [hev]; linarith))
          (keep1_three hU g2 g1 (by rw [hev]; linarith)) hy kx hkx
          (by simp only [gx]; push_cast; exact c1) (by simp only [gx]; push_cast; exact c2)
        rw [hkz] at this
        simpa using this
  rw [rowStep_eq _ _ _ _ _ _ hdiv]
  split
  · rename_i hc
    refine ⟨_, done, rfl, hmono st.hf b1 st.inTri st.p2 done hB1.len hR.len hi.l2 hi.fin (fun _ h => h) ?_⟩
    intro hz0 q _ h3
    rw [← hB1.count] at h3
    omega
  · rename_i hc
    push Not at hc
    obtain ⟨zn, hzn⟩ := Int.eq_ofNat_of_zero_le hc.2
    subst hzn
    obtain ⟨hf', r', p1', p2', done', e', m0, m1, m2, hd, hsub, hcov⟩ := rowTail_spec (c := c) hs hw
      (z := zn) (by omega) (st := ⟨st.hf, b2, b1, st.inTri, st.p2, n1, n2⟩) (done := done)
      (B := keep1 e R) hB1 (unimodal_keep1 hU) (by rw [← hB1.count]; exact hc.1) hk1 hR.len hi.l2 hi.fin (by
        intro g v hv
        have hC : ConvexPred fun v => (InTriangle c.tri v ∧ c.fr.aabb.min.x ≤ v.x) ∧ gz c.fr zn ≤ v.z :=
          ((convex_inTriangle _).and (convex_ge_x _)).and (convex_ge_z _)
        obtain ⟨⟨a1, a2⟩, a3⟩ := keep1_convex hC (hG g) v hv
        have a4 := (keep1_mem hv).1
        rw [hev] at a4
        exact ⟨⟨a1, a3, by linarith⟩, a2⟩)
    refine ⟨_, done', e', hmono hf' r' p1' p2' done' m0 m1 m2 hd hsub ?_⟩
    intro _ q hq _ hy k hk h1 h2
    exact hcov q hq hy k hk h1 h2

theorem rowLoop_spec {c : RCtx} (hs : c.fr.Sane) (hw : 1 ≤ c.w ∧ c.w ≤ 32767) {mv : V3 Rat}
    {z0 z1 : Int} (hmv : gz c.fr z1 ≤ mv.z) (hz1 : z1 < c.h) : ∀ (n : Nat) (z : Int),
    (z1 + 1 - z).toNat = n → -1 ≤ z → z ≤ z1 + 1 → ∀ st done, RowInv c mv z0 z1 z st done →
    ∃ st' done', (intRange z z1).foldlM (rowStep c.fr c.w c.area c.thr) st = .ok st' ∧
      RowInv c mv z0 z1 (z1 + 1) st' done' := by
  intro n
  induction n with
  | zero =>
    intro z hn _ hle st done hi
    have : z = z1 + 1 := by omega
    subst this
    rw [intRange_nil (by omega)]
    exact ⟨st, done, rfl, hi⟩
  | succ n ih =>
    intro z hn hz hle st done hi
    rw [intRange_cons (by omega), List.foldlM_cons]
    obtain ⟨st1, d1, e1, i1⟩ := rowStep_spec hs hw hmv hz1 hz (by omega) hi
    obtain ⟨st2, d2, e2, i2⟩ := ih (z + 1) (by omega) (by omega) (by omega) st1 d1 i1
    exact ⟨st2, d2, by rw [e1, bind_ok, e2], i2⟩

theorem triangleAabb_z (t : V3 Rat × V3 Rat × V3 Rat) :
    (∀ v ∈ triList t, (triangleAabb t).min.z ≤ v.z ∧ v.z ≤ (triangleAabb t).max.z) ∧
    (∃ v ∈ triList t, v.z = (triangleAabb t).max.z) ∧ ∃ v ∈ triList t, v.z = (triangleAabb t).min.z := by
  obtain ⟨a, b, d⟩ := t
  simp only [triangleAabb, triList, V3.min, V3.max]
  refine ⟨?_, ?_, ?_⟩
  · intro v hv
    simp only [List.mem_cons, List.not_mem_nil, or_false] at hv
    rcases hv with rfl | rfl | rfl <;> simp
  · rcases max_choice (max a.z b.z) d.z with h | h
    · rcases max_choice a.z b.z with h' | h'
      · exact ⟨a, by simp, by rw [h, h']⟩
      · exact ⟨b, by simp, by rw [h, h']⟩
    · exact ⟨d, by simp, h.symm⟩
  · rcases min_choice (min a.z b.z) d.z with h | h
    · rcases min_choice a.z b.z with h' | h'
      · exact ⟨a, by simp, by rw [h, h']⟩
      · exact ⟨b, by simp, by rw [h, h']⟩
    · exact ⟨d, by simp, h.symm⟩

theorem combo_le {a b c x y z m : Rat} (ha : 0 ≤ a) (hb : 0 ≤ b) (hc : 0 ≤ c) (h : a + b + c = 1)
    (h1 : x ≤ m) (h2 : y ≤ m) (h3 : z ≤ m) : a * x + b * y + c * z ≤ m := by
  have : m = (a + b + c) * m := by rw [h]; ring
  nlinarith [mul_le_mul_of_nonneg_left h1 ha, mul_le_mul_of_nonneg_left h2 hb,
    mul_le_mul_of_nonneg_left h3 hc]

theorem le_combo {a b c x y z m : Rat} (ha : 0 ≤ a) (hb : 0 ≤ b) (hc : 0 ≤ c) (h : a + b + c = 1)
    (h1 : m ≤ x) (h2 : m ≤ y) (h3 : m ≤ z) : m ≤ a * x + b * y + c * z := by
  have : m = (a + b + c) * m := by rw [h]; ring
  nlinarith [mul_le_mul_of_nonneg_left h1 ha, mul_le_mul_of_nonneg_left h2 hb,
    mul_le_mul_of_nonneg_left h3 hc]

theorem intersects_of_common {b : Aabb3 Rat} {t : V3 Rat × V3 Rat × V3 Rat} {q : V3 Rat}
    (h : InTriangle t q) (hb : b.Contains q) : b.intersects (triangleAabb t) = true := by
  obtain ⟨u, v, w, hu, hv, hw, h1, hx, hy, hz⟩ := h
  obtain ⟨k1, k2, k3, k4, k5, k6⟩ := hb
  have ub : ∀ x y z : Rat, u * x + v * y + w * z ≤ max (max x y) z := fun x y z =>
    combo_le hu hv hw h1 (by simp) (by simp) (by simp)
  have lb : ∀ x y z : Rat, min (min x y) z ≤ u * x + v * y + w * z := fun x y z =>
    le_combo hu hv hw h1 (by simp) (by simp) (by simp)
  unfold Aabb3.intersects
  apply decide_eq_true
  simp only [triangleAabb, V3.min, V3.max]
  rw [hx] at k1 k2
  rw [hy] at k3 k4
  rw [hz] at k5 k6
  exact ⟨le_trans k1 (ub _ _ _), le_trans k3 (ub _ _ _), le_trans k5 (ub _ _ _),
    le_trans (lb _ _ _) k2, le_trans (lb _ _ _) k4, le_trans (lb _ _ _) k6⟩

/-- What `rasterize_triangle` does to a field reached by any history. -/
theorem rasterizeTriangle_spec {c : RCtx} (hs : c.fr.Sane) (hw : 1 ≤ c.w ∧ c.w ≤ 32767)
    (hh : 1 ≤ c.h ∧ c.h ≤ 32767) {cols} (hr : Reached c.w c.h c.pre c.hf0 cols)
    (hG : c.G → ∀ v ∈ triList c.tri, c.fr.aabb.min.x ≤ v.x ∧ c.fr.aabb.min.z ≤ v.z) :
    ∃ hf' done, rasterizeTriangle c.fr c.hf0 c.tri c.area c.thr = .ok hf' ∧ c.Done done hf' ∧
      ∀ q, InTriangle c.tri q → c.fr.aabb.Contains q → ∀ x z : Nat, x < c.w → z < c.h →
        InOpenCell c.fr x z q → Covers c.fr done x z q.y := by
  have hd0 : c.Done [] c.hf0 := ⟨⟨cols, by simpa using hr⟩, rfl, by simp⟩
  unfold rasterizeTriangle
  dsimp only
  by_cases hint : c.fr.aabb.intersects (triangleAabb c.tri) = true
  swap
  · refine ⟨c.hf0, [], ?_, hd0, ?_⟩
    · rw [if_pos (by simpa using hint)]
    · intro q hq hbox
      exact absurd (intersects_of_common hq hbox) hint
  · rw [if_neg (by simp [hint])]
    obtain ⟨zb, ⟨mv, hmv, hmvz⟩, ⟨lv, hlv, hlvz⟩⟩ := triangleAabb_z c.tri
    have hmaxz : c.fr.aabb.min.z ≤ (triangleAabb c.tri).max.z := by
      simp only [Aabb3.intersects, decide_eq_true_eq] at hint
      tauto
    rw [hr.height]
    have hhI : u16AsI16 c.h = (c.h : Int) := by unfold u16AsI16; rw [if_pos hh.2]
    rw [hhI]
    set t0 := ratAsI16 (((triangleAabb c.tri).min.z - c.fr.aabb.min.z) * (1 / c.fr.cellSize)) with ht0
    set t1 := ratAsI16 (((triangleAabb c.tri).max.z - c.fr.aabb.min.z) * (1 / c.fr.cellSize)) with ht1
    unfold predI16 clampI
    rw [if_neg (by omega), bind_ok, if_pos (by omega), bind_ok, if_pos (by omega), bind_ok, hr.width]
    set Z0 := max (-1) (min t0 ((c.h : Int) - 1)) with hZ0
    set Z1 := max 0 (min t1 ((c.h : Int) - 1)) with hZ1
    have hz1v : gz c.fr Z1 ≤ mv.z := by
      obtain ⟨k1, k2⟩ := trunc_line (m := c.fr.aabb.min.z) (t := mv.z) hs.cellSize (by rw [hmvz]; exact hmaxz)
      rw [hmvz, ← ht1] at k1 k2
      have : gz c.fr Z1 ≤ gz c.fr t1 := gz_le hs.cellSize (by omega)
      rw [hmvz]
      exact le_trans this k2
    have ht01 : t0 ≤ t1 := asI16_line_mono hs.cellSize (le_trans (zb mv hmv).1 (zb mv hmv).2)
    have hbuf : Buf (((zeroBuf.set 0 c.tri.1).set 1 c.tri.2.1).set 2 c.tri.2.2) 3 (triList c.tri) :=
      ⟨rfl, rfl, rfl⟩
    obtain ⟨st', done', e', hinv⟩ := rowLoop_spec (c := c) hs hw (mv := mv) (z0 := Z0) (z1 := Z1) hz1v
      (by omega) _ Z0 rfl (by omega) (by omega)
      ⟨c.hf0, ((zeroBuf.set 0 c.tri.1).set 1 c.tri.2.1).set 2 c.tri.2.2, zeroBuf, zeroBuf, zeroBuf, 0, 3⟩ []
      ⟨rfl, rfl, rfl, ⟨triList c.tri, hbuf, unimodal_triple _ _ _, Rest.base _ _ _,
        fun q hq _ => ⟨hq, by simp [triList]⟩, fun _ => hmv, fun g v hv => ⟨⟨inTriangle_corner _ v hv,
          (hG g v hv).1⟩, by
            have hlo : c.fr.aabb.min.z ≤ (triangleAabb c.tri).min.z := by
              rw [← hlvz]; exact (hG g lv hlv).2
            obtain ⟨k1, k2⟩ := trunc_line hs.cellSize hlo
            rw [← ht0] at k1 k2
            have : gz c.fr Z0 ≤ gz c.fr t0 := gz_le hs.cellSize (by omega)
            exact le_trans (le_trans this k2) (zb v hv).1⟩⟩,
        hd0, by intro q _ _ kx kz _ hk1 hk2; omega⟩
    rw [e', bind_ok]
    refine ⟨_, done', rfl, hinv.fin, ?_⟩
    intro q hq hbox x z hx hz hcell
    have hy : InHeightRange c.fr q.y := ⟨hbox.2.2.1, hbox.2.2.2.1⟩
    have hh' := inHull_of_inTriangle hq
    have hb : (triangleAabb c.tri).min.z ≤ q.z ∧ q.z ≤ (triangleAabb c.tri).max.z := by
      have h1 := hh' ⟨0, 0, 1, -(triangleAabb c.tri).min.z⟩
        (fun v hv => by simp only [Aff.eval]; have := zb v hv; linarith)
      have h2 := hh' ⟨0, 0, -1, (triangleAabb c.tri).max.z⟩
        (fun v hv => by simp only [Aff.eval]; have := zb v hv; linarith)
      simp only [Aff.eval] at h1 h2
      constructor <;> linarith
    have := cell_range (k := z) hs.cellSize hb.1 hb.2 (by omega) (by omega)
      (by push_cast; exact hcell.2.2.1) (by push_cast; exact hcell.2.2.2)
    exact hinv.cov q hh' hy x z hx (by omega) (by omega) hcell

/-! ### Fields that are too wide -/

/-- Row loop of a field that is too wide: only the clipping buffers change. -/
structure WideInv (fr : Frame) (hf0 : Heightfield) (T : List (V3 Rat)) (mv : V3 Rat) (z1 z : Int)
    (st : RowState) : Prop where
  l0 : st.inRow.length = 7
  l1 : st.p1.length = 7
  hf : st.hf = hf0
  rest : ∃ R, Buf st.inTri st.nvIn R ∧ Unimodal R ∧ Rest .Z T R (gz fr z) ∧ (z ≤ z1 → mv ∈ R) ∧
    ∀ v ∈ R, fr.aabb.min.x ≤ v.x

theorem wideStep_spec {fr : Frame} (hs : fr.Sane) {w : Nat} (hw : 32768 ≤ w ∧ w ≤ 65535) {hf0 area thr}
    {T : List (V3 Rat)} (hT : T.length = 3) {mv : V3 Rat} {z1 z : Int} (hmv : gz fr z1 ≤ mv.z)
    (hzz : z ≤ z1) {st} (hi : WideInv fr hf0 T mv z1 z st) :
    ∃ st', rowStep fr w area thr st z = .ok st' ∧ WideInv fr hf0 T mv z1 (z + 1) st' := by
  obtain ⟨R, hR, hU, hrest, hmvR, hx⟩ := hi.rest
  have hne : R ≠ [] := by rintro rfl; have := hmvR hzz; simp at this
  have hltz : gz fr z < gz fr (z + 1) := gz_lt hs.cellSize (by omega)
  have hRl : R.length ≤ 4 := by have := hrest.len; omega
  have hk1 : (keep1 (sideAff .Z (gz fr (z + 1))) R).length ≤ 7 := by
    have := keep1_length (e := sideAff .Z (gz fr (z + 1))) hU; omega
  have hk2 : (keep2 (sideAff .Z (gz fr (z + 1))) R).length ≤ 7 := by
    have := keep2_length (e := sideAff .Z (gz fr (z + 1))) hU; omega
  obtain ⟨b1, n1, b2, n2, hdiv, hB1, hB2⟩ := dividePoly_spec (n1 := st.nvRow) (n2 := st.nvIn) .Z
    (gz fr (z + 1)) hR hne hi.l0 hi.l1 hk1 hk2
  have hinv : WideInv fr hf0 T mv z1 (z + 1) { st with
      inRow := b1, nvRow := n1, nvIn := n2, inTri := b2, p1 := st.inTri } := by
    refine ⟨hB1.len, hR.len, hi.hf, _, hB2, unimodal_keep2 hU, hrest.step hU hltz, ?_, ?_⟩
    · intro hle
      apply mem_keep2_of (hmvR hzz)
      rw [sideAff_eval]
      have h2 := gz_le hs.cellSize hle
      simp only [DivisionAxis.coord]
      linarith
    · exact keep2_convex (convex_ge_x _) hx
  rw [rowStep_eq _ _ _ _ _ _ hdiv]
  split
  · exact ⟨_, rfl, hinv⟩
  · rename_i hc
    push Not at hc
    have hPne : keep1 (sideAff .Z (gz fr (z + 1))) R ≠ [] := by
      intro h
      have := hB1.count
      rw [h] at this
      simp at this; omega
    obtain ⟨lo, hi', e, -, ⟨u, hu, hul⟩, -⟩ := bounds_spec (f := V3.x) hB1 hPne
    unfold rowTail
    simp only
    rw [e, bind_ok]
    dsimp only
    rw [if_pos]
    · exact ⟨_, rfl, hinv⟩
    · right
      have hlo : fr.aabb.min.x ≤ lo := by
        rw [← hul]; exact keep1_convex (convex_ge_x _) hx u hu
      have := (trunc_line hs.cellSize hlo).1
      unfold u16AsI16
      rw [if_neg (by omega)]
      omega

theorem rasterizeTriangle_wide {fr : Frame} (hs : fr.Sane) {w h : Nat} (hw : 32768 ≤ w ∧ w ≤ 65535)
    (hh : 1 ≤ h ∧ h ≤ 32767) {hf0 : Heightfield} (hfw : hf0.width = w) (hfh : hf0.height = h)
    {tri : V3 Rat × V3 Rat × V3 Rat} {area thr}
    (hx : fr.aabb.min.x ≤ tri.1.x ∧ fr.aabb.min.x ≤ tri.2.1.x ∧ fr.aabb.min.x ≤ tri.2.2.x) :
    rasterizeTriangle fr hf0 tri area thr = .ok hf0 := by
  unfold rasterizeTriangle
  dsimp only
  by_cases hint : fr.aabb.intersects (triangleAabb tri) = true
  swap
  · rw [if_pos (by simpa using hint)]
  · rw [if_neg (by simp [hint])]
    obtain ⟨zb, ⟨mv, hmv, hmvz⟩, -⟩ := triangleAabb_z tri
    have hmaxz : fr.aabb.min.z ≤ (triangleAabb tri).max.z := by
      simp only [Aabb3.intersects, decide_eq_true_eq] at hint
      tauto
    have hhI : u16AsI16 h = (h : Int) := by unfold u16AsI16; rw [if_pos hh.2]
    rw [hfh, hhI]
    set t0 := ratAsI16 (((triangleAabb tri).min.z - fr.aabb.min.z) * (1 / fr.cellSize)) with ht0
    set t1 := ratAsI16 (((triangleAabb tri).max.z - fr.aabb.min.z) * (1 / fr.cellSize)) with ht1
    unfold predI16 clampI
    rw [if_neg (by omega), bind_ok, if_pos (by omega), bind_ok, if_pos (by omega), bind_ok, hfw]
    set Z0 := max (-1) (min t0 ((h : Int) - 1)) with hZ0
    set Z1 := max 0 (min t1 ((h : Int) - 1)) with hZ1
    have hz1v : gz fr Z1 ≤ mv.z := by
      obtain ⟨k1, k2⟩ := trunc_line (m := fr.aabb.min.z) (t := mv.z) hs.cellSize (by rw [hmvz]; exact hmaxz)
      rw [hmvz, ← ht1] at k1 k2
      have : gz fr Z1 ≤ gz fr t1 := gz_le hs.cellSize (by omega)
      rw [hmvz]
      exact le_trans this k2
    have ht01 : t0 ≤ t1 := asI16_line_mono hs.cellSize (le_trans (zb mv hmv).1 (zb mv hmv).2)
    have loop : ∀ (n : Nat) (z : Int), (Z1 + 1 - z).toNat = n → z ≤ Z1 + 1 → ∀ st,
        WideInv fr hf0 (triList tri) mv Z1 z st →
        ∃ st', (intRange z Z1).foldlM (rowStep fr w area thr) st = .ok st' ∧ st'.hf = hf0 := by
      intro n
      induction n with
      | zero =>
        intro z hn hle st hi
        rw [intRange_nil (by omega)]
        exact ⟨st, rfl, hi.hf⟩
      | succ n ih =>
        intro z hn hle st hi
        rw [intRange_cons (by omega), List.foldlM_cons]
        obtain ⟨st1, e1, i1⟩ := wideStep_spec (area := area) (thr := thr) hs hw (by rfl) hz1v (by omega) hi
        obtain ⟨st2, e2, i2⟩ := ih (z + 1) (by omega) (by omega) st1 i1
        exact ⟨st2, by rw [e1, bind_ok, e2], i2⟩
    obtain ⟨st', e', hf'⟩ := loop _ Z0 rfl (by omega)
      ⟨hf0, ((zeroBuf.set 0 tri.1).set 1 tri.2.1).set 2 tri.2.2, zeroBuf, zeroBuf, zeroBuf, 0, 3⟩
      ⟨rfl, rfl, rfl, triList tri, ⟨rfl, rfl, rfl⟩, unimodal_triple _ _ _, Rest.base _ _ _, fun _ => hmv, by
        intro v hv
        simp only [triList, List.mem_cons, List.not_mem_nil, or_false] at hv
        rcases hv with rfl | rfl | rfl
        · exact hx.1
        · exact hx.2.1
        · exact hx.2.2⟩
    rw [e', bind_ok, hf']

/-! ### Whole meshes -/

/-- The insertions made for the first `n` triangles of a mesh. -/
structure MeshDone (fr : Frame) (w h thr : Nat) (pre : List Insertion) (hf0 : Heightfield) (m : TriMesh Rat)
    (n : Nat) (done : List Insertion) (hf : Heightfield) : Prop where
  reached : ∃ cols, Reached w h (pre ++ done) hf cols
  run : hf0.insertAll done = .ok hf
  each : ∀ i ∈ done, i.x < w ∧ i.z < h ∧ i.min < i.max ∧ i.max ≤ 65535 ∧ i.thr = thr ∧
    ∃ t < n, m.areaTypes[t]? = some i.area ∧
      ((∀ v ∈ m.vertices, fr.aabb.min.x ≤ v.x ∧ fr.aabb.min.z ≤ v.z) →
        ∃ tri, m.corners t = some tri ∧ ∀ v, i.min ≤ v → v < i.max → ∃ q, InTriangle tri q ∧
          InCell fr i.x i.z q ∧ InHeightRange fr q.y ∧ InVoxel fr v q.y)
  cov : ∀ t < n, ∀ tri, m.corners t = some tri → ∀ area, m.areaTypes[t]? = some area →
    ∀ q, InTriangle tri q → fr.aabb.Contains q → ∀ x z : Nat, x < w → z < h → InOpenCell fr x z q →
      ∃ i ∈ done, i.area = area ∧ i.x = x ∧ i.z = z ∧ ∃ v, i.min ≤ v ∧ v < i.max ∧ InVoxel fr v q.y

theorem rasterizeMesh_spec {fr : Frame} (hs : fr.Sane) {w h thr : Nat} (hw : 1 ≤ w ∧ w ≤ 32767)
    (hh : 1 ≤ h ∧ h ≤ 32767) {pre hf0 cols} (hr : Reached w h pre hf0 cols) {m : TriMesh Rat} (hm : m.WF) :
    ∀ n ≤ m.indices.length, ∃ done hf, (List.range n).foldlM (rasterizeMeshStep fr m thr) hf0 = .ok hf ∧
      MeshDone fr w h thr pre hf0 m n done hf := by
  intro n
  induction n with
  | zero =>
    intro _
    exact ⟨[], hf0, rfl, ⟨cols, by simpa using hr⟩, rfl, by simp, by
      intro t ht; omega⟩
  | succ n ih =>
    intro hn
    obtain ⟨done, hf, e, hd⟩ := ih (by omega)
    obtain ⟨cols1, hr1⟩ := hd.reached
    have hlt : n < m.indices.length := by omega
    obtain ⟨r1, r2, r3⟩ := hm.inRange _ (List.getElem_mem hlt)
    have hla : n < m.areaTypes.length := by rw [hm.areas]; omega
    have hcorn : m.corners n = some (m.vertices[(m.indices[n]).1], m.vertices[(m.indices[n]).2.1],
        m.vertices[(m.indices[n]).2.2]) := by
      simp only [TriMesh.corners, List.getElem?_eq_getElem hlt, List.getElem?_eq_getElem r1,
        List.getElem?_eq_getElem r2, List.getElem?_eq_getElem r3]
    obtain ⟨hf', d', e', hd', hcov'⟩ := rasterizeTriangle_spec
      (c := ⟨fr, w, h, m.areaTypes[n], thr, pre ++ done, hf, (m.vertices[(m.indices[n]).1],
        m.vertices[(m.indices[n]).2.1], m.vertices[(m.indices[n]).2.2]),
        ∀ v ∈ m.vertices, fr.aabb.min.x ≤ v.x ∧ fr.aabb.min.z ≤ v.z⟩) hs hw hh hr1 (by
          intro g v hv
          simp only [triList, List.mem_cons, List.not_mem_nil, or_false] at hv
          rcases hv with rfl | rfl | rfl
          · exact g _ (List.getElem_mem _)
          · exact g _ (List.getElem_mem _)
          · exact g _ (List.getElem_mem _))
    refine ⟨done ++ d', hf', ?_, ?_, ?_, ?_, ?_⟩
    · rw [List.range_succ, List.foldlM_append, e, bind_ok, List.foldlM_cons]
      have : rasterizeMeshStep fr m thr hf n = .ok hf' := by
        unfold rasterizeMeshStep
        rw [idx_ok hlt, bind_ok, idx_ok r1, bind_ok, idx_ok r2, bind_ok, idx_ok r3, bind_ok, idx_ok hla,
          bind_ok]
        exact e'
      rw [this, bind_ok]; rfl
    · obtain ⟨cols', hr'⟩ := hd'.reached
      exact ⟨cols', by rw [← List.append_assoc]; exact hr'⟩
    · have h1 := hd.run
      have h2 := hd'.run
      simp only [insertAll] at h1 h2 ⊢
      rw [List.foldlM_append, h1, bind_ok, h2]
    · intro i hi
      rw [List.mem_append] at hi
      rcases hi with hi | hi
      · obtain ⟨a1, a2, a3, a4, a5, t, ht, a6⟩ := hd.each i hi
        exact ⟨a1, a2, a3, a4, a5, t, by omega, a6⟩
      · obtain ⟨a1, a2, a3, a4, a5, a6, a7⟩ := hd'.each i hi
        simp only at a1 a2 a5 a6 a7
        exact ⟨a1, a2, a3, a4, a6, n, by omega, by rw [a5]; exact List.getElem?_eq_getElem hla,
          fun g => ⟨_, hcorn, a7 g⟩⟩
    · intro t ht tri htri area harea q hq hbox x z hx hz hcell
      by_cases htn : t < n
      · obtain ⟨i, hi, h1⟩ := hd.cov t htn tri htri area harea q hq hbox x z hx hz hcell
        exact ⟨i, List.mem_append_left _ hi, h1⟩
      · have : t = n := by omega
        subst this
        rw [hcorn] at htri
        cases htri
        rw [List.getElem?_eq_getElem hla] at harea
        cases harea
        obtain ⟨i, hi, h1, h2, h3⟩ := hcov' q hq hbox x z hx hz hcell
        exact ⟨i, List.mem_append_right _ hi, (hd'.each i hi).2.2.2.2.1, h1, h2, h3⟩

end Rerecast
