import Verif.Lemmas.RasterRoundedCover
/-! The loops of the rasterizer in single precision. -/
set_option linter.unusedVariables false
namespace Rerecast
open Heightfield

/-- Every voxel of the block is within `d` of a point of the triangle; in x, it can be one cell further. -/
def RCtx.TouchedR (c : RCtx) (d : ℚ) (i : Insertion) : Prop :=
  ∀ v : Nat, i.min ≤ v → v < i.max → ∃ q, InTriangle c.tri q ∧
    (c.fr.aabb.min.x + ((i.x : ℚ) - 1) * c.fr.cellSize - d ≤ q.x ∧ q.x ≤ c.fr.aabb.min.x + (i.x + 1) * c.fr.cellSize + d) ∧
    (c.fr.aabb.min.z + i.z * c.fr.cellSize - d ≤ q.z ∧ q.z ≤ c.fr.aabb.min.z + (i.z + 1) * c.fr.cellSize + d) ∧
    (c.fr.aabb.min.y + v * c.fr.cellHeight - d ≤ q.y ∧ q.y ≤ c.fr.aabb.min.y + (v + 1) * c.fr.cellHeight + d)

section
variable {c : RCtx} {M : ℚ}

theorem touched_of_poly (s : SafeCtx c M) (hin : c.InX) {z k x : Int} (hz : 0 ≤ z ∧ z < c.h) (hk : 0 ≤ k ∧ k < c.w) (hkx : k = x ∨ k + 1 = x)
    {P : List (V3 ℚ)} (hP : ∀ v ∈ P, InCol c M z k v) {lo hi : ℚ} (hlo : ∃ v ∈ P, v.y = lo) (hhi : ∃ v ∈ P, v.y = hi) (hle : lo ≤ hi) {mn mx : Nat}
    (hr : snapSpanR roundF32 c.fr lo hi = .ok (some (mn, mx))) {i : Insertion} (h1 : (i.x : Int) = x) (h2 : (i.z : Int) = z) (h3 : i.min = mn) (h4 : i.max = mx) :
    c.TouchedR (c.tol M) i := by
  obtain ⟨vl, hvl, el⟩ := hlo
  obtain ⟨vh, hvh, eh⟩ := hhi
  have hM := s.pos
  intro v hv1 hv2
  have fl : IsF32 lo := el ▸ (hP vl hvl).fy
  have fh : IsF32 hi := eh ▸ (hP vh hvh).fy
  obtain ⟨y, y1, y2, y3, y4⟩ := snapSpanR_near s.frame fl fh hle hr v (by omega) (by omega)
  have hC : ConvexPred fun q => NearS (c.RowSet M z) ((k + 2) * (M / 2 ^ 20)) q ∧ c.lx (k - 1) - 1 / 2 ^ 18 * M ≤ q.x ∧ q.x ≤ c.lx k + 1 / 2 ^ 18 * M :=
    (convex_near (convex_rowSet c M z) _).and ((convex_ge_x _).and (convex_le_x _))
  have hv : ∀ v ∈ P, NearS (c.RowSet M z) ((k + 2) * (M / 2 ^ 20)) v ∧ c.lx (k - 1) - 1 / 2 ^ 18 * M ≤ v.x ∧ v.x ≤ c.lx k + 1 / 2 ^ 18 * M :=
    fun v hv => ⟨(hP v hv).near, (hP v hv).low hin hk.1, (hP v hv).high⟩
  obtain ⟨r, hry, ⟨q', ⟨⟨q, hq, q1, q2, q3⟩, z1, z2⟩, r1, r2, r3⟩, x1, x2⟩ : ∃ r : V3 ℚ, r.y = y ∧
      NearS (c.RowSet M z) ((k + 2) * (M / 2 ^ 20)) r ∧ c.lx (k - 1) - 1 / 2 ^ 18 * M ≤ r.x ∧ r.x ≤ c.lx k + 1 / 2 ^ 18 * M := by
    by_cases heq : lo = hi
    · exact ⟨vl, by rw [el]; linarith, hv vl hvl⟩
    · have hlt : lo < hi := lt_of_le_of_ne hle heq
      refine ⟨lerp vl vh ((y - lo) / (hi - lo)), ?_, hC vl vh _ (hv vl hvl) (hv vh hvh) (div_nonneg (by linarith) (by linarith))
        (div_le_one_of_le₀ (by linarith) (by linarith))⟩
      simp only [lerp]
      rw [el, eh]
      have : hi - lo ≠ 0 := by linarith
      field_simp
      ring
  refine ⟨q, hq, ?_⟩
  have l1 := abs_le.1 (s.frame.gx.close (by omega : -1 ≤ k) (by omega : k ≤ c.w))
  have l2 := abs_le.1 (s.frame.gx.close (by omega : -1 ≤ k - 1) (by omega : k - 1 ≤ c.w))
  have l3 := abs_le.1 (s.frame.gz.close (by omega : -1 ≤ z) (by omega : z ≤ c.h))
  have l4 := abs_le.1 (s.frame.gz.close (by omega : -1 ≤ z - 1) (by omega : z - 1 ≤ c.h))
  change _ ≤ c.lx k - _ ∧ c.lx k - _ ≤ _ at l1
  change _ ≤ c.lx (k - 1) - _ ∧ c.lx (k - 1) - _ ≤ _ at l2
  change _ ≤ c.lz z - _ ∧ c.lz z - _ ≤ _ at l3
  change _ ≤ c.lz (z - 1) - _ ∧ c.lz (z - 1) - _ ≤ _ at l4
  have ez : (i.z : ℚ) = z := by exact_mod_cast h2
  have ex : (i.x : ℚ) = x := by exact_mod_cast h1
  have kx1 : (x : ℚ) - 1 ≤ k := by
    have : x - 1 ≤ k := by omega
    exact_mod_cast this
  have kx2 : (k : ℚ) ≤ x := by
    have : k ≤ x := by omega
    exact_mod_cast this
  have cs0 := s.frame.gx.c0
  have m1 := mul_le_mul_of_nonneg_right kx1 cs0.le
  have m2 := mul_le_mul_of_nonneg_right (by linarith : (k : ℚ) + 1 ≤ x + 1) cs0.le
  have bk : ((k : ℚ) + 2) * (M / 2 ^ 20) ≤ (c.w + 1) * (M / 2 ^ 20) := by
    have : (k : ℚ) + 1 ≤ c.w := by exact_mod_cast hk.2
    exact mul_le_mul_of_nonneg_right (by linarith) (by positivity)
  have bz : ((z : ℚ) + 1) * (M / 2 ^ 20) ≤ c.h * (M / 2 ^ 20) := by
    have : (z : ℚ) + 1 ≤ c.h := by exact_mod_cast hz.2
    exact mul_le_mul_of_nonneg_right (by linarith) (by positivity)
  have k0 : 0 ≤ ((k : ℚ) + 2) * (M / 2 ^ 20) := by
    have : (0 : ℚ) ≤ k := by exact_mod_cast hk.1
    positivity
  have ch0 : 0 < c.fr.cellHeight := lt_of_lt_of_le (by norm_num) s.frame.h0
  have htol : c.tol M = (c.w + 1) * (M / 2 ^ 20) + c.h * (M / 2 ^ 20) + 6 * (M / 2 ^ 20) + c.fr.cellHeight / 2 ^ 20 := by
    unfold RCtx.tol
    ring
  rw [abs_le] at q1 q2 q3 r1 r2 r3
  rw [ez, ex, htol]
  push_cast at l2 l4
  generalize ((k : ℚ) + 2) * (M / 2 ^ 20) = dk at *
  generalize ((z : ℚ) + 1) * (M / 2 ^ 20) = dz at *
  generalize ((c.w : ℚ) + 1) * (M / 2 ^ 20) = dw at *
  generalize (c.h : ℚ) * (M / 2 ^ 20) = dh at *
  rw [hry] at r2
  norm_num at *
  refine ⟨⟨?_, ?_⟩, ⟨?_, ?_⟩, ?_, ?_⟩ <;> linarith

/-- Between the columns. -/
structure ColSafe (c : RCtx) (M : ℚ) (z x0 x1 : Int) (mv : V3 ℚ) (x : Int) (st : ColState) : Prop where
  l2 : st.p2.length = 7
  ge : x0 ≤ x
  rest : ∃ R, Buf st.inRow st.nv2 R ∧ XInv c M z x R ∧ (c.InX → (x < x1 ∨ x = x0) → mv ∈ R)
  prev : ∃ P, Buf st.p1 st.nv P ∧ (c.InX → x ≤ x1 → ∀ v ∈ P, InCol c M z (x - 1) v)
  fin : ∃ done, c.Done done st.hf ∧ (c.InX → ∀ i ∈ done, c.TouchedR (c.tol M) i)

theorem xinv_nil (z x : Int) : XInv c M z x [] := ⟨⟨fun _ _ => twice_nil _, .inl (by simp)⟩, by simp⟩

theorem colStepR_safe (s : SafeCtx c M) {z : Int} (hz : 0 ≤ z ∧ z < c.h) {x0 x1 x : Int} (h0 : -1 ≤ x0) (hX0 : c.InX → 0 ≤ x0) (hx1 : x ≤ x1)
    (hx : x < c.w) {mv : V3 ℚ} (hfm : IsF32 mv.x) (hmv : c.InX → x + 1 < x1 → c.lx x < mv.x) {st : ColState} (h : ColSafe c M z x0 x1 mv x st) :
    ∃ st', colStepR roundF32 c.fr c.area c.thr z st x = .ok st' ∧ ColSafe c M z x0 x1 mv (x + 1) st' := by
  obtain ⟨R, hR, hX, hmem⟩ := h.rest
  obtain ⟨P, hP, hPc⟩ := h.prev
  have hge := h.ge
  have hl0 := hR.len
  have hcut : ∃ p1 nv p2 nv2, dividePolyR roundF32 st.inRow st.nv2 st.p1 st.nv st.p2 st.nv2 (c.lx x) .X =
      .ok (p1, nv, p2, nv2) ∧ (∃ R', Buf p2 nv2 R' ∧ XInv c M z (x + 1) R' ∧ (c.InX → (x + 1 < x1 ∨ x + 1 = x0) → mv ∈ R')) ∧
      ∃ P', Buf p1 nv P' ∧ (c.InX → ∃ k, (k = x ∨ k + 1 = x) ∧ (0 ≤ x → 0 ≤ k) ∧ ∀ v ∈ P', InCol c M z k v) ∧
        (c.InX → x + 1 ≤ x1 → ∀ v ∈ P', InCol c M z (x + 1 - 1) v) := by
    by_cases hne : R = []
    · subst hne
      have hc0 : st.nv2 = 0 := hR.count
      rw [hc0, dividePolyR_empty]
      refine ⟨_, _, _, _, rfl, ⟨[], ⟨h.l2, rfl, rfl⟩, xinv_nil _ _, ?_⟩, P, hP, ?_, ?_⟩
      · intro hin hor
        rcases hor with hor | hor
        · exact hmem hin (.inl (by omega))
        · omega
      · intro hin
        have hno : ¬ (x < x1 ∨ x = x0) := fun hor => by simpa using hmem hin hor
        have := hX0 hin
        exact ⟨x - 1, .inr (by omega), fun _ => by omega, hPc hin hx1⟩
      · intro hin hlt
        exact absurd (hmem hin (.inl (by omega))) (by simp)
    · obtain ⟨a1, a2, a3, a4⟩ := xstep s hz.2 (by omega) hx hX
      obtain ⟨o1, n1, o2, n2, e, b1, b2⟩ := dividePolyR_spec roundF32 (n1 := st.nv) (n2 := st.nv2) .X (c.lx x) hR hne hP.len h.l2 a1 a2
      refine ⟨o1, n1, o2, n2, e, ⟨_, b2, a4, ?_⟩, _, b1, fun _ => ⟨x, .inl rfl, id, a3⟩, fun _ _ => by rw [add_sub_cancel_right]; exact a3⟩
      intro hin hor
      have hlt : x + 1 < x1 := by omega
      refine mem_keepF2_of (hmem hin (.inl (by omega))) ?_
      have hsg := (sideR_sign (axis := .X) (f32_lx c x) hfm).1
      by_contra hcon
      have k1 := hsg.1 (not_lt.1 hcon)
      exact absurd k1 (not_le.2 (hmv hin hlt))
  obtain ⟨p1, nv, p2, nv2, e, q2, P', hP', hPk, hPn⟩ := hcut
  unfold colStepR
  change ∃ st', (dividePolyR roundF32 st.inRow st.nv2 st.p1 st.nv st.p2 st.nv2 (c.lx x) .X >>= _) = .ok st' ∧ _
  rw [e, bind_ok]
  dsimp only
  by_cases hcond : nv < 3 ∨ x < 0
  · rw [if_pos hcond]
    exact ⟨_, rfl, hl0, by omega, q2, ⟨P', hP', hPn⟩, h.fin⟩
  · rw [if_neg hcond]
    have hne : P' ≠ [] := by
      intro h0
      have := hP'.count
      rw [h0] at this
      simp at this
      omega
    obtain ⟨lo, hi, eb, hb, hlo, hhi⟩ := bounds_spec (f := V3.y) hP' hne
    rw [eb, bind_ok]
    obtain ⟨r, er, hr⟩ := snapSpanR_safe s.frame lo hi
    dsimp only
    rw [er, bind_ok]
    match r, hr, er with
    | none, _, _ => exact ⟨_, rfl, hl0, by omega, q2, ⟨P', hP', hPn⟩, h.fin⟩
    | some (mn, mx), hr, er =>
      obtain ⟨s1, s2⟩ := hr mn mx rfl
      obtain ⟨done, hd, ht⟩ := h.fin
      obtain ⟨hf', k1, k2⟩ := hd.snoc ⟨x.toNat, z.toNat, c.thr, mn, mx, c.area⟩
        ⟨by dsimp only; omega, by dsimp only; omega, s1, s2, rfl, rfl, fun g => absurd g s.hG⟩
      dsimp only at k1 ⊢
      rw [k1, bind_ok]
      refine ⟨_, rfl, hl0, by omega, q2, ⟨P', hP', hPn⟩, _, k2, ?_⟩
      intro hin i hi'
      rw [List.mem_append, List.mem_singleton] at hi'
      rcases hi' with hi' | rfl
      · exact ht hin i hi'
      · obtain ⟨k, hk1, hk2, hk3⟩ := hPk hin
        have hle : lo ≤ hi := by
          obtain ⟨v, hv, -⟩ := hlo
          exact (hb v hv).1.trans (hb v hv).2
        exact touched_of_poly s hin hz ⟨hk2 (by omega), by omega⟩ hk1 hk3 hlo hhi hle er (by dsimp only; omega) (by dsimp only; omega) rfl rfl

/-- Between the rows. -/
structure RowSafe (c : RCtx) (M : ℚ) (last : Bool) (top : V3 ℚ) (z1 z : Int) (st : RowState) : Prop where
  l1 : st.inRow.length = 7
  l2 : st.p1.length = 7
  l3 : st.p2.length = 7
  rest : ∃ R, Buf st.inTri st.nvIn R ∧ ZInv c M last z R ∧ (z ≤ z1 → top ∈ R)
  fin : ∃ done, c.Done done st.hf ∧ (c.InX → ∀ i ∈ done, c.TouchedR (c.tol M) i)

theorem rowOf_nonneg {fr : Frame} (hc : 0 < fr.cellSize) {z : ℚ} (hz : fr.aabb.min.z ≤ z) : 0 ≤ rowOf roundF32 fr z := by
  have hinv : 0 ≤ roundF32 (1 / fr.cellSize) := by
    have := roundF32_mono (a := 0) (b := 1 / fr.cellSize) (by positivity)
    rwa [roundF32_zero] at this
  have h1 := roundF32_mono (a := 0) (b := z - fr.aabb.min.z) (by linarith)
  rw [roundF32_zero] at h1
  have h2 := roundF32_mono (mul_nonneg h1 hinv)
  rw [roundF32_zero] at h2
  have := le_ratTrunc (le_refl 0) (by push_cast; exact h2)
  unfold rowOf ratAsI16
  omega

theorem rowStepR_safe (s : SafeCtx c M) {last : Bool} {top : V3 ℚ} {z1 z : Int}
    (hz0 : 0 ≤ z) (hz : z < c.h) (hz1 : z ≤ z1) (hft : IsF32 top.z)
    (htop : z < z1 → c.lz z < top.z) {st : RowState} (h : RowSafe c M last top z1 z st) :
    ∃ st', rowStepR roundF32 c.fr c.w c.area c.thr st z = .ok st' ∧ RowSafe c M last top z1 (z + 1) st' := by
  obtain ⟨R, hR, hZ, hmem⟩ := h.rest
  have hl0 := hR.len
  have hw := s.hw
  have hM := s.pos
  have hne : R ≠ [] := by
    intro h0
    have := hmem hz1
    rw [h0] at this
    simp at this
  obtain ⟨a1, a2, a3, a4, a5⟩ := zstep s hz0 hz hZ
  obtain ⟨o1, n1, o2, n2, e, b1, b2⟩ := dividePolyR_spec roundF32 (n1 := st.nvRow) (n2 := st.nvIn) .Z (c.lz z) hR hne
    h.l1 h.l2 (by omega) a2
  have hrest : z + 1 ≤ z1 → top ∈ keepF2 (sideR roundF32 .Z (c.lz z)) (cutR roundF32 .Z (c.lz z)) R := by
    intro hlt
    refine mem_keepF2_of (hmem hz1) ?_
    have := (sideR_sign (axis := .Z) (f32_lz c z) hft).1
    by_contra hc
    have h1 := this.1 (not_lt.1 hc)
    have h2 := htop (by omega)
    exact absurd h1 (not_le.2 h2)
  unfold rowStepR
  dsimp only
  change ∃ st', (dividePolyR roundF32 st.inTri st.nvIn st.inRow st.nvRow st.p1 st.nvIn (c.lz z) .Z >>= _) = .ok st' ∧ _
  rw [e, bind_ok]
  dsimp only
  generalize hK : keepF1 (sideR roundF32 .Z (c.lz z)) (cutR roundF32 .Z (c.lz z)) R = K at *
  have q2 : n1 ≤ 7 := by rw [b1.count]; omega
  by_cases hcond : n1 < 3 ∨ z < 0
  · rw [if_pos hcond]
    exact ⟨_, rfl, b1.len, hl0, h.l3, ⟨_, b2, a5, hrest⟩, h.fin⟩
  · rw [if_neg hcond]
    have hKne : K ≠ [] := by
      intro h0
      have := b1.count
      rw [h0] at this
      simp at this
      omega
    obtain ⟨lo, hi, eb, hb, ⟨vlo, hvlo, hvlo'⟩, mv, hmv, hmvx⟩ := bounds_spec (f := V3.x) b1 hKne
    rw [eb, bind_ok]
    dsimp only
    split
    · exact ⟨_, rfl, b1.len, hl0, h.l3, ⟨_, b2, a5, hrest⟩, h.fin⟩
    · rename_i hout
      have hwI : u16AsI16 c.w = (c.w : Int) := by unfold u16AsI16; rw [if_pos hw.2]
      rw [hwI] at hout ⊢
      unfold predI16
      rw [if_neg (by omega), bind_ok]
      change ∃ st', (clampI (rowOf roundF32 c.fr.turned lo) _ _ >>= fun x0 => clampI (rowOf roundF32 c.fr.turned hi) _ _ >>= _) = .ok st' ∧ _
      change ¬ (rowOf roundF32 c.fr.turned hi < 0 ∨ rowOf roundF32 c.fr.turned lo ≥ c.w) at hout
      unfold clampI
      rw [if_pos (by omega), bind_ok, if_pos (by omega), bind_ok]
      generalize hX0 : max (-1) (min (rowOf roundF32 c.fr.turned lo) (↑c.w - 1)) = X0
      generalize hX1 : max 0 (min (rowOf roundF32 c.fr.turned hi) (↑c.w - 1)) = X1
      have hlm : |lo| ≤ M := hvlo' ▸ (a4 vlo hvlo).2.1
      have hhm : |hi| ≤ M := hmvx ▸ (a4 mv hmv).2.1
      have hlm' := (abs_le.1 hlm).2
      have hhm' := (abs_le.1 hhm).2
      have hmm := (abs_le.1 s.frame.gx.hm).1
      have hc1 := s.frame.gx.c1
      have hc2 := s.frame.gx.c2
      have hlin : c.InX → c.fr.aabb.min.x ≤ lo := fun hin => hvlo' ▸ (a4 vlo hvlo).2.2.2 hin
      have hhin : c.InX → c.fr.aabb.min.x ≤ hi := fun hin => hmvx ▸ (a4 mv hmv).2.2.2 hin
      have hX00 : c.InX → 0 ≤ X0 := by
        intro hin
        have : 0 ≤ rowOf roundF32 c.fr.turned lo := rowOf_nonneg (fr := c.fr.turned) s.frame.gx.c0 (hlin hin)
        omega
      obtain ⟨s', y, es, hs⟩ := foldlM_intRange (P := ColSafe c M z X0 X1 mv) (b := X1) (f := colStepR roundF32 c.fr c.area c.thr z) _ X0
        ⟨st.hf, o1, st.inTri, st.p2, 0, n1⟩ rfl
        ⟨h.l3, le_refl _, ⟨K, b1, ⟨⟨fun t _ => a3 t, .inl a1⟩, fun v hv => ⟨(a4 v hv).1, near_self (by
            have : (-1 : ℚ) ≤ X0 := by
              have : -1 ≤ X0 := by omega
              exact_mod_cast this
            have : 0 ≤ (X0 : ℚ) + 1 := by linarith
            positivity) (a4 v hv).2.2.1, by
            intro hin _
            have hrow : (X0.toNat : Int) ≤ max 0 (rowOf roundF32 c.fr.turned lo) := by
              have := hX00 hin
              omega
            have hup := rowOf_upper (fr := c.fr.turned) s.frame.c0 s.frame.c1 (hlin hin) hrow
            change (X0.toNat : ℚ) * c.fr.cellSize ≤ (lo - c.fr.aabb.min.x) * (1 + 1 / 2 ^ 22) + c.fr.cellSize * (1 / 2 ^ 22) at hup
            have hcast : ((X0.toNat : Nat) : ℚ) = (X0 : ℚ) := by
              have : ((X0.toNat : Nat) : Int) = X0 := Int.toNat_of_nonneg (hX00 hin)
              exact_mod_cast congrArg (Int.cast (R := ℚ)) this
            rw [hcast] at hup
            have hcl := (abs_le.1 (s.frame.gx.close (by have := hX00 hin; omega : -1 ≤ X0 - 1) (by omega : X0 - 1 ≤ c.w))).2
            change c.lx (X0 - 1) - _ ≤ _ at hcl
            push_cast at hcl
            have hv' : lo ≤ v.x := (hb v hv).1
            norm_num at *
            linarith⟩⟩, fun _ _ => hmv⟩,
          ⟨[], ⟨hl0, rfl, rfl⟩, by simp⟩, h.fin⟩
        (fun x s1 hx hbx hp => colStepR_safe s ⟨hz0, hz⟩ (by omega) hX00 hbx (by omega) (a4 mv hmv).1.1 (by
          intro hin hlt
          have hrow : (X1.toNat : Int) ≤ max 0 (rowOf roundF32 c.fr.turned hi) := by omega
          have hup := rowOf_upper (fr := c.fr.turned) s.frame.c0 s.frame.c1 (hhin hin) hrow
          change (X1.toNat : ℚ) * c.fr.cellSize ≤ (hi - c.fr.aabb.min.x) * (1 + 1 / 2 ^ 22) + c.fr.cellSize * (1 / 2 ^ 22) at hup
          have hcast : ((X1.toNat : Nat) : ℚ) = (X1 : ℚ) := by
            have : ((X1.toNat : Nat) : Int) = X1 := Int.toNat_of_nonneg (by omega)
            exact_mod_cast congrArg (Int.cast (R := ℚ)) this
          rw [hcast] at hup
          have hcl := (abs_le.1 (s.frame.gx.close (by have := hX00 hin; omega : -1 ≤ x) (by omega : x ≤ c.w))).2
          change c.lx x - _ ≤ _ at hcl
          have hxx : (x : ℚ) + 2 ≤ X1 := by
            have : x + 2 ≤ X1 := by omega
            exact_mod_cast this
          have hmul := mul_le_mul_of_nonneg_right hxx s.frame.gx.c0.le
          have e : mv.x = hi := hmvx
          rw [e]
          norm_num at *
          linarith) hp)
      rw [es, bind_ok]
      obtain ⟨R1, hR1, -⟩ := hs.rest
      obtain ⟨P1, hP1, -⟩ := hs.prev
      exact ⟨_, rfl, hR1.len, hP1.len, hs.l2, ⟨_, b2, a5, hrest⟩, hs.fin⟩

/-- A triangle whose corners lie away from the row lines. -/
structure SafeTriangle (c : RCtx) (M : ℚ) (last : Bool) : Prop where
  f : ∀ v ∈ cornerList c.tri, IsF32 v.x ∧ IsF32 v.y ∧ IsF32 v.z
  ok : ∀ v ∈ cornerList c.tri, ∀ k : Int, 0 ≤ k → k < c.h → OkAt c.fr.aabb.min.z c.fr.cellSize M c.h last k v
  inside : ∀ v ∈ cornerList c.tri, c.fr.aabb.min.z ≤ v.z
  rows : ∀ v ∈ cornerList c.tri, ∀ k : Nat, 1 ≤ k → k < c.h → M / 2 ^ 18 ≤ |v.z - (c.fr.aabb.min.z + k * c.fr.cellSize)|

theorem rasterizeTriangleR_safe (s : SafeCtx c M) {last : Bool} (t : SafeTriangle c M last) {hf : Heightfield} (hd : c.Done [] hf) :
    ∃ hf' done, rasterizeTriangleR roundF32 c.fr hf c.tri c.area c.thr = .ok hf' ∧ c.Done done hf' ∧ (c.InX → ∀ i ∈ done, c.TouchedR (c.tol M) i) := by
  obtain ⟨cols, hr⟩ := hd.reached
  have hw := s.hw
  have hh := s.hh
  have hM := s.pos
  unfold rasterizeTriangleR
  dsimp only
  by_cases hint : c.fr.aabb.intersects (triangleAabb c.tri) = true
  swap
  · rw [if_pos (by simpa using hint)]
    exact ⟨_, [], rfl, hd, by simp⟩
  rw [if_neg (by simp [hint])]
  have hhI : u16AsI16 hf.height = (c.h : Int) := by unfold u16AsI16; rw [hr.height, if_pos hh.2]
  rw [hhI, hr.width]
  unfold predI16
  rw [if_neg (by omega), bind_ok]
  unfold clampI
  rw [if_pos (by omega), bind_ok, if_pos (by omega), bind_ok]
  -- the extreme corners
  obtain ⟨top, htm, htz⟩ : ∃ v ∈ cornerList c.tri, v.z = (triangleAabb c.tri).max.z := by
    simp only [triangleAabb, V3.max]
    rcases max_choice (max c.tri.1.z c.tri.2.1.z) c.tri.2.2.z with q | q
    · rcases max_choice c.tri.1.z c.tri.2.1.z with q' | q'
      · exact ⟨c.tri.1, by simp [cornerList], by rw [q, q']⟩
      · exact ⟨c.tri.2.1, by simp [cornerList], by rw [q, q']⟩
    · exact ⟨c.tri.2.2, by simp [cornerList], by rw [q]⟩
  obtain ⟨bot, hbm, hbz⟩ : ∃ v ∈ cornerList c.tri, v.z = (triangleAabb c.tri).min.z := by
    simp only [triangleAabb, V3.min]
    rcases min_choice (min c.tri.1.z c.tri.2.1.z) c.tri.2.2.z with q | q
    · rcases min_choice c.tri.1.z c.tri.2.1.z with q' | q'
      · exact ⟨c.tri.1, by simp [cornerList], by rw [q, q']⟩
      · exact ⟨c.tri.2.1, by simp [cornerList], by rw [q, q']⟩
    · exact ⟨c.tri.2.2, by simp [cornerList], by rw [q]⟩
  have hbot : ∀ v ∈ cornerList c.tri, bot.z ≤ v.z := by
    intro v hv
    rw [hbz]
    simp only [cornerList, List.mem_cons, List.not_mem_nil, or_false] at hv
    simp only [triangleAabb, V3.min]
    rcases hv with rfl | rfl | rfl
    · exact (min_le_left _ _).trans (min_le_left _ _)
    · exact (min_le_left _ _).trans (min_le_right _ _)
    · exact min_le_right _ _
  rw [← htz, ← hbz]
  have hz0 : 0 ≤ rowOf roundF32 c.fr bot.z := rowOf_nonneg s.frame.gz.c0 (t.inside bot hbm)
  change ∃ hf' done, ((intRange (max (-1) (min (rowOf roundF32 c.fr bot.z) (↑c.h - 1)))
    (max 0 (min (rowOf roundF32 c.fr top.z) (↑c.h - 1)))).foldlM _ _ >>= _) = _ ∧ _
  have hmm := (abs_le.1 s.frame.gz.hm).1
  have hc1 := s.frame.gz.c1
  have hlow : ∀ Z0 : Int, 0 ≤ Z0 → Z0 ≤ rowOf roundF32 c.fr bot.z → Z0 < c.h → c.lz (Z0 - 1) - 1 / 2 ^ 19 * M ≤ bot.z := by
    intro Z0 h0 h1 h2
    have hrow : (Z0.toNat : Int) ≤ max 0 (rowOf roundF32 c.fr bot.z) := by omega
    have hup := rowOf_upper s.frame.c0 s.frame.c1 (t.inside bot hbm) hrow
    have hcast : ((Z0.toNat : Nat) : ℚ) = (Z0 : ℚ) := by
      have : ((Z0.toNat : Nat) : Int) = Z0 := Int.toNat_of_nonneg h0
      exact_mod_cast congrArg (Int.cast (R := ℚ)) this
    rw [hcast] at hup
    have hcl := (abs_le.1 (s.frame.gz.close (by omega : -1 ≤ Z0 - 1) (by omega : Z0 - 1 ≤ c.h))).2
    change c.lz (Z0 - 1) - _ ≤ _ at hcl
    push_cast at hcl
    have hb1 := (abs_le.1 (s.corners bot hbm).2.2).2
    norm_num at *
    linarith
  generalize hZ0 : max (-1) (min (rowOf roundF32 c.fr bot.z) (↑c.h - 1)) = Z0
  have hZ00 : 0 ≤ Z0 := by omega
  have hlow' := hlow Z0 hZ00 (by omega) (by omega)
  obtain ⟨s', y, es, hs⟩ := foldlM_intRange (P := RowSafe c M last top (max 0 (min (rowOf roundF32 c.fr top.z) (↑c.h - 1))))
    (b := max 0 (min (rowOf roundF32 c.fr top.z) (↑c.h - 1))) (f := rowStepR roundF32 c.fr c.w c.area c.thr) _ Z0
    ⟨hf, ((zeroBuf.set 0 c.tri.1).set 1 c.tri.2.1).set 2 c.tri.2.2, zeroBuf, zeroBuf, zeroBuf, 0, 3⟩ rfl
    ⟨by simp [zeroBuf], by simp [zeroBuf], by simp [zeroBuf], ⟨cornerList c.tri, ⟨by simp [zeroBuf], rfl, rfl⟩,
      ⟨⟨fun _ _ => twice_triple _ _ _ _, .inl (by simp [cornerList])⟩, fun _ => twice_triple _ _ _ _, fun v hv =>
        ⟨t.f v hv, (s.corners v hv).1, (s.corners v hv).2.2, fun k hk => t.ok v hv k (by omega), near_self (by
          have : (0 : ℚ) ≤ Z0 := by exact_mod_cast hZ00
          positivity) (corner_inTriangle hv), hlow'.trans (hbot v hv), fun hin => hin v hv⟩⟩, fun _ => htm⟩,
      [], hd, by simp⟩
    (by
      intro z st hz hz1 hst
      refine rowStepR_safe s (by omega) (by omega) hz1 (t.f top htm).2.2 ?_ hst
      intro hlt
      have hrow : ((z + 1).toNat : Int) ≤ max 0 (rowOf roundF32 c.fr top.z) := by omega
      have hup := rowOf_upper s.frame.c0 s.frame.c1 (t.inside top htm) hrow
      have hk := t.rows top htm (z + 1).toNat (by omega) (by omega)
      have hcast : (((z + 1).toNat : Nat) : ℚ) = (z : ℚ) + 1 := by
        have : (((z + 1).toNat : Nat) : Int) = z + 1 := Int.toNat_of_nonneg (by omega)
        have := congrArg (Int.cast (R := ℚ)) this
        push_cast at this
        exact this
      rw [hcast] at hup hk
      have hcl := (abs_le.1 (s.frame.gz.close (by omega : -1 ≤ z) (by omega : z ≤ c.h))).2
      change c.lz z - _ ≤ _ at hcl
      have hb1 := (abs_le.1 (s.corners top htm).2.2).2
      rcases le_abs.1 hk with hk | hk
      · norm_num at *
        linarith
      · norm_num at *
        linarith)
  rw [es, bind_ok]
  obtain ⟨done, h1, h2⟩ := hs.fin
  exact ⟨_, done, rfl, h1, h2⟩
end

end Rerecast
