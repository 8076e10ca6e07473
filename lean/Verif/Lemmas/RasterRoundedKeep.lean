import Verif.Lemmas.RasterRoundedCover
/-! Rasterization in single precision, if it returns, does not lose what lies well inside a cell: the loops. -/
set_option linter.unusedVariables false
namespace Rerecast
open Heightfield

/-! ### Clipping aborts or computes the two pieces -/

theorem push1_orPanic (st : DivState) (v : V3 Rat) : OrPanic (st.push1 v) fun st' => Grown st st' [v] [] := by
  by_cases h : st.n1 < st.out1.length
  · obtain ⟨st', e, g, -⟩ := push1_grown (v := v) h
    exact .inr ⟨st', e, g⟩
  · left
    unfold DivState.push1 setIdx
    rw [if_neg h]
    rfl

theorem push2_orPanic (st : DivState) (v : V3 Rat) : OrPanic (st.push2 v) fun st' => Grown st st' [] [v] := by
  by_cases h : st.n2 < st.out2.length
  · obtain ⟨st', e, g, -⟩ := push2_grown (v := v) h
    exact .inr ⟨st', e, g⟩
  · left
    unfold DivState.push2 setIdx
    rw [if_neg h]
    rfl

section
variable (rnd : Rat → Rat)

theorem divideStepR_orPanic (axis : DivisionAxis) (off : Rat) (st : DivState) (a : V3 Rat) :
    OrPanic (divideStepR rnd axis off st a) fun st' =>
      Grown st st' (pieceF1 (sideR rnd axis off) (cutR rnd axis off) st.prev a) (pieceF2 (sideR rnd axis off) (cutR rnd axis off) st.prev a) ∧
      st'.prev = a := by
  have main : OrPanic (divideAddR rnd axis off st a) fun st' =>
      Grown st st' (pieceF1 (sideR rnd axis off) (cutR rnd axis off) st.prev a) (pieceF2 (sideR rnd axis off) (cutR rnd axis off) st.prev a) := by
    unfold divideAddR
    dsimp only
    rw [show rnd (off - axis.coord a) = sideR rnd axis off a from rfl, show rnd (off - axis.coord st.prev) = sideR rnd axis off st.prev from rfl]
    simp only [pieceF1, pieceF2]
    by_cases hc : CrossF (sideR rnd axis off) st.prev a
    · rw [if_pos (show decide (sideR rnd axis off a ≥ 0) ≠ decide (sideR rnd axis off st.prev ≥ 0) from hc)]
      simp only [hc, if_true]
      refine (push1_orPanic st _).bind fun s1 g1 => (push2_orPanic s1 _).bind fun s2 g2 => ?_
      have g12 := g1.trans g2
      by_cases hp : sideR rnd axis off a > 0
      · have hn : ¬ sideR rnd axis off a < 0 := not_lt.2 (le_of_lt hp)
        simp only [hp, hn, if_true, if_false]
        rcases push1_orPanic s2 a with e | ⟨s3, e3, g3⟩
        · exact .inl e
        · exact .inr ⟨s3, e3, g12.trans g3⟩
      · simp only [hp, if_false]
        by_cases hn : sideR rnd axis off a < 0
        · simp only [hn, if_true]
          rcases push2_orPanic s2 a with e | ⟨s3, e3, g3⟩
          · exact .inl e
          · exact .inr ⟨s3, e3, g12.trans g3⟩
        · simp only [hn, if_false]
          exact .ok g12
    · rw [if_neg (show ¬ (decide (sideR rnd axis off a ≥ 0) ≠ decide (sideR rnd axis off st.prev ≥ 0)) from hc)]
      simp only [hc, if_false]
      by_cases hp : sideR rnd axis off a ≥ 0
      · simp only [hp, if_true]
        refine (push1_orPanic st _).bind fun s1 g1 => ?_
        by_cases hz : sideR rnd axis off a = 0
        · simp only [hz, ne_eq, not_true_eq_false, if_false, if_true]
          rcases push2_orPanic s1 a with e | ⟨s3, e3, g3⟩
          · exact .inl e
          · exact .inr ⟨s3, e3, g1.trans g3⟩
        · simp only [hz, ne_eq, not_false_eq_true, if_true, if_false]
          exact .ok g1
      · simp only [hp, if_false]
        exact push2_orPanic st a
  unfold divideStepR
  exact main.bind fun s g => .ok ⟨⟨g.o1, g.n1, g.len1, g.o2, g.n2, g.len2⟩, rfl⟩

theorem divideFoldR_orPanic (axis : DivisionAxis) (off : Rat) : ∀ (l : List (V3 Rat)) (st : DivState),
    OrPanic (l.foldlM (divideStepR rnd axis off) st) fun st' =>
      Grown st st' (along (pieceF1 (sideR rnd axis off) (cutR rnd axis off)) st.prev l)
        (along (pieceF2 (sideR rnd axis off) (cutR rnd axis off)) st.prev l)
  | [], st => .ok (Grown.refl st)
  | a :: t, st => by
    rw [List.foldlM_cons]
    refine (divideStepR_orPanic rnd axis off st a).bind fun s1 ⟨g1, hp⟩ => ?_
    rcases divideFoldR_orPanic axis off t s1 with e | ⟨s2, e2, g2⟩
    · exact .inl e
    · rw [hp] at g2
      exact .inr ⟨s2, e2, g1.trans g2⟩

theorem dividePolyR_orPanic {inV o1 o2 : List (V3 Rat)} {n n1 n2 : Nat} {L : List (V3 Rat)}
    (axis : DivisionAxis) (off : Rat) (hin : Buf inV n L) (hne : L ≠ []) (ho1 : o1.length = 7) (ho2 : o2.length = 7) :
    OrPanic (dividePolyR rnd inV n o1 n1 o2 n2 off axis) fun r =>
      Buf r.1 r.2.1 (keepF1 (sideR rnd axis off) (cutR rnd axis off) L) ∧ Buf r.2.2.1 r.2.2.2 (keepF2 (sideR rnd axis off) (cutR rnd axis off) L) := by
  have hle := hin.le
  have hpos : 0 < L.length := List.length_pos_iff.2 hne
  have hn : n = L.length := hin.count
  have hlast : inV[n - 1]? = L.getLast? := by
    rw [List.getLast?_eq_getElem?, ← hin.take, List.getElem?_take]
    simp only [List.length_take, hin.len]
    rw [if_pos (by omega)]
    congr 1; omega
  obtain ⟨p, hp⟩ : ∃ p, L.getLast? = some p := by
    cases hg : L.getLast? with
    | none => simp at hg; exact absurd hg hne
    | some p => exact ⟨p, rfl⟩
  unfold dividePolyR
  rw [if_neg (by omega), if_neg (by omega), if_neg (by rw [hin.len]; omega)]
  dsimp only
  rw [idx_some (hlast.trans hp), bind_ok, hin.take]
  simp only [keepF1, keepF2, hp]
  refine (divideFoldR_orPanic rnd axis off L ⟨o1, 0, o2, 0, p⟩).bind fun st' g => .ok ?_
  refine ⟨⟨by rw [g.len1]; exact ho1, ?_, ?_⟩, ⟨by rw [g.len2]; exact ho2, ?_, ?_⟩⟩
  · rw [g.n1]; simp
  · rw [g.o1]; simp
  · rw [g.n2]; simp
  · rw [g.o2]; simp
end

theorem orPanic_intRange {σ : Type} {f : σ → Int → Res σ} {P : Int → σ → Prop} {b : Int} : ∀ (n : Nat) (a : Int) (init : σ), (b + 1 - a).toNat = n →
    P a init → (∀ x s, a ≤ x → x ≤ b → P x s → OrPanic (f s x) (P (x + 1))) →
    OrPanic ((intRange a b).foldlM f init) fun s => ∃ y, P y s ∧ b < y
  | 0, a, init, hn, h0, _ => by
    rw [intRange_nil (by omega)]
    exact .ok ⟨a, h0, by omega⟩
  | n + 1, a, init, hn, h0, step => by
    rw [intRange_cons (by omega), List.foldlM_cons]
    refine (step a init (le_refl _) (by omega) h0).bind fun s1 p1 => ?_
    exact orPanic_intRange n (a + 1) s1 (by omega) p1 fun x s hx hb hp => step x s (by omega) hb hp

/-! ### Polygons that hold the point -/

section
variable {a : Aim} {c : RCtx} {M : ℚ}

/-- A polygon near the triangle, with the point in its shadow. -/
structure Aim.Held (a : Aim) (c : RCtx) (M n : ℚ) (R : List (V3 ℚ)) : Prop where
  kept : a.Kept c (n * (M / 2 ^ 20)) R
  f : ∀ v ∈ R, IsF32 v.x ∧ IsF32 v.y ∧ IsF32 v.z
  near : ∀ v ∈ R, NearS (InTriangle c.tri) (n * (M / 2 ^ 20)) v

theorem Aim.Held.mono {p q : ℚ} {R : List (V3 ℚ)} (hM : 0 < M) (h : a.Held c M p R) (hpq : p ≤ q) : a.Held c M q R :=
  ⟨h.kept.mono hM hpq, h.f, fun v hv => (h.near v hv).mono (units_le hM hpq)⟩

theorem Aim.Held.three {n : ℚ} {R : List (V3 ℚ)} (h : a.Held c M n R) : 3 ≤ R.length := h.kept.1.1

theorem Aim.Held.ne {n : ℚ} {R : List (V3 ℚ)} (h : a.Held c M n R) : R ≠ [] := by
  intro h0
  have := h.three
  rw [h0] at this
  simp at this

theorem Aim.Held.small {n : ℚ} {R : List (V3 ℚ)} (h : a.Held c M n R) (s : SafeCtx c M) (hn : n ≤ c.w + c.h + 2) : ∀ v ∈ R, Small (2 * M) v := by
  intro v hv
  have hM := s.pos
  obtain ⟨a1, a2, a3⟩ := abs_of_near s.corners (h.near v hv)
  have k : n ≤ 65536 := by
    have h1 : ((c.w : Nat) : ℚ) ≤ 32767 := by exact_mod_cast s.hw.2
    have h2 : ((c.h : Nat) : ℚ) ≤ 32767 := by exact_mod_cast s.hh.2
    linarith
  have m1 := units_le hM k
  have : M + n * (M / 2 ^ 20) ≤ 2 * M := by
    norm_num at *
    linarith
  exact ⟨h.f v hv, by linarith, by linarith, by linarith⟩

theorem held_cut {axis : DivisionAxis} {O : ℚ} (s : SafeCtx c M) (hO : IsF32 O) {n : ℚ} {R : List (V3 ℚ)} (h : a.Held c M n R) (hn : n ≤ c.w + c.h + 2)
    {p q : V3 ℚ} (hp : p ∈ R) (hq : q ∈ R) (hc : CrossF (sideR roundF32 axis O) p q) :
    (IsF32 (cutR roundF32 axis O p q).x ∧ IsF32 (cutR roundF32 axis O p q).y ∧ IsF32 (cutR roundF32 axis O p q).z) ∧
    NearS (InTriangle c.tri) ((n + 1) * (M / 2 ^ 20)) (cutR roundF32 axis O p q) := by
  have sp := h.small s hn p hp
  have sq := h.small s hn q hq
  have fp : IsF32 (axis.coord p) := by cases axis; exact sp.1.1; exact sp.1.2.2
  have fq : IsF32 (axis.coord q) := by cases axis; exact sq.1.1; exact sq.1.2.2
  obtain ⟨u0, u1⟩ := cutParam_unit hO fp fq (straddles_of_cross hO fp fq hc)
  have e : (n + 1) * (M / 2 ^ 20) = n * (M / 2 ^ 20) + 2 * M / 2 ^ 21 := by ring
  rw [e]
  exact ⟨⟨roundF32_isF32 _, roundF32_isF32 _, roundF32_isF32 _⟩,
    near_lerpR (convex_inTriangle _) (h.near p hp) (h.near q hq) sp sq u0 u1 s.tiny⟩

theorem held_keepF1 {axis : DivisionAxis} {O : ℚ} (s : SafeCtx c M) (hO : IsF32 O) {n : ℚ} {R : List (V3 ℚ)} (h : a.Held c M n R) (hn : n ≤ c.w + c.h + 2)
    (hk : a.Kept c ((n + 1) * (M / 2 ^ 20)) (keepF1 (sideR roundF32 axis O) (cutR roundF32 axis O) R)) :
    a.Held c M (n + 1) (keepF1 (sideR roundF32 axis O) (cutR roundF32 axis O) R) := by
  refine ⟨hk, fun v hv => ?_, fun v hv => ?_⟩
  · rcases keepF1_mem hv with hv | ⟨p, hp, q, hq, hc, rfl⟩
    · exact h.f v hv
    · exact (held_cut s hO h hn hp hq hc).1
  · rcases keepF1_mem hv with hv | ⟨p, hp, q, hq, hc, rfl⟩
    · exact (h.near v hv).mono (units_le s.pos (by linarith))
    · exact (held_cut s hO h hn hp hq hc).2

theorem held_keepF2 {axis : DivisionAxis} {O : ℚ} (s : SafeCtx c M) (hO : IsF32 O) {n : ℚ} {R : List (V3 ℚ)} (h : a.Held c M n R) (hn : n ≤ c.w + c.h + 2)
    (hk : a.Kept c ((n + 1) * (M / 2 ^ 20)) (keepF2 (sideR roundF32 axis O) (cutR roundF32 axis O) R)) :
    a.Held c M (n + 1) (keepF2 (sideR roundF32 axis O) (cutR roundF32 axis O) R) := by
  refine ⟨hk, fun v hv => ?_, fun v hv => ?_⟩
  · rcases keepF2_mem hv with hv | ⟨p, hp, q, hq, hc, rfl⟩
    · exact h.f v hv
    · exact (held_cut s hO h hn hp hq hc).1
  · rcases keepF2_mem hv with hv | ⟨p, hp, q, hq, hc, rfl⟩
    · exact (h.near v hv).mono (units_le s.pos (by linarith))
    · exact (held_cut s hO h hn hp hq hc).2

/-! ### The columns -/

/-- Between the columns. -/
structure ColKeep (a : Aim) (c : RCtx) (M : ℚ) (z x : Int) (st : ColState) : Prop where
  l0 : st.inRow.length = 7
  l1 : st.p1.length = 7
  l2 : st.p2.length = 7
  nv : st.nv ≤ 7
  nv2 : st.nv2 ≤ 7
  rest : a.Good c M → z = a.z → x ≤ a.x → ∃ R, Buf st.inRow st.nv2 R ∧ a.Held c M (z + x + 3) R
  fin : ∃ done, c.Done done st.hf ∧ (a.Good c M → (a.z < z ∨ z = a.z ∧ a.x < x) → a.Cov c M done)

theorem colStepR_keep (s : SafeCtx c M) (hlev : a.Level c → IsF32 a.q.y) {z : Int} (hz : 0 ≤ z ∧ z < c.h) {x : Int} (h0 : -1 ≤ x) (hx : x < c.w)
    {st : ColState} (h : ColKeep a c M z x st) : OrPanic (colStepR roundF32 c.fr c.area c.thr z st x) (ColKeep a c M z (x + 1)) := by
  have hn : ((z : ℚ) + x + 3) ≤ c.w + c.h + 1 := by
    have : z + x + 3 ≤ c.w + c.h + 1 := by omega
    exact_mod_cast this
  -- the cut
  have hcut : OrPanic (dividePolyR roundF32 st.inRow st.nv2 st.p1 st.nv st.p2 st.nv2 (c.lx x) .X) fun r =>
      (r.1.length = 7 ∧ r.2.1 ≤ 7 ∧ r.2.2.1.length = 7 ∧ r.2.2.2 ≤ 7) ∧
      (a.Good c M → z = a.z → x + 1 ≤ a.x → ∃ R, Buf r.2.2.1 r.2.2.2 R ∧ a.Held c M (z + (x + 1 : Int) + 3) R) ∧
      (a.Good c M → z = a.z → x = a.x → ∃ P, Buf r.1 r.2.1 P ∧ a.Held c M (c.w + c.h + 2) P) := by
    rcases dividePolyR_seven roundF32 h.l1 h.l2 h.nv2 h.nv h.nv2 (inVerts := st.inRow) (c.lx x) .X with e | ⟨r, e, hr⟩
    · exact .inl e
    · refine .inr ⟨r, e, hr, ?_, ?_⟩
      · intro g gz gx
        obtain ⟨R, hR, hH⟩ := h.rest g gz (by omega)
        rcases dividePolyR_orPanic roundF32 (n1 := st.nv) (n2 := st.nv2) .X (c.lx x) hR hH.ne h.l1 h.l2 with e' | ⟨r', e', b1, b2⟩
        · rw [e'] at e; cases e
        · rw [e'] at e
          cases e
          refine ⟨_, b2, (held_keepF2 s (f32_lx c x) hH (by linarith)
            (g.keep_rest_x s h0 (by omega) (hH.small s (by linarith)) hlev hn hH.kept)).mono s.pos ?_⟩
          push_cast
          linarith
      · intro g gz gx
        obtain ⟨R, hR, hH⟩ := h.rest g gz (by omega)
        subst gx
        rcases dividePolyR_orPanic roundF32 (n1 := st.nv) (n2 := st.nv2) .X (c.lx a.x) hR hH.ne h.l1 h.l2 with e' | ⟨r', e', b1, b2⟩
        · rw [e'] at e; cases e
        · rw [e'] at e
          cases e
          exact ⟨_, b1, (held_keepF1 s (f32_lx c _) hH (by linarith)
            (g.keep_piece_x s (hH.small s (by linarith)) hlev hn hH.kept)).mono s.pos (by linarith)⟩
  have hold : ∀ done, (a.Good c M → (a.z < z ∨ z = a.z ∧ a.x < x) → a.Cov c M done) → ¬ (a.Good c M ∧ z = a.z ∧ x = a.x) →
      a.Good c M → (a.z < z ∨ z = a.z ∧ a.x < x + 1) → a.Cov c M done := by
    intro done hcov hnot g hor
    refine hcov g ?_
    rcases hor with hor | ⟨h1, h2⟩
    · exact .inl hor
    · by_cases hx' : x = a.x
      · exact absurd ⟨g, h1, hx'⟩ hnot
      · exact .inr ⟨h1, by omega⟩
  obtain ⟨done, hd, hcov⟩ := h.fin
  unfold colStepR
  refine hcut.bind ?_
  rintro ⟨p1, nv, p2, nv2⟩ ⟨⟨e1, e2, e3, e4⟩, hrest, hP⟩
  dsimp only at e1 e2 e3 e4 hrest hP ⊢
  split
  · rename_i hcond
    refine .ok ⟨e3, e1, h.l0, e2, e4, hrest, done, hd, hold done hcov ?_⟩
    rintro ⟨g, gz, gx⟩
    obtain ⟨P, hb, hH⟩ := hP g gz gx
    have := hH.three
    have := hb.count
    omega
  · rename_i hcond
    refine OrPanic.bind (P := fun r => a.Good c M → z = a.z → x = a.x →
      ∃ P, a.Held c M (c.w + c.h + 2) P ∧ (∀ v ∈ P, r.1 ≤ v.y ∧ v.y ≤ r.2) ∧ (∃ v ∈ P, v.y = r.1) ∧ ∃ v ∈ P, v.y = r.2) ?_ ?_
    · rcases bounds_orPanic V3.y p1 nv with e | ⟨r, e, -⟩
      · exact .inl e
      · refine .inr ⟨r, e, fun g gz gx => ?_⟩
        obtain ⟨P, hb, hH⟩ := hP g gz gx
        obtain ⟨lo, hi, eb, k1, k2, k3⟩ := bounds_spec (f := V3.y) hb hH.ne
        rw [eb] at e
        cases e
        exact ⟨P, hH, k1, k2, k3⟩
    · rintro ⟨lo, hi⟩ hbs
      dsimp only at hbs ⊢
      rcases snapSpanR_orPanic roundF32 c.fr lo hi with e | ⟨r, e, hs⟩
      · rw [e]
        exact .inl rfl
      · rw [e, bind_ok]
        match r, hs, e with
        | none, _, er =>
          refine .ok ⟨e3, e1, h.l0, e2, e4, hrest, done, hd, hold done hcov ?_⟩
          rintro ⟨g, gz, gx⟩
          obtain ⟨P, hH, k1, k2, k3⟩ := hbs g gz gx
          obtain ⟨mn, mx, e', -⟩ := g.block s hH.kept k1 k2 k3
          rw [e'] at er
          cases er
        | some (mn, mx), hs, er =>
          obtain ⟨s1, s2⟩ := hs mn mx rfl
          obtain ⟨hf', k1, k2⟩ := hd.snoc ⟨x.toNat, z.toNat, c.thr, mn, mx, c.area⟩
            ⟨by dsimp only; omega, by dsimp only; omega, s1, s2, rfl, rfl, fun g => absurd g s.hG⟩
          dsimp only at k1 ⊢
          rw [k1, bind_ok]
          refine .ok ⟨e3, e1, h.l0, e2, e4, hrest, _, k2, fun g hor => ?_⟩
          by_cases hnow : z = a.z ∧ x = a.x
          · obtain ⟨gz, gx⟩ := hnow
            obtain ⟨P, hH, q1, q2, q3⟩ := hbs g gz gx
            obtain ⟨mn', mx', e', v, v1, v2, v3⟩ := g.block s hH.kept q1 q2 q3
            rw [e'] at er
            cases er
            exact ⟨_, List.mem_append_right _ (List.mem_singleton_self _), by dsimp only; omega, by dsimp only; omega, v, v1, v2, v3⟩
          · exact (hold done hcov (fun hh => hnow hh.2) g hor).append _

/-! ### The rows -/

/-- Between the rows. -/
structure RowKeep (a : Aim) (c : RCtx) (M : ℚ) (z : Int) (st : RowState) : Prop where
  l0 : st.inTri.length = 7
  l1 : st.inRow.length = 7
  l2 : st.p1.length = 7
  l3 : st.p2.length = 7
  nvRow : st.nvRow ≤ 7
  nvIn : st.nvIn ≤ 7
  rest : a.Good c M → z ≤ a.z → ∃ R, Buf st.inTri st.nvIn R ∧ a.Held c M (z + 1) R
  fin : ∃ done, c.Done done st.hf ∧ (a.Good c M → a.z < z → a.Cov c M done)

theorem rowStepR_keep (s : SafeCtx c M) (hlev : a.Level c → IsF32 a.q.y) {z : Int} (h0 : -1 ≤ z) (hz : z < c.h) {st : RowState} (h : RowKeep a c M z st) :
    OrPanic (rowStepR roundF32 c.fr c.w c.area c.thr st z) (RowKeep a c M (z + 1)) := by
  have hw := s.hw
  have hM := s.pos
  have hn : ((z : ℚ) + 1) ≤ c.w + c.h + 1 := by
    have : z + 1 ≤ c.w + c.h + 1 := by omega
    exact_mod_cast this
  have hn2 : ((z : ℚ) + 1 + 1) ≤ c.w + c.h + 2 := by linarith
  have hcut : OrPanic (dividePolyR roundF32 st.inTri st.nvIn st.inRow st.nvRow st.p1 st.nvIn (c.lz z) .Z) fun r =>
      (r.1.length = 7 ∧ r.2.1 ≤ 7 ∧ r.2.2.1.length = 7 ∧ r.2.2.2 ≤ 7) ∧
      (a.Good c M → z + 1 ≤ a.z → ∃ R, Buf r.2.2.1 r.2.2.2 R ∧ a.Held c M ((z + 1 : Int) + 1) R) ∧
      (a.Good c M → z = a.z → ∃ K, Buf r.1 r.2.1 K ∧ a.Held c M (z + 1 + 1) K) := by
    rcases dividePolyR_seven roundF32 h.l1 h.l2 h.nvIn h.nvRow h.nvIn (inVerts := st.inTri) (c.lz z) .Z with e | ⟨r, e, hr⟩
    · exact .inl e
    · refine .inr ⟨r, e, hr, ?_, ?_⟩
      · intro g gz
        obtain ⟨R, hR, hH⟩ := h.rest g (by omega)
        rcases dividePolyR_orPanic roundF32 (n1 := st.nvRow) (n2 := st.nvIn) .Z (c.lz z) hR hH.ne h.l1 h.l2 with e' | ⟨r', e', b1, b2⟩
        · rw [e'] at e; cases e
        · rw [e'] at e
          cases e
          refine ⟨_, b2, ?_⟩
          push_cast
          exact held_keepF2 s (f32_lz c z) hH (by linarith) (g.keep_rest_z s h0 (by omega) (hH.small s (by linarith)) hlev hn hH.kept)
      · intro g gz
        obtain ⟨R, hR, hH⟩ := h.rest g (by omega)
        subst gz
        rcases dividePolyR_orPanic roundF32 (n1 := st.nvRow) (n2 := st.nvIn) .Z (c.lz a.z) hR hH.ne h.l1 h.l2 with e' | ⟨r', e', b1, b2⟩
        · rw [e'] at e; cases e
        · rw [e'] at e
          cases e
          exact ⟨_, b1, held_keepF1 s (f32_lz c _) hH (by linarith) (g.keep_piece_z s (hH.small s (by linarith)) hlev hn hH.kept)⟩
  obtain ⟨done0, hd0, hcov0⟩ := h.fin
  have hold : ¬ (a.Good c M ∧ z = a.z) → ∃ done, c.Done done st.hf ∧ (a.Good c M → a.z < z + 1 → a.Cov c M done) := by
    intro hnot
    refine ⟨done0, hd0, fun g hlt => hcov0 g ?_⟩
    by_contra hc
    exact hnot ⟨g, by omega⟩
  unfold rowStepR
  dsimp only
  refine hcut.bind ?_
  rintro ⟨inRow, nvRow, p1, nvIn⟩ ⟨⟨e1, e2, e3, e4⟩, hrest, hK⟩
  dsimp only at e1 e2 e3 e4 hrest hK ⊢
  split
  · rename_i hcond
    refine .ok ⟨e3, e1, h.l0, h.l3, e2, e4, hrest, hold ?_⟩
    rintro ⟨g, gz⟩
    obtain ⟨K, hb, hH⟩ := hK g gz
    have := hH.three
    have := hb.count
    have := g.hz
    omega
  · rename_i hz0
    refine OrPanic.bind (P := fun r => a.Good c M → z = a.z →
      rowOf roundF32 c.fr.turned r.1 ≤ a.x ∧ (a.x : Int) ≤ rowOf roundF32 c.fr.turned r.2) ?_ ?_
    · rcases bounds_orPanic V3.x inRow nvRow with e | ⟨r, e, -⟩
      · exact .inl e
      · refine .inr ⟨r, e, fun g gz => ?_⟩
        obtain ⟨K, hb, hH⟩ := hK g gz
        obtain ⟨lo, hi, eb, k1, ⟨v1, hv1, k2⟩, v2, hv2, k3⟩ := bounds_spec (f := V3.x) hb hH.ne
        rw [eb] at e
        cases e
        have hs := hH.small s hn2
        exact g.range_x s (hH.kept.mono hM hn2) k1 (k2 ▸ (hs v1 hv1).2.1) (k3 ▸ (hs v2 hv2).2.1)
    · rintro ⟨lo, hi⟩ hrange
      dsimp only at hrange ⊢
      have hwI : u16AsI16 c.w = (c.w : Int) := by unfold u16AsI16; rw [if_pos hw.2]
      rw [hwI]
      split
      · rename_i hskip
        refine .ok ⟨e3, e1, h.l0, h.l3, e2, e4, hrest, hold ?_⟩
        rintro ⟨g, gz⟩
        obtain ⟨r1, r2⟩ := hrange g gz
        have hx := g.hx
        change rowOf roundF32 c.fr.turned hi < 0 ∨ rowOf roundF32 c.fr.turned lo ≥ c.w at hskip
        omega
      · unfold predI16
        rw [if_neg (by omega), bind_ok]
        change OrPanic (clampI (rowOf roundF32 c.fr.turned lo) _ _ >>= fun x0 => clampI (rowOf roundF32 c.fr.turned hi) _ _ >>= _) _
        unfold clampI
        rw [if_pos (by omega), bind_ok, if_pos (by omega), bind_ok]
        generalize hX0 : max (-1) (min (rowOf roundF32 c.fr.turned lo) (↑c.w - 1)) = X0
        generalize hX1 : max 0 (min (rowOf roundF32 c.fr.turned hi) (↑c.w - 1)) = X1
        refine (orPanic_intRange (P := ColKeep a c M z) (b := X1) _ X0 _ rfl ?_ ?_).bind ?_
        · refine ⟨e1, h.l0, h.l3, by simp, e2, ?_, done0, hd0, ?_⟩
          · intro g gz gx
            obtain ⟨K, hb, hH⟩ := hK g gz
            refine ⟨K, hb, hH.mono hM ?_⟩
            have : (-1 : ℚ) ≤ X0 := by
              have : -1 ≤ X0 := by omega
              exact_mod_cast this
            linarith
          · intro g hor
            refine hcov0 g ?_
            rcases hor with hor | ⟨gz, gx⟩
            · exact hor
            · have := (hrange g gz).1
              have := g.hx
              omega
        · intro x s1 hx hbx hp
          exact colStepR_keep s hlev ⟨by omega, hz⟩ (by omega) (by omega) hp
        · rintro s1 ⟨y, hs, hy⟩
          obtain ⟨done1, hd1, hcov1⟩ := hs.fin
          refine .ok ⟨e3, hs.l0, hs.l1, hs.l2, e2, e4, hrest, done1, hd1, fun g hlt => hcov1 g ?_⟩
          by_cases gz : z = a.z
          · have := (hrange g gz).2
            have := g.hx
            exact .inr ⟨gz, by omega⟩
          · exact .inl (by omega)

theorem rasterizeTriangleR_keep (s : SafeCtx c M) (hf32 : ∀ v ∈ cornerList c.tri, IsF32 v.x ∧ IsF32 v.y ∧ IsF32 v.z) {hf : Heightfield} (hd : c.Done [] hf) :
    OrPanic (rasterizeTriangleR roundF32 c.fr hf c.tri c.area c.thr) fun hf' => ∃ done, c.Done done hf' ∧ (a.Good c M → a.Cov c M done) := by
  obtain ⟨cols, hr⟩ := hd.reached
  have hw := s.hw
  have hh := s.hh
  have hM := s.pos
  unfold rasterizeTriangleR
  dsimp only
  by_cases hint : c.fr.aabb.intersects (triangleAabb c.tri) = true
  swap
  · rw [if_pos (by simpa using hint)]
    exact .ok ⟨[], hd, fun g => absurd (intersects_of_common g.tri g.box) hint⟩
  rw [if_neg (by simp [hint])]
  have hhI : u16AsI16 hf.height = (c.h : Int) := by unfold u16AsI16; rw [hr.height, if_pos hh.2]
  rw [hhI, hr.width]
  unfold predI16
  rw [if_neg (by omega), bind_ok]
  unfold clampI
  rw [if_pos (by omega), bind_ok, if_pos (by omega), bind_ok]
  have hbnd : ∀ v ∈ cornerList c.tri, (triangleAabb c.tri).min.z ≤ v.z ∧ v.z ≤ (triangleAabb c.tri).max.z := by
    intro v hv
    simp only [cornerList, List.mem_cons, List.not_mem_nil, or_false] at hv
    simp only [triangleAabb, V3.max, V3.min]
    rcases hv with rfl | rfl | rfl
    · exact ⟨(min_le_left _ _).trans (min_le_left _ _), (le_max_left _ _).trans (le_max_left _ _)⟩
    · exact ⟨(min_le_left _ _).trans (min_le_right _ _), (le_max_right _ _).trans (le_max_left _ _)⟩
    · exact ⟨min_le_right _ _, le_max_right _ _⟩
  have k1 := (s.corners c.tri.1 (by simp [cornerList])).2.2
  have k2 := (s.corners c.tri.2.1 (by simp [cornerList])).2.2
  have k3 := (s.corners c.tri.2.2 (by simp [cornerList])).2.2
  have hlo : |(triangleAabb c.tri).min.z| ≤ M := by
    rw [abs_le] at *
    exact ⟨le_min (le_min k1.1 k2.1) k3.1, (min_le_right _ _).trans k3.2⟩
  have hhi : |(triangleAabb c.tri).max.z| ≤ M := by
    rw [abs_le] at *
    exact ⟨k3.1.trans (le_max_right _ _), max_le (max_le k1.2 k2.2) k3.2⟩
  have hreach : a.Good c M → rowOf roundF32 c.fr (triangleAabb c.tri).min.z ≤ a.z ∧ (a.z : Int) ≤ rowOf roundF32 c.fr (triangleAabb c.tri).max.z :=
    fun g => g.range_z s hbnd hlo hhi
  have hlev : a.Level c → IsF32 a.q.y := by
    intro hl
    rw [← hl c.tri.1 (by simp [cornerList])]
    exact (hf32 c.tri.1 (by simp [cornerList])).2.1
  have f0 : ratAsI16 (roundF32 (roundF32 ((triangleAabb c.tri).min.z - c.fr.aabb.min.z) * roundF32 (1 / c.fr.cellSize))) =
    rowOf roundF32 c.fr (triangleAabb c.tri).min.z := rfl
  have f1 : ratAsI16 (roundF32 (roundF32 ((triangleAabb c.tri).max.z - c.fr.aabb.min.z) * roundF32 (1 / c.fr.cellSize))) =
    rowOf roundF32 c.fr (triangleAabb c.tri).max.z := rfl
  rw [f0, f1]
  generalize hZ0 : max (-1) (min (rowOf roundF32 c.fr (triangleAabb c.tri).min.z) (↑c.h - 1)) = Z0
  generalize hZ1 : max 0 (min (rowOf roundF32 c.fr (triangleAabb c.tri).max.z) (↑c.h - 1)) = Z1
  have hstart : RowKeep a c M Z0 ⟨hf, ((zeroBuf.set 0 c.tri.1).set 1 c.tri.2.1).set 2 c.tri.2.2, zeroBuf, zeroBuf, zeroBuf, 0, 3⟩ := by
    refine ⟨by simp [zeroBuf], by simp [zeroBuf], by simp [zeroBuf], by simp [zeroBuf], by simp, by simp, ?_, [], hd, ?_⟩
    · intro g gz
      have hZq : (0 : ℚ) ≤ (Z0 : ℚ) + 1 := by
        have : 0 ≤ Z0 + 1 := by omega
        exact_mod_cast this
      have hb : Buf (((zeroBuf.set 0 c.tri.1).set 1 c.tri.2.1).set 2 c.tri.2.2) 3 (cornerList c.tri) := ⟨by simp [zeroBuf], rfl, rfl⟩
      exact ⟨cornerList c.tri, hb, ⟨shadow_corners g.tri (by positivity), fun hl => hl⟩, hf32,
        fun v hv => near_self (by positivity) (corner_inTriangle hv)⟩
    · intro g hlt
      have := (hreach g).1
      omega
  refine (orPanic_intRange (P := RowKeep a c M) (b := Z1) _ Z0 _ rfl hstart ?_).bind ?_
  · intro z st hz hz1 hst
    exact rowStepR_keep s hlev (by omega) (by omega) hst
  · rintro st ⟨y, hs, hy⟩
    obtain ⟨done, h1, h2⟩ := hs.fin
    refine .ok ⟨done, h1, fun g => h2 g ?_⟩
    have := (hreach g).2
    have := g.hz
    omega
end

/-! ### Meshes -/

/-- The point is well inside the cell and on triangle `t` of the mesh. -/
structure Aim.For (a : Aim) (fr : Frame) (w h : Nat) (M : ℚ) (m : TriMesh ℚ) (t : Nat) : Prop where
  hx : a.x < w
  hz : a.z < h
  box : fr.aabb.Contains a.q
  deep : DeepInCell fr (roundingError fr w h M) a.x a.z a.q
  on : ∃ tri, m.corners t = some tri ∧ InTriangle tri a.q ∧ ClearHeight fr (roundingError fr w h M) tri a.q

/-- The point is in one of the blocks. -/
def Aim.CovM (a : Aim) (fr : Frame) (w h : Nat) (M : ℚ) (done : List Insertion) : Prop :=
  ∃ i ∈ done, i.x = a.x ∧ i.z = a.z ∧ ∃ v, i.min ≤ v ∧ v < i.max ∧ NearHeight fr (roundingError fr w h M) v a.q.y

theorem rasterizeTrianglesR_keep {fr : Frame} {w h : Nat} (hw : 1 ≤ w ∧ w ≤ 32767) (hh : 1 ≤ h ∧ h ≤ 32767) {pre hf0 cols}
    (hr : Reached w h pre hf0 cols) {M : ℚ} (hfr : SafeFrame fr w h M) {m : TriMesh ℚ} (hs : m.Single)
    (hb : ∀ v ∈ m.vertices, |v.x| ≤ M ∧ |v.y| ≤ M ∧ |v.z| ≤ M) (thr : Nat) (a : Aim) :
    OrPanic (rasterizeTrianglesR roundF32 fr hf0 m thr) fun hf' => ∃ done, (∃ cols', Reached w h (pre ++ done) hf' cols') ∧
      ((∃ t, a.For fr w h M m t) → a.CovM fr w h M done) := by
  unfold rasterizeTrianglesR
  have key : ∀ (l : List Nat) (hf : Heightfield) (done : List Insertion), (∃ cols', Reached w h (pre ++ done) hf cols') →
      OrPanic (l.foldlM (rasterizeMeshStepR roundF32 fr m thr) hf) fun hf' => ∃ done', (∃ cols', Reached w h (pre ++ done') hf' cols') ∧
        (∀ j ∈ done, j ∈ done') ∧ ((∃ t ∈ l, a.For fr w h M m t) → a.CovM fr w h M done') := by
    intro l
    induction l with
    | nil => intro hf done hd; exact .ok ⟨done, hd, fun _ hj => hj, by simp⟩
    | cons i l ih =>
      intro hf done hd
      rw [List.foldlM_cons]
      refine OrPanic.bind (P := fun hf' => ∃ d', (∃ cols', Reached w h (pre ++ (done ++ d')) hf' cols') ∧
        (a.For fr w h M m i → a.CovM fr w h M d')) ?_ ?_
      · obtain ⟨cols1, hr1⟩ := hd
        unfold rasterizeMeshStepR
        refine (orPanic_idx _ _).bind fun ix h1 => (orPanic_idx _ _).bind fun p hp => (orPanic_idx _ _).bind fun q hq =>
          (orPanic_idx _ _).bind fun r hr => (orPanic_idx _ _).bind fun ar har => ?_
        let c : RCtx := ⟨fr, w, h, ar, thr, pre ++ done, hf, (p, q, r), False⟩
        have mem : ∀ v ∈ cornerList c.tri, v ∈ m.vertices := by
          intro v hv
          simp only [cornerList, c, List.mem_cons, List.not_mem_nil, or_false] at hv
          rcases hv with rfl | rfl | rfl
          · exact List.mem_of_getElem? hp
          · exact List.mem_of_getElem? hq
          · exact List.mem_of_getElem? hr
        have hctx : SafeCtx c M := ⟨hfr, id, hw, hh, fun v hv => hb v (mem v hv)⟩
        have hdc : c.Done [] hf := ⟨⟨cols1, by simpa [c] using hr1⟩, rfl, by simp⟩
        have hcorners : m.corners i = some (p, q, r) := by simp only [TriMesh.corners, h1, hp, hq, hr]
        rcases rasterizeTriangleR_keep (a := a) hctx (fun v hv => hs v (mem v hv)) hdc with e | ⟨hf', e, d', hd', hcov⟩
        · exact .inl e
        · refine .inr ⟨hf', e, d', ?_, ?_⟩
          · obtain ⟨cols', hr'⟩ := hd'.reached
            exact ⟨cols', by rw [← List.append_assoc]; exact hr'⟩
          · intro hfor
            obtain ⟨tri, k1, k2, k3⟩ := hfor.on
            rw [hcorners] at k1
            cases k1
            exact hcov ⟨k2, hfor.hx, hfor.hz, hfor.box, hfor.deep, k3⟩
      · rintro hf' ⟨d', hd', hcov⟩
        rcases ih hf' (done ++ d') hd' with e | ⟨hf2, e, done2, hd2, hsub, hcov2⟩
        · exact .inl e
        · refine .inr ⟨hf2, e, done2, hd2, fun j hj => hsub j (by simp [hj]), ?_⟩
          rintro ⟨t, ht', hfor⟩
          rw [List.mem_cons] at ht'
          rcases ht' with rfl | ht'
          · obtain ⟨j, hj, q1, q2, q3⟩ := hcov hfor
            exact ⟨j, hsub j (by simp [hj]), q1, q2, q3⟩
          · exact hcov2 ⟨t, ht', hfor⟩
  rcases key (List.range m.indices.length) hf0 [] ⟨cols, by simpa using hr⟩ with e | ⟨hf', e, done, hd, -, hcov⟩
  · exact .inl e
  · refine .inr ⟨hf', e, done, hd, ?_⟩
    rintro ⟨t, hfor⟩
    refine hcov ⟨t, ?_, hfor⟩
    obtain ⟨tri, k1, -⟩ := hfor.on
    rw [List.mem_range]
    by_contra hcon
    unfold TriMesh.corners at k1
    rw [List.getElem?_eq_none (not_lt.1 hcon)] at k1
    cases k1

end Rerecast
