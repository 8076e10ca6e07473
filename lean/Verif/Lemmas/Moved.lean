import Verif.Lemmas.RasterRow
import Verif.Spec.Moved
/-! Rasterization of a moved triangle on a moved grid. -/
namespace Rerecast

theorem sideAff_move (axis : DivisionAxis) (off : ℚ) (d v : V3 ℚ) :
    (sideAff axis (off + axis.coord d)).eval (V3.moveBy d v) = (sideAff axis off).eval v := by
  cases axis <;> simp only [sideAff, Aff.eval, DivisionAxis.coord, V3.moveBy] <;> ring

theorem lerp_move (d b a : V3 ℚ) (s : ℚ) : lerp (V3.moveBy d b) (V3.moveBy d a) s = V3.moveBy d (lerp b a s) := by
  simp only [lerp, V3.moveBy]
  congr 1 <;> ring

section
variable (axis : DivisionAxis) (off : ℚ) (d : V3 ℚ)

theorem cutPoint_move (p a : V3 ℚ) :
    cutPoint (sideAff axis (off + axis.coord d)) (V3.moveBy d p) (V3.moveBy d a) = V3.moveBy d (cutPoint (sideAff axis off) p a) := by
  unfold cutPoint
  rw [sideAff_move axis off d a, sideAff_move axis off d p, lerp_move]

theorem crosses_move (p a : V3 ℚ) :
    Crosses (sideAff axis (off + axis.coord d)) (V3.moveBy d p) (V3.moveBy d a) ↔ Crosses (sideAff axis off) p a := by
  have ha := sideAff_move axis off d a
  have hp := sideAff_move axis off d p
  unfold Crosses
  generalize (sideAff axis (off + axis.coord d)).eval (V3.moveBy d a) = u at ha ⊢
  generalize (sideAff axis (off + axis.coord d)).eval (V3.moveBy d p) = w at hp ⊢
  subst ha hp
  exact Iff.rfl

theorem piece1_move (p a : V3 ℚ) :
    piece1 (sideAff axis (off + axis.coord d)) (V3.moveBy d p) (V3.moveBy d a) = (piece1 (sideAff axis off) p a).map (V3.moveBy d) := by
  have hc := crosses_move axis off d p a
  have hm := cutPoint_move axis off d p a
  have ha := sideAff_move axis off d a
  unfold piece1
  generalize (sideAff axis (off + axis.coord d)).eval (V3.moveBy d a) = u at ha ⊢
  subst ha
  by_cases h : Crosses (sideAff axis off) p a
  · rw [if_pos h, if_pos (hc.2 h), hm]
    split <;> rfl
  · rw [if_neg h, if_neg (fun g => h (hc.1 g))]
    split <;> rfl

theorem piece2_move (p a : V3 ℚ) :
    piece2 (sideAff axis (off + axis.coord d)) (V3.moveBy d p) (V3.moveBy d a) = (piece2 (sideAff axis off) p a).map (V3.moveBy d) := by
  have hc := crosses_move axis off d p a
  have hm := cutPoint_move axis off d p a
  have ha := sideAff_move axis off d a
  unfold piece2
  generalize (sideAff axis (off + axis.coord d)).eval (V3.moveBy d a) = u at ha ⊢
  subst ha
  by_cases h : Crosses (sideAff axis off) p a
  · rw [if_pos h, if_pos (hc.2 h), hm]
    split <;> rfl
  · rw [if_neg h, if_neg (fun g => h (hc.1 g))]
    split
    · split <;> rfl
    · rfl

theorem along_move {g g' : V3 ℚ → V3 ℚ → List (V3 ℚ)} (h : ∀ p a, g' (V3.moveBy d p) (V3.moveBy d a) = (g p a).map (V3.moveBy d)) :
    ∀ (l : List (V3 ℚ)) (p : V3 ℚ), along g' (V3.moveBy d p) (l.map (V3.moveBy d)) = (along g p l).map (V3.moveBy d)
  | [], _ => rfl
  | a :: t, p => by
    rw [List.map_cons, along, along, h, along_move h t a, List.map_append]

theorem keep1_move (L : List (V3 ℚ)) :
    keep1 (sideAff axis (off + axis.coord d)) (L.map (V3.moveBy d)) = (keep1 (sideAff axis off) L).map (V3.moveBy d) := by
  unfold keep1
  rw [List.getLast?_map]
  cases L.getLast? with
  | none => rfl
  | some p => exact along_move d (piece1_move axis off d) L p

theorem keep2_move (L : List (V3 ℚ)) :
    keep2 (sideAff axis (off + axis.coord d)) (L.map (V3.moveBy d)) = (keep2 (sideAff axis off) L).map (V3.moveBy d) := by
  unfold keep2
  rw [List.getLast?_map]
  cases L.getLast? with
  | none => rfl
  | some p => exact along_move d (piece2_move axis off d) L p

/-- Both cuts succeed, with outputs that are moved, too. -/
theorem dividePoly_pair {inV inV' o1 o1' o2 o2' : List (V3 ℚ)} {n n' n1 n1' n2 n2' : Nat} {L : List (V3 ℚ)}
    (hin : Buf inV n L) (hin' : Buf inV' n' (L.map (V3.moveBy d))) (hne : L ≠ [])
    (ho1 : o1.length = 7) (ho2 : o2.length = 7) (ho1' : o1'.length = 7) (ho2' : o2'.length = 7)
    (h1 : (keep1 (sideAff axis off) L).length ≤ 7) (h2 : (keep2 (sideAff axis off) L).length ≤ 7) :
    ∃ p1 p1' p2 p2' m1 m2, dividePoly inV n o1 n1 o2 n2 off axis = .ok (p1, m1, p2, m2) ∧
      dividePoly inV' n' o1' n1' o2' n2' (off + axis.coord d) axis = .ok (p1', m1, p2', m2) ∧
      Buf p1 m1 (keep1 (sideAff axis off) L) ∧ Buf p2 m2 (keep2 (sideAff axis off) L) ∧
      Buf p1' m1 ((keep1 (sideAff axis off) L).map (V3.moveBy d)) ∧ Buf p2' m2 ((keep2 (sideAff axis off) L).map (V3.moveBy d)) := by
  obtain ⟨p1, m1, p2, m2, e, b1, b2⟩ := dividePoly_spec (n1 := n1) (n2 := n2) axis off hin hne ho1 ho2 h1 h2
  obtain ⟨p1', m1', p2', m2', e', b1', b2'⟩ := dividePoly_spec (n1 := n1') (n2 := n2') axis (off + axis.coord d) hin' (by simpa using hne) ho1' ho2'
    (by rw [keep1_move, List.length_map]; exact h1) (by rw [keep2_move, List.length_map]; exact h2)
  rw [keep1_move] at b1'
  rw [keep2_move] at b2'
  have c1 : m1' = m1 := by rw [b1'.count, b1.count, List.length_map]
  have c2 : m2' = m2 := by rw [b2'.count, b2.count, List.length_map]
  subst c1 c2
  exact ⟨p1, p1', p2, p2', m1', m2', e, e', b1, b2, b1', b2'⟩

end

theorem bounds_move {f : V3 ℚ → ℚ} {δ : ℚ} {d : V3 ℚ} (hf : ∀ v, f (V3.moveBy d v) = f v + δ) {buf buf' : List (V3 ℚ)} {n n' : Nat} {L : List (V3 ℚ)}
    (hb : Buf buf n L) (hb' : Buf buf' n' (L.map (V3.moveBy d))) (hne : L ≠ []) :
    ∃ lo hi, bounds f buf n = .ok (lo, hi) ∧ bounds f buf' n' = .ok (lo + δ, hi + δ) ∧ (∃ v ∈ L, f v = lo) ∧ ∃ v ∈ L, f v = hi := by
  obtain ⟨lo, hi, e, b1, ⟨u, hu, hul⟩, ⟨w, hw, hwl⟩⟩ := bounds_spec (f := f) hb hne
  obtain ⟨lo', hi', e', b1', ⟨u', hu', hul'⟩, ⟨w', hw', hwl'⟩⟩ := bounds_spec (f := f) hb' (by simpa using hne)
  obtain ⟨u1, hu1, rfl⟩ := List.mem_map.1 hu'
  obtain ⟨w1, hw1, rfl⟩ := List.mem_map.1 hw'
  rw [hf] at hul' hwl'
  have k1 := b1 u1 hu1
  have k2 := b1 w1 hw1
  have k3 := b1' _ (List.mem_map_of_mem hu)
  have k4 := b1' _ (List.mem_map_of_mem hw)
  rw [hf] at k3 k4
  have e1 : lo' = lo + δ := by apply le_antisymm <;> linarith
  have e2 : hi' = hi + δ := by apply le_antisymm <;> linarith
  subst e1 e2
  exact ⟨lo, hi, e, e', ⟨u, hu, hul⟩, ⟨w, hw, hwl⟩⟩

theorem snapSpan_move (fr : Frame) (d : V3 ℚ) (lo hi : ℚ) : snapSpan (fr.moveBy d) (lo + d.y) (hi + d.y) = snapSpan fr lo hi := by
  unfold snapSpan Frame.moveBy V3.moveBy
  simp only [add_sub_add_right_eq_sub]

theorem gx_move (fr : Frame) (d : V3 ℚ) (k : Int) : gx (fr.moveBy d) k = gx fr k + DivisionAxis.X.coord d := by
  simp only [gx, Frame.moveBy, V3.moveBy, DivisionAxis.coord]; ring

theorem gz_move (fr : Frame) (d : V3 ℚ) (k : Int) : gz (fr.moveBy d) k = gz fr k + DivisionAxis.Z.coord d := by
  simp only [gz, Frame.moveBy, V3.moveBy, DivisionAxis.coord]; ring

/-- Both fail alike, or both succeed with related results. -/
def Alike {α β : Type} (R : α → β → Prop) (a : Res α) (b : Res β) : Prop :=
  (∃ e, a = .error e ∧ b = .error e) ∨ ∃ x y, a = .ok x ∧ b = .ok y ∧ R x y

theorem emit_pair {fr : Frame} {d : V3 ℚ} (area : Area) (thr : Nat) (z x : Int) {st st' : ColState} (hhf : st'.hf = st.hf) {P : List (V3 ℚ)}
    (hb : Buf st.p1 st.nv P) (hb' : Buf st'.p1 st'.nv (P.map (V3.moveBy d))) (hne : P ≠ []) :
    Alike (fun s s' => ∃ hf, s = { st with hf } ∧ s' = { st' with hf }) (emit fr area thr z x st) (emit (fr.moveBy d) area thr z x st') := by
  obtain ⟨lo, hi, e, e', -, -⟩ := bounds_move (f := V3.y) (δ := d.y) (d := d) (fun v => rfl) hb hb' hne
  unfold emit
  rw [e, e', bind_ok, bind_ok]
  dsimp only
  rw [snapSpan_move]
  cases hs : snapSpan fr lo hi with
  | error er => exact Or.inl ⟨er, rfl, rfl⟩
  | ok o =>
    rw [bind_ok, bind_ok]
    cases o with
    | none => exact Or.inr ⟨_, _, rfl, rfl, st.hf, rfl, by rw [← hhf]⟩
    | some p =>
      dsimp only
      rw [hhf]
      cases ha : st.hf.addSpan x.toNat z.toNat thr ⟨p.1, p.2, area, none⟩ with
      | error er => exact Or.inl ⟨er, rfl, rfl⟩
      | ok hf => exact Or.inr ⟨_, _, rfl, rfl, hf, rfl, rfl⟩

structure ColPair (fr : Frame) (d : V3 ℚ) (B : List (V3 ℚ)) (mv : V3 ℚ) (x1 x : Int) (st st' : ColState) : Prop where
  hf : st'.hf = st.hf
  l1 : st.p1.length = 7 ∧ st'.p1.length = 7
  l2 : st.p2.length = 7 ∧ st'.p2.length = 7
  rest : ∃ R, Buf st.inRow st.nv2 R ∧ Buf st'.inRow st'.nv2 (R.map (V3.moveBy d)) ∧ Unimodal R ∧ Rest .X B R (gx fr x) ∧ (x ≤ x1 → mv ∈ R)

theorem colStep_pair {fr : Frame} (hcs : 0 < fr.cellSize) {d : V3 ℚ} {area : Area} {thr : Nat} {z : Int} {B : List (V3 ℚ)} (h5 : B.length ≤ 5)
    {mv : V3 ℚ} {x1 x : Int} (hmv : gx fr x1 ≤ mv.x) (hxx : x ≤ x1) {st st' : ColState} (hi : ColPair fr d B mv x1 x st st') :
    Alike (ColPair fr d B mv x1 (x + 1)) (colStep fr area thr z st x) (colStep (fr.moveBy d) area thr z st' x) := by
  obtain ⟨R, hR, hR', hU, hrest, hm⟩ := hi.rest
  have hne : R ≠ [] := by rintro rfl; have := hm hxx; simp at this
  have hltx : gx fr x < gx fr (x + 1) := gx_lt hcs (by omega)
  have hRl : R.length ≤ 6 := by have := hrest.len; omega
  have hk1 : (keep1 (sideAff .X (gx fr (x + 1))) R).length ≤ 7 := by
    have := keep1_length (e := sideAff .X (gx fr (x + 1))) hU; omega
  have hk2 : (keep2 (sideAff .X (gx fr (x + 1))) R).length ≤ 7 := by
    have := keep2_length (e := sideAff .X (gx fr (x + 1))) hU; omega
  obtain ⟨p1, p1', p2, p2', m1, m2, e, e', b1, b2, b1', b2'⟩ := dividePoly_pair (n1 := st.nv) (n1' := st'.nv) (n2 := st.nv2) (n2' := st'.nv2) .X
    (gx fr (x + 1)) d hR hR' hne hi.l1.1 hi.l2.1 hi.l1.2 hi.l2.2 hk1 hk2
  rw [← gx_move] at e'
  rw [colStep_eq _ _ _ _ _ _ e, colStep_eq _ _ _ _ _ _ e']
  have mk : ∀ hf, ColPair fr d B mv x1 (x + 1) ⟨hf, p2, p1, st.inRow, m1, m2⟩ ⟨hf, p2', p1', st'.inRow, m1, m2⟩ := by
    intro hf
    refine ⟨rfl, ⟨b1.len, b1'.len⟩, ⟨hR.len, hR'.len⟩, _, b2, b2', unimodal_keep2 hU, hrest.step hU hltx, fun hle => ?_⟩
    apply mem_keep2_of (hm hxx)
    rw [sideAff_eval]
    have h2 := gx_le hcs hle
    show gx fr (x + 1) - mv.x ≤ 0
    linarith
  split
  · refine Or.inr ⟨_, _, rfl, rfl, ?_⟩
    have := mk st.hf
    rw [hi.hf]
    exact this
  · rename_i hc
    push Not at hc
    have hPne : keep1 (sideAff .X (gx fr (x + 1))) R ≠ [] := by
      intro h
      have := b1.count
      rw [h] at this
      simp at this; omega
    rcases emit_pair (fr := fr) (d := d) area thr z x (st := ⟨st.hf, p2, p1, st.inRow, m1, m2⟩) (st' := ⟨st'.hf, p2', p1', st'.inRow, m1, m2⟩) hi.hf b1 b1' hPne with
      ⟨er, g1, g2⟩ | ⟨s, s', g1, g2, hf, rfl, rfl⟩
    · exact Or.inl ⟨er, g1, g2⟩
    · exact Or.inr ⟨_, _, g1, g2, mk hf⟩

theorem colLoop_pair {fr : Frame} (hcs : 0 < fr.cellSize) {d : V3 ℚ} {area : Area} {thr : Nat} {z : Int} {B : List (V3 ℚ)} (h5 : B.length ≤ 5)
    {mv : V3 ℚ} {x1 : Int} (hmv : gx fr x1 ≤ mv.x) : ∀ (n : Nat) (x : Int), (x1 + 1 - x).toNat = n → ∀ st st', ColPair fr d B mv x1 x st st' →
    Alike (fun s s' => s'.hf = s.hf ∧ (s.inRow.length = 7 ∧ s'.inRow.length = 7) ∧ (s.p1.length = 7 ∧ s'.p1.length = 7) ∧ s.p2.length = 7 ∧ s'.p2.length = 7)
      ((intRange x x1).foldlM (colStep fr area thr z) st) ((intRange x x1).foldlM (colStep (fr.moveBy d) area thr z) st') := by
  intro n
  induction n with
  | zero =>
    intro x hn st st' hi
    rw [intRange_nil (by omega)]
    obtain ⟨R, hR, hR', _⟩ := hi.rest
    exact Or.inr ⟨_, _, rfl, rfl, hi.hf, ⟨hR.len, hR'.len⟩, hi.l1, hi.l2⟩
  | succ n ih =>
    intro x hn st st' hi
    rw [intRange_cons (by omega), List.foldlM_cons, List.foldlM_cons]
    rcases colStep_pair (area := area) (thr := thr) (z := z) hcs h5 hmv (by omega) hi with ⟨er, g1, g2⟩ | ⟨s, s', g1, g2, h⟩
    · rw [g1, g2]; exact Or.inl ⟨er, rfl, rfl⟩
    · rw [g1, g2, bind_ok, bind_ok]
      exact ih (x + 1) (by omega) s s' h

end Rerecast
