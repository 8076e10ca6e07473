import Verif.Lemmas.MovedRows
import Verif.Spec.Scaled
/-! Rasterization of an enlarged triangle on an enlarged grid. -/
namespace Rerecast

theorem le_scale {κ : ℚ} (hκ : 0 < κ) {a b : ℚ} : κ * a ≤ κ * b ↔ a ≤ b := ⟨fun h => le_of_mul_le_mul_left h hκ, fun h => mul_le_mul_of_nonneg_left h hκ.le⟩

theorem lt_scale {κ : ℚ} (hκ : 0 < κ) {a b : ℚ} : κ * a < κ * b ↔ a < b := by
  rw [← not_le, ← not_le, le_scale hκ]

theorem inv_scale {κ : ℚ} (hκ : 0 < κ) (a c : ℚ) : κ * a * (1 / (κ * c)) = a * (1 / c) := by
  rw [mul_one_div, mul_one_div, mul_div_mul_left _ _ hκ.ne']

theorem sideAff_scale (axis : DivisionAxis) (off κ : ℚ) (v : V3 ℚ) :
    (sideAff axis (κ * off)).eval (V3.scaleBy κ v) = κ * (sideAff axis off).eval v := by
  cases axis <;> simp only [sideAff, Aff.eval, V3.scaleBy] <;> ring

theorem lerp_scale (κ : ℚ) (b a : V3 ℚ) (s : ℚ) : lerp (V3.scaleBy κ b) (V3.scaleBy κ a) s = V3.scaleBy κ (lerp b a s) := by
  simp only [lerp, V3.scaleBy]
  congr 1 <;> ring

section
variable (axis : DivisionAxis) (off : ℚ) {κ : ℚ} (hκ : 0 < κ)
include hκ

theorem cutPoint_scale (p a : V3 ℚ) :
    cutPoint (sideAff axis (κ * off)) (V3.scaleBy κ p) (V3.scaleBy κ a) = V3.scaleBy κ (cutPoint (sideAff axis off) p a) := by
  unfold cutPoint
  rw [sideAff_scale axis off κ a, sideAff_scale axis off κ p, lerp_scale, ← mul_sub, mul_div_mul_left _ _ hκ.ne']

theorem side_scale (a : V3 ℚ) :
    ((sideAff axis (κ * off)).eval (V3.scaleBy κ a) ≥ 0 ↔ (sideAff axis off).eval a ≥ 0) ∧
    ((sideAff axis (κ * off)).eval (V3.scaleBy κ a) > 0 ↔ (sideAff axis off).eval a > 0) ∧
    ((sideAff axis (κ * off)).eval (V3.scaleBy κ a) < 0 ↔ (sideAff axis off).eval a < 0) ∧
    ((sideAff axis (κ * off)).eval (V3.scaleBy κ a) = 0 ↔ (sideAff axis off).eval a = 0) := by
  rw [sideAff_scale axis off κ a]
  generalize (sideAff axis off).eval a = x
  have h1 := le_scale hκ (a := 0) (b := x)
  have h2 := lt_scale hκ (a := 0) (b := x)
  have h3 := lt_scale hκ (a := x) (b := 0)
  rw [mul_zero] at h1 h2 h3
  exact ⟨h1, h2, h3, by rw [mul_eq_zero]; exact ⟨fun h => h.resolve_left hκ.ne', Or.inr⟩⟩

theorem crosses_scale (p a : V3 ℚ) :
    Crosses (sideAff axis (κ * off)) (V3.scaleBy κ p) (V3.scaleBy κ a) ↔ Crosses (sideAff axis off) p a := by
  unfold Crosses
  simp only [(side_scale axis off hκ a).1, (side_scale axis off hκ p).1]

theorem piece1_scale (p a : V3 ℚ) :
    piece1 (sideAff axis (κ * off)) (V3.scaleBy κ p) (V3.scaleBy κ a) = (piece1 (sideAff axis off) p a).map (V3.scaleBy κ) := by
  obtain ⟨s1, s2, s3, s4⟩ := side_scale axis off hκ a
  unfold piece1
  simp only [crosses_scale axis off hκ p a, cutPoint_scale axis off hκ p a, s1, s2]
  by_cases h : Crosses (sideAff axis off) p a
  · rw [if_pos h, if_pos h]
    split <;> rfl
  · rw [if_neg h, if_neg h]
    split <;> rfl

theorem piece2_scale (p a : V3 ℚ) :
    piece2 (sideAff axis (κ * off)) (V3.scaleBy κ p) (V3.scaleBy κ a) = (piece2 (sideAff axis off) p a).map (V3.scaleBy κ) := by
  obtain ⟨s1, s2, s3, s4⟩ := side_scale axis off hκ a
  unfold piece2
  simp only [crosses_scale axis off hκ p a, cutPoint_scale axis off hκ p a, s1, s3, s4]
  by_cases h : Crosses (sideAff axis off) p a
  · rw [if_pos h, if_pos h]
    split <;> rfl
  · rw [if_neg h, if_neg h]
    split
    · split <;> rfl
    · rfl

omit hκ in
theorem along_scale {g g' : V3 ℚ → V3 ℚ → List (V3 ℚ)} (h : ∀ p a, g' (V3.scaleBy κ p) (V3.scaleBy κ a) = (g p a).map (V3.scaleBy κ)) :
    ∀ (l : List (V3 ℚ)) (p : V3 ℚ), along g' (V3.scaleBy κ p) (l.map (V3.scaleBy κ)) = (along g p l).map (V3.scaleBy κ)
  | [], _ => rfl
  | a :: t, p => by
    rw [List.map_cons, along, along, h, along_scale h t a, List.map_append]

theorem keep1_scale (L : List (V3 ℚ)) :
    keep1 (sideAff axis (κ * off)) (L.map (V3.scaleBy κ)) = (keep1 (sideAff axis off) L).map (V3.scaleBy κ) := by
  unfold keep1
  rw [List.getLast?_map]
  cases L.getLast? with
  | none => rfl
  | some p => exact along_scale (piece1_scale axis off hκ) L p

theorem keep2_scale (L : List (V3 ℚ)) :
    keep2 (sideAff axis (κ * off)) (L.map (V3.scaleBy κ)) = (keep2 (sideAff axis off) L).map (V3.scaleBy κ) := by
  unfold keep2
  rw [List.getLast?_map]
  cases L.getLast? with
  | none => rfl
  | some p => exact along_scale (piece2_scale axis off hκ) L p

/-- Both cuts succeed, with outputs that are moved, too. -/
theorem dividePoly_spair {inV inV' o1 o1' o2 o2' : List (V3 ℚ)} {n n' n1 n1' n2 n2' : Nat} {L : List (V3 ℚ)}
    (hin : Buf inV n L) (hin' : Buf inV' n' (L.map (V3.scaleBy κ))) (hne : L ≠ [])
    (ho1 : o1.length = 7) (ho2 : o2.length = 7) (ho1' : o1'.length = 7) (ho2' : o2'.length = 7)
    (h1 : (keep1 (sideAff axis off) L).length ≤ 7) (h2 : (keep2 (sideAff axis off) L).length ≤ 7) :
    ∃ p1 p1' p2 p2' m1 m2, dividePoly inV n o1 n1 o2 n2 off axis = .ok (p1, m1, p2, m2) ∧
      dividePoly inV' n' o1' n1' o2' n2' (κ * off) axis = .ok (p1', m1, p2', m2) ∧
      Buf p1 m1 (keep1 (sideAff axis off) L) ∧ Buf p2 m2 (keep2 (sideAff axis off) L) ∧
      Buf p1' m1 ((keep1 (sideAff axis off) L).map (V3.scaleBy κ)) ∧ Buf p2' m2 ((keep2 (sideAff axis off) L).map (V3.scaleBy κ)) := by
  obtain ⟨p1, m1, p2, m2, e, b1, b2⟩ := dividePoly_spec (n1 := n1) (n2 := n2) axis off hin hne ho1 ho2 h1 h2
  obtain ⟨p1', m1', p2', m2', e', b1', b2'⟩ := dividePoly_spec (n1 := n1') (n2 := n2') axis (κ * off) hin' (by simpa using hne) ho1' ho2'
    (by rw [keep1_scale axis off hκ, List.length_map]; exact h1) (by rw [keep2_scale axis off hκ, List.length_map]; exact h2)
  rw [keep1_scale axis off hκ] at b1'
  rw [keep2_scale axis off hκ] at b2'
  have c1 : m1' = m1 := by rw [b1'.count, b1.count, List.length_map]
  have c2 : m2' = m2 := by rw [b2'.count, b2.count, List.length_map]
  subst c1 c2
  exact ⟨p1, p1', p2, p2', m1', m2', e, e', b1, b2, b1', b2'⟩

end

theorem bounds_scale {f : V3 ℚ → ℚ} {κ : ℚ} (hκ : 0 < κ) (hf : ∀ v, f (V3.scaleBy κ v) = κ * f v) {buf buf' : List (V3 ℚ)} {n n' : Nat}
    {L : List (V3 ℚ)} (hb : Buf buf n L) (hb' : Buf buf' n' (L.map (V3.scaleBy κ))) (hne : L ≠ []) :
    ∃ lo hi, bounds f buf n = .ok (lo, hi) ∧ bounds f buf' n' = .ok (κ * lo, κ * hi) ∧ (∃ v ∈ L, f v = lo) ∧ ∃ v ∈ L, f v = hi := by
  obtain ⟨lo, hi, e, b1, ⟨u, hu, hul⟩, ⟨w, hw, hwl⟩⟩ := bounds_spec (f := f) hb hne
  obtain ⟨lo', hi', e', b1', ⟨u', hu', hul'⟩, ⟨w', hw', hwl'⟩⟩ := bounds_spec (f := f) hb' (by simpa using hne)
  obtain ⟨u1, hu1, rfl⟩ := List.mem_map.1 hu'
  obtain ⟨w1, hw1, rfl⟩ := List.mem_map.1 hw'
  rw [hf] at hul' hwl'
  have k1 := (le_scale hκ).2 (b1 u1 hu1).1
  have k2 := (le_scale hκ).2 (b1 w1 hw1).2
  have k3 := b1' _ (List.mem_map_of_mem hu)
  have k4 := b1' _ (List.mem_map_of_mem hw)
  rw [hf] at k3 k4
  rw [hul] at k3
  rw [hwl] at k4
  have e1 : lo' = κ * lo := by apply le_antisymm <;> linarith
  have e2 : hi' = κ * hi := by apply le_antisymm <;> linarith
  subst e1 e2
  exact ⟨lo, hi, e, e', ⟨u, hu, hul⟩, ⟨w, hw, hwl⟩⟩

theorem snapSpan_scale (fr : Frame) {κ : ℚ} (hκ : 0 < κ) (lo hi : ℚ) : snapSpan (fr.scaleBy κ) (κ * lo) (κ * hi) = snapSpan fr lo hi := by
  unfold snapSpan Frame.scaleBy Aabb3.scaleBy V3.scaleBy
  have z : ∀ a : ℚ, max (κ * a) 0 = κ * max a 0 := fun a => by
    rw [mul_max_of_nonneg _ _ hκ.le, mul_zero]
  have w : ∀ a b : ℚ, min (κ * a) (κ * b) = κ * min a b := fun a b => (mul_min_of_nonneg _ _ hκ.le).symm
  have n : ∀ a : ℚ, κ * a < 0 ↔ a < 0 := fun a => by
    have := lt_scale hκ (a := a) (b := 0)
    rwa [mul_zero] at this
  simp only [← mul_sub, z, w, n, gt_iff_lt, lt_scale hκ, inv_scale hκ]

theorem gx_scale (fr : Frame) (κ : ℚ) (k : Int) : gx (fr.scaleBy κ) k = κ * gx fr k := by
  simp only [gx, Frame.scaleBy, Aabb3.scaleBy, V3.scaleBy]; ring

theorem gz_scale (fr : Frame) (κ : ℚ) (k : Int) : gz (fr.scaleBy κ) k = κ * gz fr k := by
  simp only [gz, Frame.scaleBy, Aabb3.scaleBy, V3.scaleBy]; ring

theorem emit_spair {fr : Frame} {κ : ℚ} (hκ : 0 < κ) (area : Area) (thr : Nat) (z x : Int) {st st' : ColState} (hhf : st'.hf = st.hf) {P : List (V3 ℚ)}
    (hb : Buf st.p1 st.nv P) (hb' : Buf st'.p1 st'.nv (P.map (V3.scaleBy κ))) (hne : P ≠ []) :
    Alike (fun s s' => ∃ hf, s = { st with hf } ∧ s' = { st' with hf }) (emit fr area thr z x st) (emit (fr.scaleBy κ) area thr z x st') := by
  obtain ⟨lo, hi, e, e', -, -⟩ := bounds_scale (f := V3.y) hκ (fun v => rfl) hb hb' hne
  unfold emit
  rw [e, e', bind_ok, bind_ok]
  dsimp only
  rw [snapSpan_scale fr hκ]
  cases hs : snapSpan fr lo hi with
  | error er => exact Or.inl ⟨er, rfl, rfl⟩
  | ok o =>
    rw [bind_ok, bind_ok]
    cases o with
    | none => exact Or.inr ⟨_, _, rfl, rfl, st.hf, rfl, by rw [← hhf]⟩
    | some p =>
      dsimp only
      rw [hhf]
      cases ha : st.hf.addSpan x.toNat z.toNat thr ⟨p.1, p.2, area, none⟩ with
      | error er => exact Or.inl ⟨er, rfl, rfl⟩
      | ok hf => exact Or.inr ⟨_, _, rfl, rfl, hf, rfl, rfl⟩

structure ColScaled (fr : Frame) (κ : ℚ) (B : List (V3 ℚ)) (mv : V3 ℚ) (x1 x : Int) (st st' : ColState) : Prop where
  hf : st'.hf = st.hf
  l1 : st.p1.length = 7 ∧ st'.p1.length = 7
  l2 : st.p2.length = 7 ∧ st'.p2.length = 7
  rest : ∃ R, Buf st.inRow st.nv2 R ∧ Buf st'.inRow st'.nv2 (R.map (V3.scaleBy κ)) ∧ Unimodal R ∧ Rest .X B R (gx fr x) ∧ (x ≤ x1 → mv ∈ R)

theorem colStep_spair {fr : Frame} (hcs : 0 < fr.cellSize) {κ : ℚ} (hκ : 0 < κ) {area : Area} {thr : Nat} {z : Int} {B : List (V3 ℚ)} (h5 : B.length ≤ 5)
    {mv : V3 ℚ} {x1 x : Int} (hmv : gx fr x1 ≤ mv.x) (hxx : x ≤ x1) {st st' : ColState} (hi : ColScaled fr κ B mv x1 x st st') :
    Alike (ColScaled fr κ B mv x1 (x + 1)) (colStep fr area thr z st x) (colStep (fr.scaleBy κ) area thr z st' x) := by
  obtain ⟨R, hR, hR', hU, hrest, hm⟩ := hi.rest
  have hne : R ≠ [] := by rintro rfl; have := hm hxx; simp at this
  have hltx : gx fr x < gx fr (x + 1) := gx_lt hcs (by omega)
  have hRl : R.length ≤ 6 := by have := hrest.len; omega
  have hk1 : (keep1 (sideAff .X (gx fr (x + 1))) R).length ≤ 7 := by
    have := keep1_length (e := sideAff .X (gx fr (x + 1))) hU; omega
  have hk2 : (keep2 (sideAff .X (gx fr (x + 1))) R).length ≤ 7 := by
    have := keep2_length (e := sideAff .X (gx fr (x + 1))) hU; omega
  obtain ⟨p1, p1', p2, p2', m1, m2, e, e', b1, b2, b1', b2'⟩ := dividePoly_spair (n1 := st.nv) (n1' := st'.nv) (n2 := st.nv2) (n2' := st'.nv2) .X
    (gx fr (x + 1)) hκ hR hR' hne hi.l1.1 hi.l2.1 hi.l1.2 hi.l2.2 hk1 hk2
  rw [← gx_scale] at e'
  rw [colStep_eq _ _ _ _ _ _ e, colStep_eq _ _ _ _ _ _ e']
  have mk : ∀ hf, ColScaled fr κ B mv x1 (x + 1) ⟨hf, p2, p1, st.inRow, m1, m2⟩ ⟨hf, p2', p1', st'.inRow, m1, m2⟩ := by
    intro hf
    refine ⟨rfl, ⟨b1.len, b1'.len⟩, ⟨hR.len, hR'.len⟩, _, b2, b2', unimodal_keep2 hU, hrest.step hU hltx, fun hle => ?_⟩
    apply mem_keep2_of (hm hxx)
    rw [sideAff_eval]
    have h2 := gx_le hcs hle
    show gx fr (x + 1) - mv.x ≤ 0
    linarith
  split
  · refine Or.inr ⟨_, _, rfl, rfl, ?_⟩
    have := mk st.hf
    rw [hi.hf]
    exact this
  · rename_i hc
    push Not at hc
    have hPne : keep1 (sideAff .X (gx fr (x + 1))) R ≠ [] := by
      intro h
      have := b1.count
      rw [h] at this
      simp at this; omega
    rcases emit_spair (hκ := hκ) (fr := fr) (κ := κ) area thr z x (st := ⟨st.hf, p2, p1, st.inRow, m1, m2⟩) (st' := ⟨st'.hf, p2', p1', st'.inRow, m1, m2⟩) hi.hf b1 b1' hPne with
      ⟨er, g1, g2⟩ | ⟨s, s', g1, g2, hf, rfl, rfl⟩
    · exact Or.inl ⟨er, g1, g2⟩
    · exact Or.inr ⟨_, _, g1, g2, mk hf⟩

theorem colLoop_spair {fr : Frame} (hcs : 0 < fr.cellSize) {κ : ℚ} (hκ : 0 < κ) {area : Area} {thr : Nat} {z : Int} {B : List (V3 ℚ)} (h5 : B.length ≤ 5)
    {mv : V3 ℚ} {x1 : Int} (hmv : gx fr x1 ≤ mv.x) : ∀ (n : Nat) (x : Int), (x1 + 1 - x).toNat = n → ∀ st st', ColScaled fr κ B mv x1 x st st' →
    Alike (fun s s' => s'.hf = s.hf ∧ (s.inRow.length = 7 ∧ s'.inRow.length = 7) ∧ (s.p1.length = 7 ∧ s'.p1.length = 7) ∧ s.p2.length = 7 ∧ s'.p2.length = 7)
      ((intRange x x1).foldlM (colStep fr area thr z) st) ((intRange x x1).foldlM (colStep (fr.scaleBy κ) area thr z) st') := by
  intro n
  induction n with
  | zero =>
    intro x hn st st' hi
    rw [intRange_nil (by omega)]
    obtain ⟨R, hR, hR', _⟩ := hi.rest
    exact Or.inr ⟨_, _, rfl, rfl, hi.hf, ⟨hR.len, hR'.len⟩, hi.l1, hi.l2⟩
  | succ n ih =>
    intro x hn st st' hi
    rw [intRange_cons (by omega), List.foldlM_cons, List.foldlM_cons]
    rcases colStep_spair (hκ := hκ) (area := area) (thr := thr) (z := z) hcs h5 hmv (by omega) hi with ⟨er, g1, g2⟩ | ⟨s, s', g1, g2, h⟩
    · rw [g1, g2]; exact Or.inl ⟨er, rfl, rfl⟩
    · rw [g1, g2, bind_ok, bind_ok]
      exact ih (x + 1) (by omega) s s' h

structure RowScaled (fr : Frame) (κ : ℚ) (T : List (V3 ℚ)) (mv : V3 ℚ) (z1 z : Int) (st st' : RowState) : Prop where
  hf : st'.hf = st.hf
  l0 : st.inRow.length = 7 ∧ st'.inRow.length = 7
  l1 : st.p1.length = 7 ∧ st'.p1.length = 7
  l2 : st.p2.length = 7 ∧ st'.p2.length = 7
  rest : ∃ R, Buf st.inTri st.nvIn R ∧ Buf st'.inTri st'.nvIn (R.map (V3.scaleBy κ)) ∧ Unimodal R ∧ Rest .Z T R (gz fr z) ∧ (z ≤ z1 → mv ∈ R) ∧
    ∀ v ∈ R, fr.aabb.min.x ≤ v.x

theorem rowTail_spair {fr : Frame} (hcs : 0 < fr.cellSize) {κ : ℚ} (hκ : 0 < κ) (w : Nat) (area : Area) (thr : Nat) (z : Int) {st st' : RowState} (hhf : st'.hf = st.hf)
    {B : List (V3 ℚ)} (hB : Buf st.inRow st.nvRow B) (hB' : Buf st'.inRow st'.nvRow (B.map (V3.scaleBy κ))) (hU : Unimodal B) (h3 : 3 ≤ B.length)
    (h5 : B.length ≤ 5) (l1 : st.p1.length = 7 ∧ st'.p1.length = 7) (l2 : st.p2.length = 7 ∧ st'.p2.length = 7) (hx : ∀ v ∈ B, fr.aabb.min.x ≤ v.x) :
    Alike (fun s s' => (s'.hf = s.hf ∧ (s.inRow.length = 7 ∧ s'.inRow.length = 7) ∧ (s.p1.length = 7 ∧ s'.p1.length = 7) ∧ s.p2.length = 7 ∧ s'.p2.length = 7) ∧
        (s.inTri = st.inTri ∧ s.nvIn = st.nvIn) ∧ s'.inTri = st'.inTri ∧ s'.nvIn = st'.nvIn)
      (rowTail fr w area thr z st) (rowTail (fr.scaleBy κ) w area thr z st') := by
  have hne : B ≠ [] := by rintro rfl; simp at h3
  obtain ⟨lo, hi, e, e', ⟨u, hu, hul⟩, ⟨mv, hmvB, hmvx⟩⟩ := bounds_scale (f := V3.x) hκ (fun v => rfl) hB hB' hne
  unfold rowTail
  rw [e, e', bind_ok, bind_ok]
  dsimp only
  have ex : ∀ q : ℚ, (κ * q - (fr.scaleBy κ).aabb.min.x) * (1 / (fr.scaleBy κ).cellSize) = (q - fr.aabb.min.x) * (1 / fr.cellSize) := by
    intro q
    simp only [Frame.scaleBy, Aabb3.scaleBy, V3.scaleBy, ← mul_sub]
    exact inv_scale hκ _ _
  rw [ex, ex]
  split
  · exact Or.inr ⟨_, _, rfl, rfl, ⟨hhf, ⟨hB.len, hB'.len⟩, l1, l2⟩, ⟨rfl, rfl⟩, rfl, rfl⟩
  · rename_i hskip
    cases hw : predI16 (u16AsI16 w) with
    | error er => exact Or.inl ⟨er, rfl, rfl⟩
    | ok w1 =>
      rw [bind_ok, bind_ok]
      cases hx0 : clampI (ratAsI16 ((lo - fr.aabb.min.x) * (1 / fr.cellSize))) (-1) w1 with
      | error er => exact Or.inl ⟨er, rfl, rfl⟩
      | ok X0 =>
        rw [bind_ok, bind_ok]
        cases hx1 : clampI (ratAsI16 ((hi - fr.aabb.min.x) * (1 / fr.cellSize))) 0 w1 with
        | error er => exact Or.inl ⟨er, rfl, rfl⟩
        | ok X1 =>
          rw [bind_ok, bind_ok]
          have hmv : gx fr X1 ≤ mv.x := by
            obtain ⟨k1, k2⟩ := trunc_line (m := fr.aabb.min.x) (t := mv.x) hcs (hx mv hmvB)
            rw [hmvx] at k1 k2
            unfold clampI at hx1
            split at hx1
            · cases hx1
              have : gx fr (max 0 (min (ratAsI16 ((hi - fr.aabb.min.x) * (1 / fr.cellSize))) w1)) ≤
                  gx fr (ratAsI16 ((hi - fr.aabb.min.x) * (1 / fr.cellSize))) := gx_le hcs (by omega)
              rw [hmvx]
              exact le_trans this k2
            · cases hx1
          rcases colLoop_spair (hκ := hκ) (κ := κ) (area := area) (thr := thr) (z := z) hcs h5 hmv _ X0 rfl ⟨st.hf, st.inRow, st.p1, st.p2, 0, st.nvRow⟩
            ⟨st'.hf, st'.inRow, st'.p1, st'.p2, 0, st'.nvRow⟩ ⟨hhf, l1, l2, B, hB, hB', hU, Rest.base _ _ _, fun _ => hmvB⟩ with
            ⟨er, g1, g2⟩ | ⟨s, s', g1, g2, h⟩
          · rw [g1, g2]; exact Or.inl ⟨er, rfl, rfl⟩
          · rw [g1, g2]
            exact Or.inr ⟨_, _, rfl, rfl, h, ⟨rfl, rfl⟩, rfl, rfl⟩

theorem rowStep_spair {fr : Frame} (hcs : 0 < fr.cellSize) {κ : ℚ} (hκ : 0 < κ) {w : Nat} {area : Area} {thr : Nat} {T : List (V3 ℚ)} (h3 : T.length ≤ 3)
    {mv : V3 ℚ} {z1 z : Int} (hmv : gz fr z1 ≤ mv.z) (hzz : z ≤ z1) {st st' : RowState} (hi : RowScaled fr κ T mv z1 z st st') :
    Alike (RowScaled fr κ T mv z1 (z + 1)) (rowStep fr w area thr st z) (rowStep (fr.scaleBy κ) w area thr st' z) := by
  obtain ⟨R, hR, hR', hU, hrest, hm, hx⟩ := hi.rest
  have hne : R ≠ [] := by rintro rfl; have := hm hzz; simp at this
  have hltz : gz fr z < gz fr (z + 1) := gz_lt hcs (by omega)
  have hRl : R.length ≤ 4 := by have := hrest.len; omega
  have hk1 : (keep1 (sideAff .Z (gz fr (z + 1))) R).length ≤ 5 := by
    have := keep1_length (e := sideAff .Z (gz fr (z + 1))) hU; omega
  have hk2 : (keep2 (sideAff .Z (gz fr (z + 1))) R).length ≤ 7 := by
    have := keep2_length (e := sideAff .Z (gz fr (z + 1))) hU; omega
  obtain ⟨p1, p1', p2, p2', m1, m2, e, e', b1, b2, b1', b2'⟩ := dividePoly_spair (n1 := st.nvRow) (n1' := st'.nvRow) (n2 := st.nvIn) (n2' := st'.nvIn) .Z
    (gz fr (z + 1)) hκ hR hR' hne hi.l0.1 hi.l1.1 hi.l0.2 hi.l1.2 (by omega) hk2
  rw [← gz_scale] at e'
  rw [rowStep_eq _ _ _ _ _ _ e, rowStep_eq _ _ _ _ _ _ e']
  have mk : ∀ s s' : RowState, s'.hf = s.hf → (s.inRow.length = 7 ∧ s'.inRow.length = 7) → (s.p1.length = 7 ∧ s'.p1.length = 7) →
      (s.p2.length = 7 ∧ s'.p2.length = 7) → s.inTri = p2 → s'.inTri = p2' → s.nvIn = m2 → s'.nvIn = m2 → RowScaled fr κ T mv z1 (z + 1) s s' := by
    intro s s' a1 a2 a3 a4 a5 a6 a7 a8
    refine ⟨a1, a2, a3, a4, _, by rw [a5, a7]; exact b2, by rw [a6, a8]; exact b2', unimodal_keep2 hU, hrest.step hU hltz, fun hle => ?_, ?_⟩
    · apply mem_keep2_of (hm hzz)
      rw [sideAff_eval]
      have h2 := gz_le hcs hle
      show gz fr (z + 1) - mv.z ≤ 0
      linarith
    · exact keep2_convex (convex_ge_x _) hx
  split
  · exact Or.inr ⟨_, _, rfl, rfl, mk _ _ hi.hf ⟨b1.len, b1'.len⟩ ⟨hR.len, hR'.len⟩ hi.l2 rfl rfl rfl rfl⟩
  · rename_i hc
    push Not at hc
    rcases rowTail_spair (hκ := hκ) (κ := κ) hcs w area thr z (st := { st with inRow := p1, nvRow := m1, nvIn := m2, inTri := p2, p1 := st.inTri })
      (st' := { st' with inRow := p1', nvRow := m1, nvIn := m2, inTri := p2', p1 := st'.inTri }) hi.hf b1 b1' (unimodal_keep1 hU)
      (by rw [← b1.count]; exact hc.1) hk1 ⟨hR.len, hR'.len⟩ hi.l2 (keep1_convex (convex_ge_x _) hx) with
      ⟨er, g1, g2⟩ | ⟨s, s', g1, g2, ⟨c1, c2, c3, c4⟩, ⟨c5, c6⟩, c7, c8⟩
    · exact Or.inl ⟨er, g1, g2⟩
    · exact Or.inr ⟨s, s', g1, g2, mk s s' c1 c2 c3 c4 c5 c7 c6 c8⟩

theorem rowLoop_spair {fr : Frame} (hcs : 0 < fr.cellSize) {κ : ℚ} (hκ : 0 < κ) {w : Nat} {area : Area} {thr : Nat} {T : List (V3 ℚ)} (h3 : T.length ≤ 3)
    {mv : V3 ℚ} {z1 : Int} (hmv : gz fr z1 ≤ mv.z) : ∀ (n : Nat) (z : Int), (z1 + 1 - z).toNat = n → ∀ st st', RowScaled fr κ T mv z1 z st st' →
    Alike (fun s s' => s'.hf = s.hf) ((intRange z z1).foldlM (rowStep fr w area thr) st) ((intRange z z1).foldlM (rowStep (fr.scaleBy κ) w area thr) st') := by
  intro n
  induction n with
  | zero =>
    intro z hn st st' hi
    rw [intRange_nil (by omega)]
    exact Or.inr ⟨_, _, rfl, rfl, hi.hf⟩
  | succ n ih =>
    intro z hn st st' hi
    rw [intRange_cons (by omega), List.foldlM_cons, List.foldlM_cons]
    rcases rowStep_spair (hκ := hκ) (w := w) (area := area) (thr := thr) hcs h3 hmv (by omega) hi with ⟨er, g1, g2⟩ | ⟨s, s', g1, g2, h⟩
    · rw [g1, g2]; exact Or.inl ⟨er, rfl, rfl⟩
    · rw [g1, g2, bind_ok, bind_ok]
      exact ih (z + 1) (by omega) s s' h

theorem triangleAabb_scale {κ : ℚ} (hκ : 0 < κ) (a b c : V3 ℚ) :
    triangleAabb (V3.scaleBy κ a, V3.scaleBy κ b, V3.scaleBy κ c) = Aabb3.scaleBy κ (triangleAabb (a, b, c)) := by
  simp only [triangleAabb, V3.min, V3.max, V3.scaleBy, Aabb3.scaleBy, mul_min_of_nonneg _ _ hκ.le, mul_max_of_nonneg _ _ hκ.le]

theorem intersects_scale {κ : ℚ} (hκ : 0 < κ) (p q : Aabb3 ℚ) : Aabb3.intersects (Aabb3.scaleBy κ p) (Aabb3.scaleBy κ q) = p.intersects q := by
  simp only [Aabb3.intersects, Aabb3.scaleBy, V3.scaleBy, ge_iff_le, le_scale hκ]

/-- An enlarged triangle on an enlarged grid gives the same field. -/
theorem rasterizeTriangle_scale {fr : Frame} (hcs : 0 < fr.cellSize) {κ : ℚ} (hκ : 0 < κ) (hf : Heightfield) (a b c : V3 ℚ) (area : Area) (thr : Nat)
    (hin : ∀ v ∈ [a, b, c], fr.aabb.min.x ≤ v.x ∧ fr.aabb.min.z ≤ v.z) :
    rasterizeTriangle (fr.scaleBy κ) hf (V3.scaleBy κ a, V3.scaleBy κ b, V3.scaleBy κ c) area thr = rasterizeTriangle fr hf (a, b, c) area thr := by
  have ht : triList (a, b, c) = [a, b, c] := rfl
  obtain ⟨zb, ⟨mv, hmv, hmvz⟩, -⟩ := triangleAabb_z (a, b, c)
  have hmaxz : fr.aabb.min.z ≤ (triangleAabb (a, b, c)).max.z := by
    rw [← hmvz]
    exact (hin mv hmv).2
  unfold rasterizeTriangle
  rw [triangleAabb_scale hκ]
  have hbox : (fr.scaleBy κ).aabb = Aabb3.scaleBy κ fr.aabb := rfl
  dsimp only
  rw [hbox, intersects_scale hκ]
  have ez : ∀ q : ℚ, (κ * q - κ * fr.aabb.min.z) * (1 / (fr.scaleBy κ).cellSize) = (q - fr.aabb.min.z) * (1 / fr.cellSize) := by
    intro q
    rw [← mul_sub]
    exact inv_scale hκ _ _
  simp only [V3.scaleBy, Aabb3.scaleBy, ez]
  split
  · rfl
  · cases hh : predI16 (u16AsI16 hf.height) with
    | error er => rw [bind_fault, bind_fault]
    | ok h1 =>
      rw [bind_ok, bind_ok]
      cases hz0 : clampI (ratAsI16 (((triangleAabb (a, b, c)).min.z - fr.aabb.min.z) * (1 / fr.cellSize))) (-1) h1 with
      | error er => rw [bind_fault, bind_fault]
      | ok Z0 =>
        rw [bind_ok, bind_ok]
        cases hz1 : clampI (ratAsI16 (((triangleAabb (a, b, c)).max.z - fr.aabb.min.z) * (1 / fr.cellSize))) 0 h1 with
        | error er => rw [bind_fault, bind_fault]
        | ok Z1 =>
          rw [bind_ok, bind_ok]
          have hz1v : gz fr Z1 ≤ mv.z := by
            obtain ⟨k1, k2⟩ := trunc_line (m := fr.aabb.min.z) (t := mv.z) hcs (by rw [hmvz]; exact hmaxz)
            rw [hmvz] at k1 k2
            unfold clampI at hz1
            split at hz1
            · cases hz1
              have : gz fr (max 0 (min (ratAsI16 (((triangleAabb (a, b, c)).max.z - fr.aabb.min.z) * (1 / fr.cellSize))) h1)) ≤
                  gz fr (ratAsI16 (((triangleAabb (a, b, c)).max.z - fr.aabb.min.z) * (1 / fr.cellSize))) := gz_le hcs (by omega)
              rw [hmvz]
              exact le_trans this k2
            · cases hz1
          rcases rowLoop_spair (hκ := hκ) (κ := κ) (w := hf.width) (area := area) (thr := thr) (T := [a, b, c]) hcs (by simp) hz1v _ Z0 rfl
            ⟨hf, ((zeroBuf.set 0 a).set 1 b).set 2 c, zeroBuf, zeroBuf, zeroBuf, 0, 3⟩
            ⟨hf, ((zeroBuf.set 0 (V3.scaleBy κ a)).set 1 (V3.scaleBy κ b)).set 2 (V3.scaleBy κ c), zeroBuf, zeroBuf, zeroBuf, 0, 3⟩
            ⟨rfl, ⟨rfl, rfl⟩, ⟨rfl, rfl⟩, ⟨rfl, rfl⟩, [a, b, c], ⟨rfl, rfl, rfl⟩, ⟨rfl, rfl, rfl⟩, unimodal_triple _ _ _, Rest.base _ _ _, fun _ => hmv,
              fun v hv => (hin v hv).1⟩ with ⟨er, g1, g2⟩ | ⟨s, s', g1, g2, h⟩
          · simp only [V3.scaleBy] at g2
            rw [g1, g2, bind_fault]
          · simp only [V3.scaleBy] at g2
            rw [g1, g2, bind_ok, bind_ok, h]

/-- An enlarged mesh on an enlarged grid gives the same field. -/
theorem rasterizeTriangles_scale {fr : Frame} (hcs : 0 < fr.cellSize) {κ : ℚ} (hκ : 0 < κ) (m : TriMesh ℚ) (thr : Nat)
    (hin : ∀ v ∈ m.vertices, fr.aabb.min.x ≤ v.x ∧ fr.aabb.min.z ≤ v.z) (hf : Heightfield) :
    rasterizeTriangles (fr.scaleBy κ) hf (m.moved (V3.scaleBy κ)) thr = rasterizeTriangles fr hf m thr := by
  unfold rasterizeTriangles
  show (List.range m.indices.length).foldlM _ hf = _
  have step : ∀ hf i, rasterizeMeshStep (fr.scaleBy κ) (m.moved (V3.scaleBy κ)) thr hf i = rasterizeMeshStep fr m thr hf i := by
    intro hf i
    unfold rasterizeMeshStep
    show (idx m.indices i >>= _) = _
    cases idx m.indices i with
    | error er => rw [bind_fault, bind_fault]
    | ok t =>
      rw [bind_ok, bind_ok]
      have hv : ∀ k, idx (m.moved (V3.scaleBy κ)).vertices k = (match m.vertices[k]? with | some v => .ok (V3.scaleBy κ v) | none => .error .panic) := by
        intro k
        unfold idx TriMesh.moved
        simp only [List.getElem?_map]
        cases m.vertices[k]? <;> rfl
      have hv0 : ∀ k, idx m.vertices k = (match m.vertices[k]? with | some v => .ok v | none => .error .panic) := fun k => by unfold idx; cases m.vertices[k]? <;> rfl
      rw [hv, hv, hv, hv0, hv0, hv0]
      cases e1 : m.vertices[t.1]? with
      | none => dsimp only; rw [bind_fault, bind_fault]
      | some a =>
        dsimp only
        rw [bind_ok, bind_ok]
        cases e2 : m.vertices[t.2.1]? with
        | none => dsimp only; rw [bind_fault, bind_fault]
        | some b =>
          dsimp only
          rw [bind_ok, bind_ok]
          cases e3 : m.vertices[t.2.2]? with
          | none => dsimp only; rw [bind_fault, bind_fault]
          | some c =>
            dsimp only
            rw [bind_ok, bind_ok]
            show (idx m.areaTypes i >>= _) = _
            cases idx m.areaTypes i with
            | error er => rw [bind_fault, bind_fault]
            | ok area =>
              rw [bind_ok, bind_ok]
              apply rasterizeTriangle_scale hcs hκ
              intro v hv
              simp only [List.mem_cons, List.not_mem_nil, or_false] at hv
              rcases hv with rfl | rfl | rfl
              · exact hin _ (List.mem_of_getElem? e1)
              · exact hin _ (List.mem_of_getElem? e2)
              · exact hin _ (List.mem_of_getElem? e3)
  have : rasterizeMeshStep (fr.scaleBy κ) (m.moved (V3.scaleBy κ)) thr = rasterizeMeshStep fr m thr := by
    funext hf i
    exact step hf i
  rw [this]

end Rerecast
