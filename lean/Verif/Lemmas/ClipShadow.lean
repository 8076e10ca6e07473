import Verif.Lemmas.ClipRounded
import Verif.Lemmas.ClipHull
/-!
Cutting polygons whose vertices are rounded keeps what lies well inside.

The vertices of a rounded polygon are near those of a convex polygon, its shadow.  A computed cut point is near the point of the shadow's edge at the
same parameter; these points make up the shadow of the pieces.
-/
set_option linter.unusedVariables false
namespace Rerecast

/-- `v` is within `d` of `s` in every coordinate. -/
def NearV (d : ℚ) (v s : V3 ℚ) : Prop := |v.x - s.x| ≤ d ∧ |v.y - s.y| ≤ d ∧ |v.z - s.z| ≤ d

theorem NearV.mono {d d' : ℚ} {v s : V3 ℚ} (h : NearV d v s) (hd : d ≤ d') : NearV d' v s := ⟨h.1.trans hd, h.2.1.trans hd, h.2.2.trans hd⟩

theorem nearV_self {d : ℚ} (hd : 0 ≤ d) (v : V3 ℚ) : NearV d v v := by
  unfold NearV
  simp [hd]

/-! ### Refinements -/

/-- `W` is `S` with points of the edges added. -/
inductive Ref : V3 ℚ → List (V3 ℚ) → List (V3 ℚ) → Prop
  | nil (p) : Ref p [] []
  | keep {p a t W} : Ref a t W → Ref p (a :: t) (a :: W)
  | cut {p a t W} (s : ℚ) : 0 ≤ s → s ≤ 1 → Ref a t W → Ref p (a :: t) (lerp p a s :: a :: W)

theorem Ref.walk {p : V3 ℚ} {S W : List (V3 ℚ)} (h : Ref p S W) (f : Aff) :
    walk (sgnDist f) p W = Rerecast.walk (sgnDist f) p S ∧ lastOr p W = lastOr p S := by
  induction h with
  | nil => exact ⟨rfl, rfl⟩
  | keep h ih => simp only [Rerecast.walk, lastOr]; exact ⟨by rw [ih.1], ih.2⟩
  | @cut p a t W s h0 h1 h ih =>
    simp only [Rerecast.walk, lastOr]
    have := sgnDist_lerp f p a s h0 h1
    exact ⟨by rw [ih.1]; omega, ih.2⟩

theorem unimodal_of_ref {S W K : List (V3 ℚ)} {p : V3 ℚ} (hp : S.getLast? = some p) (hU : Unimodal S) (hW : Ref p S W) (hs : K.Sublist W) : Unimodal K := by
  intro f q hq
  have h1 := walk_sublist f hs p
  obtain ⟨h2, h3⟩ := hW.walk f
  rw [h2, h3, lastOr_of_getLast? hp, lastOr_of_getLast? hq] at h1
  have h4 := hU f p hp
  have h5 : walk (sgnDist f) q K ≤ sgnDist f q p + walk (sgnDist f) p K := by
    cases K with
    | nil => simp [walk]
    | cons b t =>
      simp only [walk]
      have := sgnDist_tri f q p b
      omega
  omega

/-! ### The shadow of a piece -/

section
variable {e : V3 ℚ → ℚ} {g : V3 ℚ → V3 ℚ → List (V3 ℚ)} {kept : V3 ℚ → Prop} {f : Aff} {d d' : ℚ}

/-- What the shadow `K` of the piece after `p` and `a` has. -/
def PieceOk (e : V3 ℚ → ℚ) (kept : V3 ℚ → Prop) (f : Aff) (p a x y : V3 ℚ) (K : List (V3 ℚ)) : Prop :=
  (kept a → y ∈ K) ∧ (CrossF e p a → ∃ t, 0 ≤ t ∧ t ≤ 1 ∧ f.eval (lerp x y t) ≤ 0 ∧ lerp x y t ∈ K)

/-- Every piece has a shadow. -/
def PieceShadow (e : V3 ℚ → ℚ) (g : V3 ℚ → V3 ℚ → List (V3 ℚ)) (kept : V3 ℚ → Prop) (f : Aff) (d d' : ℚ) (R : List (V3 ℚ)) : Prop :=
  ∀ p ∈ R, ∀ a ∈ R, ∀ x y, NearV d p x → NearV d a y →
    ∃ W K, (W = [y] ∨ ∃ t, 0 ≤ t ∧ t ≤ 1 ∧ W = [lerp x y t, y]) ∧ K.Sublist W ∧ List.Forall₂ (NearV d') (g p a) K ∧ PieceOk e kept f p a x y K

/-- What holds of the ends of an edge of the shadow. -/
def EdgeShadow (e : V3 ℚ → ℚ) (kept : V3 ℚ → Prop) (f : Aff) (d : ℚ) (R K : List (V3 ℚ)) (x y : V3 ℚ) : Prop :=
  ∃ p a, p ∈ R ∧ a ∈ R ∧ NearV d p x ∧ NearV d a y ∧ (kept p → x ∈ K) ∧ PieceOk e kept f p a x y K

theorem along_shadow {R0 : List (V3 ℚ)} (hg : PieceShadow e g kept f d d' R0) : ∀ (R S : List (V3 ℚ)) (p x : V3 ℚ), p ∈ R0 → (∀ v ∈ R, v ∈ R0) →
    NearV d p x → List.Forall₂ (NearV d) R S →
    ∃ W K, Ref x S W ∧ K.Sublist W ∧ List.Forall₂ (NearV d') (along g p R) K ∧
      (R ≠ [] → kept (lastOr p R) → lastOr x S ∈ K) ∧
      ∀ T : List (V3 ℚ), (∀ k ∈ K, k ∈ T) → (kept p → x ∈ T) → AllAdj (EdgeShadow e kept f d R0 T) x S
  | [], _, p, x, hp, hR, hn, .nil => ⟨[], [], .nil _, List.Sublist.refl _, .nil, by simp, fun _ _ _ => True.intro⟩
  | a :: R, y :: S, p, x, hp, hR, hn, .cons h1 h2 => by
    have ha : a ∈ R0 := hR a (by simp)
    obtain ⟨W1, K1, c1, c2, c3, c4⟩ := hg p hp a ha x y hn h1
    obtain ⟨W, K, r1, r2, r3, r4, r5⟩ := along_shadow hg R S a y ha (fun v hv => hR v (by simp [hv])) h1 h2
    have hW : Ref x (y :: S) (W1 ++ W) := by
      rcases c1 with rfl | ⟨t, t0, t1, rfl⟩
      · exact .keep r1
      · exact .cut t t0 t1 r1
    have hF : ∀ {l1 l2 l3 l4 : List (V3 ℚ)}, List.Forall₂ (NearV d') l1 l2 → List.Forall₂ (NearV d') l3 l4 → List.Forall₂ (NearV d') (l1 ++ l3) (l2 ++ l4) := by
      intro l1 l2 l3 l4 q1 q2
      induction q1 with
      | nil => exact q2
      | cons q _ ih => exact .cons q ih
    refine ⟨W1 ++ W, K1 ++ K, hW, c2.append r2, hF c3 r3, ?_, ?_⟩
    · intro _ hk
      simp only [lastOr] at hk ⊢
      cases R with
      | nil =>
        cases h2
        exact List.mem_append_left _ (c4.1 hk)
      | cons b R => exact List.mem_append_right _ (r4 (by simp) hk)
    · intro T hT hx
      refine ⟨⟨p, a, hp, ha, hn, h1, hx, fun hk => hT _ (List.mem_append_left _ (c4.1 hk)), fun hc => ?_⟩,
        r5 T (fun k hk => hT k (List.mem_append_right _ hk)) fun hk => hT _ (List.mem_append_left _ (c4.1 hk))⟩
      obtain ⟨t, t0, t1, t2, t3⟩ := c4.2 hc
      exact ⟨t, t0, t1, t2, hT _ (List.mem_append_left _ t3)⟩

theorem AllAdj.of_mem {Q : V3 ℚ → V3 ℚ → Prop} : ∀ {l : List (V3 ℚ)} {p y : V3 ℚ}, AllAdj Q p l → y ∈ l → ∃ x, Q x y
  | a :: t, p, y, ⟨h1, h2⟩, hy => by
    rcases List.mem_cons.1 hy with rfl | hy
    · exact ⟨_, h1⟩
    · exact h2.of_mem hy

/-- Between a point on the wrong side and one on the right side there is one on the cut. -/
theorem cut_between {f : Aff} {c y : V3 ℚ} (h1 : f.eval c ≤ 0) (h2 : 0 < f.eval y) : ∃ u, 0 ≤ u ∧ u ≤ 1 ∧ f.eval (lerp c y u) = 0 := by
  have hd : 0 < f.eval y - f.eval c := by linarith
  refine ⟨-f.eval c / (f.eval y - f.eval c), div_nonneg (by linarith) hd.le, div_le_one_of_le₀ (by linarith) hd.le, ?_⟩
  rw [Aff.eval_lerp]
  field_simp
  ring

theorem inHull_lerp {K : List (V3 ℚ)} {c y : V3 ℚ} {u : ℚ} (hc : InHull K c) (hy : InHull K y) (h0 : 0 ≤ u) (h1 : u ≤ 1) : InHull K (lerp c y u) := by
  intro g hg
  have e : g.eval (lerp c y u) = g.eval c * (1 - u) + g.eval y * u := by rw [Aff.eval_lerp]; ring
  rw [e]
  exact add_nonneg (mul_nonneg (hc g hg) (by linarith)) (mul_nonneg (hy g hg) h0)

theorem lerp_lerp (x y : V3 ℚ) (t u : ℚ) : lerp (lerp x y t) y u = lerp x y (t + (1 - t) * u) := by
  simp only [lerp, V3.mk.injEq]
  refine ⟨by ring, by ring, by ring⟩

theorem lerp_lerp' (x y : V3 ℚ) (t u : ℚ) : lerp (lerp x y t) x u = lerp x y (t * (1 - u)) := by
  simp only [lerp, V3.mk.injEq]
  refine ⟨by ring, by ring, by ring⟩

theorem lerp_one (x y : V3 ℚ) : lerp x y 1 = y := by cases y; simp [lerp]
theorem lerp_zero (x y : V3 ℚ) : lerp x y 0 = x := by cases x; simp [lerp]

/-- The part of the shadow's hull on the right side is in the hull of the piece's shadow. -/
theorem hull_shadow {R S : List (V3 ℚ)} {q : V3 ℚ} (hne : R ≠ []) (hg : PieceShadow e g kept f d d' R) (hF : List.Forall₂ (NearV d) R S) (hU : Unimodal S)
    (hside : ∀ r ∈ R, ∀ s, NearV d r s → 0 ≤ f.eval s → kept r) (hsame : ∀ p a, ¬ CrossF e p a → (kept p ↔ kept a))
    (hq : InHull S q) (hfq : 0 ≤ f.eval q) {p : V3 ℚ} (hp : R.getLast? = some p) :
    ∃ K, List.Forall₂ (NearV d') (along g p R) K ∧ Unimodal K ∧ InHull K q := by
  have hx : ∃ x, S.getLast? = some x ∧ NearV d p x := by
    have key : ∀ (R S : List (V3 ℚ)), List.Forall₂ (NearV d) R S → R.getLast? = some p → ∃ x, S.getLast? = some x ∧ NearV d p x := by
      intro R S h
      induction h with
      | nil => intro h; simp at h
      | @cons a y R S h1 h2 ih =>
        intro hl
        cases h2 with
        | nil =>
          simp only [List.getLast?_singleton, Option.some.injEq] at hl
          subst hl
          exact ⟨y, by simp, h1⟩
        | cons h3 h4 =>
          rw [List.getLast?_cons_cons] at hl ⊢
          exact ih hl
    exact key R S hF hp
  obtain ⟨x, hx, hpx⟩ := hx
  obtain ⟨W, K, w1, w2, w3, w4, w5⟩ := along_shadow hg R S p x (last_mem hp) (fun v hv => hv) hpx hF
  refine ⟨K, w3, unimodal_of_ref hx hU w1 w2, ?_⟩
  have hlast : kept p → x ∈ K := by
    intro hk
    have := w4 hne
    rw [lastOr_of_getLast? hp, lastOr_of_getLast? hx] at this
    exact this hk
  have adj := w5 K (fun _ h => h) hlast
  refine hull_cut (e := f) hx hU ?_ ?_ hq hfq
  · intro v hv hfv
    obtain ⟨_, p', a', -, ha', -, na, -, hk, -⟩ := adj.of_mem hv
    exact hk (hside a' ha' v na hfv)
  · refine adj.mono ?_
    rintro u v ⟨p', a', hp', ha', np, na, hkp, hka, hcr⟩ hs
    rcases hs with ⟨s1, s2⟩ | ⟨s1, s2⟩
    · have hku := hside p' hp' u np s1.le
      obtain ⟨t, t0, t1, t2, t3⟩ : ∃ t, 0 ≤ t ∧ t ≤ 1 ∧ f.eval (lerp u v t) ≤ 0 ∧ lerp u v t ∈ K := by
        by_cases hc : CrossF e p' a'
        · exact hcr hc
        · exact ⟨1, by norm_num, le_refl _, by rw [lerp_one]; exact s2.le, by rw [lerp_one]; exact hka ((hsame p' a' hc).1 hku)⟩
      obtain ⟨w, u0, u1, u2⟩ := cut_between t2 s1
      refine ⟨_, inHull_lerp (inHull_of_mem t3) (inHull_of_mem (hkp hku)) u0 u1, u2, t * (1 - w), ?_, ?_, lerp_lerp' _ _ _ _⟩
      · exact mul_nonneg t0 (by linarith)
      · nlinarith
    · have hkv := hside a' ha' v na s2.le
      obtain ⟨t, t0, t1, t2, t3⟩ : ∃ t, 0 ≤ t ∧ t ≤ 1 ∧ f.eval (lerp u v t) ≤ 0 ∧ lerp u v t ∈ K := by
        by_cases hc : CrossF e p' a'
        · exact hcr hc
        · exact ⟨0, le_refl _, by norm_num, by rw [lerp_zero]; exact s1.le, by rw [lerp_zero]; exact hkp ((hsame p' a' hc).2 hkv)⟩
      obtain ⟨w, u0, u1, u2⟩ := cut_between t2 s2
      refine ⟨_, inHull_lerp (inHull_of_mem t3) (inHull_of_mem (hka hkv)) u0 u1, u2, t + (1 - t) * w, ?_, ?_, lerp_lerp _ _ _ _⟩
      · have := mul_nonneg (by linarith : 0 ≤ 1 - t) u0
        linarith
      · nlinarith
end

/-! ### At least three vertices -/

theorem walk_chg_parity (b : V3 ℚ → Bool) : ∀ (l : List (V3 ℚ)) (p : V3 ℚ), (walk (chg b) p l + chg b p (lastOr p l)) % 2 = 0
  | [], p => by simp [walk, lastOr, chg]
  | a :: t, p => by
    have ih := walk_chg_parity b t a
    simp only [walk, lastOr]
    have h : ∀ z, (chg b p a + chg b a z + chg b p z) % 2 = 0 := by
      intro z
      simp only [chg]
      cases b p <;> cases b a <;> cases b z <;> simp
    have := h (lastOr a t)
    omega

theorem walk_chg_zero (b : V3 ℚ → Bool) : ∀ (l : List (V3 ℚ)) (p : V3 ℚ), walk (chg b) p l = 0 → ∀ v ∈ l, b v = b p
  | a :: t, p, h, v, hv => by
    simp only [walk] at h
    have h1 : b a = b p := by
      by_contra hc
      have : chg b p a = 1 := by simp [chg, hc]
      omega
    rcases List.mem_cons.1 hv with rfl | hv
    · exact h1
    · rw [walk_chg_zero b t a (by omega) v hv, h1]

theorem along_more1 (e cut) : ∀ (l : List (V3 ℚ)) (p : V3 ℚ),
    walk (chg (nonneg e)) p l + l.countP (fun v => decide (e v > 0)) ≤ (along (pieceF1 e cut) p l).length
  | [], p => by simp [along, walk]
  | a :: t, p => by
    have ih := along_more1 e cut t a
    simp only [along, walk, List.length_append, List.countP_cons]
    have : chg (nonneg e) p a + (if decide (e a > 0) = true then 1 else 0) ≤ (pieceF1 e cut p a).length := by
      unfold pieceF1
      by_cases hc : CrossF e p a
      · rw [crossF_iff.1 hc, if_pos hc]
        by_cases h : e a > 0 <;> simp [h]
      · have h0 : chg (nonneg e) p a = 0 := by
          have := mt crossF_iff.2 hc
          unfold chg at *
          split <;> simp_all
        rw [if_neg hc, h0]
        by_cases h : e a > 0
        · simp [h, le_of_lt h]
        · simp [h]
    omega

theorem along_more2 (e cut) : ∀ (l : List (V3 ℚ)) (p : V3 ℚ),
    walk (chg (nonneg e)) p l + l.countP (fun v => decide (e v < 0)) ≤ (along (pieceF2 e cut) p l).length
  | [], p => by simp [along, walk]
  | a :: t, p => by
    have ih := along_more2 e cut t a
    simp only [along, walk, List.length_append, List.countP_cons]
    have : chg (nonneg e) p a + (if decide (e a < 0) = true then 1 else 0) ≤ (pieceF2 e cut p a).length := by
      unfold pieceF2
      by_cases hc : CrossF e p a
      · rw [crossF_iff.1 hc, if_pos hc]
        by_cases h : e a < 0 <;> simp [h]
      · have h0 : chg (nonneg e) p a = 0 := by
          have := mt crossF_iff.2 hc
          unfold chg at *
          split <;> simp_all
        rw [if_neg hc, h0]
        by_cases h : e a < 0
        · simp [h, not_le.2 h]
        · simp [h]
    omega

theorem keepF1_three {e cut} {R : List (V3 ℚ)} (h3 : 3 ≤ R.length) {v : V3 ℚ} (hv : v ∈ R) (h : 0 < e v) : 3 ≤ (keepF1 e cut R).length := by
  unfold keepF1
  cases hp : R.getLast? with
  | none => simp at hp; subst hp; simp at hv
  | some p =>
    dsimp only
    have h1 := along_more1 e cut R p
    have h2 : 1 ≤ R.countP (fun v => decide (e v > 0)) := List.countP_pos_iff.2 ⟨v, hv, by simpa using h⟩
    have h4 := walk_chg_parity (nonneg e) R p
    rw [lastOr_of_getLast? hp, chg_self] at h4
    by_cases h0 : walk (chg (nonneg e)) p R = 0
    · have hall := walk_chg_zero (nonneg e) R p h0
      have hpos : ∀ u ∈ R, e u ≥ 0 := by
        intro u hu
        have k1 := hall u hu
        have k2 := hall v hv
        have k3 : nonneg e u = true := by
          rw [k1, ← k2]
          simp [nonneg, h.le]
        simpa [nonneg] using k3
      have same : ∀ (l : List (V3 ℚ)) (q : V3 ℚ), e q ≥ 0 → (∀ u ∈ l, e u ≥ 0) → along (pieceF1 e cut) q l = l := by
        intro l
        induction l with
        | nil => intros; rfl
        | cons a t ih =>
          intro q hq hl
          have ha := hl a (by simp)
          have hc : ¬ CrossF e q a := by unfold CrossF; simp [ha, hq]
          rw [along, ih a ha fun u hu => hl u (by simp [hu])]
          simp [pieceF1, hc, ha]
      rw [same R p (hpos p (last_mem hp)) hpos]
      exact h3
    · omega

theorem keepF2_three {e cut} {R : List (V3 ℚ)} (h3 : 3 ≤ R.length) {v : V3 ℚ} (hv : v ∈ R) (h : e v < 0) : 3 ≤ (keepF2 e cut R).length := by
  unfold keepF2
  cases hp : R.getLast? with
  | none => simp at hp; subst hp; simp at hv
  | some p =>
    dsimp only
    have h1 := along_more2 e cut R p
    have h2 : 1 ≤ R.countP (fun v => decide (e v < 0)) := List.countP_pos_iff.2 ⟨v, hv, by simpa using h⟩
    have h4 := walk_chg_parity (nonneg e) R p
    rw [lastOr_of_getLast? hp, chg_self] at h4
    by_cases h0 : walk (chg (nonneg e)) p R = 0
    · have hall := walk_chg_zero (nonneg e) R p h0
      have hpos : ∀ u ∈ R, e u < 0 := by
        intro u hu
        have k1 := hall u hu
        have k2 := hall v hv
        have k3 : nonneg e u = false := by
          rw [k1, ← k2]
          simp [nonneg, h]
        simpa [nonneg] using k3
      have same : ∀ (l : List (V3 ℚ)) (q : V3 ℚ), e q < 0 → (∀ u ∈ l, e u < 0) → along (pieceF2 e cut) q l = l := by
        intro l
        induction l with
        | nil => intros; rfl
        | cons a t ih =>
          intro q hq hl
          have ha := hl a (by simp)
          have hc : ¬ CrossF e q a := by unfold CrossF; simp [not_le.2 ha, not_le.2 hq]
          rw [along, ih a ha fun u hu => hl u (by simp [hu])]
          simp [pieceF2, hc, not_le.2 ha]
      rw [same R p (hpos p (last_mem hp)) hpos]
      exact h3
    · omega

/-- Some vertex is at least as far along as a point of the hull. -/
theorem InHull.exists_ge {L : List (V3 ℚ)} {q : V3 ℚ} (h : InHull L q) (hne : L ≠ []) (f : Aff) : ∃ v ∈ L, f.eval q ≤ f.eval v := by
  have hm : ∀ (L : List (V3 ℚ)), L ≠ [] → ∃ m ∈ L, ∀ v ∈ L, f.eval v ≤ f.eval m := by
    intro L
    induction L with
    | nil => intro h; exact absurd rfl h
    | cons a t ih =>
      intro _
      by_cases ht : t = []
      · subst ht
        exact ⟨a, by simp, by simp⟩
      · obtain ⟨m, m1, m2⟩ := ih ht
        rcases le_total (f.eval a) (f.eval m) with hl | hl
        · refine ⟨m, by simp [m1], fun v hv => ?_⟩
          rcases List.mem_cons.1 hv with rfl | hv
          · exact hl
          · exact m2 v hv
        · refine ⟨a, by simp, fun v hv => ?_⟩
          rcases List.mem_cons.1 hv with rfl | hv
          · exact le_refl _
          · exact (m2 v hv).trans hl
  obtain ⟨m, m1, m2⟩ := hm L hne
  refine ⟨m, m1, ?_⟩
  have ev : ∀ v, (⟨-f.a, -f.b, -f.c, f.eval m - f.d⟩ : Aff).eval v = f.eval m - f.eval v := by
    intro v
    simp only [Aff.eval]
    ring
  have := h ⟨-f.a, -f.b, -f.c, f.eval m - f.d⟩ fun v hv => by
    rw [ev]
    have := m2 v hv
    linarith
  rw [ev] at this
  linarith

/-! ### Shadows -/

/-- The rounded polygon `R` has at least three vertices, and `q` is in the hull of a convex polygon with vertices within `d` of those of `R`. -/
def Shadow (d : ℚ) (q : V3 ℚ) (R : List (V3 ℚ)) : Prop := 3 ≤ R.length ∧ ∃ S, List.Forall₂ (NearV d) R S ∧ Unimodal S ∧ InHull S q

theorem forall₂_mem_right_shadow {d : ℚ} {R S : List (V3 ℚ)} (h : List.Forall₂ (NearV d) R S) {s : V3 ℚ} (hs : s ∈ S) : ∃ r ∈ R, NearV d r s := by
  induction h with
  | nil => simp at hs
  | @cons a b R S h1 h2 ih =>
    rcases List.mem_cons.1 hs with rfl | hs
    · exact ⟨a, by simp, h1⟩
    · obtain ⟨r, r1, r2⟩ := ih hs
      exact ⟨r, by simp [r1], r2⟩

/-- Some vertex is nearly as far along as `q`. -/
theorem Shadow.exists_ge {d : ℚ} {q : V3 ℚ} {R : List (V3 ℚ)} (h : Shadow d q R) (f : Aff) : ∃ r ∈ R, ∃ s, NearV d r s ∧ f.eval q ≤ f.eval s := by
  obtain ⟨h3, S, hF, -, hq⟩ := h
  obtain ⟨s, hs, hle⟩ := hq.exists_ge (by
    intro h0
    have := hF.length_eq
    rw [h0, List.length_nil] at this
    omega) f
  obtain ⟨r, hr, hn⟩ := forall₂_mem_right_shadow hF hs
  exact ⟨r, hr, s, hn, hle⟩

section
variable {e : V3 ℚ → ℚ} {cut : V3 ℚ → V3 ℚ → V3 ℚ} {f : Aff} {d d' : ℚ} {R : List (V3 ℚ)} {q : V3 ℚ}

/-- The cut points have shadows on the edges of the shadow; where the edge ends on the cut, it is the edge's end. -/
def CutShadow (e : V3 ℚ → ℚ) (cut : V3 ℚ → V3 ℚ → V3 ℚ) (f : Aff) (d d' : ℚ) (R : List (V3 ℚ)) : Prop :=
  ∀ p ∈ R, ∀ a ∈ R, CrossF e p a → ∃ t, 0 ≤ t ∧ t ≤ 1 ∧ (e a = 0 → t = 1) ∧
    ∀ x y, NearV d p x → NearV d a y → NearV d' (cut p a) (lerp x y t) ∧ f.eval (lerp x y t) ≤ 0

theorem shadow_keepF1 (hd : d ≤ d') (hc : CutShadow e cut f d d' R) (hside : ∀ r ∈ R, ∀ s, NearV d r s → 0 ≤ f.eval s → 0 < e r) (hfq : 0 ≤ f.eval q)
    (h : Shadow d q R) : Shadow d' q (keepF1 e cut R) := by
  obtain ⟨r, hr, s, hn, hle⟩ := h.exists_ge f
  have hpos := hside r hr s hn (hfq.trans hle)
  refine ⟨keepF1_three h.1 hr hpos, ?_⟩
  obtain ⟨h3, S, hF, hU, hq⟩ := h
  have hne : R ≠ [] := by
    intro h0
    subst h0
    simp at h3
  unfold keepF1
  cases hp : R.getLast? with
  | none => simp at hp; exact absurd hp hne
  | some p =>
    refine hull_shadow (e := e) (kept := fun v => 0 ≤ e v) (f := f) hne ?_ hF hU (fun r hr s hn hs => (hside r hr s hn hs).le) ?_ hq hfq hp
    · intro p hp a ha x y nx ny
      unfold pieceF1
      by_cases hcr : CrossF e p a
      · obtain ⟨t, t0, t1, te, ht⟩ := hc p hp a ha hcr
        obtain ⟨n1, n2⟩ := ht x y nx ny
        rw [if_pos hcr]
        by_cases hpa : e a > 0
        · rw [if_pos hpa]
          exact ⟨[lerp x y t, y], _, .inr ⟨t, t0, t1, rfl⟩, List.Sublist.refl _, .cons n1 (.cons (ny.mono hd) .nil), fun _ => by simp,
            fun _ => ⟨t, t0, t1, n2, by simp⟩⟩
        · rw [if_neg hpa]
          refine ⟨[lerp x y t, y], [lerp x y t], .inr ⟨t, t0, t1, rfl⟩, by simp, .cons n1 .nil, fun hk => ?_, fun _ => ⟨t, t0, t1, n2, by simp⟩⟩
          rw [te (le_antisymm (not_lt.1 hpa) hk), lerp_one]
          simp
      · rw [if_neg hcr]
        by_cases hpa : e a ≥ 0
        · rw [if_pos hpa]
          exact ⟨[y], [y], .inl rfl, List.Sublist.refl _, .cons (ny.mono hd) .nil, fun _ => by simp, fun h => absurd h hcr⟩
        · rw [if_neg hpa]
          exact ⟨[y], [], .inl rfl, by simp, .nil, fun h => absurd h hpa, fun h => absurd h hcr⟩
    · intro p a hcr
      unfold CrossF at hcr
      rw [ne_eq, not_not, decide_eq_decide] at hcr
      exact hcr.symm

theorem shadow_keepF2 (hd : d ≤ d') (hc : CutShadow e cut f d d' R) (hside : ∀ r ∈ R, ∀ s, NearV d r s → 0 ≤ f.eval s → e r < 0) (hfq : 0 ≤ f.eval q)
    (h : Shadow d q R) : Shadow d' q (keepF2 e cut R) := by
  obtain ⟨r, hr, s, hn, hle⟩ := h.exists_ge f
  have hpos := hside r hr s hn (hfq.trans hle)
  refine ⟨keepF2_three h.1 hr hpos, ?_⟩
  obtain ⟨h3, S, hF, hU, hq⟩ := h
  have hne : R ≠ [] := by
    intro h0
    subst h0
    simp at h3
  unfold keepF2
  cases hp : R.getLast? with
  | none => simp at hp; exact absurd hp hne
  | some p =>
    refine hull_shadow (e := e) (kept := fun v => e v < 0) (f := f) hne ?_ hF hU hside ?_ hq hfq hp
    · intro p hp a ha x y nx ny
      unfold pieceF2
      by_cases hcr : CrossF e p a
      · obtain ⟨t, t0, t1, te, ht⟩ := hc p hp a ha hcr
        obtain ⟨n1, n2⟩ := ht x y nx ny
        rw [if_pos hcr]
        by_cases hpa : e a < 0
        · rw [if_pos hpa]
          exact ⟨[lerp x y t, y], _, .inr ⟨t, t0, t1, rfl⟩, List.Sublist.refl _, .cons n1 (.cons (ny.mono hd) .nil), fun _ => by simp,
            fun _ => ⟨t, t0, t1, n2, by simp⟩⟩
        · rw [if_neg hpa]
          exact ⟨[lerp x y t, y], [lerp x y t], .inr ⟨t, t0, t1, rfl⟩, by simp, .cons n1 .nil, fun hk => absurd hk hpa, fun _ => ⟨t, t0, t1, n2, by simp⟩⟩
      · rw [if_neg hcr]
        by_cases hpa : e a ≥ 0
        · rw [if_pos hpa]
          by_cases h0 : e a = 0
          · rw [if_pos h0]
            exact ⟨[y], [y], .inl rfl, List.Sublist.refl _, .cons (ny.mono hd) .nil, fun _ => by simp, fun h => absurd h hcr⟩
          · rw [if_neg h0]
            exact ⟨[y], [], .inl rfl, by simp, .nil, fun h => absurd hpa (not_le.2 h), fun h => absurd h hcr⟩
        · rw [if_neg hpa]
          exact ⟨[y], [y], .inl rfl, List.Sublist.refl _, .cons (ny.mono hd) .nil, fun _ => by simp, fun h => absurd h hcr⟩
    · intro p a hcr
      unfold CrossF at hcr
      rw [ne_eq, not_not, decide_eq_decide] at hcr
      simp only [ge_iff_le, ← not_lt] at hcr
      exact (not_iff_not.1 hcr).symm
end

end Rerecast
