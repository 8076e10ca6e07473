import Verif.Model.Rasterize
import Verif.Lemmas.Res
import Mathlib.Tactic.Linarith
import Mathlib.Tactic.Ring
import Mathlib.Tactic.FieldSimp
import Mathlib.Tactic.NormNum
/-!
Convex clipping.  A polygon is a cyclic vertex list on which every affine function changes sign at most
twice.  Cutting it keeps that property, and keeps every point of its hull that lies on the kept side, where
the hull is described by affine functions: a point belongs to it if every affine function that is
non-negative on the vertices is non-negative at the point.
-/
set_option linter.unusedVariables false
namespace Rerecast

/-- An affine function of a point. -/
structure Aff where
  a : Rat
  b : Rat
  c : Rat
  d : Rat

/-- Its value. -/
def Aff.eval (f : Aff) (v : V3 Rat) : Rat := f.a * v.x + f.b * v.y + f.c * v.z + f.d

theorem Aff.eval_lerp (f : Aff) (b a : V3 Rat) (s : Rat) :
    f.eval (lerp b a s) = f.eval b + (f.eval a - f.eval b) * s := by
  simp only [Aff.eval, lerp]; ring

/-- The signed distance used when cutting at `offset`. -/
def sideAff (axis : DivisionAxis) (offset : Rat) : Aff :=
  match axis with
  | .X => ⟨-1, 0, 0, offset⟩
  | .Z => ⟨0, 0, -1, offset⟩

theorem sideAff_eval (axis : DivisionAxis) (offset : Rat) (v : V3 Rat) :
    (sideAff axis offset).eval v = offset - axis.coord v := by
  cases axis <;> simp only [sideAff, Aff.eval, DivisionAxis.coord] <;> ring

/-- The point where the edge from `p` to `a` meets the cut. -/
def cutPoint (e : Aff) (p a : V3 Rat) : V3 Rat := lerp p a (e.eval p / (e.eval p - e.eval a))

/-- The edge from `p` to `a` crosses the cut. -/
def Crosses (e : Aff) (p a : V3 Rat) : Prop := decide (e.eval a ≥ 0) ≠ decide (e.eval p ≥ 0)
instance (e : Aff) (p a : V3 Rat) : Decidable (Crosses e p a) := inferInstanceAs (Decidable (_ ≠ _))

/-- What the vertex `a` after `p` adds to the kept polygon. -/
def piece1 (e : Aff) (p a : V3 Rat) : List (V3 Rat) :=
  if Crosses e p a then cutPoint e p a :: (if e.eval a > 0 then [a] else [])
  else if e.eval a ≥ 0 then [a] else []

/-- What the vertex `a` after `p` adds to the rest. -/
def piece2 (e : Aff) (p a : V3 Rat) : List (V3 Rat) :=
  if Crosses e p a then cutPoint e p a :: (if e.eval a < 0 then [a] else [])
  else if e.eval a ≥ 0 then (if e.eval a = 0 then [a] else []) else [a]

/-- The vertex `a`, preceded by the crossing if there is one. -/
def pieceR (e : Aff) (p a : V3 Rat) : List (V3 Rat) :=
  if Crosses e p a then [cutPoint e p a, a] else [a]

/-- Concatenate a per-edge contribution along a list with predecessor `p`. -/
def along (g : V3 Rat → V3 Rat → List (V3 Rat)) : V3 Rat → List (V3 Rat) → List (V3 Rat)
  | _, [] => []
  | p, a :: t => g p a ++ along g a t

/-! ### The code computes the two pieces -/

theorem push1_spec {st : DivState} {v : V3 Rat} (h : st.n1 < st.out1.length) :
    ∃ st', st.push1 v = .ok st' ∧ st'.out1.take st'.n1 = st.out1.take st.n1 ++ [v] ∧
      st'.n1 = st.n1 + 1 ∧ st'.out1.length = st.out1.length ∧ st'.out2 = st.out2 ∧ st'.n2 = st.n2 ∧
      st'.prev = st.prev := by
  refine ⟨{ st with out1 := st.out1.set st.n1 v, n1 := st.n1 + 1 }, by
    simp only [DivState.push1, setIdx_ok h, bind_ok], ?_, rfl, by simp, rfl, rfl, rfl⟩
  simp only
  rw [List.take_succ, List.take_set_of_le (Nat.le_refl _), List.getElem?_set_self h]
  rfl

theorem push2_spec {st : DivState} {v : V3 Rat} (h : st.n2 < st.out2.length) :
    ∃ st', st.push2 v = .ok st' ∧ st'.out2.take st'.n2 = st.out2.take st.n2 ++ [v] ∧
      st'.n2 = st.n2 + 1 ∧ st'.out2.length = st.out2.length ∧ st'.out1 = st.out1 ∧ st'.n1 = st.n1 ∧
      st'.prev = st.prev := by
  refine ⟨{ st with out2 := st.out2.set st.n2 v, n2 := st.n2 + 1 }, by
    simp only [DivState.push2, setIdx_ok h, bind_ok], ?_, rfl, by simp, rfl, rfl, rfl⟩
  simp only
  rw [List.take_succ, List.take_set_of_le (Nat.le_refl _), List.getElem?_set_self h]
  rfl

/-- The state after adding `l1` to the first output and `l2` to the second. -/
structure Grown (st st' : DivState) (l1 l2 : List (V3 Rat)) : Prop where
  o1 : st'.out1.take st'.n1 = st.out1.take st.n1 ++ l1
  n1 : st'.n1 = st.n1 + l1.length
  len1 : st'.out1.length = st.out1.length
  o2 : st'.out2.take st'.n2 = st.out2.take st.n2 ++ l2
  n2 : st'.n2 = st.n2 + l2.length
  len2 : st'.out2.length = st.out2.length

theorem Grown.refl (st : DivState) : Grown st st [] [] :=
  ⟨by simp, rfl, rfl, by simp, rfl, rfl⟩

theorem Grown.trans {s t u : DivState} {a b c d : List (V3 Rat)} (h : Grown s t a b)
    (g : Grown t u c d) : Grown s u (a ++ c) (b ++ d) :=
  ⟨by rw [g.o1, h.o1, List.append_assoc], by rw [g.n1, h.n1, List.length_append]; omega,
   by rw [g.len1, h.len1], by rw [g.o2, h.o2, List.append_assoc],
   by rw [g.n2, h.n2, List.length_append]; omega, by rw [g.len2, h.len2]⟩

theorem push1_grown {st : DivState} {v : V3 Rat} (h : st.n1 < st.out1.length) :
    ∃ st', st.push1 v = .ok st' ∧ Grown st st' [v] [] ∧ st'.prev = st.prev := by
  obtain ⟨st', h1, h2, h3, h4, h5, h6, h7⟩ := push1_spec (v := v) h
  exact ⟨st', h1, ⟨h2, h3, h4, by rw [h5, h6]; simp, by rw [h6]; rfl, by rw [h5]⟩, h7⟩

theorem push2_grown {st : DivState} {v : V3 Rat} (h : st.n2 < st.out2.length) :
    ∃ st', st.push2 v = .ok st' ∧ Grown st st' [] [v] ∧ st'.prev = st.prev := by
  obtain ⟨st', h1, h2, h3, h4, h5, h6, h7⟩ := push2_spec (v := v) h
  exact ⟨st', h1, ⟨by rw [h5, h6]; simp, by rw [h6]; rfl, by rw [h5], h2, h3, h4⟩, h7⟩

theorem divideStep_spec (axis : DivisionAxis) (off : Rat) (st : DivState) (a : V3 Rat)
    (h1 : st.n1 + (piece1 (sideAff axis off) st.prev a).length ≤ st.out1.length)
    (h2 : st.n2 + (piece2 (sideAff axis off) st.prev a).length ≤ st.out2.length) :
    ∃ st', divideStep axis off st a = .ok st' ∧
      Grown st st' (piece1 (sideAff axis off) st.prev a) (piece2 (sideAff axis off) st.prev a) ∧
      st'.prev = a := by
  have close : ∀ (x : Res DivState) (l1 l2 : List (V3 Rat)),
      (∃ st', x = .ok st' ∧ Grown st st' l1 l2) →
      ∃ st', (x >>= fun st => (.ok { st with prev := a } : Res DivState)) = .ok st' ∧
        Grown st st' l1 l2 ∧ st'.prev = a := by
    rintro x l1 l2 ⟨st', rfl, g⟩
    exact ⟨_, rfl, ⟨g.o1, g.n1, g.len1, g.o2, g.n2, g.len2⟩, rfl⟩
  unfold divideStep
  apply close
  unfold divideAdd
  dsimp only
  rw [← sideAff_eval, ← sideAff_eval]
  simp only [piece1, piece2] at h1 h2 ⊢
  by_cases hc : Crosses (sideAff axis off) st.prev a
  · rw [if_pos (show decide ((sideAff axis off).eval a ≥ 0) ≠
      decide ((sideAff axis off).eval st.prev ≥ 0) from hc)]
    simp only [hc, if_true] at h1 h2 ⊢
    have hm : lerp st.prev a ((sideAff axis off).eval st.prev /
      ((sideAff axis off).eval st.prev - (sideAff axis off).eval a)) =
        cutPoint (sideAff axis off) st.prev a := rfl
    rw [hm]
    obtain ⟨s1, e1, g1, -⟩ := push1_grown (st := st) (v := cutPoint (sideAff axis off) st.prev a)
      (by simp only [List.length_cons] at h1; omega)
    obtain ⟨s2, e2, g2, -⟩ := push2_grown (st := s1) (v := cutPoint (sideAff axis off) st.prev a)
      (by rw [g1.n2, g1.len2]; simp only [List.length_cons, List.length_nil] at h2 ⊢; omega)
    have g12 := g1.trans g2
    rw [e1, bind_ok, e2, bind_ok]
    by_cases hp : (sideAff axis off).eval a > 0
    · have hn : ¬ (sideAff axis off).eval a < 0 := not_lt.2 (le_of_lt hp)
      simp only [hp, hn, if_true, if_false] at h1 h2 ⊢
      obtain ⟨s3, e3, g3, -⟩ := push1_grown (st := s2) (v := a)
        (by rw [g12.n1, g12.len1]; simp at h1 ⊢; omega)
      exact ⟨s3, e3, g12.trans g3⟩
    · simp only [hp, if_false] at h1 h2 ⊢
      by_cases hn : (sideAff axis off).eval a < 0
      · simp only [hn, if_true] at h2 ⊢
        obtain ⟨s3, e3, g3, -⟩ := push2_grown (st := s2) (v := a)
          (by rw [g12.n2, g12.len2]; simp at h2 ⊢; omega)
        exact ⟨s3, e3, g12.trans g3⟩
      · simp only [hn, if_false]
        exact ⟨s2, rfl, g12⟩
  · rw [if_neg (show ¬ (decide ((sideAff axis off).eval a ≥ 0) ≠
      decide ((sideAff axis off).eval st.prev ≥ 0)) from hc)]
    simp only [hc, if_false] at h1 h2 ⊢
    by_cases hp : (sideAff axis off).eval a ≥ 0
    · simp only [hp, if_true] at h1 h2 ⊢
      obtain ⟨s1, e1, g1, -⟩ := push1_grown (st := st) (v := a) (by simp at h1; omega)
      rw [e1, bind_ok]
      by_cases hz : (sideAff axis off).eval a = 0
      · simp only [hz, ne_eq, not_true_eq_false, if_false, if_true] at h2 ⊢
        obtain ⟨s2, e2, g2, -⟩ := push2_grown (st := s1) (v := a)
          (by rw [g1.n2, g1.len2]; simp at h2 ⊢; omega)
        exact ⟨s2, e2, g1.trans g2⟩
      · simp only [hz, ne_eq, not_false_eq_true, if_true, if_false]
        exact ⟨s1, rfl, g1⟩
    · simp only [hp, if_false] at h1 h2 ⊢
      obtain ⟨s1, e1, g1, -⟩ := push2_grown (st := st) (v := a) (by simp at h2; omega)
      exact ⟨s1, e1, g1⟩

theorem divideFold_spec (axis : DivisionAxis) (off : Rat) (l : List (V3 Rat)) (st : DivState)
    (h1 : st.n1 + (along (piece1 (sideAff axis off)) st.prev l).length ≤ st.out1.length)
    (h2 : st.n2 + (along (piece2 (sideAff axis off)) st.prev l).length ≤ st.out2.length) :
    ∃ st', l.foldlM (divideStep axis off) st = .ok st' ∧
      Grown st st' (along (piece1 (sideAff axis off)) st.prev l)
        (along (piece2 (sideAff axis off)) st.prev l) := by
  induction l generalizing st with
  | nil => exact ⟨st, rfl, Grown.refl st⟩
  | cons a t ih =>
    simp only [along, List.length_append] at h1 h2
    obtain ⟨s1, e1, g1, hp⟩ := divideStep_spec axis off st a (by omega) (by omega)
    obtain ⟨s2, e2, g2⟩ := ih s1 (by rw [g1.n1, g1.len1, hp]; omega) (by rw [g1.n2, g1.len2, hp]; omega)
    rw [hp] at g2
    exact ⟨s2, by rw [List.foldlM_cons, e1, bind_ok, e2], g1.trans g2⟩

/-- The polygon kept by a cut, cyclically. -/
def keep1 (e : Aff) (L : List (V3 Rat)) : List (V3 Rat) :=
  match L.getLast? with
  | none => []
  | some p => along (piece1 e) p L

/-- The rest after a cut, cyclically. -/
def keep2 (e : Aff) (L : List (V3 Rat)) : List (V3 Rat) :=
  match L.getLast? with
  | none => []
  | some p => along (piece2 e) p L

/-- `buf` holds the vertex list `L` in its first `n` places. -/
structure Buf (buf : List (V3 Rat)) (n : Nat) (L : List (V3 Rat)) : Prop where
  len : buf.length = 7
  count : n = L.length
  take : buf.take n = L

theorem Buf.le {buf n L} (h : Buf buf n L) : L.length ≤ 7 := by
  have := congrArg List.length h.take
  rw [List.length_take, h.len] at this
  omega

theorem dividePoly_spec {inV o1 o2 : List (V3 Rat)} {n n1 n2 : Nat} {L : List (V3 Rat)}
    (axis : DivisionAxis) (off : Rat) (hin : Buf inV n L) (hne : L ≠ [])
    (ho1 : o1.length = 7) (ho2 : o2.length = 7)
    (h1 : (keep1 (sideAff axis off) L).length ≤ 7) (h2 : (keep2 (sideAff axis off) L).length ≤ 7) :
    ∃ o1' n1' o2' n2', dividePoly inV n o1 n1 o2 n2 off axis = .ok (o1', n1', o2', n2') ∧
      Buf o1' n1' (keep1 (sideAff axis off) L) ∧ Buf o2' n2' (keep2 (sideAff axis off) L) := by
  have hle := hin.le
  have hpos : 0 < L.length := List.length_pos_iff.2 hne
  have hn : n = L.length := hin.count
  have hlast : inV[n - 1]? = L.getLast? := by
    rw [List.getLast?_eq_getElem?, ← hin.take, List.getElem?_take]
    simp only [List.length_take, hin.len]
    rw [if_pos (by omega)]
    congr 1; omega
  obtain ⟨p, hp⟩ : ∃ p, L.getLast? = some p := by
    cases hg : L.getLast? with
    | none => simp at hg; exact absurd hg hne
    | some p => exact ⟨p, rfl⟩
  unfold dividePoly
  rw [if_neg (by omega), if_neg (by omega), if_neg (by rw [hin.len]; omega)]
  dsimp only
  rw [idx_some (hlast.trans hp), bind_ok, hin.take]
  simp only [keep1, keep2, hp] at h1 h2 ⊢
  obtain ⟨st', e, g⟩ := divideFold_spec axis off L ⟨o1, 0, o2, 0, p⟩ (by simp only; omega)
    (by simp only; omega)
  refine ⟨_, _, _, _, by rw [e]; rfl, ⟨by rw [g.len1]; exact ho1, ?_, ?_⟩, ⟨by rw [g.len2]; exact ho2, ?_, ?_⟩⟩
  · rw [g.n1]; simp
  · rw [g.o1]; simp
  · rw [g.n2]; simp
  · rw [g.o2]; simp

theorem dividePoly_empty {inV o1 o2 : List (V3 Rat)} {n1 n2 : Nat} (axis : DivisionAxis) (off : Rat) :
    dividePoly inV 0 o1 n1 o2 n2 off axis = .ok (o1, n1, o2, n2) := by
  simp [dividePoly]

end Rerecast
