import Verif.Model.RasterizeRounded
import Verif.Lemmas.ClipGeom
/-!
Clipping with rounded cut points.  Only two things are known of a cut point: it lies before the next grid line, and (for cuts between rows) its
coordinates lie between those of the ends of the edge.  That is enough to bound the number of vertices.
-/
set_option linter.unusedVariables false
namespace Rerecast

section
variable (e : V3 Rat → Rat) (cut : V3 Rat → V3 Rat → V3 Rat)

/-- The edge from `p` to `a` crosses the cut. -/
def CrossF (p a : V3 Rat) : Prop := decide (e a ≥ 0) ≠ decide (e p ≥ 0)
instance (p a : V3 Rat) : Decidable (CrossF e p a) := inferInstanceAs (Decidable (_ ≠ _))

/-- What the vertex `a` after `p` adds to the kept polygon. -/
def pieceF1 (p a : V3 Rat) : List (V3 Rat) :=
  if CrossF e p a then cut p a :: (if e a > 0 then [a] else []) else if e a ≥ 0 then [a] else []

/-- What the vertex `a` after `p` adds to the rest. -/
def pieceF2 (p a : V3 Rat) : List (V3 Rat) :=
  if CrossF e p a then cut p a :: (if e a < 0 then [a] else []) else if e a ≥ 0 then (if e a = 0 then [a] else []) else [a]

/-- The vertex `a`, preceded by the crossing if there is one. -/
def pieceFR (p a : V3 Rat) : List (V3 Rat) := if CrossF e p a then [cut p a, a] else [a]

/-- The polygon kept by a cut, cyclically. -/
def keepF1 (L : List (V3 Rat)) : List (V3 Rat) :=
  match L.getLast? with
  | none => []
  | some p => along (pieceF1 e cut) p L

/-- The rest after a cut, cyclically. -/
def keepF2 (L : List (V3 Rat)) : List (V3 Rat) :=
  match L.getLast? with
  | none => []
  | some p => along (pieceF2 e cut) p L
end

/-! ### The code computes the two pieces -/

section
variable (rnd : Rat → Rat)

/-- The computed distance from the cut. -/
def sideR (axis : DivisionAxis) (off : Rat) (v : V3 Rat) : Rat := rnd (off - axis.coord v)

theorem divideStepR_spec (axis : DivisionAxis) (off : Rat) (st : DivState) (a : V3 Rat)
    (h1 : st.n1 + (pieceF1 (sideR rnd axis off) (cutR rnd axis off) st.prev a).length ≤ st.out1.length)
    (h2 : st.n2 + (pieceF2 (sideR rnd axis off) (cutR rnd axis off) st.prev a).length ≤ st.out2.length) :
    ∃ st', divideStepR rnd axis off st a = .ok st' ∧
      Grown st st' (pieceF1 (sideR rnd axis off) (cutR rnd axis off) st.prev a) (pieceF2 (sideR rnd axis off) (cutR rnd axis off) st.prev a) ∧
      st'.prev = a := by
  have close : ∀ (x : Res DivState) (l1 l2 : List (V3 Rat)),
      (∃ st', x = .ok st' ∧ Grown st st' l1 l2) →
      ∃ st', (x >>= fun st => (.ok { st with prev := a } : Res DivState)) = .ok st' ∧
        Grown st st' l1 l2 ∧ st'.prev = a := by
    rintro x l1 l2 ⟨st', rfl, g⟩
    exact ⟨_, rfl, ⟨g.o1, g.n1, g.len1, g.o2, g.n2, g.len2⟩, rfl⟩
  unfold divideStepR
  apply close
  unfold divideAddR
  dsimp only
  rw [show rnd (off - axis.coord a) = sideR rnd axis off a from rfl, show rnd (off - axis.coord st.prev) = sideR rnd axis off st.prev from rfl]
  simp only [pieceF1, pieceF2] at h1 h2 ⊢
  by_cases hc : CrossF (sideR rnd axis off) st.prev a
  · rw [if_pos (show decide (sideR rnd axis off a ≥ 0) ≠ decide (sideR rnd axis off st.prev ≥ 0) from hc)]
    simp only [hc, if_true] at h1 h2 ⊢
    obtain ⟨s1, e1, g1, -⟩ := push1_grown (st := st) (v := cutR rnd axis off st.prev a)
      (by simp only [List.length_cons] at h1; omega)
    obtain ⟨s2, e2, g2, -⟩ := push2_grown (st := s1) (v := cutR rnd axis off st.prev a)
      (by rw [g1.n2, g1.len2]; simp only [List.length_cons, List.length_nil] at h2 ⊢; omega)
    have g12 := g1.trans g2
    rw [e1, bind_ok, e2, bind_ok]
    by_cases hp : sideR rnd axis off a > 0
    · have hn : ¬ sideR rnd axis off a < 0 := not_lt.2 (le_of_lt hp)
      simp only [hp, hn, if_true, if_false] at h1 h2 ⊢
      obtain ⟨s3, e3, g3, -⟩ := push1_grown (st := s2) (v := a)
        (by rw [g12.n1, g12.len1]; simp at h1 ⊢; omega)
      exact ⟨s3, e3, g12.trans g3⟩
    · simp only [hp, if_false] at h1 h2 ⊢
      by_cases hn : sideR rnd axis off a < 0
      · simp only [hn, if_true] at h2 ⊢
        obtain ⟨s3, e3, g3, -⟩ := push2_grown (st := s2) (v := a)
          (by rw [g12.n2, g12.len2]; simp at h2 ⊢; omega)
        exact ⟨s3, e3, g12.trans g3⟩
      · simp only [hn, if_false]
        exact ⟨s2, rfl, g12⟩
  · rw [if_neg (show ¬ (decide (sideR rnd axis off a ≥ 0) ≠ decide (sideR rnd axis off st.prev ≥ 0)) from hc)]
    simp only [hc, if_false] at h1 h2 ⊢
    by_cases hp : sideR rnd axis off a ≥ 0
    · simp only [hp, if_true] at h1 h2 ⊢
      obtain ⟨s1, e1, g1, -⟩ := push1_grown (st := st) (v := a) (by simp at h1; omega)
      rw [e1, bind_ok]
      by_cases hz : sideR rnd axis off a = 0
      · simp only [hz, ne_eq, not_true_eq_false, if_false, if_true] at h2 ⊢
        obtain ⟨s2, e2, g2, -⟩ := push2_grown (st := s1) (v := a)
          (by rw [g1.n2, g1.len2]; simp at h2 ⊢; omega)
        exact ⟨s2, e2, g1.trans g2⟩
      · simp only [hz, ne_eq, not_false_eq_true, if_true, if_false]
        exact ⟨s1, rfl, g1⟩
    · simp only [hp, if_false] at h1 h2 ⊢
      obtain ⟨s1, e1, g1, -⟩ := push2_grown (st := st) (v := a) (by simp at h2; omega)
      exact ⟨s1, e1, g1⟩

theorem divideFoldR_spec (axis : DivisionAxis) (off : Rat) (l : List (V3 Rat)) (st : DivState)
    (h1 : st.n1 + (along (pieceF1 (sideR rnd axis off) (cutR rnd axis off)) st.prev l).length ≤ st.out1.length)
    (h2 : st.n2 + (along (pieceF2 (sideR rnd axis off) (cutR rnd axis off)) st.prev l).length ≤ st.out2.length) :
    ∃ st', l.foldlM (divideStepR rnd axis off) st = .ok st' ∧
      Grown st st' (along (pieceF1 (sideR rnd axis off) (cutR rnd axis off)) st.prev l)
        (along (pieceF2 (sideR rnd axis off) (cutR rnd axis off)) st.prev l) := by
  induction l generalizing st with
  | nil => exact ⟨st, rfl, Grown.refl st⟩
  | cons a t ih =>
    simp only [along, List.length_append] at h1 h2
    obtain ⟨s1, e1, g1, hp⟩ := divideStepR_spec rnd axis off st a (by omega) (by omega)
    obtain ⟨s2, e2, g2⟩ := ih s1 (by rw [g1.n1, g1.len1, hp]; omega) (by rw [g1.n2, g1.len2, hp]; omega)
    rw [hp] at g2
    exact ⟨s2, by rw [List.foldlM_cons, e1, bind_ok, e2], g1.trans g2⟩

theorem dividePolyR_spec {inV o1 o2 : List (V3 Rat)} {n n1 n2 : Nat} {L : List (V3 Rat)}
    (axis : DivisionAxis) (off : Rat) (hin : Buf inV n L) (hne : L ≠ [])
    (ho1 : o1.length = 7) (ho2 : o2.length = 7)
    (h1 : (keepF1 (sideR rnd axis off) (cutR rnd axis off) L).length ≤ 7) (h2 : (keepF2 (sideR rnd axis off) (cutR rnd axis off) L).length ≤ 7) :
    ∃ o1' n1' o2' n2', dividePolyR rnd inV n o1 n1 o2 n2 off axis = .ok (o1', n1', o2', n2') ∧
      Buf o1' n1' (keepF1 (sideR rnd axis off) (cutR rnd axis off) L) ∧ Buf o2' n2' (keepF2 (sideR rnd axis off) (cutR rnd axis off) L) := by
  have hle := hin.le
  have hpos : 0 < L.length := List.length_pos_iff.2 hne
  have hn : n = L.length := hin.count
  have hlast : inV[n - 1]? = L.getLast? := by
    rw [List.getLast?_eq_getElem?, ← hin.take, List.getElem?_take]
    simp only [List.length_take, hin.len]
    rw [if_pos (by omega)]
    congr 1; omega
  obtain ⟨p, hp⟩ : ∃ p, L.getLast? = some p := by
    cases hg : L.getLast? with
    | none => simp at hg; exact absurd hg hne
    | some p => exact ⟨p, rfl⟩
  unfold dividePolyR
  rw [if_neg (by omega), if_neg (by omega), if_neg (by rw [hin.len]; omega)]
  dsimp only
  rw [idx_some (hlast.trans hp), bind_ok, hin.take]
  simp only [keepF1, keepF2, hp] at h1 h2 ⊢
  obtain ⟨st', e, g⟩ := divideFoldR_spec rnd axis off L ⟨o1, 0, o2, 0, p⟩ (by simp only; omega)
    (by simp only; omega)
  refine ⟨_, _, _, _, by rw [e]; rfl, ⟨by rw [g.len1]; exact ho1, ?_, ?_⟩, ⟨by rw [g.len2]; exact ho2, ?_, ?_⟩⟩
  · rw [g.n1]; simp
  · rw [g.o1]; simp
  · rw [g.n2]; simp
  · rw [g.o2]; simp

theorem dividePolyR_empty {inV o1 o2 : List (V3 Rat)} {n1 n2 : Nat} (axis : DivisionAxis) (off : Rat) :
    dividePolyR rnd inV 0 o1 n1 o2 n2 off axis = .ok (o1, n1, o2, n2) := by
  simp [dividePolyR]
end

/-! ### Changes of a predicate around the polygon -/

/-- Whether a predicate changes between two points. -/
def chg (b : V3 Rat → Bool) (p a : V3 Rat) : Nat := if b a = b p then 0 else 1

theorem chg_self (b) (p : V3 Rat) : chg b p p = 0 := by simp [chg]
theorem chg_tri (b) (x y z : V3 Rat) : chg b x z ≤ chg b x y + chg b y z := by
  simp only [chg]
  cases b x <;> cases b y <;> cases b z <;> simp

theorem walk_chg_sublist (b : V3 Rat → Bool) {l' l : List (V3 Rat)} (h : l'.Sublist l) : ∀ p,
    walk (chg b) p l' + chg b (lastOr p l') (lastOr p l) ≤ walk (chg b) p l := by
  induction h with
  | slnil => intro p; simp [walk, lastOr, chg_self]
  | @cons l' l a h ih =>
    intro p
    have h1 := ih a
    cases l' with
    | nil =>
      simp only [walk, lastOr] at h1 ⊢
      have := chg_tri b p a (lastOr a l)
      omega
    | cons c t =>
      simp only [walk, lastOr] at h1 ⊢
      have := chg_tri b p a c
      omega
  | @cons_cons l' l a h ih =>
    intro p
    have h1 := ih a
    simp only [walk, lastOr]
    omega

/-- The predicate changes at most twice around the polygon. -/
def Twice (b : V3 Rat → Bool) (L : List (V3 Rat)) : Prop := ∀ p, L.getLast? = some p → walk (chg b) p L ≤ 2

theorem twice_nil (b) : Twice b [] := by intro p hp; simp at hp

/-- Cuts that do not add changes. -/
def Tame (b : V3 Rat → Bool) (e : V3 Rat → Rat) (cut : V3 Rat → V3 Rat → V3 Rat) (p a : V3 Rat) : Prop :=
  CrossF e p a → b (cut p a) = b p ∨ b (cut p a) = b a

theorem walk_refineF {b : V3 Rat → Bool} {e : V3 Rat → Rat} {cut : V3 Rat → V3 Rat → V3 Rat} : ∀ (l : List (V3 Rat)) (p : V3 Rat),
    AllAdj (Tame b e cut) p l →
    walk (chg b) p (along (pieceFR e cut) p l) = walk (chg b) p l ∧ lastOr p (along (pieceFR e cut) p l) = lastOr p l
  | [], p, _ => ⟨rfl, rfl⟩
  | a :: t, p, ⟨hT, hA⟩ => by
    obtain ⟨h1, h2⟩ := walk_refineF t a hA
    simp only [along, pieceFR, lastOr, walk]
    split
    · rename_i hc
      simp only [List.cons_append, List.nil_append, walk, lastOr]
      rw [h1, h2]
      refine ⟨?_, rfl⟩
      have : chg b p (cut p a) + chg b (cut p a) a = chg b p a := by
        rcases hT hc with h | h <;> simp only [chg, h] <;> simp
      omega
    · simp only [List.cons_append, List.nil_append, walk, lastOr]
      rw [h1, h2]
      exact ⟨rfl, rfl⟩

theorem pieceF1_sublist (e cut) (p a : V3 Rat) : (pieceF1 e cut p a).Sublist (pieceFR e cut p a) := by
  unfold pieceF1 pieceFR
  repeat' split
  all_goals simp

theorem pieceF2_sublist (e cut) (p a : V3 Rat) : (pieceF2 e cut p a).Sublist (pieceFR e cut p a) := by
  unfold pieceF2 pieceFR
  repeat' split
  all_goals simp

theorem twice_of_sublist {b e cut} {L K : List (V3 Rat)} {p : V3 Rat} (hp : L.getLast? = some p) (hA : AllAdj (Tame b e cut) p L)
    (hU : Twice b L) (hs : K.Sublist (along (pieceFR e cut) p L)) : Twice b K := by
  intro q hq
  have h1 := walk_chg_sublist b hs p
  obtain ⟨h2, h3⟩ := walk_refineF L p hA
  rw [h2, h3, lastOr_of_getLast? hp, lastOr_of_getLast? hq] at h1
  have h4 := hU p hp
  have h5 : walk (chg b) q K ≤ chg b q p + walk (chg b) p K := by
    cases K with
    | nil => simp [walk]
    | cons c t =>
      simp only [walk]
      have := chg_tri b q p c
      omega
  omega

/-- A relation between consecutive vertices, cyclically. -/
def Cyc (R : V3 Rat → V3 Rat → Prop) (L : List (V3 Rat)) : Prop := ∀ p, L.getLast? = some p → AllAdj R p L

theorem allAdj_of_mem {R : V3 Rat → V3 Rat → Prop} {S : V3 Rat → Prop} (h : ∀ x y, S x → S y → R x y) :
    ∀ {l : List (V3 Rat)} {p : V3 Rat}, S p → (∀ v ∈ l, S v) → AllAdj R p l
  | [], _, _, _ => True.intro
  | a :: t, p, hp, hl => ⟨h p a hp (hl a (by simp)), allAdj_of_mem h (hl a (by simp)) fun v hv => hl v (by simp [hv])⟩

theorem cyc_of_mem {R : V3 Rat → V3 Rat → Prop} {L : List (V3 Rat)} (h : ∀ x ∈ L, ∀ y ∈ L, R x y) : Cyc R L :=
  fun p hp => allAdj_of_mem (S := (· ∈ L)) (fun x y hx hy => h x hx y hy) (last_mem hp) fun v hv => hv

theorem twice_keepF1 {b e cut L} (hT : Cyc (Tame b e cut) L) (h : Twice b L) : Twice b (keepF1 e cut L) := by
  unfold keepF1
  cases hp : L.getLast? with
  | none => exact twice_nil b
  | some p => exact twice_of_sublist hp (hT p hp) h (along_sublist (pieceF1_sublist e cut) L p)

theorem twice_keepF2 {b e cut L} (hT : Cyc (Tame b e cut) L) (h : Twice b L) : Twice b (keepF2 e cut L) := by
  unfold keepF2
  cases hp : L.getLast? with
  | none => exact twice_nil b
  | some p => exact twice_of_sublist hp (hT p hp) h (along_sublist (pieceF2_sublist e cut) L p)

/-! ### Members -/

theorem pieceF_mem {e cut} {p a v : V3 Rat} (h : v ∈ pieceF1 e cut p a ∨ v ∈ pieceF2 e cut p a) : v = a ∨ CrossF e p a ∧ v = cut p a := by
  have h : v ∈ pieceFR e cut p a := h.elim (fun h => (pieceF1_sublist e cut p a).mem h) (fun h => (pieceF2_sublist e cut p a).mem h)
  unfold pieceFR at h
  split at h
  · rename_i hc
    simp only [List.mem_cons, List.not_mem_nil, or_false] at h
    rcases h with h | h
    · exact .inr ⟨hc, h⟩
    · exact .inl h
  · simp only [List.mem_cons, List.not_mem_nil, or_false] at h
    exact .inl h

theorem keepF1_mem {e cut} {L : List (V3 Rat)} {v : V3 Rat} (h : v ∈ keepF1 e cut L) :
    v ∈ L ∨ ∃ p ∈ L, ∃ a ∈ L, CrossF e p a ∧ v = cut p a := by
  unfold keepF1 at h
  cases hp : L.getLast? with
  | none => rw [hp] at h; simp at h
  | some p =>
    rw [hp] at h
    obtain ⟨x, y, hx, hy, hv⟩ := mem_along h
    have hx' : x ∈ L := by rcases hx with rfl | hx; exact last_mem hp; exact hx
    rcases pieceF_mem (.inl hv) with rfl | ⟨hc, rfl⟩
    · exact Or.inl hy
    · exact Or.inr ⟨x, hx', y, hy, hc, rfl⟩

theorem keepF2_mem {e cut} {L : List (V3 Rat)} {v : V3 Rat} (h : v ∈ keepF2 e cut L) :
    v ∈ L ∨ ∃ p ∈ L, ∃ a ∈ L, CrossF e p a ∧ v = cut p a := by
  unfold keepF2 at h
  cases hp : L.getLast? with
  | none => rw [hp] at h; simp at h
  | some p =>
    rw [hp] at h
    obtain ⟨x, y, hx, hy, hv⟩ := mem_along h
    have hx' : x ∈ L := by rcases hx with rfl | hx; exact last_mem hp; exact hx
    rcases pieceF_mem (.inr hv) with rfl | ⟨hc, rfl⟩
    · exact Or.inl hy
    · exact Or.inr ⟨x, hx', y, hy, hc, rfl⟩

theorem keepF1_side {e cut} {L : List (V3 Rat)} {v : V3 Rat} (h : v ∈ keepF1 e cut L) :
    (v ∈ L ∧ e v ≥ 0) ∨ ∃ p ∈ L, ∃ a ∈ L, CrossF e p a ∧ v = cut p a := by
  unfold keepF1 at h
  cases hp : L.getLast? with
  | none => rw [hp] at h; simp at h
  | some p =>
    rw [hp] at h
    obtain ⟨x, y, hx, hy, hv⟩ := mem_along h
    have hx' : x ∈ L := by rcases hx with rfl | hx; exact last_mem hp; exact hx
    unfold pieceF1 at hv
    split at hv
    · rename_i hc
      rw [List.mem_cons] at hv
      rcases hv with rfl | hv
      · exact Or.inr ⟨x, hx', y, hy, hc, rfl⟩
      · split at hv
        · rename_i hs
          rw [List.mem_singleton] at hv
          subst hv
          exact Or.inl ⟨hy, le_of_lt hs⟩
        · simp at hv
    · split at hv
      · rename_i hs
        rw [List.mem_singleton] at hv
        subst hv
        exact Or.inl ⟨hy, hs⟩
      · simp at hv

theorem keepF2_side {e cut} {L : List (V3 Rat)} {v : V3 Rat} (h : v ∈ keepF2 e cut L) :
    (v ∈ L ∧ e v ≤ 0) ∨ ∃ p ∈ L, ∃ a ∈ L, CrossF e p a ∧ v = cut p a := by
  unfold keepF2 at h
  cases hp : L.getLast? with
  | none => rw [hp] at h; simp at h
  | some p =>
    rw [hp] at h
    obtain ⟨x, y, hx, hy, hv⟩ := mem_along h
    have hx' : x ∈ L := by rcases hx with rfl | hx; exact last_mem hp; exact hx
    unfold pieceF2 at hv
    split at hv
    · rename_i hc
      rw [List.mem_cons] at hv
      rcases hv with rfl | hv
      · exact Or.inr ⟨x, hx', y, hy, hc, rfl⟩
      · split at hv
        · rename_i hs
          rw [List.mem_singleton] at hv
          subst hv
          exact Or.inl ⟨hy, le_of_lt hs⟩
        · simp at hv
    · split at hv
      · split at hv
        · rename_i hs
          rw [List.mem_singleton] at hv
          subst hv
          exact Or.inl ⟨hy, le_of_eq hs⟩
        · simp at hv
      · rename_i hs
        rw [List.mem_singleton] at hv
        subst hv
        exact Or.inl ⟨hy, le_of_lt (not_le.1 hs)⟩

theorem mem_keepF2_of {e cut} {L : List (V3 Rat)} {v : V3 Rat} (hv : v ∈ L) (h : e v < 0) : v ∈ keepF2 e cut L := by
  unfold keepF2
  cases hp : L.getLast? with
  | none => simp at hp; subst hp; simp at hv
  | some p =>
    refine mem_along_of (fun q => ?_) hv
    unfold pieceF2
    split
    · simp [h]
    · simp [not_le.2 h]

/-! ### Numbers of vertices -/

/-- The nonnegative side. -/
def nonneg (e : V3 Rat → Rat) (v : V3 Rat) : Bool := decide (e v ≥ 0)

theorem crossF_iff {e : V3 Rat → Rat} {p a : V3 Rat} : CrossF e p a ↔ chg (nonneg e) p a = 1 := by
  unfold CrossF chg nonneg
  split <;> simp_all

theorem along_length1 (e cut) : ∀ (l : List (V3 Rat)) (p : V3 Rat),
    (along (pieceF1 e cut) p l).length + l.countP (fun v => decide (e v < 0)) ≤ l.length + walk (chg (nonneg e)) p l
  | [], p => by simp [along, walk]
  | a :: t, p => by
    have ih := along_length1 e cut t a
    simp only [along, walk, List.length_append, List.length_cons, List.countP_cons]
    have : (pieceF1 e cut p a).length + (if decide (e a < 0) = true then 1 else 0) ≤ 1 + chg (nonneg e) p a := by
      unfold pieceF1
      by_cases hc : CrossF e p a
      · rw [crossF_iff.1 hc, if_pos hc]
        by_cases h : e a > 0
        · simp [h, not_lt.2 (le_of_lt h)]
        · rw [if_neg h]
          by_cases h' : e a < 0 <;> simp [h']
      · rw [if_neg hc]
        by_cases h : e a ≥ 0
        · simp [h, not_lt.2 h]
        · rw [if_neg h]
          simp [not_le.1 h]
    omega

/-- Entering the nonnegative side on the cut. -/
def touch (e : V3 Rat → Rat) (p a : V3 Rat) : Nat := if CrossF e p a ∧ e a = 0 then 1 else 0

theorem along_length2 (e cut) : ∀ (l : List (V3 Rat)) (p : V3 Rat),
    (along (pieceF2 e cut) p l).length + l.countP (fun v => decide (e v > 0)) + walk (touch e) p l ≤ l.length + walk (chg (nonneg e)) p l
  | [], p => by simp [along, walk]
  | a :: t, p => by
    have ih := along_length2 e cut t a
    simp only [along, walk, List.length_append, List.length_cons, List.countP_cons]
    have : (pieceF2 e cut p a).length + (if decide (e a > 0) = true then 1 else 0) + touch e p a ≤ 1 + chg (nonneg e) p a := by
      unfold pieceF2 touch
      by_cases hc : CrossF e p a
      · rw [crossF_iff.1 hc, if_pos hc]
        rcases lt_trichotomy (e a) 0 with h | h | h
        · simp [h, hc, ne_of_lt h, not_lt.2 (le_of_lt h)]
        · simp [h, hc]
        · simp [h, hc, (ne_of_lt h).symm, not_lt.2 (le_of_lt h)]
      · rw [if_neg hc]
        rcases lt_trichotomy (e a) 0 with h | h | h
        · simp [h, hc, not_le.2 h, not_lt.2 (le_of_lt h)]
        · simp [h, hc]
        · simp [h, hc, le_of_lt h, (ne_of_lt h).symm]
    omega

/-- Every crossing leaves its cut point in the rest. -/
theorem along_cuts (e cut) {P : V3 Rat → Bool} : ∀ (l : List (V3 Rat)) (p : V3 Rat),
    AllAdj (fun x y => CrossF e x y → P (cut x y) = true) p l →
    walk (chg (nonneg e)) p l ≤ (along (pieceF2 e cut) p l).countP P
  | [], p, _ => by simp [along, walk]
  | a :: t, p, ⟨h1, h2⟩ => by
    have ih := along_cuts e cut t a h2
    simp only [along, walk, List.countP_append]
    have : chg (nonneg e) p a ≤ (pieceF2 e cut p a).countP P := by
      by_cases hc : CrossF e p a
      · rw [crossF_iff.1 hc]
        unfold pieceF2
        rw [if_pos hc, List.countP_cons, h1 hc]
        simp
      · have : chg (nonneg e) p a = 0 := by
          have := mt crossF_iff.2 hc
          unfold chg at this ⊢
          split <;> simp_all
        omega
    omega

/-- Steps into the nonnegative side. -/
def up (b : V3 Rat → Bool) (p a : V3 Rat) : Nat := if b a = true ∧ b p = false then 1 else 0
/-- Steps out of the nonnegative side. -/
def down (b : V3 Rat → Bool) (p a : V3 Rat) : Nat := if b a = false ∧ b p = true then 1 else 0

theorem walk_up_down (b : V3 Rat → Bool) : ∀ (l : List (V3 Rat)) (p : V3 Rat),
    walk (chg b) p l = walk (up b) p l + walk (down b) p l ∧
    walk (up b) p l + (b p).toNat = walk (down b) p l + (b (lastOr p l)).toNat
  | [], p => by simp [walk, lastOr]
  | a :: t, p => by
    obtain ⟨h1, h2⟩ := walk_up_down b t a
    simp only [walk, lastOr]
    have e1 : chg b p a = up b p a + down b p a := by
      unfold chg up down
      cases b a <;> cases b p <;> simp
    have e2 : up b p a + (b p).toNat = down b p a + (b a).toNat := by
      unfold up down
      cases b a <;> cases b p <;> simp
    omega

theorem walk_up_touch {e : V3 Rat → Rat} : ∀ (l : List (V3 Rat)) (p : V3 Rat), l.countP (fun v => decide (e v > 0)) = 0 →
    walk (up (nonneg e)) p l ≤ walk (touch e) p l
  | [], p, _ => by simp [walk]
  | a :: t, p, h => by
    rw [List.countP_cons] at h
    have ih := walk_up_touch (e := e) t a (by omega)
    simp only [walk]
    have : up (nonneg e) p a ≤ touch e p a := by
      unfold up touch
      split
      · rename_i hu
        rw [if_pos]
        · refine ⟨by unfold CrossF; simp only [nonneg] at hu; rw [hu.1, hu.2]; simp, ?_⟩
          have h1 : e a ≥ 0 := by simpa [nonneg] using hu.1
          have h2 : ¬ e a > 0 := by
            intro hgt
            simp [hgt] at h
          exact le_antisymm (not_lt.1 h2) h1
      · omega
    omega

/-- No change: all vertices are on the same side. -/
theorem walk_zero {b : V3 Rat → Bool} : ∀ (l : List (V3 Rat)) (p : V3 Rat), walk (chg b) p l = 0 → ∀ v ∈ l, b v = b p
  | [], p, _ => by simp
  | a :: t, p, h => by
    simp only [walk] at h
    have h1 : b a = b p := by
      have : chg b p a = 0 := by omega
      unfold chg at this
      split at this
      · assumption
      · omega
    have ih := walk_zero (b := b) t a (by omega)
    intro v hv
    rcases List.mem_cons.1 hv with rfl | hv
    · exact h1
    · rw [ih v hv, h1]

/-- The state of a sweep by increasing cuts over a polygon of at most `N` vertices, before the cut at `c`. -/
structure Sweep (g : V3 Rat → Rat) (c : Rat) (N : Nat) (R : List (V3 Rat)) : Prop where
  uni : ∀ t ≥ c, Twice (fun v => decide (g v ≤ t)) R
  cnt : R.length ≤ N ∨ (R.length ≤ N + 1 ∧ 2 ≤ R.countP (fun v => decide (g v < c)))

/-- One cut of a sweep: at most `N + 2` vertices are cut off, and the rest is ready for the next cut. -/
theorem Sweep.step {g : V3 Rat → Rat} {c c' : Rat} {N : Nat} {R : List (V3 Rat)} {e : V3 Rat → Rat} {cut : V3 Rat → V3 Rat → V3 Rat}
    (h : Sweep g c N R) (hc : c ≤ c') (e0 : ∀ v ∈ R, (e v ≥ 0 ↔ g v ≤ c) ∧ (e v > 0 ↔ g v < c))
    (hcut : ∀ x ∈ R, ∀ y ∈ R, CrossF e x y → g (cut x y) < c') :
    (keepF1 e cut R).length ≤ N + 2 ∧ Sweep g c' N (keepF2 e cut R) ∧ (keepF2 e cut R).length ≤ N + 1 := by
  cases hp : R.getLast? with
  | none =>
    simp only [keepF1, keepF2, hp]
    exact ⟨by simp, ⟨fun t _ => twice_nil _, .inl (by simp)⟩, by simp⟩
  | some p =>
    have hpR := last_mem hp
    have huni := h.uni c (le_refl _) p hp
    have hsame : walk (chg (nonneg e)) p R = walk (chg fun v => decide (g v ≤ c)) p R := by
      have key : ∀ (l : List (V3 Rat)) (q : V3 Rat), q ∈ R → (∀ v ∈ l, v ∈ R) →
          walk (chg (nonneg e)) q l = walk (chg fun v => decide (g v ≤ c)) q l := by
        intro l
        induction l with
        | nil => intro q _ _; rfl
        | cons a t ih =>
          intro q hq hl
          have hv : ∀ v ∈ R, nonneg e v = decide (g v ≤ c) := fun v hv => by
            unfold nonneg
            exact decide_eq_decide.2 (e0 v hv).1
          simp only [walk, chg]
          rw [hv a (hl a (by simp)), hv q hq, ← ih a (hl a (by simp)) fun v hv => hl v (by simp [hv])]
      exact key R p hpR fun v hv => hv
    have hw : walk (chg (nonneg e)) p R ≤ 2 := by rw [hsame]; exact huni
    have hpos : R.countP (fun v => decide (e v > 0)) = R.countP (fun v => decide (g v < c)) :=
      List.countP_congr fun v hv => by simpa using (e0 v hv).2
    have l1 := along_length1 e cut R p
    have l2 := along_length2 e cut R p
    have cuts : walk (chg (nonneg e)) p R ≤ (along (pieceF2 e cut) p R).countP (fun v => decide (g v < c')) :=
      along_cuts e cut R p (allAdj_of_mem (S := (· ∈ R)) (fun x y hx hy hcr => by simpa using hcut x hx y hy hcr) hpR fun v hv => hv)
    obtain ⟨u1, u2⟩ := walk_up_down (nonneg e) R p
    rw [lastOr_of_getLast? hp] at u2
    have hlen1 : (keepF1 e cut R).length = (along (pieceF1 e cut) p R).length := by simp only [keepF1, hp]
    have hk2 : keepF2 e cut R = along (pieceF2 e cut) p R := by simp only [keepF2, hp]
    have uni' : ∀ t ≥ c', Twice (fun v => decide (g v ≤ t)) (keepF2 e cut R) := by
      intro t ht
      refine twice_keepF2 (cyc_of_mem fun x hx y hy => ?_) (h.uni t (le_trans hc ht))
      intro hcr
      have h1 := hcut x hx y hy hcr
      have ht1 : decide (g (cut x y) ≤ t) = true := by simpa using le_of_lt (lt_of_lt_of_le h1 ht)
      have hxy : g x ≤ c ∨ g y ≤ c := by
        by_contra hcon
        push Not at hcon
        apply hcr
        rw [decide_eq_decide, (e0 x hx).1, (e0 y hy).1]
        constructor <;> intro hh <;> exact absurd hh (not_le.2 (by tauto))
      change decide (g (cut x y) ≤ t) = decide (g x ≤ t) ∨ decide (g (cut x y) ≤ t) = decide (g y ≤ t)
      rw [ht1]
      rcases hxy with hh | hh
      · left; symm; simpa using le_trans hh (le_trans hc ht)
      · right; symm; simpa using le_trans hh (le_trans hc ht)
    by_cases hz : walk (chg (nonneg e)) p R = 0
    · -- no crossing
      have hall := walk_zero R p hz
      have hcnt : R.length ≤ N + 1 := by rcases h.cnt with h | h <;> omega
      rw [hlen1, hk2]
      refine ⟨by omega, ⟨by rw [← hk2]; exact uni', ?_⟩, by omega⟩
      rcases h.cnt with hn | ⟨hn, hp2⟩
      · left; omega
      · left; rw [← hpos] at hp2; omega
    · -- a run on each side
      have hw2 : walk (chg (nonneg e)) p R = 2 := by omega
      have hup : walk (up (nonneg e)) p R = 1 := by omega
      have hneg : 1 ≤ R.countP (fun v => decide (e v < 0)) := by
        by_contra hcon
        have h0 : R.countP (fun v => decide (e v < 0)) = 0 := by omega
        rw [List.countP_eq_zero] at h0
        have hall : ∀ v ∈ R, nonneg e v = true := fun v hv => by
          have := h0 v hv
          simpa [nonneg] using this
        have : ∀ (l : List (V3 Rat)) (q : V3 Rat), nonneg e q = true → (∀ v ∈ l, nonneg e v = true) → walk (chg (nonneg e)) q l = 0 := by
          intro l
          induction l with
          | nil => intro q _ _; rfl
          | cons a t ih =>
            intro q hq hl
            simp only [walk, chg]
            rw [hl a (by simp), hq]
            have := ih a (hl a (by simp)) fun v hv => hl v (by simp [hv])
            rw [this]
            simp
        exact hz (this R p (hall p hpR) hall)
      rw [hlen1, hk2]
      have len2 : (along (pieceF2 e cut) p R).length ≤ N + 1 := by
        rcases h.cnt with hn | ⟨hn, hp2⟩
        · by_cases hp0 : R.countP (fun v => decide (e v > 0)) = 0
          · have := walk_up_touch R p hp0
            omega
          · omega
        · rw [← hpos] at hp2; omega
      refine ⟨by rcases h.cnt with hn | ⟨hn, -⟩ <;> omega, ⟨by rw [← hk2]; exact uni', .inr ⟨len2, by omega⟩⟩, len2⟩

/-- Any three points are ready for a sweep. -/
theorem twice_triple (b : V3 Rat → Bool) (x y z : V3 Rat) : Twice b [x, y, z] := by
  intro p hp
  simp only [List.getLast?_cons_cons, List.getLast?_singleton, Option.some.injEq] at hp
  subst hp
  simp only [walk, chg]
  cases b x <;> cases b y <;> cases b z <;> simp

end Rerecast
