import Verif.Lemmas.Clip
import Mathlib.Algebra.Order.Field.Basic
/-! Geometry of convex clipping: sign changes, hulls, vertex counts. -/
set_option linter.unusedVariables false
namespace Rerecast

/-- Sum of a step cost along a list with predecessor `p`. -/
def walk (d : V3 Rat → V3 Rat → Nat) : V3 Rat → List (V3 Rat) → Nat
  | _, [] => 0
  | p, a :: t => d p a + walk d a t

/-- Last element of a list with predecessor `p`. -/
def lastOr : V3 Rat → List (V3 Rat) → V3 Rat
  | p, [] => p
  | _, a :: t => lastOr a t

theorem lastOr_of_getLast? {l : List (V3 Rat)} {p q : V3 Rat} (h : l.getLast? = some p) :
    lastOr q l = p := by
  induction l generalizing q with
  | nil => simp at h
  | cons a t ih =>
    cases t with
    | nil => simp at h; simp [lastOr, h]
    | cons b t => rw [lastOr]; exact ih (by simpa using h)

/-- A relation holds between consecutive elements of a list with predecessor `p`. -/
def AllAdj (R : V3 Rat → V3 Rat → Prop) : V3 Rat → List (V3 Rat) → Prop
  | _, [] => True
  | p, a :: t => R p a ∧ AllAdj R a t

theorem AllAdj.mono {R S : V3 Rat → V3 Rat → Prop} (h : ∀ x y, R x y → S x y) :
    ∀ {p l}, AllAdj R p l → AllAdj S p l
  | _, [], _ => True.intro
  | _, _ :: _, ⟨h1, h2⟩ => ⟨h _ _ h1, h2.mono h⟩

theorem AllAdj.walk_le {d d' : V3 Rat → V3 Rat → Nat} :
    ∀ {p l}, AllAdj (fun x y => d' x y ≤ d x y) p l → walk d' p l ≤ walk d p l
  | _, [], _ => Nat.le_refl _
  | _, _ :: _, ⟨h1, h2⟩ => Nat.add_le_add h1 h2.walk_le

/-- Whether an affine function changes sign between two points. -/
def sgnDist (f : Aff) (p a : V3 Rat) : Nat :=
  if decide (f.eval a ≥ 0) = decide (f.eval p ≥ 0) then 0 else 1

theorem sgnDist_self (f : Aff) (p : V3 Rat) : sgnDist f p p = 0 := by simp [sgnDist]
theorem sgnDist_comm (f : Aff) (p a : V3 Rat) : sgnDist f p a = sgnDist f a p := by
  simp [sgnDist, eq_comm]
theorem sgnDist_tri (f : Aff) (x y z : V3 Rat) : sgnDist f x z ≤ sgnDist f x y + sgnDist f y z := by
  simp only [sgnDist]
  by_cases h1 : f.eval x ≥ 0 <;> by_cases h2 : f.eval y ≥ 0 <;> by_cases h3 : f.eval z ≥ 0 <;>
    simp [h1, h2, h3]

/-- Every affine function changes sign at most twice around the polygon. -/
def Unimodal (L : List (V3 Rat)) : Prop :=
  ∀ (f : Aff) (p : V3 Rat), L.getLast? = some p → walk (sgnDist f) p L ≤ 2

theorem unimodal_triple (a b c : V3 Rat) : Unimodal [a, b, c] := by
  intro f p hp
  simp only [List.getLast?_cons_cons, List.getLast?_singleton, Option.some.injEq] at hp
  subst hp
  simp only [walk, sgnDist]
  by_cases h1 : f.eval a ≥ 0 <;> by_cases h2 : f.eval b ≥ 0 <;> by_cases h3 : f.eval c ≥ 0 <;>
    simp [h1, h2, h3]

/-! ### Sublists and refinements -/

theorem walk_sublist (f : Aff) {l' l : List (V3 Rat)} (h : l'.Sublist l) : ∀ p,
    walk (sgnDist f) p l' + sgnDist f (lastOr p l') (lastOr p l) ≤ walk (sgnDist f) p l := by
  induction h with
  | slnil => intro p; simp [walk, lastOr, sgnDist_self]
  | @cons l' l a h ih =>
    intro p
    have h1 := ih a
    cases l' with
    | nil =>
      simp only [walk, lastOr] at h1 ⊢
      have := sgnDist_tri f p a (lastOr a l)
      omega
    | cons b t =>
      simp only [walk, lastOr] at h1 ⊢
      have := sgnDist_tri f p a b
      omega
  | @cons_cons l' l a h ih =>
    intro p
    have h1 := ih a
    simp only [walk, lastOr]
    omega

/-- The crossing parameter is in the unit interval, and the crossing lies on the cut. -/
theorem cross_param {e : Aff} {p a : V3 Rat} (h : Crosses e p a) :
    ∃ s : Rat, 0 ≤ s ∧ s ≤ 1 ∧ cutPoint e p a = lerp p a s ∧ e.eval (cutPoint e p a) = 0 := by
  have hne : e.eval p - e.eval a ≠ 0 := by
    intro hz
    apply h
    have : e.eval p = e.eval a := by linarith
    rw [this]
  refine ⟨e.eval p / (e.eval p - e.eval a), ?_, ?_, rfl, ?_⟩
  · by_cases hp : e.eval p ≥ 0
    · have ha : ¬ e.eval a ≥ 0 := by intro ha; apply h; simp [hp, ha]
      exact div_nonneg hp (by linarith)
    · have ha : e.eval a ≥ 0 := by
        by_contra ha; apply h; simp [hp, ha]
      exact div_nonneg_of_nonpos (by linarith) (by linarith)
  · by_cases hp : e.eval p ≥ 0
    · have ha : ¬ e.eval a ≥ 0 := by intro ha; apply h; simp [hp, ha]
      rw [div_le_one (by linarith)]
      linarith
    · have ha : e.eval a ≥ 0 := by
        by_contra ha; apply h; simp [hp, ha]
      rw [div_le_one_of_neg (by linarith)]
      linarith
  · rw [cutPoint, Aff.eval_lerp]
    field_simp
    ring

theorem sgnDist_lerp (f : Aff) (p a : V3 Rat) (s : Rat) (h0 : 0 ≤ s) (h1 : s ≤ 1) :
    sgnDist f p (lerp p a s) + sgnDist f (lerp p a s) a = sgnDist f p a := by
  have hv := Aff.eval_lerp f p a s
  have key : (f.eval p ≥ 0 → f.eval a ≥ 0 → f.eval (lerp p a s) ≥ 0) ∧
      (¬ f.eval p ≥ 0 → ¬ f.eval a ≥ 0 → ¬ f.eval (lerp p a s) ≥ 0) := by
    constructor
    · intro hp ha
      have : f.eval (lerp p a s) = f.eval p * (1 - s) + f.eval a * s := by rw [hv]; ring
      rw [this]
      exact add_nonneg (mul_nonneg hp (by linarith)) (mul_nonneg ha h0)
    · intro hp ha
      push Not at hp ha ⊢
      have : f.eval (lerp p a s) = f.eval p * (1 - s) + f.eval a * s := by rw [hv]; ring
      rw [this]
      rcases eq_or_lt_of_le h0 with hs | hs
      · subst hs; simpa using hp
      · have h2 : f.eval a * s < 0 := mul_neg_of_neg_of_pos ha hs
        have h3 : f.eval p * (1 - s) ≤ 0 := mul_nonpos_of_nonpos_of_nonneg (le_of_lt hp) (by linarith)
        linarith
  clear hv
  simp only [sgnDist]
  by_cases h1 : f.eval p ≥ 0 <;> by_cases h2 : f.eval a ≥ 0 <;>
    by_cases h3 : f.eval (lerp p a s) ≥ 0 <;> simp [h1, h2, h3] at key ⊢

theorem walk_refine (f e : Aff) : ∀ (l : List (V3 Rat)) (p : V3 Rat),
    walk (sgnDist f) p (along (pieceR e) p l) = walk (sgnDist f) p l ∧
    lastOr p (along (pieceR e) p l) = lastOr p l
  | [], p => ⟨rfl, rfl⟩
  | a :: t, p => by
    obtain ⟨h1, h2⟩ := walk_refine f e t a
    simp only [along, pieceR, lastOr, walk]
    split
    · rename_i hc
      obtain ⟨s, s0, s1, hs, -⟩ := cross_param hc
      simp only [List.cons_append, List.nil_append, walk, lastOr]
      rw [h1, h2, hs]
      have := sgnDist_lerp f p a s s0 s1
      constructor
      · omega
      · trivial
    · simp only [List.cons_append, List.nil_append, walk, lastOr]
      rw [h1, h2]
      exact ⟨rfl, rfl⟩

theorem along_sublist {g g' : V3 Rat → V3 Rat → List (V3 Rat)} (h : ∀ p a, (g p a).Sublist (g' p a)) :
    ∀ (l : List (V3 Rat)) (p : V3 Rat), (along g p l).Sublist (along g' p l)
  | [], _ => List.Sublist.refl _
  | a :: t, p => (h p a).append (along_sublist h t a)

theorem piece1_sublist (e : Aff) (p a : V3 Rat) : (piece1 e p a).Sublist (pieceR e p a) := by
  unfold piece1 pieceR
  repeat' split
  all_goals simp

theorem piece2_sublist (e : Aff) (p a : V3 Rat) : (piece2 e p a).Sublist (pieceR e p a) := by
  unfold piece2 pieceR
  repeat' split
  all_goals simp

theorem unimodal_of_sublist {e : Aff} {L K : List (V3 Rat)} {p : V3 Rat} (hp : L.getLast? = some p)
    (hU : Unimodal L) (hs : K.Sublist (along (pieceR e) p L)) : Unimodal K := by
  intro f q hq
  have h1 := walk_sublist f hs p
  obtain ⟨h2, h3⟩ := walk_refine f e L p
  rw [h2, h3, lastOr_of_getLast? hp, lastOr_of_getLast? hq] at h1
  have h4 := hU f p hp
  have h5 : walk (sgnDist f) q K ≤ sgnDist f q p + walk (sgnDist f) p K := by
    cases K with
    | nil => simp [walk]
    | cons b t =>
      simp only [walk]
      have := sgnDist_tri f q p b
      omega
  omega

theorem unimodal_nil : Unimodal [] := by intro f p hp; simp at hp

theorem unimodal_keep1 {e : Aff} {L : List (V3 Rat)} (h : Unimodal L) : Unimodal (keep1 e L) := by
  unfold keep1
  cases hp : L.getLast? with
  | none => exact unimodal_nil
  | some p => exact unimodal_of_sublist hp h (along_sublist (piece1_sublist e) L p)

theorem unimodal_keep2 {e : Aff} {L : List (V3 Rat)} (h : Unimodal L) : Unimodal (keep2 e L) := by
  unfold keep2
  cases hp : L.getLast? with
  | none => exact unimodal_nil
  | some p => exact unimodal_of_sublist hp h (along_sublist (piece2_sublist e) L p)

/-! ### Members -/

theorem mem_along {g : V3 Rat → V3 Rat → List (V3 Rat)} {v : V3 Rat} : ∀ {l : List (V3 Rat)} {p : V3 Rat},
    v ∈ along g p l → ∃ x y, (x = p ∨ x ∈ l) ∧ y ∈ l ∧ v ∈ g x y
  | [], p, h => by simp [along] at h
  | a :: t, p, h => by
    rw [along, List.mem_append] at h
    rcases h with h | h
    · exact ⟨p, a, Or.inl rfl, by simp, h⟩
    · obtain ⟨x, y, hx, hy, hv⟩ := mem_along h
      refine ⟨x, y, Or.inr ?_, by simp [hy], hv⟩
      rcases hx with rfl | hx <;> simp_all

theorem last_mem {L : List (V3 Rat)} {p : V3 Rat} (h : L.getLast? = some p) : p ∈ L :=
  List.mem_of_getLast? h

/-- A set of points closed under taking points between two of them. -/
def ConvexPred (C : V3 Rat → Prop) : Prop :=
  ∀ p a s, C p → C a → 0 ≤ s → s ≤ 1 → C (lerp p a s)

theorem piece1_mem {e : Aff} {p a v : V3 Rat} (h : v ∈ piece1 e p a) :
    e.eval v ≥ 0 ∧ (v = a ∨ Crosses e p a ∧ v = cutPoint e p a) := by
  unfold piece1 at h
  split at h
  · rename_i hc
    rw [List.mem_cons] at h
    rcases h with rfl | h
    · obtain ⟨s, _, _, _, h0⟩ := cross_param hc
      exact ⟨le_of_eq h0.symm, Or.inr ⟨hc, rfl⟩⟩
    · split at h
      · rename_i hp
        simp at h; subst h; exact ⟨le_of_lt hp, Or.inl rfl⟩
      · simp at h
  · split at h
    · rename_i hp
      simp at h; subst h; exact ⟨hp, Or.inl rfl⟩
    · simp at h

theorem piece2_mem {e : Aff} {p a v : V3 Rat} (h : v ∈ piece2 e p a) :
    e.eval v ≤ 0 ∧ (v = a ∨ Crosses e p a ∧ v = cutPoint e p a) := by
  unfold piece2 at h
  split at h
  · rename_i hc
    rw [List.mem_cons] at h
    rcases h with rfl | h
    · obtain ⟨s, _, _, _, h0⟩ := cross_param hc
      exact ⟨le_of_eq h0, Or.inr ⟨hc, rfl⟩⟩
    · split at h
      · rename_i hp
        simp at h; subst h; exact ⟨le_of_lt hp, Or.inl rfl⟩
      · simp at h
  · split at h
    · split at h
      · rename_i h0
        simp at h; subst h; exact ⟨le_of_eq h0, Or.inl rfl⟩
      · simp at h
    · rename_i hp
      simp at h; subst h; exact ⟨le_of_lt (not_le.1 hp), Or.inl rfl⟩

theorem keep1_mem {e : Aff} {L : List (V3 Rat)} {v : V3 Rat} (h : v ∈ keep1 e L) :
    e.eval v ≥ 0 ∧ (v ∈ L ∨ ∃ p ∈ L, ∃ a ∈ L, Crosses e p a ∧ v = cutPoint e p a) := by
  unfold keep1 at h
  cases hp : L.getLast? with
  | none => rw [hp] at h; simp at h
  | some p =>
    rw [hp] at h
    obtain ⟨x, y, hx, hy, hv⟩ := mem_along h
    have hx' : x ∈ L := by rcases hx with rfl | hx; exact last_mem hp; exact hx
    obtain ⟨h1, h2⟩ := piece1_mem hv
    refine ⟨h1, ?_⟩
    rcases h2 with rfl | ⟨hc, rfl⟩
    · exact Or.inl hy
    · exact Or.inr ⟨x, hx', y, hy, hc, rfl⟩

theorem keep2_mem {e : Aff} {L : List (V3 Rat)} {v : V3 Rat} (h : v ∈ keep2 e L) :
    e.eval v ≤ 0 ∧ (v ∈ L ∨ ∃ p ∈ L, ∃ a ∈ L, Crosses e p a ∧ v = cutPoint e p a) := by
  unfold keep2 at h
  cases hp : L.getLast? with
  | none => rw [hp] at h; simp at h
  | some p =>
    rw [hp] at h
    obtain ⟨x, y, hx, hy, hv⟩ := mem_along h
    have hx' : x ∈ L := by rcases hx with rfl | hx; exact last_mem hp; exact hx
    obtain ⟨h1, h2⟩ := piece2_mem hv
    refine ⟨h1, ?_⟩
    rcases h2 with rfl | ⟨hc, rfl⟩
    · exact Or.inl hy
    · exact Or.inr ⟨x, hx', y, hy, hc, rfl⟩

theorem keep1_convex {e : Aff} {L : List (V3 Rat)} {C : V3 Rat → Prop} (hC : ConvexPred C)
    (h : ∀ v ∈ L, C v) : ∀ v ∈ keep1 e L, C v := by
  intro v hv
  rcases (keep1_mem hv).2 with hv | ⟨p, hp, a, ha, hc, rfl⟩
  · exact h v hv
  · obtain ⟨s, s0, s1, hs, -⟩ := cross_param hc
    rw [hs]; exact hC p a s (h p hp) (h a ha) s0 s1

theorem keep2_convex {e : Aff} {L : List (V3 Rat)} {C : V3 Rat → Prop} (hC : ConvexPred C)
    (h : ∀ v ∈ L, C v) : ∀ v ∈ keep2 e L, C v := by
  intro v hv
  rcases (keep2_mem hv).2 with hv | ⟨p, hp, a, ha, hc, rfl⟩
  · exact h v hv
  · obtain ⟨s, s0, s1, hs, -⟩ := cross_param hc
    rw [hs]; exact hC p a s (h p hp) (h a ha) s0 s1

/-- The crossing at a vertex that lies on the cut is that vertex. -/
theorem cutPoint_of_zero {e : Aff} {p a : V3 Rat} (h : Crosses e p a) (h0 : e.eval a = 0) :
    cutPoint e p a = a := by
  have hne : e.eval p ≠ 0 := by
    intro hz; apply h; rw [h0, hz]
  unfold cutPoint
  rw [h0, sub_zero, div_self hne]
  unfold lerp
  cases a
  simp

theorem mem_piece1_of {e : Aff} {p a : V3 Rat} (h : e.eval a ≥ 0) : a ∈ piece1 e p a := by
  unfold piece1
  split
  · rename_i hc
    rcases eq_or_lt_of_le h with h0 | h0
    · rw [cutPoint_of_zero hc h0.symm]; simp
    · simp [h0]
  · simp [h]

theorem mem_piece2_of {e : Aff} {p a : V3 Rat} (h : e.eval a ≤ 0) : a ∈ piece2 e p a := by
  unfold piece2
  rcases eq_or_lt_of_le h with h0 | h0
  · split
    · rename_i hc
      rw [cutPoint_of_zero hc h0]; simp
    · simp [h0]
  · split
    · simp [h0]
    · simp [not_le.2 h0]

theorem mem_along_of {g : V3 Rat → V3 Rat → List (V3 Rat)} {v : V3 Rat} (hg : ∀ p, v ∈ g p v) :
    ∀ {l : List (V3 Rat)} {p : V3 Rat}, v ∈ l → v ∈ along g p l
  | a :: t, p, h => by
    rw [along, List.mem_append]
    rcases List.mem_cons.1 h with rfl | h
    · exact Or.inl (hg p)
    · exact Or.inr (mem_along_of hg h)

theorem mem_keep1_of {e : Aff} {L : List (V3 Rat)} {v : V3 Rat} (hv : v ∈ L) (h : e.eval v ≥ 0) :
    v ∈ keep1 e L := by
  unfold keep1
  cases hp : L.getLast? with
  | none => simp at hp; subst hp; simp at hv
  | some p => exact mem_along_of (fun q => mem_piece1_of h) hv

theorem mem_keep2_of {e : Aff} {L : List (V3 Rat)} {v : V3 Rat} (hv : v ∈ L) (h : e.eval v ≤ 0) :
    v ∈ keep2 e L := by
  unfold keep2
  cases hp : L.getLast? with
  | none => simp at hp; subst hp; simp at hv
  | some p => exact mem_along_of (fun q => mem_piece2_of h) hv

theorem crossings_adj {e : Aff} {g : V3 Rat → V3 Rat → List (V3 Rat)}
    (hg : ∀ p a, Crosses e p a → cutPoint e p a ∈ g p a) {S : List (V3 Rat)} :
    ∀ (l : List (V3 Rat)) (p : V3 Rat), (∀ v ∈ along g p l, v ∈ S) →
      AllAdj (fun x y => Crosses e x y → cutPoint e x y ∈ S) p l
  | [], _, _ => True.intro
  | a :: t, p, h => ⟨fun hc => h _ (by rw [along, List.mem_append]; exact Or.inl (hg p a hc)),
      crossings_adj hg t a fun v hv => h v (by rw [along, List.mem_append]; exact Or.inr hv)⟩

end Rerecast
