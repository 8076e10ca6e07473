import Verif.Lemmas.Res
import Verif.Model.Contour
import Mathlib.Data.List.Chain
/-! `remove_degenerate_segments`. -/
set_option linter.unusedVariables false
namespace Rerecast

/-- x and z of a vertex -/
def vkey (v : U16Vec3 × Nat) : Nat × Nat := v.1.xz

/-- The loop as a recursion over the vertices not yet looked at. -/
def degen (pre : RawContour) : RawContour → RawContour
  | [] => pre
  | [a] => match pre with
    | [] => []
    | p :: pre => if vkey a = vkey p then p :: pre else p :: pre ++ [a]
  | a :: b :: t => if vkey a = vkey b then degen (pre ++ [b]) t else degen (pre ++ [a]) (b :: t)
termination_by l => l.length

theorem removeDegenerateFrom_eq : ∀ (fuel : Nat) (pre rest : RawContour), rest.length ≤ fuel →
    removeDegenerateFrom fuel pre.length (pre ++ rest) = .ok (degen pre rest) := by
  intro fuel
  induction fuel with
  | zero =>
    intro pre rest h
    have : rest = [] := List.length_eq_zero_iff.1 (by omega)
    subst this
    simp [removeDegenerateFrom, degen]
  | succ fuel ih =>
    intro pre rest h
    match rest with
    | [] => simp [removeDegenerateFrom, degen]
    | [a] =>
      rw [removeDegenerateFrom, if_pos (by simp)]
      have e1 : idx (pre ++ [a]) pre.length = .ok a := idx_some (by simp)
      have e3 : (pre ++ [a]).eraseIdx pre.length = pre := by simp [List.eraseIdx_append_of_length_le]
      have hstop : ∀ i s, s.length ≤ i → removeDegenerateFrom fuel i s = .ok s := by
        intro i s hi; cases fuel <;> simp [removeDegenerateFrom] <;> omega
      cases pre with
      | nil =>
        simp only [List.nil_append, List.length_nil] at e1 ⊢
        simp [e1, degen, idx, hstop]
      | cons p pre =>
        have e2 : idx (p :: pre ++ [a]) (((p :: pre).length + 1) % (p :: pre ++ [a]).length) = .ok p := by
          simp [idx]
        simp only [e1, e2, bind_ok, degen]
        by_cases hc : vkey a = vkey p
        · rw [if_pos hc, if_pos (show a.1.xz = p.1.xz from hc), e3, hstop _ _ (by simp)]
        · rw [if_neg hc, if_neg (show ¬ a.1.xz = p.1.xz from hc), hstop _ _ (by simp)]
    | a :: b :: t =>
      rw [removeDegenerateFrom, if_pos (by simp)]
      have e1 : idx (pre ++ a :: b :: t) pre.length = .ok a := idx_some (by simp)
      have e2 : idx (pre ++ a :: b :: t) ((pre.length + 1) % (pre ++ a :: b :: t).length) = .ok b := by
        rw [Nat.mod_eq_of_lt (by simp)]; exact idx_some (by simp)
      have e3 : (pre ++ a :: b :: t).eraseIdx pre.length = (pre ++ [b]) ++ t := by
        simp [List.eraseIdx_append_of_length_le]
      simp only [e1, e2, bind_ok, degen]
      simp only [List.length_cons] at h
      by_cases hc : vkey a = vkey b
      · rw [if_pos hc, if_pos (show a.1.xz = b.1.xz from hc), e3]
        have := ih (pre ++ [b]) t (by omega)
        simpa using this
      · rw [if_neg hc, if_neg (show ¬ a.1.xz = b.1.xz from hc)]
        have := ih (pre ++ [a]) (b :: t) (by simp; omega)
        simpa using this

theorem removeDegenerate_eq (s : RawContour) : removeDegenerate s = .ok (degen [] s) := by
  have := removeDegenerateFrom_eq s.length [] s (Nat.le_refl _)
  simpa [removeDegenerate] using this

theorem degen_sublist : ∀ (n : Nat) (pre rest : RawContour), rest.length ≤ n → (degen pre rest).Sublist (pre ++ rest) := by
  intro n
  induction n with
  | zero =>
    intro pre rest h
    have : rest = [] := List.length_eq_zero_iff.1 (by omega)
    subst this; simp [degen]
  | succ n ih =>
    intro pre rest h
    match rest with
    | [] => simp [degen]
    | [a] =>
      cases pre with
      | nil => simp [degen]
      | cons p pre =>
        rw [degen]
        split
        · exact List.sublist_append_left _ _
        · exact List.Sublist.refl _
    | a :: b :: t =>
      simp only [List.length_cons] at h
      rw [degen]
      split
      · refine (ih (pre ++ [b]) t (by omega)).trans ?_
        rw [List.append_assoc]
        exact List.Sublist.append (List.Sublist.refl _) (List.sublist_cons_self _ _)
      · have := ih (pre ++ [a]) (b :: t) (by simp; omega)
        simpa using this

/-- No three consecutive equal keys. -/
def NoTripleL : List (Nat × Nat) → Prop
  | a :: b :: c :: l => ¬ (a = b ∧ b = c) ∧ NoTripleL (b :: c :: l)
  | _ => True

theorem degen_spec (hk : Nat × Nat) : ∀ (n : Nat) (pre rest : RawContour), rest.length ≤ n →
    List.IsChain (· ≠ ·) (pre.map vkey) →
    (∀ p ∈ pre.getLast?, ∀ r ∈ rest.head?, vkey p ≠ vkey r) →
    NoTripleL (rest.map vkey ++ [hk]) →
    (∀ p ∈ pre.head?, vkey p = hk) → (pre = [] → ∀ r ∈ rest.head?, vkey r = hk) →
    (rest = [] → ∀ p ∈ pre.getLast?, vkey p ≠ hk) → 2 ≤ (pre ++ rest).length →
    List.IsChain (· ≠ ·) ((degen pre rest).map vkey) ∧ (∀ p ∈ (degen pre rest).getLast?, vkey p ≠ hk) ∧
    (∀ p ∈ (degen pre rest).head?, vkey p = hk) ∧ ∀ v ∈ pre ++ rest, ∃ w ∈ degen pre rest, vkey w = vkey v := by
  intro n
  induction n with
  | zero =>
    intro pre rest h hc hj ht hh hh' hl hlen
    have : rest = [] := List.length_eq_zero_iff.1 (by omega)
    subst this
    simp only [degen]
    exact ⟨hc, hl rfl, hh, fun v hv => ⟨v, by simpa using hv, rfl⟩⟩
  | succ n ih =>
    intro pre rest h hc hj ht hh hh' hl hlen
    match rest with
    | [] =>
      simp only [degen]
      exact ⟨hc, hl rfl, hh, fun v hv => ⟨v, by simpa using hv, rfl⟩⟩
    | [a] =>
      cases pre with
      | nil => simp at hlen
      | cons p pre =>
        have hp : vkey p = hk := hh p (by simp)
        rw [degen]
        split
        · rename_i he
          refine ⟨hc, ?_, hh, ?_⟩
          · intro q hq
            have := hj q hq a (by simp)
            rw [he, hp] at this; exact this
          · intro v hv
            rcases List.mem_append.1 hv with hv | hv
            · exact ⟨v, hv, rfl⟩
            · simp at hv; subst hv; exact ⟨p, by simp, he.symm⟩
        · rename_i he
          refine ⟨?_, ?_, by simpa using hh, fun v hv => ⟨v, hv, rfl⟩⟩
          · rw [List.map_append, List.isChain_append]
            refine ⟨hc, by simp, ?_⟩
            intro x hx y hy
            rw [List.getLast?_map] at hx
            obtain ⟨q, hq, rfl⟩ := Option.map_eq_some_iff.1 hx
            simp at hy; subst hy
            exact hj q hq a (by simp)
          · intro q hq
            simp only [List.getLast?_concat, Option.mem_some_iff] at hq
            subst hq
            rw [← hp]; exact he
    | a :: b :: t =>
      simp only [List.length_cons] at h
      rw [degen]
      have hchain : ∀ x, vkey x = vkey a → List.IsChain (· ≠ ·) ((pre ++ [x]).map vkey) := by
        intro x hx
        rw [List.map_append, List.isChain_append]
        refine ⟨hc, by simp, ?_⟩
        intro q0 hq0 y hy
        rw [List.getLast?_map] at hq0
        obtain ⟨q, hq, rfl⟩ := Option.map_eq_some_iff.1 hq0
        simp at hy; subst hy
        rw [hx]
        exact hj q hq a (by simp)
      have hhead : ∀ x, vkey x = vkey a → ∀ p ∈ (pre ++ [x]).head?, vkey p = hk := by
        intro x hx p hp
        cases pre with
        | nil => simp at hp; subst hp; rw [hx]; exact hh' rfl a (by simp)
        | cons q pre => simp at hp; subst hp; exact hh q (by simp)
      split
      · rename_i he
        have ht' : NoTripleL (t.map vkey ++ [hk]) := by
          cases t with
          | nil => trivial
          | cons c t => cases t with
            | nil => trivial
            | cons d t => exact ht.2.2
        have hne : ∀ y ∈ (t.map vkey ++ [hk]).head?, vkey b ≠ y := by
          intro y hy e
          cases t with
          | nil => simp at hy; subst hy; exact ht.1 ⟨he, e⟩
          | cons c t => simp at hy; subst hy; exact ht.1 ⟨he, e⟩
        obtain ⟨r1, r2, r3, r4⟩ := ih (pre ++ [b]) t (by omega) (hchain b he.symm)
          (by
            intro p hp r hr
            simp only [List.getLast?_concat, Option.mem_some_iff] at hp
            subst hp
            refine hne _ ?_
            cases t with
            | nil => cases hr
            | cons c t => simp at hr ⊢; rw [hr]) ht' (hhead b he.symm) (by simp)
          (by
            rintro rfl p hp
            simp only [List.getLast?_concat, Option.mem_some_iff] at hp
            subst hp
            exact hne _ (by simp))
          (by
            cases pre with
            | nil =>
              cases t with
              | nil =>
                exfalso
                have h1 := hh' rfl a (by simp)
                exact hne hk (by simp) (by rw [← he]; exact h1)
              | cons c t => simp
            | cons q pre => simp; omega)
        refine ⟨r1, r2, r3, ?_⟩
        intro v hv
        by_cases hva : v = a
        · subst hva
          obtain ⟨w, hw, e⟩ := r4 b (by simp)
          exact ⟨w, hw, by rw [e, he]⟩
        · refine r4 v ?_
          simp at hv ⊢
          rcases hv with h1 | h1 | h1 | h1
          · exact Or.inl h1
          · exact absurd h1 hva
          · exact Or.inr (Or.inl h1)
          · exact Or.inr (Or.inr h1)
      · rename_i he
        have ht' : NoTripleL ((b :: t).map vkey ++ [hk]) := by
          cases t with
          | nil => trivial
          | cons c t => exact ht.2
        have := ih (pre ++ [a]) (b :: t) (by simp; omega) (hchain a rfl)
          (by
            intro p hp r hr
            simp only [List.getLast?_concat, Option.mem_some_iff] at hp
            simp at hr
            subst hp hr
            exact he) ht' (hhead a rfl) (by simp) (by simp) (by simp; omega)
        simpa using this

end Rerecast
