import Verif.Lemmas.Res
import Mathlib.Data.List.Forall2
/-! Outcome logic with a set of allowed faults. -/
set_option linter.unusedVariables false
namespace Rerecast

/-- `x` returns a value satisfying `P`, or fails in an allowed way. -/
def Outs (A : Fault → Prop) (x : Res α) (P : α → Prop) : Prop := (∃ a, x = .ok a ∧ P a) ∨ ∃ e, x = .error e ∧ A e

namespace Outs
variable {A : Fault → Prop}
theorem ok {a : α} {P : α → Prop} (h : P a) : Outs A (.ok a) P := Or.inl ⟨a, rfl, h⟩
theorem error {e : Fault} {P : α → Prop} (h : A e) : Outs A (.error e) P := Or.inr ⟨e, rfl, h⟩
theorem of_eq {x : Res α} {a : α} {P : α → Prop} (e : x = .ok a) (h : P a) : Outs A x P := Or.inl ⟨a, e, h⟩
theorem of_total {x : Res α} {P : α → Prop} (h : Total x P) : Outs A x P := Or.inl h
theorem bind {x : Res α} {f : α → Res β} {P : α → Prop} {Q : β → Prop}
    (hx : Outs A x P) (hf : ∀ a, P a → Outs A (f a) Q) : Outs A (x >>= f) Q := by
  rcases hx with ⟨a, rfl, ha⟩ | ⟨e, rfl, he⟩
  · exact hf a ha
  · exact Or.inr ⟨e, rfl, he⟩
theorem mono {x : Res α} {P Q : α → Prop} (hx : Outs A x P) (h : ∀ a, P a → Q a) : Outs A x Q := by
  rcases hx with ⟨a, rfl, ha⟩ | hb
  · exact Or.inl ⟨a, rfl, h a ha⟩
  · exact Or.inr hb
theorem weaken {A' : Fault → Prop} {x : Res α} {P : α → Prop} (hx : Outs A x P) (h : ∀ e, A e → A' e) : Outs A' x P := by
  rcases hx with hx | ⟨e, he, ha⟩
  · exact Or.inl hx
  · exact Or.inr ⟨e, he, h e ha⟩
theorem holds {x : Res α} {P : α → Prop} (hx : Outs A x P) : Holds x P := by
  rcases hx with ⟨a, rfl, ha⟩ | ⟨e, rfl, _⟩
  · exact Holds.ok ha
  · exact Holds.error
theorem total {x : Res α} {P : α → Prop} (hx : Outs A x P) (h : ∀ e, ¬ A e) : Total x P := by
  rcases hx with h1 | ⟨e, _, he⟩
  · exact h1
  · exact absurd he (h e)
theorem and_holds {x : Res α} {P Q : α → Prop} (hx : Outs A x P) (h : Holds x Q) : Outs A x fun a => P a ∧ Q a := by
  rcases hx with ⟨a, rfl, ha⟩ | hb
  · exact Or.inl ⟨a, rfl, ha, h a rfl⟩
  · exact Or.inr hb

theorem foldlM {f : σ → α → Res σ} (P : List α → σ → Prop) (l : List α) (init : σ) (h0 : P [] init)
    (step : ∀ pre a post s, l = pre ++ a :: post → P pre s → Outs A (f s a) (P (pre ++ [a]))) :
    Outs A (l.foldlM f init) (P l) := by
  have key : ∀ (post pre : List α) (s : σ), l = pre ++ post → P pre s → Outs A (post.foldlM f s) (P l) := by
    intro post
    induction post with
    | nil => intro pre s hl hP; simp at hl; subst hl; exact Outs.ok hP
    | cons a post ih =>
      intro pre s hl hP
      rw [List.foldlM_cons]
      refine Outs.bind (step pre a post s hl hP) ?_
      intro s' hs'
      exact ih (pre ++ [a]) s' (by simp [hl]) hs'
  exact key l [] init (by simp) h0

theorem foldlM_inv {f : σ → α → Res σ} (P : σ → Prop) (l : List α) (init : σ) (h0 : P init)
    (step : ∀ a ∈ l, ∀ s, P s → Outs A (f s a) P) : Outs A (l.foldlM f init) P :=
  Outs.foldlM (fun _ s => P s) l init h0 fun pre a post s hl hP => step a (by simp [hl]) s hP

theorem mapM {f : α → Res β} {R : α → β → Prop} (l : List α) (h : ∀ a ∈ l, Outs A (f a) (R a)) :
    Outs A (l.mapM f) (List.Forall₂ R l) := by
  induction l with
  | nil => exact Outs.ok List.Forall₂.nil
  | cons a l ih =>
    rw [List.mapM_cons]
    refine Outs.bind (h a (by simp)) fun b hb => ?_
    refine Outs.bind (ih fun a ha => h a (by simp [ha])) fun bs hbs => ?_
    exact Outs.ok (List.Forall₂.cons hb hbs)

theorem idx {l : List α} {i : Nat} (h : i < l.length) : Outs A (Rerecast.idx l i) fun a => l[i]? = some a :=
  Outs.of_eq (idx_ok h) (List.getElem?_eq_getElem h)
theorem setIdx {l : List α} {i : Nat} {a : α} (h : i < l.length) : Outs A (Rerecast.setIdx l i a) fun m => m = l.set i a :=
  Outs.of_eq (setIdx_ok h) rfl
end Outs
end Rerecast
