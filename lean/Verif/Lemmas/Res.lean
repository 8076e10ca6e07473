import Verif.Model.Basic
/-! Reasoning rules for `Res`: partial (`Holds`) and total (`Total`) correctness. -/
namespace Rerecast

/-- If `x` returns a value, the value satisfies `P`. -/
def Holds (x : Res α) (P : α → Prop) : Prop := ∀ a, x = .ok a → P a
/-- `x` returns a value and it satisfies `P`. -/
def Total (x : Res α) (P : α → Prop) : Prop := ∃ a, x = .ok a ∧ P a

@[simp] theorem bind_ok (a : α) (f : α → Res β) : ((Except.ok a : Res α) >>= f) = f a := rfl
@[simp] theorem bind_error (e : Fault) (f : α → Res β) :
    ((Except.error e : Res α) >>= f) = Except.error e := rfl
@[simp] theorem pure_eq_ok (a : α) : (pure a : Res α) = Except.ok a := rfl

theorem bind_inv {α β : Type} {x : Res α} {f : α → Res β} {c : β} (h : (x >>= f) = .ok c) :
    ∃ a, x = .ok a ∧ f a = .ok c := by
  cases x with
  | error e => cases h
  | ok a => exact ⟨a, rfl, h⟩

theorem Holds.ok {P : α → Prop} (h : P a) : Holds (.ok a) P := by
  intro b hb; cases hb; exact h
theorem Holds.pure {P : α → Prop} (h : P a) : Holds (pure a) P := Holds.ok h
theorem Holds.error {P : α → Prop} : Holds (.error e) P := by intro b hb; cases hb
theorem Holds.bind {x : Res α} {f : α → Res β} {P : α → Prop} {Q : β → Prop}
    (hx : Holds x P) (hf : ∀ a, P a → Holds (f a) Q) : Holds (x >>= f) Q := by
  cases x with
  | error e => exact Holds.error
  | ok a => exact hf a (hx a rfl)
theorem Holds.mono {x : Res α} {P Q : α → Prop} (hx : Holds x P) (h : ∀ a, P a → Q a) :
    Holds x Q := fun a ha => h a (hx a ha)
theorem Holds.bind_any {x : Res α} {f : α → Res β} {Q : β → Prop}
    (hf : ∀ a, x = .ok a → Holds (f a) Q) : Holds (x >>= f) Q := by
  cases x with
  | error e => exact Holds.error
  | ok a => exact hf a rfl
theorem Holds.trivial {x : Res α} : Holds x (fun _ => True) := fun _ _ => True.intro
theorem Holds.and {x : Res α} {P Q : α → Prop} (h1 : Holds x P) (h2 : Holds x Q) :
    Holds x (fun a => P a ∧ Q a) := fun a ha => ⟨h1 a ha, h2 a ha⟩

theorem Total.ok {P : α → Prop} (h : P a) : Total (.ok a) P := ⟨a, rfl, h⟩
theorem Total.pure {P : α → Prop} (h : P a) : Total (pure a) P := ⟨a, rfl, h⟩
theorem Total.bind {x : Res α} {f : α → Res β} {P : α → Prop} {Q : β → Prop}
    (hx : Total x P) (hf : ∀ a, P a → Total (f a) Q) : Total (x >>= f) Q := by
  obtain ⟨a, rfl, ha⟩ := hx
  exact hf a ha
theorem Total.mono {x : Res α} {P Q : α → Prop} (hx : Total x P) (h : ∀ a, P a → Q a) :
    Total x Q := by
  obtain ⟨a, rfl, ha⟩ := hx
  exact ⟨a, rfl, h a ha⟩
theorem Total.holds {x : Res α} {P : α → Prop} (hx : Total x P) : Holds x P := by
  obtain ⟨a, rfl, ha⟩ := hx
  exact Holds.ok ha
theorem Total.and {x : Res α} {P Q : α → Prop} (h1 : Total x P) (h2 : Holds x Q) :
    Total x (fun a => P a ∧ Q a) := by
  obtain ⟨a, rfl, ha⟩ := h1
  exact ⟨a, rfl, ha, h2 a rfl⟩
theorem Total.exists_ok {x : Res α} {P : α → Prop} (hx : Total x P) : ∃ a, x = .ok a :=
  let ⟨a, h, _⟩ := hx; ⟨a, h⟩

theorem idx_ok {l : List α} {i : Nat} (h : i < l.length) : idx l i = .ok l[i] := by
  simp [idx, List.getElem?_eq_getElem h]
theorem idx_eq_ok {l : List α} {i : Nat} {a : α} : idx l i = .ok a ↔ l[i]? = some a := by
  unfold idx; split <;> simp_all
theorem idx_some {l : List α} {i : Nat} {a : α} (h : l[i]? = some a) : idx l i = .ok a :=
  idx_eq_ok.2 h
theorem setIdx_ok {l : List α} {i : Nat} {a : α} (h : i < l.length) :
    setIdx l i a = .ok (l.set i a) := by simp [setIdx, h]
theorem setIdx_eq_ok {l l' : List α} {i : Nat} {a : α} :
    setIdx l i a = .ok l' ↔ i < l.length ∧ l' = l.set i a := by
  unfold setIdx; split
  · simp_all [eq_comm]
  · constructor
    · intro h; cases h
    · intro h; exact absurd h.1 (by assumption)

/-- Left-to-right loop, total correctness, with an invariant on the processed prefix. -/
theorem foldlM_total {f : σ → α → Res σ} (P : List α → σ → Prop) (l : List α) (init : σ)
    (h0 : P [] init)
    (step : ∀ pre a post s, l = pre ++ a :: post → P pre s → Total (f s a) (P (pre ++ [a]))) :
    Total (l.foldlM f init) (P l) := by
  have key : ∀ (post pre : List α) (s : σ), l = pre ++ post → P pre s →
      Total (post.foldlM f s) (P l) := by
    intro post
    induction post with
    | nil => intro pre s hl hP; simp at hl; subst hl; exact Total.ok hP
    | cons a post ih =>
      intro pre s hl hP
      rw [List.foldlM_cons]
      refine Total.bind (step pre a post s hl hP) ?_
      intro s' hs'
      exact ih (pre ++ [a]) s' (by simp [hl]) hs'
  exact key l [] init (by simp) h0

/-- Left-to-right loop, partial correctness, with an invariant on the processed prefix. -/
theorem foldlM_holds {f : σ → α → Res σ} (P : List α → σ → Prop) (l : List α) (init : σ)
    (h0 : P [] init)
    (step : ∀ pre a post s, l = pre ++ a :: post → P pre s → Holds (f s a) (P (pre ++ [a]))) :
    Holds (l.foldlM f init) (P l) := by
  have key : ∀ (post pre : List α) (s : σ), l = pre ++ post → P pre s →
      Holds (post.foldlM f s) (P l) := by
    intro post
    induction post with
    | nil => intro pre s hl hP; simp at hl; subst hl; exact Holds.ok hP
    | cons a post ih =>
      intro pre s hl hP
      rw [List.foldlM_cons]
      refine Holds.bind (step pre a post s hl hP) ?_
      intro s' hs'
      exact ih (pre ++ [a]) s' (by simp [hl]) hs'
  exact key l [] init (by simp) h0

/-- Loop with a plain invariant, partial correctness. -/
theorem foldlM_holds_inv {f : σ → α → Res σ} (P : σ → Prop) (l : List α) (init : σ)
    (h0 : P init) (step : ∀ a ∈ l, ∀ s, P s → Holds (f s a) P) :
    Holds (l.foldlM f init) P :=
  foldlM_holds (fun _ s => P s) l init h0 fun pre a post s hl hP =>
    step a (by simp [hl]) s hP

/-- Loop with a plain invariant, total correctness. -/
theorem foldlM_total_inv {f : σ → α → Res σ} (P : σ → Prop) (l : List α) (init : σ)
    (h0 : P init) (step : ∀ a ∈ l, ∀ s, P s → Total (f s a) P) :
    Total (l.foldlM f init) P :=
  foldlM_total (fun _ s => P s) l init h0 fun pre a post s hl hP =>
    step a (by simp [hl]) s hP

end Rerecast
