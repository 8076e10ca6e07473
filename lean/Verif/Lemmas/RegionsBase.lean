import Verif.Lemmas.Graph
import Verif.Model.Regions
import Verif.Spec.Regions
import Mathlib.Tactic.Push
/-! Region building: an outcome logic, list access, and the label invariants. -/
set_option linter.unusedVariables false
set_option linter.unusedSectionVars false
namespace Rerecast

/-- `x` returns a value satisfying `P`, or `bad` holds and `x` panics or returns an error; it never diverges. -/
def Out (bad : Prop) (x : Res α) (P : α → Prop) : Prop :=
  (∃ a, x = .ok a ∧ P a) ∨ (bad ∧ ∃ e, x = .error e ∧ e ≠ .diverge)

namespace Out
variable {bad : Prop}
theorem ok {a : α} {P : α → Prop} (h : P a) : Out bad (.ok a) P := Or.inl ⟨a, rfl, h⟩
theorem of_eq {x : Res α} {a : α} {P : α → Prop} (e : x = .ok a) (h : P a) : Out bad x P := Or.inl ⟨a, e, h⟩
theorem of_total {x : Res α} {P : α → Prop} (h : Total x P) : Out bad x P := Or.inl h
theorem bind {x : Res α} {f : α → Res β} {P : α → Prop} {Q : β → Prop}
    (hx : Out bad x P) (hf : ∀ a, P a → Out bad (f a) Q) : Out bad (x >>= f) Q := by
  rcases hx with ⟨a, rfl, ha⟩ | ⟨hb, e, rfl, he⟩
  · exact hf a ha
  · exact Or.inr ⟨hb, e, rfl, he⟩
theorem mono {x : Res α} {P Q : α → Prop} (hx : Out bad x P) (h : ∀ a, P a → Q a) : Out bad x Q := by
  rcases hx with ⟨a, rfl, ha⟩ | hb
  · exact Or.inl ⟨a, rfl, h a ha⟩
  · exact Or.inr hb
theorem weaken {bad' : Prop} {x : Res α} {P : α → Prop} (hx : Out bad x P) (h : bad → bad') : Out bad' x P := by
  rcases hx with hx | ⟨hb, hx⟩
  · exact Or.inl hx
  · exact Or.inr ⟨h hb, hx⟩
theorem total {x : Res α} {P : α → Prop} (hx : Out bad x P) (h : ¬ bad) : Total x P := by
  rcases hx with h1 | ⟨h2, _⟩
  · exact h1
  · exact absurd h2 h
theorem holds {x : Res α} {P : α → Prop} (hx : Out bad x P) : Holds x P := by
  rcases hx with ⟨a, rfl, ha⟩ | ⟨_, e, rfl, _⟩
  · exact Holds.ok ha
  · exact Holds.error
theorem and_holds {x : Res α} {P Q : α → Prop} (hx : Out bad x P) (hq : Holds x Q) : Out bad x fun a => P a ∧ Q a := by
  rcases hx with ⟨a, rfl, ha⟩ | hb
  · exact Or.inl ⟨a, rfl, ha, hq a rfl⟩
  · exact Or.inr hb
theorem no_diverge {x : Res α} {P : α → Prop} (hx : Out bad x P) : x ≠ .error .diverge := by
  rcases hx with ⟨a, rfl, ha⟩ | ⟨_, e, rfl, he⟩
  · intro h; cases h
  · intro h; cases h; exact he rfl

/-- Left-to-right loop with an invariant on the processed prefix. -/
theorem foldlM {f : σ → α → Res σ} (P : List α → σ → Prop) (l : List α) (init : σ) (h0 : P [] init)
    (step : ∀ pre a post s, l = pre ++ a :: post → P pre s → Out bad (f s a) (P (pre ++ [a]))) :
    Out bad (l.foldlM f init) (P l) := by
  have key : ∀ (post pre : List α) (s : σ), l = pre ++ post → P pre s → Out bad (post.foldlM f s) (P l) := by
    intro post
    induction post with
    | nil => intro pre s hl hP; simp at hl; subst hl; exact Out.ok hP
    | cons a post ih =>
      intro pre s hl hP
      rw [List.foldlM_cons]
      refine Out.bind (step pre a post s hl hP) ?_
      intro s' hs'
      exact ih (pre ++ [a]) s' (by simp [hl]) hs'
  exact key l [] init (by simp) h0

theorem foldlM_inv {f : σ → α → Res σ} (P : σ → Prop) (l : List α) (init : σ) (h0 : P init)
    (step : ∀ a ∈ l, ∀ s, P s → Out bad (f s a) P) : Out bad (l.foldlM f init) P :=
  Out.foldlM (fun _ s => P s) l init h0 fun pre a post s hl hP => step a (by simp [hl]) s hP

theorem mapM {f : α → Res β} {R : α → β → Prop} (l : List α) (h : ∀ a ∈ l, Out bad (f a) (R a)) :
    Out bad (l.mapM f) (List.Forall₂ R l) := by
  induction l with
  | nil => exact Out.ok List.Forall₂.nil
  | cons a l ih =>
    rw [List.mapM_cons]
    refine Out.bind (h a (by simp)) fun b hb => ?_
    refine Out.bind (ih fun a ha => h a (by simp [ha])) fun bs hbs => ?_
    exact Out.ok (List.Forall₂.cons hb hbs)
end Out

/-- A loop over the four directions. -/
theorem dirs_out {bad : Prop} {f : σ → Nat → Res σ} (P : σ → Prop) (init : σ) (h0 : P init)
    (step : ∀ d < 4, ∀ s, P s → Out bad (f s d) P) : Out bad ([0, 1, 2, 3].foldlM f init) P :=
  Out.foldlM_inv P _ init h0 fun a ha s hs => step a (by simp at ha; omega) s hs

/-! ### list access -/

theorem idx_getD {l : List Nat} {i : Nat} (h : i < l.length) : idx l i = .ok (l.getD i 0) := by
  simp [idx, List.getD_eq_getElem?_getD, List.getElem?_eq_getElem h]
theorem getD_set {l : List Nat} {i j v : Nat} (h : i < l.length) : (l.set i v).getD j 0 = if j = i then v else l.getD j 0 := by
  simp only [List.getD_eq_getElem?_getD, List.getElem?_set]
  by_cases hij : i = j
  · subst hij; simp [h]
  · have : j ≠ i := fun e => hij e.symm
    simp [hij, this]
theorem getD_replicate {n i v : Nat} (h : i < n) : (List.replicate n v).getD i 0 = v := by
  simp [List.getD_eq_getElem?_getD, h]
theorem getD_of_ge {l : List Nat} {i : Nat} (h : l.length ≤ i) : l.getD i 0 = 0 := by
  simp [List.getD_eq_getElem?_getD, h]
theorem list_ext_getD {l l' : List Nat} (hl : l.length = l'.length) (h : ∀ i < l.length, l.getD i 0 = l'.getD i 0) : l = l' := by
  apply List.ext_getElem hl
  intro i h1 h2
  have := h i h1
  simpa [List.getD_eq_getElem?_getD, h1, h2] using this

/-! ### joined spans -/

namespace CompactHeightfield
variable {chf : CompactHeightfield}

theorem JoinedWithin.mono {G G' : Nat → Prop} (h : ∀ a, G a → G' a) {i k : Nat} (hj : chf.JoinedWithin G i k) :
    chf.JoinedWithin G' i k := by
  induction hj with
  | refl hg => exact .refl (h _ hg)
  | step _ hg hd hl ih => exact .step ih (h _ hg) hd hl
theorem JoinedWithin.left {G : Nat → Prop} {i k : Nat} (hj : chf.JoinedWithin G i k) : G i := by
  induction hj with
  | refl hg => exact hg
  | step _ _ _ _ ih => exact ih
theorem JoinedWithin.right {G : Nat → Prop} {i k : Nat} (hj : chf.JoinedWithin G i k) : G k := by
  cases hj <;> assumption
theorem JoinedWithin.trans {G : Nat → Prop} {i j k : Nat} (h1 : chf.JoinedWithin G i j) (h2 : chf.JoinedWithin G j k) :
    chf.JoinedWithin G i k := by
  induction h2 with
  | refl _ => exact h1
  | step _ hg hd hl ih => exact .step ih hg hd hl
theorem JoinedWithin.symm {G : Nat → Prop} {i k : Nat} (h : chf.JoinedWithin G i k) : chf.JoinedWithin G k i := by
  induction h with
  | refl hg => exact .refl hg
  | step h1 hg hd hl ih => exact (JoinedWithin.step (.refl hg) h1.right hd hl.symm).trans ih
theorem ReachedWithin.joined {G : Nat → Prop} {i k : Nat} (h : chf.ReachedWithin G i k) : chf.JoinedWithin G i k := by
  induction h with
  | refl hg => exact .refl hg
  | step _ hg hd hl ih => exact .step ih hg hd (Or.inl hl)
theorem ReachedWithin.mono {G G' : Nat → Prop} (h : ∀ a, G a → G' a) {i k : Nat} (hj : chf.ReachedWithin G i k) :
    chf.ReachedWithin G' i k := by
  induction hj with
  | refl hg => exact .refl (h _ hg)
  | step _ hg hd hl ih => exact .step ih (h _ hg) hd hl

/-- Area of span `i`. -/
def areaAt (chf : CompactHeightfield) (i : Nat) : Nat := chf.areas.getD i 0

/-- Any two spans with the same proper label have the same area. -/
def Uniform (chf : CompactHeightfield) (f : Nat → Nat) : Prop :=
  ∀ i < chf.spans.length, ∀ j < chf.spans.length, f i = f j → ProperRegion (f i) → chf.areaAt i = chf.areaAt j

/-- Any two spans with the same proper label are joined within that label. -/
def Connected (chf : CompactHeightfield) (f : Nat → Nat) : Prop :=
  ∀ i < chf.spans.length, ∀ j < chf.spans.length, f i = f j → ProperRegion (f i) → chf.JoinedWithin (fun a => f a = f i) i j

/-- `f'` extends `f` by spans that take over the label of a neighbour with the same area. -/
def Extends (chf : CompactHeightfield) (f f' : Nat → Nat) : Prop :=
  ∀ i < chf.spans.length, f' i = f i ∨ (f i = 0 ∧ ∃ j d, d < 4 ∧ chf.nbr i d = some j ∧ j < chf.spans.length ∧
    chf.areaAt j = chf.areaAt i ∧ ProperRegion (f j) ∧ f' i = f j)

theorem not_proper_zero : ¬ ProperRegion 0 := fun h => h.1 rfl

theorem Extends.keep {f f' : Nat → Nat} (h : chf.Extends f f') {i : Nat} (hi : i < chf.spans.length) (h0 : f i ≠ 0) : f' i = f i := by
  rcases h i hi with h | ⟨h1, _⟩
  · exact h
  · exact absurd h1 h0

theorem Extends.uniform {f f' : Nat → Nat} (h : chf.Extends f f') (hu : chf.Uniform f) : chf.Uniform f' := by
  -- every span with a proper new label has the area of an old span with this label
  have src : ∀ i < chf.spans.length, ProperRegion (f' i) → ∃ k, k < chf.spans.length ∧ f k = f' i ∧ chf.areaAt k = chf.areaAt i := by
    intro i hi hp
    rcases h i hi with e | ⟨_, j, d, _, _, hj, ha, _, e⟩
    · exact ⟨i, hi, e.symm, rfl⟩
    · exact ⟨j, hj, e.symm, ha⟩
  intro i hi j hj e hp
  obtain ⟨k, hk, e1, a1⟩ := src i hi hp
  obtain ⟨m, hm, e2, a2⟩ := src j hj (e ▸ hp)
  rw [← a1, ← a2]
  exact hu k hk m hm (by rw [e1, e2, e]) (by rw [e1]; exact hp)

theorem Extends.connected (hwf : chf.WellFormed) {f f' : Nat → Nat} (h : chf.Extends f f') (hc : chf.Connected f) (h0 : ∀ i, chf.spans.length ≤ i → f i = 0) :
    chf.Connected f' := by
  have key : ∀ i < chf.spans.length, ProperRegion (f' i) →
      ∃ k, k < chf.spans.length ∧ f k = f' i ∧ chf.JoinedWithin (fun a => f' a = f' i) k i := by
    intro i hi hp
    rcases h i hi with e | ⟨_, j, d, hd, hn, hj, ha, hpj, e⟩
    · exact ⟨i, hi, e.symm, .refl rfl⟩
    · have ej : f' j = f j := h.keep hj hpj.1
      refine ⟨j, hj, e.symm, .step (.refl (by rw [ej, e])) rfl hd (Or.inr ((nbr_iff_link hwf hd).1 hn))⟩
  intro i hi j hj e hp
  obtain ⟨k, hk, e1, j1⟩ := key i hi hp
  obtain ⟨m, hm, e2, j2⟩ := key j hj (e ▸ hp)
  have hpk : ProperRegion (f k) := by rw [e1]; exact hp
  have jkm := hc k hk m hm (by rw [e1, e2, e]) hpk
  have jkm' : chf.JoinedWithin (fun a => f' a = f' i) k m := by
    refine jkm.mono fun a ha => ?_
    have ha' : f a = f k := ha
    have hal : a < chf.spans.length := by
      by_contra hc'
      rw [h0 a (Nat.le_of_not_lt hc')] at ha'
      exact hpk.1 ha'.symm
    show f' a = f' i
    rw [h.keep hal (by rw [ha']; exact hpk.1), ha', e1]
  exact (j1.symm.trans jkm').trans (by rw [e]; exact j2)

/-- A fresh region: the spans of `acc`, all unlabelled so far, get the label `r`. -/
theorem fresh_uniform {f f' : Nat → Nat} {r : Nat} {acc : List Nat} {α : Nat} (hu : chf.Uniform f)
    (hf' : ∀ i, f' i = if i ∈ acc then r else f i) (hfresh : ProperRegion r → ∀ i < chf.spans.length, f i ≠ r)
    (ha : ∀ i ∈ acc, chf.areaAt i = α) : chf.Uniform f' := by
  intro i hi j hj e hp
  rw [hf' i] at e hp; rw [hf' j] at e
  by_cases h1 : i ∈ acc
  · rw [if_pos h1] at e hp
    by_cases h2 : j ∈ acc
    · rw [ha i h1, ha j h2]
    · rw [if_neg h2] at e; exact absurd e.symm (hfresh hp j hj)
  · rw [if_neg h1] at e hp
    by_cases h2 : j ∈ acc
    · rw [if_pos h2] at e; exact absurd e (hfresh (e ▸ hp) i hi)
    · rw [if_neg h2] at e; exact hu i hi j hj e hp

theorem fresh_connected {f f' : Nat → Nat} {r seed : Nat} {acc : List Nat} (hc : chf.Connected f)
    (hf' : ∀ i, f' i = if i ∈ acc then r else f i) (hfresh : ProperRegion r → ∀ i < chf.spans.length, f i ≠ r) (h0 : ∀ i ∈ acc, f i = 0)
    (ha : ∀ i ∈ acc, chf.ReachedWithin (· ∈ acc) seed i) : chf.Connected f' := by
  have lift : ∀ i ∈ acc, chf.JoinedWithin (fun a => f' a = r) seed i := fun i hi =>
    (ha i hi).joined.mono fun a h => by show f' a = r; rw [hf' a, if_pos h]
  intro i hi j hj e hp
  by_cases h1 : i ∈ acc
  · have ei : f' i = r := by rw [hf' i, if_pos h1]
    by_cases h2 : j ∈ acc
    · rw [ei]; exact (lift i h1).symm.trans (lift j h2)
    · have ej : f' j = f j := by rw [hf' j, if_neg h2]
      exact absurd (by rw [← ej, ← e, ei]) (hfresh (ei ▸ hp) j hj)
  · have ei : f' i = f i := by rw [hf' i, if_neg h1]
    by_cases h2 : j ∈ acc
    · have ej : f' j = r := by rw [hf' j, if_pos h2]
      exact absurd (by rw [← ei, e, ej]) (hfresh (by rw [e, ej] at hp; exact hp) i hi)
    · have ej : f' j = f j := by rw [hf' j, if_neg h2]
      rw [ei]
      refine (hc i hi j hj (by rw [← ei, ← ej, e]) (ei ▸ hp)).mono fun a h => ?_
      have h' : f a = f i := h
      have hna : a ∉ acc := fun hm => by
        have := h0 a hm; rw [h'] at this; rw [ei, this] at hp; exact not_proper_zero hp
      show f' a = f i
      rw [hf' a, if_neg hna, h']

/-- Relabelling with a map that is injective on proper labels and creates none from others. -/
theorem relabel_uniform {f : Nat → Nat} {π : Nat → Nat} (hu : chf.Uniform f)
    (hinj : ∀ i < chf.spans.length, ∀ j < chf.spans.length, ProperRegion (π (f i)) → π (f i) = π (f j) → f i = f j ∧ ProperRegion (f i)) :
    chf.Uniform (fun i => π (f i)) := by
  intro i hi j hj e hp
  obtain ⟨e', hp'⟩ := hinj i hi j hj hp e
  exact hu i hi j hj e' hp'
theorem relabel_connected {f : Nat → Nat} {π : Nat → Nat} (hc : chf.Connected f)
    (hinj : ∀ i < chf.spans.length, ∀ j < chf.spans.length, ProperRegion (π (f i)) → π (f i) = π (f j) → f i = f j ∧ ProperRegion (f i)) :
    chf.Connected (fun i => π (f i)) := by
  intro i hi j hj e hp
  obtain ⟨e', hp'⟩ := hinj i hi j hj hp e
  refine (hc i hi j hj e' hp').mono fun a h => ?_
  have h' : f a = f i := h
  show π (f a) = π (f i)
  rw [h']

/-- Two labels that occur on linked spans and have the same area are identified. -/
theorem merge_uniform {f : Nat → Nat} {old new : Nat} (hu : chf.Uniform f)
    (ha : ∀ i < chf.spans.length, ∀ j < chf.spans.length, f i = old → f j = new → chf.areaAt i = chf.areaAt j) (ho : ProperRegion old) (hn : ProperRegion new) :
    chf.Uniform (fun i => if f i = old then new else f i) := by
  intro i hi j hj e hp
  dsimp only at e hp
  by_cases h1 : f i = old <;> by_cases h2 : f j = old
  · exact hu i hi j hj (h1.trans h2.symm) (h1 ▸ ho)
  · rw [if_pos h1, if_neg h2] at e; exact ha i hi j hj h1 e.symm
  · rw [if_neg h1, if_pos h2] at e; exact (ha j hj i hi h2 e).symm
  · rw [if_neg h1, if_neg h2] at e; rw [if_neg h1] at hp; exact hu i hi j hj e hp

theorem merge_connected (hwf : chf.WellFormed) {f : Nat → Nat} {old new a b d : Nat} (hc : chf.Connected f) (ho : ProperRegion old) (hn : ProperRegion new)
    (hd : d < 4) (hab : chf.nbr a d = some b) (hfa : f a = old) (hfb : f b = new) :
    chf.Connected (fun i => if f i = old then new else f i) := by
  obtain ⟨hal, hbl⟩ := nbr_lt hwf hd hab
  have hlink := (nbr_iff_link hwf hd).1 hab
  have to_b : ∀ i < chf.spans.length, (f i = old ∨ f i = new) → chf.JoinedWithin (fun k => (if f k = old then new else f k) = new) i b := by
    intro i hi h
    rcases h with h | h
    · refine .step (((hc i hi a hal (h.trans hfa.symm) (h ▸ ho))).mono ?_) ?_ hd (Or.inl hlink)
      · intro k hk
        show (if f k = old then new else f k) = new
        rw [if_pos (by rw [show f k = f i from hk, h])]
      · show (if f b = old then new else f b) = new
        rw [hfb]; split <;> rfl
    · refine (hc i hi b hbl (h.trans hfb.symm) (h ▸ hn)).mono ?_
      intro k hk
      show (if f k = old then new else f k) = new
      rw [show f k = f i from hk, h]; split <;> rfl
  intro i hi j hj e hp
  dsimp only at e hp ⊢
  by_cases hin : (if f i = old then new else f i) = new
  · have case : ∀ k, (if f k = old then new else f k) = new → f k = old ∨ f k = new := by
      intro k hk
      split at hk
      · left; assumption
      · right; exact hk
    rw [hin]
    exact (to_b i hi (case i hin)).trans (to_b j hj (case j (by rw [← e]; exact hin))).symm
  · have h1 : f i ≠ old := fun h => hin (if_pos h)
    rw [if_neg h1] at e hp hin
    have h2 : f j ≠ old := fun h => hin (by rw [e, if_pos h])
    rw [if_neg h2] at e
    rw [if_neg h1]
    refine (hc i hi j hj e hp).mono fun k hk => ?_
    show (if f k = old then new else f k) = f i
    rw [show f k = f i from hk, if_neg h1]

section
variable (hwf : chf.WellFormed)
include hwf

theorem conNeighbour_eq {i d : Nat} (hi : i < chf.spans.length) (hd : d < 4) :
    chf.conNeighbour (chf.xOf i) (chf.zOf i) i d = .ok ((chf.nbr i d).map fun k => (chf.xOf k, chf.zOf k, k)) := by
  have hs := List.getElem?_eq_getElem hi
  unfold conNeighbour
  rw [idx_some hs, bind_ok]
  cases hc : chf.spans[i].con d with
  | none =>
    have : chf.nbr i d = none := by
      cases hn : chf.nbr i d with
      | none => rfl
      | some k =>
        obtain ⟨s, con, e1, e2, _⟩ := nbr_con hwf hn hd
        rw [hs] at e1; cases e1; rw [hc] at e2; cases e2
    rw [this]; rfl
  | some con =>
    obtain ⟨k, e, _, _, e2⟩ := nbr_of_con hwf hs hd hc
    dsimp only
    rw [e2, e]; rfl

theorem idx_area {i : Nat} (hi : i < chf.spans.length) : idx chf.areas i = .ok (chf.areaAt i) :=
  idx_getD (by rw [hwf.areas_len]; exact hi)

theorem nbr_dlt {i d k : Nat} (hd : d < 4) (h : chf.nbr i d = some k) : k < chf.spans.length := (nbr_lt hwf hd h).2

theorem walkableAt_iff {i : Nat} (hi : i < chf.spans.length) : chf.WalkableAt i ↔ isWalkable (chf.areaAt i) = true := by
  unfold WalkableAt areaAt
  have : i < chf.areas.length := by rw [hwf.areas_len]; exact hi
  simp [List.getD_eq_getElem?_getD, List.getElem?_eq_getElem this]

end
end CompactHeightfield
end Rerecast
