import Verif.Lemmas.Graph
import Verif.Model.Chamfer
import Mathlib.Logic.Function.Basic
/-! The chamfer sweeps as relaxations over predecessor lists. -/
set_option linter.unusedVariables false
namespace Rerecast

/-- `dist` is the table of `f` on `0..n`. -/
def Tab (n : Nat) (dist : List Nat) (f : Nat → Nat) : Prop := dist.length = n ∧ ∀ i < n, dist[i]? = some (f i)

theorem Tab.idx {n dist f i} (h : Tab n dist f) (hi : i < n) : idx dist i = .ok (f i) := idx_some (h.2 i hi)

theorem Tab.set {n dist f i} (h : Tab n dist f) (hi : i < n) (v : Nat) :
    setIdx dist i v = .ok (dist.set i v) ∧ Tab n (dist.set i v) (Function.update f i v) := by
  refine ⟨setIdx_ok (by rw [h.1]; exact hi), by rw [List.length_set]; exact h.1, ?_⟩
  intro j hj
  by_cases e : j = i
  · subst e; rw [List.getElem?_set_self (by rw [h.1]; exact hi), Function.update_self]
  · rw [List.getElem?_set_ne (fun h => e h.symm), Function.update_of_ne e]; exact h.2 j hj

theorem Tab.congr {n dist f g} (h : Tab n dist f) (e : ∀ i < n, f i = g i) : Tab n dist g :=
  ⟨h.1, fun i hi => by rw [h.2 i hi, e i hi]⟩

theorem tab_of_length {n : Nat} {dist : List Nat} (h : dist.length = n) : Tab n dist (fun i => dist[i]?.getD 0) := by
  refine ⟨h, fun i hi => ?_⟩
  simp [List.getElem?_eq_getElem (show i < dist.length by omega)]

theorem Tab.unique {n dist f g} (h : Tab n dist f) (h' : Tab n dist g) : ∀ i < n, f i = g i := by
  intro i hi
  have := (h.2 i hi).symm.trans (h'.2 i hi)
  simpa using this

/-- The addition behaves like the mathematical one, as far as the minimum with `m` can tell. -/
def AddOK (add : Nat → Nat → Res Nat) (m a c : Nat) : Prop := ∃ v, add a c = .ok v ∧ min m v = min m (a + c)

theorem AddOK.le {add m m' a c} (h : AddOK add m a c) (hm : m' ≤ m) : AddOK add m' a c := by
  obtain ⟨v, h1, h2⟩ := h
  exact ⟨v, h1, by omega⟩

/-- Best value over a list of predecessors `(index, cost)`. -/
def best (f : Nat → Nat) (m : Nat) (l : List (Nat × Nat)) : Nat := l.foldl (fun m p => min m (f p.1 + p.2)) m

theorem best_le (f) : ∀ (l : List (Nat × Nat)) (m), best f m l ≤ m ∧ ∀ p ∈ l, best f m l ≤ f p.1 + p.2
  | [], m => ⟨Nat.le_refl _, by simp⟩
  | p :: l, m => by
    have h := best_le f l (min m (f p.1 + p.2))
    refine ⟨Nat.le_trans h.1 (Nat.min_le_left _ _), ?_⟩
    intro q hq
    rcases List.mem_cons.1 hq with rfl | hq
    · exact Nat.le_trans h.1 (Nat.min_le_right _ _)
    · exact h.2 q hq

theorem best_attained (f) : ∀ (l : List (Nat × Nat)) (m), best f m l = m ∨ ∃ p ∈ l, best f m l = f p.1 + p.2
  | [], m => Or.inl rfl
  | p :: l, m => by
    rcases best_attained f l (min m (f p.1 + p.2)) with h | ⟨q, hq, h⟩
    · rcases Nat.le_total m (f p.1 + p.2) with h' | h'
      · left; exact h.trans (Nat.min_eq_left h')
      · right; exact ⟨p, by simp, h.trans (Nat.min_eq_right h')⟩
    · right; exact ⟨q, by simp [hq], h⟩

theorem best_append (f m l l') : best f m (l ++ l') = best f (best f m l) l' := by
  unfold best; rw [List.foldl_append]

theorem best_congr {f g : Nat → Nat} : ∀ {l : List (Nat × Nat)} {m}, (∀ p ∈ l, f p.1 = g p.1) → best f m l = best g m l
  | [], m, _ => rfl
  | p :: l, m, h => by
    unfold best
    simp only [List.foldl_cons]
    rw [h p (by simp)]
    exact best_congr (f := f) (g := g) (l := l) fun q hq => h q (by simp [hq])

theorem relaxVia_spec {add n i dist f j c} (h : Tab n dist f) (hi : i < n) (hj : j < n) (ha : AddOK add (f i) (f j) c) :
    Total (relaxVia add i dist j c) fun dist' => Tab n dist' (Function.update f i (min (f i) (f j + c))) := by
  obtain ⟨v, h1, h2⟩ := ha
  unfold relaxVia
  simp only [h.idx hj, h.idx hi, h1, bind_ok, h2]
  obtain ⟨h3, h4⟩ := h.set hi (min (f i) (f j + c))
  exact ⟨_, h3, h4⟩

namespace CompactHeightfield

/-- Predecessors looked at for directions `dA`, `dB`. -/
def pairPreds (chf : CompactHeightfield) (i dA dB : Nat) : List (Nat × Nat) :=
  match chf.nbr i dA with
  | none => []
  | some a => (a, 2) :: match chf.nbr a dB with
    | none => []
    | some b => [(b, 3)]

def preds1 (chf : CompactHeightfield) (i : Nat) : List (Nat × Nat) := chf.pairPreds i 0 3 ++ chf.pairPreds i 3 2
def preds2 (chf : CompactHeightfield) (i : Nat) : List (Nat × Nat) := chf.pairPreds i 2 1 ++ chf.pairPreds i 1 0

theorem relaxPair_spec {chf : CompactHeightfield} (hwf : chf.WellFormed) {add i dA dB dist f}
    (hA : dA < 4) (hB : dB < 4)
    (h : Tab chf.spans.length dist f) (hi : i < chf.spans.length)
    (hne : ∀ p ∈ chf.pairPreds i dA dB, p.1 ≠ i)
    (ha : ∀ p ∈ chf.pairPreds i dA dB, AddOK add (f i) (f p.1) p.2) :
    Total (chf.relaxPair add (chf.xOf i) (chf.zOf i) i dA dB dist) fun dist' =>
      Tab chf.spans.length dist' (Function.update f i (best f (f i) (chf.pairPreds i dA dB))) := by
  have hs := List.getElem?_eq_getElem hi
  unfold relaxPair
  rw [idx_some hs, bind_ok]
  cases hn : chf.nbr i dA with
  | none =>
    rw [nbr_none hwf hs hA hn]
    refine Total.ok ?_
    simp only [pairPreds, hn, best, List.foldl_nil, Function.update_eq_self]
    exact h
  | some a =>
    obtain ⟨s, con, hs', hcon, hal, hnc, hnb⟩ := nbr_con hwf hn hA
    rw [hs] at hs'; cases hs'
    simp only [hcon, hnb, bind_ok]
    have has := List.getElem?_eq_getElem hal
    rw [idx_some has, bind_ok]
    have e0 : ∀ p ∈ [(a, 2)], p ∈ chf.pairPreds i dA dB := by simp [pairPreds, hn]
    have hai : a ≠ i := hne (a, 2) (e0 _ (by simp))
    refine Total.bind (relaxVia_spec h hi hal (ha (a, 2) (e0 _ (by simp)))) ?_
    intro dist1 h1
    cases hm : chf.nbr a dB with
    | none =>
      rw [nbr_none hwf has hB hm]
      refine Total.ok ?_
      simp only [pairPreds, hn, hm, best, List.foldl_cons, List.foldl_nil]
      exact h1
    | some b =>
      obtain ⟨s2, con2, hs2, hcon2, hbl, hnc2, hnb2⟩ := nbr_con hwf hm hB
      rw [has] at hs2; cases hs2
      simp only [hcon2, hnb2, bind_ok]
      have e1 : (b, 3) ∈ chf.pairPreds i dA dB := by simp [pairPreds, hn, hm]
      have hbi : b ≠ i := hne _ e1
      have hadd := ha _ e1
      refine Total.mono (relaxVia_spec h1 hi hbl ?_) ?_
      · rw [Function.update_self, Function.update_of_ne hbi]
        exact hadd.le (Nat.min_le_left _ _)
      · intro dist2 h2
        refine h2.congr ?_
        intro j hj
        simp only [Function.update_self, Function.update_of_ne hbi, Function.update_idem, pairPreds, hn, hm, best,
          List.foldl_cons, List.foldl_nil]

/-- State of a sweep after the spans of `done` have been processed, starting from `f0`. -/
structure Swept (preds : Nat → List (Nat × Nat)) (f0 : Nat → Nat) (done : Nat → Prop) (f : Nat → Nat) : Prop where
  todo : ∀ i, ¬ done i → f i = f0 i
  le : ∀ i, done i → f i ≤ f0 i
  rel : ∀ i, done i → ∀ p ∈ preds i, f i ≤ f p.1 + p.2
  real : ∀ i, done i → f i = f0 i ∨ ∃ p ∈ preds i, f i = f p.1 + p.2

theorem Swept.step {preds f0 done f i} (h : Swept preds f0 done f) (hi : ¬ done i)
    (hpre : ∀ j, done j → ∀ p ∈ preds j, done p.1) (hpi : ∀ p ∈ preds i, done p.1) :
    Swept preds f0 (fun j => done j ∨ j = i) (Function.update f i (best f (f i) (preds i))) := by
  have hne : ∀ j, done j → Function.update f i (best f (f i) (preds i)) j = f j := by
    intro j hj
    have : j ≠ i := by rintro rfl; exact hi hj
    rw [Function.update_of_ne this]
  refine ⟨?_, ?_, ?_, ?_⟩
  · intro j hj
    have : j ≠ i := fun e => hj (Or.inr e)
    rw [Function.update_of_ne this]
    exact h.todo j fun e => hj (Or.inl e)
  · rintro j (hj | rfl)
    · rw [hne j hj]; exact h.le j hj
    · rw [Function.update_self]
      have := (best_le f (preds j) (f j)).1
      rw [h.todo j hi] at this ⊢; exact this
  · rintro j (hj | rfl) p hp
    · rw [hne j hj, hne _ (hpre j hj p hp)]; exact h.rel j hj p hp
    · rw [Function.update_self, hne _ (hpi p hp)]
      exact (best_le f (preds j) (f j)).2 p hp
  · rintro j (hj | rfl)
    · rw [hne j hj]
      rcases h.real j hj with e | ⟨p, hp, e⟩
      · exact Or.inl e
      · exact Or.inr ⟨p, hp, by rw [hne _ (hpre j hj p hp)]; exact e⟩
    · rw [Function.update_self]
      rcases best_attained f (preds j) (f j) with e | ⟨p, hp, e⟩
      · left; rw [e]; exact h.todo j hi
      · right; exact ⟨p, hp, by rw [hne _ (hpi p hp)]; exact e⟩

/-- One sweep, as a loop over an order in which predecessors come first. -/
theorem sweep_spec {n : Nat} {preds : Nat → List (Nat × Nat)} {ord : List Nat} (hnd : ord.Nodup) (hmem : ∀ i, i ∈ ord ↔ i < n)
    (hbefore : ∀ pre i post, ord = pre ++ i :: post → ∀ p ∈ preds i, p.1 ∈ pre)
    {step : List Nat → Nat → Res (List Nat)} {f0 : Nat → Nat} {dist0 : List Nat} (h0 : Tab n dist0 f0)
    (hstep : ∀ pre i post f dist, ord = pre ++ i :: post → i < n → Swept preds f0 (· ∈ pre) f → Tab n dist f →
      Total (step dist i) fun d => Tab n d (Function.update f i (best f (f i) (preds i)))) :
    Total (ord.foldlM step dist0) fun dist => ∃ f, Tab n dist f ∧ Swept preds f0 (· < n) f := by
  refine Total.mono (foldlM_total (P := fun pre dist => ∃ f, Tab n dist f ∧ Swept preds f0 (· ∈ pre) f) ord dist0 ?_ ?_) ?_
  · refine ⟨f0, h0, ⟨fun _ _ => rfl, ?_, ?_, ?_⟩⟩ <;> intro i hi <;> cases hi
  · rintro pre i post dist hl ⟨f, ht, hs⟩
    have hi : i < n := (hmem i).1 (by rw [hl]; simp)
    refine Total.mono (hstep pre i post f dist hl hi hs ht) ?_
    intro d hd
    refine ⟨_, hd, ?_⟩
    have hni : i ∉ pre := by
      intro hip
      rw [hl, List.nodup_append] at hnd
      exact hnd.2.2 i hip i (by simp) rfl
    have := hs.step hni (i := i) ?_ (hbefore pre i post hl)
    · refine ⟨?_, ?_, ?_, ?_⟩
      · intro j hj; exact this.todo j (by simpa using hj)
      · intro j hj; exact this.le j (by simpa using hj)
      · intro j hj; exact this.rel j (by simpa using hj)
      · intro j hj; exact this.real j (by simpa using hj)
    · intro j hj p hp
      obtain ⟨a, b, rfl⟩ := List.append_of_mem hj
      have := hbefore a j (b ++ i :: post) (by rw [hl]; simp) p hp
      simp [this]
  · rintro dist ⟨f, h1, h2⟩
    refine ⟨f, h1, ⟨?_, ?_, ?_, ?_⟩⟩
    · intro j hj; exact h2.todo j fun h => hj ((hmem j).1 h)
    · intro j hj; exact h2.le j ((hmem j).2 hj)
    · intro j hj; exact h2.rel j ((hmem j).2 hj)
    · intro j hj; exact h2.real j ((hmem j).2 hj)

section
variable {chf : CompactHeightfield} (hwf : chf.WellFormed)
include hwf

theorem nbr_col {i d k : Nat} (hd : d < 4) (h : chf.nbr i d = some k) :
    (d = 0 → chf.xOf k + 1 = chf.xOf i ∧ chf.zOf k = chf.zOf i) ∧
    (d = 1 → chf.xOf k = chf.xOf i ∧ chf.zOf k = chf.zOf i + 1) ∧
    (d = 2 → chf.xOf k = chf.xOf i + 1 ∧ chf.zOf k = chf.zOf i) ∧
    (d = 3 → chf.xOf k = chf.xOf i ∧ chf.zOf k + 1 = chf.zOf i) := by
  obtain ⟨s, con, hs, hc, hk, hn, _⟩ := nbr_con hwf h hd
  have h4 : d = 0 ∨ d = 1 ∨ d = 2 ∨ d = 3 := by omega
  rcases h4 with rfl | rfl | rfl | rfl <;> simp only [neighbourCell] at hn <;> split at hn <;>
    first
    | cases hn
    | (simp only [Option.some.injEq, Prod.mk.injEq] at hn; omega)

theorem col_lt_iff {i j : Nat} (hi : i < chf.spans.length) (hj : j < chf.spans.length) :
    chf.colOf i < chf.colOf j ↔ chf.zOf i < chf.zOf j ∨ (chf.zOf i = chf.zOf j ∧ chf.xOf i < chf.xOf j) := by
  obtain ⟨a1, a2, a3⟩ := xz_spec hwf hi
  obtain ⟨b1, b2, b3⟩ := xz_spec hwf hj
  rw [← a3, ← b3]
  rcases Nat.lt_trichotomy (chf.zOf i) (chf.zOf j) with h | h | h
  · simp only [h, true_or, iff_true]
    have : (chf.zOf i + 1) * chf.width ≤ chf.zOf j * chf.width := Nat.mul_le_mul_right _ h
    rw [Nat.add_mul] at this; omega
  · rw [h]; omega
  · have : (chf.zOf j + 1) * chf.width ≤ chf.zOf i * chf.width := Nat.mul_le_mul_right _ h
    rw [Nat.add_mul] at this; omega

theorem preds1_col {i : Nat} {p : Nat × Nat} (hp : p ∈ chf.preds1 i) : i < chf.spans.length ∧ p.1 < chf.spans.length ∧ chf.colOf p.1 < chf.colOf i := by
  simp only [preds1, pairPreds, List.mem_append] at hp
  rcases hp with hp | hp <;> split at hp
  · cases hp
  · rename_i a ha
    obtain ⟨l1, l2⟩ := nbr_lt hwf (by omega) ha
    have c1 := nbr_col hwf (by omega) ha
    rcases List.mem_cons.1 hp with rfl | hp
    · exact ⟨l1, l2, (col_lt_iff hwf l2 l1).2 (by omega)⟩
    · split at hp
      · cases hp
      · rename_i b hb
        obtain ⟨l3, l4⟩ := nbr_lt hwf (by omega) hb
        have c2 := nbr_col hwf (by omega) hb
        simp at hp; subst hp
        exact ⟨l1, l4, (col_lt_iff hwf l4 l1).2 (by omega)⟩
  · cases hp
  · rename_i a ha
    obtain ⟨l1, l2⟩ := nbr_lt hwf (by omega) ha
    have c1 := nbr_col hwf (by omega) ha
    rcases List.mem_cons.1 hp with rfl | hp
    · exact ⟨l1, l2, (col_lt_iff hwf l2 l1).2 (by omega)⟩
    · split at hp
      · cases hp
      · rename_i b hb
        obtain ⟨l3, l4⟩ := nbr_lt hwf (by omega) hb
        have c2 := nbr_col hwf (by omega) hb
        simp at hp; subst hp
        exact ⟨l1, l4, (col_lt_iff hwf l4 l1).2 (by omega)⟩

theorem preds2_col {i : Nat} {p : Nat × Nat} (hp : p ∈ chf.preds2 i) : i < chf.spans.length ∧ p.1 < chf.spans.length ∧ chf.colOf i < chf.colOf p.1 := by
  simp only [preds2, pairPreds, List.mem_append] at hp
  rcases hp with hp | hp <;> split at hp
  · cases hp
  · rename_i a ha
    obtain ⟨l1, l2⟩ := nbr_lt hwf (by omega) ha
    have c1 := nbr_col hwf (by omega) ha
    rcases List.mem_cons.1 hp with rfl | hp
    · exact ⟨l1, l2, (col_lt_iff hwf l1 l2).2 (by omega)⟩
    · split at hp
      · cases hp
      · rename_i b hb
        obtain ⟨l3, l4⟩ := nbr_lt hwf (by omega) hb
        have c2 := nbr_col hwf (by omega) hb
        simp at hp; subst hp
        exact ⟨l1, l4, (col_lt_iff hwf l1 l4).2 (by omega)⟩
  · cases hp
  · rename_i a ha
    obtain ⟨l1, l2⟩ := nbr_lt hwf (by omega) ha
    have c1 := nbr_col hwf (by omega) ha
    rcases List.mem_cons.1 hp with rfl | hp
    · exact ⟨l1, l2, (col_lt_iff hwf l1 l2).2 (by omega)⟩
    · split at hp
      · cases hp
      · rename_i b hb
        obtain ⟨l3, l4⟩ := nbr_lt hwf (by omega) hb
        have c2 := nbr_col hwf (by omega) hb
        simp at hp; subst hp
        exact ⟨l1, l4, (col_lt_iff hwf l1 l4).2 (by omega)⟩

theorem step_spec {add i dA dB dA' dB' dist f} (hA : dA < 4) (hB : dB < 4) (hA' : dA' < 4) (hB' : dB' < 4)
    (h : Tab chf.spans.length dist f) (hi : i < chf.spans.length)
    (hne : ∀ p ∈ chf.pairPreds i dA dB ++ chf.pairPreds i dA' dB', p.1 ≠ i)
    (ha : ∀ p ∈ chf.pairPreds i dA dB ++ chf.pairPreds i dA' dB', AddOK add (f i) (f p.1) p.2) :
    Total (do
      let dist ← chf.relaxPair add (chf.xOf i) (chf.zOf i) i dA dB dist
      chf.relaxPair add (chf.xOf i) (chf.zOf i) i dA' dB' dist) fun dist' =>
      Tab chf.spans.length dist' (Function.update f i (best f (f i) (chf.pairPreds i dA dB ++ chf.pairPreds i dA' dB'))) := by
  refine Total.bind (relaxPair_spec hwf hA hB h hi (fun p hp => hne p (by simp [hp])) fun p hp => ha p (by simp [hp])) ?_
  intro d1 h1
  refine Total.mono (relaxPair_spec hwf hA' hB' h1 hi (fun p hp => hne p (by simp [hp])) ?_) ?_
  · intro p hp
    rw [Function.update_self, Function.update_of_ne (hne p (by simp [hp]))]
    exact (ha p (by simp [hp])).le (best_le _ _ _).1
  · intro d2 h2
    refine h2.congr ?_
    intro j hj
    rw [Function.update_self, Function.update_idem, best_append]
    congr 1
    apply best_congr
    intro p hp
    rw [Function.update_of_ne (hne p (by simp [hp]))]

theorem sweep1_spec {add : Nat → Nat → Res Nat} {dist0 f0} (h0 : Tab chf.spans.length dist0 f0)
    (hadd : ∀ pre i post f, List.range chf.spans.length = pre ++ i :: post → Swept chf.preds1 f0 (· ∈ pre) f →
      ∀ p ∈ chf.preds1 i, AddOK add (f i) (f p.1) p.2) :
    Total (chf.sweep1 add dist0) fun dist => ∃ f, Tab chf.spans.length dist f ∧ Swept chf.preds1 f0 (· < chf.spans.length) f := by
  unfold sweep1
  rw [forSpans_eq hwf]
  refine sweep_spec List.nodup_range (fun i => List.mem_range) ?_ h0 ?_
  · intro pre i post he p hp
    obtain ⟨h1, h2, h3⟩ := preds1_col hwf hp
    exact range_before hwf h1 h2 h3 he
  · intro pre i post f dist he hi hs ht
    refine step_spec hwf (by omega) (by omega) (by omega) (by omega) ht hi ?_ (hadd pre i post f he hs)
    rintro p hp rfl
    have := (preds1_col hwf hp).2.2; omega

theorem sweep2_spec {add : Nat → Nat → Res Nat} {dist0 f0} (h0 : Tab chf.spans.length dist0 f0)
    (hadd : ∀ pre i post f, chf.revOrder = pre ++ i :: post → Swept chf.preds2 f0 (· ∈ pre) f →
      ∀ p ∈ chf.preds2 i, AddOK add (f i) (f p.1) p.2) :
    Total (chf.sweep2 add dist0) fun dist => ∃ f, Tab chf.spans.length dist f ∧ Swept chf.preds2 f0 (· < chf.spans.length) f := by
  unfold sweep2
  rw [forSpansRev_eq hwf]
  refine sweep_spec (revOrder_nodup hwf) (fun i => mem_revOrder hwf) ?_ h0 ?_
  · intro pre i post he p hp
    obtain ⟨h1, h2, h3⟩ := preds2_col hwf hp
    exact revOrder_before hwf h2 h3 he
  · intro pre i post f dist he hi hs ht
    refine step_spec hwf (by omega) (by omega) (by omega) (by omega) ht hi ?_ (hadd pre i post f he hs)
    rintro p hp rfl
    have := (preds2_col hwf hp).2.2; omega

end
end CompactHeightfield
end Rerecast
