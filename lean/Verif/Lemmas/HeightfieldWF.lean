import Verif.Lemmas.HeightfieldRep
/-! Well-formed heightfields, and `add_span` as a refinement of list insertion. -/
set_option linter.unusedVariables false
namespace Rerecast
open Heightfield

/-- The arena of `hf` represents the columns `cols`. -/
structure HFRep (hf : Heightfield) (cols : Nat → List Entry) : Prop where
  seg : ∀ c head, hf.spans[c]? = some head → Seg hf.allocated head (cols c) none
  nodup : ∀ c < hf.spans.length, (keys (cols c)).Nodup
  disj : ∀ c < hf.spans.length, ∀ c' < hf.spans.length, c ≠ c' → ∀ k ∈ keys (cols c), k ∉ keys (cols c')
  noleak : ∀ k s, hf.allocated[k]? = some (some s) → ∃ c < hf.spans.length, k ∈ keys (cols c)

theorem hfRep_new (w h : Nat) : HFRep (Heightfield.new w h) (fun _ => []) where
  seg := by
    intro c head hc
    simp only [Heightfield.new, List.getElem?_replicate] at hc
    split at hc
    · cases hc; rfl
    · cases hc
  nodup := by intro c hc; simp
  disj := by intro c hc c' hc' hne k hk; simp at hk
  noleak := by intro k s hk; simp [Heightfield.new] at hk

theorem addSpan_spec {hf : Heightfield} {cols} (hr : HFRep hf cols) (x z thr : Nat) (new : Span)
    (hcol : hf.columnIndex x z < hf.spans.length) :
    ∃ hf' L', hf.addSpan x z thr new = .ok hf' ∧ hf'.width = hf.width ∧ hf'.height = hf.height ∧
      hf'.spans.length = hf.spans.length ∧
      HFRep hf' (fun c => if c = hf.columnIndex x z then L' else cols c) ∧
      solids L' = insertCol thr new.solid (solids (cols (hf.columnIndex x z))) := by
  generalize hc : hf.columnIndex x z = col at *
  have hhead : hf.spans[col]? = some hf.spans[col] := List.getElem?_eq_getElem hcol
  have hseg := hr.seg col _ hhead
  have hnd := hr.nodup col hcol
  obtain ⟨hf', new', pre', rest', head', g1, g2, g3, g4, g5, g6, g7, g8, g9, g10⟩ :=
    addSpanLoop_spec thr col (cols col) [] hf new (hf.allocated.length + 1) hf.spans[col] hf.spans[col]
      hhead rfl hseg (by simpa using hnd) (Nat.le_succ_of_le (hseg.length_le hnd))
  simp only [List.nil_append, lastKey_nil, solids_nil] at g1 g6 g7 g9 g10
  have hnd' : (keys (pre' ++ rest')).Nodup := g7.nodup hnd
  have hlen' : hf'.spans.length = hf.spans.length := by rw [g4]; simp
  have hcol' : col < hf'.spans.length := by omega
  have hhead' : hf'.spans[col]? = some head' := by rw [g4]; simp [hcol]
  -- the fresh key
  have hfresh : ∀ L : List Entry, ∀ a b, Seg hf'.allocated a L b → hf'.allocated.length ∉ keys L := by
    intro L a b h hk
    obtain ⟨s, hs⟩ := h.mem_alloc _ hk
    rw [List.getElem?_eq_some_iff] at hs
    exact absurd hs.1 (by omega)
  -- Other columns are untouched by the loop
  have hother : ∀ c < hf.spans.length, c ≠ col → ∀ k ∈ keys (cols c), hf'.allocated[k]? = hf.allocated[k]? := by
    intro c hc1 hc2 k hk
    exact g9 k fun h => hr.disj c hc1 col hcol hc2 k hk h
  have hkeylt : ∀ c < hf.spans.length, ∀ k ∈ keys (cols c), k < hf.allocated.length := by
    intro c hc1 k hk
    obtain ⟨s, hs⟩ := (hr.seg c _ (List.getElem?_eq_getElem hc1)).mem_alloc k hk
    rw [List.getElem?_eq_some_iff] at hs; exact hs.1
  -- Generic finish: given the final arena and head
  have finish : ∀ (alloc2 : List (Option Span)) (head2 : Option SpanKey) (n2 : Option SpanKey),
      Seg alloc2 head2 (pre' ++ (hf'.allocated.length, new'.solid) :: rest') none →
      (∀ k, k ∉ keys (pre' ++ (hf'.allocated.length, new'.solid) :: rest') → alloc2[k]? = hf'.allocated[k]?) →
      HFRep { hf' with spans := hf'.spans.set col head2, allocated := alloc2 }
        (fun c => if c = col then pre' ++ (hf'.allocated.length, new'.solid) :: rest' else cols c) := by
    intro alloc2 head2 _ hseg2 hframe
    have hkeysold : ∀ k ∈ keys (pre' ++ rest'), k ∈ keys (cols col) := fun k hk => g7.subset hk
    have hkeysL : ∀ k, k ∈ keys (pre' ++ (hf'.allocated.length, new'.solid) :: rest') →
        k = hf'.allocated.length ∨ k ∈ keys (pre' ++ rest') := by
      intro k hk
      simp only [keys_append, keys_cons, List.mem_append, List.mem_cons] at hk ⊢
      rcases hk with h | h | h
      · exact Or.inr (Or.inl h)
      · exact Or.inl h
      · exact Or.inr (Or.inr h)
    have hothernot : ∀ c < hf.spans.length, c ≠ col → ∀ k ∈ keys (cols c),
        k ∉ keys (pre' ++ (hf'.allocated.length, new'.solid) :: rest') := by
      intro c h1 h2 k hk hk2
      rcases hkeysL k hk2 with h | h
      · have h3 : k < hf.allocated.length := hkeylt c h1 k hk
        have h4 : @Eq Nat k hf'.allocated.length := h
        omega
      · exact hr.disj c h1 col hcol h2 k hk (hkeysold k h)
    refine ⟨?_, ?_, ?_, ?_⟩
    · intro c head hc
      by_cases hcc : c = col
      · subst hcc
        simp only [if_true]
        simp [hcol'] at hc
        subst hc; exact hseg2
      · simp only [hcc, if_false]
        simp only at hc
        rw [List.getElem?_set_ne (Ne.symm hcc), g4, List.getElem?_set_ne (Ne.symm hcc)] at hc
        have hclt : c < hf.spans.length := by
          rw [List.getElem?_eq_some_iff] at hc; exact hc.1
        refine (hr.seg c head hc).frame fun k hk => ?_
        rw [← hother c hclt hcc k hk]
        exact hframe k (hothernot c hclt hcc k hk)
    · intro c hc
      simp only [List.length_set] at hc
      by_cases hcc : c = col
      · simp only [hcc, if_true]
        have h0 := hfresh _ _ _ g5
        simp only [keys_append, keys_cons] at hnd' h0 ⊢
        exact List.perm_middle.nodup_iff.2 (List.nodup_cons.2 ⟨h0, hnd'⟩)
      · simp only [hcc, if_false]; exact hr.nodup c (by omega)
    · intro c hc c' hc' hne k hk
      simp only [List.length_set] at hc hc'
      by_cases hcc : c = col
      · have hcc' : c' ≠ col := fun h => hne (hcc.trans h.symm)
        simp only [hcc, if_true] at hk
        simp only [hcc', if_false]
        intro hk'
        exact hothernot c' (by omega) hcc' k hk' hk
      · simp only [hcc, if_false] at hk
        by_cases hcc' : c' = col
        · simp only [hcc', if_true]
          exact hothernot c (by omega) hcc k hk
        · simp only [hcc', if_false]
          exact hr.disj c (by omega) c' (by omega) hne k hk
    · intro k s hk
      simp only [List.length_set]
      by_cases hkn : k ∈ keys (pre' ++ (hf'.allocated.length, new'.solid) :: rest')
      · exact ⟨col, hcol', by simpa using hkn⟩
      · have h1 : hf'.allocated[k]? = some (some s) := by rw [← hframe k hkn]; exact hk
        have hkn' : k ∉ keys (pre' ++ rest') := by
          intro h; apply hkn
          simp only [keys_append, keys_cons, List.mem_append, List.mem_cons] at h ⊢
          rcases h with h | h
          · exact Or.inl h
          · exact Or.inr (Or.inr h)
        by_cases hkc : k ∈ keys (cols col)
        · rw [g10 k hkc hkn'] at h1; cases h1
        · rw [g9 k hkc] at h1
          obtain ⟨c, hc1, hc2⟩ := hr.noleak k s h1
          refine ⟨c, by omega, ?_⟩
          have : c ≠ col := by rintro rfl; exact hkc hc2
          simpa [this] using hc2
  obtain ⟨mid, hpre, hrest⟩ := g5.split
  have hfr0 := hfresh _ _ _ g5
  have hfrpre := hfresh _ _ _ hpre
  have hfrrest := hfresh _ _ _ hrest
  unfold addSpan
  have hnge : ¬ (hf.columnIndex x z ≥ hf.spans.length) := by omega
  simp only [hc, show ¬ (col ≥ hf.spans.length) by omega, if_false, idx_ok hcol, bind_ok, g1]
  rcases List.eq_nil_or_concat' pre' with rfl | ⟨L, ⟨p, s⟩, rfl⟩
  · cases hpre
    simp only [lastKey_nil]
    simp only [idx_some hhead', bind_ok, insertSpan, setIdx_ok hcol']
    refine ⟨_, [] ++ (hf'.allocated.length, new'.solid) :: rest', rfl, g2, g3, by simp [hlen'], ?_, ?_⟩
    · refine finish _ _ none ?_ ?_
      · refine ⟨rfl, head', by simp [Span.solid], ?_⟩
        refine hrest.frame fun k hk => ?_
        have : k < hf'.allocated.length := by
          obtain ⟨s, hs⟩ := hrest.mem_alloc k hk
          rw [List.getElem?_eq_some_iff] at hs; exact hs.1
        rw [List.getElem?_append_left this]
      · intro k hk
        simp only [List.nil_append, keys_cons, List.mem_cons, not_or] at hk
        have hk1 : @Ne Nat k hf'.allocated.length := hk.1
        by_cases hlt : k < hf'.allocated.length
        · rw [List.getElem?_append_left hlt]
        · rw [List.getElem?_eq_none (by simp; omega), List.getElem?_eq_none (by omega)]
    · simpa using g6
  · simp only [lastKey_concat]
    have hpL : p ∉ keys L := by
      have h3 : (keys (L ++ [(p, s)])).Nodup := (List.nodup_append.1 (keys_append _ _ ▸ hnd')).1
      rw [keys_append, List.nodup_append] at h3
      intro h; exact h3.2.2 p h p (by simp) rfl
    have hprest : p ∉ keys rest' := by
      rw [keys_append, List.nodup_append] at hnd'
      intro h; exact hnd'.2.2 p (by simp) p h rfl
    have hplt : p < hf'.allocated.length := by
      obtain ⟨s, hs⟩ := hpre.mem_alloc p (by simp)
      rw [List.getElem?_eq_some_iff] at hs; exact hs.1
    have hp0 := (hpre.setLast (b' := none) hpL).1
    simp only [span_eq_ok.2 hp0, bind_ok, insertSpan]
    -- after insertion
    have hpre1 : Seg (hf'.allocated ++ [some ⟨new'.min, new'.max, new'.area, mid⟩]) head' (L ++ [(p, s)]) mid :=
      hpre.frame fun k hk => by
        have : k < hf'.allocated.length := by
          obtain ⟨s, hs⟩ := hpre.mem_alloc k hk
          rw [List.getElem?_eq_some_iff] at hs; exact hs.1
        rw [List.getElem?_append_left this]
    obtain ⟨hp1, hp2⟩ := hpre1.setLast (b' := some hf'.allocated.length) hpL
    have hsp : ({ hf' with allocated := hf'.allocated ++ [some ⟨new'.min, new'.max, new'.area, mid⟩] } : Heightfield).span p
        = .ok ⟨s.min, s.max, s.area, mid⟩ := span_eq_ok.2 hp1
    rw [hsp, bind_ok, setSpan_ok (s0 := ⟨s.min, s.max, s.area, mid⟩) (by exact hp1)]
    refine ⟨_, (L ++ [(p, s)]) ++ (hf'.allocated.length, new'.solid) :: rest', rfl, g2, g3, by simp [hlen'], ?_, ?_⟩
    · have hset : hf'.spans.set col head' = hf'.spans := by
        rw [List.getElem?_eq_some_iff] at hhead'
        obtain ⟨_, h⟩ := hhead'
        rw [← h, List.set_getElem_self]
      have := finish ((hf'.allocated ++ [some (⟨new'.min, new'.max, new'.area, mid⟩ : Span)]).set p (some (⟨s.min, s.max, s.area, some hf'.allocated.length⟩ : Span))) head' none
        (hp2.append (M := (hf'.allocated.length, new'.solid) :: rest') ⟨rfl, mid, ?_, ?_⟩) ?_
      · rw [hset] at this; exact this
      · rw [List.getElem?_set_ne (by omega)]; simp [Span.solid]
      · refine hrest.frame fun k hk => ?_
        have : k < hf'.allocated.length := by
          obtain ⟨s, hs⟩ := hrest.mem_alloc k hk
          rw [List.getElem?_eq_some_iff] at hs; exact hs.1
        rw [List.getElem?_set_ne, List.getElem?_append_left this]
        rintro rfl; exact hprest hk
      · intro k hk
        simp only [keys_append, keys_cons, List.mem_append, List.mem_cons, not_or] at hk
        have hk1 : @Ne Nat k hf'.allocated.length := hk.2.1
        rw [List.getElem?_set_ne (Ne.symm hk.1.2.1)]
        by_cases hlt : k < hf'.allocated.length
        · rw [List.getElem?_append_left hlt]
        · rw [List.getElem?_eq_none (by simp; omega), List.getElem?_eq_none (by omega)]
    · simpa using g6

/-- Iterating a column visits exactly the represented entries. -/
theorem visitFrom_of_seg {hf : Heightfield} : ∀ {L : List Entry} {a : Option SpanKey} {fuel : Nat},
    Seg hf.allocated a L none → L.length ≤ fuel →
    ∃ l, hf.visitFrom fuel a = .ok l ∧ l.map (fun p => (p.1, p.2.solid)) = L
  | [], a, fuel, h, _ => by cases h; exact ⟨[], by cases fuel <;> rfl, rfl⟩
  | (k, s) :: L, a, fuel, ⟨ha, nxt, hk, h1⟩, hlen => by
    subst ha
    obtain ⟨fuel, rfl⟩ : ∃ f, fuel = f + 1 := ⟨fuel - 1, by simp at hlen; omega⟩
    obtain ⟨l, hl, hl2⟩ := visitFrom_of_seg h1 (by simpa using hlen : L.length ≤ fuel)
    refine ⟨(k, ⟨s.min, s.max, s.area, nxt⟩) :: l, ?_, by rw [List.map_cons, hl2]; rfl⟩
    simp only [visitFrom, span_eq_ok.2 hk, bind_ok]
    simp [hl]

theorem HFRep.visit {hf : Heightfield} {cols} (hr : HFRep hf cols) {c : Nat} (hc : c < hf.spans.length) :
    ∃ l, hf.visit c = .ok l ∧ l.map (fun p => (p.1, p.2.solid)) = cols c := by
  have hseg := hr.seg c _ (List.getElem?_eq_getElem hc)
  obtain ⟨l, hl, hl2⟩ := visitFrom_of_seg hseg (hseg.length_le (hr.nodup c hc))
  exact ⟨l, by simp [Heightfield.visit, idx_ok hc, hl], hl2⟩

theorem HFRep.column {hf : Heightfield} {cols} (hr : HFRep hf cols) {c : Nat} (hc : c < hf.spans.length) :
    hf.column c = .ok (solids (cols c)) := by
  obtain ⟨l, hl, hl2⟩ := hr.visit hc
  have : l.map (fun p => p.2.solid) = solids (cols c) := by
    rw [← hl2]; simp [solids]
  simp [Heightfield.column, hl, this]

end Rerecast
