import Verif.Lemmas.ContourWalk
import Mathlib.Tactic.Linarith
import Mathlib.Algebra.Order.Ring.Abs
/-! `build_contours` on a well-formed field. -/
set_option linter.unusedVariables false
set_option linter.unusedSectionVars false
namespace Rerecast
namespace CompactHeightfield

theorem steps_near {c : Nat × Nat} {l : RawContour} {e : Nat × Nat} (h : Steps c l e) : ∀ p ∈ l,
    ((p.1.x : Int) - c.1).natAbs + ((p.1.z : Int) - c.2).natAbs ≤ l.length := by
  induction l generalizing c with
  | nil => intro p hp; cases hp
  | cons q l ih =>
    intro p hp
    have h1 := h.1
    have e1 : q.1.xz = (q.1.x, q.1.z) := rfl
    rw [e1] at h1
    unfold UnitStep at h1
    simp only at h1
    rcases List.mem_cons.1 hp with rfl | hp
    · simp; omega
    · have := ih h.2 p hp
      rw [e1] at this
      simp only at this
      simp; omega

theorem steps_pair {c : Nat × Nat} {l : RawContour} {e : Nat × Nat} (h : Steps c l e) : ∀ p ∈ l, ∀ q ∈ l,
    ((q.1.x : Int) - p.1.x).natAbs + ((q.1.z : Int) - p.1.z).natAbs ≤ l.length := by
  induction l generalizing c with
  | nil => intro p hp; cases hp
  | cons r l ih =>
    intro p hp q hq
    have h2 := steps_near h.2
    have e1 : r.1.xz = (r.1.x, r.1.z) := rfl
    rw [e1] at h2
    simp only at h2
    rcases List.mem_cons.1 hp with ep | hp' <;> rcases List.mem_cons.1 hq with eq | hq'
    · subst ep; subst eq; simp
    · subst ep; have := h2 q hq'; simp; omega
    · subst eq; have := h2 p hp'; simp; omega
    · have := ih h.2 p hp' q hq'; simp; omega

theorem no_split_overflow {c : Nat × Nat} {l : RawContour} {e : Nat × Nat} (h : Steps c l e) (hlen : l.length ≤ 40000) {m : Nat} (hm : m ≤ 255) :
    ¬ SplitOverflow l m := by
  rintro (h1 | ⟨p, hp, q, hq, h1⟩)
  · omega
  · have h2 := steps_pair h p hp q hq
    generalize ((q.1.x : Int) - p.1.x) = a at *
    generalize ((q.1.z : Int) - p.1.z) = b at *
    have ha : a.natAbs ≤ 40000 := by omega
    have key : a ^ 2 + b ^ 2 ≤ ((a.natAbs + b.natAbs : Nat) : Int) ^ 2 := by
      push_cast
      have e1 : a ^ 2 = |a| ^ 2 := (sq_abs a).symm
      have e2 : b ^ 2 = |b| ^ 2 := (sq_abs b).symm
      rw [e1, e2]
      have := abs_nonneg a
      have := abs_nonneg b
      nlinarith [mul_nonneg (abs_nonneg a) (abs_nonneg b)]
    have h3 : ((a.natAbs + b.natAbs : Nat) : Int) ≤ 40000 := by omega
    have h4 : (0 : Int) ≤ ((a.natAbs + b.natAbs : Nat) : Int) := by omega
    nlinarith

section
variable {chf : CompactHeightfield} (hwf : chf.WellFormed) (t : Tests) {maxEdgeLen : Nat} (hme : maxEdgeLen ≤ 255) (bf : ContourFlags)
include hwf hme

/-- Tracing from one span always succeeds. -/
theorem traceSpan_ok {flags : List (BitVec 8)} (hlen : flags.length = chf.spans.length) (hhi : HighClear flags) {i : Nat}
    (hi : i < chf.spans.length) : ∃ r, chf.traceSpan t maxEdgeLen bf flags (chf.xOf i) (chf.zOf i) i = .ok r ∧
      r.1.length = chf.spans.length ∧ HighClear r.1 := by
  have hf : flags[i]? = some flags[i] := List.getElem?_eq_getElem (by omega)
  unfold traceSpan
  rw [idx_some hf, bind_ok]
  by_cases h0 : flags[i] = 0 ∨ flags[i] = 0xf#8
  · rw [if_pos h0, setIdx_ok (by omega), bind_ok]
    exact ⟨_, rfl, by simp [hlen], hhi.set (by simp)⟩
  · rw [if_neg h0]
    obtain ⟨s, hs⟩ := span_get hwf hi
    rw [idx_some hs, bind_ok]
    split
    · exact ⟨_, rfl, hlen, hhi⟩
    · have ha : i < chf.areas.length := by rw [hwf.areas_len]; exact hi
      have hd : ∃ d < 4, (flags[i]).getLsbD d = true := by
        by_contra hcon
        push Not at hcon
        apply h0
        left
        apply BitVec.eq_of_getLsbD_eq
        intro d hd8
        by_cases h4 : d < 4
        · have := hcon d h4
          simp [this]
        · simp [hhi i _ hf d (by omega)]
      obtain ⟨⟨fl, verts⟩, c, e, hw, hl2, hh2, hne, h40, hst⟩ := walkContour_ok hwf hlen hhi hf hd
      obtain ⟨simp, hsimp, _⟩ := (simplify_spec t verts hne maxEdgeLen bf).total (no_split_overflow hst h40 hme)
      rw [idx_ok ha, bind_ok, hw, bind_ok]
      simp only
      rw [hsimp, bind_ok, removeDegenerate_eq, bind_ok]
      split
      · exact ⟨_, rfl, hl2, hh2⟩
      · exact ⟨_, rfl, hl2, hh2⟩

/-- One step of the main loop. -/
def traceStep (chf : CompactHeightfield) (t : Tests) (maxEdgeLen : Nat) (bf : ContourFlags) (cap : Nat)
    (st : List (BitVec 8) × List Contour) (i : Nat) : Res (List (BitVec 8) × List Contour) := do
  let (flags, c) ← chf.traceSpan t maxEdgeLen bf st.1 (chf.xOf i) (chf.zOf i) i
  let stored ← storeContour cap st.2 c
  .ok (flags, stored)

theorem traceAll_eq (cap : Nat) (flags : List (BitVec 8)) :
    chf.traceAll t maxEdgeLen bf cap flags = (List.range chf.spans.length).foldlM (traceStep chf t maxEdgeLen bf cap) (flags, []) := by
  unfold traceAll
  rw [forSpans_eq hwf]
  rfl

/-- With enough room the loop succeeds; with less it succeeds exactly if the contours fit, and then with the same
result. -/
theorem traceFold (cap : Nat) : ∀ (l : List Nat) (flags : List (BitVec 8)) (stored : List Contour), (∀ i ∈ l, i < chf.spans.length) →
    flags.length = chf.spans.length → HighClear flags →
    ∃ fl cs, cs.length ≤ l.length ∧
      (∀ N, stored.length + l.length ≤ N → l.foldlM (traceStep chf t maxEdgeLen bf N) (flags, stored) = .ok (fl, stored ++ cs)) ∧
      (stored.length ≤ cap → l.foldlM (traceStep chf t maxEdgeLen bf cap) (flags, stored) =
        if (stored ++ cs).length ≤ cap then .ok (fl, stored ++ cs) else .error .panic) := by
  intro l
  induction l with
  | nil =>
    intro flags stored _ hlen hhi
    exact ⟨flags, [], by simp, by simp, by intro h; simp [h]⟩
  | cons i l ih =>
    intro flags stored hl hlen hhi
    obtain ⟨⟨fl1, c⟩, hr, hlen1, hhi1⟩ := traceSpan_ok hwf t hme bf hlen hhi (hl i (by simp))
    have hl' : ∀ j ∈ l, j < chf.spans.length := fun j hj => hl j (by simp [hj])
    cases c with
    | none =>
      have hstep : ∀ N, traceStep chf t maxEdgeLen bf N (flags, stored) i = .ok (fl1, stored) := by
        intro N; simp only [traceStep, hr, bind_ok, storeContour]
      obtain ⟨fl, cs, h0, h1, h2⟩ := ih fl1 stored hl' hlen1 hhi1
      refine ⟨fl, cs, by simp; omega, ?_, ?_⟩
      · intro N hN
        rw [List.foldlM_cons, hstep, bind_ok]
        exact h1 N (by simp at hN; omega)
      · intro hc
        rw [List.foldlM_cons, hstep, bind_ok]
        exact h2 hc
    | some c =>
      have hstep : ∀ N, traceStep chf t maxEdgeLen bf N (flags, stored) i =
          if stored.length < N then .ok (fl1, stored ++ [c]) else .error .panic := by
        intro N; simp only [traceStep, hr, bind_ok, storeContour]
        split <;> rfl
      obtain ⟨fl, cs, h0, h1, h2⟩ := ih fl1 (stored ++ [c]) hl' hlen1 hhi1
      refine ⟨fl, c :: cs, by simp; omega, ?_, ?_⟩
      · intro N hN
        simp at hN
        rw [List.foldlM_cons, hstep, if_pos (by omega), bind_ok]
        have := h1 N (by simp; omega)
        simpa using this
      · intro hc
        rw [List.foldlM_cons, hstep]
        by_cases hlt : stored.length < cap
        · rw [if_pos hlt, bind_ok]
          have := h2 (by simp; omega)
          simpa using this
        · rw [if_neg hlt, if_neg (by simp; omega)]
          rfl

theorem traceAll_spec {flags : List (BitVec 8)} (hlen : flags.length = chf.spans.length) (hhi : HighClear flags) (cap : Nat) :
    ∃ fl cs, chf.traceAll t maxEdgeLen bf chf.spans.length flags = .ok (fl, cs) ∧
      chf.traceAll t maxEdgeLen bf cap flags = if cs.length ≤ cap then .ok (fl, cs) else .error .panic := by
  obtain ⟨fl, cs, h0, h1, h2⟩ := traceFold hwf t hme bf cap (List.range chf.spans.length) flags [] (fun i hi => List.mem_range.1 hi) hlen hhi
  refine ⟨fl, cs, ?_, ?_⟩
  · rw [traceAll_eq hwf t hme bf]
    simpa using h1 chf.spans.length (by simp)
  · rw [traceAll_eq hwf t hme bf]
    simpa using h2 (by simp)

end
end CompactHeightfield
end Rerecast
