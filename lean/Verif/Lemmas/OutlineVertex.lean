import Verif.Lemmas.OutlineMain
import Verif.Props.C40_C43_Contours
/-! Every vertex of every contour is recorded at a boundary side, whatever the shape of the field. -/
namespace Rerecast
namespace CompactHeightfield

/-- Every flag set belongs to a boundary side. -/
def FlagsIn (chf : CompactHeightfield) (flags : List (BitVec 8)) : Prop :=
  ∀ (j : Nat) (f : BitVec 8), flags[j]? = some f → ∀ d, f.getLsbD d = true → d < 4 ∧ chf.BoundarySide (j, d)

theorem FlagsIn.set {chf : CompactHeightfield} {flags : List (BitVec 8)} (h : chf.FlagsIn flags) {i : Nat} {f g : BitVec 8}
    (hf : flags[i]? = some f) (hg : ∀ d, g.getLsbD d = true → f.getLsbD d = true) : chf.FlagsIn (flags.set i g) := by
  intro j e he d hd
  rw [List.getElem?_set] at he
  split at he
  · rename_i e'
    subst e'
    split at he
    · cases he; exact h _ f hf d (hg d hd)
    · cases he
  · exact h j e he d hd

/-- The vertex records some boundary side. -/
def Recorded (chf : CompactHeightfield) (p : U16Vec3 × Nat) : Prop := ∃ area s, s.2 < 4 ∧ chf.BoundarySide s ∧ chf.RawVertex area s p

section
variable {chf : CompactHeightfield} (hwf : chf.WellFormed) (hu : ∀ s ∈ chf.spans, s.region < 65536)
include hwf hu

theorem walkLoop_recorded (area : Area) (startI startDir : Nat) : ∀ (n : Nat) (w w' : Walk), chf.WalkOk w → chf.FlagsIn w.flags →
    (∀ p ∈ w.points, chf.Recorded p) → chf.walkLoop area startI startDir n w = .ok w' →
    chf.FlagsIn w'.flags ∧ w'.flags.length = chf.spans.length ∧ HighClear w'.flags ∧ ∀ p ∈ w'.points, chf.Recorded p := by
  intro n
  induction n with
  | zero =>
    intro w w' hw hf hp h
    cases h
    exact ⟨hf, hw.flags_len, hw.high, hp⟩
  | succ n ih =>
    intro w w' hw hf hp h
    have hi : w.i < w.flags.length := by rw [hw.flags_len]; exact hw.i_lt
    have hg := List.getElem?_eq_getElem hi
    rw [walkLoop, idx_ok hi, bind_ok] at h
    have fin : ∀ w1 : Walk, chf.WalkOk w1 → chf.FlagsIn w1.flags → (∀ p ∈ w1.points, chf.Recorded p) →
        (if startI = w1.i ∧ startDir = w1.dir then .ok w1 else chf.walkLoop area startI startDir n w1) = .ok w' →
        chf.FlagsIn w'.flags ∧ w'.flags.length = chf.spans.length ∧ HighClear w'.flags ∧ ∀ p ∈ w'.points, chf.Recorded p := by
      intro w1 k1 k2 k3 h
      split at h
      · cases h; exact ⟨k2, k1.flags_len, k1.high, k3⟩
      · exact ih w1 w' k1 k2 k3 h
    cases hb : (w.flags[w.i]).getLsbD w.dir with
    | true =>
      obtain ⟨p, hr, _, he⟩ := walkEdge_spec hwf hu area hw w.flags[w.i]
      rw [hb] at h
      simp only [if_true, he, bind_ok] at h
      refine fin _ (walkOk_edge hwf hw (fun d h4 => ?_) _) ?_ ?_ h
      · rw [BitVec.getLsbD_and, hw.high _ _ hg d h4]; rfl
      · refine hf.set hg fun d hd => ?_
        rw [BitVec.getLsbD_and, Bool.and_eq_true] at hd
        exact hd.1
      · intro q hq
        rcases List.mem_append.1 hq with hq | hq
        · exact hp q hq
        · rw [List.mem_singleton.1 hq]
          exact ⟨area, (w.i, w.dir), hw.dir_lt, (hf _ _ hg _ hb).2, hr⟩
    | false =>
      rw [hb, if_neg (by simp), walkMove_ok hwf hw] at h
      cases hn : chf.nbr w.i w.dir with
      | none =>
        rw [hn] at h
        cases h
        exact ⟨hf, hw.flags_len, hw.high, hp⟩
      | some k =>
        rw [hn] at h
        exact fin _ (walkOk_move hwf hw hn) hf hp h

/-- What the contours traced so far consist of. -/
def AllRecorded (chf : CompactHeightfield) (c : Contour) : Prop :=
  ∃ raw simplified : RawContour, c.rawVertices = withoutBorder chf.borderSize raw ∧ c.vertices = withoutBorder chf.borderSize simplified ∧
    (∀ p ∈ raw, chf.Recorded p) ∧ ∀ v ∈ simplified, ∃ p ∈ raw, v.1 = p.1


theorem traceSpan_recorded (t : Tests) (maxEdgeLen : Nat) (bf : ContourFlags) {flags : List (BitVec 8)} (hf : chf.FlagsIn flags)
    (hlen : flags.length = chf.spans.length) (hhi : HighClear flags) {i : Nat} (hi : i < chf.spans.length)
    {r : List (BitVec 8) × Option Contour} (h : chf.traceSpan t maxEdgeLen bf flags (chf.xOf i) (chf.zOf i) i = .ok r) :
    chf.FlagsIn r.1 ∧ r.1.length = chf.spans.length ∧ HighClear r.1 ∧ ∀ c, r.2 = some c → chf.AllRecorded c := by
  have hg : flags[i]? = some flags[i] := List.getElem?_eq_getElem (by omega)
  unfold traceSpan at h
  rw [idx_some hg, bind_ok] at h
  split at h
  · rw [setIdx_ok (by omega), bind_ok] at h
    cases h
    exact ⟨hf.set hg (by simp), by simp [hlen], hhi.set (by simp), fun c hc => by cases hc⟩
  · obtain ⟨s, hs⟩ := span_get hwf hi
    rw [idx_some hs, bind_ok] at h
    split at h
    · cases h
      exact ⟨hf, hlen, hhi, fun c hc => by cases hc⟩
    · obtain ⟨area, _, h⟩ := bind_inv h
      obtain ⟨⟨fl, verts⟩, hw, h⟩ := bind_inv h
      obtain ⟨simp, hsimp, h⟩ := bind_inv h
      rw [removeDegenerate_eq, bind_ok] at h
      unfold walkContour at hw
      obtain ⟨f0, _, hw⟩ := bind_inv hw
      obtain ⟨d, hd, hw⟩ := bind_inv hw
      obtain ⟨ar, _, hw⟩ := bind_inv hw
      obtain ⟨w', hl, hw⟩ := bind_inv hw
      cases hw
      have hd4 : d < 4 := by
        have : flags[i] = f0 := by
          have e := ‹idx flags i = .ok f0›
          rw [idx_some hg] at e; cases e; rfl
        subst this
        by_contra hc
        have key : ∀ (n d0 d : Nat), firstDir flags[i] n d0 = .ok d → (flags[i]).getLsbD d = true := by
          intro n
          induction n with
          | zero => intro d0 d e; cases e
          | succ n ih =>
            intro d0 d e
            unfold firstDir at e
            split at e
            · cases e; assumption
            · exact ih _ _ e
        have := key 8 0 d hd
        rw [hhi i _ hg d (by omega)] at this
        cases this
      obtain ⟨k1, k2, k3, k4⟩ := walkLoop_recorded hwf hu ar i d WALK_LIMIT ⟨chf.xOf i, chf.zOf i, i, d, flags, []⟩ w'
        ⟨hi, rfl, rfl, hd4, hlen, hhi⟩ hf (fun p hp => by cases hp) hl
      split at h
      · cases h
        refine ⟨k1, k2, k3, fun c hc => ?_⟩
        cases hc
        refine ⟨w'.points, degen [] simp, unborder_eq _ _, unborder_eq _ _, k4, fun v hv => ?_⟩
        have hv' := (degen_sublist simp.length [] simp (Nat.le_refl _)).subset hv
        rw [List.nil_append] at hv'
        by_cases hne : w'.points = []
        · rw [hne] at hsimp
          simp only [simplifyContour, initialVertices, extremeVertices, idx] at hsimp
          simp [bind, Except.bind] at hsimp
        · rcases c40_terminates t w'.points hne maxEdgeLen bf with ⟨out, e, ho⟩ | ⟨_, e⟩
          · rw [hsimp] at e; cases e
            obtain ⟨j, p, hp, ev, _⟩ := ho v hv'
            exact ⟨p, List.mem_of_getElem? hp, ev⟩
          · rw [hsimp] at e; cases e
      · cases h
        exact ⟨k1, k2, k3, fun c hc => by cases hc⟩

theorem buildContours_recorded (t : Tests) (maxEdgeLen : Nat) (bf : ContourFlags) {set : ContourSet}
    (hok : chf.buildContours t maxEdgeLen bf = .ok set) : ∀ c ∈ set.contours, chf.AllRecorded c := by
  unfold buildContours at hok
  obtain ⟨b2, _, hok⟩ := bind_inv hok
  obtain ⟨_, _, hok⟩ := bind_inv hok
  obtain ⟨_, _, hok⟩ := bind_inv hok
  obtain ⟨flags, hm, hfl⟩ := markBoundaries_spec hwf
  rw [hm, bind_ok] at hok
  obtain ⟨st, ht, hok⟩ := bind_inv hok
  cases hok
  unfold traceAll at ht
  rw [forSpans_eq hwf] at ht
  have key : ∀ (l : List Nat) (s0 s1 : List (BitVec 8) × List Contour), (∀ i ∈ l, i < chf.spans.length) →
      (chf.FlagsIn s0.1 ∧ s0.1.length = chf.spans.length ∧ HighClear s0.1 ∧ ∀ c ∈ s0.2, chf.AllRecorded c) →
      l.foldlM (fun (st : List (BitVec 8) × List Contour) i => do
        let (flags, c) ← chf.traceSpan t maxEdgeLen bf st.1 (chf.xOf i) (chf.zOf i) i
        let stored ← storeContour (max chf.maxRegion 8) st.2 c
        .ok (flags, stored)) s0 = .ok s1 → ∀ c ∈ s1.2, chf.AllRecorded c := by
    intro l
    induction l with
    | nil => intro s0 s1 _ h e; cases e; exact h.2.2.2
    | cons i l ih =>
      intro s0 s1 hl h e
      rw [List.foldlM_cons] at e
      obtain ⟨s2, e2, e⟩ := bind_inv e
      refine ih s2 s1 (fun j hj => hl j (by simp [hj])) ?_ e
      obtain ⟨r, hr, e2⟩ := bind_inv e2
      obtain ⟨k1, k2, k3, k4⟩ := traceSpan_recorded hwf hu t maxEdgeLen bf h.1 h.2.1 h.2.2.1 (hl i (by simp)) hr
      obtain ⟨cs, hcs, e2⟩ := bind_inv e2
      cases e2
      refine ⟨k1, k2, k3, ?_⟩
      unfold storeContour at hcs
      split at hcs
      · cases hcs; exact h.2.2.2
      · split at hcs
        · cases hcs
          intro c hc
          rcases List.mem_append.1 hc with hc | hc
          · exact h.2.2.2 c hc
          · rw [List.mem_singleton.1 hc]; exact k4 _ ‹_›
        · cases hcs
  refine key _ _ _ (fun i hi => List.mem_range.1 hi) ⟨?_, hfl.1, hfl.high, fun c hc => by cases hc⟩ ht
  intro j f hj d hd
  have h4 : d < 4 := by
    by_contra hc
    rw [(hfl.2 j f hj).2 d (by omega)] at hd
    cases hd
  exact ⟨h4, (boundarySide_iff hwf (s := (j, d)) h4).2 ⟨((hfl.2 j f hj).1 d h4).1 hd, by
    have := (List.getElem?_eq_some_iff.1 hj).1; rw [hfl.1] at this; exact this⟩⟩

end
end CompactHeightfield
end Rerecast
