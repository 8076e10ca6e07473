import Verif.Lemmas.OutlineWalk
import Verif.Lemmas.ContourBuild
import Mathlib.Tactic.IntervalCases
/-! The main loop of `build_contours` goes once around every wall. -/
set_option linter.unusedVariables false
set_option linter.unusedSectionVars false
namespace Rerecast

theorem unborder_eq (b : Nat) (l : RawContour) : unborder b l = withoutBorder b l := by
  unfold unborder withoutBorder
  split
  · rfl
  · have : b = 0 := by omega
    subst this
    simp
namespace CompactHeightfield

/-- The lowest set flag is chosen. -/
theorem firstDir_least {f : BitVec 8} {d : Nat} (h : firstDir f 8 0 = .ok d) (hh : ∀ d, 4 ≤ d → f.getLsbD d = false) :
    d < 4 ∧ f.getLsbD d = true ∧ ∀ e < d, f.getLsbD e = false := by
  simp only [firstDir] at h
  cases h0 : f.getLsbD 0 with
  | true => rw [h0] at h; cases h; exact ⟨by omega, h0, by omega⟩
  | false =>
    cases h1 : f.getLsbD 1 with
    | true => rw [h0, h1] at h; cases h; exact ⟨by omega, h1, by intro e he; interval_cases e; exact h0⟩
    | false =>
      cases h2 : f.getLsbD 2 with
      | true => rw [h0, h1, h2] at h; cases h; exact ⟨by omega, h2, by intro e he; interval_cases e <;> assumption⟩
      | false =>
        cases h3 : f.getLsbD 3 with
        | true => rw [h0, h1, h2, h3] at h; cases h; exact ⟨by omega, h3, by intro e he; interval_cases e <;> assumption⟩
        | false =>
          have h4 := hh 4 (by omega)
          have h5 := hh 5 (by omega)
          have h6 := hh 6 (by omega)
          have h7 := hh 7 (by omega)
          rw [h0, h1, h2, h3, h4, h5, h6, h7] at h
          cases h

section
variable {chf : CompactHeightfield} (hwf : chf.WellFormed) (hsym : chf.SymmetricLinks) (hu : ∀ s ∈ chf.spans, s.region < 65536)
variable (hshort : ∀ r v, chf.IsCircuit r v → (∃ s ∈ v, chf.BoundarySide s) → v.length ≤ 40000)
include hwf hsym hu hshort

theorem boundaryOf_eq {v : List Side} (hv : ∀ s ∈ v, chf.SideOk s) [DecidablePred fun s : Side => chf.Edge s.1 s.2] :
    chf.boundaryOf v = v.filter fun s => chf.Edge s.1 s.2 := by
  unfold boundaryOf
  apply List.filter_congr
  intro s hs
  have := boundarySide_iff hwf (hv s hs).2
  rw [decide_eq_decide, this]
  exact ⟨fun h => h.1, fun h => ⟨h, (hv s hs).1.1⟩⟩

theorem walkContour_round {i : Nat} (hi : i < chf.spans.length) {flags : List (BitVec 8)} {T : Nat → Nat → Prop} (hfl : chf.FlagsAre flags T) {d : Nat}
    {f : BitVec 8} (hf : flags[i]? = some f) (hd : firstDir f 8 0 = .ok d) (he : chf.Edge i d)
    (hT : ∀ m, T (chf.nextSide^[m] (i, d)).1 (chf.nextSide^[m] (i, d)).2 ↔ chf.Edge (chf.nextSide^[m] (i, d)).1 (chf.nextSide^[m] (i, d)).2) :
    ∃ fl verts, chf.walkContour (chf.xOf i) (chf.zOf i) i flags = .ok (fl, verts) ∧
      chf.FlagsAre fl (fun j e => T j e ∧ (j, e) ∉ orbitOf chf.nbr chf.Edge (i, d)) ∧
      chf.IsOutline ⟨orbitOf chf.nbr chf.Edge (i, d), verts, chf.reg i, chf.ara i⟩ := by
  have hd4 := (firstDir_least hd (hfl.2 i f hf).2).1
  have hs : chf.SideOk (i, d) := ⟨⟨hi, he.1⟩, hd4⟩
  have hc := orbit_circuit hwf hsym hs
  have hfo := followable hwf hsym
  have hlen : (orbitOf chf.nbr chf.Edge (i, d)).length = Function.minimalPeriod chf.nextSide (i, d) := orbitOf_length _ _ _
  have hb : chf.BoundarySide (i, d) := (boundarySide_iff hwf (s := (i, d)) hd4).2 ⟨he, hi⟩
  have h40 := hshort _ _ hc ⟨(i, d), orbit_self hfo hs, hb⟩
  have hp : 0 < Function.minimalPeriod chf.nextSide (i, d) := period_pos hfo hs
  have hw0 : WalkAt chf (chf.ara i) (i, d) T 0 ⟨chf.xOf i, chf.zOf i, i, d, flags, []⟩ := by
    refine ⟨⟨hi, rfl, rfl, hd4, hfl.1, hfl.high⟩, rfl, ?_, ?_, rfl⟩
    · exact hfl.congr (by intro j e _ _; simp)
    · simp
  obtain ⟨w', hwl, hw'⟩ := walk_round hwf hsym hu (chf.ara i) hs hT WALK_LIMIT 0 hp (by rw [hlen] at h40; show _ ≤ 0 + 40000; omega) _ hw0
  refine ⟨w'.flags, w'.points, ?_, ?_, ⟨he.1, hc, ?_, ?_, ?_⟩⟩
  · unfold walkContour
    rw [idx_some hf, bind_ok, hd, bind_ok, idx_some (areas_get hwf hi), bind_ok]
    simp only at hwl
    rw [hwl, bind_ok]
  · refine hw'.flags.congr ?_
    intro j e _ _
    constructor
    · rintro ⟨h1, h2⟩
      refine ⟨h1, ?_⟩
      intro hm
      obtain ⟨m, hm, hm'⟩ := List.mem_map.1 hm
      exact h2 m (List.mem_range.1 hm) hm'
    · rintro ⟨h1, h2⟩
      exact ⟨h1, fun m hm e => h2 (List.mem_map.2 ⟨m, List.mem_range.2 hm, e⟩)⟩
  · refine ⟨(i, d), ?_, hb, areas_get hwf hi⟩
    show (orbitOf chf.nbr chf.Edge (i, d)).head? = _
    rw [List.head?_eq_getElem?]
    unfold orbitOf
    rw [List.getElem?_map, List.getElem?_range hp]
    rfl
  · classical
    show List.Forall₂ _ (chf.boundaryOf (orbitOf chf.nbr chf.Edge (i, d))) _
    rw [boundaryOf_eq hwf hsym hu hshort]
    · have hpts := hw'.points
      unfold orbitOf
      convert hpts using 2
    · intro t ht
      obtain ⟨m, rfl⟩ := (mem_orbitOf hfo hs).1 ht
      exact iter_ok hwf hsym hs m
  · have hst := hw'.steps
    have hh := hw'.here
    rw [Function.iterate_minimalPeriod] at hh
    simp only [Prod.mk.injEq] at hh
    rw [hw'.ok.x_eq, hw'.ok.z_eq, hh.1, hh.2] at hst
    exact closed_of_steps hst

/-- What the main loop has done after the spans in `pre`. -/
structure TraceInv (chf : CompactHeightfield) (t : Tests) (maxEdgeLen : Nat) (bf : ContourFlags) (pre : List Nat)
    (st : List (BitVec 8) × List Contour) (outs : List Outline) (ocs : List (Option Contour)) : Prop where
  stored : st.2 = ocs.filterMap id
  each : List.Forall₂ (StoredFor t maxEdgeLen bf chf.borderSize) outs ocs
  outline : ∀ o ∈ outs, chf.IsOutline o
  orbit : ∀ o ∈ outs, ∃ s, chf.SideOk s ∧ ¬ chf.Isolated s.1 ∧ o.round = orbitOf chf.nbr chf.Edge s
  disjoint : outs.Pairwise fun o o' => ∀ s ∈ o.round, s ∉ o'.round
  flags : chf.FlagsAre st.1 (fun i d => chf.Edge i d ∧ (∀ o ∈ outs, (i, d) ∉ o.round) ∧ ¬ (i ∈ pre ∧ chf.Isolated i))
  covered : ∀ i ∈ pre, ¬ chf.Isolated i → ∀ d < 2, chf.Edge i d → ∃ o ∈ outs, (i, d) ∈ o.round

theorem done_closed {outs : List Outline} (ho : ∀ o ∈ outs, ∃ s, chf.SideOk s ∧ ¬ chf.Isolated s.1 ∧ o.round = orbitOf chf.nbr chf.Edge s)
    {o : Outline} (hm : o ∈ outs) {t : Side} (ht : chf.SideOk t) (m : Nat) : chf.nextSide^[m] t ∈ o.round ↔ t ∈ o.round := by
  obtain ⟨s, hs, _, he⟩ := ho o hm
  rw [he]
  induction m with
  | zero => rfl
  | succ m ih =>
    rw [Function.iterate_succ_apply', ← ih]
    exact orbit_closed (followable hwf hsym) hs (iter_ok hwf hsym ht m)

theorem traceStep_inv (t : Tests) (maxEdgeLen : Nat) (bf : ContourFlags) (cap : Nat) {pre : List Nat} {st : List (BitVec 8) × List Contour}
    {outs : List Outline} {ocs : List (Option Contour)} (h : TraceInv chf t maxEdgeLen bf pre st outs ocs) {i : Nat} (hi : i < chf.spans.length)
    (hpre : i ∉ pre) {st' : List (BitVec 8) × List Contour} (hok : traceStep chf t maxEdgeLen bf cap st i = .ok st') :
    ∃ outs' ocs', TraceInv chf t maxEdgeLen bf (pre ++ [i]) st' outs' ocs' := by
  have hfo := followable hwf hsym
  have hil : i < st.1.length := by rw [h.flags.1]; exact hi
  have hf : st.1[i]? = some st.1[i] := List.getElem?_eq_getElem hil
  have hfb := (h.flags.2 i _ hf).1
  have hhi := (h.flags.2 i _ hf).2
  have hsp : ∀ d, chf.Isolated i → d < 4 → chf.Edge i d := fun d hiso hd => ((boundarySide_iff hwf (s := (i, d)) hd).1 (hiso d hd)).1
  -- rounds traced so far avoid isolated spans
  have havoid : ∀ o ∈ outs, ∀ s ∈ o.round, ¬ chf.Isolated s.1 := by
    intro o ho s hs hiso
    obtain ⟨s0, h1, h2, h3⟩ := h.orbit o ho
    rw [h3] at hs
    obtain ⟨m, rfl⟩ := (mem_orbitOf hfo h1).1 hs
    exact h2 (isolated_iter hwf hsym h1 m hiso)
  unfold traceStep at hok
  unfold traceSpan at hok
  rw [idx_some hf, bind_ok] at hok
  by_cases h0 : st.1[i] = 0 ∨ st.1[i] = 0xf#8
  · rw [if_pos h0, setIdx_ok (by rw [h.flags.1]; exact hi)] at hok
    simp only [bind_ok, storeContour] at hok
    cases hok
    refine ⟨outs, ocs, h.stored, h.each, h.outline, h.orbit, h.disjoint, ?_, ?_⟩
    · refine ⟨by simp [h.flags.1], ?_⟩
      intro j g hg
      rw [List.getElem?_set] at hg
      split at hg
      · rename_i e
        subst e
        · cases hg
          refine ⟨?_, by simp⟩
          intro d hd
          simp only [BitVec.ofNat_eq_ofNat, BitVec.getLsbD_zero, Bool.false_eq_true, false_iff]
          rintro ⟨h1, h2, h3⟩
          rcases h0 with h0 | h0
          · -- no flag was set
            have := (hfb d hd).2 ⟨h1, h2, fun hc => hpre hc.1⟩
            rw [h0] at this
            simp at this
          · -- all were
            apply h3
            refine ⟨by simp, ?_⟩
            intro e he
            have : (st.1[i]).getLsbD e = true := by
              rw [h0]
              have : e = 0 ∨ e = 1 ∨ e = 2 ∨ e = 3 := by omega
              rcases this with rfl | rfl | rfl | rfl <;> decide
            exact (boundarySide_iff hwf (s := (i, e)) he).2 ⟨((hfb e he).1 this).1, hi⟩
      · rename_i hne
        obtain ⟨h1, h2⟩ := h.flags.2 j g hg
        refine ⟨?_, h2⟩
        intro d hd
        rw [h1 d hd]
        have : j ∈ pre ++ [i] ↔ j ∈ pre := by
          simp only [List.mem_append, List.mem_singleton]
          exact ⟨fun h => h.resolve_right (fun e => hne e.symm), Or.inl⟩
        simp only [this]
    · intro j hj hiso d hd he
      simp only [List.mem_append, List.mem_singleton] at hj
      rcases hj with hj | rfl
      · exact h.covered j hj hiso d hd he
      · by_contra hcon
        push Not at hcon
        have hb : (st.1[j]).getLsbD d = true := (hfb d (by omega)).2 ⟨he, hcon, fun hc => hpre hc.1⟩
        rcases h0 with h0 | h0
        · rw [h0] at hb; simp at hb
        · apply hiso
          intro e he'
          have : (st.1[j]).getLsbD e = true := by
            rw [h0]
            have : e = 0 ∨ e = 1 ∨ e = 2 ∨ e = 3 := by omega
            rcases this with rfl | rfl | rfl | rfl <;> decide
          exact (boundarySide_iff hwf (s := (j, e)) he').2 ⟨((hfb e he').1 this).1, hi⟩
  · rw [if_neg h0] at hok
    obtain ⟨s, hs⟩ := span_get hwf hi
    rw [idx_some hs, bind_ok] at hok
    have hd : ∃ d < 4, (st.1[i]).getLsbD d = true := by
      by_contra hcon
      push Not at hcon
      apply h0
      left
      apply BitVec.eq_of_getLsbD_eq
      intro d hd8
      by_cases h4 : d < 4
      · have := hcon d h4
        simp [this]
      · simp [hhi d (by omega)]
    obtain ⟨d, hd4, hbit, hfd⟩ := firstDir_ok hwf hd
    obtain ⟨_, _, hleast⟩ := firstDir_least hfd hhi
    obtain ⟨hedge, hnot, _⟩ := (hfb d hd4).1 hbit
    have hside : chf.SideOk (i, d) := ⟨⟨hi, hedge.1⟩, hd4⟩
    have hniso : ¬ chf.Isolated i := by
      intro hiso
      apply h0
      right
      apply BitVec.eq_of_getLsbD_eq
      intro e he8
      by_cases h4 : e < 4
      · have h1 : (st.1[i]).getLsbD e = true := (hfb e h4).2 ⟨hsp e hiso h4, fun o ho hm => havoid o ho _ hm hiso, fun hc => hpre hc.1⟩
        rw [h1]
        have : e = 0 ∨ e = 1 ∨ e = 2 ∨ e = 3 := by omega
        rcases this with rfl | rfl | rfl | rfl <;> decide
      · rw [hhi e (by omega)]
        have : e = 4 ∨ e = 5 ∨ e = 6 ∨ e = 7 := by omega
        rcases this with rfl | rfl | rfl | rfl <;> decide
    have hprop : ¬ ((s.region = REGION_NONE || isBorderRegion s.region) = true) := by
      have := hedge.1
      rw [reg_eq hs] at this
      simp [this.1, this.2]
    rw [if_neg hprop] at hok
    have hT : ∀ m, (fun i d => chf.Edge i d ∧ (∀ o ∈ outs, (i, d) ∉ o.round) ∧ ¬ (i ∈ pre ∧ chf.Isolated i))
        (chf.nextSide^[m] (i, d)).1 (chf.nextSide^[m] (i, d)).2 ↔ chf.Edge (chf.nextSide^[m] (i, d)).1 (chf.nextSide^[m] (i, d)).2 := by
      intro m
      constructor
      · exact fun h => h.1
      · intro he
        refine ⟨he, ?_, ?_⟩
        · intro o ho hm
          exact hnot o ho ((done_closed hwf hsym hu hshort h.orbit ho hside m).1 hm)
        · rintro ⟨_, hiso⟩
          exact hniso (isolated_iter hwf hsym hside m hiso)
    obtain ⟨fl, verts, hw, hfl, hout⟩ := walkContour_round hwf hsym hu hshort hi h.flags hf hfd hedge hT
    rw [idx_some (areas_get hwf hi)] at hok
    simp only [bind_ok, hw] at hok
    -- what is stored
    cases hsim : simplifyContour t verts maxEdgeLen bf with
    | error e => rw [hsim] at hok; cases hok
    | ok simp =>
      rw [hsim] at hok
      simp only [bind_ok] at hok
      cases hdeg : removeDegenerate simp with
      | error e => rw [hdeg] at hok; cases hok
      | ok out =>
        rw [hdeg] at hok
        simp only [bind_ok] at hok
        let o : Outline := ⟨orbitOf chf.nbr chf.Edge (i, d), verts, chf.reg i, chf.ara i⟩
        let c : Option Contour := if 3 ≤ out.length then some ⟨unborder chf.borderSize out, unborder chf.borderSize verts, chf.reg i, chf.ara i⟩ else none
        have hst' : st'.1 = fl ∧ st'.2 = st.2 ++ [c].filterMap id := by
          by_cases h3 : 3 ≤ out.length
          · have hc : c = some ⟨unborder chf.borderSize out, unborder chf.borderSize verts, chf.reg i, chf.ara i⟩ := if_pos h3
            rw [hc]
            rw [if_pos (show out.length ≥ 3 from h3)] at hok
            simp only [bind_ok, storeContour] at hok
            by_cases hcap : st.2.length < cap
            · rw [if_pos hcap] at hok
              simp only [bind_ok] at hok
              cases hok
              refine ⟨rfl, ?_⟩
              rw [reg_eq hs]
              rfl
            · rw [if_neg hcap] at hok
              cases hok
          · have hc : c = none := if_neg h3
            rw [hc]
            rw [if_neg (show ¬ out.length ≥ 3 from h3)] at hok
            simp only [bind_ok, storeContour] at hok
            cases hok
            simp
        have horb : ∀ o' ∈ outs ++ [o], ∃ s, chf.SideOk s ∧ ¬ chf.Isolated s.1 ∧ o'.round = orbitOf chf.nbr chf.Edge s := by
          intro o' ho'
          rcases List.mem_append.1 ho' with h1 | h1
          · exact h.orbit o' h1
          · rw [List.mem_singleton] at h1; subst h1
            exact ⟨(i, d), hside, hniso, rfl⟩
        refine ⟨outs ++ [o], ocs ++ [c], ?_, ?_, ?_, horb, ?_, ?_, ?_⟩
        · rw [hst'.2, List.filterMap_append, h.stored]
        · refine List.rel_append h.each (List.Forall₂.cons ?_ .nil)
          exact ⟨simp, out, hsim, hdeg, by simp only [c, o, unborder_eq]⟩
        · intro o' ho'
          rcases List.mem_append.1 ho' with h1 | h1
          · exact h.outline o' h1
          · rw [List.mem_singleton] at h1; subst h1
            exact hout
        · rw [List.pairwise_append]
          refine ⟨h.disjoint, by simp, ?_⟩
          intro o1 h1 o2 h2 s hs1 hs2
          rw [List.mem_singleton] at h2
          subst h2
          obtain ⟨m, rfl⟩ := (mem_orbitOf hfo hside).1 (show s ∈ orbitOf chf.nbr chf.Edge (i, d) from hs2)
          exact hnot o1 h1 ((done_closed hwf hsym hu hshort h.orbit h1 hside m).1 hs1)
        · rw [hst'.1]
          refine hfl.congr ?_
          intro j e _ _
          have hiso' : chf.Isolated j → (j ∈ pre ++ [i] ↔ j ∈ pre) := by
            intro hj
            simp only [List.mem_append, List.mem_singleton]
            refine ⟨fun h => h.resolve_right (fun e => ?_), Or.inl⟩
            subst e; exact hniso hj
          constructor
          · rintro ⟨⟨h1, h2, h3⟩, h4⟩
            refine ⟨h1, ?_, ?_⟩
            · intro o' ho'
              rcases List.mem_append.1 ho' with h5 | h5
              · exact h2 o' h5
              · rw [List.mem_singleton] at h5; subst h5; exact h4
            · rintro ⟨h5, h6⟩; exact h3 ⟨(hiso' h6).1 h5, h6⟩
          · rintro ⟨h1, h2, h3⟩
            refine ⟨⟨h1, fun o' ho' => h2 o' (by simp [ho']), ?_⟩, h2 o (by simp)⟩
            rintro ⟨h5, h6⟩; exact h3 ⟨(hiso' h6).2 h5, h6⟩
        · intro j hj hisoj e he hej
          simp only [List.mem_append, List.mem_singleton] at hj
          rcases hj with hj | rfl
          · obtain ⟨o', ho', hm⟩ := h.covered j hj hisoj e he hej
            exact ⟨o', by simp [ho'], hm⟩
          · by_contra hcon
            push Not at hcon
            have hcon1 : ∀ o' ∈ outs, (j, e) ∉ o'.round := fun o' ho' => hcon o' (by simp [ho'])
            have hcon2 : (j, e) ∉ orbitOf chf.nbr chf.Edge (j, d) := hcon o (by simp)
            have hbe : (st.1[j]).getLsbD e = true := (hfb e (by omega)).2 ⟨hej, hcon1, fun hc => hpre hc.1⟩
            have hle : d ≤ e := by
              by_contra hlt
              have := hleast e (by omega)
              rw [hbe] at this; cases this
            rcases Nat.lt_or_ge d e with hlt | hge
            · have e1 : e = 1 := by omega
              have e0 : d = 0 := by omega
              subst e1; subst e0
              apply hcon2
              refine (mem_orbitOf hfo hside).2 ⟨1, ?_⟩
              show follow chf.nbr chf.Edge (j, 0) = (j, 1)
              unfold follow
              exact if_pos hedge
            · have : d = e := by omega
              subst this
              exact hcon2 (orbit_self hfo hside)

theorem traceAll_inv (t : Tests) (maxEdgeLen : Nat) (bf : ContourFlags) (cap : Nat) {flags : List (BitVec 8)} (hfl : chf.FlagsAre flags chf.Edge)
    {st : List (BitVec 8) × List Contour} (hok : chf.traceAll t maxEdgeLen bf cap flags = .ok st) :
    ∃ outs ocs, TraceInv chf t maxEdgeLen bf (List.range chf.spans.length) st outs ocs := by
  have hok' : (List.range chf.spans.length).foldlM (traceStep chf t maxEdgeLen bf cap) (flags, []) = .ok st := by
    rw [← hok]
    unfold traceAll
    rw [forSpans_eq hwf]
    rfl
  refine foldlM_holds (fun pre st => ∃ outs ocs, TraceInv chf t maxEdgeLen bf pre st outs ocs) (List.range chf.spans.length) (flags, []) ?_ ?_ st hok'
  · exact ⟨[], [], rfl, .nil, by simp, by simp, .nil, hfl.congr (by intro i d _ _; simp), by simp⟩
  · rintro pre i post s hl ⟨outs, ocs, h⟩ st' hst'
    have hi : i < chf.spans.length := List.mem_range.1 (by rw [hl]; simp)
    have hpre : i ∉ pre := by
      have := List.nodup_range (n := chf.spans.length)
      rw [hl, List.nodup_append] at this
      intro hm
      exact this.2.2 i hm i (by simp) rfl
    exact traceStep_inv hwf hsym hu hshort t maxEdgeLen bf cap h hi hpre hst'

/-- Every boundary side of a span that is not isolated is on a traced round. -/
theorem all_covered {t : Tests} {maxEdgeLen : Nat} {bf : ContourFlags} {st : List (BitVec 8) × List Contour}
    {outs : List Outline} {ocs : List (Option Contour)} (h : TraceInv chf t maxEdgeLen bf (List.range chf.spans.length) st outs ocs)
    {s : Side} (hd : s.2 < 4) (hb : chf.BoundarySide s) (hiso : ¬ chf.Isolated s.1) : ∃ o ∈ outs, s ∈ o.round := by
  obtain ⟨he, hl⟩ := (boundarySide_iff hwf hd).1 hb
  have hs : chf.SideOk s := ⟨⟨hl, he.1⟩, hd⟩
  obtain ⟨m, h1, h2⟩ := orbit_low hwf hsym hs he
  have hok := iter_ok hwf hsym hs m
  obtain ⟨o, ho, hm⟩ := h.covered (chf.nextSide^[m] s).1 (List.mem_range.2 hok.1.1) (fun hc => hiso (isolated_iter hwf hsym hs m hc)) _ h2 h1
  exact ⟨o, ho, (done_closed hwf hsym hu hshort h.orbit ho hs m).1 hm⟩

end
end CompactHeightfield
end Rerecast
