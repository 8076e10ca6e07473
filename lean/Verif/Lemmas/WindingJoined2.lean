import Verif.Lemmas.WindingJoined
/-! The simplified outlines of regions that meet along portals. -/
set_option linter.unusedVariables false
set_option linter.unusedSectionVars false
namespace Rerecast
open Classical

theorem changed_of_words {points : RawContour} {i : Nat} (h1 : wordAt points i &&& REGION_MASK = wordAt points (i + 1) &&& REGION_MASK)
    (h2 : wordAt points i &&& AREA_BORDER = wordAt points (i + 1) &&& AREA_BORDER) : changed points i = false := by
  unfold changed
  apply decide_eq_false
  push Not
  exact ⟨h1, h2⟩

namespace CompactHeightfield
section
variable {chf : CompactHeightfield} (hwf : chf.WellFormed)
include hwf

/-- Number `k` of the boundary sides of an outline, and raw vertex number `k`. -/
structure SideOf (chf : CompactHeightfield) (o : Outline) (k : Nat) (s : Side) : Prop where
  get : (chf.boundaryOf o.round)[k % o.raw.length]? = some s
  dir : s.2 < 4
  region : chf.RegionOf s.1 o.region
  bound : chf.BoundarySide s
  start : planeAt o.raw (k + o.raw.length - 1) = cellCorner (chf.sideEnds s).1
  stop : planeAt o.raw k = cellCorner (chf.sideEnds s).2
  word : (∃ j, chf.Link s.1 s.2 j ∧ chf.RegionOf j (wordAt o.raw k &&& REGION_MASK)) ∨ ((∀ j, ¬ chf.Link s.1 s.2 j) ∧ wordAt o.raw k &&& REGION_MASK = 0)
  area : wordAt o.raw k &&& AREA_BORDER ≠ 0 ↔ ∃ j a, chf.Link s.1 s.2 j ∧ chf.areas[j]? = some a ∧ a ≠ o.area

theorem outline_pos {o : Outline} (ho : chf.IsOutline o) : 0 < o.raw.length := by
  obtain ⟨s0, h0, hb0, _⟩ := ho.start
  rw [← ho.raw.length_eq]
  apply List.length_pos_of_mem (a := s0)
  unfold boundaryOf
  rw [List.mem_filter]
  exact ⟨List.mem_of_mem_head? h0, by simpa using hb0⟩

theorem sideOf {o : Outline} (ho : chf.IsOutline o) (k : Nat) : ∃ s, chf.SideOf o k s := by
  have hn := outline_pos hwf ho
  obtain ⟨s, h1, h2, h3, h4, h5, h6, h7⟩ := outline_side_at hwf ho (k + o.raw.length - 1)
  have e : k + o.raw.length - 1 + 1 = k + o.raw.length := by omega
  rw [e, Nat.add_mod_right] at h1
  rw [e, planeAt_period] at h5
  rw [e, wordAt_period] at h6 h7
  obtain ⟨x, z, sp, hat, e1, e2⟩ := h5
  obtain ⟨rfl, rfl⟩ := at_unique hwf hat
  exact ⟨s, h1, h2, h3, h4, e1, e2, h6, h7⟩

theorem SideOf.unique {o : Outline} {k : Nat} {s s' : Side} (h : chf.SideOf o k s) (h' : chf.SideOf o k s') : s = s' := by
  have := h.get.symm.trans h'.get
  injection this

theorem SideOf.next {o : Outline} (ho : chf.IsOutline o) {k : Nat} {s s' : Side} (h : chf.SideOf o k s) (h' : chf.SideOf o (k + 1) s') : chf.NextSide s s' :=
  outline_next hwf ho k s s' h.get h'.get

theorem SideOf.mem {o : Outline} {k : Nat} {s : Side} (h : chf.SideOf o k s) : s ∈ o.round := by
  have := List.mem_of_getElem? h.get
  unfold boundaryOf at this
  exact (List.mem_filter.1 this).1

variable (hua : ∀ i k r, ProperRegion r → chf.RegionOf i r → chf.RegionOf k r → chf.areas[i]? = chf.areas[k]?)
include hua

theorem SideOf.portal {o : Outline} (ho : chf.IsOutline o) {k w : Nat} {s : Side} (h : chf.SideOf o k s) : chf.PortalSide o.region w s ↔
    w ≠ 0 ∧ wordAt o.raw k &&& REGION_MASK = w ∧ wordAt o.raw k &&& AREA_BORDER = 0 := by
  have huniq : ∀ {j j' : Nat}, chf.Link s.1 s.2 j → chf.Link s.1 s.2 j' → j = j' := by
    intro j j' h1 h2
    rw [← nbr_iff_link hwf h.dir] at h1 h2
    rw [h1] at h2; cases h2; rfl
  have hlt : ∀ {j : Nat}, chf.Link s.1 s.2 j → j < chf.spans.length := by
    intro j h1
    exact (nbr_lt hwf h.dir ((nbr_iff_link hwf h.dir).2 h1)).2
  constructor
  · rintro ⟨hd, hr, hb, hw, j, hj, hjw, ha⟩
    refine ⟨hw, ?_, ?_⟩
    · rcases h.word with ⟨j', hj', hjr⟩ | ⟨hno, _⟩
      · rw [huniq hj' hj] at hjr
        rw [← ((regionOf_iff hwf).1 hjr).2, ← ((regionOf_iff hwf).1 hjw).2]
      · exact absurd hj (hno j)
    · by_contra hne
      obtain ⟨j', a, hj', hja, hne⟩ := h.area.1 hne
      rw [huniq hj' hj, ha, outline_area hwf ho hua hr] at hja
      injection hja with hja
      exact hne hja.symm
  · rintro ⟨hw, h1, h2⟩
    refine ⟨h.dir, h.region, h.bound, hw, ?_⟩
    rcases h.word with ⟨j, hj, hjr⟩ | ⟨_, h0⟩
    · refine ⟨j, hj, by rw [← h1]; exact hjr, ?_⟩
      rw [outline_area hwf ho hua h.region, areas_get hwf (hlt hj)]
      by_contra hne
      exact h.area.2 ⟨j, _, hj, areas_get hwf (hlt hj), fun e => hne (by rw [e])⟩ h2
    · exact absurd (h1.symm.trans h0) hw

theorem SideOf.joint {S : Nat → Prop} {o : Outline} (ho : chf.IsOutline o) (hoS : S o.region) {k : Nat} {s : Side} (h : chf.SideOf o k s) :
    JoinWord S o.raw k ↔ chf.Joint S s := by
  constructor
  · rintro ⟨h1, h2, h3⟩
    exact ⟨o.region, _, hoS, h2, (h.portal hwf hua ho).2 ⟨h1, rfl, h3⟩⟩
  · rintro ⟨r, w, hr, hw, hp⟩
    have e : r = o.region := ((regionOf_iff hwf).1 hp.2.1).2.symm.trans ((regionOf_iff hwf).1 h.region).2
    subst e
    obtain ⟨g1, g2, g3⟩ := (h.portal hwf hua ho).1 hp
    exact ⟨by rw [g2]; exact g1, by rw [g2]; exact hw, g3⟩

/-- Without a change the portals are consecutive portals between the same regions. -/
theorem SideOf.jointNext {S : Nat → Prop} {o : Outline} (ho : chf.IsOutline o) (hoS : S o.region) {k : Nat} {s s' : Side} (h : chf.SideOf o k s)
    (h' : chf.SideOf o (k + 1) s') (hj : JoinWord S o.raw (k + 1)) (hc : changed o.raw k = false) : chf.JointNext S s s' := by
  obtain ⟨e1, e2⟩ := changed_false hc
  refine ⟨o.region, wordAt o.raw (k + 1) &&& REGION_MASK, hoS, hj.2.1, (h.portal hwf hua ho).2 ⟨hj.1, e1, by rw [e2]; exact hj.2.2⟩,
    (h'.portal hwf hua ho).2 ⟨hj.1, rfl, hj.2.2⟩, h.next hwf ho h'⟩

theorem SideOf.not_changed {S : Nat → Prop} {o : Outline} (ho : chf.IsOutline o) {k : Nat} {s s' : Side} (h : chf.SideOf o k s)
    (h' : chf.SideOf o (k + 1) s') (hn : chf.JointNext S s s') : changed o.raw k = false := by
  obtain ⟨r, w, hr, hw, hp, hp', _⟩ := hn
  have e : r = o.region := ((regionOf_iff hwf).1 hp.2.1).2.symm.trans ((regionOf_iff hwf).1 h.region).2
  subst e
  obtain ⟨_, g2, g3⟩ := (h.portal hwf hua ho).1 hp
  obtain ⟨_, g2', g3'⟩ := (h'.portal hwf hua ho).1 hp'
  exact changed_of_words (g2.trans g2'.symm) (g3.trans g3'.symm)

/-- A portal where the region or area across changes is followed by no portal between the same regions. -/
theorem SideOf.last {S : Nat → Prop} {o : Outline} (ho : chf.IsOutline o) {k : Nat} {s : Side} (h : chf.SideOf o k s)
    (hc : changed o.raw k = true) (a : Side) : ¬ chf.JointNext S s a := by
  intro hn
  obtain ⟨s', h'⟩ := sideOf hwf ho (k + 1)
  have : a = s' := by
    obtain ⟨_, _, _, _, _, _, hx⟩ := hn
    exact nextSide_unique hwf h.dir hx (h.next hwf ho h')
  subst this
  rw [h.not_changed hwf hua ho h' hn] at hc
  cases hc

end

section
variable {chf : CompactHeightfield} (hwf : chf.WellFormed)
  (hua : ∀ i k r, ProperRegion r → chf.RegionOf i r → chf.RegionOf k r → chf.areas[i]? = chf.areas[k]?)
  {S : Nat → Prop} {outlines : List Outline} (hout : ∀ o ∈ outlines, chf.IsOutline o)
  (hdis : outlines.Pairwise fun o o' => ∀ s ∈ o.round, s ∉ o'.round)
  (hcov : ∀ s, s.2 < 4 → chf.BoundarySide s → ¬ chf.Isolated s.1 → ∃ o ∈ outlines, s ∈ o.round)
  (hni : ∀ i r, S r → chf.RegionOf i r → ¬ chf.Isolated i)
include hwf hua hout hdis hcov hni

/-- A portal before which the region or area across changes follows no portal between the same regions. -/
theorem SideOf.first {o : Outline} (ho : o ∈ outlines) {k : Nat} {s : Side} (h : chf.SideOf o (k + 1) s)
    (hc : changed o.raw k = true) (a : Side) : ¬ chf.JointNext S a s := by
  intro hn
  have hn' := hn
  obtain ⟨r, w, hr, hw, hp, hp', hnx⟩ := hn
  obtain ⟨o', ho', ha⟩ := hcov a hp.1 hp.2.2.1 (hni _ r hr hp.2.1)
  have hab : a ∈ chf.boundaryOf o'.round := by
    unfold boundaryOf
    exact List.mem_filter.2 ⟨ha, by simpa using hp.2.2.1⟩
  obtain ⟨j, hj⟩ := List.getElem?_of_mem hab
  have hlen' := (hout o' ho').raw.length_eq
  have hjl : j < o'.raw.length := by rw [← hlen']; exact (List.getElem?_eq_some_iff.1 hj).1
  obtain ⟨a', ha'⟩ := sideOf hwf (hout o' ho') j
  have ea : a' = a := by
    have := ha'.get
    rw [Nat.mod_eq_of_lt hjl, hj] at this
    injection this with this
    exact this.symm
  subst ea
  obtain ⟨b, hb⟩ := sideOf hwf (hout o' ho') (j + 1)
  have eb : b = s := nextSide_unique hwf hp.1 (ha'.next hwf (hout o' ho') hb) hnx
  subst eb
  have hoo : o' = o := by
    by_contra hne
    have hsymm : ∀ o1 ∈ outlines, ∀ o2 ∈ outlines, o1 ≠ o2 → ∀ s ∈ o1.round, s ∉ o2.round := by
      intro o1 h1 o2 h2 hne
      intro s h3 h4
      obtain ⟨a, ha, rfl⟩ := List.mem_iff_getElem.1 h1
      obtain ⟨b, hb, rfl⟩ := List.mem_iff_getElem.1 h2
      rw [List.pairwise_iff_getElem] at hdis
      rcases Nat.lt_trichotomy a b with hab | hab | hab
      · exact hdis a b ha hb hab s h3 h4
      · subst hab; exact hne rfl
      · exact hdis b a hb ha hab s h4 h3
    exact hsymm o' ho' o ho hne b (hb.mem hwf) (h.mem hwf)
  subst hoo
  have hnd : (chf.boundaryOf o'.round).Nodup := List.Nodup.filter _ (hout o' ho').circuit.nodup
  have hn0 := outline_pos hwf (hout o' ho')
  have hk1 : (k + 1) % o'.raw.length < (chf.boundaryOf o'.round).length := by rw [hlen']; exact Nat.mod_lt _ hn0
  have hidx : (j + 1) % o'.raw.length = (k + 1) % o'.raw.length := by
    have h1 := hb.get
    have h2 := h.get
    exact (List.getElem?_inj (by rw [hlen']; exact Nat.mod_lt _ hn0) hnd).1 (h1.trans h2.symm)
  have hjk : j % o'.raw.length = k % o'.raw.length := by
    have e : ∀ x, x % o'.raw.length = ((x + 1) % o'.raw.length + (o'.raw.length - 1)) % o'.raw.length := by
      intro x
      rw [Nat.mod_add_mod, show x + 1 + (o'.raw.length - 1) = x + o'.raw.length by omega, Nat.add_mod_right]
    rw [e j, e k, hidx]
  have hak : chf.SideOf o' k a' := by
    obtain ⟨c, hcs⟩ := sideOf hwf (hout o' ho') k
    have : c = a' := by
      have h1 := hcs.get
      rw [← hjk, ha'.get] at h1
      injection h1 with h1
      exact h1.symm
    rw [← this]; exact hcs
  rw [hak.not_changed hwf hua (hout o' ho') h hn'] at hc
  cases hc

theorem run_exists {points : RawContour} (hn : 0 < points.length) {i : Nat} (hc : changed points i = true) : ∃ j, RunTo points i j := by
  have hex : ∃ d, changed points (i + 1 + d) = true :=
    ⟨points.length - 1, by rw [show i + 1 + (points.length - 1) = i + points.length by omega, changed_period]; exact hc⟩
  refine ⟨i + 1 + Nat.find hex, by omega, Nat.find_spec hex, ?_⟩
  intro k h1 h2
  have := Nat.find_min hex (m := k - (i + 1)) (by omega)
  rw [show i + 1 + (k - (i + 1)) = k by omega] at this
  simpa using this

/-- The run of portals that starts where the region or area across changes. -/
theorem SideOf.run {o : Outline} (ho : o ∈ outlines) (hoS : S o.region) {i j : Nat} {s t : Side} (h : chf.SideOf o (i + 1) s) (ht : chf.SideOf o j t)
    (hj : JoinWord S o.raw (i + 1)) (hc : changed o.raw i = true) (hr : RunTo o.raw i j) : chf.RunOf S s t := by
  have hw := unchanged_words hr.2.2
  have hjall : ∀ k, i < k → k ≤ j → JoinWord S o.raw k := by
    intro k h1 h2
    obtain ⟨g1, g2⟩ := hw k h1 h2
    unfold JoinWord at hj ⊢
    rw [← g1, ← g2]; exact hj
  have hchain : ∀ d, i + 1 + d ≤ j → ∀ a, chf.SideOf o (i + 1 + d) a → Relation.ReflTransGen (chf.JointNext S) s a := by
    intro d
    induction d with
    | zero =>
      intro _ a ha
      rw [h.unique hwf ha]
    | succ d ih =>
      intro hd a ha
      obtain ⟨b, hb⟩ := sideOf hwf (hout o ho) (i + 1 + d)
      refine (ih (by omega) b hb).tail ?_
      exact hb.jointNext hwf hua (hout o ho) hoS ha (hjall _ (by omega) (by omega)) (hr.2.2 _ (by omega) (by omega))
  refine ⟨(h.joint hwf hua (hout o ho) hoS).1 hj, h.first hwf hua hout hdis hcov hni ho hc, ?_, ht.last hwf hua (hout o ho) hr.2.1⟩
  have := hr.1
  refine hchain (j - (i + 1)) (by omega) t ?_
  rw [show i + 1 + (j - (i + 1)) = j by omega]; exact ht

/-- The simplified outline in terms of its sides. -/
theorem outline_simplified {t : Tests} {gn : Nat} {e : Rat} (ht : t.Keeps gn e) (hgw : chf.width ≤ gn) (hgh : chf.height ≤ gn) {maxEdgeLen : Nat}
    {flags : ContourFlags} {o : Outline} (ho : o ∈ outlines) (hoS : S o.region) {out : RawContour} (hok : simplifyContour t o.raw maxEdgeLen flags = .ok out)
    {p : Point} (hclear : chf.ClearOfSet (2 * e) S p) :
    winding p (out.map fun v => v.1.plane) = ((chf.boundaryOf o.round).map (chf.sideTerm S p)).sum := by
  have hoo := hout o ho
  have hn := outline_pos hwf hoo
  have hsame : ¬ AllSame o.raw := by
    intro h
    have h1 := Nat.mod_lt 1 hn
    have := hoo.closed 0 _ _ (List.getElem?_eq_getElem hn) (List.getElem?_eq_getElem (by simpa using h1))
    have e := h _ (List.getElem_mem hn) _ (List.getElem_mem (show (0 + 1) % o.raw.length < o.raw.length by simpa using h1))
    rw [e] at this
    unfold UnitStep at this
    omega
  have hrunE : ∀ i, ∃ j, changed o.raw i = true → RunTo o.raw i j := by
    intro i
    by_cases hc : changed o.raw i = true
    · obtain ⟨j, hj⟩ := run_exists hwf hua hout hdis hcov hni hn hc
      exact ⟨j, fun _ => hj⟩
    · exact ⟨0, fun h => absurd h hc⟩
  choose E hE using hrunE
  have hstart : ∀ i s, chf.SideOf o (i + 1) s → planeAt o.raw i = cellCorner (chf.sideEnds s).1 := by
    intro i s h
    have := h.start
    rw [show i + 1 + o.raw.length - 1 = i + o.raw.length by omega, planeAt_period] at this
    exact this
  have hruns : ∀ i s, chf.SideOf o (i + 1) s → chf.RunsBetween s (planeAt o.raw i) (planeAt o.raw (i + 1)) := by
    intro i s h
    obtain ⟨sp, hsp, _⟩ := h.region
    have hat := at_spec hwf hsp
    exact ⟨_, _, sp, hat, hstart i s h, h.stop⟩
  have hcorner : ∀ w, w ≠ 0 → ∀ i, PortalEnd o.raw w i → chf.PortalCorner o.region w (planeAt o.raw i) := by
    intro w hw i h
    rcases h with h | h
    · obtain ⟨s, hs⟩ := sideOf hwf hoo (i + o.raw.length - 1 + 1)
      have h2 := hruns _ _ hs
      have e0 : i + o.raw.length - 1 + 1 = i + o.raw.length := by omega
      have h1 : chf.PortalSide o.region w s := (hs.portal hwf hua hoo).2 ⟨hw, by rw [e0, wordAt_period]; exact h⟩
      rw [e0, planeAt_period] at h2
      exact ⟨s, _, h1, Or.inr h2⟩
    · obtain ⟨s, hs⟩ := sideOf hwf hoo (i + 1)
      exact ⟨s, _, (hs.portal hwf hua hoo).2 ⟨hw, h⟩, Or.inl (hruns i s hs)⟩
  rw [simplify_sum ht (List.ne_nil_of_length_pos hn) (outline_grid hoo hgw hgh) hsame hok p S ?_ ?_ (e := E) (fun i hc => hE i hc)]
  · -- the sum over the sides
    have hterm : ∀ i s, chf.SideOf o (i + 1) s → joinTerm S o.raw p E i = chf.sideTerm S p s := by
      intro i s hs
      unfold joinTerm
      by_cases hj : JoinWord S o.raw (i + 1)
      · rw [if_pos hj]
        by_cases hc : changed o.raw i = true
        · rw [if_pos hc]
          obtain ⟨t', ht'⟩ := sideOf hwf hoo (E i)
          have hrun := hs.run hwf hua hout hdis hcov hni ho hoS ht' hj hc (hE i hc)
          rw [sideTerm_run hwf hrun, hstart i s hs, ht'.stop]
        · rw [if_neg hc]
          have hjs := (hs.joint hwf hua hoo hoS).1 hj
          unfold sideTerm
          rw [if_pos hjs, dif_neg]
          rintro ⟨t', _, hfirst, _⟩
          obtain ⟨a, ha⟩ := sideOf hwf hoo i
          exact hfirst a (ha.jointNext hwf hua hoo hoS hs hj (by simpa using hc))
      · rw [if_neg hj]
        unfold sideTerm sideCross
        rw [if_neg fun h => hj ((hs.joint hwf hua hoo hoS).2 h), hstart i s hs, hs.stop]
    let G : Nat → Int := fun k => joinTerm S o.raw p E (k + o.raw.length - 1)
    have e1 : ∑ i ∈ Finset.range o.raw.length, joinTerm S o.raw p E i = ∑ i ∈ Finset.range o.raw.length, G (i + 1) := by
      apply Finset.sum_congr rfl
      intro i _
      show _ = joinTerm S o.raw p E (i + 1 + o.raw.length - 1)
      rw [show i + 1 + o.raw.length - 1 = i + o.raw.length by omega, joinTerm_period (fun i hc => hE i hc)]
    have e2 : G o.raw.length = G 0 := by
      show joinTerm S o.raw p E (o.raw.length + o.raw.length - 1) = joinTerm S o.raw p E (0 + o.raw.length - 1)
      rw [show o.raw.length + o.raw.length - 1 = 0 + o.raw.length - 1 + o.raw.length by omega, joinTerm_period (fun i hc => hE i hc)]
    rw [e1, sum_shift_one e2, ← hoo.raw.length_eq]
    refine sum_range_getElem _ _ _ ?_
    intro i s hi
    have hil : i < o.raw.length := by rw [← hoo.raw.length_eq]; exact (List.getElem?_eq_some_iff.1 hi).1
    obtain ⟨s', hs'⟩ := sideOf hwf hoo (i + o.raw.length - 1 + 1)
    have : s' = s := by
      have := hs'.get
      rw [show i + o.raw.length - 1 + 1 = i + o.raw.length by omega, Nat.add_mod_right, Nat.mod_eq_of_lt hil, hi] at this
      injection this with this
      exact this.symm
    subst this
    exact hterm _ _ hs'
  · intro i htol
    obtain ⟨s, hs⟩ := sideOf hwf hoo (i + 1)
    refine hclear.1 o.region s _ _ hoS ⟨hs.dir, hs.region, hs.bound, ?_⟩ (hruns i s hs)
    unfold tolerated intersects at htol
    simp only [ne_eq, decide_not, Bool.not_not, Bool.or_eq_true, decide_eq_true_eq, Bool.not_eq_eq_eq_not, Bool.not_true, decide_eq_false_iff_not] at htol
    rcases htol with htol | htol
    · left
      intro k hk
      rcases hs.word with ⟨k', hk', hkr⟩ | ⟨h, _⟩
      · have h1 := (nbr_iff_link hwf hs.dir).2 hk
        have h2 := (nbr_iff_link hwf hs.dir).2 hk'
        rw [h1] at h2; cases h2
        rw [← htol]; exact hkr
      · exact absurd hk (h k)
    · right
      obtain ⟨k, a, hk, ha, hne⟩ := hs.area.1 htol
      refine ⟨k, hk, ?_⟩
      rw [outline_area hwf hoo hua hs.region, ha]
      simpa using hne
  · intro w hw hJ i j k hi hj hk
    exact hclear.2 o.region w _ _ _ hoS hJ (hcorner w hw i hi) (hcorner w hw j hj) (hcorner w hw k hk)

/-- Some simplified outline of the regions winds around a clear point of their cells. -/
theorem set_winding (hsym : chf.SymmetricLinks) (hS : ∀ r, S r → ProperRegion r) (hm : chf.Matched S) {t : Tests} {gn : Nat} {e : Rat} (ht : t.Keeps gn e)
    (hgw : chf.width ≤ gn) (hgh : chf.height ≤ gn) {maxEdgeLen : Nat} {flags : ContourFlags}
    (hok : ∀ o ∈ outlines, ∃ out, simplifyContour t o.raw maxEdgeLen flags = .ok out) {p : Point} (hclear : chf.ClearOfSet (2 * e) S p)
    {i : Nat} (hi : i < chf.spans.length) (hir : S (chf.reg i)) (hx : (chf.xOf i : Rat) ≤ p.1 ∧ p.1 < (chf.xOf i : Rat) + 1)
    (hz : (chf.zOf i : Rat) ≤ p.2 ∧ p.2 < (chf.zOf i : Rat) + 1) :
    ∃ o ∈ outlines, ∃ out, S o.region ∧ simplifyContour t o.raw maxEdgeLen flags = .ok out ∧ winding p (out.map fun v => v.1.plane) ≠ 0 := by
  by_contra hcon
  push Not at hcon
  have hbmem : ∀ (v : List Side) s, s ∈ chf.boundaryOf v ↔ s ∈ v ∧ chf.BoundarySide s := by
    intro v s
    unfold boundaryOf
    simp [List.mem_filter]
  have hreg : ∀ o ∈ outlines, ∀ s ∈ o.round, s.1 < chf.spans.length ∧ chf.reg s.1 = o.region := by
    intro o ho s hs
    exact (regionOf_iff hwf).1 ((hout o ho).circuit.region s hs)
  have hsum0 : ((outlines.filter fun o => S o.region).map fun o => ((chf.boundaryOf o.round).map (chf.sideTerm S p)).sum).sum = 0 := by
    apply List.sum_eq_zero
    intro a ha
    obtain ⟨o, ho, rfl⟩ := List.mem_map.1 ha
    rw [List.mem_filter] at ho
    have hoS : S o.region := by simpa using ho.2
    obtain ⟨out, hout'⟩ := hok o ho.1
    rw [← outline_simplified hwf hua hout hdis hcov hni ht hgw hgh ho.1 hoS hout' hclear]
    exact hcon o ho.1 out hoS hout'
  have hflat : ((outlines.filter fun o => S o.region).flatMap fun o => chf.boundaryOf o.round).Nodup := by
    rw [List.nodup_flatMap]
    refine ⟨fun o ho => ?_, ?_⟩
    · exact List.Nodup.filter _ (hout o (List.mem_filter.1 ho).1).circuit.nodup
    · refine (hdis.filter _).imp ?_
      intro o o' h s hs hs'
      exact h s ((hbmem _ _).1 hs).1 ((hbmem _ _).1 hs').1
  have hset : ((outlines.filter fun o => S o.region).flatMap fun o => chf.boundaryOf o.round).toFinset =
      (chf.setSides S).filter fun s => chf.BoundarySide s := by
    ext s
    simp only [List.mem_toFinset, List.mem_flatMap, List.mem_filter, Finset.mem_filter, mem_setSides hwf, hbmem, decide_eq_true_eq]
    constructor
    · rintro ⟨o, ⟨ho, hor⟩, hs, hb⟩
      obtain ⟨h1, h2⟩ := hreg o ho s hs
      exact ⟨⟨h1, (hout o ho).circuit.dir s hs, by rw [h2]; exact hor⟩, hb⟩
    · rintro ⟨⟨h1, h2, h3⟩, hb⟩
      obtain ⟨o, ho, hs⟩ := hcov s h2 hb (hni s.1 _ h3 ((regionOf_iff hwf).2 ⟨h1, rfl⟩))
      exact ⟨o, ⟨ho, by rw [← (hreg o ho s hs).2]; exact h3⟩, hs, hb⟩
  have hneg := set_negative hwf hsym hS hm hi hir hx hz
  rw [← hset, List.sum_toFinset _ hflat, sum_flatMap_map] at hneg
  rw [hsum0] at hneg
  omega

end
end CompactHeightfield
end Rerecast
