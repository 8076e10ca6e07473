import Verif.Lemmas.DistanceField
import Verif.Props.C25_C28_Erosion
/-!
C29-C32: the distance field, on every well-formed compact heightfield.  Vocabulary in `Verif/Spec/Chamfer.lean`:
`AreaEdge`, `Reach`, `PathThrough`, `InCell`, `octile`, `AxisValue`, `DiagonalValue`.
-/
set_option linter.unusedVariables false
namespace Rerecast
open CompactHeightfield

private theorem built {chf : CompactHeightfield} (hwf : chf.WellFormed) (hsm : chf.width ≤ 32767 ∨ chf.height ≤ 32767)
    (hne : chf.spans ≠ []) : ∃ f1 f2 raw m dist, chf.Chamfer chf.areaEdge0 f1 f2 ∧ chf.calculateDistanceField = .ok raw ∧
      Tab chf.spans.length raw f2 ∧ maxUnwrap raw = .ok m ∧ (∀ i < chf.spans.length, f2 i ≤ m) ∧
      (∃ i < chf.spans.length, f2 i = m) ∧ Tab chf.spans.length dist (blurVal chf f2) ∧
      chf.buildDistanceField = .ok { chf with maxDistance := m, dist } := by
  obtain ⟨f1, f2, raw, hc, e1, ht, hb⟩ := distance_spec hwf hsm
  have hraw : raw ≠ [] := by
    intro h; rw [h] at ht; have := ht.1; simp at this
    exact hne (List.length_eq_zero_iff.1 this.symm)
  obtain ⟨m, em, hm, hmem⟩ := maxUnwrap_spec hraw
  obtain ⟨dist, ed, hd⟩ := boxBlur_spec hwf ht (fun i hi => by
    have := hb i hi; have := hc.le12 i; omega)
  refine ⟨f1, f2, raw, m, dist, hc, e1, ht, em, ?_, ?_, hd, ?_⟩
  · intro i hi; exact hm _ (List.mem_of_getElem? (ht.2 i hi))
  · obtain ⟨i, hi⟩ := List.mem_iff_getElem?.1 hmem
    have hil : i < chf.spans.length := by rw [← ht.1]; exact (List.getElem?_eq_some_iff.1 hi).1
    refine ⟨i, hil, ?_⟩
    have := (ht.2 i hil).symm.trans hi
    simpa using this
  · unfold buildDistanceField
    rw [e1, bind_ok, em, bind_ok, ed]; rfl

/-- **C29.** On a well-formed field with at least one span and at most 32767 cells in one of the two directions, the
distance field is built without overflow or out-of-range access; only `max_distance` and `dist` change. -/
theorem c29_no_panic (chf : CompactHeightfield) (hwf : chf.WellFormed) (hsm : chf.width ≤ 32767 ∨ chf.height ≤ 32767)
    (hne : chf.spans ≠ []) : ∃ out, chf.buildDistanceField = .ok out ∧
      out = { chf with maxDistance := out.maxDistance, dist := out.dist } := by
  obtain ⟨f1, f2, raw, m, dist, hc, e1, ht, em, hm, hm', hd, e⟩ := built hwf hsm hne
  exact ⟨_, e, rfl⟩

example : flatChf.WellFormed ∧ flatChf.width ≤ 32767 ∧ flatChf.spans ≠ [] ∧
    (flatChf.buildDistanceField).map (·.dist) = .ok [0, 0, 0, 0, 2, 0, 0, 0, 0] :=
  ⟨flatChf_wellFormed, by decide +kernel, by decide +kernel, by decide +kernel⟩

/-- **C30.** The unsmoothed distances: one per span; 0 exactly for spans at the edge of their area; every value is the
cost of a route over reported neighbours to such an edge span. -/
theorem c30_raw_distances (chf : CompactHeightfield) (hwf : chf.WellFormed) (hsm : chf.width ≤ 32767 ∨ chf.height ≤ 32767)
    (raw : List Nat) (hok : chf.calculateDistanceField = .ok raw) :
    raw.length = chf.spans.length ∧ ∀ (i v : Nat), raw[i]? = some v →
      (v = 0 ↔ chf.AreaEdge i) ∧ ∃ k, chf.AreaEdge k ∧ chf.Reach i k v := by
  obtain ⟨f1, f2, raw', hc, e1, ht, hb⟩ := distance_spec hwf hsm
  rw [hok] at e1; cases e1
  refine ⟨ht.1, fun i v hv => ?_⟩
  have hi : i < chf.spans.length := by rw [← ht.1]; exact (List.getElem?_eq_some_iff.1 hv).1
  have e : v = f2 i := by have := hv.symm.trans (ht.2 i hi); simpa using this
  subst e
  obtain ⟨k, c, hk, hr, hf⟩ := hc.witness2 hwf _ i (Nat.le_refl _) hi
  have hke : chf.AreaEdge k := by
    by_contra hcon
    unfold areaEdge0 at hf; rw [if_neg hcon] at hf
    have := hb i hi; have := hc.le12 i; omega
  have hc' : f2 i = c := by unfold areaEdge0 at hf; rw [if_pos hke] at hf; omega
  refine ⟨⟨?_, ?_⟩, k, hke, by rw [hc']; exact hr⟩
  · intro h0
    have : c = 0 := by omega
    subst this
    cases hr
    exact hke
  · intro he
    have h1 := hc.le01 i; have h2 := hc.le12 i
    unfold areaEdge0 at h1; rw [if_pos he] at h1; omega

/-- **C30 (upper bound).** A distance `v` promises clearance: every cell within chamfer cost `v` lies inside the field and
holds a span reachable over reported neighbours, all of them with the same area. -/
theorem c30_clearance (chf : CompactHeightfield) (hwf : chf.WellFormed) (hsm : chf.width ≤ 32767 ∨ chf.height ≤ 32767)
    (raw : List Nat) (hok : chf.calculateDistanceField = .ok raw) (i x z : Nat) (s : CompactSpan) (hat : chf.At x z i s)
    (v : Nat) (hv : raw[i]? = some v) (dx dz : Int) (hd : octile dx dz ≤ v) :
    ∃ ds k, (∀ d ∈ ds, d < 4) ∧ chf.PathThrough (fun j => chf.areas[j]? = chf.areas[i]?) i ds k ∧ chf.InCell k (x + dx) (z + dz) := by
  obtain ⟨f1, f2, raw', hc, e1, ht, hb⟩ := distance_spec hwf hsm
  rw [hok] at e1; cases e1
  have hi : i < chf.spans.length := by rw [← ht.1]; exact (List.getElem?_eq_some_iff.1 hv).1
  have e : v = f2 i := by have := hv.symm.trans (ht.2 i hi); simpa using this
  subst e
  refine clear_octile hwf hc (G := fun j => chf.areas[j]? = chf.areas[i]?) ?_ ?_ hat rfl dx dz hd
  · intro j hj hg h0 d hd
    by_contra hcon
    unfold areaEdge0 at h0
    rw [if_pos ⟨hj, d, hd, by rw [hg]; exact hcon⟩] at h0
    omega
  · intro k hk
    obtain ⟨a, ha⟩ := area_get hwf hi
    rw [ha] at hk
    rw [← hwf.areas_len]; exact (List.getElem?_eq_some_iff.1 hk).1

example : flatChf.calculateDistanceField = .ok [0, 0, 0, 0, 2, 0, 0, 0, 0] := by decide +kernel

/-- **C31.** After building, there is one stored distance per span, none exceeds `max_distance`, `max_distance` is the
largest unsmoothed distance, and a stored distance is 0 exactly for spans at the edge of their area. -/
theorem c31_bounded_by_max (chf : CompactHeightfield) (hwf : chf.WellFormed) (hsm : chf.width ≤ 32767 ∨ chf.height ≤ 32767)
    (out : CompactHeightfield) (hok : chf.buildDistanceField = .ok out) :
    out.dist.length = out.spans.length ∧ (∀ d ∈ out.dist, d ≤ out.maxDistance) ∧
    (∃ raw, chf.calculateDistanceField = .ok raw ∧ out.maxDistance ∈ raw ∧ ∀ v ∈ raw, v ≤ out.maxDistance) ∧
    ∀ i : Nat, out.dist[i]? = some 0 ↔ chf.AreaEdge i := by
  have hne : chf.spans ≠ [] := by
    intro h
    obtain ⟨f1, f2, raw, hc, e1, ht, hb⟩ := distance_spec hwf hsm
    have : raw = [] := by have := ht.1; rw [h] at this; exact List.length_eq_zero_iff.1 this
    unfold buildDistanceField at hok
    rw [e1, this] at hok
    cases hok
  obtain ⟨f1, f2, raw, m, dist, hc, e1, ht, em, hm, ⟨im, him, hm'⟩, hd, e⟩ := built hwf hsm hne
  rw [e] at hok; cases hok
  refine ⟨hd.1, ?_, ⟨raw, e1, ?_, ?_⟩, ?_⟩
  · intro d hdm
    obtain ⟨i, hi⟩ := List.mem_iff_getElem?.1 hdm
    have hil : i < chf.spans.length := by rw [← hd.1]; exact (List.getElem?_eq_some_iff.1 hi).1
    have : d = blurVal chf f2 i := by have := hi.symm.trans (hd.2 i hil); simpa using this
    rw [this]; exact (blurVal_le hwf hm hil).2
  · simp only; rw [← hm']; exact List.mem_of_getElem? (ht.2 im him)
  · intro v hv
    obtain ⟨i, hi⟩ := List.mem_iff_getElem?.1 hv
    have hil : i < chf.spans.length := by rw [← ht.1]; exact (List.getElem?_eq_some_iff.1 hi).1
    have : v = f2 i := by have := hi.symm.trans (ht.2 i hil); simpa using this
    rw [this]; exact hm i hil
  · intro i
    by_cases hi : i < chf.spans.length
    · have hz : ∀ j < chf.spans.length, (f2 j = 0 ↔ chf.AreaEdge j) ∧ f2 j ≠ 1 := by
        intro j hj
        have hr := c30_raw_distances chf hwf hsm raw e1
        obtain ⟨h1, k, h2, h3⟩ := hr.2 j (f2 j) (ht.2 j hj)
        refine ⟨h1, ?_⟩
        intro h; rw [h] at h3
        cases h3
      simp only
      rw [hd.2 i hi]
      have : blurVal chf f2 i = 0 ↔ f2 i = 0 := by
        unfold blurVal
        split
        · rfl
        · rename_i hgt
          constructor
          · intro h0
            exfalso
            -- all four neighbours exist and are not edges, as the span's own value is above 2
            have hne' : ¬ chf.AreaEdge i := by
              intro he; have := (hz i hi).1.2 he; omega
            have big : ∀ d < 4, 2 ≤ axisVal chf f2 i d := by
              intro d hd4
              obtain ⟨a, ha⟩ := nonEdge_nbr hwf hi hne' hd4
              have hal := (nbr_lt hwf hd4 ha).2
              have hl := (nbr_iff_link hwf hd4).1 ha
              unfold axisVal; rw [ha]
              simp only
              by_contra hcon
              have h0' : f2 a = 0 := by have := (hz a hal).2; omega
              have hea := (hz a hal).1.1 h0'
              have hf0 : chf.areaEdge0 a = 0 := by unfold areaEdge0; rw [if_pos hea]
              have route := fun us ds h1 h2 hp => hc.route hwf us ds h1 h2 (i := i) (k := a) hp
              have h4 : d = 0 ∨ d = 1 ∨ d = 2 ∨ d = 3 := by omega
              rcases h4 with rfl | rfl | rfl | rfl
              · have := route [] [([0], 2)] (by simp) (by decide) ⟨a, hl, rfl⟩
                simp [cost] at this; omega
              · have := route [([1], 2)] [] (by decide) (by simp) ⟨a, hl, rfl⟩
                simp [cost] at this; omega
              · have := route [([2], 2)] [] (by decide) (by simp) ⟨a, hl, rfl⟩
                simp [cost] at this; omega
              · have := route [] [([3], 2)] (by simp) (by decide) ⟨a, hl, rfl⟩
                simp [cost] at this; omega
            have b0 := big 0 (by omega)
            have b1 := big 1 (by omega)
            have b2 := big 2 (by omega)
            have b3 := big 3 (by omega)
            unfold blurSum at h0
            omega
          · intro h; omega
      rw [← (hz i hi).1, ← this]
      simp
    · constructor
      · intro h
        have : i < chf.spans.length := by rw [← hd.1]; exact (List.getElem?_eq_some_iff.1 h).1
        exact absurd this hi
      · intro h; exact absurd h.1 hi

/-- **C31 (smoothing).** A stored distance is the unsmoothed one if that is at most 2, and otherwise the mean, rounded to
nearest, of the own unsmoothed distance, the four neighbours' and the four diagonal neighbours' (own value where
missing). -/
theorem c31_smoothing (chf : CompactHeightfield) (hwf : chf.WellFormed) (hsm : chf.width ≤ 32767 ∨ chf.height ≤ 32767)
    (out : CompactHeightfield) (hok : chf.buildDistanceField = .ok out) (raw : List Nat)
    (hraw : chf.calculateDistanceField = .ok raw) (i v : Nat) (hv : raw[i]? = some v) (u w : Nat → Nat)
    (hu : ∀ d < 4, chf.AxisValue raw i v d (u d)) (hw : ∀ d < 4, chf.DiagonalValue raw i v d (w d)) :
    out.dist[i]? = some (if v ≤ 2 then v
      else (v + (u 0 + u 1 + u 2 + u 3) + (w 0 + w 1 + w 2 + w 3) + 5) / 9) := by
  have hne : chf.spans ≠ [] := by
    intro h
    obtain ⟨f1, f2, raw', hc, e1, ht, hb⟩ := distance_spec hwf hsm
    have : raw' = [] := by have := ht.1; rw [h] at this; exact List.length_eq_zero_iff.1 this
    unfold buildDistanceField at hok
    rw [e1, this] at hok
    cases hok
  obtain ⟨f1, f2, raw', m, dist, hc, e1, ht, em, hm, hm', hd, e⟩ := built hwf hsm hne
  rw [hraw] at e1; cases e1
  rw [e] at hok; cases hok
  have hi : i < chf.spans.length := by rw [← ht.1]; exact (List.getElem?_eq_some_iff.1 hv).1
  have e : v = f2 i := by have := hv.symm.trans (ht.2 i hi); simpa using this
  subst e
  have hua : ∀ d < 4, u d = axisVal chf f2 i d ∧ w d = diagVal chf f2 i d := by
    intro d hd4
    have h1 := hu d hd4
    have h2 := hw d hd4
    unfold axisVal diagVal
    cases hn : chf.nbr i d with
    | none =>
      have hno : ¬ ∃ a, chf.Link i d a := by
        rintro ⟨a, ha⟩; rw [(nbr_iff_link hwf hd4).2 ha] at hn; cases hn
      constructor
      · rcases h1 with ⟨a, ha, _⟩ | ⟨_, h⟩
        · exact absurd ⟨a, ha⟩ hno
        · exact h
      · rcases h2 with ⟨a, b, ha, _⟩ | ⟨_, h⟩
        · exact absurd ⟨a, ha⟩ hno
        · exact h
    | some a =>
      simp only
      have hla := (nbr_iff_link hwf hd4).1 hn
      have hal := (nbr_lt hwf hd4 hn).2
      have uniq : ∀ a', chf.Link i d a' → a' = a := by
        intro a' ha'; have := (nbr_iff_link hwf hd4).2 ha'; rw [hn] at this; cases this; rfl
      constructor
      · rcases h1 with ⟨a', ha, hv⟩ | ⟨h, _⟩
        · have := uniq a' ha; subst this
          have := hv.symm.trans (ht.2 a' hal); simpa using this
        · exact absurd ⟨a, hla⟩ h
      · cases hm : chf.nbr a ((d + 1) % 4) with
        | none =>
          rcases h2 with ⟨a', b, ha, hb, _⟩ | ⟨_, h⟩
          · have := uniq a' ha; subst this
            rw [(nbr_iff_link hwf (by omega)).2 hb] at hm; cases hm
          · exact h
        | some b =>
          have hlb := (nbr_iff_link hwf (by omega)).1 hm
          have hbl := (nbr_lt hwf (by omega) hm).2
          rcases h2 with ⟨a', b', ha, hb, hv⟩ | ⟨h, _⟩
          · have := uniq a' ha; subst this
            have := (nbr_iff_link hwf (by omega)).2 hb
            rw [hm] at this; cases this
            have := hv.symm.trans (ht.2 b hbl); simpa using this
          · exact absurd ⟨a, b, hla, hlb⟩ h
  simp only
  rw [hd.2 i hi]
  have h0 := hua 0 (by omega)
  have h1 := hua 1 (by omega)
  have h2 := hua 2 (by omega)
  have h3 := hua 3 (by omega)
  congr 1
  unfold blurVal
  split
  · rfl
  · unfold blurSum; congr 1; omega

/-- **C32 is violated in full:** on the
well-formed conversion of an empty heightfield, building the distance field panics. -/
theorem c32_violated : ∃ (hf : Heightfield) (chf : CompactHeightfield), hf = Heightfield.new 1 1 ∧
    hf.intoCompact 10 1 = .ok chf ∧ chf.WellFormed ∧ chf.buildDistanceField = .error .panic := by
  refine ⟨_, _, rfl, rfl, ?_, by decide +kernel⟩
  exact wellFormed_of_ops (w := 1) (h := 1) (ops := []) (hf := Heightfield.new 1 1) (wh := 10) (climb := 1)
    (by unfold ValidOps; decide) (by simp) (by decide) (by decide) rfl (by decide) rfl

/-- Every well-formed field without spans makes it panic. -/
theorem c32_empty_panics (chf : CompactHeightfield) (hwf : chf.WellFormed) (hsm : chf.width ≤ 32767 ∨ chf.height ≤ 32767)
    (he : chf.spans = []) : chf.buildDistanceField = .error .panic := by
  obtain ⟨f1, f2, raw, hc, e1, ht, hb⟩ := distance_spec hwf hsm
  have : raw = [] := by have := ht.1; rw [he] at this; exact List.length_eq_zero_iff.1 this
  unfold buildDistanceField
  rw [e1, this]; rfl

/-- **C32 (partial).** Building succeeds exactly on the fields that have a span.  Missing: the empty field, where it
panics. -/
theorem c32_succeeds_iff_partial (chf : CompactHeightfield) (hwf : chf.WellFormed)
    (hsm : chf.width ≤ 32767 ∨ chf.height ≤ 32767) :
    (∃ out, chf.buildDistanceField = .ok out) ↔ chf.spans ≠ [] := by
  constructor
  · rintro ⟨out, h⟩ he
    rw [c32_empty_panics chf hwf hsm he] at h; cases h
  · intro h
    obtain ⟨out, h1, _⟩ := c29_no_panic chf hwf hsm h
    exact ⟨out, h1⟩

end Rerecast
