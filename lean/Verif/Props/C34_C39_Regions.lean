import Verif.Lemmas.RegionsMerge
import Verif.Props.C29_C32_Distance
/-!
C34-C39, C62, C63: watershed regions, on every well-formed compact heightfield whose distance field has been built
(`Ready`).  Vocabulary in `Verif/Spec/Regions.lean`: `ProperRegion`, `RegionOf`, `InBorder`, `JoinedWithin`,
`ReachedWithin`.
-/
set_option linter.unusedVariables false
namespace Rerecast
open CompactHeightfield

/-- The field is well-formed and has a distance field: one distance per span and a `u16` maximum. -/
structure CompactHeightfield.Ready (chf : CompactHeightfield) : Prop where
  wf : chf.WellFormed
  dist : chf.dist.length = chf.spans.length
  max : chf.maxDistance ≤ 65535

/-- Every field that `build_distance_field` returns is ready (and its maximum leaves room for one more level). -/
theorem ready_of_distance_field (chf : CompactHeightfield) (hwf : chf.WellFormed) (hsm : chf.width ≤ 32767 ∨ chf.height ≤ 32767)
    (out : CompactHeightfield) (hok : chf.buildDistanceField = .ok out) : out.Ready ∧ out.maxDistance < 65535 := by
  have h := c31_bounded_by_max chf hwf hsm out hok
  obtain ⟨raw, e, hmem, _⟩ := h.2.2.1
  obtain ⟨f1, f2, raw', hc, e1, ht, hb⟩ := distance_spec hwf hsm
  rw [e] at e1; cases e1
  have hlt : out.maxDistance ≤ 65532 := by
    obtain ⟨i, hi⟩ := List.mem_iff_getElem?.1 hmem
    have hil : i < chf.spans.length := by rw [← ht.1]; exact (List.getElem?_eq_some_iff.1 hi).1
    have : out.maxDistance = f2 i := by have := hi.symm.trans (ht.2 i hil); simpa using this
    have h1 := hb i hil; have h2 := hc.le12 i
    omega
  have hne : chf.spans ≠ [] := by
    intro h0
    have : raw = [] := by have := ht.1; rw [h0] at this; exact List.length_eq_zero_iff.1 this
    rw [this] at hmem; cases hmem
  obtain ⟨out', e', hout⟩ := c29_no_panic chf hwf hsm hne
  rw [hok] at e'; cases e'
  refine ⟨⟨?_, h.1, by omega⟩, by omega⟩
  rw [hout]
  exact ⟨hwf.width_u16, hwf.height_u16, hwf.cells_len, hwf.areas_len, hwf.partition, hwf.con⟩

/-- A concrete ready field: the 3 × 3 plain with its distances. -/
def readyChf : CompactHeightfield :=
  match flatChf.buildDistanceField with
  | .ok c => c
  | .error _ => ⟨0, 0, 0, 0, 0, 0, 0, [], [], [], []⟩

theorem readyChf_ready : readyChf.Ready ∧ readyChf.maxDistance < 65535 := by
  have hok : flatChf.buildDistanceField.toBool = true := by decide +kernel
  unfold readyChf
  cases hx : flatChf.buildDistanceField with
  | ok c => exact ready_of_distance_field flatChf flatChf_wellFormed (Or.inl (by decide +kernel)) c hx
  | error e => rw [hx] at hok; cases hok

private theorem built {chf : CompactHeightfield} (hr : chf.Ready) {b min size : Nat} {out : CompactHeightfield}
    (hok : chf.buildRegions b min size = .ok out) :
    ∃ f next, (∃ reg, chf.labelRegions b = .ok (reg, next)) ∧ Built chf b min next f out.maxRegion ∧
      out = { chf with borderSize := b, maxRegion := out.maxRegion,
                       spans := List.zipWith (fun s r => ({ s with region := r } : CompactSpan)) chf.spans f } ∧
      ∀ i r, out.RegionOf i r ↔ i < chf.spans.length ∧ f.getD i 0 = r := by
  have h := (buildRegions_out hr.wf hr.dist hr.max b min size).holds
  rw [hok] at h
  obtain ⟨f, maxR, reg, next, e, hB, ho⟩ := h out rfl
  refine ⟨f, next, ⟨reg, e⟩, ?_, ?_, ?_⟩
  · rw [ho]; exact hB
  · rw [ho]
  · intro i r
    rw [ho]
    unfold RegionOf
    simp only [List.getElem?_zipWith]
    constructor
    · rintro ⟨s, hs, rfl⟩
      cases h1 : chf.spans[i]? with
      | none => rw [h1] at hs; simp at hs
      | some t =>
        cases h2 : f[i]? with
        | none => rw [h1, h2] at hs; simp at hs
        | some q =>
          rw [h1, h2] at hs
          simp at hs
          subst hs
          exact ⟨(List.getElem?_eq_some_iff.1 h1).1, by simp [List.getD_eq_getElem?_getD, h2]⟩
    · rintro ⟨hi, rfl⟩
      have hf : i < f.length := by rw [hB.len]; exact hi
      rw [List.getElem?_eq_getElem hi, List.getElem?_eq_getElem hf]
      exact ⟨_, rfl, by simp [List.getD_eq_getElem?_getD, hf]⟩

/-- **C34.** A span with any region (proper or border) is walkable; nothing is changed but `border_size`, `max_region` and
the regions of the spans. -/
theorem c34_regions_only_on_walkable (chf : CompactHeightfield) (hr : chf.Ready) (b min size : Nat) (out : CompactHeightfield)
    (hok : chf.buildRegions b min size = .ok out) :
    (∀ i r, out.RegionOf i r → r ≠ REGION_NONE → chf.WalkableAt i) ∧
    out = { chf with borderSize := b, maxRegion := out.maxRegion, spans := out.spans } ∧
    out.spans.map (fun s => { s with region := REGION_NONE }) = chf.spans.map (fun s => { s with region := REGION_NONE }) := by
  obtain ⟨f, next, _, hB, ho, hro⟩ := built hr hok
  refine ⟨?_, ?_, ?_⟩
  · intro i r hi h0
    obtain ⟨h1, h2⟩ := (hro i r).1 hi
    exact hB.walk i h1 (by rw [h2]; exact h0)
  · rw [ho]
  · rw [ho]
    simp only
    have hl := hB.len
    apply List.ext_getElem
    · simp [hl]
    · intro i h1 h2
      simp

example : readyChf.Ready ∧ (readyChf.buildRegions 0 0 0).map (fun c => (c.maxRegion, c.spans.map (·.region))) =
    .ok (2, List.replicate 9 1) := ⟨readyChf_ready.1, by decide +kernel⟩

/-- **C35.** Two spans with the same proper region have the same area. -/
theorem c35_regions_uniform (chf : CompactHeightfield) (hr : chf.Ready) (b min size : Nat) (out : CompactHeightfield)
    (hok : chf.buildRegions b min size = .ok out) (i j r : Nat) (hp : ProperRegion r) (hi : out.RegionOf i r) (hj : out.RegionOf j r) :
    out.areas[i]? = out.areas[j]? := by
  obtain ⟨f, next, _, hB, ho, hro⟩ := built hr hok
  obtain ⟨h1, h2⟩ := (hro i r).1 hi
  obtain ⟨h3, h4⟩ := (hro j r).1 hj
  have h := hB.unif i h1 j h3 (by simp only; rw [h2, h4]) (by simp only; rw [h2]; exact hp)
  rw [ho]
  simp only
  have l1 : i < chf.areas.length := by rw [hr.wf.areas_len]; exact h1
  have l2 : j < chf.areas.length := by rw [hr.wf.areas_len]; exact h3
  unfold areaAt at h
  rw [List.getElem?_eq_getElem l1, List.getElem?_eq_getElem l2]
  simpa [List.getD_eq_getElem?_getD, l1, l2] using h

/-- **C36.** Every region id is none, flagged as border, or between 1 and `max_region`, which is too small to carry the
flag. -/
theorem c36_ids_bounded (chf : CompactHeightfield) (hr : chf.Ready) (b min size : Nat) (out : CompactHeightfield)
    (hok : chf.buildRegions b min size = .ok out) :
    out.maxRegion < 32768 ∧ ∀ i r, out.RegionOf i r → r < 65536 ∧
      (r = REGION_NONE ∨ isBorderRegion r = true ∨ (1 ≤ r ∧ r ≤ out.maxRegion)) := by
  obtain ⟨f, next, _, hB, ho, hro⟩ := built hr hok
  refine ⟨hB.maxlt, ?_⟩
  intro i r hi
  obtain ⟨h1, h2⟩ := (hro i r).1 hi
  refine ⟨by rw [← h2]; exact hB.u16 i h1, ?_⟩
  by_cases h0 : r = REGION_NONE
  · exact Or.inl h0
  · by_cases hb : isBorderRegion r = true
    · exact Or.inr (Or.inl hb)
    · have hp : ProperRegion r := ⟨h0, by simpa using hb⟩
      have := hB.range i h1 (by rw [h2]; exact hp)
      exact Or.inr (Or.inr ⟨Nat.pos_of_ne_zero h0, by omega⟩)

example : (readyChf.buildRegions 1 0 0).map (fun c => (c.maxRegion, c.spans.map (·.region))) =
    .ok (6, [0x8003, 0x8003, 0x8003, 0x8001, 5, 0x8002, 0x8004, 0x8004, 0x8004]) := by decide +kernel

private theorem inBorder_iff {chf : CompactHeightfield} (hwf : chf.WellFormed) {b i : Nat} (hi : i < chf.spans.length) :
    chf.InBorder b i ↔ chf.Strip b i := by
  constructor
  · rintro ⟨x, z, s, hat, h⟩
    obtain ⟨rfl, rfl⟩ := at_unique hwf hat
    exact h
  · intro h
    exact ⟨_, _, _, at_spec hwf (List.getElem?_eq_getElem hi), h⟩

/-- **C37.** Every walkable span in the outer `b` rows and columns has a border-flagged region. -/
theorem c37_border_painted (chf : CompactHeightfield) (hr : chf.Ready) (b min size : Nat) (out : CompactHeightfield)
    (hok : chf.buildRegions b min size = .ok out) (i r : Nat) (hi : out.RegionOf i r) (hw : chf.WalkableAt i) (hb : chf.InBorder b i) :
    isBorderRegion r = true := by
  obtain ⟨f, next, _, hB, ho, hro⟩ := built hr hok
  obtain ⟨h1, h2⟩ := (hro i r).1 hi
  rw [← h2]
  exact hB.painted i h1 hw ((inBorder_iff hr.wf h1).1 hb)

/-- **C37 (converse).** No other span has a border-flagged region, as long as the labelling used at most 32767 ids (beyond
that, an id carries the flag bit itself). -/
theorem c37_only_border (chf : CompactHeightfield) (hr : chf.Ready) (b min size : Nat) (out : CompactHeightfield)
    (hok : chf.buildRegions b min size = .ok out)
    (hfew : ∀ reg next, chf.labelRegions b = .ok (reg, next) → next ≤ 32768) (i r : Nat) (hi : out.RegionOf i r)
    (hflag : isBorderRegion r = true) : chf.WalkableAt i ∧ chf.InBorder b i := by
  obtain ⟨f, next, ⟨reg, e⟩, hB, ho, hro⟩ := built hr hok
  obtain ⟨h1, h2⟩ := (hro i r).1 hi
  have h := (hB.strip (hfew reg next e) i h1).1 (by rw [h2]; exact hflag)
  exact ⟨h.1, (inBorder_iff hr.wf h1).2 h.2⟩

/-- **C37 (sides).** The border-flagged id tells the side: spans with the id of a side are within `b` cells of that side. -/
theorem c37_border_sides (chf : CompactHeightfield) (hr : chf.Ready) (b min size : Nat) (out : CompactHeightfield)
    (hok : chf.buildRegions b min size = .ok out)
    (hfew : ∀ reg next, chf.labelRegions b = .ok (reg, next) → next ≤ 32768) (i r : Nat) (hi : out.RegionOf i r)
    (hflag : isBorderRegion r = true) (x z : Nat) (s : CompactSpan) (hat : chf.At x z i s) :
    (r = 0x8001 ∧ x < b) ∨ (r = 0x8002 ∧ chf.width ≤ x + b) ∨ (r = 0x8003 ∧ z < b) ∨ (r = 0x8004 ∧ chf.height ≤ z + b) := by
  obtain ⟨f, next, ⟨reg, e⟩, hB, ho, hro⟩ := built hr hok
  obtain ⟨h1, h2⟩ := (hro i r).1 hi
  have h := (hB.strip (hfew reg next e) i h1).1 (by rw [h2]; exact hflag)
  have := hB.sided i h1 h.1 h.2
  obtain ⟨rfl, rfl⟩ := at_unique hr.wf hat
  rw [h2] at this
  exact this

/-- The condition of the converse holds for every field of at most 32763 spans. -/
theorem c37_few_of_small (chf : CompactHeightfield) (hr : chf.Ready) (b : Nat) (hs : chf.spans.length ≤ 32763) :
    ∀ reg next, chf.labelRegions b = .ok (reg, next) → next ≤ 32768 := by
  intro reg next e
  have h := (labelRegions_out hr.wf hr.dist b hr.max).holds
  rw [e] at h
  have h' : Labelled chf b (reg, next) := h _ rfl
  have := h'.used.next_le
  simp only at this
  omega

example : readyChf.spans.length ≤ 32763 ∧ readyChf.width = 3 := by decide +kernel

/-- **C38.** Region building never loops forever. -/
theorem c38_terminates (chf : CompactHeightfield) (hr : chf.Ready) (b min size : Nat) :
    chf.buildRegions b min size ≠ .error .diverge :=
  (buildRegions_out hr.wf hr.dist hr.max b min size).no_diverge

/-- **C38 (success).** On a field of at most 32766 spans whose maximum distance is below 65535 it returns a result. -/
theorem c38_succeeds (chf : CompactHeightfield) (hr : chf.Ready) (hs : chf.spans.length ≤ 32766) (hm : chf.maxDistance < 65535)
    (b min size : Nat) : ∃ out, chf.buildRegions b min size = .ok out := by
  obtain ⟨out, h, _⟩ := (buildRegions_out hr.wf hr.dist hr.max b min size).total (by omega)
  exact ⟨out, h⟩

/-- **C38 (finding).** A maximum distance of 65535 overflows. -/
theorem c38_max_distance_overflow (chf : CompactHeightfield) (hm : chf.maxDistance = 65535) (b min size : Nat) :
    chf.buildRegions b min size = .error .panic := by
  unfold buildRegions labelRegions addU16
  rw [hm]; rfl

/-- **C39.** One flood from the unlabelled span `i` with the fresh id `r` cannot fail.  A span it labels was unlabelled, has
the seed's area, is the seed or at least `level - 2` away from the edge of its area, and is reached from the seed through
spans it labels; all other labels are kept.  The result says whether any span was labelled. -/
theorem c39_flood_connected (chf : CompactHeightfield) (hr : chf.Ready) (lab : Labels) (hreg : lab.reg.length = chf.spans.length)
    (hdist : lab.dist.length = chf.spans.length) (hz : ∀ i : Nat, lab.reg[i]? = some 0 → lab.dist[i]? = some 0)
    (i x z level r : Nat) (s : CompactSpan) (hat : chf.At x z i s) (hi0 : lab.reg[i]? = some 0) (h0 : r ≠ 0) (hfresh : r ∉ lab.reg) :
    ∃ out grown, chf.floodRegion x z i level r lab = .ok (out, grown) ∧ out.reg.length = lab.reg.length ∧
      (grown = true ↔ r ∈ out.reg) ∧ out.dist = lab.dist ∧
      (∀ k : Nat, out.reg[k]? ≠ some r → out.reg[k]? = lab.reg[k]?) ∧
      (∀ k : Nat, out.reg[k]? = some r → lab.reg[k]? = some 0 ∧ chf.areas[k]? = chf.areas[i]? ∧
        (k = i ∨ level - 2 ≤ chf.dist.getD k 0) ∧ chf.ReachedWithin (fun a => out.reg[a]? = some r) i k) := by
  have hi : i < chf.spans.length := (List.getElem?_eq_some_iff.1 hat.2.2.1).1
  obtain ⟨hx, hz'⟩ := at_unique hr.wf hat
  subst hx hz'
  have hget : ∀ {l : List Nat} {k : Nat}, l.length = chf.spans.length → k < chf.spans.length → l[k]? = some (l.getD k 0) := by
    intro l k hl hk
    have : k < l.length := by rw [hl]; exact hk
    simp [List.getD_eq_getElem?_getD, this]
  have hval : ∀ {l : List Nat} {k v : Nat}, l[k]? = some v → l.getD k 0 = v := by
    intro l k v h; simp [List.getD_eq_getElem?_getD, h]
  have hshape : LabShape chf lab := ⟨hreg, hdist, fun k hk h => hval (hz k (by rw [hget hreg hk, h]))⟩
  obtain ⟨⟨out, grown⟩, e, acc, hg, hf⟩ := (floodRegion_out (bad := False) (level := level) hr.wf hr.dist hshape hi (hval hi0) h0).total (fun h => h)
  simp only at hg hf
  have hlen := hf.len
  have hregv : ∀ k, out.reg.getD k 0 = if k ∈ acc then r else lab.reg.getD k 0 := by intro k; simpa using hf.reg k
  have hmem : ∀ k ∈ acc, k < chf.spans.length ∧ lab.reg.getD k 0 = 0 ∧ chf.areaAt k = chf.areaAt i := fun k hk => hf.mem k (by simp [hk])
  -- the spans with the new label are the ones accepted
  have hacc : ∀ k, out.reg[k]? = some r ↔ k ∈ acc := by
    intro k
    constructor
    · intro h
      have hk : k < chf.spans.length := by rw [← hlen]; exact (List.getElem?_eq_some_iff.1 h).1
      by_contra hna
      have h1 := hval h
      rw [hregv k, if_neg hna] at h1
      exact hfresh (List.mem_of_getElem? (by rw [hget hreg hk, h1]))
    · intro h
      rw [hget hlen (hmem k h).1, hregv k, if_pos h]
  refine ⟨out, grown, e, by rw [hlen, hreg], ?_, hf.dist, ?_, ?_⟩
  · rw [hg]
    constructor
    · intro hne
      obtain ⟨a, ha⟩ := List.exists_mem_of_ne_nil acc hne
      exact List.mem_of_getElem? ((hacc a).2 ha)
    · intro hm hnil
      obtain ⟨a, ha⟩ := List.mem_iff_getElem?.1 hm
      rw [hacc, hnil] at ha; cases ha
  · intro k hk
    have hna : k ∉ acc := fun h => hk ((hacc k).2 h)
    by_cases hkl : k < chf.spans.length
    · rw [hget hlen hkl, hget hreg hkl, hregv k, if_neg hna]
    · rw [List.getElem?_eq_none (by rw [hlen]; omega), List.getElem?_eq_none (by rw [hreg]; omega)]
  · intro k hk
    have hm := (hacc k).1 hk
    obtain ⟨m1, m2, m3⟩ := hmem k hm
    refine ⟨by rw [hget hreg m1, m2], ?_, ?_, ?_⟩
    · rw [hget hr.wf.areas_len m1, hget hr.wf.areas_len hi]
      unfold areaAt at m3; rw [m3]
    · rcases hf.lvl k (by simp [hm]) with h | h
      · exact Or.inl h
      · exact Or.inr h
    · exact (hf.reach k hm).mono fun a ha => (hacc a).2 ha

example : (readyChf.floodRegion 1 1 4 2 7 ⟨List.replicate 9 0, List.replicate 9 0⟩).map (fun o => (o.1.reg, o.2)) =
    .ok (List.replicate 9 7, true) := by decide +kernel

/-- **C62.** Every region of the result is connected: any two spans of it are joined by reported neighbours through spans of
that region. -/
theorem c62_regions_connected (chf : CompactHeightfield) (hr : chf.Ready) (b min size : Nat) (out : CompactHeightfield)
    (hok : chf.buildRegions b min size = .ok out) (i j r : Nat) (hp : ProperRegion r) (hi : out.RegionOf i r) (hj : out.RegionOf j r) :
    chf.JoinedWithin (fun a => out.RegionOf a r) i j := by
  obtain ⟨f, next, _, hB, ho, hro⟩ := built hr hok
  obtain ⟨h1, h2⟩ := (hro i r).1 hi
  obtain ⟨h3, h4⟩ := (hro j r).1 hj
  refine (hB.conn i h1 j h3 (by simp only; rw [h2, h4]) (by simp only; rw [h2]; exact hp)).mono fun a ha => ?_
  have ha' : f.getD a 0 = r := by rw [show f.getD a 0 = f.getD i 0 from ha, h2]
  refine (hro a r).2 ⟨?_, ha'⟩
  by_contra hc
  rw [getD_of_ge (by rw [hB.len]; omega)] at ha'
  exact hp.1 ha'.symm

/-- **C63 (part).** With `min_region_area` 0, no walkable span without a region is next to a span of its area that has a
proper region. -/
theorem c63_no_gaps_partial (chf : CompactHeightfield) (hr : chf.Ready) (b size : Nat) (out : CompactHeightfield)
    (hok : chf.buildRegions b 0 size = .ok out) (i j d r : Nat) (hw : chf.WalkableAt i) (hi : out.RegionOf i REGION_NONE)
    (hd : d < 4) (hl : chf.Link i d j) (ha : chf.areas[i]? = chf.areas[j]?) (hj : out.RegionOf j r) : ¬ ProperRegion r := by
  intro hp
  obtain ⟨f, next, _, hB, ho, hro⟩ := built hr hok
  obtain ⟨h1, h2⟩ := (hro i _).1 hi
  obtain ⟨h3, h4⟩ := (hro j r).1 hj
  refine hB.gaps rfl i h1 hw h2 j ⟨d, hd, (nbr_iff_link hr.wf hd).2 hl, ?_, by rw [h4]; exact hp⟩
  unfold areaAt
  simp only [List.getD_eq_getElem?_getD]
  rw [ha]

/-- **C63, as far as it is true.** If some span is away from the edges (`max_distance` is not 0) and region ids do not run out,
then with `min_region_area` 0 every walkable span outside the border gets a proper region. -/
theorem c63_complete_partial (chf : CompactHeightfield) (hr : chf.Ready) (b size : Nat) (out : CompactHeightfield)
    (hok : chf.buildRegions b 0 size = .ok out) (hfew : ∀ reg next, chf.labelRegions b = .ok (reg, next) → next ≤ 32768)
    (hmax : 1 ≤ chf.maxDistance) (i : Nat) (hw : chf.WalkableAt i) (hb : ¬ chf.InBorder b i) : ∃ r, out.RegionOf i r ∧ ProperRegion r := by
  obtain ⟨f, next, ⟨reg, e⟩, hB, ho, hro⟩ := built hr hok
  have hi : i < chf.spans.length := by
    obtain ⟨a, ha, _⟩ := hw
    rw [← hr.wf.areas_len]; exact (List.getElem?_eq_some_iff.1 ha).1
  have hs : ¬ chf.Strip b i := fun h => hb ((inBorder_iff hr.wf hi).2 h)
  refine ⟨f.getD i 0, (hro i _).2 ⟨hi, rfl⟩, hB.complete rfl hmax (hfew reg next e) i hi hw hs, ?_⟩
  cases h : isBorderRegion (f.getD i 0) with
  | false => rfl
  | true => exact absurd ((hB.strip (hfew reg next e) i hi).1 h).2 hs

/-- **C63, the rest.** If every span is at an edge (`max_distance` is 0), no span gets a proper region. -/
theorem c63_nothing_partial (chf : CompactHeightfield) (hr : chf.Ready) (b min size : Nat) (out : CompactHeightfield)
    (hok : chf.buildRegions b min size = .ok out) (hmax : chf.maxDistance = 0) (i r : Nat) (hi : out.RegionOf i r) : ¬ ProperRegion r := by
  obtain ⟨f, next, _, hB, ho, hro⟩ := built hr hok
  obtain ⟨h1, h2⟩ := (hro i r).1 hi
  rw [← h2]; exact hB.none hmax i h1

/-- The hypotheses of `c63_complete_partial` are met by the 3 × 3 plain, with and without a border. -/
example : readyChf.Ready ∧ readyChf.maxDistance = 2 ∧ readyChf.areas = List.replicate 9 255 ∧
    (readyChf.labelRegions 1).map (·.2) = .ok 6 ∧
    (readyChf.buildRegions 1 0 0).map (fun c => (c.spans.map (·.region))[4]?) = .ok (some 5) :=
  ⟨readyChf_ready.1, by decide +kernel, by decide +kernel, by decide +kernel, by decide +kernel⟩

/-- A 2 × 2 plain with its distances: every span is at the edge of the plain. -/
def thinOps : List Insertion := [⟨0, 0, 1, 0, 5, 255⟩, ⟨1, 0, 1, 0, 5, 255⟩, ⟨0, 1, 1, 0, 5, 255⟩, ⟨1, 1, 1, 0, 5, 255⟩]

def thinHf : Heightfield :=
  match (Heightfield.new 2 2).insertAll thinOps with
  | .ok hf => hf
  | .error _ => Heightfield.new 0 0

def thinChf : CompactHeightfield :=
  match thinHf.intoCompact 10 1 with
  | .ok c => c
  | .error _ => ⟨0, 0, 0, 0, 0, 0, 0, [], [], [], []⟩

def thinReady : CompactHeightfield :=
  match thinChf.buildDistanceField with
  | .ok c => c
  | .error _ => ⟨0, 0, 0, 0, 0, 0, 0, [], [], [], []⟩

/-- **C63 is violated.** On a walkable plain no wider than two cells no span gets a region: the distance of every span is 0
and the level loop does not run. -/
theorem c63_violated : ∃ chf : CompactHeightfield, chf.Ready ∧ (∀ i < 4, chf.WalkableAt i) ∧
    (chf.buildRegions 0 0 0).map (fun c => c.spans.map (·.region)) = .ok [0, 0, 0, 0] := by
  refine ⟨thinReady, ?_, ?_, by decide +kernel⟩
  · have hwf : thinChf.WellFormed := wellFormed_of_ops (w := 2) (h := 2) (ops := thinOps) (hf := thinHf) (wh := 10) (climb := 1)
      (by unfold ValidOps; decide +kernel) (by decide +kernel) (by decide) (by decide) (by decide +kernel) (by decide +kernel) (by decide +kernel)
    have hok : thinChf.buildDistanceField.toBool = true := by decide +kernel
    unfold thinReady
    cases hx : thinChf.buildDistanceField with
    | ok c => exact (ready_of_distance_field thinChf hwf (Or.inl (by decide +kernel)) c hx).1
    | error e => rw [hx] at hok; cases hok
  · have h : thinReady.areas = List.replicate 4 255 := by decide +kernel
    intro i hi
    exact ⟨255, by rw [h, List.getElem?_replicate, if_pos hi], by decide⟩

/-- **Finding.** `max_region` is not the number of regions: on the 3 × 3 plain with a border of one cell it is 6, while the only
proper region has id 5. -/
theorem c36_ids_not_consecutive : ∃ chf : CompactHeightfield, chf.Ready ∧
    (chf.buildRegions 1 0 0).map (fun c => (c.maxRegion, (c.spans.map (·.region)).filter fun r => !isBorderRegion r)) = .ok (6, [5]) :=
  ⟨readyChf, readyChf_ready.1, by decide +kernel⟩

end Rerecast
