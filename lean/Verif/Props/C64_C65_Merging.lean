import Verif.Props.C34_C39_Regions
import Verif.Lemmas.RegionsTables
import Verif.Lemmas.Layers
/-! C64 (regions do not lie above themselves) and C65 (small islands are removed). -/
set_option linter.unusedVariables false
namespace Rerecast
open CompactHeightfield

/-! ### helpers -/

private theorem strip_iff {chf : CompactHeightfield} (hwf : chf.WellFormed) {b i : Nat} (hi : i < chf.spans.length) :
    chf.InBorder b i ↔ chf.Strip b i := by
  constructor
  · rintro ⟨x, z, s, hat, h⟩
    obtain ⟨rfl, rfl⟩ := at_unique hwf hat
    exact h
  · intro h
    exact ⟨chf.xOf i, chf.zOf i, chf.spans[i], at_spec hwf (List.getElem?_eq_getElem hi), h⟩

private theorem getD_some {l : List Nat} {i v : Nat} (h : l[i]? = some v) : i < l.length ∧ l.getD i 0 = v :=
  ⟨(List.getElem?_eq_some_iff.1 h).1, by simp [List.getD_eq_getElem?_getD, h]⟩

private theorem get_eq {l : List Nat} {i j : Nat} (hi : i < l.length) (hj : j < l.length) (h : l.getD i 0 = l.getD j 0) : l[i]? = l[j]? := by
  rw [List.getElem?_eq_getElem hi, List.getElem?_eq_getElem hj]
  simpa [List.getD_eq_getElem?_getD, hi, hj] using h

/-- The spans of the labels `G` are as many as the table says. -/
private theorem group_count {reg : List Nat} {n : Nat} : ∀ {G : List Nat}, G.Nodup →
    (G.map fun k => (List.range n).countP fun i => decide (reg.getD i 0 = k)).sum =
      ((List.range n).filter fun i => decide (reg.getD i 0 ∈ G)).length := by
  intro G
  induction G with
  | nil => intro _; simp
  | cons g G ih =>
    intro hnd
    rw [List.nodup_cons] at hnd
    rw [List.map_cons, List.sum_cons, ih hnd.2, ← List.countP_eq_length_filter, ← List.countP_eq_length_filter]
    generalize List.range n = l
    induction l with
    | nil => simp
    | cons i l ih2 =>
      simp only [List.countP_cons, List.mem_cons, decide_eq_true_eq] at ih2 ⊢
      by_cases h1 : reg.getD i 0 = g
      · have h2 : reg.getD i 0 ∉ G := by rw [h1]; exact hnd.1
        rw [if_pos h1, if_neg h2, if_pos (Or.inl h1)]
        omega
      · by_cases h2 : reg.getD i 0 ∈ G
        · rw [if_neg h1, if_pos h2, if_pos (Or.inr h2)]; omega
        · rw [if_neg h1, if_neg h2, if_neg (by rintro (h | h) <;> contradiction)]; omega

private theorem nodup_length_le {l L : List Nat} (hl : l.Nodup) (h : ∀ x ∈ l, x ∈ L) : l.length ≤ L.length :=
  (List.subperm_of_subset hl h).length_le

/-! ### C64 -/

/-- **C64 (part).** Joining regions never puts two surfaces above each other into one region: if two spans of the same column
end in one region, they carried one label before the joining, and that label was not joined with any other. -/
theorem c64_merging_adds_no_overlap_partial (chf : CompactHeightfield) (hr : chf.Ready) (b min size : Nat) (reg : List Nat) (next : Nat)
    (hl : chf.labelRegions b = .ok (reg, next)) (out : CompactHeightfield) (hok : chf.buildRegions b min size = .ok out)
    (x z i j : Nat) (si sj : CompactSpan) (hi : chf.At x z i si) (hj : chf.At x z j sj) (hne : i ≠ j)
    (r : Nat) (hp : ProperRegion r) (hri : out.RegionOf i r) (hrj : out.RegionOf j r) :
    reg[i]? = reg[j]? ∧ ∀ k, out.RegionOf k r → reg[k]? = reg[i]? := by
  obtain ⟨reg', next', f, T0, T1, T2, e, hT, hro⟩ := buildRegions_tables hr.wf hr.dist hr.max b min size hok
  rw [hl] at e; cases e
  obtain ⟨h1, h2⟩ := (hro i r).1 hri
  obtain ⟨h3, h4⟩ := (hro j r).1 hrj
  have hcol : chf.colOf i = chf.colOf j := by
    obtain ⟨_, _, _, ci, hci, hmi⟩ := hi
    obtain ⟨_, _, _, cj, hcj, hmj⟩ := hj
    rw [col_unique hr.wf hci hmi, col_unique hr.wf hcj hmj]
  obtain ⟨h5, h6⟩ := hT.final i h1 j h3 (by rw [h2]; exact hp) (by rw [h2, h4])
  have hsame := hT.merge.same i h1 j h3 hne hcol h6 h5
  have hover := hT.merge.over i h1 j h3 hne hcol h6 hsame
  refine ⟨get_eq (by rw [hT.reglen]; exact h1) (by rw [hT.reglen]; exact h3) hsame, fun k hk => ?_⟩
  obtain ⟨h7, h8⟩ := (hro k r).1 hk
  obtain ⟨h9, _⟩ := hT.final i h1 k h7 (by rw [h2]; exact hp) (by rw [h2, h8])
  exact get_eq (by rw [hT.reglen]; exact h7) (by rw [hT.reglen]; exact h1) (hT.merge.alone i h1 k h7 h6 hover h9).symm

/-- Floors of the column `(x, z)` of a spiral ramp, 3 cells wide, once around the cell `(3, 3)`. -/
def spiralCol (x z : Nat) : List Nat :=
  if x = 3 ∧ z = 3 then [] else if 3 ≤ x ∧ z ≤ 2 then [0, 5] else
  if 4 ≤ x then [1] else if 4 ≤ z then [2] else if z = 3 then [3] else [4]

def spiralSpans : List (Nat × Nat × Nat) := (List.range 49).flatMap fun c => (spiralCol (c % 7) (c / 7)).map fun y => (c % 7, c / 7, y)

def spiralCon (x z y d : Nat) : Option Nat := (neighbourCell 7 7 x z d).bind fun p =>
  (spiralCol p.1 p.2).findIdx? fun y' => decide (y' ≤ y + 1 ∧ y ≤ y' + 1)

/-- The spiral ramp: steps of height 1, 60 spans, clearance 4. -/
def spiral : CompactHeightfield :=
  ⟨7, 7, 3, 1, 0, 0, 0,
   (List.range 49).map fun c => ⟨spiralSpans.findIdx fun t => decide (t.1 = c % 7 ∧ t.2.1 = c / 7), (spiralCol (c % 7) (c / 7)).length⟩,
   spiralSpans.map fun t => (((((({ CompactSpan.default with y := t.2.2 } : CompactSpan).setHeight 4).setCon 0 (spiralCon t.1 t.2.1 t.2.2 0)).setCon 1
     (spiralCon t.1 t.2.1 t.2.2 1)).setCon 2 (spiralCon t.1 t.2.1 t.2.2 2)).setCon 3 (spiralCon t.1 t.2.1 t.2.2 3)),
   [], List.replicate spiralSpans.length 1⟩

/-- The field after the distance field was built (the field itself if that fails). -/
def withDistance (chf : CompactHeightfield) : CompactHeightfield :=
  match chf.buildDistanceField with
  | .ok c => c
  | .error _ => chf

theorem withDistance_ready {chf : CompactHeightfield} (hwf : chf.WellFormed) (hs : chf.width ≤ 32767) (hok : chf.buildDistanceField.toBool = true) :
    (withDistance chf).Ready := by
  unfold withDistance
  cases hx : chf.buildDistanceField with
  | ok c => exact (ready_of_distance_field chf hwf (Or.inl hs) c hx).1
  | error e => rw [hx] at hok; cases hok

theorem spiral_ready : (withDistance spiral).Ready :=
  withDistance_ready (wellFormed_of_check (by decide +kernel)) (by decide) (by decide +kernel)

/-- **C64 (finding).** The documentation promises "non-overlapping" regions, but on a spiral ramp one region covers two surfaces of
the same column: spans 16 and 17, at heights 0 and 5 of the column `(4, 1)`. -/
theorem c64_violated : ∃ chf out : CompactHeightfield, chf.Ready ∧ chf.buildRegions 0 0 20 = .ok out ∧
    ∃ si sj, chf.At 4 1 16 si ∧ chf.At 4 1 17 sj ∧ si.y = 0 ∧ sj.y = 5 ∧ out.RegionOf 16 1 ∧ out.RegionOf 17 1 := by
  have hok : ((withDistance spiral).buildRegions 0 0 20).map (fun c => (c.spans[16]?.map (·.region), c.spans[17]?.map (·.region))) =
      .ok (some 1, some 1) := by decide +kernel
  cases hx : (withDistance spiral).buildRegions 0 0 20 with
  | error e => rw [hx] at hok; cases hok
  | ok out =>
    rw [hx] at hok
    simp only [Except.map, Except.ok.injEq, Prod.mk.injEq, Option.map_eq_some_iff] at hok
    obtain ⟨⟨s, h1, h2⟩, t, h3, h4⟩ := hok
    have hc : (withDistance spiral).cells[4 + 1 * (withDistance spiral).width]? = some ⟨16, 2⟩ := by decide +kernel
    have a1 : ((withDistance spiral).spans[16]?.map (·.y)) = some 0 := by decide +kernel
    have a2 : ((withDistance spiral).spans[17]?.map (·.y)) = some 5 := by decide +kernel
    obtain ⟨si, e1, y1⟩ := Option.map_eq_some_iff.1 a1
    obtain ⟨sj, e2, y2⟩ := Option.map_eq_some_iff.1 a2
    exact ⟨withDistance spiral, out, spiral_ready, hx, si, sj,
      ⟨by decide +kernel, by decide +kernel, e1, ⟨16, 2⟩, hc, by decide⟩,
      ⟨by decide +kernel, by decide +kernel, e2, ⟨16, 2⟩, hc, by decide⟩, y1, y2, ⟨s, h1, h2⟩, ⟨t, h3, h4⟩⟩

/-- Two 3 × 3 floors above each other: the surfaces of one column end in different regions. -/
example : (withDistance (layers 3 3 2 (List.replicate 18 1))).Ready ∧
    ((withDistance (layers 3 3 2 (List.replicate 18 1))).buildRegions 0 0 20).map (fun c => c.spans.map (·.region)) =
      .ok ((List.range 18).map fun k => k % 2 + 1) :=
  ⟨withDistance_ready (layers_wellFormed (by decide) (by decide) (by decide) (by decide)) (by decide) (by decide +kernel), by decide +kernel⟩

/-! ### C65 -/

/-- Labels found by following connections are joined over walkable spans. -/
private theorem group_joined {chf : CompactHeightfield} {b min size : Nat} {reg : List Nat} {next : Nat} {f : List Nat} {T0 T1 T2 : List Region}
    (hr : chf.Ready) (hT : Tables chf b min size reg next f T0 T1 T2) {root k : Nat} (hk : Relation.ReflTransGen (ConStep T0) root k)
    (hroot : ProperRegion root) {i : Nat} (hi : i < chf.spans.length) (hri : reg.getD i 0 = root) :
    ∀ j < chf.spans.length, reg.getD j 0 = k → chf.JoinedWithin chf.WalkableAt i j := by
  obtain ⟨lab, hle, hlab⟩ := hT.labelled.inv
  simp only at hle hlab
  have hwalk : ∀ a < chf.spans.length, reg.getD a 0 ≠ 0 → chf.WalkableAt a := by rw [← hle]; exact hlab.walk
  have hlink : ∀ {a d c : Nat}, d < 4 → chf.nbr a d = some c → a < chf.spans.length ∧ c < chf.spans.length ∧ chf.Link a d c :=
    fun hd h => ⟨(nbr_lt hr.wf hd h).1, (nbr_lt hr.wf hd h).2, (nbr_iff_link hr.wf hd).1 h⟩
  have hin : ∀ a < chf.spans.length, ∀ c < chf.spans.length, reg.getD a 0 = reg.getD c 0 → ProperRegion (reg.getD a 0) →
      chf.JoinedWithin chf.WalkableAt a c := by
    intro a ha c hc e hp
    have hj := hT.conn a ha c hc e hp
    have hlen : ∀ {m}, chf.JoinedWithin (fun q => (fun i => reg.getD i 0) q = (fun i => reg.getD i 0) a) a m → m < chf.spans.length := by
      intro m hm
      by_contra hge
      have := hm.right
      simp only at this
      rw [getD_of_ge (l := reg) (i := m) (by rw [hT.reglen]; omega)] at this
      exact hp.1 this.symm
    clear e
    induction hj with
    | refl _ => exact .refl (hwalk a ha hp.1)
    | step h1 hg hd hl ih =>
      have h2 := hlen h1
      have h3 := hlen (.step h1 hg hd hl)
      exact .step (ih h2) (hwalk _ h3 (by simp only at hg; rw [hg]; exact hp.1)) hd hl
  induction hk with
  | refl =>
    intro j hj e
    exact hin i hi j hj (by rw [hri, e]) (by rw [hri]; exact hroot)
  | @tail m k' _ hs ih =>
    intro j hj e
    obtain ⟨hc, hp⟩ := hs
    have hml : m < T0.length := by
      by_contra h
      rw [getR_ge (by omega)] at hc
      cases hc
    rw [hT.collected.len] at hml
    obtain ⟨a, d, c, hd, hn, ha, hcc, _⟩ := (hT.collected.con m hml k' hc).2 hp.1
    obtain ⟨h1, h2, h3⟩ := hlink hd hn
    have hac := ih a h1 ha
    refine (JoinedWithin.step hac (hwalk c h2 (by rw [hcc]; exact hp.1)) hd (Or.inl h3)).trans ?_
    exact hin c h2 j hj (by rw [hcc, e]) (by rw [hcc]; exact hp)

/-- **C65 (removal).** If the walkable spans joined to span `i` are fewer than `min_region_area` and none of them lies in the
border strip, span `i` belongs to no region in the end.  (`hfew`: fewer than 32768 region ids were handed out, see C37.) -/
theorem c65_small_islands_removed (chf : CompactHeightfield) (hr : chf.Ready) (b min size : Nat) (out : CompactHeightfield)
    (hok : chf.buildRegions b min size = .ok out)
    (hfew : ∀ reg next, chf.labelRegions b = .ok (reg, next) → next ≤ 32768)
    (i : Nat) (L : List Nat) (hL : ∀ j, chf.JoinedWithin chf.WalkableAt i j → j ∈ L) (hmin : L.length < min)
    (hin : ∀ j, chf.JoinedWithin chf.WalkableAt i j → ¬ chf.InBorder b j) (r : Nat) (hri : out.RegionOf i r) : r = REGION_NONE := by
  obtain ⟨reg, next, f, T0, T1, T2, e, hT, hro⟩ := buildRegions_tables hr.wf hr.dist hr.max b min size hok
  have hnx := hfew reg next e
  obtain ⟨lab, hle, hlab⟩ := hT.labelled.inv
  simp only at hle hlab
  obtain ⟨h1, h2⟩ := (hro i r).1 hri
  by_contra h0
  have hwalk : ∀ a < chf.spans.length, reg.getD a 0 ≠ 0 → chf.WalkableAt a := by rw [← hle]; exact hlab.walk
  have hstrip : ∀ a < chf.spans.length, isBorderRegion (reg.getD a 0) = true → chf.WalkableAt a ∧ chf.InBorder b a := by
    intro a ha hb
    obtain ⟨h3, h4⟩ := (hlab.strip hnx a ha).1 (by rw [hle]; exact hb)
    exact ⟨h3, (strip_iff hr.wf ha).2 h4⟩
  have hib : isBorderRegion (reg.getD i 0) = false := by
    by_contra hb
    obtain ⟨h3, h4⟩ := hstrip i h1 (by simpa using hb)
    exact hin i (.refl h3) h4
  have hi0 : reg.getD i 0 ≠ 0 := by
    intro h
    apply h0
    rw [← h2]
    exact hT.unlabelled i h1 h
  have hp : ProperRegion (reg.getD i 0) := ⟨hi0, hib⟩
  have hlt : reg.getD i 0 < next + 1 := by
    rcases hT.bound i h1 with h | h
    · exact h
    · rw [hib] at h; cases h
  have hkeep : (getR T1 (reg.getD i 0)).id ≠ 0 := by
    intro h
    exact h0 (by rw [← h2]; exact (hT.none i h1 hp).2 h)
  have hcnt : (getR T0 (reg.getD i 0)).spanCount ≠ 0 := by
    rw [hT.counted.count _ hlt hi0]
    intro h
    rw [List.countP_eq_zero] at h
    exact h i (List.mem_range.2 h1) (by simp)
  have hvis := hT.pruned.done (reg.getD i 0) (by rw [hT.collected.len]; exact hlt) (by rw [hT.collected.id _ hlt]; exact hp) hcnt
  obtain ⟨root, G, hnd, hrt, hmem, hG, hbig⟩ := hT.pruned.good _ hvis hkeep
  -- a span of the root
  have hjoin : ∀ k ∈ G, ∀ j < chf.spans.length, reg.getD j 0 = k → chf.JoinedWithin chf.WalkableAt i j := by
    intro k hk j hj ej
    obtain ⟨_, hpk, hstep⟩ := hG k hk
    obtain ⟨_, _, hstepi⟩ := hG _ hmem
    by_cases hroot : ∃ a < chf.spans.length, reg.getD a 0 = root ∧ ProperRegion root
    · obtain ⟨a, ha, ea, hpr⟩ := hroot
      exact (group_joined hr hT hstepi hpr ha ea i h1 rfl).symm.trans (group_joined hr hT hstep hpr ha ea j hj ej)
    · have hstay : ∀ k, Relation.ReflTransGen (ConStep T0) root k → ProperRegion k → (∃ c < chf.spans.length, reg.getD c 0 = k) → k = root := by
        intro k hs hpk hex
        rcases Relation.ReflTransGen.cases_head hs with e | ⟨m, hm, _⟩
        · exact e.symm
        · exfalso
          have hml : root < T0.length := by
            by_contra h
            have := hm.1
            rw [getR_ge (by omega)] at this
            cases this
          rw [hT.collected.len] at hml
          obtain ⟨a, d, c, hd, hn, ha, hcc, _⟩ := (hT.collected.con root hml m hm.1).2 hm.2.1
          refine hroot ⟨a, (nbr_lt hr.wf hd hn).1, ha, ?_⟩
          exact (hG root hrt).2.1
      have e1 := hstay k hstep hpk ⟨j, hj, ej⟩
      exact absurd ⟨j, hj, by rw [ej, e1], e1 ▸ hpk⟩ hroot
  have hsize : groupSize T0 G ≤ L.length := by
    have : groupSize T0 G = (G.map fun k => (List.range chf.spans.length).countP fun i => decide (reg.getD i 0 = k)).sum := by
      unfold groupSize
      congr 1
      refine List.map_congr_left fun k hk => ?_
      obtain ⟨h3, h4, _⟩ := hG k hk
      exact hT.counted.count k (by rw [← hT.collected.len]; exact h3) h4.1
    rw [this, group_count hnd]
    refine nodup_length_le (List.nodup_range.filter _) fun j hj => ?_
    rw [List.mem_filter, List.mem_range, decide_eq_true_eq] at hj
    exact hL j (hjoin _ hj.2 j hj.1 rfl)
  rcases hbig with h | ⟨k, hk, c, hc, hcb⟩
  · omega
  · obtain ⟨h3, h4, _⟩ := hG k hk
    have hc0 : c ≠ 0 := by intro h; rw [h] at hcb; simp [isBorderRegion] at hcb
    obtain ⟨a, d, m, hd, hn, ha, hm, _⟩ := (hT.collected.con k (by rw [← hT.collected.len]; exact h3) c hc).2 hc0
    obtain ⟨hal, hml⟩ := nbr_lt hr.wf hd hn
    obtain ⟨h5, h6⟩ := hstrip m hml (by rw [hm]; exact hcb)
    exact hin m (.step (hjoin k hk a hal ha) h5 hd (Or.inl ((nbr_iff_link hr.wf hd).1 hn))) h6

/-- **C65 (part).** Only small things are removed: if span `i` carried the label `l` after the watershed and belongs to no region in
the end, then a set of fewer than `min_region_area` spans, among them all spans with label `l`, was removed with it.
Missing: the spans joined to span `i` need not be few; see `c65_violated`. -/
theorem c65_only_small_removed_partial (chf : CompactHeightfield) (hr : chf.Ready) (b min size : Nat) (reg : List Nat) (next : Nat)
    (hl : chf.labelRegions b = .ok (reg, next)) (out : CompactHeightfield) (hok : chf.buildRegions b min size = .ok out)
    (i l : Nat) (hi : reg[i]? = some l) (hp : ProperRegion l) (hri : out.RegionOf i REGION_NONE) :
    ∃ L : List Nat, L.length < min ∧ (∀ k : Nat, reg[k]? = some l → k ∈ L) ∧
      (∀ k ∈ L, out.RegionOf k REGION_NONE ∧ ∀ m : Nat, reg[m]? = reg[k]? → m ∈ L) := by
  obtain ⟨reg', next', f, T0, T1, T2, e, hT, hro⟩ := buildRegions_tables hr.wf hr.dist hr.max b min size hok
  rw [hl] at e; cases e
  obtain ⟨h1, h2⟩ := (hro i _).1 hri
  obtain ⟨_, rfl⟩ := getD_some hi
  have hlt : reg.getD i 0 < next + 1 := by
    rcases hT.bound i h1 with h | h
    · exact h
    · rw [hp.2] at h; cases h
  have hdead := (hT.none i h1 hp).1 h2
  obtain ⟨G, hnd, hmem, hG, hs, _⟩ := hT.pruned.killed _ hdead (by rw [hT.collected.id _ hlt]; exact hp.1)
  have hsize : groupSize T0 G = ((List.range chf.spans.length).filter fun i => decide (reg.getD i 0 ∈ G)).length := by
    rw [← group_count hnd]
    unfold groupSize
    congr 1
    refine List.map_congr_left fun k hk => ?_
    exact hT.counted.count k (by rw [← hT.collected.len]; exact (hG k hk).1) (hG k hk).2.1.1
  have hin : ∀ k v : Nat, reg[k]? = some v → v ∈ G → k ∈ (List.range chf.spans.length).filter fun i => decide (reg.getD i 0 ∈ G) := by
    intro k v hk hv
    obtain ⟨h3, h4⟩ := getD_some hk
    rw [List.mem_filter, List.mem_range, decide_eq_true_eq, h4]
    exact ⟨by rw [← hT.reglen]; exact h3, hv⟩
  refine ⟨(List.range chf.spans.length).filter fun i => decide (reg.getD i 0 ∈ G), by rw [← hsize]; exact hs, fun k hk => hin k _ hk hmem, ?_⟩
  intro k hk
  rw [List.mem_filter, List.mem_range, decide_eq_true_eq] at hk
  obtain ⟨hkl, hkG⟩ := hk
  obtain ⟨_, hpk, hk0⟩ := hG _ hkG
  refine ⟨(hro k _).2 ⟨hkl, (hT.none k hkl hpk).2 hk0⟩, fun m hm => ?_⟩
  have hkr : k < reg.length := by rw [hT.reglen]; exact hkl
  refine hin m (reg.getD k 0) ?_ hkG
  rw [hm, List.getElem?_eq_getElem hkr]
  simp [List.getD_eq_getElem?_getD, hkr]

/-- A floor of 8 × 5 cells with a patch of 3 × 3 cells of another area in it. -/
def enclosed : CompactHeightfield := layers 8 5 1 [
  1, 1, 1, 1, 1, 1, 1, 1,
  1, 2, 2, 2, 1, 1, 1, 1,
  1, 2, 2, 2, 1, 1, 1, 1,
  1, 2, 2, 2, 1, 1, 1, 1,
  1, 1, 1, 1, 1, 1, 1, 1]

theorem enclosed_wellFormed : enclosed.WellFormed := layers_wellFormed (by decide) (by decide) (by decide) (by decide)
theorem enclosed_ready : (withDistance enclosed).Ready := withDistance_ready enclosed_wellFormed (by decide) (by decide +kernel)

theorem enclosed_joined : ∀ i < 40, (withDistance enclosed).JoinedWithin (withDistance enclosed).WalkableAt 0 i := by
  have hw : ∀ i < 40, (withDistance enclosed).WalkableAt i := by
    intro i hi
    have : ∀ i < 40, ((withDistance enclosed).areas[i]?).any isWalkable = true := by decide +kernel
    obtain ⟨a, ha, h⟩ := (Option.any_eq_true _ _).1 (this i hi)
    exact ⟨a, ha, h⟩
  have hn : ∀ i < 40, i ≠ 0 → (withDistance enclosed).nbr i 0 = some (i - 1) ∨ (withDistance enclosed).nbr i 3 = some (i - 8) := by decide +kernel
  intro i
  induction i using Nat.strongRecOn with
  | _ i ih =>
    intro hi
    by_cases h0 : i = 0
    · subst h0; exact .refl (hw 0 hi)
    · rcases hn i hi h0 with h | h
      · exact .step (ih (i - 1) (by omega) (by omega)) (hw i hi) (by omega) (Or.inr ((nbr_iff_link enclosed_ready.wf (by omega)).1 h))
      · exact .step (ih (i - 8) (by omega) (by omega)) (hw i hi) (by omega) (Or.inr ((nbr_iff_link enclosed_ready.wf (by omega)).1 h))

/-- **C65 (finding).** A patch of another area inside a larger island is removed when the patch alone is smaller than
`min_region_area`, although the island is not: all 40 spans are joined, the threshold is 10, and the 9 spans of the patch
(among them span 9) lose their region while the others keep theirs. -/
theorem c65_violated : ∃ chf out : CompactHeightfield, chf.Ready ∧ chf.buildRegions 0 10 0 = .ok out ∧
    (∀ i < 40, ∀ j < 40, chf.JoinedWithin chf.WalkableAt i j) ∧ out.RegionOf 9 REGION_NONE ∧ out.RegionOf 0 1 ∧
    (out.spans.filter fun s => decide (s.region = REGION_NONE)).length = 9 := by
  have hok : ((withDistance enclosed).buildRegions 0 10 0).map (fun c => (c.spans[9]?.map (·.region), c.spans[0]?.map (·.region),
      (c.spans.filter fun s => decide (s.region = REGION_NONE)).length)) = .ok (some 0, some 1, 9) := by decide +kernel
  cases hx : (withDistance enclosed).buildRegions 0 10 0 with
  | error e => rw [hx] at hok; cases hok
  | ok out =>
    rw [hx] at hok
    simp only [Except.map, Except.ok.injEq, Prod.mk.injEq, Option.map_eq_some_iff] at hok
    obtain ⟨⟨s, h1, h2⟩, ⟨t, h3, h4⟩, h5⟩ := hok
    exact ⟨withDistance enclosed, out, enclosed_ready, hx, fun i hi j hj => (enclosed_joined i hi).symm.trans (enclosed_joined j hj),
      ⟨s, h1, h2⟩, ⟨t, h3, h4⟩, h5⟩

/-- The hypotheses of `c65_small_islands_removed` are met: with the threshold 41 the island of 40 spans goes; with 0 it stays. -/
example : (withDistance enclosed).spans.length = 40 ∧
    ((withDistance enclosed).buildRegions 0 41 0).map (fun c => c.spans.map (·.region)) = .ok (List.replicate 40 0) ∧
    ((withDistance enclosed).buildRegions 0 9 0).map (fun c => (c.spans.filter fun s => decide (s.region = REGION_NONE)).length) = .ok 0 ∧
    ((withDistance enclosed).labelRegions 0).map (fun o => (decide (o.2 ≤ 32768), o.1[9]?)) = .ok (true, some 2) :=
  ⟨by decide +kernel, by decide +kernel, by decide +kernel, by decide +kernel⟩

end Rerecast
