import Verif.Lemmas.RegionsChain
import Verif.Lemmas.RegionsWalls
/-! What the basins of a result say about the tables behind it. -/
set_option linter.unusedVariables false
set_option linter.unusedSectionVars false
namespace Rerecast
open CompactHeightfield

theorem stretches_ne {vs : List Nat} (h : vs ≠ []) : stretches vs ≠ [] := by
  unfold stretches
  have h1 : vs.destutter (· ≠ ·) ≠ [] := fun e => h ((List.destutter_eq_nil _).1 e)
  simp only
  split
  · rename_i h2
    intro e
    have := congrArg List.length e
    rw [List.length_dropLast] at this
    simp only [List.length_nil] at this
    omega
  · exact h1

theorem noTwin_stretches (vs : List Nat) (y : Nat) : NoTwin y (stretches vs) := by
  unfold stretches
  have hc := List.isChain_destutter (R := (· ≠ ·)) (l := vs)
  generalize vs.destutter (· ≠ ·) = s at hc
  have hc' : ∀ t : List Nat, t.IsChain (· ≠ ·) → t.IsChain fun a b => ¬ (a = y ∧ b = y) := fun t ht => ht.imp fun a b hab ⟨h1, h2⟩ => hab (h1.trans h2.symm)
  simp only
  split
  · rename_i h
    refine ⟨hc' _ (hc.prefix (List.dropLast_prefix s)), ?_⟩
    rintro hl ⟨h1, h2⟩
    obtain ⟨t, a, rfl⟩ : ∃ t a, s = t ++ [a] := ⟨s.dropLast, s.getLast (by rintro rfl; simp at h), (List.dropLast_append_getLast _).symm⟩
    rw [List.dropLast_concat] at h1 h2 hl
    have ha : a = y := by
      have := h.2
      rw [List.getLast?_append, List.head?_append, h1] at this
      simpa using this.symm
    obtain ⟨_, _, hj⟩ := List.isChain_append.1 hc
    exact hj y h2 a (by simp) ha.symm
  · rename_i h
    refine ⟨hc' _ hc, fun hl ⟨h1, h2⟩ => h ⟨hl, by rw [h1, h2]⟩⟩

namespace CompactHeightfield
variable {chf : CompactHeightfield}

/-- The wall of a basin is what the table lists. -/
theorem wall_connections (hwf : chf.WellFormed) {reg : List Nat} (hr : reg.length = chf.spans.length) {nreg l : Nat} {T : List Region}
    (hc : chf.collectRegions reg nreg = .ok T) (hl0 : l ≠ 0) (hln : l < nreg) {vs : List Nat} (h : chf.Wall reg l vs) :
    (getR T l).connections = stretches vs := by
  obtain ⟨i, n, hri, hfirst, hn0, hn, hw, hret⟩ := h
  have hne : vs ≠ [] := by
    rintro rfl
    have hs := first_solid hwf hr hl0 hri hfirst
    cases hw with
    | done => omega
    | cross hk heq _ =>
      apply hs
      rw [across_some ((nbr_iff_link hwf (by omega)).2 hk), List.getD_eq_getElem?_getD, heq, List.getD_eq_getElem?_getD]
  have ho := outlineRegions_wall hwf hr hl0 hri hfirst hn0 hn hw hret
  exact collectRegions_first hwf hr hl0 hln hri hfirst (· = stretches vs) (fun e => stretches_ne hne e.symm)
    (by rw [ho]; exact Holds.ok rfl) T hc

theorem stackedOn_of_col (hwf : chf.WellFormed) {reg : List Nat} (hr : reg.length = chf.spans.length) {a b : Nat} (ha : a < chf.spans.length)
    (hb : b < chf.spans.length) (hne : a ≠ b) (hc : chf.colOf a = chf.colOf b) : chf.StackedOn reg (reg.getD a 0) (reg.getD b 0) := by
  have hget : ∀ k < chf.spans.length, reg[k]? = some (reg.getD k 0) := by
    intro k hk
    rw [List.getD_eq_getElem?_getD, List.getElem?_eq_getElem (by rw [hr]; exact hk)]; rfl
  refine ⟨chf.xOf a, chf.zOf a, a, b, chf.spans[a], chf.spans[b], hne, at_spec hwf (List.getElem?_eq_getElem ha), ?_, hget a ha, hget b hb⟩
  have := at_spec hwf (List.getElem?_eq_getElem hb)
  unfold xOf zOf at this ⊢
  rw [hc]; exact this

/-- All there is to know about a result: the tables behind it, the merges between them, and that none is left. -/
structure Joins (chf out : CompactHeightfield) (b min size : Nat) (reg : List Nat) (next : Nat) (f : List Nat) (T0 T1 T2 : List Region) : Prop where
  tables : Tables chf b min size reg next f T0 T1 T2
  out_iff : ∀ i r, out.RegionOf i r ↔ i < chf.spans.length ∧ f.getD i 0 = r
  inv : JoinInv chf reg (next + 1) T0 T2
  chain : Relation.ReflTransGen (MRel chf reg (next + 1) size T0) T1 T2
  idle : ∀ i < next + 1, Idle size T2 i
  floors : ∀ j < next + 1, ∀ f ∈ (getR T0 j).floors, chf.StackedOn reg j f
  overlap : ∀ j < next + 1, (getR T0 j).overlap = true → chf.StackedOn reg j j
  wall : ∀ l < next + 1, l ≠ 0 → ∀ vs, chf.Wall reg l vs → (getR T0 l).connections = stretches vs

theorem buildRegions_joins (hwf : chf.WellFormed) (hdl : chf.dist.length = chf.spans.length) (hm : chf.maxDistance ≤ 65535) (b min size : Nat)
    {out : CompactHeightfield} (hok : chf.buildRegions b min size = .ok out) {reg : List Nat} {next : Nat} (hl : chf.labelRegions b = .ok (reg, next)) :
    ∃ f T0 T1 T2, Joins chf out b min size reg next f T0 T1 T2 := by
  obtain ⟨reg', next', f, T0, T1, T2, e, hT, hro⟩ := buildRegions_tables hwf hdl hm b min size hok
  rw [hl] at e; cases e
  obtain ⟨h1, h2, h3⟩ := mergeLoop_steps hwf hT.bound hT.reglen _ T1 hT.tab1 hT.merge1 (joinInv_small hT.collected hwf hT.counted hT.pruned hT.bound) T2 hT.loop
  have hfrom := collectRegions_from hwf hT.reglen T0 hT.collect
  refine ⟨f, T0, T1, T2, hT, hro, h1, h2, h3, ?_, ?_, fun l hl h0 vs hv => wall_connections hwf hT.reglen hT.collect h0 hl hv⟩
  · intro j hj f hf
    obtain ⟨a, ha, b, hb, hab, hc, e1, e2⟩ := (hfrom j hj).1 f hf
    rw [← e1, ← e2]
    exact stackedOn_of_col hwf hT.reglen ha hb hab hc
  · intro j hj ho
    obtain ⟨a, ha, b, hb, hab, hc, e1, e2⟩ := (hfrom j hj).2 ho
    have := stackedOn_of_col hwf hT.reglen ha hb hab hc
    rwa [e1, e2] at this

variable {out : CompactHeightfield} {b min size : Nat} {reg : List Nat} {next : Nat} {f : List Nat} {T0 T1 T2 : List Region}

theorem Joins.touching (hJ : Joins chf out b min size reg next f T0 T1 T2) {l m n : Nat} (hl : l < next + 1) (hl0 : l ≠ 0) (h : chf.Touching reg l m n) :
    (getR T0 l).connections.count m = n ∧ ∀ y, NoTwin y (getR T0 l).connections := by
  obtain ⟨vs, hv, hc⟩ := h
  rw [hJ.wall l hl hl0 vs hv]
  exact ⟨hc, noTwin_stretches vs⟩

theorem Joins.proper (hJ : Joins chf out b min size reg next f T0 T1 T2) {l : Nat} (hl : l < next + 1) (h : ProperRegion (getR T2 l).id) :
    ProperRegion l ∧ (getR T1 l).id = l := by
  have h1 := (chain_coarser hJ.chain).2 l hl h
  rcases hJ.tables.pruned.alive l with ⟨e, _⟩ | ⟨e, _⟩
  · rw [e, hJ.tables.collected.id l hl] at h1
    exact ⟨h1, by rw [e, hJ.tables.collected.id l hl]⟩
  · exact absurd e h1.1

theorem getElem?_getD {l : List Nat} {i v : Nat} (h : l[i]? = some v) : i < l.length ∧ l.getD i 0 = v :=
  ⟨(List.getElem?_eq_some_iff.1 h).1, by simp [List.getD_eq_getElem?_getD, h]⟩

/-- The span of a basin in a proper region of the result. -/
theorem Joins.inRegion (hJ : Joins chf out b min size reg next f T0 T1 T2) {i l r : Nat} (h : reg[i]? = some l) (hr : ProperRegion r)
    (ho : out.RegionOf i r) : i < chf.spans.length ∧ f.getD i 0 = r ∧ ProperRegion l ∧ l < next + 1 ∧ label reg T2 i = (getR T2 l).id ∧ ProperRegion (getR T2 l).id := by
  obtain ⟨h1, h2⟩ := (hJ.out_iff i r).1 ho
  obtain ⟨_, h3⟩ := getElem?_getD h
  have hnb : isBorderRegion l = false := by
    by_contra hb
    have := hJ.tables.border i h1 (by rw [h3]; simpa using hb)
    rw [h2, h3] at this
    rw [this] at hr
    exact hb hr.2
  have hn0 : l ≠ 0 := by
    rintro rfl
    rw [hJ.tables.unlabelled i h1 h3] at h2
    exact hr.1 h2.symm
  have hlt : l < next + 1 := by
    rcases hJ.tables.bound i h1 with h | h
    · rwa [h3] at h
    · rw [h3, hnb] at h; cases h
  have hlab : label reg T2 i = (getR T2 l).id := by
    unfold label; rw [h3]; simp [hnb]
  refine ⟨h1, h2, ⟨hn0, hnb⟩, hlt, hlab, ?_⟩
  rw [← hlab]
  exact (hJ.tables.final i h1 i h1 (by rw [h2]; exact hr) rfl).2

theorem Joins.same (hJ : Joins chf out b min size reg next f T0 T1 T2) {l m : Nat} (h : out.SameRegion reg l m) :
    l < next + 1 ∧ m < next + 1 ∧ ProperRegion l ∧ ProperRegion m ∧ (getR T2 l).id = (getR T2 m).id ∧ ProperRegion (getR T2 l).id ∧
      chf.UsedLabel reg l ∧ chf.UsedLabel reg m := by
  obtain ⟨i, j, r, hi, hj, hp, h1, h2⟩ := h
  obtain ⟨a1, a2, a3, a4, a5, a6⟩ := hJ.inRegion hi hp h1
  obtain ⟨b1, b2, b3, b4, b5, b6⟩ := hJ.inRegion hj hp h2
  have := hJ.tables.final i a1 j b1 (by rw [a2]; exact hp) (by rw [a2, b2])
  rw [a5, b5] at this
  exact ⟨a4, b4, a3, b3, this.1, a6, ⟨i, a1, (getElem?_getD hi).2⟩, j, b1, (getElem?_getD hj).2⟩

theorem Joins.same_of (hJ : Joins chf out b min size reg next f T0 T1 T2) {l m : Nat} (hl : l < next + 1) (hm : m < next + 1)
    (he : (getR T2 l).id = (getR T2 m).id) (hp : ProperRegion (getR T2 l).id) (hul : chf.UsedLabel reg l) (hum : chf.UsedLabel reg m) :
    out.SameRegion reg l m := by
  obtain ⟨i, hi, ei⟩ := hul
  obtain ⟨j, hj, ej⟩ := hum
  have hget : ∀ k < chf.spans.length, reg[k]? = some (reg.getD k 0) := by
    intro k hk
    rw [List.getD_eq_getElem?_getD, List.getElem?_eq_getElem (by rw [hJ.tables.reglen]; exact hk)]; rfl
  have pl := (hJ.proper hl hp).1
  have pm := (hJ.proper hm (he ▸ hp)).1
  have e1 : label reg T2 i = (getR T2 l).id := by unfold label; rw [ei]; simp [pl.2]
  have e2 : label reg T2 j = (getR T2 m).id := by unfold label; rw [ej]; simp [pm.2]
  obtain ⟨g1, g2⟩ := hJ.tables.joined i hi j hj (by rw [e1]; exact hp) (by rw [e1, e2, he])
  exact ⟨i, j, f.getD i 0, by rw [hget i hi, ei], by rw [hget j hj, ej], g1, (hJ.out_iff i _).2 ⟨hi, rfl⟩, (hJ.out_iff j _).2 ⟨hj, g2.symm⟩⟩

/-- Every member of the class of a used label is used. -/
theorem JoinInv.class_used {reg : List Nat} {nreg : Nat} {T0 T : List Region} (hI : JoinInv chf reg nreg T0 T) {c k : Nat} (hc : c < nreg) (hk : k < nreg)
    (hp : ProperRegion (getR T c).id) (he : (getR T k).id = (getR T c).id) (hu : chf.UsedLabel reg c) : chf.UsedLabel reg k := by
  by_cases h1 : (getR T k).id = k
  · rw [he] at h1
    by_cases h2 : (getR T c).id = c
    · rw [← h1, h2]; exact hu
    · rw [← h1]; exact (hI.used c hc hp h2).2.1
  · exact (hI.used k hk (by rw [he]; exact hp) h1).1

theorem Joins.region_count (hJ : Joins chf out b min size reg next f T0 T1 T2) (r : Nat) :
    (out.spans.map CompactSpan.region).count r = (List.range chf.spans.length).countP fun k => decide (f.getD k 0 = r) := by
  have e : out.spans.map CompactSpan.region = (List.range chf.spans.length).map fun k => f.getD k 0 := by
    refine List.ext_getElem? fun i => ?_
    rw [List.getElem?_map, List.getElem?_map]
    by_cases hi : i < chf.spans.length
    · obtain ⟨s, hs, e⟩ := (hJ.out_iff i _).2 ⟨hi, rfl⟩
      rw [hs, List.getElem?_range hi]
      simp [e]
    · rw [List.getElem?_eq_none (l := List.range _) (by simpa using hi)]
      cases hs : out.spans[i]? with
      | none => rfl
      | some s => exact absurd ((hJ.out_iff i s.region).1 ⟨s, hs, rfl⟩).1 hi
  rw [e, List.count_eq_countP, List.countP_map]
  exact List.countP_congr fun k _ => by simp

/-- A region that is alone has the size of its basin. -/
theorem Joins.alone_size (hJ : Joins chf out b min size reg next f T0 T1 T2) {S : List Region} (hI : JoinInv chf reg (next + 1) T0 S) {x : Nat}
    (hx : x < next + 1) (hp : ProperRegion x) (ha : Alone (next + 1) S x) : (getR S x).spanCount = (getR T0 x).spanCount := by
  rw [hI.size x hx ha.1 hp, hJ.tables.counted.count x hx hp.1, List.count_eq_countP, List.countP_map]
  refine List.countP_congr fun k hk => ?_
  have hk' := List.mem_range.1 hk
  simp only [decide_eq_true_eq, Function.comp_apply, beq_iff_eq]
  unfold label
  constructor
  · intro h
    split at h
    · exact h
    · rename_i hb
      rcases hJ.tables.bound k hk' with hlt | hbb
      · exact ha.2 _ hlt h
      · exact absurd hbb hb
  · intro h
    rw [h, if_neg (by rw [hp.2]; simp), ha.1]

/-- What could be joined is a candidate, at any time on the way, as long as the basin is alone. -/
theorem Joins.candidate (hJ : Joins chf out b min size reg next f T0 T1 T2) {S : List Region} (hT : TabInv chf reg (next + 1) S)
    (hI : JoinInv chf reg (next + 1) T0 S) (hch : Relation.ReflTransGen (MRel chf reg (next + 1) size T0) S T2) {X C : Nat} (hX : X < next + 1)
    (hpX : ProperRegion X) (ha : Alone (next + 1) S X) (hXC : C ≠ X) (h : CouldJoin chf out reg X C) :
    (getR S C).id ∈ (getR S X).connections ∧ Candidate S X (getR S C).id ∧ (getR S C).id ≠ X ∧
      ∀ n, out.RegionSize reg C n → (getR S (getR S C).id).spanCount ≤ n := by
  obtain ⟨hco, hpr⟩ := chain_coarser hch
  obtain ⟨hC, _, hpC, _, _, hp2, huC, _⟩ := hJ.same h.kept
  have hpx := hpr C hC hp2
  have hxl := hT.idlt C hC
  have hroot := hT.root C hC hpx
  generalize hx : (getR S C).id = x at *
  have hxX : x ≠ X := fun e => hXC (ha.2 C hC (hx.trans e))
  -- the other basins of the region
  have hcls : ∀ k < next + 1, (getR S k).id = x → out.SameRegion reg C k := by
    intro k hk e
    exact hJ.same_of hC hk (hco C hC k hk (by rw [hx, e])) hp2 huC (hI.class_used hC hk (by rw [hx]; exact hpx) (by rw [hx, e]) huC)
  have hthere := (hJ.touching hX hpX.1 h.there).1
  have hback := (hJ.touching hC hpC.1 h.back).1
  have hmem : x ∈ (getR S X).connections := by
    have := hI.memb X hX C hC (List.count_pos_iff.1 (by omega)) (by rw [ha.1]; exact hpX) (by rw [hx]; exact hpx) (by rw [ha.1, hx]; exact Ne.symm hxX)
    rwa [ha.1, hx] at this
  have harea : (getR S X).area = (getR S x).area := by
    obtain ⟨i, j, hi, hj, e⟩ := h.area
    obtain ⟨hil, ei⟩ := getElem?_getD hi
    obtain ⟨hjl, ej⟩ := getElem?_getD hj
    rw [hJ.tables.reglen] at hil hjl
    have h1 := hT.spanArea i hil (by rw [ei]; exact hpX)
    have h2 := hT.spanArea j hjl (by rw [ej]; exact hpC)
    have h3 := hT.area C hC (by rw [hx]; exact hpx)
    rw [ei] at h1
    rw [ej] at h2
    rw [hx] at h3
    rw [h1, h3, h2]
    unfold areaAt
    rw [List.getD_eq_getElem?_getD, List.getD_eq_getElem?_getD, e]
  have hfl : (getR S x).overlap = false := by
    rw [hI.over x hxl]
    by_cases e : x = C
    · rw [e]
      by_contra ho
      exact h.flat (hJ.overlap C hC (by simpa using ho))
    · have := (hI.used C hC (by rw [hx]; exact hpx) (by rw [hx]; exact e)).2.2
      rwa [hx] at this
  have hl1 : listed (next + 1) T0 (fun a => (getR S a).id) X x ≤ 1 := by
    unfold listed
    rw [Finset.sum_eq_single X]
    · rw [Finset.sum_eq_single C]
      · simp only [ha.1, hx, and_self, if_true]; omega
      · intro k hk hkC
        split
        · rename_i e
          have := (hJ.touching hX hpX.1 (h.others k (hcls k (Finset.mem_range.1 hk) e.2) hkC).1).1
          omega
        · rfl
      · intro hn; exact absurd (Finset.mem_range.2 hC) hn
    · intro a haa hne
      refine Finset.sum_eq_zero fun k _ => ?_
      rw [if_neg]
      rintro ⟨e, _⟩
      exact hne (ha.2 a (Finset.mem_range.1 haa) e)
    · intro hn; exact absurd (Finset.mem_range.2 hX) hn
  have hl2 : listed (next + 1) T0 (fun a => (getR S a).id) x X ≤ 1 := by
    unfold listed
    have : ∀ a ∈ Finset.range (next + 1), (∑ k ∈ Finset.range (next + 1), if (getR S a).id = x ∧ (getR S k).id = X then (getR T0 a).connections.count k else 0) =
        if (getR S a).id = x then (getR T0 a).connections.count X else 0 := by
      intro a haa
      rw [Finset.sum_eq_single X]
      · simp [ha.1]
      · intro k hk hne
        rw [if_neg]
        rintro ⟨_, e⟩
        exact hne (ha.2 k (Finset.mem_range.1 hk) e)
      · intro hn; exact absurd (Finset.mem_range.2 hX) hn
    rw [Finset.sum_congr rfl this, Finset.sum_eq_single C]
    · rw [if_pos hx]; omega
    · intro k hk hkC
      split
      · rename_i e
        obtain ⟨_, hk1, _, hk2, _⟩ := hJ.same (hcls k (Finset.mem_range.1 hk) e)
        exact (hJ.touching hk1 hk2.1 (h.others k (hcls k (Finset.mem_range.1 hk) e) hkC).2).1
      · rfl
    · intro hn; exact absurd (Finset.mem_range.2 hC) hn
  have hf1 : x ∉ (getR S X).floors := by
    intro hm
    obtain ⟨a, haa, g, hg, e1, e2, h3⟩ := hI.fl X hX x hxl ha.1 hroot hpX hpx hm
    rw [ha.2 a haa e1] at h3
    exact (h.apart g (hcls g hg e2)).1 (hJ.floors X hX g h3)
  have hf2 : X ∉ (getR S x).floors := by
    intro hm
    obtain ⟨a, haa, g, hg, e1, e2, h3⟩ := hI.fl x hxl X hX hroot ha.1 hpx hpX hm
    rw [ha.2 g hg e2] at h3
    exact (h.apart a (hcls a haa e1)).2 (hJ.floors a haa X h3)
  have hc1 := hI.cnt X hX x hxl ha.1 hroot hpX hpx (Ne.symm hxX)
  have hc2 := hI.cnt x hxl X hX hroot ha.1 hpx hpX hxX
  refine ⟨hmem, ⟨hpx.2, by rw [hT.len]; exact hxl, by rw [hroot]; exact hpx, hfl, ?_, ?_⟩, hxX, ?_⟩
  · unfold Region.canMergeWith
    rw [hroot, if_neg (by simpa using harea), if_neg (by omega)]
    simpa using hf1
  · unfold Region.canMergeWith
    rw [ha.1, if_neg (by simpa using harea.symm), if_neg (by omega)]
    simpa using hf2
  · rintro n ⟨i, r, hi, hor, rfl⟩
    obtain ⟨q1, q2⟩ := (hJ.out_iff i r).1 hor
    have ei := (getElem?_getD hi).2
    have hli : label reg T2 i = (getR T2 C).id := by unfold label; rw [ei]; simp [hpC.2]
    rw [hJ.region_count, hI.size x hxl hroot hpx, List.count_eq_countP, List.countP_map]
    refine List.countP_mono_left fun k hk hkx => ?_
    have hk' := List.mem_range.1 hk
    simp only [Function.comp_apply, beq_iff_eq] at hkx
    simp only [decide_eq_true_eq]
    have hnb : isBorderRegion (reg.getD k 0) = false := by
      by_contra hb
      have hb' : isBorderRegion (reg.getD k 0) = true := by simpa using hb
      unfold label at hkx
      rw [if_pos hb'] at hkx
      rw [hkx, hpx.2] at hb'
      cases hb'
    have hlt : reg.getD k 0 < next + 1 := by
      rcases hJ.tables.bound k hk' with h | h
      · exact h
      · rw [hnb] at h; cases h
    unfold label at hkx
    rw [hnb] at hkx
    simp only [Bool.false_eq_true, if_false] at hkx
    have hlk : label reg T2 k = (getR T2 (reg.getD k 0)).id := by unfold label; rw [hnb]; rfl
    have := (hJ.tables.joined i q1 k hk' (by rw [hli]; exact hp2) (by rw [hli, hlk]; exact hco C hC _ hlt (by rw [hx, hkx]))).2
    rw [← this, q2]

end CompactHeightfield
end Rerecast
