import Verif.Lemmas.RegionsJoin
/-! The merge loop as a sequence of merges, and what is true of every table on the way. -/
set_option linter.unusedVariables false
set_option linter.unusedSectionVars false
namespace Rerecast

/-- Region `c` may be joined with region `i`. -/
structure Candidate (T : List Region) (i c : Nat) : Prop where
  nb : isBorderRegion c = false
  lt : c < T.length
  proper : ProperRegion (getR T c).id
  flat : (getR T c).overlap = false
  there : (getR T i).canMergeWith (getR T c) = true
  back : (getR T c).canMergeWith (getR T i) = true

theorem mergeTarget_least {T : List Region} {i : Nat} (l : List Nat) : Holds (l.foldlM (mergeTarget T (getR T i)) (none, (getR T i).id)) fun t =>
    (t = (none, (getR T i).id) ∧ ∀ c ∈ l, ¬ Candidate T i c) ∨
    ∃ n ∈ l, Candidate T i n ∧ t = (some (getR T n).spanCount, (getR T n).id) ∧ ∀ c ∈ l, Candidate T i c → (getR T n).spanCount ≤ (getR T c).spanCount := by
  refine foldlM_holds (fun pre (t : Option Nat × Nat) => (t = (none, (getR T i).id) ∧ ∀ c ∈ pre, ¬ Candidate T i c) ∨
    ∃ n ∈ pre, Candidate T i n ∧ t = (some (getR T n).spanCount, (getR T n).id) ∧
      ∀ c ∈ pre, Candidate T i c → (getR T n).spanCount ≤ (getR T c).spanCount) l _ (Or.inl ⟨rfl, by simp⟩) ?_
  rintro pre c post t _ ht
  have skip : ¬ Candidate T i c → (t = (none, (getR T i).id) ∧ ∀ c' ∈ pre ++ [c], ¬ Candidate T i c') ∨
    ∃ n ∈ pre ++ [c], Candidate T i n ∧ t = (some (getR T n).spanCount, (getR T n).id) ∧
      ∀ c' ∈ pre ++ [c], Candidate T i c' → (getR T n).spanCount ≤ (getR T c').spanCount := by
    intro hno
    rcases ht with ⟨h1, h2⟩ | ⟨n, hn, hcn, h1, h2⟩
    · refine Or.inl ⟨h1, fun c' hc' => ?_⟩
      rcases List.mem_append.1 hc' with h | h
      · exact h2 c' h
      · rw [List.mem_singleton.1 h]; exact hno
    · refine Or.inr ⟨n, List.mem_append_left _ hn, hcn, h1, fun c' hc' hcand => ?_⟩
      rcases List.mem_append.1 hc' with h | h
      · exact h2 c' h hcand
      · rw [List.mem_singleton.1 h] at hcand; exact absurd hcand hno
  unfold mergeTarget
  split
  · rename_i hb
    refine Holds.ok (skip fun h => ?_)
    rw [h.nb] at hb; cases hb
  · rename_i hb
    refine Holds.bind_any fun m hm => ?_
    obtain ⟨hcl, rfl⟩ := idx_getR_inv hm
    split
    · rename_i hs
      refine Holds.ok (skip fun h => ?_)
      rw [skipId_false.2 h.proper, h.flat] at hs; cases hs
    · rename_i hs
      simp only [Bool.or_eq_true, not_or, Bool.not_eq_true] at hs
      by_cases hm : (getR T i).canMergeWith (getR T c) = true ∧ (getR T c).canMergeWith (getR T i) = true
      swap
      · rw [if_neg (by simp only [Bool.and_eq_true]; rintro ⟨⟨_, h1⟩, h2⟩; exact hm ⟨h1, h2⟩)]
        exact Holds.ok (skip fun h => hm ⟨h.there, h.back⟩)
      have hcand : Candidate T i c := ⟨by simpa using hb, hcl, skipId_false.1 hs.1, hs.2, hm.1, hm.2⟩
      rcases ht with ⟨h1, h2⟩ | ⟨n, hn, hcn, h1, h2⟩
      · rw [if_pos (by rw [h1, hm.1, hm.2]; rfl)]
        refine Holds.ok (Or.inr ⟨c, by simp, hcand, rfl, fun c' hc' hcand' => ?_⟩)
        rcases List.mem_append.1 hc' with h | h
        · exact absurd hcand' (h2 c' h)
        · rw [List.mem_singleton.1 h]
      · by_cases hlt : (getR T c).spanCount < (getR T n).spanCount
        · rw [if_pos (by rw [h1, hm.1, hm.2]; simp [belowSmallest, hlt])]
          refine Holds.ok (Or.inr ⟨c, by simp, hcand, rfl, fun c' hc' hcand' => ?_⟩)
          rcases List.mem_append.1 hc' with h | h
          · have := h2 c' h hcand'; omega
          · rw [List.mem_singleton.1 h]
        · rw [if_neg (by rw [h1]; simp [belowSmallest, hlt])]
          refine Holds.ok (Or.inr ⟨n, List.mem_append_left _ hn, hcn, h1, fun c' hc' hcand' => ?_⟩)
          rcases List.mem_append.1 hc' with h | h
          · exact h2 c' h hcand'
          · rw [List.mem_singleton.1 h]; omega

/-- Region `i` is merged into region `new`. -/
structure MStep (size nreg : Nat) (T T' : List Region) (i new : Nat) : Prop where
  hi : i < nreg
  hnew : new < nreg
  root : (getR T i).id = i
  proper : ProperRegion i
  newroot : (getR T new).id = new
  newproper : ProperRegion new
  ne : new ≠ i
  mem : new ∈ (getR T i).connections
  small : (getR T i).spanCount ≤ size ∨ 0 ∉ (getR T i).connections
  flat : (getR T i).overlap = false
  cand : Candidate T i new
  least : ∀ c ∈ (getR T i).connections, Candidate T i c → (getR T new).spanCount ≤ (getR T c).spanCount
  more : MergedMore i new i T T'
  join : MergedJoin i new i T T'

/-- Why region `i` is left as it is. -/
def Idle (size : Nat) (T : List Region) (i : Nat) : Prop :=
  ¬ ProperRegion (getR T i).id ∨ (getR T i).overlap = true ∨ (getR T i).spanCount = 0 ∨ (size < (getR T i).spanCount ∧ 0 ∈ (getR T i).connections) ∨
    (∀ c ∈ (getR T i).connections, ¬ Candidate T i c) ∨ ∃ n ∈ (getR T i).connections, Candidate T i n ∧ n ≠ i ∧ (getR T n).id = n ∧ i ∉ (getR T n).connections

namespace CompactHeightfield
variable {chf : CompactHeightfield}

theorem mergeStep_join {reg : List Nat} {nreg size : Nat} {i : Nat} (hi : i < nreg) {T0 T : List Region} {fl : Bool} (hT : TabInv chf reg nreg T)
    (hM : MergeInv chf reg nreg size T0 T) (hself : ∀ j < nreg, ProperRegion (getR T j).id → j ∉ (getR T j).connections) :
    Holds (mergeStep size (T, fl) i) fun o => (o = (T, fl) ∧ Idle size T i) ∨ (o.2 = true ∧ ∃ n, MStep size nreg T o.1 i n) := by
  unfold mergeStep
  simp only
  have hil : i < T.length := by rw [hT.len]; exact hi
  rw [idx_getR hil, bind_ok]
  by_cases hsk : skipId (getR T i).id = true
  · rw [if_pos hsk]; exact Holds.ok (Or.inl ⟨rfl, Or.inl (skipId_iff.1 hsk)⟩)
  rw [if_neg hsk]
  have hp : ProperRegion (getR T i).id := skipId_false.1 (by simpa using hsk)
  split
  · rename_i h; exact Holds.ok (Or.inl ⟨rfl, Or.inr (Or.inl h)⟩)
  rename_i hov
  split
  · rename_i h; exact Holds.ok (Or.inl ⟨rfl, Or.inr (Or.inr (Or.inl h))⟩)
  rename_i hcnt
  split
  · rename_i h
    simp only [Bool.and_eq_true, decide_eq_true_eq] at h
    refine Holds.ok (Or.inl ⟨rfl, Or.inr (Or.inr (Or.inr (Or.inl ⟨h.1, ?_⟩)))⟩)
    have := h.2
    unfold Region.connectedToBorder at this
    simpa [REGION_NONE] using this
  rename_i hborder
  have hid : (getR T i).id = i := by
    by_contra h
    exact hcnt (hM.live i hi hp h)
  refine Holds.bind (mergeTarget_least (T := T) (i := i) (getR T i).connections) ?_
  intro t ht
  rcases ht with ⟨rfl, h2⟩ | ⟨n, hn, hcn, rfl, h2⟩
  · simp only [if_true]
    exact Holds.ok (Or.inl ⟨rfl, Or.inr (Or.inr (Or.inr (Or.inr (Or.inl h2))))⟩)
  · simp only
    have hnl : n < nreg := by rw [← hT.len]; exact hcn.lt
    have hnn := hM.croot i hi hp n hn hnl hcn.proper
    have hne : n ≠ i := by
      rintro rfl
      exact hself n hi hp hn
    rw [hnn, if_neg (by rw [hid]; exact hne)]
    have hpn : ProperRegion n := by have := hcn.proper; rwa [hnn] at this
    refine Holds.bind ((mergeInto_more hil hp hpn hnn (by rw [hid]; exact hne)).and (mergeInto_join hil hp hid hpn hnn (by rw [hid]; exact hne))) ?_
    rintro ⟨T', fl'⟩ ⟨g1, g2⟩
    refine Holds.ok ?_
    simp only at g1 g2
    rcases g1 with ⟨rfl, rfl⟩ | ⟨rfl, g1⟩
    · left
      refine ⟨by simp, ?_⟩
      rcases g2 with ⟨_, h | h⟩ | ⟨h, _⟩
      · exact Or.inr (Or.inr (Or.inr (Or.inr (Or.inr ⟨n, hn, hcn, hne, hnn, h⟩))))
      · exact absurd hn h
      · cases h
    · right
      refine ⟨by simp, n, ?_⟩
      rcases g2 with ⟨h, _⟩ | ⟨_, g2⟩
      · cases h
      rw [hid] at g1
      refine ⟨hi, hnl, hid, hid ▸ hp, hnn, hpn, hne, hn, ?_, by simpa using hov, hcn, h2, g1, g2⟩
      simp only [Bool.and_eq_true, decide_eq_true_eq, not_and] at hborder
      by_cases hle : (getR T i).spanCount ≤ size
      · exact Or.inl hle
      · right
        have := hborder (by omega)
        unfold Region.connectedToBorder at this
        simpa [REGION_NONE] using this

theorem mstep_id {nreg size : Nat} {T T' : List Region} {i new : Nat} (hl : T.length = nreg) (h : MStep size nreg T T' i new) {j : Nat} (hj : j < nreg) :
    (getR T' j).id = rename i new (getR T j).id := h.more.id j (by rw [hl]; exact hj)

/-- How often the members of `x` are listed by the members of `r`. -/
def listed (nreg : Nat) (T0 : List Region) (id : Nat → Nat) (r x : Nat) : Nat :=
  ∑ a ∈ Finset.range nreg, ∑ b ∈ Finset.range nreg, if id a = r ∧ id b = x then (getR T0 a).connections.count b else 0

theorem listed_le {nreg : Nat} {T0 : List Region} {id id' : Nat → Nat} {i new : Nat} (hne : new ≠ i) (hid : ∀ a < nreg, id' a = rename i new (id a)) {r x : Nat}
    (hr : r ≠ i) (hx : x ≠ i) (hrx : r ≠ x) : listed nreg T0 id r x + (if r = new then listed nreg T0 id i x else 0) +
      (if x = new then listed nreg T0 id r i else 0) ≤ listed nreg T0 id' r x := by
  unfold listed
  by_cases h1 : r = new
  · subst h1
    rw [if_pos rfl, if_neg (Ne.symm hrx), Nat.add_zero, ← Finset.sum_add_distrib]
    refine Finset.sum_le_sum fun a ha => ?_
    rw [← Finset.sum_add_distrib]
    refine Finset.sum_le_sum fun b hb => ?_
    rw [hid a (Finset.mem_range.1 ha), hid b (Finset.mem_range.1 hb)]
    unfold rename
    by_cases e1 : id a = i
    · have : i ≠ r := Ne.symm hr
      by_cases e2 : id b = i
      · have : i ≠ x := Ne.symm hx
        simp [e1, e2, *]
      · simp [e1, e2, *]
    · by_cases e2 : id b = i
      · have : i ≠ x := Ne.symm hx
        simp [e1, e2, *]
      · simp [e1, e2]
  · rw [if_neg h1, Nat.add_zero]
    by_cases h2 : x = new
    · subst h2
      rw [if_pos rfl, ← Finset.sum_add_distrib]
      refine Finset.sum_le_sum fun a ha => ?_
      rw [← Finset.sum_add_distrib]
      refine Finset.sum_le_sum fun b hb => ?_
      rw [hid a (Finset.mem_range.1 ha), hid b (Finset.mem_range.1 hb)]
      unfold rename
      by_cases e1 : id a = i
      · have : i ≠ r := Ne.symm hr
        simp [e1, *]
      · by_cases e2 : id b = i
        · have : i ≠ x := Ne.symm hx
          simp [e1, e2, *]
        · simp [e1, e2]
    · rw [if_neg h2, Nat.add_zero]
      refine Finset.sum_le_sum fun a ha => Finset.sum_le_sum fun b hb => ?_
      rw [hid a (Finset.mem_range.1 ha), hid b (Finset.mem_range.1 hb)]
      unfold rename
      by_cases e1 : id a = i
      · have : i ≠ r := Ne.symm hr
        simp [e1, *]
      · by_cases e2 : id b = i
        · have : i ≠ x := Ne.symm hx
          simp [e1, e2, *]
        · simp [e1, e2]

/-- Some span has the label `c`. -/
def UsedLabel (chf : CompactHeightfield) (reg : List Nat) (c : Nat) : Prop := ∃ i < chf.spans.length, reg.getD i 0 = c

/-- Region `x` has taken up no other. -/
def Alone (nreg : Nat) (T : List Region) (x : Nat) : Prop := (getR T x).id = x ∧ ∀ k < nreg, (getR T k).id = x → k = x

/-- What is true of every table on the way, in terms of the table `T0` after collecting. -/
structure JoinInv (chf : CompactHeightfield) (reg : List Nat) (nreg : Nat) (T0 T : List Region) : Prop where
  self : ∀ j < nreg, ProperRegion (getR T j).id → j ∉ (getR T j).connections
  cnt : ∀ r < nreg, ∀ x < nreg, (getR T r).id = r → (getR T x).id = x → ProperRegion r → ProperRegion x → r ≠ x →
    (getR T r).connections.count x ≤ listed nreg T0 (fun a => (getR T a).id) r x
  fl : ∀ r < nreg, ∀ f < nreg, (getR T r).id = r → (getR T f).id = f → ProperRegion r → ProperRegion f → f ∈ (getR T r).floors →
    ∃ a < nreg, ∃ g < nreg, (getR T a).id = r ∧ (getR T g).id = f ∧ g ∈ (getR T0 a).floors
  memb : ∀ a < nreg, ∀ c < nreg, c ∈ (getR T0 a).connections → ProperRegion (getR T a).id → ProperRegion (getR T c).id → (getR T a).id ≠ (getR T c).id →
    (getR T c).id ∈ (getR T (getR T a).id).connections
  size : ∀ r < nreg, (getR T r).id = r → ProperRegion r → (getR T r).spanCount = ((List.range chf.spans.length).map (label reg T)).count r
  used : ∀ j < nreg, ProperRegion (getR T j).id → (getR T j).id ≠ j → chf.UsedLabel reg j ∧ chf.UsedLabel reg (getR T j).id ∧ (getR T0 (getR T j).id).overlap = false
  conused : ∀ r < nreg, ProperRegion (getR T r).id → ∀ c ∈ (getR T r).connections, c ≠ 0 → chf.UsedLabel reg r ∧ chf.UsedLabel reg c
  over : ∀ j < nreg, (getR T j).overlap = (getR T0 j).overlap
  single : ∀ x < nreg, ∀ y < nreg, ProperRegion x → ProperRegion y → x ≠ y → Alone nreg T x → Alone nreg T y → NoTwin y (getR T0 x).connections →
    NoTwin y (getR T x).connections ∧ (getR T x).connections.count y = (getR T0 x).connections.count y

theorem rename_root {nreg size : Nat} {T T' : List Region} {i new : Nat} (hl : T.length = nreg) (h : MStep size nreg T T' i new) {r : Nat} (hr : r < nreg)
    (e : (getR T' r).id = r) : r ≠ i ∧ (getR T r).id = r := by
  rw [mstep_id hl h hr] at e
  unfold rename at e
  split at e
  · rename_i h'
    subst e
    rw [h.newroot] at h'
    exact absurd h' h.ne
  · rename_i h'
    exact ⟨fun e' => h' (by rw [e]; exact e'), e⟩

theorem JoinInv.step {reg : List Nat} {nreg size : Nat} {T0 T T' : List Region} (hb : ∀ i < chf.spans.length, reg.getD i 0 < nreg ∨ isBorderRegion (reg.getD i 0) = true)
    (hT : TabInv chf reg nreg T) (hJ : JoinInv chf reg nreg T0 T) {i new : Nat} (h : MStep size nreg T T' i new) : JoinInv chf reg nreg T0 T' := by
  have hl := hT.len
  have hid : ∀ j < nreg, (getR T' j).id = rename i new (getR T j).id := fun j hj => mstep_id hl h hj
  have hiL : i < T.length := by rw [hl]; exact h.hi
  have hnL : new < T.length := by rw [hl]; exact h.hnew
  have hin : i ≠ new := Ne.symm h.ne
  have backid : ∀ j < nreg, ProperRegion (getR T' j).id → ProperRegion (getR T j).id := by
    intro j hj hp
    rw [hid j hj] at hp
    unfold rename at hp
    split at hp
    · rename_i h'; rw [h']; exact h.proper
    · exact hp
  have cm : ∀ {r m : Region}, r.canMergeWith m = true → r.connections.count m.id ≤ 1 := by
    intro r m hc
    unfold Region.canMergeWith at hc
    split at hc
    · cases hc
    · split at hc
      · cases hc
      · omega
  have hc1 := cm h.cand.there
  have hc2 := cm h.cand.back
  rw [h.newroot] at hc1
  rw [h.root] at hc2
  obtain ⟨hui, hun⟩ := hJ.conused i h.hi (by rw [h.root]; exact h.proper) new h.mem h.newproper.1
  refine ⟨?_, ?_, ?_, ?_, ?_, ?_, ?_, ?_, ?_⟩
  · intro j hj hp hmem
    have hpj := backid j hj hp
    have hjL : j < T.length := by rw [hl]; exact hj
    by_cases hjn : j = new
    · subst hjn
      exact h.join.self hc2 hc1 (hJ.self j hj hpj) (hJ.self i h.hi (by rw [h.root]; exact h.proper)) hmem
    · rcases h.more.con j hjL hpj j hmem with e | ⟨_, h' | ⟨e, _⟩⟩
      · exact hjn e
      · exact hJ.self j hj hpj h'
      · exact hjn e
  · intro r hr x hx e1 e2 hp1 hp2 hrx
    obtain ⟨r1, r2⟩ := rename_root hl h hr e1
    obtain ⟨x1, x2⟩ := rename_root hl h hx e2
    refine le_trans ?_ (listed_le h.ne (id := fun a => (getR T a).id) (fun a ha => hid a ha) r1 x1 hrx)
    have hc := h.join.count r (by rw [hl]; exact hr) r1 (by rw [r2]; exact hp1) x
    have main := hJ.cnt r hr x hx r2 x2 hp1 hp2 hrx
    rw [count_rename h.ne, count_rename h.ne, if_neg x1, if_neg x1] at hc
    by_cases hxn : x = new
    · rw [if_pos hxn, if_neg (by rw [← hxn]; exact hrx), Nat.add_zero] at hc
      rw [if_pos hxn, if_neg (by rw [← hxn]; exact hrx), Nat.add_zero]
      have := hJ.cnt r hr i h.hi r2 h.root hp1 h.proper r1
      rw [← hxn] at hc
      omega
    · rw [if_neg hxn, if_neg hxn] at hc
      rw [if_neg hxn, Nat.add_zero]
      by_cases hrn : r = new
      · rw [if_pos hrn] at hc ⊢
        have := hJ.cnt i h.hi x hx h.root x2 h.proper hp2 (Ne.symm x1)
        omega
      · rw [if_neg hrn, Nat.add_zero] at hc ⊢
        omega
  · intro r hr f hf e1 e2 hp1 hp2 hmem
    obtain ⟨r1, r2⟩ := rename_root hl h hr e1
    obtain ⟨f1, f2⟩ := rename_root hl h hf e2
    obtain ⟨g, e, hg⟩ := h.join.floors r (by rw [hl]; exact hr) r1 (by rw [r2]; exact hp1) f hmem
    -- the region that listed it, and the one listed, before the merge
    have key : ∀ r', (r' = r ∨ (r = new ∧ r' = i)) → g ∈ (getR T r').floors →
        ∃ a < nreg, ∃ g < nreg, (getR T' a).id = r ∧ (getR T' g).id = f ∧ g ∈ (getR T0 a).floors := by
      intro r' hr' hg'
      have hroot' : r' < nreg ∧ (getR T r').id = r' ∧ ProperRegion r' ∧ rename i new r' = r := by
        rcases hr' with rfl | ⟨rfl, rfl⟩
        · exact ⟨hr, r2, hp1, by unfold rename; rw [if_neg r1]⟩
        · exact ⟨h.hi, h.root, h.proper, by unfold rename; rw [if_pos rfl]⟩
      have hg2 : g < nreg ∧ (getR T g).id = g ∧ ProperRegion g := by
        unfold rename at e
        split at e
        · rename_i e'; subst e'; exact ⟨h.hi, h.root, h.proper⟩
        · subst e; exact ⟨hf, f2, hp2⟩
      obtain ⟨a, ha, g0, hg0, q1, q2, q3⟩ := hJ.fl r' hroot'.1 g hg2.1 hroot'.2.1 hg2.2.1 hroot'.2.2.1 hg2.2.2 hg'
      exact ⟨a, ha, g0, hg0, by rw [hid a ha, q1]; exact hroot'.2.2.2, by rw [hid g0 hg0, q2]; exact e.symm, q3⟩
    rcases hg with hg | ⟨e', hg⟩
    · exact key r (Or.inl rfl) hg
    · exact key i (Or.inr ⟨e', rfl⟩) hg
  · intro a ha c hc hmem hp1 hp2 hne
    have q1 := backid a ha hp1
    have q2 := backid c hc hp2
    rw [hid a ha, hid c hc] at hne ⊢
    have hold := hJ.memb a ha c hc hmem q1 q2 (fun e => hne (by rw [e]))
    by_cases hai : (getR T a).id = i
    · have hra : rename i new (getR T a).id = new := by unfold rename; rw [if_pos hai]
      rw [hra] at hne ⊢
      rw [hai] at hold
      exact h.join.keep new hnL h.ne _ (Or.inr ⟨rfl, hold⟩) (by rw [h.newroot]; exact h.newproper) (Ne.symm hne)
    · have hra : rename i new (getR T a).id = (getR T a).id := by unfold rename; rw [if_neg hai]
      rw [hra] at hne ⊢
      exact h.join.keep _ (by rw [hl]; exact hT.idlt a ha) hai _ (Or.inl hold) (by rw [hT.root a ha q1]; exact q1) (Ne.symm hne)
  · intro r hr e hp
    obtain ⟨r1, r2⟩ := rename_root hl h hr e
    have hlab : (List.range chf.spans.length).map (label reg T') = ((List.range chf.spans.length).map (label reg T)).map (rename i new) := by
      rw [List.map_map]
      refine List.map_congr_left fun k hk => ?_
      exact label_merged hT (by have := h.hi; omega) hb h.proper h.more (List.mem_range.1 hk)
    rw [hlab, count_rename h.ne, if_neg r1, h.more.count r (by rw [hl]; exact hr) r1]
    by_cases hrn : r = new
    · rw [if_pos hrn, if_pos hrn, hJ.size r hr r2 hp, hJ.size i h.hi h.root h.proper, hrn]
    · rw [if_neg hrn, if_neg hrn, Nat.add_zero, hJ.size r hr r2 hp]
  · intro j hj hp hne
    have q := backid j hj hp
    by_cases hji : (getR T j).id = i
    · have hra : (getR T' j).id = new := by rw [hid j hj]; unfold rename; rw [if_pos hji]
      rw [hra]
      refine ⟨?_, hun, by rw [← hJ.over new h.hnew]; exact h.cand.flat⟩
      by_cases e : j = i
      · rw [e]; exact hui
      · exact (hJ.used j hj q (by rw [hji]; exact Ne.symm e)).1
    · have hra : (getR T' j).id = (getR T j).id := by rw [hid j hj]; unfold rename; rw [if_neg hji]
      rw [hra] at hne ⊢
      exact hJ.used j hj q hne
  · intro r hr hp c hc hc0
    have hpr := backid r hr hp
    have hrL : r < T.length := by rw [hl]; exact hr
    refine ⟨?_, ?_⟩
    · by_cases hri : r = i
      · rw [hri]; exact hui
      by_cases hrn : r = new
      · rw [hrn]; exact hun
      have h1 := h.join.count r hrL hri hpr c
      rw [if_neg hrn, Nat.add_zero] at h1
      have h2 := List.count_pos_iff.2 hc
      obtain ⟨c', hc', e⟩ := List.mem_map.1 (List.count_pos_iff.1 (lt_of_lt_of_le h2 h1))
      refine (hJ.conused r hr hpr c' hc' ?_).1
      rintro rfl
      unfold rename at e
      rw [if_neg (fun e' => h.proper.1 e'.symm)] at e
      exact hc0 e.symm
    · rcases h.more.con r hrL hpr c hc with rfl | ⟨_, h' | ⟨_, h'⟩⟩
      · exact hun
      · exact (hJ.conused r hr hpr c h' hc0).2
      · exact (hJ.conused i h.hi (by rw [h.root]; exact h.proper) c h' hc0).2
  · intro j hj
    rw [h.more.overlap j (by rw [hl]; exact hj)]
    exact hJ.over j hj
  · intro x hx y hy hpx hpy hxy ax ay ht
    have alone : ∀ z < nreg, Alone nreg T' z → z ≠ i ∧ z ≠ new ∧ Alone nreg T z := by
      intro z hz az
      obtain ⟨z1, z2⟩ := rename_root hl h hz az.1
      refine ⟨z1, ?_, z2, fun k hk e => az.2 k hk ?_⟩
      · rintro rfl
        exact z1 (az.2 i h.hi (by rw [hid i h.hi, h.root]; unfold rename; rw [if_pos rfl])).symm
      · rw [hid k hk, e]; unfold rename; rw [if_neg z1]
    obtain ⟨x1, x2, x3⟩ := alone x hx ax
    obtain ⟨y1, y2, y3⟩ := alone y hy ay
    obtain ⟨g1, g2⟩ := hJ.single x hx y hy hpx hpy hxy x3 y3 ht
    obtain ⟨g3, g4⟩ := h.join.alone x (by rw [hl]; exact hx) x1 x2 (by rw [x3.1]; exact hpx) y y1 y2 g1
    exact ⟨g3, g4.trans g2⟩

/-- The table after removing small groups. -/
theorem joinInv_small {reg : List Nat} {nreg min : Nat} {T0 T : List Region} (h0 : Collected chf reg nreg T0) (hn : chf.WellFormed)
    (hC : Counted chf reg nreg T0) (hP : Pruned min T0 T0.length T)
    (hb : ∀ i < chf.spans.length, reg.getD i 0 < nreg ∨ isBorderRegion (reg.getD i 0) = true) : JoinInv chf reg nreg T0 T := by
  have hid : ∀ j < nreg, ProperRegion (getR T j).id → (getR T j).id = j ∧ (getR T j).spanCount = (getR T0 j).spanCount := by
    intro j hj hp
    rcases hP.alive j with ⟨h, h'⟩ | ⟨h, _⟩
    · exact ⟨by rw [h, h0.id j hj], h'⟩
    · exact absurd h hp.1
  have hcon : ∀ r < nreg, ProperRegion (getR T r).id → ∀ c ∈ (getR T r).connections, c ≠ 0 →
      ∃ a d b, d < 4 ∧ chf.nbr a d = some b ∧ reg.getD a 0 = r ∧ reg.getD b 0 = c ∧ c ≠ r := by
    intro r hr hp c hc hc0
    rw [hP.con] at hc
    exact (h0.con r hr c hc).2 hc0
  refine ⟨?_, ?_, ?_, ?_, ?_, ?_, ?_, fun j _ => hP.overlap j, ?_⟩
  · intro j hj hp hm
    obtain ⟨_, _, _, _, _, _, _, h⟩ := hcon j hj hp j hm (by rw [← (hid j hj hp).1]; exact hp.1)
    exact h rfl
  · intro r hr x hx e1 e2 hp1 hp2 hrx
    rw [hP.con]
    unfold listed
    have h1 := Finset.single_le_sum (f := fun a => ∑ b ∈ Finset.range nreg, if (getR T a).id = r ∧ (getR T b).id = x then (getR T0 a).connections.count b else 0)
      (fun _ _ => Nat.zero_le _) (Finset.mem_range.2 hr)
    have h2 := Finset.single_le_sum (f := fun b => if (getR T r).id = r ∧ (getR T b).id = x then (getR T0 r).connections.count b else 0)
      (fun _ _ => Nat.zero_le _) (Finset.mem_range.2 hx)
    simp only [e1, e2, and_self, if_true, true_and] at h1 h2
    exact h2.trans h1
  · intro r hr f hf e1 e2 hp1 hp2 hm
    rw [hP.floors] at hm
    exact ⟨r, hr, f, hf, e1, e2, hm⟩
  · intro a ha c hc hm hp1 hp2 _
    rw [(hid a ha hp1).1, (hid c hc hp2).1, hP.con]; exact hm
  · intro r hr e hp
    have hp' : ProperRegion (getR T r).id := by rw [e]; exact hp
    rw [(hid r hr hp').2, hC.count r hr hp.1, List.count_eq_countP, List.countP_map]
    refine List.countP_congr fun k hk => ?_
    have hk' := List.mem_range.1 hk
    simp only [decide_eq_true_eq, Function.comp_apply, beq_iff_eq]
    unfold label
    constructor
    · intro h
      rw [h, if_neg (by rw [hp.2]; simp), e]
    · intro h
      split at h
      · exact h
      · rename_i hnb
        rcases hb k hk' with hlt | hbb
        · rw [← (hid _ hlt (by rw [h]; exact hp)).1, h]
        · exact absurd hbb hnb
  · intro j hj hp h
    exact absurd (hid j hj hp).1 h
  · intro r hr hp c hc hc0
    obtain ⟨a, d, b, hd, hnb, ha, hb', _⟩ := hcon r hr hp c hc hc0
    exact ⟨⟨a, (nbr_lt hn hd hnb).1, ha⟩, b, nbr_dlt hn hd hnb, hb'⟩
  · intro x hx y hy _ _ _ _ _ ht
    rw [hP.con]
    exact ⟨ht, rfl⟩

end CompactHeightfield
end Rerecast
