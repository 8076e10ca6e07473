import Verif.Lemmas.RegionsTable
/-! Merging regions, compressing the ids, and the whole of `build_regions`. -/
set_option linter.unusedVariables false
set_option linter.unusedSectionVars false
namespace Rerecast

theorem skipId_iff {r : Nat} : skipId r = true ↔ ¬ ProperRegion r := by
  unfold skipId ProperRegion
  cases isBorderRegion r <;> simp

theorem skipId_false {r : Nat} : skipId r = false ↔ ProperRegion r := by
  rw [← Bool.not_eq_true, skipId_iff, not_not]

theorem getR_map {T : List Region} {g : Region → Region} {j : Nat} (h : j < T.length) : getR (T.map g) j = g (getR T j) := by
  simp [getR, List.getD_eq_getElem?_getD, h]

theorem forall₂_getR {R : Region → Region → Prop} {T T' : List Region} (h : List.Forall₂ R T T') {j : Nat} (hj : j < T.length) :
    R (getR T j) (getR T' j) := by
  have hj' : j < T'.length := by rw [← h.length_eq]; exact hj
  have := h.get (i := j) hj hj'
  simpa [getR, List.getD_eq_getElem?_getD, hj, hj'] using this

namespace CompactHeightfield
variable {chf : CompactHeightfield}

/-- The final label of span `i`: lines 407-413 of the source. -/
def label (reg : List Nat) (T : List Region) (i : Nat) : Nat :=
  if isBorderRegion (reg.getD i 0) then reg.getD i 0 else (getR T (reg.getD i 0)).id

/-- The table during the merge phase. -/
structure TabInv (chf : CompactHeightfield) (reg : List Nat) (nreg : Nat) (T : List Region) : Prop where
  len : T.length = nreg
  id0 : (getR T 0).id = 0
  idlt : ∀ j < nreg, (getR T j).id < nreg
  idnb : ∀ j < nreg, isBorderRegion j = false → isBorderRegion (getR T j).id = false
  root : ∀ j < nreg, ProperRegion (getR T j).id → (getR T (getR T j).id).id = (getR T j).id
  area : ∀ j < nreg, ProperRegion (getR T j).id → (getR T (getR T j).id).area = (getR T j).area
  conlt : ∀ j < nreg, ∀ c ∈ (getR T j).connections, isBorderRegion c = true ∨ c < nreg
  adj : ∀ j < nreg, ∀ c ∈ (getR T j).connections, c < nreg → ProperRegion (getR T j).id → ProperRegion (getR T c).id →
    isBorderRegion c = false → ∃ a d b, d < 4 ∧ chf.nbr a d = some b ∧ label reg T a = (getR T j).id ∧ label reg T b = (getR T c).id
  spanArea : ∀ i < chf.spans.length, ProperRegion (reg.getD i 0) → (getR T (reg.getD i 0)).area = chf.areaAt i
  unif : chf.Uniform (label reg T)
  conn : chf.Connected (label reg T)

section
variable (hwf : chf.WellFormed)
include hwf

omit hwf in
/-- The table after removing small regions satisfies the invariant. -/
theorem tabInv_small {reg : List Nat} {nreg min : Nat} {T0 T : List Region} (hn : 0 < nreg)
    (h0 : Collected chf reg nreg T0) (hs : Smaller min T0 T)
    (hu : chf.Uniform (fun i => reg.getD i 0)) (hc : chf.Connected (fun i => reg.getD i 0))
    (hb : ∀ i < chf.spans.length, reg.getD i 0 < nreg ∨ isBorderRegion (reg.getD i 0) = true) : TabInv chf reg nreg T := by
  have hid : ∀ j < nreg, (getR T j).id = j ∨ (getR T j).id = 0 := by
    intro j hj
    rcases hs.id j with h | h
    · rw [h, h0.id j hj]; exact Or.inl rfl
    · exact Or.inr h.1
  have hprop : ∀ j < nreg, ProperRegion (getR T j).id → (getR T j).id = j := by
    intro j hj hp
    rcases hid j hj with h | h
    · exact h
    · exact absurd h hp.1
  have hlab : ∀ i < chf.spans.length, ProperRegion (label reg T i) → label reg T i = reg.getD i 0 := by
    intro i hi hp
    unfold label at hp ⊢
    split
    · rfl
    · rename_i hnb
      rw [if_neg hnb] at hp
      rcases hb i hi with h | h
      · exact hprop _ h hp
      · exact absurd h hnb
  have hinj : ∀ i < chf.spans.length, ∀ j < chf.spans.length,
      ProperRegion ((fun r => if isBorderRegion r then r else (getR T r).id) (reg.getD i 0)) →
      (fun r => if isBorderRegion r then r else (getR T r).id) (reg.getD i 0) =
        (fun r => if isBorderRegion r then r else (getR T r).id) (reg.getD j 0) →
      reg.getD i 0 = reg.getD j 0 ∧ ProperRegion (reg.getD i 0) := by
    intro i hi j hj hp e
    have hp1 : ProperRegion (label reg T i) := hp
    have e1 : label reg T i = label reg T j := e
    have h1 := hlab i hi hp1
    have h2 := hlab j hj (e1 ▸ hp1)
    exact ⟨by rw [← h1, ← h2, e1], by rw [← h1]; exact hp1⟩
  refine ⟨by rw [hs.len, h0.len], ?_, ?_, ?_, ?_, ?_, ?_, ?_, ?_, ?_, ?_⟩
  · rcases hid 0 hn with h | h <;> exact h
  · intro j hj
    rcases hid j hj with h | h <;> rw [h] <;> omega
  · intro j hj hnb
    rcases hid j hj with h | h <;> rw [h]
    · exact hnb
    · decide
  · intro j hj hp
    rw [hprop j hj hp, hprop j hj hp]
  · intro j hj hp
    rw [hprop j hj hp]
  · intro j hj c hcc
    rw [hs.con] at hcc
    exact (h0.con j hj c hcc).1
  · intro j hj c hcc hcl hp hpc hcb
    rw [hs.con] at hcc
    have ej := hprop j hj hp
    have ec := hprop c hcl hpc
    obtain ⟨a, d, b, hd, hn, ha, hb', _⟩ := (h0.con j hj c hcc).2 (by rw [← ec]; exact hpc.1)
    refine ⟨a, d, b, hd, hn, ?_, ?_⟩
    · unfold label
      rw [ha, if_neg (by rw [← ej, hp.2]; simp)]
    · unfold label
      rw [hb', if_neg (by rw [hcb]; simp)]
  · intro i hi hp
    rw [hs.area]; exact h0.area i hi hp
  · exact relabel_uniform (π := fun r => if isBorderRegion r then r else (getR T r).id) hu hinj
  · exact relabel_connected (π := fun r => if isBorderRegion r then r else (getR T r).id) hc hinj

/-- Table entries after `old` was merged into `new`. -/
structure Merged (old new i : Nat) (T T' : List Region) : Prop where
  len : T'.length = T.length
  id : ∀ j < T.length, (getR T' j).id = if (getR T j).id = old then new else (getR T j).id
  area : ∀ j < T.length, (getR T' j).area = (getR T j).area
  con : ∀ j < T.length, ∀ c' ∈ (getR T' j).connections, ∃ c, (c' = c ∨ (c = old ∧ c' = new)) ∧
    (c ∈ (getR T j).connections ∨ (j = new ∧ c ∈ (getR T i).connections))

omit hwf in
theorem fixupRegion_out {bad : Prop} {old new : Nat} (ho : ProperRegion old) (r : Region) : Out bad (fixupRegion old new r) fun o =>
    (o.id = if r.id = old then new else r.id) ∧ o.area = r.area ∧
      ∀ c' ∈ o.connections, ∃ c ∈ r.connections, c' = c ∨ (c = old ∧ c' = new) := by
  unfold fixupRegion
  split
  · rename_i hs
    refine Out.ok ⟨?_, rfl, fun c hc => ⟨c, hc, Or.inl rfl⟩⟩
    rw [if_neg]
    intro e; rw [e, skipId_iff] at hs; exact hs ho
  · have key : ∀ q : Region, q.connections = r.connections → q.area = r.area → Out bad (q.replaceNeighbour old new) fun o =>
        o.id = q.id ∧ o.area = r.area ∧ ∀ c' ∈ o.connections, ∃ c ∈ r.connections, c' = c ∨ (c = old ∧ c' = new) := by
      intro q hq ha
      have hm : ∀ c' ∈ q.connections.map (fun c => if c = old then new else c), ∃ c ∈ r.connections, c' = c ∨ (c = old ∧ c' = new) := by
        intro c' hc'
        obtain ⟨c, hc, e⟩ := List.mem_map.1 hc'
        refine ⟨c, by rw [← hq]; exact hc, ?_⟩
        split at e
        · rename_i h; exact Or.inr ⟨h, e.symm⟩
        · exact Or.inl e.symm
      unfold Region.replaceNeighbour
      simp only
      split
      · refine Out.bind (removeAdjacent_out _ 0 _ (by omega)) fun o ho => ?_
        exact Out.ok ⟨rfl, ha, fun c' hc' => hm c' (ho c' hc')⟩
      · exact Out.ok ⟨rfl, ha, hm⟩
    by_cases hid : r.id = old
    · rw [if_pos hid]
      exact Out.mono (key { r with id := new } rfl rfl) fun o ⟨a, b, c⟩ => ⟨by rw [a, if_pos hid], b, c⟩
    · rw [if_neg hid]
      exact Out.mono (key r rfl rfl) fun o ⟨a, b, c⟩ => ⟨by rw [a, if_neg hid], b, c⟩

omit hwf in
theorem addUniqueFloors_core (l : List Nat) (r : Region) : (l.foldl Region.addUniqueFloor r).id = r.id ∧
    (l.foldl Region.addUniqueFloor r).area = r.area ∧ (l.foldl Region.addUniqueFloor r).connections = r.connections := by
  induction l generalizing r with
  | nil => exact ⟨rfl, rfl, rfl⟩
  | cons f l ih =>
    rw [List.foldl_cons]
    obtain ⟨a, b, c⟩ := ih (r.addUniqueFloor f)
    rw [a, b, c]
    unfold Region.addUniqueFloor
    split <;> exact ⟨rfl, rfl, rfl⟩

omit hwf in
theorem mergeRegions_out {bad : Prop} (r other : Region) : Out bad (r.mergeRegions other) fun o =>
    ∀ m, o = some m → m.id = r.id ∧ m.area = r.area ∧ ∀ c ∈ m.connections, c ∈ r.connections ∨ c ∈ other.connections := by
  unfold Region.mergeRegions
  split
  · refine Out.bind (cyclicRest_out _ _) fun a ha => ?_
    refine Out.bind (cyclicRest_out _ _) fun b hb => ?_
    refine Out.bind (removeAdjacent_out _ 0 (a ++ b) (by omega)) fun c hc => ?_
    refine Out.ok ?_
    intro m hm
    cases hm
    obtain ⟨e1, e2, e3⟩ := addUniqueFloors_core other.floors { r with connections := c }
    refine ⟨e1, e2, ?_⟩
    intro x hx
    simp only at hx
    rw [e3] at hx
    rcases List.mem_append.1 (hc x hx) with h | h
    · exact Or.inl (ha x h)
    · exact Or.inr (hb x h)
  · exact Out.ok (by intro m h; cases h)

omit hwf in
theorem mergeInto_out {bad : Prop} {reg : List Nat} {nreg : Nat} {T : List Region} (hT : TabInv chf reg nreg T) {i mergeId : Nat} (hi : i < nreg)
    (hp : ProperRegion (getR T i).id) (hm : mergeId < nreg) (hroot : (getR T mergeId).id = mergeId) (hne : mergeId ≠ (getR T i).id) :
    Out bad (mergeInto T i (getR T i) mergeId) fun o => (o.2 = false ∧ o.1 = T) ∨
      (o.2 = true ∧ Merged (getR T i).id mergeId i T o.1) := by
  have him : i ≠ mergeId := by
    intro e; rw [e] at hne; exact hne hroot.symm
  unfold mergeInto
  rw [idx_getR (by rw [hT.len]; exact hm), bind_ok]
  refine Out.bind (mergeRegions_out _ _) fun o ho => ?_
  cases o with
  | none => exact Out.ok (Or.inl ⟨rfl, rfl⟩)
  | some m =>
    obtain ⟨h1, h2, h3⟩ := ho m rfl
    simp only
    have hml : mergeId < T.length := by rw [hT.len]; exact hm
    have hil : i < (T.set mergeId m).length := by rw [List.length_set, hT.len]; exact hi
    rw [setIdx_ok hml, bind_ok, idx_getR hil, bind_ok, setIdx_ok hil, bind_ok]
    have hget : ∀ j, getR ((T.set mergeId m).set i { getR (T.set mergeId m) i with spanCount := 0, connections := [] }) j =
        if j = i then { getR T i with spanCount := 0, connections := [] } else if j = mergeId then m else getR T j := by
      intro j
      rw [getR_set hil]
      split
      · rw [getR_set hml, if_neg him]
      · rw [getR_set hml]
    refine Out.bind (Out.mapM (R := fun r o => (o.id = if r.id = (getR T i).id then mergeId else r.id) ∧ o.area = r.area ∧
      ∀ c' ∈ o.connections, ∃ c ∈ r.connections, c' = c ∨ (c = (getR T i).id ∧ c' = mergeId)) _ fun r _ => fixupRegion_out hp r) ?_
    intro T' hT'
    refine Out.ok (Or.inr ⟨rfl, ?_⟩)
    have hlen : T'.length = T.length := by rw [← hT'.length_eq]; simp
    have hrel : ∀ j < T.length, _ := fun j hj => forall₂_getR hT' (j := j) (by simpa using hj)
    refine ⟨hlen, ?_, ?_, ?_⟩
    · intro j hj
      obtain ⟨a, _, _⟩ := hrel j hj
      rw [a, hget]
      by_cases h1' : j = i
      · subst h1'; simp
      · rw [if_neg h1']
        by_cases h2' : j = mergeId
        · subst h2'; rw [if_pos rfl, h1]
        · rw [if_neg h2']
    · intro j hj
      obtain ⟨_, a, _⟩ := hrel j hj
      rw [a, hget]
      by_cases h1' : j = i
      · subst h1'; simp
      · rw [if_neg h1']
        by_cases h2' : j = mergeId
        · subst h2'; rw [if_pos rfl, h2]
        · rw [if_neg h2']
    · intro j hj c' hc'
      obtain ⟨_, _, a⟩ := hrel j hj
      obtain ⟨c, hc, e⟩ := a c' hc'
      rw [hget] at hc
      refine ⟨c, e, ?_⟩
      by_cases h1' : j = i
      · rw [if_pos h1'] at hc; cases hc
      · rw [if_neg h1'] at hc
        by_cases h2' : j = mergeId
        · rw [if_pos h2'] at hc
          rcases h3 c hc with h | h
          · left; rw [h2']; exact h
          · right; exact ⟨h2', h⟩
        · rw [if_neg h2'] at hc; exact Or.inl hc

/-- A merge keeps the invariant. -/
theorem TabInv.merged {reg : List Nat} {nreg : Nat} {T T' : List Region} (hT : TabInv chf reg nreg T)
    (hb : ∀ i < chf.spans.length, reg.getD i 0 < nreg ∨ isBorderRegion (reg.getD i 0) = true) (hlen : reg.length = chf.spans.length)
    {old new i c0 : Nat} (hi : i < nreg) (hold : (getR T i).id = old) (hpo : ProperRegion old) (hpn : ProperRegion new)
    (hc0 : c0 ∈ (getR T i).connections) (hc0l : c0 < nreg) (hc0b : isBorderRegion c0 = false) (hnew : (getR T c0).id = new)
    (hne : new ≠ old) (harea : (getR T i).area = (getR T c0).area)
    (hm : Merged old new i T T') : TabInv chf reg nreg T' := by
  have hoL : old < nreg := hold ▸ hT.idlt i hi
  have hnL : new < nreg := hnew ▸ hT.idlt c0 hc0l
  have hn0 : 0 < nreg := by omega
  have oroot : (getR T old).id = old := by
    have := hT.root i hi (hold ▸ hpo); rw [hold] at this; exact this
  have nroot : (getR T new).id = new := by
    have := hT.root c0 hc0l (hnew ▸ hpn); rw [hnew] at this; exact this
  have oarea : (getR T old).area = (getR T i).area := by
    have := hT.area i hi (hold ▸ hpo); rw [hold] at this; exact this
  have narea : (getR T new).area = (getR T c0).area := by
    have := hT.area c0 hc0l (hnew ▸ hpn); rw [hnew] at this; exact this
  have hid : ∀ j < nreg, (getR T' j).id = if (getR T j).id = old then new else (getR T j).id := fun j hj => hm.id j (by rw [hT.len]; exact hj)
  have har : ∀ j < nreg, (getR T' j).area = (getR T j).area := fun j hj => hm.area j (by rw [hT.len]; exact hj)
  have hlab : ∀ k, label reg T' k = if label reg T k = old then new else label reg T k := by
    intro k
    unfold label
    by_cases hbk : isBorderRegion (reg.getD k 0) = true
    · rw [if_pos hbk, if_pos hbk, if_neg]
      intro e; rw [e, hpo.2] at hbk; cases hbk
    · rw [if_neg hbk, if_neg hbk]
      by_cases hk : k < chf.spans.length
      · rcases hb k hk with h | h
        · exact hid _ h
        · exact absurd h hbk
      · rw [getD_of_ge (by rw [hlen]; omega)]; exact hid 0 hn0
  have hlabf : label reg T' = fun k => if label reg T k = old then new else label reg T k := funext hlab
  -- the label of a span determines its area
  have larea : ∀ k < chf.spans.length, ProperRegion (label reg T k) → chf.areaAt k = (getR T (label reg T k)).area := by
    intro k hk hp
    unfold label at hp ⊢
    by_cases hbk : isBorderRegion (reg.getD k 0) = true
    · rw [if_pos hbk] at hp; rw [hp.2] at hbk; cases hbk
    · rw [if_neg hbk] at hp ⊢
      have hkl : reg.getD k 0 < nreg := by
        rcases hb k hk with h | h
        · exact h
        · exact absurd h hbk
      have hpr : ProperRegion (reg.getD k 0) := by
        refine ⟨fun h => ?_, by simpa using hbk⟩
        have h' : reg.getD k 0 = 0 := h
        rw [h', hT.id0] at hp; exact not_proper_zero hp
      rw [hT.area _ hkl hp, hT.spanArea k hk hpr]
  obtain ⟨a, d, b, hd, hnb, la, lb⟩ := hT.adj i hi c0 hc0 hc0l (hold ▸ hpo) (hnew ▸ hpn) hc0b
  rw [hold] at la; rw [hnew] at lb
  have onew : ∀ j < nreg, ProperRegion (getR T' j).id → ProperRegion (getR T j).id := by
    intro j hj hp
    rw [hid j hj] at hp
    split at hp
    · rename_i h; rw [h]; exact hpo
    · exact hp
  refine ⟨by rw [hm.len, hT.len], ?_, ?_, ?_, ?_, ?_, ?_, ?_, ?_, ?_, ?_⟩
  · rw [hid 0 hn0, hT.id0, if_neg (fun e => hpo.1 e.symm)]
  · intro j hj; rw [hid j hj]; split
    · exact hnL
    · exact hT.idlt j hj
  · intro j hj hnb; rw [hid j hj]; split
    · exact hpn.2
    · exact hT.idnb j hj hnb
  · intro j hj hp
    have hp' := onew j hj hp
    rw [hid j hj]
    split
    · rw [hid new hnL, nroot, if_neg hne]
    · rename_i h
      rw [hid _ (hT.idlt j hj), hT.root j hj hp', if_neg h]
  · intro j hj hp
    have hp' := onew j hj hp
    rw [har j hj, hid j hj]
    split
    · rename_i h
      have := hT.area j hj hp'
      rw [h] at this
      rw [har new hnL, narea, ← harea, ← oarea, this]
    · rw [har _ (hT.idlt j hj), hT.area j hj hp']
  · intro j hj c' hc'
    obtain ⟨c, e, hc⟩ := hm.con j (by rw [hT.len]; exact hj) c' hc'
    rcases e with rfl | ⟨_, rfl⟩
    · rcases hc with hc | ⟨_, hc⟩
      · exact hT.conlt j hj c' hc
      · exact hT.conlt i hi c' hc
    · exact Or.inr hnL
  · intro j hj c' hc' hcl' hp hpc hcb
    have hp' := onew j hj hp
    obtain ⟨c, e, hc⟩ := hm.con j (by rw [hT.len]; exact hj) c' hc'
    -- the replaced connection `c` is a valid one with the same new id
    have hcc : c < nreg ∧ isBorderRegion c = false ∧ ProperRegion (getR T c).id ∧
        (getR T' c').id = if (getR T c).id = old then new else (getR T c).id := by
      rcases e with rfl | ⟨rfl, rfl⟩
      · exact ⟨hcl', hcb, onew _ hcl' hpc, hid _ hcl'⟩
      · exact ⟨hoL, hpo.2, oroot.symm ▸ hpo, by rw [hid _ hnL, nroot, if_neg hne, oroot, if_pos rfl]⟩
    rcases hc with hc | ⟨hjn, hc⟩
    · obtain ⟨a, d, b, hd, hn, la, lb⟩ := hT.adj j hj c hc hcc.1 hp' hcc.2.2.1 hcc.2.1
      exact ⟨a, d, b, hd, hn, by rw [hlab, la, hid j hj], by rw [hlab, lb, hcc.2.2.2]⟩
    · obtain ⟨a, d, b, hd, hn, la, lb⟩ := hT.adj i hi c hc hcc.1 (hold ▸ hpo) hcc.2.2.1 hcc.2.1
      refine ⟨a, d, b, hd, hn, ?_, by rw [hlab, lb, hcc.2.2.2]⟩
      rw [hlab, la, hold, if_pos rfl, hid j hj, hjn, nroot, if_neg hne]
  · intro k hk hp
    have hkl : reg.getD k 0 < nreg := by
      rcases hb k hk with h | h
      · exact h
      · rw [hp.2] at h; cases h
    rw [har _ hkl, hT.spanArea k hk hp]
  · rw [hlabf]
    refine merge_uniform hT.unif ?_ hpo hpn
    intro k hk m hm' e1 e2
    rw [larea k hk (e1 ▸ hpo), larea m hm' (e2 ▸ hpn), e1, e2, oarea, harea, narea]
  · rw [hlabf]
    exact merge_connected hwf hT.conn hpo hpn hd hnb la lb

/-- The ids in use. -/
def roots (T : List Region) : Nat := ((Finset.range T.length).filter fun j => (getR T j).id = j ∧ j ≠ 0).card

omit hwf in
theorem roots_lt {old new i : Nat} {T T' : List Region} (hm : Merged old new i T T') (ho : (getR T old).id = old) (hol : old < T.length)
    (h0 : old ≠ 0) (hne : new ≠ old) (hn : (getR T new).id = new) : roots T' < roots T := by
  unfold roots
  apply Finset.card_lt_card
  refine ⟨?_, ?_⟩
  · intro j hj
    simp only [Finset.mem_filter, Finset.mem_range] at hj ⊢
    have hjl : j < T.length := by rw [← hm.len]; exact hj.1
    refine ⟨hjl, ?_, hj.2.2⟩
    have := hj.2.1
    rw [hm.id j hjl] at this
    split at this
    · rename_i h; rw [← this]; exact hn
    · exact this
  · intro h
    have := h (Finset.mem_filter.2 ⟨Finset.mem_range.2 hol, ho, h0⟩)
    simp only [Finset.mem_filter, Finset.mem_range] at this
    have h2 := this.2.1
    rw [hm.id old hol, if_pos ho] at h2
    exact hne h2

omit hwf in
theorem roots_le (T : List Region) : roots T ≤ T.length := by
  unfold roots
  exact (Finset.card_filter_le _ _).trans (by simp)

omit hwf in
theorem canMergeWith_area {r m : Region} (h : r.canMergeWith m = true) : r.area = m.area := by
  unfold Region.canMergeWith at h
  split at h
  · cases h
  · rename_i h'; simpa using h'

/-- What passes of the merge phase keep about zero ids. -/
def ZeroIds (nreg : Nat) (T0 T : List Region) : Prop := ∀ j < nreg, (getR T j).id = 0 ↔ (getR T0 j).id = 0

theorem mergeStep_out {bad : Prop} {reg : List Nat} {nreg : Nat}
    (hb : ∀ i < chf.spans.length, reg.getD i 0 < nreg ∨ isBorderRegion (reg.getD i 0) = true) (hlen : reg.length = chf.spans.length)
    {size R i : Nat} (hi : i < nreg) {T0 : List Region} (st : List Region × Bool) (hT : TabInv chf reg nreg st.1) (hz : ZeroIds nreg T0 st.1)
    (hR : roots st.1 ≤ R ∧ (st.2 = true → roots st.1 < R)) :
    Out bad (mergeStep size st i) fun o => TabInv chf reg nreg o.1 ∧ ZeroIds nreg T0 o.1 ∧ roots o.1 ≤ R ∧ (o.2 = true → roots o.1 < R) := by
  obtain ⟨T, fl⟩ := st
  simp only at hT hz hR
  unfold mergeStep
  simp only
  rw [idx_getR (by rw [hT.len]; exact hi), bind_ok]
  by_cases hsk : skipId (getR T i).id = true
  · rw [if_pos hsk]; exact Out.ok ⟨hT, hz, hR⟩
  rw [if_neg hsk]
  have hp : ProperRegion (getR T i).id := skipId_false.1 (by simpa using hsk)
  split
  · exact Out.ok ⟨hT, hz, hR⟩
  split
  · exact Out.ok ⟨hT, hz, hR⟩
  split
  · exact Out.ok ⟨hT, hz, hR⟩
  refine Out.bind (Out.foldlM_inv (fun t : Option Nat × Nat => t.2 = (getR T i).id ∨ ∃ c ∈ (getR T i).connections, c < nreg ∧
    isBorderRegion c = false ∧ ProperRegion (getR T c).id ∧ t.2 = (getR T c).id ∧ (getR T i).area = (getR T c).area)
    _ _ (Or.inl rfl) ?_) ?_
  · intro c hc t ht
    unfold mergeTarget
    split
    · exact Out.ok ht
    · rename_i hcb
      have hcl : c < nreg := by
        rcases hT.conlt i hi c hc with h | h
        · exact absurd h hcb
        · exact h
      rw [idx_getR (by rw [hT.len]; exact hcl), bind_ok]
      split
      · exact Out.ok ht
      · rename_i hskc
        simp only [Bool.or_eq_true, not_or, Bool.not_eq_true] at hskc
        split
        · rename_i hcm
          simp only [Bool.and_eq_true] at hcm
          exact Out.ok (Or.inr ⟨c, hc, hcl, by simpa using hcb, skipId_false.1 hskc.1, rfl, canMergeWith_area hcm.1.2⟩)
        · exact Out.ok ht
  · rintro ⟨sm, t⟩ ht
    simp only at ht ⊢
    by_cases hteq : t = (getR T i).id
    · rw [if_pos hteq]; exact Out.ok ⟨hT, hz, hR⟩
    · rw [if_neg hteq]
      rcases ht with h | ⟨c, hc, hcl, hcb, hpc, hte, harea⟩
      · exact absurd h hteq
      subst hte
      have hroot := hT.root c hcl hpc
      have holdroot := hT.root i hi hp
      refine Out.bind (mergeInto_out hT hi hp (hT.idlt c hcl) hroot hteq) ?_
      rintro ⟨T', fl'⟩ h
      refine Out.ok ?_
      rcases h with ⟨h1, h2⟩ | ⟨h1, h2⟩
      · simp only at h1 h2 ⊢; subst h1 h2
        simpa using ⟨hT, hz, hR⟩
      · simp only at h1 h2 ⊢; subst h1
        have hrl := roots_lt h2 holdroot (by rw [hT.len]; exact hT.idlt i hi) hp.1 hteq hroot
        refine ⟨hT.merged hwf hb hlen hi rfl hp hpc hc hcl hcb rfl hteq harea h2, ?_, by omega, fun _ => by omega⟩
        intro j hj
        rw [← hz j hj, h2.id j (by rw [hT.len]; exact hj)]
        split
        · rename_i h
          constructor
          · intro e; exact absurd e hpc.1
          · intro e; rw [e] at h; exact absurd h.symm hp.1
        · rfl

theorem mergeLoop_out {bad : Prop} {reg : List Nat} {nreg : Nat}
    (hb : ∀ i < chf.spans.length, reg.getD i 0 < nreg ∨ isBorderRegion (reg.getD i 0) = true) (hlen : reg.length = chf.spans.length)
    {size : Nat} {T0 : List Region} : ∀ (fuel : Nat) (T : List Region), TabInv chf reg nreg T → ZeroIds nreg T0 T → roots T < fuel →
      Out bad (mergeLoop size fuel T) fun o => TabInv chf reg nreg o ∧ ZeroIds nreg T0 o
  | 0, T, _, _, h => by omega
  | fuel + 1, T, hT, hz, hf => by
    unfold mergeLoop
    refine Out.bind (Out.foldlM_inv (fun o : List Region × Bool => TabInv chf reg nreg o.1 ∧ ZeroIds nreg T0 o.1 ∧ roots o.1 ≤ roots T ∧
      (o.2 = true → roots o.1 < roots T)) _ _ ⟨hT, hz, Nat.le_refl _, by simp⟩ ?_) ?_
    · rintro i hi st ⟨h1, h2, h3⟩
      exact mergeStep_out hwf hb hlen (by have := List.mem_range.1 hi; rw [hT.len] at this; exact this) st h1 h2 h3
    · rintro ⟨T', fl⟩ ⟨h1, h2, h3, h4⟩
      simp only at h1 h2 h3 h4 ⊢
      split
      · rename_i h
        exact mergeLoop_out hb hlen fuel T' h1 h2 (by have := h4 h; omega)
      · exact Out.ok ⟨h1, h2⟩

end
end CompactHeightfield

/-! ### compressing the ids -/

theorem getR_mapIdx {T : List Region} {g : Nat → Region → Region} {j : Nat} (h : j < T.length) : getR (T.mapIdx g) j = g j (getR T j) := by
  simp [getR, List.getD_eq_getElem?_getD, h]

/-- New number of the old id `o`, given the list of old ids met so far. -/
def newId (A : List Nat) (o : Nat) : Nat := if o ∈ A then A.idxOf o + 1 else o

/-- State of the compression before index `i`. -/
structure CompInv (T0 : List Region) (i : Nat) (st : List Region × Nat) (A : List Nat) : Prop where
  len : st.1.length = T0.length
  id : ∀ j < T0.length, (getR st.1 j).id = newId A (getR T0 j).id
  remap : ∀ j < T0.length, (getR st.1 j).remap = decide (ProperRegion (getR T0 j).id ∧ (getR T0 j).id ∉ A)
  overlap : ∀ j < T0.length, (getR st.1 j).overlap = (getR T0 j).overlap
  gen : st.2 = A.length
  nodup : A.Nodup
  proper : ∀ o ∈ A, ProperRegion o
  mem : ∀ o ∈ A, o < T0.length
  done : ∀ j < i, j < T0.length → ProperRegion (getR T0 j).id → (getR T0 j).id ∈ A
  few : A.length ≤ i ∧ (0 < i → A.length < i)

theorem proper_lt {o : Nat} (h : ProperRegion o) (hl : o < 65536) : 0 < o ∧ o < 0x8000 := by
  refine ⟨Nat.pos_of_ne_zero h.1, ?_⟩
  by_contra hc
  have h2 := h.2
  unfold isBorderRegion at h2
  have : o.testBit 15 = true := by
    rw [Nat.testBit_eq_decide_div_mod_eq]
    have : o / 2 ^ 15 = 1 := by omega
    rw [this]; rfl
  rw [this] at h2; cases h2

theorem compressIds_out {bad : Prop} {T0 : List Region} (hid0 : (getR T0 0).id = 0) (hlt : ∀ j < T0.length, (getR T0 j).id < T0.length)
    (hroot : ∀ j < T0.length, ProperRegion (getR T0 j).id → (getR T0 (getR T0 j).id).id = (getR T0 j).id) (hlen : T0.length ≤ 65535) :
    Out bad (compressIds T0) fun st => ∃ A, CompInv T0 T0.length st A := by
  unfold compressIds
  simp only [List.length_map]
  refine Out.mono (Out.foldlM (fun pre st => ∃ A, CompInv T0 pre.length st A) _ _ ⟨[], ?_⟩ ?_) fun st hst => by simpa using hst
  · have hg : ∀ j < T0.length, getR (T0.map fun r => { r with remap := !skipId r.id }) j = { getR T0 j with remap := !skipId (getR T0 j).id } :=
      fun j hj => getR_map hj
    refine ⟨by simp, ?_, ?_, ?_, rfl, List.nodup_nil, by simp, by simp, by simp, by simp⟩
    · intro j hj; simp only; rw [hg j hj]; simp [newId]
    · intro j hj; simp only; rw [hg j hj]
      by_cases h : ProperRegion (getR T0 j).id
      · simp [h, skipId_false.2 h]
      · simp [h, skipId_iff.2 h]
    · intro j hj; simp only; rw [hg j hj]
  · rintro pre i post ⟨T, g⟩ he ⟨A, h⟩
    -- the index is the number of processed entries
    have hi : i = pre.length ∧ i < T0.length := by
      have h1 : (List.range T0.length)[pre.length]? = some i := by rw [he]; simp
      rw [List.getElem?_eq_some_iff] at h1
      obtain ⟨hl, e⟩ := h1
      simp at hl e
      exact ⟨e.symm, by omega⟩
    obtain ⟨hip, hil⟩ := hi
    rw [List.length_append, List.length_singleton]
    rw [← hip] at h ⊢
    unfold compressStep
    simp only
    have hlenT := h.len
    simp only at hlenT
    rw [idx_getR (by rw [hlenT]; exact hil), bind_ok]
    have hrm := h.remap i hil
    simp only at hrm
    by_cases hcase : ProperRegion (getR T0 i).id ∧ (getR T0 i).id ∉ A
    · have hr1 : (getR T i).remap = true := by rw [hrm]; simpa using hcase
      rw [if_neg (by rw [hr1]; simp)]
      obtain ⟨hp, hna⟩ := hcase
      generalize hoe : (getR T0 i).id = o at *
      have hol : o < T0.length := hoe ▸ hlt i hil
      have hoid : (getR T i).id = o := by
        have := h.id i hil
        simp only at this
        rw [this, hoe, newId, if_neg hna]
      -- `o` is not below `i`
      have hoi : i ≤ o := by
        by_contra hc
        have hroot' : (getR T0 o).id = o := by have := hroot i hil (hoe ▸ hp); rw [hoe] at this; exact this
        exact hna (by have := h.done o (by omega) hol (by rw [hroot']; exact hp); rw [hroot'] at this; exact this)
      have hi0 : 0 < i := by
        rcases Nat.eq_zero_or_pos i with h0 | h0
        · exfalso; rw [h0, hid0] at hoe; exact hp.1 hoe.symm
        · exact h0
      have hAi := h.few.2 hi0
      have hgen : g = A.length := h.gen
      unfold addU16
      rw [if_pos (by omega), bind_ok]
      have hnew : ∀ j < T0.length, (getR T j).id = o ↔ (getR T0 j).id = o := by
        intro j hj
        have hidj := h.id j hj
        simp only at hidj
        rw [hidj, newId]
        split
        · rename_i hm
          constructor
          · intro e
            have := List.idxOf_lt_length_of_mem hm
            omega
          · intro e; rw [e] at hm; exact absurd hm hna
        · rfl
      refine Out.ok ⟨A ++ [o], ?_, ?_, ?_, ?_, ?_, ?_, ?_, ?_, ?_, ?_⟩
      · simpa using hlenT
      · intro j hj
        simp only
        rw [getR_mapIdx (by rw [hlenT]; exact hj), hoid]
        by_cases hjo : (getR T0 j).id = o
        · have hij : i ≤ j := by
            by_contra hc
            have hroot' := h.done j (by omega) hj (by rw [hjo]; exact hp)
            rw [hjo] at hroot'; exact hna hroot'
          rw [if_pos ⟨hij, (hnew j hj).2 hjo⟩, hjo, newId, if_pos (by simp), List.idxOf_append_of_notMem hna]
          simp [hgen]
        · rw [if_neg (fun hh => hjo ((hnew j hj).1 hh.2))]
          have hidj := h.id j hj
          simp only at hidj
          rw [hidj, newId, newId]
          by_cases hm : (getR T0 j).id ∈ A
          · rw [if_pos hm, if_pos (by simp [hm]), List.idxOf_append_of_mem hm]
          · rw [if_neg hm, if_neg (by simp [hm, hjo])]
      · intro j hj
        simp only
        rw [getR_mapIdx (by rw [hlenT]; exact hj), hoid]
        by_cases hjo : (getR T0 j).id = o
        · have hij : i ≤ j := by
            by_contra hc
            have hroot' := h.done j (by omega) hj (by rw [hjo]; exact hp)
            rw [hjo] at hroot'; exact hna hroot'
          rw [if_pos ⟨hij, (hnew j hj).2 hjo⟩]
          simp [hjo]
        · rw [if_neg (fun hh => hjo ((hnew j hj).1 hh.2))]
          have := h.remap j hj
          simp only at this
          rw [this]
          simp [hjo]
      · intro j hj
        simp only
        rw [getR_mapIdx (by rw [hlenT]; exact hj)]
        have := h.overlap j hj
        simp only at this
        split
        · exact this
        · exact this
      · simp [hgen]
      · exact List.nodup_append.2 ⟨h.nodup, by simp, by
          intro a ha b hb' e
          rw [List.mem_singleton.1 hb'] at e
          exact hna (e ▸ ha)⟩
      · intro x hx
        rcases List.mem_append.1 hx with hx | hx
        · exact h.proper x hx
        · rw [List.mem_singleton.1 hx]; exact hp
      · intro x hx
        rcases List.mem_append.1 hx with hx | hx
        · exact h.mem x hx
        · rw [List.mem_singleton.1 hx]; exact hol
      · intro j hj hjl hpj
        rcases Nat.lt_or_eq_of_le (Nat.le_of_lt_succ hj) with hj' | hj'
        · exact List.mem_append.2 (Or.inl (h.done j hj' hjl hpj))
        · rw [hj', hoe]; simp
      · simp only [List.length_append, List.length_singleton]; omega
    · have hr1 : (getR T i).remap = false := by rw [hrm]; simpa using hcase
      rw [if_pos (by rw [hr1]; rfl)]
      refine Out.ok ⟨A, hlenT, h.id, h.remap, h.overlap, h.gen, h.nodup, h.proper, h.mem, ?_, ?_⟩
      · intro j hj hjl hpj
        rcases Nat.lt_or_eq_of_le (Nat.le_of_lt_succ hj) with hj' | hj'
        · exact h.done j hj' hjl hpj
        · subst hj'
          by_contra hc
          exact hcase ⟨hpj, hc⟩
      · have := h.few; omega

theorem CompInv.few' {T0 : List Region} {n : Nat} {st : List Region × Nat} {A : List Nat} (h : CompInv T0 n st A)
    (hlt : T0.length ≤ 65536) : A.length < 0x8000 := by
  have h1 : A.toFinset ⊆ Finset.Ico 1 32768 := by
    intro o ho
    have ho' := List.mem_toFinset.1 ho
    obtain ⟨h1, h2⟩ := proper_lt (h.proper o ho') (by have := h.mem o ho'; omega)
    exact Finset.mem_Ico.2 ⟨h1, h2⟩
  have h2 := Finset.card_le_card h1
  rw [List.toFinset_card_of_nodup h.nodup, Nat.card_Ico] at h2
  omega

namespace CompactHeightfield
variable {chf : CompactHeightfield}

/-- What region building yields: the new labels `f` and the new `max_region`; `next` bounds the ids before merging. -/
structure Built (chf : CompactHeightfield) (b min next : Nat) (f : List Nat) (maxR : Nat) : Prop where
  len : f.length = chf.spans.length
  walk : ∀ i < chf.spans.length, f.getD i 0 ≠ 0 → chf.WalkableAt i
  range : ∀ i < chf.spans.length, ProperRegion (f.getD i 0) → f.getD i 0 ≤ maxR
  maxlt : maxR < 0x8000
  unif : chf.Uniform (fun i => f.getD i 0)
  conn : chf.Connected (fun i => f.getD i 0)
  few : next ≤ chf.spans.length + 5
  sided : ∀ i < chf.spans.length, chf.WalkableAt i → chf.Strip b i → chf.SideStrip b i (f.getD i 0)
  strip : next ≤ 0x8000 → ∀ i < chf.spans.length, isBorderRegion (f.getD i 0) = true ↔ chf.WalkableAt i ∧ chf.Strip b i
  gaps : min = 0 → ∀ i < chf.spans.length, chf.WalkableAt i → f.getD i 0 = 0 → ∀ j, ¬ chf.Touches f i j
  u16 : ∀ i < chf.spans.length, f.getD i 0 < 65536
  complete : min = 0 → 1 ≤ chf.maxDistance → next ≤ 0x8000 → ∀ i < chf.spans.length, chf.WalkableAt i → ¬ chf.Strip b i → f.getD i 0 ≠ 0
  none : chf.maxDistance = 0 → ∀ i < chf.spans.length, ¬ ProperRegion (f.getD i 0)

theorem Built.painted {b min next : Nat} {f : List Nat} {maxR : Nat} (h : Built chf b min next f maxR) (i : Nat) (hi : i < chf.spans.length)
    (hw : chf.WalkableAt i) (hs : chf.Strip b i) : isBorderRegion (f.getD i 0) = true := (h.sided i hi hw hs).border

section
variable (hwf : chf.WellFormed)
include hwf

theorem mergeAndFilter_out {b min size : Nat} {o : List Nat × Nat} (hL : Labelled chf b o) :
    Out (32766 < chf.spans.length) (chf.mergeAndFilter min size o.1 o.2) fun r => Built chf b min o.2 r.1 r.2.1 := by
  obtain ⟨⟨lab, hle, hl⟩, hnext, hused, hstuck, hcomplete, hnone⟩ := hL
  obtain ⟨reg, next⟩ := o
  simp only at hle hl hnext hused hstuck hcomplete hnone ⊢
  subst hle
  have hnl := hused.next_le
  unfold mergeAndFilter addU16
  by_cases hov : next + 1 ≤ 65535
  · rw [if_pos hov, bind_ok]
    have hb : ∀ i < chf.spans.length, lab.reg.getD i 0 < next + 1 ∨ isBorderRegion (lab.reg.getD i 0) = true := by
      intro i hi
      rcases hl.bound i hi with h | h
      · left; omega
      · exact Or.inr h.1
    refine Out.bind (collectRegions_out hwf hl.shape.reg_len hb (by omega) hl.unif) fun T0 h0 => ?_
    refine Out.bind (removeSmall_out (by intro j hj; rw [h0.len] at hj ⊢; rw [h0.id j hj]; exact hj)
      (by intro j hj c hc; rw [h0.len] at hj ⊢; exact (h0.con j hj c hc).1)) fun T1 h1 => ?_
    have ht1 := tabInv_small (by omega) h0 h1 hl.unif hl.conn hb
    refine Out.bind (mergeLoop_out hwf hb hl.shape.reg_len _ T1 ht1 (T0 := T1) (fun j _ => Iff.rfl)
      (by have := roots_le T1; rw [ht1.len] at this; omega)) ?_
    rintro T2 ⟨ht2, hz⟩
    refine Out.bind (compressIds_out ht2.id0 (by intro j hj; rw [ht2.len] at hj ⊢; exact ht2.idlt j hj)
      (by intro j hj; rw [ht2.len] at hj; exact ht2.root j hj) (by rw [ht2.len]; omega)) ?_
    rintro ⟨T3, g⟩ ⟨A, hA⟩
    have hlen2 := ht2.len
    rw [hlen2] at hA
    have hlen3 : T3.length = next + 1 := by rw [← hlen2]; exact hA.len
    simp only
    -- the final labels
    have hid3 : ∀ j < next + 1, (getR T3 j).id = newId A (getR T2 j).id := fun j hj => hA.id j (by rw [hlen2]; exact hj)
    refine Out.bind (Out.mapM (R := fun r f => (isBorderRegion r = true → f = r) ∧ (isBorderRegion r = false → f = (getR T3 r).id)) lab.reg ?_) ?_
    · intro r hr
      split
      · rename_i h; exact Out.ok ⟨fun _ => rfl, fun h' => by rw [h] at h'; cases h'⟩
      · rename_i h
        have hrl : r < T3.length := by
          obtain ⟨k, hk, e⟩ := List.mem_iff_getElem.1 hr
          have hk' : k < chf.spans.length := by rw [← hl.shape.reg_len]; exact hk
          have e' : lab.reg.getD k 0 = r := by simp [List.getD_eq_getElem?_getD, hk, e]
          rw [hlen3]
          rcases hb k hk' with h' | h'
          · rw [e'] at h'; exact h'
          · rw [e'] at h'; exact absurd h' h
        rw [idx_getR hrl, bind_ok]
        exact Out.ok ⟨fun h' => absurd h' h, fun _ => rfl⟩
    · intro f hf
      refine Out.ok ?_
      have hflen : f.length = chf.spans.length := by rw [← hf.length_eq]; exact hl.shape.reg_len
      have hval : ∀ i < chf.spans.length, (isBorderRegion (lab.reg.getD i 0) = true → f.getD i 0 = lab.reg.getD i 0) ∧
          (isBorderRegion (lab.reg.getD i 0) = false → f.getD i 0 = (getR T3 (lab.reg.getD i 0)).id) := by
        intro i hi
        have h1' : i < lab.reg.length := by rw [hl.shape.reg_len]; exact hi
        have h2' : i < f.length := by rw [hflen]; exact hi
        have := hf.get (i := i) h1' h2'
        simpa [List.getD_eq_getElem?_getD, h1', h2'] using this
      -- labels in terms of the table before compression
      have hpA : ∀ j < next + 1, ProperRegion (getR T2 j).id → (getR T2 j).id ∈ A := fun j hj hp => hA.done j hj (by rw [hlen2]; exact hj) hp
      have hAfew : A.length < 0x8000 := hA.few' (by rw [hlen2]; omega)
      have hA0 : (0 : Nat) ∉ A := fun h => (hA.proper 0 h).1 rfl
      have hlabT : ∀ i < chf.spans.length, ProperRegion (label lab.reg T2 i) → label lab.reg T2 i ∈ A := by
        intro i hi hp
        unfold label at hp ⊢
        by_cases hbi : isBorderRegion (lab.reg.getD i 0) = true
        · rw [if_pos hbi] at hp; rw [hp.2] at hbi; cases hbi
        · rw [if_neg hbi] at hp ⊢
          rcases hb i hi with h | h
          · exact hpA _ h hp
          · exact absurd h hbi
      have hf2 : ∀ i < chf.spans.length, f.getD i 0 = newId A (label lab.reg T2 i) := by
        intro i hi
        obtain ⟨v1, v2⟩ := hval i hi
        unfold label
        by_cases hbi : isBorderRegion (lab.reg.getD i 0) = true
        · rw [if_pos hbi, v1 hbi, newId, if_neg]
          intro hm; rw [(hA.proper _ hm).2] at hbi; cases hbi
        · rw [if_neg hbi, v2 (by simpa using hbi)]
          rcases hb i hi with h | h
          · exact hid3 _ h
          · exact absurd h hbi
      have hnew : ∀ x ∈ A, newId A x = A.idxOf x + 1 ∧ newId A x ≤ A.length ∧ ProperRegion (newId A x) := by
        intro x hx
        have hlt := List.idxOf_lt_length_of_mem hx
        have e : newId A x = A.idxOf x + 1 := by rw [newId, if_pos hx]
        refine ⟨e, by omega, by rw [e]; exact Nat.succ_ne_zero _, ?_⟩
        unfold isBorderRegion
        exact Nat.testBit_lt_two_pow (by omega)
      -- a proper final label comes from a proper label
      have hback : ∀ i < chf.spans.length, ProperRegion (f.getD i 0) → label lab.reg T2 i ∈ A := by
        intro i hi hp
        by_contra hna
        rw [hf2 i hi, newId, if_neg hna] at hp
        exact hna (hlabT i hi hp)
      have hinj : ∀ i < chf.spans.length, ∀ j < chf.spans.length, ProperRegion (newId A (label lab.reg T2 i)) →
          newId A (label lab.reg T2 i) = newId A (label lab.reg T2 j) →
          label lab.reg T2 i = label lab.reg T2 j ∧ ProperRegion (label lab.reg T2 i) := by
        intro i hi j hj hp e
        have h1 := hback i hi (by rw [hf2 i hi]; exact hp)
        have h2 := hback j hj (by rw [hf2 j hj, ← e]; exact hp)
        refine ⟨?_, hA.proper _ h1⟩
        rw [(hnew _ h1).1, (hnew _ h2).1] at e
        exact (List.idxOf_inj h1).1 (by omega)
      have hu2 := relabel_uniform (π := newId A) ht2.unif hinj
      have hc2 := relabel_connected (π := newId A) ht2.conn hinj
      have hreg0 : ∀ i < chf.spans.length, lab.reg.getD i 0 = 0 → f.getD i 0 = 0 := by
        intro i hi h
        rw [hf2 i hi]
        have : label lab.reg T2 i = 0 := by
          unfold label; rw [h, if_neg (by decide), ht2.id0]
        rw [this, newId, if_neg hA0]
      have hborder : ∀ i < chf.spans.length, isBorderRegion (f.getD i 0) = isBorderRegion (lab.reg.getD i 0) := by
        intro i hi
        by_cases hbi : isBorderRegion (lab.reg.getD i 0) = true
        · rw [(hval i hi).1 hbi]
        · have hbi' : isBorderRegion (lab.reg.getD i 0) = false := by simpa using hbi
          have hlt : lab.reg.getD i 0 < next + 1 := by
            rcases hb i hi with h | h
            · exact h
            · exact absurd h hbi
          rw [(hval i hi).2 hbi', hbi', hid3 _ hlt]
          by_cases hm : (getR T2 (lab.reg.getD i 0)).id ∈ A
          · exact (hnew _ hm).2.2.2
          · rw [newId, if_neg hm]; exact ht2.idnb _ hlt hbi'
      have hkept : min = 0 → ∀ i < chf.spans.length, f.getD i 0 = 0 → lab.reg.getD i 0 = 0 := by
        intro hmin i hi h0'
        have hbi : isBorderRegion (lab.reg.getD i 0) = false := by rw [← hborder i hi, h0']; decide
        have hlt : lab.reg.getD i 0 < next + 1 := by
          rcases hb i hi with h | h
          · exact h
          · rw [hbi] at h; cases h
        have e := (hval i hi).2 hbi
        rw [h0', hid3 _ hlt] at e
        have hm : (getR T2 (lab.reg.getD i 0)).id ∉ A := by
          intro hm; exact (hnew _ hm).2.2.1 e.symm
        rw [newId, if_neg hm] at e
        have e1 := (hz _ hlt).1 e.symm
        rcases h1.id (lab.reg.getD i 0) with h | h
        · rw [h, h0.id _ hlt] at e1; exact e1
        · omega
      refine ⟨hflen, ?_, ?_, ?_, ?_, ?_, hnl, ?_, ?_, ?_, ?_,
        fun hmin hmax hfew i hi hw hs h0' => hcomplete hmax hfew i hi hw hs (hkept hmin i hi h0'),
        fun hmax i hi hp => hnone hmax i ⟨fun h => hp.1 (hreg0 i hi h), by rw [← hborder i hi]; exact hp.2⟩⟩
      · intro i hi h
        exact hl.walk i hi fun h' => h (hreg0 i hi h')
      · intro i hi hp
        have := (hnew _ (hback i hi hp)).2.1
        rw [hf2 i hi]
        have hg : g = A.length := hA.gen
        simp only; omega
      · have hg : g = A.length := hA.gen
        simp only; omega
      · intro i hi j hj e hp
        simp only at e hp
        rw [hf2 i hi] at e hp; rw [hf2 j hj] at e
        exact hu2 i hi j hj e hp
      · intro i hi j hj e hp
        simp only at e hp ⊢
        rw [hf2 i hi] at e hp; rw [hf2 j hj] at e
        refine (hc2 i hi j hj e hp).mono fun a ha => ?_
        have ha' : newId A (label lab.reg T2 a) = newId A (label lab.reg T2 i) := ha
        show f.getD a 0 = f.getD i 0
        have hal : a < chf.spans.length := by
          by_contra hc
          have : label lab.reg T2 a = 0 := by
            unfold label; rw [getD_of_ge (by rw [hl.shape.reg_len]; omega), if_neg (by decide), ht2.id0]
          rw [this, newId, if_neg hA0] at ha'
          exact hp.1 ha'.symm
        rw [hf2 a hal, hf2 i hi, ha']
      · intro i hi hw hs
        rw [(hval i hi).1 (hl.painted i hi hw hs)]
        exact hl.sided i hi hw hs
      · intro hS i hi
        rw [hborder i hi]
        exact hl.strip hS i hi
      · intro hmin i hi hw h0' j ht
        obtain ⟨d, hd, hn, ha, hp⟩ := ht
        have hj := nbr_dlt hwf hd hn
        -- no id was dropped
        have hi0 := hkept hmin i hi h0'
        have hj0 : ProperRegion (lab.reg.getD j 0) := by
          refine ⟨fun h => hp.1 (hreg0 j hj h), ?_⟩
          rw [← hborder j hj]; exact hp.2
        exact hstuck i hi hw hi0 j ⟨d, hd, hn, ha, hj0⟩
      · intro i hi
        by_cases hbi : isBorderRegion (lab.reg.getD i 0) = true
        · simp only
          rw [(hval i hi).1 hbi]
          rcases hl.bound i hi with h | h
          · omega
          · exact h.2
        · have hbi' : isBorderRegion (lab.reg.getD i 0) = false := by simpa using hbi
          have hlt : lab.reg.getD i 0 < next + 1 := by
            rcases hb i hi with h | h
            · exact h
            · exact absurd h hbi
          simp only
          rw [(hval i hi).2 hbi', hid3 _ hlt]
          by_cases hm : (getR T2 (lab.reg.getD i 0)).id ∈ A
          · have := (hnew _ hm).2.1; omega
          · rw [newId, if_neg hm]
            have := ht2.idlt _ hlt
            omega
  · rw [if_neg hov]
    exact Or.inr ⟨by omega, .panic, rfl, by simp⟩

/-- The whole of `build_regions`. -/
theorem buildRegions_out (hdl : chf.dist.length = chf.spans.length) (hm : chf.maxDistance ≤ 65535) (b min size : Nat) :
    Out (32766 < chf.spans.length ∨ chf.maxDistance = 65535) (chf.buildRegions b min size) fun out =>
      ∃ f maxR reg next, chf.labelRegions b = .ok (reg, next) ∧ Built chf b min next f maxR ∧
        out = { chf with borderSize := b, maxRegion := maxR,
                         spans := List.zipWith (fun s r => ({ s with region := r } : CompactSpan)) chf.spans f } := by
  unfold buildRegions
  rcases labelRegions_out hwf hdl b hm with ⟨⟨reg, next⟩, e, hL⟩ | ⟨hb, er, e, he⟩
  · rw [e, bind_ok]
    simp only
    refine Out.bind (Out.weaken (mergeAndFilter_out hwf (min := min) (size := size) hL) Or.inl) ?_
    rintro ⟨f, maxR, ov⟩ h
    exact Out.ok ⟨f, maxR, reg, next, rfl, h, rfl⟩
  · exact Or.inr ⟨hb, er, by rw [e]; rfl, he⟩

end
end CompactHeightfield
end Rerecast
