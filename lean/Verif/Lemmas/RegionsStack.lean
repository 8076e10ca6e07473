import Verif.Lemmas.RegionsFloors
/-! What merging keeps about floors, overlaps and sizes. -/
set_option linter.unusedVariables false
set_option linter.unusedSectionVars false
namespace Rerecast

/-! ### list operations keep values -/

theorem removeAdjacent_keeps : ∀ (fuel i : Nat) (c : List Nat), Holds (removeAdjacent fuel i c) fun o => ∀ x ∈ c, x ∈ o := by
  intro fuel
  induction fuel with
  | zero =>
    intro i c
    unfold removeAdjacent
    split
    · exact Holds.error
    · exact Holds.ok fun _ h => h
  | succ fuel ih =>
    intro i c
    unfold removeAdjacent
    split
    · rename_i hl
      refine Holds.bind_any fun a ha => ?_
      refine Holds.bind_any fun b hb => ?_
      split
      · rename_i e
        refine (ih i (c.eraseIdx i)).mono fun o ho x hx => ho x ?_
        rw [idx_eq_ok] at ha hb
        by_cases hxa : x = a
        · -- the equal entry at the next position is still there
          rw [List.mem_eraseIdx_iff_getElem?]
          refine ⟨(i + 1) % c.length, ?_, by rw [hb, hxa, e]⟩
          intro e'
          by_cases h1 : i + 1 < c.length
          · rw [Nat.mod_eq_of_lt h1] at e'; omega
          · have : i + 1 = c.length := by omega
            rw [this, Nat.mod_self] at e'; omega
        · rw [List.mem_eraseIdx_iff_getElem?]
          obtain ⟨k, hk⟩ := List.mem_iff_getElem?.1 hx
          refine ⟨k, ?_, hk⟩
          rintro rfl
          rw [hk] at ha; cases ha; exact hxa rfl
      · exact ih (i + 1) c
    · exact Holds.ok fun _ h => h

theorem cyclicRest_keeps {c : List Nat} {ins v : Nat} (hv : c[ins]? = some v) : Holds (Region.cyclicRest c ins) fun o => ∀ x ∈ c, x ≠ v → x ∈ o := by
  intro o ho x hx hne
  unfold Region.cyclicRest at ho
  obtain ⟨k, hk, e⟩ := List.mem_iff_getElem.1 hx
  have hins : ins < c.length := (List.getElem?_eq_some_iff.1 hv).1
  have hki : k ≠ ins := by
    rintro rfl
    rw [List.getElem?_eq_getElem hk, e] at hv; cases hv; exact hne rfl
  -- position of `k` in the rotated list
  have key : ∀ (l : List Nat) (out : List Nat), l.mapM (fun i => idx c ((ins + 1 + i) % c.length)) = .ok out → ∀ m ∈ l,
      (ins + 1 + m) % c.length = k → x ∈ out := by
    intro l
    induction l with
    | nil => intro out _ m hm; cases hm
    | cons a l ih =>
      intro out hout m hm hmk
      rw [List.mapM_cons] at hout
      cases h1 : idx c ((ins + 1 + a) % c.length) with
      | error e' => rw [h1] at hout; cases hout
      | ok y =>
        rw [h1, bind_ok] at hout
        cases h2 : l.mapM (fun i => idx c ((ins + 1 + i) % c.length)) with
        | error e' => rw [h2] at hout; cases hout
        | ok ys =>
          rw [h2, bind_ok] at hout
          cases hout
          rcases List.mem_cons.1 hm with rfl | hm
          · rw [hmk, idx_some (List.getElem?_eq_getElem hk), e] at h1
            cases h1; simp
          · exact List.mem_cons_of_mem _ (ih ys h2 m hm hmk)
  by_cases hlt : ins < k
  · refine key _ o ho (k - ins - 1) (List.mem_range.2 (by omega)) ?_
    rw [show ins + 1 + (k - ins - 1) = k by omega, Nat.mod_eq_of_lt hk]
  · refine key _ o ho (c.length + k - ins - 1) (List.mem_range.2 (by omega)) ?_
    rw [show ins + 1 + (c.length + k - ins - 1) = k + c.length by omega, Nat.add_mod_right, Nat.mod_eq_of_lt hk]

/-! ### one merge -/

/-- Floors, overlaps, counts and connections after region `i`, with id `old`, was merged into region `new`. -/
structure MergedMore (old new i : Nat) (T T' : List Region) : Prop where
  len : T'.length = T.length
  id : ∀ j < T.length, (getR T' j).id = if (getR T j).id = old then new else (getR T j).id
  overlap : ∀ j < T.length, (getR T' j).overlap = (getR T j).overlap
  gone : (getR T' i).spanCount = 0
  count : ∀ j < T.length, j ≠ i → (getR T' j).spanCount = (getR T j).spanCount + (if j = new then (getR T i).spanCount else 0)
  floors : ∀ j < T.length, j ≠ i → ProperRegion (getR T j).id → ∀ f, (f ∈ (getR T j).floors ∨ (j = new ∧ f ∈ (getR T i).floors)) →
    (if f = old then new else f) ∈ (getR T' j).floors
  con : ∀ j < T.length, ProperRegion (getR T j).id → ∀ c ∈ (getR T' j).connections, c = new ∨ (c ≠ old ∧
    (c ∈ (getR T j).connections ∨ (j = new ∧ c ∈ (getR T i).connections)))
  zero : ∀ j < T.length, j ≠ i → (0 ∈ (getR T j).connections ∨ (j = new ∧ 0 ∈ (getR T i).connections)) → 0 ∈ (getR T' j).connections

theorem fixupRegion_more {old new : Nat} (ho : ProperRegion old) (hne : new ≠ old) (r : Region) : Holds (fixupRegion old new r) fun o =>
    (o.id = if r.id = old then new else r.id) ∧ o.overlap = r.overlap ∧ o.spanCount = r.spanCount ∧
      (ProperRegion r.id → (∀ f ∈ r.floors, (if f = old then new else f) ∈ o.floors) ∧
        ∀ c ∈ o.connections, c = new ∨ (c ≠ old ∧ c ∈ r.connections)) ∧
      (0 ∈ r.connections → 0 ∈ o.connections) := by
  unfold fixupRegion
  split
  · rename_i hs
    refine Holds.ok ⟨?_, rfl, rfl, fun h => absurd h (skipId_iff.1 hs), fun h => h⟩
    rw [if_neg]
    intro e; rw [e, skipId_iff] at hs; exact hs ho
  · have key : ∀ q : Region, q.connections = r.connections → q.floors = r.floors → q.overlap = r.overlap → q.spanCount = r.spanCount →
        Holds (q.replaceNeighbour old new) fun o => o.id = q.id ∧ o.overlap = r.overlap ∧ o.spanCount = r.spanCount ∧
      (ProperRegion r.id → (∀ f ∈ r.floors, (if f = old then new else f) ∈ o.floors) ∧
        ∀ c ∈ o.connections, c = new ∨ (c ≠ old ∧ c ∈ r.connections)) ∧
      (0 ∈ r.connections → 0 ∈ o.connections) := by
      intro q hq hf hov hsp
      have hm : ∀ c' ∈ q.connections.map (fun c => if c = old then new else c), c' = new ∨ (c' ≠ old ∧ c' ∈ r.connections) := by
        intro c' hc'
        obtain ⟨c, hc, e⟩ := List.mem_map.1 hc'
        split at e
        · exact Or.inl e.symm
        · rename_i h; subst e; exact Or.inr ⟨h, by rw [← hq]; exact hc⟩
      have hfl : ∀ f ∈ r.floors, (if f = old then new else f) ∈ q.floors.map (fun c => if c = old then new else c) := by
        intro f hf'
        exact List.mem_map.2 ⟨f, by rw [hf]; exact hf', rfl⟩
      have h0 : 0 ∈ r.connections → 0 ∈ q.connections.map (fun c => if c = old then new else c) := by
        intro h
        refine List.mem_map.2 ⟨0, by rw [hq]; exact h, ?_⟩
        rw [if_neg (fun e => ho.1 e.symm)]
      unfold Region.replaceNeighbour
      simp only
      split
      · refine Holds.bind ((removeAdjacent_keeps _ 0 _).and (removeAdjacent_out (bad := False) _ 0 _ (by omega)).holds) ?_
        rintro o ⟨ho1, ho2⟩
        exact Holds.ok ⟨rfl, hov, hsp, fun _ => ⟨hfl, fun c' hc' => hm c' (ho2 c' hc')⟩, fun h => ho1 0 (h0 h)⟩
      · exact Holds.ok ⟨rfl, hov, hsp, fun _ => ⟨hfl, hm⟩, h0⟩
    by_cases hid : r.id = old
    · rw [if_pos hid]
      exact (key { r with id := new } rfl rfl rfl rfl).mono fun o ⟨a, b⟩ => ⟨by rw [a, if_pos hid], b⟩
    · rw [if_neg hid]
      exact (key r rfl rfl rfl rfl).mono fun o ⟨a, b⟩ => ⟨by rw [a, if_neg hid], b⟩

theorem addUniqueFloors_more (l : List Nat) (r : Region) : (l.foldl Region.addUniqueFloor r).overlap = r.overlap ∧
    (l.foldl Region.addUniqueFloor r).spanCount = r.spanCount ∧ ∀ f, f ∈ r.floors ∨ f ∈ l → f ∈ (l.foldl Region.addUniqueFloor r).floors := by
  induction l generalizing r with
  | nil => exact ⟨rfl, rfl, fun f h => by simpa using h⟩
  | cons g l ih =>
    rw [List.foldl_cons]
    obtain ⟨a, b, c⟩ := ih (r.addUniqueFloor g)
    obtain ⟨k1, k2, k3, k4, k5⟩ := CompactHeightfield.addUniqueFloor_keep r g
    refine ⟨by rw [a, k1], by rw [b, k3], fun f hf => c f ?_⟩
    rw [CompactHeightfield.addUniqueFloor_mem]
    rcases hf with hf | hf
    · exact Or.inl (Or.inl hf)
    · rcases List.mem_cons.1 hf with rfl | hf
      · exact Or.inl (Or.inr rfl)
      · exact Or.inr hf

theorem mergeRegions_more {r other : Region} (h1 : r.id ≠ 0) (h2 : other.id ≠ 0) : Holds (r.mergeRegions other) fun o => ∀ m, o = some m →
    m.id = r.id ∧ m.overlap = r.overlap ∧ m.spanCount = r.spanCount + other.spanCount ∧
      (∀ f, f ∈ r.floors ∨ f ∈ other.floors → f ∈ m.floors) ∧ (∀ c ∈ m.connections, c ∈ r.connections ∨ c ∈ other.connections) ∧
      (0 ∈ r.connections ∨ 0 ∈ other.connections → 0 ∈ m.connections) := by
  unfold Region.mergeRegions
  split
  · rename_i insA insB hA hB
    obtain ⟨hAl, hAv, _⟩ := List.findIdx?_eq_some_iff_getElem.1 hA
    obtain ⟨hBl, hBv, _⟩ := List.findIdx?_eq_some_iff_getElem.1 hB
    have eA : r.connections[insA]? = some other.id := by rw [List.getElem?_eq_getElem hAl]; simpa using hAv
    have eB : other.connections[insB]? = some r.id := by rw [List.getElem?_eq_getElem hBl]; simpa using hBv
    refine Holds.bind ((cyclicRest_keeps eA).and (cyclicRest_out (bad := False) _ _).holds) ?_
    rintro a ⟨a1, a2⟩
    refine Holds.bind ((cyclicRest_keeps eB).and (cyclicRest_out (bad := False) _ _).holds) ?_
    rintro b ⟨b1, b2⟩
    refine Holds.bind ((removeAdjacent_keeps _ 0 (a ++ b)).and (removeAdjacent_out (bad := False) _ 0 (a ++ b) (by omega)).holds) ?_
    rintro c ⟨c1, c2⟩
    refine Holds.ok ?_
    intro m hm
    cases hm
    obtain ⟨e1, e2, e3⟩ := CompactHeightfield.addUniqueFloors_core other.floors { r with connections := c }
    obtain ⟨f1, f2, f3⟩ := addUniqueFloors_more other.floors { r with connections := c }
    refine ⟨e1, f1, by simp only; rw [f2], fun f hf => f3 f hf, ?_, ?_⟩
    · intro x hx
      simp only at hx
      rw [e3] at hx
      rcases List.mem_append.1 (c2 x hx) with h | h
      · exact Or.inl (a2 x h)
      · exact Or.inr (b2 x h)
    · intro h
      simp only
      rw [e3]
      apply c1
      rcases h with h | h
      · exact List.mem_append_left _ (a1 0 h (Ne.symm h2))
      · exact List.mem_append_right _ (b1 0 h (Ne.symm h1))
  · exact Holds.ok (by intro m h; cases h)

theorem mapM_holds_forall₂ {f : α → Res β} {R : α → β → Prop} (l : List α) (h : ∀ a ∈ l, Holds (f a) (R a)) :
    Holds (l.mapM f) (List.Forall₂ R l) := by
  induction l with
  | nil => exact Holds.ok List.Forall₂.nil
  | cons a l ih =>
    rw [List.mapM_cons]
    refine Holds.bind (h a (by simp)) fun b hb => ?_
    refine Holds.bind (ih fun a ha => h a (by simp [ha])) fun bs hbs => ?_
    exact Holds.ok (List.Forall₂.cons hb hbs)

theorem mergeInto_more {T : List Region} {i mergeId : Nat} (hi : i < T.length) (hp : ProperRegion (getR T i).id)
    (hpm : ProperRegion mergeId) (hroot : (getR T mergeId).id = mergeId) (hne : mergeId ≠ (getR T i).id) :
    Holds (mergeInto T i (getR T i) mergeId) fun o => (o.2 = false ∧ o.1 = T) ∨ (o.2 = true ∧ MergedMore (getR T i).id mergeId i T o.1) := by
  have him : i ≠ mergeId := by
    intro e; rw [e] at hne; exact hne hroot.symm
  unfold mergeInto
  refine Holds.bind_any fun target ht => ?_
  obtain ⟨hml, rfl⟩ := idx_getR_inv ht
  refine Holds.bind (mergeRegions_more (by rw [hroot]; exact hpm.1) hp.1) fun o ho => ?_
  cases o with
  | none => exact Holds.ok (Or.inl ⟨rfl, rfl⟩)
  | some m =>
    obtain ⟨m1, m2, m3, m4, m5, m6⟩ := ho m rfl
    simp only
    have hil : i < (T.set mergeId m).length := by rw [List.length_set]; exact hi
    rw [setIdx_ok hml, bind_ok, idx_getR hil, bind_ok, setIdx_ok hil, bind_ok]
    have hget : ∀ j, getR ((T.set mergeId m).set i { getR (T.set mergeId m) i with spanCount := 0, connections := [] }) j =
        if j = i then { getR T i with spanCount := 0, connections := [] } else if j = mergeId then m else getR T j := by
      intro j
      rw [getR_set hil]
      split
      · rw [getR_set hml, if_neg him]
      · rw [getR_set hml]
    refine Holds.bind (mapM_holds_forall₂ _ fun r _ => fixupRegion_more hp hne r) ?_
    intro T' hT'
    refine Holds.ok (Or.inr ⟨rfl, ?_⟩)
    have hlen : T'.length = T.length := by rw [← hT'.length_eq]; simp
    have hrel : ∀ j < T.length, _ := fun j hj => forall₂_getR hT' (j := j) (by simpa using hj)
    refine ⟨hlen, ?_, ?_, ?_, ?_, ?_, ?_, ?_⟩
    · intro j hj
      obtain ⟨a, _⟩ := hrel j hj
      rw [a, hget]
      by_cases h1' : j = i
      · subst h1'; simp
      · rw [if_neg h1']
        by_cases h2' : j = mergeId
        · subst h2'; rw [if_pos rfl, m1]
        · rw [if_neg h2']
    · intro j hj
      obtain ⟨_, a, _⟩ := hrel j hj
      rw [a, hget]
      by_cases h1' : j = i
      · subst h1'; simp
      · rw [if_neg h1']
        by_cases h2' : j = mergeId
        · subst h2'; rw [if_pos rfl, m2]
        · rw [if_neg h2']
    · obtain ⟨_, _, a, _⟩ := hrel i hi
      rw [a, hget, if_pos rfl]
    · intro j hj hji
      obtain ⟨_, _, a, _⟩ := hrel j hj
      rw [a, hget, if_neg hji]
      by_cases h2' : j = mergeId
      · subst h2'; rw [if_pos rfl, if_pos rfl, m3]
      · rw [if_neg h2', if_neg h2', Nat.add_zero]
    · intro j hj hji hpj f hf
      obtain ⟨_, _, _, a, _⟩ := hrel j hj
      rw [hget, if_neg hji] at a
      by_cases h2' : j = mergeId
      · subst h2'
        rw [if_pos rfl] at a
        rcases hf with hf | ⟨_, hf⟩
        · exact (a (by rw [m1]; exact hpj)).1 f (m4 f (Or.inl hf))
        · exact (a (by rw [m1]; exact hpj)).1 f (m4 f (Or.inr hf))
      · rw [if_neg h2'] at a
        rcases hf with hf | ⟨e, _⟩
        · exact (a hpj).1 f hf
        · exact absurd e h2'
    · intro j hj hpj c hc
      obtain ⟨_, _, _, a, _⟩ := hrel j hj
      rw [hget] at a
      by_cases h1' : j = i
      · subst h1'
        rw [if_pos rfl] at a
        rcases (a hpj).2 c hc with h | ⟨_, h⟩
        · exact Or.inl h
        · cases h
      · rw [if_neg h1'] at a
        by_cases h2' : j = mergeId
        · subst h2'
          rw [if_pos rfl] at a
          rcases (a (by rw [m1]; exact hpj)).2 c hc with h | ⟨h, h'⟩
          · exact Or.inl h
          · rcases m5 c h' with h' | h'
            · exact Or.inr ⟨h, Or.inl h'⟩
            · exact Or.inr ⟨h, Or.inr ⟨rfl, h'⟩⟩
        · rw [if_neg h2'] at a
          rcases (a hpj).2 c hc with h | ⟨h, h'⟩
          · exact Or.inl h
          · exact Or.inr ⟨h, Or.inl h'⟩
    · intro j hj hji h0
      obtain ⟨_, _, _, _, a⟩ := hrel j hj
      rw [hget, if_neg hji] at a
      by_cases h2' : j = mergeId
      · subst h2'
        rw [if_pos rfl] at a
        apply a; apply m6
        rcases h0 with h | ⟨_, h⟩
        · exact Or.inl h
        · exact Or.inr h
      · rw [if_neg h2'] at a
        rcases h0 with h | ⟨e, _⟩
        · exact a h
        · exact absurd e h2'

/-! ### the merge loop -/

namespace CompactHeightfield
variable {chf : CompactHeightfield}

/-- What merging keeps; `T0` is the table after the collecting phase. -/
structure MergeInv (chf : CompactHeightfield) (reg : List Nat) (nreg size : Nat) (T0 T : List Region) : Prop where
  live : ∀ j < nreg, ProperRegion (getR T j).id → (getR T j).id ≠ j → (getR T j).spanCount = 0
  croot : ∀ j < nreg, ProperRegion (getR T j).id → ∀ c ∈ (getR T j).connections, c < nreg → ProperRegion (getR T c).id → (getR T c).id = c
  floors : ∀ a < chf.spans.length, ∀ b < chf.spans.length, a ≠ b → chf.colOf a = chf.colOf b → ProperRegion (label reg T a) →
    ProperRegion (label reg T b) → label reg T b ∈ (getR T (label reg T a)).floors
  same : ∀ a < chf.spans.length, ∀ b < chf.spans.length, a ≠ b → chf.colOf a = chf.colOf b → ProperRegion (label reg T a) →
    label reg T a = label reg T b → reg.getD a 0 = reg.getD b 0
  over : ∀ a < chf.spans.length, ∀ b < chf.spans.length, a ≠ b → chf.colOf a = chf.colOf b → ProperRegion (label reg T a) →
    reg.getD a 0 = reg.getD b 0 → (getR T (label reg T a)).overlap = true
  alone : ∀ a < chf.spans.length, ∀ b < chf.spans.length, ProperRegion (label reg T a) → (getR T (label reg T a)).overlap = true →
    label reg T a = label reg T b → reg.getD a 0 = reg.getD b 0
  sum : ∀ j < nreg, ProperRegion (getR T j).id → (getR T0 j).spanCount ≤ (getR T (getR T j).id).spanCount
  zero : ∀ j < nreg, ProperRegion (getR T j).id → 0 ∈ (getR T0 j).connections → 0 ∈ (getR T (getR T j).id).connections
  absorbed : ∀ j < nreg, ∀ k < nreg, j ≠ k → ProperRegion (getR T j).id → (getR T j).id = (getR T k).id →
    ((getR T0 j).spanCount ≤ size ∨ 0 ∉ (getR T0 j).connections) ∨ ((getR T0 k).spanCount ≤ size ∨ 0 ∉ (getR T0 k).connections)

theorem mergeInv_small {reg : List Nat} {nreg min size : Nat} {T0 T : List Region} (hlen0 : T0.length = nreg) (hid0 : ∀ j < nreg, (getR T0 j).id = j)
    (hC : Counted chf reg nreg T0) (hP : Pruned min T0 T0.length T)
    (hb : ∀ i < chf.spans.length, reg.getD i 0 < nreg ∨ isBorderRegion (reg.getD i 0) = true) : MergeInv chf reg nreg size T0 T := by
  have hid : ∀ j < nreg, ProperRegion (getR T j).id → (getR T j).id = j := by
    intro j hj hp
    rcases hP.alive j with ⟨h, _⟩ | ⟨h, _⟩
    · rw [h, hid0 j hj]
    · exact absurd h hp.1
  have hlab : ∀ i < chf.spans.length, ProperRegion (label reg T i) → label reg T i = reg.getD i 0 ∧ reg.getD i 0 < nreg := by
    intro i hi hp
    unfold label at hp ⊢
    split
    · rename_i h; rw [if_pos h] at hp; rw [hp.2] at h; cases h
    · rename_i hnb
      rw [if_neg hnb] at hp
      rcases hb i hi with h | h
      · exact ⟨hid _ h hp, h⟩
      · exact absurd h hnb
  have hcnt : ∀ j < nreg, ProperRegion (getR T j).id → (getR T j).spanCount = (getR T0 j).spanCount := by
    intro j hj hp
    rcases hP.alive j with ⟨_, h⟩ | ⟨h, _⟩
    · exact h
    · exact absurd h hp.1
  refine ⟨?_, ?_, ?_, ?_, ?_, ?_, ?_, ?_, ?_⟩
  · intro j hj hp h; exact absurd (hid j hj hp) h
  · intro j hj hp c hc hcl hpc; exact hid c hcl hpc
  · intro a ha b hb' hab hc hpa hpb
    obtain ⟨e1, l1⟩ := hlab a ha hpa
    obtain ⟨e2, l2⟩ := hlab b hb' hpb
    rw [e1] at hpa ⊢; rw [e2] at hpb ⊢
    rw [hP.floors]
    exact hC.floors a ha b hb' hab hc hpa.1 l1 hpb.1 l2
  · intro a ha b hb' hab hc hpa e
    rw [← (hlab a ha hpa).1, ← (hlab b hb' (e ▸ hpa)).1, e]
  · intro a ha b hb' hab hc hpa e
    obtain ⟨e1, l1⟩ := hlab a ha hpa
    rw [e1] at hpa ⊢
    rw [hP.overlap]
    exact hC.overlap a ha b hb' hab hc hpa.1 l1 e.symm
  · intro a ha b hb' hpa _ e
    rw [← (hlab a ha hpa).1, ← (hlab b hb' (e ▸ hpa)).1, e]
  · intro j hj hp
    have h := hcnt j hj hp
    rw [hid j hj hp, h]
  · intro j hj hp h
    rw [hid j hj hp, hP.con]; exact h
  · intro j hj k hk hjk hp e
    have e1 := hid j hj hp
    have e2 := hid k hk (e ▸ hp)
    exact absurd (e1.symm.trans (e.trans e2)) hjk

theorem label_merged {reg : List Nat} {nreg : Nat} {T T' : List Region} (hT : TabInv chf reg nreg T) (hn : 0 < nreg)
    (hb : ∀ i < chf.spans.length, reg.getD i 0 < nreg ∨ isBorderRegion (reg.getD i 0) = true)
    {old new i : Nat} (hpo : ProperRegion old) (hm : MergedMore old new i T T') {k : Nat} (hk : k < chf.spans.length) :
    label reg T' k = if label reg T k = old then new else label reg T k := by
  unfold label
  by_cases hbk : isBorderRegion (reg.getD k 0) = true
  · rw [if_pos hbk, if_pos hbk, if_neg]
    intro e; rw [e, hpo.2] at hbk; cases hbk
  · rw [if_neg hbk, if_neg hbk]
    rcases hb k hk with h | h
    · exact hm.id _ (by rw [hT.len]; exact h)
    · exact absurd h hbk

/-- A proper label is the number of a region that is its own root. -/
theorem label_root {reg : List Nat} {nreg : Nat} {T : List Region} (hT : TabInv chf reg nreg T)
    (hb : ∀ i < chf.spans.length, reg.getD i 0 < nreg ∨ isBorderRegion (reg.getD i 0) = true) {k : Nat} (hk : k < chf.spans.length)
    (hp : ProperRegion (label reg T k)) : label reg T k < nreg ∧ (getR T (label reg T k)).id = label reg T k := by
  unfold label at hp ⊢
  by_cases hbk : isBorderRegion (reg.getD k 0) = true
  · rw [if_pos hbk] at hp; rw [hp.2] at hbk; cases hbk
  · rw [if_neg hbk] at hp ⊢
    rcases hb k hk with h | h
    · exact ⟨hT.idlt _ h, hT.root _ h hp⟩
    · exact absurd h hbk

theorem MergeInv.merged {reg : List Nat} {nreg size : Nat} {T0 T T' : List Region} (hT : TabInv chf reg nreg T) (hM : MergeInv chf reg nreg size T0 T)
    (hb : ∀ i < chf.spans.length, reg.getD i 0 < nreg ∨ isBorderRegion (reg.getD i 0) = true)
    {i new : Nat} (hi : i < nreg) (hid : (getR T i).id = i) (hpo : ProperRegion i) (hpn : ProperRegion new) (hnl : new < nreg)
    (hnroot : (getR T new).id = new) (hne : new ≠ i) (hor : (getR T i).overlap = false) (hon : (getR T new).overlap = false)
    (hfl : new ∉ (getR T i).floors) (hsm : (getR T i).spanCount ≤ size ∨ 0 ∉ (getR T i).connections)
    (hm : MergedMore i new i T T') : MergeInv chf reg nreg size T0 T' := by
  have hid' : ∀ j < nreg, (getR T' j).id = if (getR T j).id = i then new else (getR T j).id := fun j hj => hm.id j (by rw [hT.len]; exact hj)
  have hlab : ∀ k < chf.spans.length, label reg T' k = if label reg T k = i then new else label reg T k :=
    fun k hk => label_merged hT (by omega) hb hpo hm hk
  have back : ∀ k < chf.spans.length, ProperRegion (label reg T' k) → ProperRegion (label reg T k) := by
    intro k hk hp
    rw [hlab k hk] at hp
    split at hp
    · rename_i h; rw [h]; exact hpo
    · exact hp
  have backid : ∀ j < nreg, ProperRegion (getR T' j).id → ProperRegion (getR T j).id := by
    intro j hj hp
    rw [hid' j hj] at hp
    split at hp
    · rename_i h; rw [h]; exact hpo
    · exact hp
  have hsep : ∀ a < chf.spans.length, ∀ b < chf.spans.length, a ≠ b → chf.colOf a = chf.colOf b → label reg T a = i → label reg T b = new → False := by
    intro a ha b hb' hab hc e1 e2
    have := hM.floors a ha b hb' hab hc (e1 ▸ hpo) (e2 ▸ hpn)
    rw [e1, e2] at this
    exact hfl this
  have hil : i < T.length := by rw [hT.len]; exact hi
  have hnL : new < T.length := by rw [hT.len]; exact hnl
  refine ⟨?_, ?_, ?_, ?_, ?_, ?_, ?_, ?_, ?_⟩
  · intro j hj hp hnj
    by_cases hji : j = i
    · rw [hji]; exact hm.gone
    · have hjn : j ≠ new := by
        rintro rfl
        rw [hid' j hj, hnroot, if_neg hne] at hnj; exact hnj rfl
      rw [hm.count j (by rw [hT.len]; exact hj) hji, if_neg hjn, Nat.add_zero]
      refine hM.live j hj (backid j hj hp) ?_
      intro e
      rw [hid' j hj, e, if_neg hji] at hnj
      exact hnj rfl
  · intro j hj hp c hc hcl hpc
    rcases hm.con j (by rw [hT.len]; exact hj) (backid j hj hp) c hc with rfl | ⟨hco, hcc⟩
    · rw [hid' c hcl, hnroot, if_neg hne]
    · have : (getR T c).id = c := by
        rcases hcc with h | ⟨_, h⟩
        · exact hM.croot j hj (backid j hj hp) c h hcl (backid c hcl hpc)
        · exact hM.croot i hi (hid.symm ▸ hpo) c h hcl (backid c hcl hpc)
      rw [hid' c hcl, this, if_neg hco]
  · intro a ha b hb' hab hc hpa hpb
    have ra := back a ha hpa
    have rb := back b hb' hpb
    have hf := hM.floors a ha b hb' hab hc ra rb
    obtain ⟨la1, la2⟩ := label_root hT hb ha ra
    rw [hlab a ha, hlab b hb']
    by_cases h : label reg T a = i
    · rw [if_pos h]
      rw [h] at hf
      exact hm.floors new hnL hne (hnroot.symm ▸ hpn) _ (Or.inr ⟨rfl, hf⟩)
    · rw [if_neg h]
      exact hm.floors _ (by rw [hT.len]; exact la1) h (by rw [la2]; exact ra) _ (Or.inl hf)
  · intro a ha b hb' hab hc hpa e
    have ra := back a ha hpa
    rw [hlab a ha, hlab b hb'] at e
    by_cases h1 : label reg T a = i
    · by_cases h2 : label reg T b = i
      · exact hM.same a ha b hb' hab hc ra (h1.trans h2.symm)
      · rw [if_pos h1, if_neg h2] at e
        exact (hsep a ha b hb' hab hc h1 e.symm).elim
    · by_cases h2 : label reg T b = i
      · rw [if_neg h1, if_pos h2] at e
        exact (hsep b hb' a ha (Ne.symm hab) hc.symm h2 e).elim
      · rw [if_neg h1, if_neg h2] at e
        exact hM.same a ha b hb' hab hc ra e
  · intro a ha b hb' hab hc hpa e
    have ra := back a ha hpa
    have ho := hM.over a ha b hb' hab hc ra e
    have hai : label reg T a ≠ i := by
      intro h; rw [h, hor] at ho; cases ho
    rw [hlab a ha, if_neg hai, hm.overlap _ (by rw [hT.len]; exact (label_root hT hb ha ra).1)]
    exact ho
  · intro a ha b hb' hpa ho e
    have ra := back a ha hpa
    rw [hlab a ha] at ho e
    rw [hlab b hb'] at e
    by_cases h1 : label reg T a = i
    · rw [if_pos h1, hm.overlap _ hnL, hon] at ho; cases ho
    · rw [if_neg h1, hm.overlap _ (by rw [hT.len]; exact (label_root hT hb ha ra).1)] at ho
      rw [if_neg h1] at e
      by_cases h2 : label reg T b = i
      · rw [if_pos h2] at e
        rw [e, hon] at ho; cases ho
      · rw [if_neg h2] at e
        exact hM.alone a ha b hb' ra ho e
  · intro j hj hp
    have hp' := backid j hj hp
    have h := hM.sum j hj hp'
    rw [hid' j hj]
    by_cases h1 : (getR T j).id = i
    · rw [if_pos h1, hm.count new hnL hne, if_pos rfl]
      rw [h1] at h; omega
    · rw [if_neg h1, hm.count _ (by rw [hT.len]; exact hT.idlt j hj) h1]
      omega
  · intro j hj hp h0
    have hp' := backid j hj hp
    have h := hM.zero j hj hp' h0
    rw [hid' j hj]
    by_cases h1 : (getR T j).id = i
    · rw [if_pos h1]
      rw [h1] at h
      exact hm.zero new hnL hne (Or.inr ⟨rfl, h⟩)
    · rw [if_neg h1]
      exact hm.zero _ (by rw [hT.len]; exact hT.idlt j hj) h1 (Or.inl h)
  · -- members of the absorbed region are small or closed
    have hsmall : ∀ j < nreg, (getR T j).id = i → (getR T0 j).spanCount ≤ size ∨ 0 ∉ (getR T0 j).connections := by
      intro j hj e
      have h1 := hM.sum j hj (e ▸ hpo)
      rw [e] at h1
      rcases hsm with h | h
      · left; omega
      · right
        intro h0
        have := hM.zero j hj (e ▸ hpo) h0
        rw [e] at this; exact h this
    intro j hj k hk hjk hp e
    have hp' := backid j hj hp
    rw [hid' j hj, hid' k hk] at e
    by_cases h1 : (getR T j).id = i
    · exact Or.inl (hsmall j hj h1)
    · by_cases h2 : (getR T k).id = i
      · exact Or.inr (hsmall k hk h2)
      · rw [if_neg h1, if_neg h2] at e
        exact hM.absorbed j hj k hk hjk hp' e

theorem canMergeWith_floors {r m : Region} (h : r.canMergeWith m = true) : m.id ∉ r.floors := by
  unfold Region.canMergeWith at h
  split at h
  · cases h
  · split at h
    · cases h
    · simpa using h

theorem mergeStep_more {reg : List Nat} {nreg size : Nat} (hb : ∀ i < chf.spans.length, reg.getD i 0 < nreg ∨ isBorderRegion (reg.getD i 0) = true)
    {i : Nat} (hi : i < nreg) {T0 : List Region} (st : List Region × Bool) (hT : TabInv chf reg nreg st.1) (hM : MergeInv chf reg nreg size T0 st.1) :
    Holds (mergeStep size st i) fun o => MergeInv chf reg nreg size T0 o.1 := by
  obtain ⟨T, fl⟩ := st
  simp only at hT hM
  unfold mergeStep
  simp only
  rw [idx_getR (by rw [hT.len]; exact hi), bind_ok]
  by_cases hsk : skipId (getR T i).id = true
  · rw [if_pos hsk]; exact Holds.ok hM
  rw [if_neg hsk]
  have hp : ProperRegion (getR T i).id := skipId_false.1 (by simpa using hsk)
  split
  · exact Holds.ok hM
  rename_i hov
  split
  · exact Holds.ok hM
  rename_i hcnt
  split
  · exact Holds.ok hM
  rename_i hborder
  have hid : (getR T i).id = i := by
    by_contra h
    exact hcnt (hM.live i hi hp h)
  refine Holds.bind (foldlM_holds_inv (fun t : Option Nat × Nat => t.2 = i ∨ (ProperRegion t.2 ∧ t.2 < nreg ∧ (getR T t.2).id = t.2 ∧
    (getR T t.2).overlap = false ∧ t.2 ∉ (getR T i).floors)) _ _ (Or.inl hid) ?_) ?_
  · intro c hc t ht
    unfold mergeTarget
    split
    · exact Holds.ok ht
    · rename_i hcb
      refine Holds.bind_any fun m hm => ?_
      obtain ⟨hcl, rfl⟩ := idx_getR_inv hm
      split
      · exact Holds.ok ht
      · rename_i hskc
        simp only [Bool.or_eq_true, not_or, Bool.not_eq_true] at hskc
        split
        · rename_i hcm
          simp only [Bool.and_eq_true] at hcm
          have hpc := skipId_false.1 hskc.1
          have hcl' : c < nreg := by rw [← hT.len]; exact hcl
          have hcc := hM.croot i hi hp c hc hcl' hpc
          refine Holds.ok (Or.inr ?_)
          simp only
          rw [hcc]
          rw [hcc] at hpc
          have := canMergeWith_floors hcm.1.2
          rw [hcc] at this
          exact ⟨hpc, hcl', hcc, hskc.2, this⟩
        · exact Holds.ok ht
  · rintro ⟨sm, t⟩ ht
    simp only at ht ⊢
    by_cases hteq : t = (getR T i).id
    · rw [if_pos hteq]; exact Holds.ok hM
    · rw [if_neg hteq]
      have hti : t ≠ i := by rw [hid] at hteq; exact hteq
      rcases ht with h | ⟨h1, h2, h3, h4, h5⟩
      · exact absurd h hti
      refine Holds.bind (mergeInto_more (by rw [hT.len]; exact hi) hp h1 h3 hteq) ?_
      rintro ⟨T', fl'⟩ h
      refine Holds.ok ?_
      rcases h with ⟨_, g2⟩ | ⟨_, g2⟩
      · simp only at g2 ⊢; subst g2; exact hM
      · simp only at g2 ⊢
        rw [hid] at g2 hp
        refine hM.merged hT hb hi hid hp h1 h2 h3 hti (by simpa using hov) h4 h5 ?_ g2
        simp only [Bool.and_eq_true, decide_eq_true_eq, not_and] at hborder
        by_cases hle : (getR T i).spanCount ≤ size
        · exact Or.inl hle
        · right
          have := hborder (by omega)
          unfold Region.connectedToBorder at this
          simpa [REGION_NONE] using this

theorem mergeLoop_more (hwf : chf.WellFormed) {reg : List Nat} {nreg size : Nat}
    (hb : ∀ i < chf.spans.length, reg.getD i 0 < nreg ∨ isBorderRegion (reg.getD i 0) = true) (hlen : reg.length = chf.spans.length)
    {T0 : List Region} : ∀ (fuel : Nat) (T : List Region), TabInv chf reg nreg T → MergeInv chf reg nreg size T0 T →
      Holds (mergeLoop size fuel T) fun o => MergeInv chf reg nreg size T0 o
  | 0, T, _, _ => Holds.error
  | fuel + 1, T, hT, hM => by
    unfold mergeLoop
    refine Holds.bind (foldlM_holds_inv (fun o : List Region × Bool => TabInv chf reg nreg o.1 ∧ ZeroIds nreg T o.1 ∧
      MergeInv chf reg nreg size T0 o.1) _ _ ⟨hT, fun j _ => Iff.rfl, hM⟩ ?_) ?_
    · rintro i hi st ⟨h1, h2, h3⟩
      have hi' : i < nreg := by have := List.mem_range.1 hi; rw [hT.len] at this; exact this
      have e := (mergeStep_out (bad := False) (R := roots st.1 + 1) hwf hb hlen (size := size) hi' st h1 h2 ⟨by omega, fun _ => by omega⟩).holds
      refine (e.and (mergeStep_more hb hi' st h1 h3)).mono ?_
      rintro o ⟨⟨a, b, _⟩, c⟩
      exact ⟨a, b, c⟩
    · rintro ⟨T', fl⟩ ⟨h1, _, h3⟩
      simp only at h1 h3 ⊢
      split
      · exact mergeLoop_more hwf hb hlen fuel T' h1 h3
      · exact Holds.ok h3

end CompactHeightfield
end Rerecast
