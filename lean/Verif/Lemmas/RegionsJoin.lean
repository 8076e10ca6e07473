import Verif.Lemmas.RegionsTables
import Mathlib.Data.List.Rotate
import Mathlib.Algebra.BigOperators.Group.Finset.Basic
import Mathlib.Algebra.Order.BigOperators.Group.Finset
/-! One merge of two regions in detail: how often a region is listed as neighbour, and what becomes of floors. -/
set_option linter.unusedVariables false
set_option linter.unusedSectionVars false
namespace Rerecast

/-! ### lists -/

/-- No two entries next to each other, cyclically, are both `y`. -/
structure NoTwin (y : Nat) (c : List Nat) : Prop where
  chain : c.IsChain fun a b => ¬ (a = y ∧ b = y)
  ends : 1 < c.length → ¬ (c.head? = some y ∧ c.getLast? = some y)

theorem NoTwin.map {y : Nat} {c : List Nat} (h : NoTwin y c) {g : Nat → Nat} (hg : ∀ a, g a = y ↔ a = y) : NoTwin y (c.map g) := by
  refine ⟨?_, ?_⟩
  · rw [List.isChain_map]
    exact h.chain.imp fun a b hab ⟨h1, h2⟩ => hab ⟨(hg a).1 h1, (hg b).1 h2⟩
  · rw [List.length_map]
    rintro hl ⟨h1, h2⟩
    rw [List.head?_map, Option.map_eq_some_iff] at h1
    rw [List.getLast?_map, Option.map_eq_some_iff] at h2
    obtain ⟨a, ha, ea⟩ := h1
    obtain ⟨b, hb, eb⟩ := h2
    exact h.ends hl ⟨by rw [ha, (hg a).1 ea], by rw [hb, (hg b).1 eb]⟩

theorem NoTwin.erase {y v : Nat} {p s : List Nat} (h : NoTwin y (p ++ v :: v :: s)) : v ≠ y ∧ NoTwin y (p ++ v :: s) := by
  have h1 := h.chain
  rw [List.isChain_append] at h1
  obtain ⟨hp, hs, hj⟩ := h1
  rw [List.isChain_cons_cons] at hs
  have hv : v ≠ y := fun e => hs.1 ⟨e, e⟩
  refine ⟨hv, ?_, ?_⟩
  · rw [List.isChain_append]
    exact ⟨hp, hs.2, fun a ha b hb => hj a ha b (by simpa using hb)⟩
  · intro hl
    have := h.ends (by simp at hl ⊢; omega)
    rintro ⟨e1, e2⟩
    refine this ⟨?_, ?_⟩
    · cases p <;> simpa using e1
    · rw [List.getLast?_append] at e2 ⊢
      simpa [List.getLast?_cons] using e2

theorem NoTwin.eraseLast {y v : Nat} {s : List Nat} (h : NoTwin y (v :: s ++ [v])) : v ≠ y ∧ NoTwin y (v :: s) := by
  have hv : v ≠ y := by
    intro e
    exact h.ends (by simp) ⟨by simp [e], by rw [List.getLast?_append]; simp [e]⟩
  refine ⟨hv, ?_, ?_⟩
  · exact (List.isChain_append.1 h.chain).1
  · rintro _ ⟨e, _⟩
    exact hv (by simpa using e)

/-- Position `i` and the next one, cyclically, hold the same value: what it means for the list, and for the list without position `i`. -/
theorem erase_cases {c : List Nat} {i a : Nat} (hi : i < c.length) (hl : 1 < c.length) (ha : c[i]? = some a) (hb : c[(i + 1) % c.length]? = some a) :
    (∃ p s, c = p ++ a :: a :: s ∧ c.eraseIdx i = p ++ a :: s) ∨ (∃ s, c = a :: s ++ [a] ∧ c.eraseIdx i = a :: s) := by
  by_cases h : i + 1 < c.length
  · left
    rw [Nat.mod_eq_of_lt h] at hb
    have ha' := (List.getElem?_eq_some_iff.1 ha).2
    have hb' := (List.getElem?_eq_some_iff.1 hb).2
    refine ⟨c.take i, c.drop (i + 2), ?_, ?_⟩
    · conv_lhs => rw [← List.take_append_drop i c, List.drop_eq_getElem_cons hi, List.drop_eq_getElem_cons h, ha', hb']
    · rw [List.eraseIdx_eq_take_drop_succ, List.drop_eq_getElem_cons h, hb']
  · right
    have he : i + 1 = c.length := by omega
    rw [he, Nat.mod_self] at hb
    obtain ⟨v, s, rfl⟩ : ∃ v s, c = v :: s := by
      cases c with
      | nil => simp at hi
      | cons v s => exact ⟨v, s, rfl⟩
    simp only [List.getElem?_cons_zero, Option.some.injEq] at hb
    subst hb
    have hs : s ≠ [] := by rintro rfl; simp at hl
    have hlast : s.getLast hs = v := by
      have h1 : (v :: s)[i]? = s[s.length - 1]? := by
        simp only [List.length_cons] at he
        rw [show i = s.length - 1 + 1 by have := List.length_pos_iff.2 hs; omega, List.getElem?_cons_succ]
      rw [h1, ← List.getLast?_eq_getElem?, List.getLast?_eq_some_getLast hs] at ha
      exact Option.some.inj ha
    refine ⟨s.dropLast, ?_, ?_⟩
    · conv_lhs => rw [← List.dropLast_append_getLast hs, hlast]
      rfl
    · rw [List.eraseIdx_eq_take_drop_succ, List.drop_of_length_le (by omega), List.append_nil]
      simp only [List.length_cons] at he
      rw [show i = s.length - 1 + 1 by have := List.length_pos_iff.2 hs; omega, List.take_succ_cons, List.dropLast_eq_take]

theorem removeAdjacent_join : ∀ (fuel i : Nat) (c : List Nat), Holds (removeAdjacent fuel i c) fun o => o.Sublist c ∧
    ∀ y, NoTwin y c → NoTwin y o ∧ o.count y = c.count y := by
  intro fuel
  induction fuel with
  | zero =>
    intro i c
    unfold removeAdjacent
    split
    · exact Holds.error
    · exact Holds.ok ⟨List.Sublist.refl _, fun y h => ⟨h, rfl⟩⟩
  | succ fuel ih =>
    intro i c
    unfold removeAdjacent
    split
    · rename_i hl
      refine Holds.bind_any fun a ha => ?_
      refine Holds.bind_any fun b hb => ?_
      split
      · rename_i e
        subst e
        rw [idx_eq_ok] at ha hb
        refine (ih i (c.eraseIdx i)).mono ?_
        rintro o ⟨h1, h2⟩
        refine ⟨h1.trans (List.eraseIdx_sublist c i), fun y hy => ?_⟩
        rcases erase_cases hl.1 hl.2 ha hb with ⟨p, s, e1, e2⟩ | ⟨s, e1, e2⟩
        · rw [e1] at hy
          obtain ⟨hv, hy'⟩ := hy.erase
          rw [e2] at h2
          obtain ⟨g1, g2⟩ := h2 y hy'
          refine ⟨g1, ?_⟩
          rw [g2, e1]
          simp [List.count_append, List.count_cons, hv]
        · rw [e1] at hy
          obtain ⟨hv, hy'⟩ := hy.eraseLast
          rw [e2] at h2
          obtain ⟨g1, g2⟩ := h2 y hy'
          refine ⟨g1, ?_⟩
          rw [g2, e1]
          simp [List.count_append, List.count_cons, hv]
      · exact ih (i + 1) c
    · exact Holds.ok ⟨List.Sublist.refl _, fun y h => ⟨h, rfl⟩⟩

theorem cyclicRest_perm {c : List Nat} {ins v : Nat} (hv : c[ins]? = some v) : Holds (Region.cyclicRest c ins) fun o => (o ++ [v]).Perm c := by
  intro o ho
  have hins : ins < c.length := (List.getElem?_eq_some_iff.1 hv).1
  have e : o = (c.rotate (ins + 1)).take (c.length - 1) := by
    unfold Region.cyclicRest at ho
    have h2 : List.Forall₂ (fun i v => c[(ins + 1 + i) % c.length]? = some v) (List.range (c.length - 1)) o :=
      mapM_holds_forall₂ (R := fun i v => c[(ins + 1 + i) % c.length]? = some v) _ (fun a _ v hv => idx_eq_ok.1 hv) o ho
    have hlen : o.length = c.length - 1 := by rw [← h2.length_eq, List.length_range]
    refine List.ext_getElem (by simp [hlen]) ?_
    intro k h3 h4
    have := h2.get (i := k) (by simpa [hlen] using h3) h3
    simp only [List.get_eq_getElem, List.getElem_range] at this
    obtain ⟨hl, hv⟩ := List.getElem?_eq_some_iff.1 this
    rw [List.getElem_take, List.getElem_rotate, ← hv]
    congr 2
    omega
  have e2 : o ++ [v] = c.rotate (ins + 1) := by
    have hl : (c.rotate (ins + 1)).length = c.length := List.length_rotate ..
    have hd : (c.rotate (ins + 1)).drop (c.length - 1) = [v] := by
      rw [List.drop_eq_getElem_cons (by omega), List.drop_of_length_le (by omega), List.getElem_rotate]
      congr 1
      have hm : (c.length - 1 + (ins + 1)) % c.length = ins := by
        rw [show c.length - 1 + (ins + 1) = ins + c.length by omega, Nat.add_mod_right, Nat.mod_eq_of_lt hins]
      have := (List.getElem?_eq_some_iff.1 hv).2
      rw [← this]
      congr 1
    rw [e, ← hd, List.take_append_drop]
  rw [e2]
  exact List.rotate_perm c (ins + 1)

/-! ### one merge -/

/-- The new name of a region after `old` was merged into `new`. -/
def rename (old new c : Nat) : Nat := if c = old then new else c

theorem count_rename {old new : Nat} (hne : new ≠ old) (l : List Nat) (x : Nat) : (l.map (rename old new)).count x =
    if x = old then 0 else if x = new then l.count new + l.count old else l.count x := by
  induction l with
  | nil => simp
  | cons a l ih =>
    rw [List.map_cons, List.count_cons, ih]
    unfold rename
    by_cases h1 : x = old
    · subst h1
      by_cases h2 : a = x
      · simp [h2, hne]
      · simp [h2]
    · rw [if_neg h1, if_neg h1]
      by_cases h2 : x = new
      · subst h2
        by_cases h3 : a = old
        · subst h3
          have h1' : a ≠ x := fun e => h1 e.symm
          simp [List.count_cons, h1']; omega
        · simp [List.count_cons, h3]; omega
      · by_cases h3 : a = old
        · subst h3
          have : new ≠ x := fun e => h2 e.symm
          have : a ≠ x := fun e => h1 e.symm
          simp [List.count_cons, h2, *]
        · simp [List.count_cons, h2, h3]

/-- Connections and floors after region `i`, with id `old`, was merged into region `new`. -/
structure MergedJoin (old new i : Nat) (T T' : List Region) : Prop where
  count : ∀ j < T.length, j ≠ i → ProperRegion (getR T j).id → ∀ x, (getR T' j).connections.count x ≤
    ((getR T j).connections.map (rename old new)).count x + if j = new then ((getR T i).connections.map (rename old new)).count x else 0
  keep : ∀ j < T.length, j ≠ i → ∀ c, (c ∈ (getR T j).connections ∨ (j = new ∧ c ∈ (getR T i).connections)) → ProperRegion (getR T j).id →
    rename old new c ≠ j → rename old new c ∈ (getR T' j).connections
  alone : ∀ j < T.length, j ≠ i → j ≠ new → ProperRegion (getR T j).id → ∀ y, y ≠ old → y ≠ new → NoTwin y (getR T j).connections →
    NoTwin y (getR T' j).connections ∧ (getR T' j).connections.count y = (getR T j).connections.count y
  floors : ∀ j < T.length, j ≠ i → ProperRegion (getR T j).id → ∀ f ∈ (getR T' j).floors, ∃ g, f = rename old new g ∧
    (g ∈ (getR T j).floors ∨ (j = new ∧ g ∈ (getR T i).floors))
  area : ∀ j < T.length, (getR T' j).area = (getR T j).area
  self : (getR T new).connections.count i ≤ 1 → (getR T i).connections.count new ≤ 1 → new ∉ (getR T new).connections →
    i ∉ (getR T i).connections → new ∉ (getR T' new).connections

theorem fixupRegion_join {old new : Nat} (hne : new ≠ old) (r : Region) : Holds (fixupRegion old new r) fun o => o.area = r.area ∧
    (ProperRegion r.id → o.connections.Sublist (r.connections.map (rename old new)) ∧ (∀ c ∈ r.connections, rename old new c ∈ o.connections) ∧
      (∀ y, y ≠ old → y ≠ new → NoTwin y r.connections → NoTwin y o.connections ∧ o.connections.count y = r.connections.count y) ∧
      o.floors = r.floors.map (rename old new)) := by
  unfold fixupRegion
  split
  · rename_i hs
    exact Holds.ok ⟨rfl, fun h => absurd h (skipId_iff.1 hs)⟩
  · have key : ∀ q : Region, q.connections = r.connections → q.floors = r.floors → q.area = r.area →
        Holds (q.replaceNeighbour old new) fun o => o.area = r.area ∧
    (ProperRegion r.id → o.connections.Sublist (r.connections.map (rename old new)) ∧ (∀ c ∈ r.connections, rename old new c ∈ o.connections) ∧
      (∀ y, y ≠ old → y ≠ new → NoTwin y r.connections → NoTwin y o.connections ∧ o.connections.count y = r.connections.count y) ∧
      o.floors = r.floors.map (rename old new)) := by
      intro q hq hf ha
      have hmem : ∀ c ∈ r.connections, rename old new c ∈ r.connections.map (rename old new) := fun c hc => List.mem_map_of_mem hc
      have htw : ∀ y, y ≠ old → y ≠ new → NoTwin y r.connections → NoTwin y (r.connections.map (rename old new)) ∧
          (r.connections.map (rename old new)).count y = r.connections.count y := by
        intro y h1 h2 h3
        refine ⟨h3.map ?_, by rw [count_rename hne, if_neg h1, if_neg h2]⟩
        intro a
        unfold rename
        split
        · rename_i e; subst e
          exact ⟨fun e => absurd e.symm h2, fun e => absurd e.symm h1⟩
        · rfl
      unfold Region.replaceNeighbour
      simp only
      rw [hq, hf]
      split
      · refine Holds.bind ((removeAdjacent_keeps _ 0 _).and (removeAdjacent_join _ 0 _)) ?_
        rintro o ⟨ho1, ho2, ho3⟩
        refine Holds.ok ⟨ha, fun _ => ⟨ho2, fun c hc => ho1 _ (hmem c hc), fun y h1 h2 h3 => ?_, rfl⟩⟩
        obtain ⟨g1, g2⟩ := htw y h1 h2 h3
        obtain ⟨g3, g4⟩ := ho3 y g1
        exact ⟨g3, g4.trans g2⟩
      · exact Holds.ok ⟨ha, fun _ => ⟨List.Sublist.refl _, hmem, htw, rfl⟩⟩
    split
    · exact key _ rfl rfl rfl
    · exact key _ rfl rfl rfl

theorem addUniqueFloors_sub (l : List Nat) (r : Region) : ∀ f ∈ (l.foldl Region.addUniqueFloor r).floors, f ∈ r.floors ∨ f ∈ l := by
  induction l generalizing r with
  | nil => exact fun f h => Or.inl h
  | cons g l ih =>
    intro f hf
    rw [List.foldl_cons] at hf
    rcases ih _ f hf with h | h
    · rcases (CompactHeightfield.addUniqueFloor_mem r g f).1 h with h | h
      · exact Or.inl h
      · exact Or.inr (by simp [h])
    · exact Or.inr (by simp [h])

theorem addUniqueFloors_area (l : List Nat) (r : Region) : (l.foldl Region.addUniqueFloor r).area = r.area := by
  induction l generalizing r with
  | nil => rfl
  | cons g l ih =>
    rw [List.foldl_cons, ih]
    unfold Region.addUniqueFloor
    split <;> rfl

theorem mergeRegions_join (r other : Region) : Holds (r.mergeRegions other) fun o =>
    (o = none → other.id ∉ r.connections ∨ r.id ∉ other.connections) ∧ ∀ m, o = some m →
    m.id = r.id ∧ m.area = r.area ∧ (∀ x, m.connections.count x + (if other.id = x then 1 else 0) + (if r.id = x then 1 else 0) ≤
        r.connections.count x + other.connections.count x) ∧
      (∀ c ∈ r.connections, c ≠ other.id → c ∈ m.connections) ∧ (∀ c ∈ other.connections, c ≠ r.id → c ∈ m.connections) ∧
      ∀ f ∈ m.floors, f ∈ r.floors ∨ f ∈ other.floors := by
  unfold Region.mergeRegions
  split
  · rename_i insA insB hA hB
    obtain ⟨hAl, hAv, _⟩ := List.findIdx?_eq_some_iff_getElem.1 hA
    obtain ⟨hBl, hBv, _⟩ := List.findIdx?_eq_some_iff_getElem.1 hB
    have eA : r.connections[insA]? = some other.id := by rw [List.getElem?_eq_getElem hAl]; simpa using hAv
    have eB : other.connections[insB]? = some r.id := by rw [List.getElem?_eq_getElem hBl]; simpa using hBv
    refine Holds.bind ((cyclicRest_keeps eA).and (cyclicRest_perm eA)) ?_
    rintro a ⟨a1, a2'⟩
    refine Holds.bind ((cyclicRest_keeps eB).and (cyclicRest_perm eB)) ?_
    rintro b ⟨b1, b2'⟩
    have a2 : ∀ x, a.count x + (if other.id = x then 1 else 0) = r.connections.count x := by
      intro x; rw [← a2'.count_eq, List.count_append, List.count_singleton]; simp
    have b2 : ∀ x, b.count x + (if r.id = x then 1 else 0) = other.connections.count x := by
      intro x; rw [← b2'.count_eq, List.count_append, List.count_singleton]; simp
    refine Holds.bind ((removeAdjacent_keeps _ 0 (a ++ b)).and (removeAdjacent_join _ 0 (a ++ b))) ?_
    rintro c ⟨c1, c2, _⟩
    refine Holds.ok ⟨(fun h => nomatch h), ?_⟩
    intro m hm
    cases hm
    obtain ⟨e1, e2, e3⟩ := CompactHeightfield.addUniqueFloors_core other.floors { r with connections := c }
    refine ⟨e1, addUniqueFloors_area _ _, ?_, ?_, ?_, addUniqueFloors_sub other.floors { r with connections := c }⟩
    · intro x
      simp only
      rw [e3]
      have h1 := c2.count_le x
      rw [List.count_append] at h1
      have h2 := a2 x
      have h3 := b2 x
      dsimp only
      split_ifs at h2 h3 ⊢ <;> omega
    · intro x hx hne
      simp only
      rw [e3]
      exact c1 x (List.mem_append_left _ (a1 x hx hne))
    · intro x hx hne
      simp only
      rw [e3]
      exact c1 x (List.mem_append_right _ (b1 x hx hne))
  · rename_i hno
    refine Holds.ok ⟨fun _ => ?_, (fun m h => nomatch h)⟩
    by_contra hc
    rw [not_or, not_not, not_not] at hc
    obtain ⟨k1, hk1⟩ := Option.isSome_iff_exists.1 (List.findIdx?_isSome (p := (· = other.id)) (xs := r.connections) ▸
      List.any_eq_true.2 ⟨_, hc.1, by simp⟩ : (r.connections.findIdx? (· = other.id)).isSome = true)
    obtain ⟨k2, hk2⟩ := Option.isSome_iff_exists.1 (List.findIdx?_isSome (p := (· = r.id)) (xs := other.connections) ▸
      List.any_eq_true.2 ⟨_, hc.2, by simp⟩ : (other.connections.findIdx? (· = r.id)).isSome = true)
    exact hno k1 k2 hk1 hk2

theorem mergeInto_join {T : List Region} {i mergeId : Nat} (hi : i < T.length) (hp : ProperRegion (getR T i).id) (hid : (getR T i).id = i)
    (hpm : ProperRegion mergeId) (hroot : (getR T mergeId).id = mergeId) (hne : mergeId ≠ (getR T i).id) :
    Holds (mergeInto T i (getR T i) mergeId) fun o => (o.2 = false ∧ (i ∉ (getR T mergeId).connections ∨ mergeId ∉ (getR T i).connections)) ∨
      (o.2 = true ∧ MergedJoin i mergeId i T o.1) := by
  have him : i ≠ mergeId := by
    intro e; rw [e] at hne; exact hne hroot.symm
  unfold mergeInto
  refine Holds.bind_any fun target ht => ?_
  obtain ⟨hml, rfl⟩ := idx_getR_inv ht
  refine Holds.bind (mergeRegions_join _ _) fun o ho => ?_
  cases o with
  | none =>
    refine Holds.ok (Or.inl ⟨rfl, ?_⟩)
    have := ho.1 rfl
    rwa [hid, hroot] at this
  | some m =>
    obtain ⟨m1, m2, m3, m4, m5, m6⟩ := ho.2 m rfl
    rw [hid] at m3 m4
    rw [hroot] at m3 m5
    simp only
    have hil : i < (T.set mergeId m).length := by rw [List.length_set]; exact hi
    rw [setIdx_ok hml, bind_ok, idx_getR hil, bind_ok, setIdx_ok hil, bind_ok]
    have hget : ∀ j, getR ((T.set mergeId m).set i { getR (T.set mergeId m) i with spanCount := 0, connections := [] }) j =
        if j = i then { getR T i with spanCount := 0, connections := [] } else if j = mergeId then m else getR T j := by
      intro j
      rw [getR_set hil]
      split
      · rw [getR_set hml, if_neg him]
      · rw [getR_set hml]
    rw [hid]
    refine Holds.bind (mapM_holds_forall₂ _ fun r _ => fixupRegion_join (Ne.symm him) r) ?_
    intro T' hT'
    refine Holds.ok (Or.inr ⟨rfl, ?_⟩)
    have hrel : ∀ j < T.length, _ := fun j hj => forall₂_getR hT' (j := j) (by simpa using hj)
    have hmap : ∀ x, (m.connections.map (rename i mergeId)).count x ≤
        ((getR T mergeId).connections.map (rename i mergeId)).count x + ((getR T i).connections.map (rename i mergeId)).count x := by
      intro x
      have h1 := m3 x
      have h2 := m3 mergeId
      have h3 := m3 i
      rw [count_rename (Ne.symm him), count_rename (Ne.symm him), count_rename (Ne.symm him)]
      split
      · omega
      · split
        · omega
        · exact le_trans (by omega) h1
    refine ⟨?_, ?_, ?_, ?_, ?_, ?_⟩
    · intro j hj hji hpj x
      obtain ⟨_, a⟩ := hrel j hj
      rw [hget, if_neg hji] at a
      by_cases h2' : j = mergeId
      · subst h2'
        rw [if_pos rfl] at a
        rw [if_pos rfl]
        exact ((a (by rw [m1]; exact hpj)).1.count_le x).trans (hmap x)
      · rw [if_neg h2'] at a
        rw [if_neg h2', Nat.add_zero]
        exact (a hpj).1.count_le x
    · intro j hj hji c hc hpj hne'
      obtain ⟨_, a⟩ := hrel j hj
      rw [hget, if_neg hji] at a
      by_cases h2' : j = mergeId
      · subst h2'
        rw [if_pos rfl] at a
        refine (a (by rw [m1]; exact hpj)).2.1 c ?_
        have hci : c ≠ i := by rintro rfl; exact hne' (by simp [rename])
        have hcj : c ≠ j := by rintro rfl; exact hne' (by simp [rename])
        rcases hc with hc | ⟨_, hc⟩
        · exact m4 c hc hci
        · exact m5 c hc hcj
      · rw [if_neg h2'] at a
        rcases hc with hc | ⟨e, _⟩
        · exact (a hpj).2.1 c hc
        · exact absurd e h2'
    · intro j hj hji hjn hpj y h1 h2 h3
      obtain ⟨_, a⟩ := hrel j hj
      rw [hget, if_neg hji, if_neg hjn] at a
      exact (a hpj).2.2.1 y h1 h2 h3
    · intro j hj hji hpj f hf
      obtain ⟨_, a⟩ := hrel j hj
      rw [hget, if_neg hji] at a
      by_cases h2' : j = mergeId
      · subst h2'
        rw [if_pos rfl] at a
        rw [(a (by rw [m1]; exact hpj)).2.2.2] at hf
        obtain ⟨g, hg, rfl⟩ := List.mem_map.1 hf
        refine ⟨g, rfl, ?_⟩
        rcases m6 g hg with h | h
        · exact Or.inl h
        · exact Or.inr ⟨rfl, h⟩
      · rw [if_neg h2'] at a
        rw [(a hpj).2.2.2] at hf
        obtain ⟨g, hg, rfl⟩ := List.mem_map.1 hf
        exact ⟨g, rfl, Or.inl hg⟩
    · intro j hj
      obtain ⟨a, _⟩ := hrel j hj
      rw [a, hget]
      by_cases h1' : j = i
      · subst h1'; simp
      · rw [if_neg h1']
        by_cases h2' : j = mergeId
        · subst h2'; rw [if_pos rfl, m2]
        · rw [if_neg h2']
    · intro c1 c2 n1 n2 hmem
      dsimp only at hmem
      obtain ⟨_, a⟩ := hrel mergeId hml
      rw [hget, if_neg (Ne.symm him), if_pos rfl] at a
      have h1 := (a (by rw [m1, hroot]; exact hpm)).1.count_le mergeId
      rw [count_rename (Ne.symm him), if_neg (Ne.symm him), if_pos rfl] at h1
      have h2 := m3 mergeId
      have h3 := m3 i
      rw [if_neg him, if_pos rfl] at h2
      rw [if_pos rfl, if_neg (Ne.symm him)] at h3
      have h4 := List.count_eq_zero.2 n1
      have h5 := List.count_eq_zero.2 n2
      have h6 := List.count_pos_iff.2 hmem
      omega

end Rerecast
