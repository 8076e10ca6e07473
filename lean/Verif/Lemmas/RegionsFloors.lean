import Verif.Lemmas.RegionsMerge
import Mathlib.Logic.Relation
import Mathlib.Algebra.BigOperators.Group.List.Basic
/-! The region table in more detail: span counts, floors and overlaps after collecting; the groups removed as too small; what
merging keeps about floors. -/
set_option linter.unusedVariables false
set_option linter.unusedSectionVars false
namespace Rerecast

theorem idx_getR_inv {T : List Region} {j : Nat} {r : Region} (h : idx T j = .ok r) : j < T.length ∧ r = getR T j := by
  rw [idx_eq_ok] at h
  obtain ⟨hl, e⟩ := List.getElem?_eq_some_iff.1 h
  refine ⟨hl, ?_⟩
  simp [getR, List.getD_eq_getElem?_getD, h]

/-! ### collecting -/

namespace CompactHeightfield
variable {chf : CompactHeightfield}

/-- Counts, floors, overlaps of the table after the collecting phase. -/
structure Counted (chf : CompactHeightfield) (reg : List Nat) (nreg : Nat) (T : List Region) : Prop where
  count : ∀ j < nreg, j ≠ 0 → (getR T j).spanCount = (List.range chf.spans.length).countP (fun i => decide (reg.getD i 0 = j))
  floors : ∀ a < chf.spans.length, ∀ b < chf.spans.length, a ≠ b → chf.colOf a = chf.colOf b → reg.getD a 0 ≠ 0 → reg.getD a 0 < nreg →
    reg.getD b 0 ≠ 0 → reg.getD b 0 < nreg → reg.getD b 0 ∈ (getR T (reg.getD a 0)).floors
  overlap : ∀ a < chf.spans.length, ∀ b < chf.spans.length, a ≠ b → chf.colOf a = chf.colOf b → reg.getD a 0 ≠ 0 → reg.getD a 0 < nreg →
    reg.getD b 0 = reg.getD a 0 → (getR T (reg.getD a 0)).overlap = true
  fresh : ∀ j < nreg, (getR T j).visited = false

theorem addUniqueFloor_mem (r : Region) (f g : Nat) : g ∈ (r.addUniqueFloor f).floors ↔ g ∈ r.floors ∨ g = f := by
  unfold Region.addUniqueFloor
  split
  · rename_i h
    have h' : f ∈ r.floors := by simpa using h
    constructor
    · exact Or.inl
    · rintro (h | rfl)
      · exact h
      · exact h'
  · simp

theorem addUniqueFloor_keep (r : Region) (f : Nat) : (r.addUniqueFloor f).overlap = r.overlap ∧ (r.addUniqueFloor f).visited = r.visited ∧
    (r.addUniqueFloor f).spanCount = r.spanCount ∧ (r.addUniqueFloor f).id = r.id ∧ (r.addUniqueFloor f).connections = r.connections := by
  unfold Region.addUniqueFloor
  split <;> exact ⟨rfl, rfl, rfl, rfl, rfl⟩

theorem floorFold_holds {reg : List Nat} {nreg r i : Nat} (l : List Nat) (hl : ∀ k ∈ l, k < reg.length) (rg : Region) :
    Holds (l.foldlM (floorStep reg nreg r i) rg) fun o => o.visited = rg.visited ∧ o.spanCount = rg.spanCount ∧
      (∀ f ∈ rg.floors, f ∈ o.floors) ∧ (rg.overlap = true → o.overlap = true) ∧
      ∀ k ∈ l, k ≠ i → reg.getD k 0 ≠ 0 → reg.getD k 0 < nreg → reg.getD k 0 ∈ o.floors ∧ (reg.getD k 0 = r → o.overlap = true) := by
  refine foldlM_holds (fun pre (o : Region) => o.visited = rg.visited ∧ o.spanCount = rg.spanCount ∧
      (∀ f ∈ rg.floors, f ∈ o.floors) ∧ (rg.overlap = true → o.overlap = true) ∧
      ∀ k ∈ pre, k ≠ i → reg.getD k 0 ≠ 0 → reg.getD k 0 < nreg → reg.getD k 0 ∈ o.floors ∧ (reg.getD k 0 = r → o.overlap = true)) l rg
      ⟨rfl, rfl, fun _ h => h, fun h => h, by simp⟩ ?_
  rintro pre k post o he ⟨h1, h2, h3, h4, h5⟩
  have hk : k < reg.length := hl k (by rw [he]; simp)
  unfold floorStep
  split
  · rename_i e
    refine Holds.ok ⟨h1, h2, h3, h4, ?_⟩
    intro m hm hmi
    rcases List.mem_append.1 hm with hm | hm
    · exact h5 m hm hmi
    · exact absurd ((List.mem_singleton.1 hm).trans e.symm) hmi
  · rename_i e
    rw [idx_getD hk, bind_ok]
    split
    · rename_i hs
      refine Holds.ok ⟨h1, h2, h3, h4, ?_⟩
      intro m hm hmi a b
      rcases List.mem_append.1 hm with hm | hm
      · exact h5 m hm hmi a b
      · rw [List.mem_singleton.1 hm] at a b
        rcases hs with hs | hs
        · exact absurd hs a
        · omega
    · refine Holds.ok ?_
      have key : ∀ q : Region, q.visited = o.visited → q.spanCount = o.spanCount → q.floors = o.floors → (o.overlap = true → q.overlap = true) →
          (reg.getD k 0 = r → q.overlap = true) → (q.addUniqueFloor (reg.getD k 0)).visited = rg.visited ∧
          (q.addUniqueFloor (reg.getD k 0)).spanCount = rg.spanCount ∧ (∀ f ∈ rg.floors, f ∈ (q.addUniqueFloor (reg.getD k 0)).floors) ∧
          (rg.overlap = true → (q.addUniqueFloor (reg.getD k 0)).overlap = true) ∧
          ∀ m ∈ pre ++ [k], m ≠ i → reg.getD m 0 ≠ 0 → reg.getD m 0 < nreg → reg.getD m 0 ∈ (q.addUniqueFloor (reg.getD k 0)).floors ∧
            (reg.getD m 0 = r → (q.addUniqueFloor (reg.getD k 0)).overlap = true) := by
        intro q q1 q2 q3 q4 q5
        obtain ⟨k1, k2, k3, _, _⟩ := addUniqueFloor_keep q (reg.getD k 0)
        refine ⟨by rw [k2, q1, h1], by rw [k3, q2, h2], fun f hf => ?_, fun h => by rw [k1]; exact q4 (h4 h), ?_⟩
        · rw [addUniqueFloor_mem, q3]; exact Or.inl (h3 f hf)
        · intro m hm hmi a b
          rcases List.mem_append.1 hm with hm | hm
          · obtain ⟨u, v⟩ := h5 m hm hmi a b
            refine ⟨?_, fun h => by rw [k1]; exact q4 (v h)⟩
            rw [addUniqueFloor_mem, q3]; exact Or.inl u
          · rw [List.mem_singleton.1 hm]
            refine ⟨?_, fun h => by rw [k1]; exact q5 h⟩
            rw [addUniqueFloor_mem]; exact Or.inr rfl
      split
      · exact key _ rfl rfl rfl (fun _ => rfl) (fun _ => rfl)
      · rename_i h; exact key _ rfl rfl rfl (fun h => h) (fun h' => absurd h' h)

theorem findOutline_keep {reg : List Nat} {x z i : Nat} {rg : Region} : Holds (chf.findOutline reg x z i rg) fun o =>
    o.visited = rg.visited ∧ o.spanCount = rg.spanCount ∧ o.floors = rg.floors ∧ o.overlap = rg.overlap := by
  unfold findOutline
  split
  · exact Holds.ok ⟨rfl, rfl, rfl, rfl⟩
  · refine Holds.bind_any fun area _ => ?_
    refine Holds.bind_any fun nd _ => ?_
    cases nd with
    | none => exact Holds.ok ⟨rfl, rfl, rfl, rfl⟩
    | some d =>
      refine Holds.bind_any fun c _ => ?_
      exact Holds.ok ⟨rfl, rfl, rfl, rfl⟩

theorem collectRegions_counted (hwf : chf.WellFormed) {reg : List Nat} (hr : reg.length = chf.spans.length) {nreg : Nat} :
    Holds (chf.collectRegions reg nreg) (Counted chf reg nreg) := by
  unfold collectRegions
  rw [forSpans_eq hwf]
  refine Holds.mono (foldlM_holds (fun pre (T : List Region) => T.length = nreg ∧
    (∀ j < nreg, j ≠ 0 → (getR T j).spanCount = pre.countP (fun i => decide (reg.getD i 0 = j))) ∧
    (∀ a ∈ pre, ∀ b < chf.spans.length, a ≠ b → chf.colOf a = chf.colOf b → reg.getD a 0 ≠ 0 → reg.getD a 0 < nreg →
      reg.getD b 0 ≠ 0 → reg.getD b 0 < nreg → reg.getD b 0 ∈ (getR T (reg.getD a 0)).floors ∧
        (reg.getD b 0 = reg.getD a 0 → (getR T (reg.getD a 0)).overlap = true)) ∧
    ∀ j < nreg, (getR T j).visited = false) (List.range chf.spans.length) _ ?_ ?_) ?_
  · have hg : ∀ j < nreg, getR ((List.range nreg).map Region.new) j = Region.new j := by
      intro j hj; simp [getR, List.getD_eq_getElem?_getD, hj]
    exact ⟨by simp, fun j hj _ => by rw [hg j hj]; rfl, by simp, fun j hj => by rw [hg j hj]; rfl⟩
  · rintro pre i post T he ⟨hl, hcnt, hfl, hv⟩
    have hi : i < chf.spans.length := List.mem_range.1 (by rw [he]; simp)
    unfold collectSpan
    rw [idx_getD (by rw [hr]; exact hi), bind_ok]
    by_cases hskip : reg.getD i 0 = REGION_NONE ∨ reg.getD i 0 ≥ nreg
    · rw [if_pos hskip]
      refine Holds.ok ⟨hl, ?_, ?_, hv⟩
      · intro j hj h0
        rw [hcnt j hj h0, List.countP_append]
        have : reg.getD i 0 ≠ j := by
          rintro rfl
          rcases hskip with h | h
          · exact h0 h
          · omega
        rw [List.countP_singleton, decide_eq_false this]; rfl
      · intro a ha b hb hab hc h1 h2
        rcases List.mem_append.1 ha with ha | ha
        · exact hfl a ha b hb hab hc h1 h2
        · rw [List.mem_singleton.1 ha] at h1 h2
          rcases hskip with h | h
          · exact absurd h h1
          · omega
    · rw [if_neg hskip]
      rw [not_or] at hskip
      have hlt : reg.getD i 0 < nreg := by omega
      have hT : reg.getD i 0 < T.length := by rw [hl]; exact hlt
      rw [idx_getR hT, bind_ok]
      obtain ⟨hcl, cell, hcell, hmem⟩ := col_spec hwf hi
      obtain ⟨hx, hz, hxz⟩ := xz_spec hwf hi
      have hcellAt : chf.cellAt (chf.xOf i) (chf.zOf i) = .ok cell := by
        simp only [cellAt, columnIndex]; rw [hxz, idx_some hcell]
      rw [hcellAt, bind_ok]
      refine Holds.bind (floorFold_holds cell.indexRange (fun k hk => by rw [hr]; exact mem_cell_lt hwf hcell hk) _) ?_
      rintro rg ⟨g1, g2, g3, g4, g5⟩
      simp only at g1 g2 g3 g4
      refine Holds.bind findOutline_keep ?_
      rintro o ⟨o1, o2, o3, o4⟩
      rw [setIdx_ok hT]
      have hget := fun j => getR_set (T := T) (i := reg.getD i 0) (j := j) (v := o) hT
      refine Holds.ok ⟨by simpa using hl, ?_, ?_, ?_⟩
      · intro j hj h0
        rw [hget, List.countP_append]
        split
        · rename_i h
          rw [o2, g2, h, hcnt _ hlt (by rw [← h]; exact h0)]
          simp
        · rename_i h
          rw [hcnt j hj h0]
          have : reg.getD i 0 ≠ j := fun e => h e.symm
          rw [List.countP_singleton, decide_eq_false this]; rfl
      · intro a ha b hb hab hc h1 h2 h3 h4
        rw [hget]
        rcases List.mem_append.1 ha with ha | ha
        · obtain ⟨u, v⟩ := hfl a ha b hb hab hc h1 h2 h3 h4
          split
          · rename_i h
            rw [h] at u v
            rw [o3, o4]
            exact ⟨g3 _ u, fun e => g4 (v (by rw [h] at e; exact e))⟩
          · exact ⟨u, v⟩
        · have hai := List.mem_singleton.1 ha
          subst hai
          rw [if_pos rfl, o3, o4]
          have hbm : b ∈ cell.indexRange := by
            obtain ⟨_, cell', hcell', hmem'⟩ := col_spec hwf hb
            rw [← hc, hcell] at hcell'
            cases hcell'; exact hmem'
          exact g5 b hbm (fun e => hab e.symm) h3 h4
      · intro j hj
        rw [hget]
        split
        · rw [o1, g1]; exact hv _ hlt
        · exact hv j hj
  · rintro T ⟨hl, hcnt, hfl, hv⟩
    refine ⟨hcnt, ?_, ?_, hv⟩
    · intro a ha b hb hab hc h1 h2 h3 h4
      exact (hfl a (List.mem_range.2 ha) b hb hab hc h1 h2 h3 h4).1
    · intro a ha b hb hab hc h1 h2 e
      exact (hfl a (List.mem_range.2 ha) b hb hab hc h1 h2 (by rw [e]; exact h1) (by rw [e]; exact h2)).2 e

end CompactHeightfield

/-! ### removing small groups -/

/-- Region `b` is a (proper) connection of region `a`. -/
def ConStep (T0 : List Region) (a b : Nat) : Prop := b ∈ (getR T0 a).connections ∧ ProperRegion b

/-- Number of spans of the regions `G`. -/
def groupSize (T0 : List Region) (G : List Nat) : Nat := (G.map fun k => (getR T0 k).spanCount).sum

/-- Some region of `G` has a border region among its connections. -/
def AtBorder (T0 : List Region) (G : List Nat) : Prop := ∃ k ∈ G, ∃ c ∈ (getR T0 k).connections, isBorderRegion c = true

/-- The table while small groups are removed, before index `i`. -/
structure Pruned (min : Nat) (T0 : List Region) (i : Nat) (T : List Region) : Prop where
  len : T.length = T0.length
  con : ∀ j, (getR T j).connections = (getR T0 j).connections
  floors : ∀ j, (getR T j).floors = (getR T0 j).floors
  overlap : ∀ j, (getR T j).overlap = (getR T0 j).overlap
  alive : ∀ j, ((getR T j).id = (getR T0 j).id ∧ (getR T j).spanCount = (getR T0 j).spanCount) ∨
    ((getR T j).id = 0 ∧ (getR T j).spanCount = 0 ∧ (getR T j).visited = true)
  killed : ∀ j, (getR T j).id = 0 → (getR T0 j).id ≠ 0 → ∃ G : List Nat, G.Nodup ∧ j ∈ G ∧ (∀ k ∈ G, k < T0.length ∧ ProperRegion k ∧ (getR T k).id = 0) ∧
    groupSize T0 G < min ∧ ¬ AtBorder T0 G
  good : ∀ j, (getR T j).visited = true → (getR T j).id ≠ 0 → ∃ (root : Nat) (G : List Nat), G.Nodup ∧ root ∈ G ∧ j ∈ G ∧
    (∀ k ∈ G, k < T0.length ∧ ProperRegion k ∧ Relation.ReflTransGen (ConStep T0) root k) ∧ (min ≤ groupSize T0 G ∨ AtBorder T0 G)
  done : ∀ j < i, ProperRegion (getR T0 j).id → (getR T0 j).spanCount ≠ 0 → (getR T j).visited = true

/-- The search for one group: `S` is the table before it. -/
structure Search (S : List Region) (root : Nat) (st : SmallState) : Prop where
  len : st.regions.length = S.length
  get : ∀ j, getR st.regions j = if j ∈ st.trace ∨ j ∈ st.stack then { getR S j with visited := true } else getR S j
  nodup : (st.trace ++ st.stack).Nodup
  mem : ∀ k ∈ st.trace ++ st.stack, k < S.length ∧ (getR S k).visited = false ∧ ProperRegion k ∧ Relation.ReflTransGen (ConStep S) root k
  count : st.spanCount = groupSize S st.trace

theorem smallConn_search {S : List Region} (hid : ∀ j < S.length, (getR S j).id = j ∨ (getR S j).id = 0) {root ri : Nat} {st : SmallState}
    (h : Search S root st) (hri : ri ∈ st.trace) {c : Nat} (hc : c ∈ (getR S ri).connections) :
    Holds (smallConn st c) fun o => Search S root o ∧ o.trace = st.trace ∧ o.toBorder = (st.toBorder || isBorderRegion c) := by
  unfold smallConn
  split
  · rename_i hb
    exact Holds.ok ⟨⟨h.len, h.get, h.nodup, h.mem, h.count⟩, rfl, by simp [hb]⟩
  · rename_i hb
    have hb' : isBorderRegion c = false := by simpa using hb
    have hsame : st.toBorder = (st.toBorder || isBorderRegion c) := by rw [hb', Bool.or_false]
    refine Holds.bind_any fun nei hnei => ?_
    obtain ⟨hcl, rfl⟩ := idx_getR_inv hnei
    split
    · exact Holds.ok ⟨h, rfl, hsame⟩
    · rename_i hv
      have hnew : ¬ (c ∈ st.trace ∨ c ∈ st.stack) := by
        intro hm; rw [h.get, if_pos hm] at hv; exact hv rfl
      have hgc : getR st.regions c = getR S c := by rw [h.get, if_neg hnew]
      split
      · exact Holds.ok ⟨h, rfl, hsame⟩
      · rename_i hs
        rw [setIdx_ok hcl, bind_ok, hgc]
        rw [hgc] at hs hv
        have hclS : c < S.length := by rw [← h.len]; exact hcl
        have hcid : (getR S c).id = c := by
          rcases hid c hclS with e | e
          · exact e
          · rw [e] at hs; exact absurd rfl hs
        have hcp : ProperRegion c := by rw [← hcid]; exact skipId_false.1 (by simpa using hs)
        rw [hcid]
        refine Holds.ok ⟨⟨by simpa using h.len, ?_, ?_, ?_, h.count⟩, rfl, hsame⟩
        · intro j
          simp only
          rw [getR_set hcl]
          by_cases hjc : j = c
          · subst hjc
            rw [if_pos rfl, if_pos (Or.inr (by simp)), hcid]
          · rw [if_neg hjc, h.get]
            simp [hjc]
        · simp only
          have := h.nodup
          rw [not_or] at hnew
          rw [List.nodup_append] at this ⊢
          refine ⟨this.1, ?_, ?_⟩
          · rw [List.nodup_cons]; exact ⟨hnew.2, this.2.1⟩
          · intro a ha b hb
            rcases List.mem_cons.1 hb with rfl | hb
            · rintro rfl; exact hnew.1 ha
            · exact this.2.2 a ha b hb
        · intro k hk
          simp only at hk
          have : k = c ∨ k ∈ st.trace ++ st.stack := by
            rcases List.mem_append.1 hk with hk | hk
            · exact Or.inr (by simp [hk])
            · rcases List.mem_cons.1 hk with hk | hk
              · exact Or.inl hk
              · exact Or.inr (by simp [hk])
          rcases this with rfl | hk
          · refine ⟨hclS, by simpa using hv, hcp, ?_⟩
            exact (h.mem ri (by simp [hri])).2.2.2.tail ⟨hc, hcp⟩
          · exact h.mem k hk

theorem smallLoop_search {S : List Region} (hid : ∀ j < S.length, (getR S j).id = j ∨ (getR S j).id = 0) {root : Nat} :
    ∀ (fuel : Nat) (st : SmallState), Search S root st → (st.toBorder = true ↔ AtBorder S st.trace) →
      Holds (smallLoop fuel st) fun o => Search S root o ∧ o.stack = [] ∧ (o.toBorder = true ↔ AtBorder S o.trace) ∧
        (∀ k, k ∈ st.trace ∨ k ∈ st.stack → k ∈ o.trace) := by
  intro fuel
  induction fuel with
  | zero =>
    rintro ⟨T, stack, tr, n, tb⟩ h hb
    unfold smallLoop
    cases stack with
    | nil => exact Holds.ok ⟨h, rfl, hb, by simp⟩
    | cons s stack => exact Holds.error
  | succ fuel ih =>
    rintro ⟨T, stack, tr, n, tb⟩ h hb
    unfold smallLoop
    cases stack with
    | nil => exact Holds.ok ⟨h, rfl, hb, by simp⟩
    | cons s stack =>
      simp only at hb ⊢
      refine Holds.bind_any fun c hc => ?_
      obtain ⟨hsl, rfl⟩ := idx_getR_inv hc
      have hcon : (getR T s).connections = (getR S s).connections := by
        have := h.get s
        simp only at this
        rw [this]; split <;> rfl
      have hspan : (getR T s).spanCount = (getR S s).spanCount := by
        have := h.get s
        simp only at this
        rw [this]; split <;> rfl
      rw [hcon, hspan]
      refine Holds.bind (foldlM_holds (fun pre (o : SmallState) => Search S root o ∧ o.trace = tr ++ [s] ∧
        o.toBorder = (tb || pre.any isBorderRegion) ∧ ∀ k ∈ stack, k ∈ o.stack) (getR S s).connections _ ?_ ?_) ?_
      · refine ⟨⟨h.len, ?_, ?_, ?_, ?_⟩, rfl, by simp, fun k hk => hk⟩
        · intro j
          have := h.get j
          simp only at this ⊢
          rw [this]
          congr 1
          simp only [List.mem_append, List.mem_cons, List.not_mem_nil, or_false, eq_iff_iff]
          tauto
        · have := h.nodup
          simpa using this
        · intro k hk
          exact h.mem k (by simpa using hk)
        · have := h.count
          simp only at this ⊢
          rw [this]; simp [groupSize]
      · rintro pre c post o he ⟨h1, h2, h3, h4⟩
        have hcs : c ∈ (getR S s).connections := by rw [he]; simp
        have hst : Holds (smallConn o c) fun o' => ∀ k ∈ o.stack, k ∈ o'.stack := by
          unfold smallConn
          split
          · exact Holds.ok fun k hk => hk
          · refine Holds.bind_any fun nei _ => ?_
            split
            · exact Holds.ok fun k hk => hk
            · split
              · exact Holds.ok fun k hk => hk
              · refine Holds.bind_any fun r _ => ?_
                exact Holds.ok fun k hk => by simp [hk]
        refine ((smallConn_search hid h1 (ri := s) (by rw [h2]; simp) hcs).and hst).mono ?_
        rintro o' ⟨⟨a, b, d⟩, e⟩
        exact ⟨a, by rw [b, h2], by rw [d, h3]; simp [Bool.or_assoc], fun k hk => e k (h4 k hk)⟩
      · rintro o ⟨h1, h2, h3, h4⟩
        refine (ih o h1 ?_).mono ?_
        · rw [h3, h2]
          rw [Bool.or_eq_true, hb]
          unfold AtBorder
          constructor
          · rintro (⟨k, hk, c, hc, e⟩ | hh)
            · exact ⟨k, by simp [hk], c, hc, e⟩
            · obtain ⟨c, hc, e⟩ := List.any_eq_true.1 hh
              exact ⟨s, by simp, c, hc, e⟩
          · rintro ⟨k, hk, c, hc, e⟩
            rcases List.mem_append.1 hk with hk | hk
            · exact Or.inl ⟨k, hk, c, hc, e⟩
            · rw [List.mem_singleton.1 hk] at hc
              exact Or.inr (List.any_eq_true.2 ⟨c, hc, e⟩)
        · rintro o' ⟨a, b, c, d⟩
          refine ⟨a, b, c, ?_⟩
          intro k hk
          apply d k
          rcases hk with hk | hk
          · left; rw [h2]; simp [hk]
          · rcases List.mem_cons.1 hk with rfl | hk
            · left; rw [h2]; simp
            · right; exact h4 k hk

theorem killFold {l : List Nat} {T : List Region} : Holds (l.foldlM killRegion T) fun o => o.length = T.length ∧
    ∀ j, getR o j = if j ∈ l then { getR T j with spanCount := 0, id := 0 } else getR T j := by
  refine foldlM_holds (fun pre (o : List Region) => o.length = T.length ∧
    ∀ j, getR o j = if j ∈ pre then { getR T j with spanCount := 0, id := 0 } else getR T j) l T ⟨rfl, by simp⟩ ?_
  rintro pre t post o he ⟨h1, h2⟩
  unfold killRegion
  refine Holds.bind_any fun r hr => ?_
  obtain ⟨htl, rfl⟩ := idx_getR_inv hr
  rw [setIdx_ok htl]
  refine Holds.ok ⟨by simpa using h1, ?_⟩
  intro j
  rw [getR_set htl]
  by_cases hj : j = t
  · subst hj
    rw [if_pos rfl, if_pos (by simp), h2]
    split <;> rfl
  · rw [if_neg hj, h2]
    simp [hj]

theorem removeSmall_pruned {min : Nat} {T0 : List Region} (hid : ∀ j < T0.length, (getR T0 j).id = j)
    (hv : ∀ j < T0.length, (getR T0 j).visited = false) : Holds (removeSmall min T0) (Pruned min T0 T0.length) := by
  unfold removeSmall
  have h0 : Pruned min T0 0 T0 := by
    refine ⟨rfl, fun _ => rfl, fun _ => rfl, fun _ => rfl, fun _ => Or.inl ⟨rfl, rfl⟩, fun j h h' => absurd h h', ?_, by omega⟩
    intro j hj
    by_cases hl : j < T0.length
    · rw [hv j hl] at hj; cases hj
    · rw [getR_ge (by omega)] at hj; cases hj
  refine Holds.mono (foldlM_holds (fun pre T => Pruned min T0 pre.length T) (List.range T0.length) T0 h0 ?_) (fun T h => by simpa using h)
  intro pre i post T he hP
  have hpi : pre.length = i := by
    have h1 : (List.range T0.length)[pre.length]? = some i := by rw [he]; simp
    rw [List.getElem?_eq_some_iff] at h1
    obtain ⟨h2, h3⟩ := h1
    simpa using h3
  have hi : i < T0.length := List.mem_range.1 (by rw [he]; simp)
  have hiT : i < T.length := by rw [hP.len]; exact hi
  rw [List.length_append, List.length_singleton, hpi]
  rw [hpi] at hP
  unfold removeSmallStep
  rw [idx_getR hiT, bind_ok]
  -- nothing to do for `i`
  have skip : (ProperRegion (getR T0 i).id → (getR T0 i).spanCount ≠ 0 → (getR T i).visited = true) → Holds (Except.ok T : Res _) (Pruned min T0 (i + 1)) := by
    intro hs
    refine Holds.ok ⟨hP.len, hP.con, hP.floors, hP.overlap, hP.alive, hP.killed, hP.good, ?_⟩
    intro j hj hp hc
    by_cases h : j = i
    · subst h; exact hs hp hc
    · exact hP.done j (by omega) hp hc
  split
  · rename_i h
    refine skip fun hp hc => ?_
    rcases hP.alive i with ⟨a, _⟩ | ⟨_, _, a⟩
    · rw [a, skipId_iff] at h; exact absurd hp h
    · exact a
  rename_i hskip
  split
  · rename_i h
    refine skip fun hp hc => ?_
    rcases hP.alive i with ⟨_, a⟩ | ⟨_, _, a⟩
    · rw [a] at h; exact absurd h hc
    · exact a
  split
  · rename_i h; exact skip fun _ _ => h
  rename_i hcnt hvis
  have hvis' : (getR T i).visited = false := by simpa using hvis
  have hal : (getR T i).id = i := by
    rcases hP.alive i with ⟨a, _⟩ | ⟨_, _, a⟩
    · rw [a, hid i hi]
    · rw [a] at hvis'; cases hvis'
  have hpi' : ProperRegion i := by rw [← hal]; exact skipId_false.1 (by simpa using hskip)
  rw [setIdx_ok hiT, bind_ok]
  have hidT : ∀ j < T.length, (getR T j).id = j ∨ (getR T j).id = 0 := by
    intro j hj
    rcases hP.alive j with ⟨a, _⟩ | ⟨a, _⟩
    · left; rw [a, hid j (by rw [← hP.len]; exact hj)]
    · exact Or.inr a
  refine Holds.bind (smallLoop_search (S := T) (root := i) hidT _ _ ⟨by simp, ?_, by simp, ?_, rfl⟩ ?_) ?_
  · intro j
    simp only
    rw [getR_set hiT]
    by_cases hj : j = i
    · subst hj; simp
    · simp [hj]
  · intro k hk
    have : k = i := by simpa using hk
    subst this
    exact ⟨hiT, hvis', hpi', Relation.ReflTransGen.refl⟩
  · simp [AtBorder]
  rintro st ⟨hS, hst, hb, hroot⟩
  have hitr : i ∈ st.trace := hroot i (by simp)
  have hget : ∀ j, getR st.regions j = if j ∈ st.trace then { getR T j with visited := true } else getR T j := by
    intro j; rw [hS.get, hst]; simp
  have hmem : ∀ k ∈ st.trace, k < T0.length ∧ (getR T k).visited = false ∧ ProperRegion k ∧ Relation.ReflTransGen (ConStep T0) i k := by
    intro k hk
    obtain ⟨a, b, c, d⟩ := hS.mem k (by simp [hk])
    refine ⟨by rw [← hP.len]; exact a, b, c, ?_⟩
    refine Relation.ReflTransGen.mono ?_ _ _ d
    intro u v huv
    unfold ConStep at huv ⊢
    rw [hP.con] at huv
    exact huv
  have halive : ∀ k, (getR T k).visited = false → (getR T k).id = (getR T0 k).id ∧ (getR T k).spanCount = (getR T0 k).spanCount := by
    intro k hk
    rcases hP.alive k with a | ⟨_, _, a⟩
    · exact a
    · rw [a] at hk; cases hk
  have hsize : groupSize T st.trace = groupSize T0 st.trace := by
    unfold groupSize
    congr 1
    apply List.map_congr_left
    intro k hk
    exact (halive k (hmem k hk).2.1).2
  have hbor : AtBorder T st.trace ↔ AtBorder T0 st.trace := by
    unfold AtBorder
    simp only [hP.con]
  have hnod : st.trace.Nodup := by
    have := hS.nodup; rw [hst] at this; simpa using this
  have hdone : ∀ (o : List Region), (∀ j, (getR T j).visited = true ∨ j ∈ st.trace → (getR o j).visited = true) →
      ∀ j < i + 1, ProperRegion (getR T0 j).id → (getR T0 j).spanCount ≠ 0 → (getR o j).visited = true := by
    intro o ho j hj hp hc
    by_cases h : j = i
    · subst h; exact ho j (Or.inr hitr)
    · exact ho j (Or.inl (hP.done j (by omega) hp hc))
  split
  · rename_i hmin
    refine Holds.mono killFold ?_
    rintro o ⟨o1, o2⟩
    have hgo : ∀ j, getR o j = if j ∈ st.trace then { getR T j with visited := true, spanCount := 0, id := 0 } else getR T j := by
      intro j; rw [o2, hget]
      by_cases h : j ∈ st.trace <;> simp [h]
    have hnb : ¬ AtBorder T0 st.trace := by
      rw [← hbor, ← hb]; simp [hmin.2]
    refine ⟨by rw [o1, hS.len, hP.len], ?_, ?_, ?_, ?_, ?_, ?_, ?_⟩
    · intro j; rw [hgo]; split <;> exact hP.con j
    · intro j; rw [hgo]; split <;> exact hP.floors j
    · intro j; rw [hgo]; split <;> exact hP.overlap j
    · intro j; rw [hgo]; split
      · exact Or.inr ⟨rfl, rfl, rfl⟩
      · exact hP.alive j
    · intro j h1 h2
      by_cases hj : j ∈ st.trace
      · refine ⟨st.trace, hnod, hj, ?_, ?_, hnb⟩
        · intro k hk
          exact ⟨(hmem k hk).1, (hmem k hk).2.2.1, by rw [hgo, if_pos hk]⟩
        · rw [← hsize, ← hS.count]; exact hmin.1
      · rw [hgo, if_neg hj] at h1
        obtain ⟨G, a, b, c, d, e⟩ := hP.killed j h1 h2
        refine ⟨G, a, b, ?_, d, e⟩
        intro k hk
        refine ⟨(c k hk).1, (c k hk).2.1, ?_⟩
        rw [hgo]; split
        · rfl
        · exact (c k hk).2.2
    · intro j h1 h2
      by_cases hj : j ∈ st.trace
      · rw [hgo, if_pos hj] at h2; exact absurd rfl h2
      · rw [hgo, if_neg hj] at h1 h2
        exact hP.good j h1 h2
    · refine hdone o ?_
      intro j hj
      rw [hgo]; split
      · rfl
      · rename_i h
        rcases hj with hj | hj
        · exact hj
        · exact absurd hj h
  · rename_i hmin
    refine Holds.ok ⟨by rw [hS.len, hP.len], ?_, ?_, ?_, ?_, ?_, ?_, ?_⟩
    · intro j; rw [hget]; split <;> exact hP.con j
    · intro j; rw [hget]; split <;> exact hP.floors j
    · intro j; rw [hget]; split <;> exact hP.overlap j
    · intro j; rw [hget]; split
      · rename_i hj
        exact Or.inl (halive j (hmem j hj).2.1)
      · exact hP.alive j
    · intro j h1 h2
      have hids : ∀ k, (getR st.regions k).id = (getR T k).id := by
        intro k; rw [hget]; split <;> rfl
      rw [hids] at h1
      obtain ⟨G, a, b, c, d, e⟩ := hP.killed j h1 h2
      exact ⟨G, a, b, fun k hk => ⟨(c k hk).1, (c k hk).2.1, by rw [hids]; exact (c k hk).2.2⟩, d, e⟩
    · intro j h1 h2
      by_cases hj : j ∈ st.trace
      · refine ⟨i, st.trace, hnod, hitr, hj, fun k hk => ⟨(hmem k hk).1, (hmem k hk).2.2⟩, ?_⟩
        rw [not_and_or, not_lt] at hmin
        rcases hmin with h | h
        · left; rw [← hsize, ← hS.count]; exact h
        · right; rw [← hbor, ← hb]; simpa using h
      · rw [hget, if_neg hj] at h1 h2
        exact hP.good j h1 h2
    · refine hdone _ ?_
      intro j hj
      rw [hget]; split
      · rfl
      · rename_i h
        rcases hj with hj | hj
        · exact hj
        · exact absurd hj h

end Rerecast
