import Verif.Lemmas.RegionsSteps
import Mathlib.Logic.Relation
/-! The merge loop ends where nothing can be merged; the tables on the way are coarser and coarser; floors and overlaps come from spans. -/
set_option linter.unusedVariables false
set_option linter.unusedSectionVars false
namespace Rerecast
namespace CompactHeightfield
variable {chf : CompactHeightfield}

/-- One merge between two tables that have the invariants. -/
def MRel (chf : CompactHeightfield) (reg : List Nat) (nreg size : Nat) (T0 T T' : List Region) : Prop :=
  TabInv chf reg nreg T ∧ (JoinInv chf reg nreg T0 T ∧ MergeInv chf reg nreg size T0 T) ∧ ∃ i n, MStep size nreg T T' i n

theorem mergeLoop_steps (hwf : chf.WellFormed) {reg : List Nat} {nreg size : Nat}
    (hb : ∀ i < chf.spans.length, reg.getD i 0 < nreg ∨ isBorderRegion (reg.getD i 0) = true) (hlen : reg.length = chf.spans.length)
    {T0 : List Region} : ∀ (fuel : Nat) (T : List Region), TabInv chf reg nreg T → MergeInv chf reg nreg size T0 T → JoinInv chf reg nreg T0 T →
      Holds (mergeLoop size fuel T) fun o => JoinInv chf reg nreg T0 o ∧ Relation.ReflTransGen (MRel chf reg nreg size T0) T o ∧ ∀ i < nreg, Idle size o i
  | 0, T, _, _, _ => Holds.error
  | fuel + 1, T, hT, hM, hJ => by
    unfold mergeLoop
    refine Holds.bind (foldlM_holds (fun pre (o : List Region × Bool) => TabInv chf reg nreg o.1 ∧ ZeroIds nreg T o.1 ∧
      MergeInv chf reg nreg size T0 o.1 ∧ JoinInv chf reg nreg T0 o.1 ∧ Relation.ReflTransGen (MRel chf reg nreg size T0) T o.1 ∧
      (o.2 = false → o.1 = T ∧ ∀ i ∈ pre, Idle size T i)) _ _ ⟨hT, fun j _ => Iff.rfl, hM, hJ, Relation.ReflTransGen.refl, fun _ => ⟨rfl, by simp⟩⟩ ?_) ?_
    · rintro pre i post ⟨S, fl⟩ he ⟨h1, h2, h3, h4, h5, h6⟩
      simp only at h1 h2 h3 h4 h5 h6
      have hi' : i < nreg := by
        have : i ∈ List.range T.length := by rw [he]; simp
        rw [← hT.len]; exact List.mem_range.1 this
      have e := (mergeStep_out (bad := False) (R := roots S + 1) hwf hb hlen (size := size) hi' (S, fl) h1 h2 ⟨by simp, fun _ => by simp⟩).holds
      refine ((e.and (mergeStep_more hb hi' (S, fl) h1 h3)).and (mergeStep_join hi' h1 h3 h4.self)).mono ?_
      rintro o ⟨⟨⟨a, b, _⟩, c⟩, d⟩
      rcases d with ⟨rfl, d⟩ | ⟨d1, n, d2⟩
      · refine ⟨h1, h2, h3, h4, h5, fun hf => ?_⟩
        obtain ⟨q1, q2⟩ := h6 hf
        refine ⟨q1, fun k hk => ?_⟩
        rcases List.mem_append.1 hk with hk | hk
        · exact q2 k hk
        · rw [List.mem_singleton.1 hk, ← q1]; exact d
      · exact ⟨a, b, c, h4.step hb h1 d2, h5.tail ⟨h1, ⟨h4, h3⟩, i, n, d2⟩, fun h => by rw [d1] at h; cases h⟩
    · rintro ⟨T', fl⟩ ⟨h1, _, h3, h4, h5, h6⟩
      simp only at h1 h3 h4 h5 h6 ⊢
      split
      · exact (mergeLoop_steps hwf hb hlen fuel T' h1 h3 h4).mono fun o ⟨a, b, c⟩ => ⟨a, h5.trans b, c⟩
      · rename_i hf
        obtain ⟨rfl, q⟩ := h6 (by simpa using hf)
        exact Holds.ok ⟨h4, h5, fun i hi => q i (by rw [hT.len]; exact List.mem_range.2 hi)⟩

/-- A later table is coarser, and what counts as a region stays one. -/
theorem chain_coarser {reg : List Nat} {nreg size : Nat} {T0 T T2 : List Region} (h : Relation.ReflTransGen (MRel chf reg nreg size T0) T T2) :
    (∀ a < nreg, ∀ b < nreg, (getR T a).id = (getR T b).id → (getR T2 a).id = (getR T2 b).id) ∧
      ∀ a < nreg, ProperRegion (getR T2 a).id → ProperRegion (getR T a).id := by
  induction h using Relation.ReflTransGen.head_induction_on with
  | refl => exact ⟨fun _ _ _ _ h => h, fun _ _ h => h⟩
  | head h _ ih =>
    obtain ⟨hT, _, i, n, hm⟩ := h
    refine ⟨fun a ha b hb e => ih.1 a ha b hb (by rw [mstep_id hT.len hm ha, mstep_id hT.len hm hb, e]), fun a ha hp => ?_⟩
    have := ih.2 a ha hp
    rw [mstep_id hT.len hm ha] at this
    unfold rename at this
    split at this
    · rename_i e; rw [e]; exact hm.proper
    · exact this

/-- Two regions that end up together were put together by one of the merges. -/
theorem chain_split {reg : List Nat} {nreg size : Nat} {T0 T T2 : List Region} (h : Relation.ReflTransGen (MRel chf reg nreg size T0) T T2) {x y : Nat}
    (hne : (getR T x).id ≠ (getR T y).id) (he : (getR T2 x).id = (getR T2 y).id) : ∃ S S', TabInv chf reg nreg S ∧ (JoinInv chf reg nreg T0 S ∧ MergeInv chf reg nreg size T0 S) ∧
      (∃ i n, MStep size nreg S S' i n) ∧ Relation.ReflTransGen (MRel chf reg nreg size T0) S T2 ∧ (getR S x).id ≠ (getR S y).id ∧
      (getR S' x).id = (getR S' y).id := by
  induction h using Relation.ReflTransGen.head_induction_on with
  | refl => exact absurd he hne
  | @head S S' h h' ih =>
    by_cases e : (getR S' x).id = (getR S' y).id
    · exact ⟨S, S', h.1, h.2.1, h.2.2, h'.head h, hne, e⟩
    · exact ih e

/-- If exactly the regions `X` and `Y` end up together, then one of them was merged into the other while both were still alone. -/
theorem chain_pair {reg : List Nat} {nreg size : Nat} {T0 T T2 : List Region} (h : Relation.ReflTransGen (MRel chf reg nreg size T0) T T2) {X Y : Nat}
    (hX : X < nreg) (hY : Y < nreg) (hne : (getR T X).id ≠ (getR T Y).id) (he : (getR T2 X).id = (getR T2 Y).id)
    (hex : ∀ k < nreg, (getR T2 k).id = (getR T2 X).id → k = X ∨ k = Y) :
    ∃ x y S S', ((x = X ∧ y = Y) ∨ (x = Y ∧ y = X)) ∧ TabInv chf reg nreg S ∧ (JoinInv chf reg nreg T0 S ∧ MergeInv chf reg nreg size T0 S) ∧ MStep size nreg S S' x y ∧ Alone nreg S x ∧
      Alone nreg S y ∧ Relation.ReflTransGen (MRel chf reg nreg size T0) S T2 := by
  obtain ⟨S, S', hT, hJ, ⟨i, n, hm⟩, hch, h1, h2⟩ := chain_split h hne he
  obtain ⟨hco, _⟩ := chain_coarser hch
  rw [mstep_id hT.len hm hX, mstep_id hT.len hm hY] at h2
  -- one is the region merged, the other the one it was merged into
  have key : ∀ x y, x < nreg → y < nreg → ((x = X ∧ y = Y) ∨ (x = Y ∧ y = X)) → (getR S x).id = i → (getR S y).id = n → x = i ∧ y = n ∧ Alone nreg S x ∧ Alone nreg S y := by
    intro x y hx hy hxy e1 e2
    have hex' : ∀ k < nreg, ((getR S k).id = (getR S x).id ∨ (getR S k).id = (getR S y).id) → k = x ∨ k = y := by
      intro k hk hkk
      have : (getR T2 k).id = (getR T2 X).id := by
        have e3 : (getR T2 x).id = (getR T2 X).id := by
          rcases hxy with ⟨rfl, _⟩ | ⟨rfl, _⟩
          · rfl
          · exact he.symm
        have e4 : (getR T2 y).id = (getR T2 X).id := by
          rcases hxy with ⟨_, rfl⟩ | ⟨_, rfl⟩
          · exact he.symm
          · rfl
        rcases hkk with hkk | hkk
        · rw [hco k hk x hx hkk, e3]
        · rw [hco k hk y hy hkk, e4]
      rcases hex k hk this with rfl | rfl
      · rcases hxy with ⟨rfl, rfl⟩ | ⟨rfl, rfl⟩
        · exact Or.inl rfl
        · exact Or.inr rfl
      · rcases hxy with ⟨rfl, rfl⟩ | ⟨rfl, rfl⟩
        · exact Or.inr rfl
        · exact Or.inl rfl
    have hi' : i = x := by
      rcases hex' i hm.hi (Or.inl (by rw [hm.root, e1])) with h | h
      · exact h
      · rw [← h, hm.root] at e2; exact absurd e2.symm hm.ne
    have hn' : n = y := by
      rcases hex' n hm.hnew (Or.inr (by rw [hm.newroot, e2])) with h | h
      · rw [← h, hm.newroot] at e1; exact absurd e1 hm.ne
      · exact h
    refine ⟨hi'.symm, hn'.symm, ⟨by rw [e1, hi'], fun k hk e => ?_⟩, ⟨by rw [e2, hn'], fun k hk e => ?_⟩⟩
    · rcases hex' k hk (Or.inl (by rw [e, e1, hi'])) with h | h
      · exact h
      · rw [h, e2, hn', ← hi', ← hn'] at e; exact absurd e hm.ne
    · rcases hex' k hk (Or.inr (by rw [e, e2, hn'])) with h | h
      · rw [h, e1, ← hn'] at e; exact absurd e.symm hm.ne
      · exact h
  have hcase : ((getR S X).id = i ∧ (getR S Y).id = n) ∨ ((getR S Y).id = i ∧ (getR S X).id = n) := by
    unfold rename at h2
    split at h2
    · rename_i e1
      split at h2
      · rename_i e2; exact absurd (e1.trans e2.symm) h1
      · exact Or.inl ⟨e1, h2.symm⟩
    · split at h2
      · rename_i e2; exact Or.inr ⟨e2, h2⟩
      · exact absurd h2 h1
  rcases hcase with ⟨e1, e2⟩ | ⟨e1, e2⟩
  · obtain ⟨rfl, rfl, a, b⟩ := key X Y hX hY (Or.inl ⟨rfl, rfl⟩) e1 e2
    exact ⟨X, Y, S, S', Or.inl ⟨rfl, rfl⟩, hT, hJ, hm, a, b, hch⟩
  · obtain ⟨rfl, rfl, a, b⟩ := key Y X hY hX (Or.inr ⟨rfl, rfl⟩) e1 e2
    exact ⟨Y, X, S, S', Or.inr ⟨rfl, rfl⟩, hT, hJ, hm, a, b, hch⟩

/-! ### floors and overlaps come from spans in the same column -/

theorem floorFold_from {reg : List Nat} {nreg r i : Nat} (l : List Nat) (hl : ∀ k ∈ l, k < reg.length) (rg : Region) :
    Holds (l.foldlM (floorStep reg nreg r i) rg) fun o => (∀ f ∈ o.floors, f ∈ rg.floors ∨ ∃ k ∈ l, k ≠ i ∧ reg.getD k 0 = f) ∧
      (o.overlap = true → rg.overlap = true ∨ ∃ k ∈ l, k ≠ i ∧ reg.getD k 0 = r) := by
  refine foldlM_holds_inv (fun o : Region => (∀ f ∈ o.floors, f ∈ rg.floors ∨ ∃ k ∈ l, k ≠ i ∧ reg.getD k 0 = f) ∧
      (o.overlap = true → rg.overlap = true ∨ ∃ k ∈ l, k ≠ i ∧ reg.getD k 0 = r)) l rg ⟨fun f h => Or.inl h, Or.inl⟩ ?_
  rintro k hk o ⟨h1, h2⟩
  unfold floorStep
  split
  · exact Holds.ok ⟨h1, h2⟩
  · rename_i hne
    rw [idx_getD (hl k hk), bind_ok]
    split
    · exact Holds.ok ⟨h1, h2⟩
    · refine Holds.ok ⟨?_, ?_⟩
      · intro f hf
        rw [addUniqueFloor_mem] at hf
        rcases hf with hf | rfl
        · refine h1 f ?_
          split at hf <;> exact hf
        · exact Or.inr ⟨k, hk, fun e => hne e.symm, rfl⟩
      · rw [(addUniqueFloor_keep _ _).1]
        split
        · rename_i e; exact fun _ => Or.inr ⟨k, hk, fun e => hne e.symm, e⟩
        · exact h2

theorem collectRegions_from (hwf : chf.WellFormed) {reg : List Nat} (hr : reg.length = chf.spans.length) {nreg : Nat} :
    Holds (chf.collectRegions reg nreg) fun T => ∀ j < nreg,
      (∀ f ∈ (getR T j).floors, ∃ a < chf.spans.length, ∃ b < chf.spans.length, a ≠ b ∧ chf.colOf a = chf.colOf b ∧ reg.getD a 0 = j ∧ reg.getD b 0 = f) ∧
      ((getR T j).overlap = true → ∃ a < chf.spans.length, ∃ b < chf.spans.length, a ≠ b ∧ chf.colOf a = chf.colOf b ∧ reg.getD a 0 = j ∧ reg.getD b 0 = j) := by
  unfold collectRegions
  rw [forSpans_eq hwf]
  refine Holds.mono (foldlM_holds_inv (fun T : List Region => T.length = nreg ∧ ∀ j < nreg,
      (∀ f ∈ (getR T j).floors, ∃ a < chf.spans.length, ∃ b < chf.spans.length, a ≠ b ∧ chf.colOf a = chf.colOf b ∧ reg.getD a 0 = j ∧ reg.getD b 0 = f) ∧
      ((getR T j).overlap = true → ∃ a < chf.spans.length, ∃ b < chf.spans.length, a ≠ b ∧ chf.colOf a = chf.colOf b ∧ reg.getD a 0 = j ∧ reg.getD b 0 = j))
    (List.range chf.spans.length) _ ?_ ?_) fun T h => h.2
  · have hg : ∀ j < nreg, getR ((List.range nreg).map Region.new) j = Region.new j := by
      intro j hj; simp [getR, List.getD_eq_getElem?_getD, hj]
    refine ⟨by simp, fun j hj => ?_⟩
    rw [hg j hj]
    exact ⟨fun f hf => (by cases hf), fun h => (by cases h)⟩
  · rintro i hi T ⟨hl, hT⟩
    have hi := List.mem_range.1 hi
    unfold collectSpan
    rw [idx_getD (by rw [hr]; exact hi), bind_ok]
    by_cases hskip : reg.getD i 0 = REGION_NONE ∨ reg.getD i 0 ≥ nreg
    · rw [if_pos hskip]
      exact Holds.ok ⟨hl, hT⟩
    · rw [if_neg hskip]
      rw [not_or] at hskip
      have hlt : reg.getD i 0 < nreg := by omega
      have hTl : reg.getD i 0 < T.length := by rw [hl]; exact hlt
      rw [idx_getR hTl, bind_ok]
      obtain ⟨hcl, cell, hcell, hmem⟩ := col_spec hwf hi
      obtain ⟨hx, hz, hxz⟩ := xz_spec hwf hi
      have hcellAt : chf.cellAt (chf.xOf i) (chf.zOf i) = .ok cell := by
        simp only [cellAt, columnIndex]; rw [hxz, idx_some hcell]
      rw [hcellAt, bind_ok]
      refine Holds.bind (floorFold_from cell.indexRange (fun k hk => by rw [hr]; exact mem_cell_lt hwf hcell hk) _) ?_
      rintro rg ⟨g1, g2⟩
      simp only at g1 g2
      refine Holds.bind findOutline_keep ?_
      rintro o ⟨_, _, o3, o4⟩
      rw [setIdx_ok hTl]
      have hcol : ∀ k ∈ cell.indexRange, k < chf.spans.length ∧ chf.colOf k = chf.colOf i := fun k hk =>
        ⟨mem_cell_lt hwf hcell hk, col_unique hwf hcell hk⟩
      refine Holds.ok ⟨by simpa using hl, fun j hj => ?_⟩
      rw [getR_set hTl]
      split
      · rename_i e
        rw [o3, o4]
        refine ⟨fun f hf => ?_, fun h => ?_⟩
        · rcases g1 f hf with h | ⟨k, hk, hki, e'⟩
          · obtain ⟨a, b⟩ := hT _ hlt
            rw [e]; exact a f h
          · exact ⟨i, hi, k, (hcol k hk).1, Ne.symm hki, (hcol k hk).2.symm, e.symm, e'⟩
        · rcases g2 h with h | ⟨k, hk, hki, e'⟩
          · rw [e]; exact (hT _ hlt).2 h
          · exact ⟨i, hi, k, (hcol k hk).1, Ne.symm hki, (hcol k hk).2.symm, e.symm, by rw [e', e]⟩
      · exact hT j hj

end CompactHeightfield
end Rerecast
