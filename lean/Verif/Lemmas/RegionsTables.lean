import Verif.Lemmas.RegionsStack
/-! The tables behind a result of `build_regions`. -/
set_option linter.unusedVariables false
namespace Rerecast
namespace CompactHeightfield
variable {chf : CompactHeightfield}

/-- The tables behind a result: after collecting (`T0`), after removing small groups (`T1`), after merging (`T2`); `f` are the
final labels. -/
structure Tables (chf : CompactHeightfield) (b min size : Nat) (reg : List Nat) (next : Nat) (f : List Nat) (T0 T1 T2 : List Region) : Prop where
  labelled : Labelled chf b (reg, next)
  reglen : reg.length = chf.spans.length
  bound : ∀ i < chf.spans.length, reg.getD i 0 < next + 1 ∨ isBorderRegion (reg.getD i 0) = true
  unif : chf.Uniform (fun i => reg.getD i 0)
  conn : chf.Connected (fun i => reg.getD i 0)
  collected : Collected chf reg (next + 1) T0
  collect : chf.collectRegions reg (next + 1) = .ok T0
  counted : Counted chf reg (next + 1) T0
  pruned : Pruned min T0 T0.length T1
  tab1 : TabInv chf reg (next + 1) T1
  merge1 : MergeInv chf reg (next + 1) size T0 T1
  loop : mergeLoop size (next + 1 + 1) T1 = .ok T2
  tab : TabInv chf reg (next + 1) T2
  merge : MergeInv chf reg (next + 1) size T0 T2
  zero : ZeroIds (next + 1) T1 T2
  final : ∀ i < chf.spans.length, ∀ j < chf.spans.length, ProperRegion (f.getD i 0) → f.getD i 0 = f.getD j 0 →
    label reg T2 i = label reg T2 j ∧ ProperRegion (label reg T2 i)
  joined : ∀ i < chf.spans.length, ∀ j < chf.spans.length, ProperRegion (label reg T2 i) → label reg T2 i = label reg T2 j →
    ProperRegion (f.getD i 0) ∧ f.getD i 0 = f.getD j 0
  none : ∀ i < chf.spans.length, ProperRegion (reg.getD i 0) → (f.getD i 0 = 0 ↔ (getR T1 (reg.getD i 0)).id = 0)
  unlabelled : ∀ i < chf.spans.length, reg.getD i 0 = 0 → f.getD i 0 = 0
  border : ∀ i < chf.spans.length, isBorderRegion (reg.getD i 0) = true → f.getD i 0 = reg.getD i 0

theorem buildRegions_tables (hwf : chf.WellFormed) (hdl : chf.dist.length = chf.spans.length) (hm : chf.maxDistance ≤ 65535) (b min size : Nat)
    {out : CompactHeightfield} (hok : chf.buildRegions b min size = .ok out) :
    ∃ reg next f T0 T1 T2, chf.labelRegions b = .ok (reg, next) ∧ Tables chf b min size reg next f T0 T1 T2 ∧
      ∀ i r, out.RegionOf i r ↔ i < chf.spans.length ∧ f.getD i 0 = r := by
  unfold buildRegions at hok
  rcases labelRegions_out hwf hdl b hm with ⟨⟨reg, next⟩, e, hL⟩ | ⟨_, er, e, _⟩
  swap
  · rw [e] at hok; cases hok
  rw [e, bind_ok] at hok
  simp only at hok
  cases hmf : chf.mergeAndFilter min size reg next with
  | error er => rw [hmf] at hok; cases hok
  | ok r =>
  obtain ⟨f, maxR, ov⟩ := r
  have hB := (mergeAndFilter_out hwf (min := min) (size := size) hL).holds _ hmf
  simp only at hB
  rw [hmf, bind_ok] at hok
  simp only at hok
  cases hok
  have hL' := hL
  obtain ⟨⟨lab, hle, hl⟩, hnext, hused, hstuck⟩ := hL
  simp only at hle hl hnext hused hstuck
  subst hle
  have hb : ∀ i < chf.spans.length, lab.reg.getD i 0 < next + 1 ∨ isBorderRegion (lab.reg.getD i 0) = true := by
    intro i hi
    rcases hl.bound i hi with h | h
    · left; omega
    · exact Or.inr h.1
  unfold mergeAndFilter addU16 at hmf
  by_cases hov : next + 1 ≤ 65535
  swap
  · rw [if_neg hov] at hmf; cases hmf
  rw [if_pos hov, bind_ok] at hmf
  obtain ⟨T0, hT0, h0⟩ := (collectRegions_out (bad := False) hwf hl.shape.reg_len hb (by omega) hl.unif).total (by simp)
  have hC := collectRegions_counted hwf hl.shape.reg_len T0 hT0
  rw [hT0, bind_ok] at hmf
  obtain ⟨T1, hT1, h1⟩ := (removeSmall_out (bad := False) (min := min) (by intro j hj; rw [h0.len] at hj ⊢; rw [h0.id j hj]; exact hj)
      (by intro j hj c hc; rw [h0.len] at hj ⊢; exact (h0.con j hj c hc).1)).total (by simp)
  have hP := removeSmall_pruned (min := min) (by intro j hj; rw [h0.len] at hj; exact h0.id j hj)
    (by intro j hj; rw [h0.len] at hj; exact hC.fresh j hj) T1 hT1
  rw [hT1, bind_ok] at hmf
  have ht1 := tabInv_small (by omega) h0 h1 hl.unif hl.conn hb
  obtain ⟨T2, hT2, ht2, hz⟩ := (mergeLoop_out (bad := False) (size := size) hwf hb hl.shape.reg_len (next + 1 + 1) T1 ht1 (T0 := T1) (fun j _ => Iff.rfl)
      (by have := roots_le T1; rw [ht1.len] at this; omega)).total (by simp)
  have hM1 := mergeInv_small (size := size) h0.len h0.id hC hP hb
  have hM := mergeLoop_more hwf hb hl.shape.reg_len _ T1 ht1 hM1 T2 hT2
  rw [hT2, bind_ok] at hmf
  obtain ⟨⟨T3, g⟩, hT3, A, hA⟩ := (compressIds_out (bad := False) ht2.id0 (by intro j hj; rw [ht2.len] at hj ⊢; exact ht2.idlt j hj)
      (by intro j hj; rw [ht2.len] at hj; exact ht2.root j hj) (by rw [ht2.len]; omega)).total (by simp)
  rw [hT3, bind_ok] at hmf
  simp only at hmf
  have hlen2 := ht2.len
  rw [hlen2] at hA
  have hlen3 : T3.length = next + 1 := by rw [← hlen2]; exact hA.len
  have hid3 : ∀ j < next + 1, (getR T3 j).id = newId A (getR T2 j).id := fun j hj => hA.id j (by rw [hlen2]; exact hj)
  obtain ⟨f', hf', hf⟩ := (Out.mapM (bad := False) (f := fun r => if isBorderRegion r then Except.ok r else do
      let g ← idx T3 r
      .ok g.id) (R := fun r f => (isBorderRegion r = true → f = r) ∧ (isBorderRegion r = false → f = (getR T3 r).id)) lab.reg (by
    intro r hr
    split
    · rename_i h; exact Out.ok ⟨fun _ => rfl, fun h' => by rw [h] at h'; cases h'⟩
    · rename_i h
      have hrl : r < T3.length := by
        obtain ⟨k, hk, e⟩ := List.mem_iff_getElem.1 hr
        have hk' : k < chf.spans.length := by rw [← hl.shape.reg_len]; exact hk
        have e' : lab.reg.getD k 0 = r := by simp [List.getD_eq_getElem?_getD, hk, e]
        rw [hlen3]
        rcases hb k hk' with h' | h'
        · rw [e'] at h'; exact h'
        · rw [e'] at h'; exact absurd h' h
      rw [idx_getR hrl, bind_ok]
      exact Out.ok ⟨fun h' => absurd h' h, fun _ => rfl⟩)).total (by simp)
  rw [hf', bind_ok] at hmf
  cases hmf
  have hflen : f.length = chf.spans.length := hB.len
  have hval : ∀ i < chf.spans.length, (isBorderRegion (lab.reg.getD i 0) = true → f.getD i 0 = lab.reg.getD i 0) ∧
      (isBorderRegion (lab.reg.getD i 0) = false → f.getD i 0 = (getR T3 (lab.reg.getD i 0)).id) := by
    intro i hi
    have h1' : i < lab.reg.length := by rw [hl.shape.reg_len]; exact hi
    have h2' : i < f.length := by rw [hflen]; exact hi
    have := hf.get (i := i) h1' h2'
    simpa [List.getD_eq_getElem?_getD, h1', h2'] using this
  have hpA : ∀ j < next + 1, ProperRegion (getR T2 j).id → (getR T2 j).id ∈ A := fun j hj hp => hA.done j hj (by rw [hlen2]; exact hj) hp
  have hAfew : A.length < 0x8000 := hA.few' (by rw [hlen2]; have := hused.next_le; omega)
  have hf2 : ∀ i < chf.spans.length, f.getD i 0 = newId A (label lab.reg T2 i) := by
    intro i hi
    obtain ⟨v1, v2⟩ := hval i hi
    unfold label
    by_cases hbi : isBorderRegion (lab.reg.getD i 0) = true
    · rw [if_pos hbi, v1 hbi, newId, if_neg]
      intro hm; rw [(hA.proper _ hm).2] at hbi; cases hbi
    · rw [if_neg hbi, v2 (by simpa using hbi)]
      rcases hb i hi with h | h
      · exact hid3 _ h
      · exact absurd h hbi
  have hlabT : ∀ i < chf.spans.length, ProperRegion (label lab.reg T2 i) → label lab.reg T2 i ∈ A := by
    intro i hi hp
    unfold label at hp ⊢
    by_cases hbi : isBorderRegion (lab.reg.getD i 0) = true
    · rw [if_pos hbi] at hp; rw [hp.2] at hbi; cases hbi
    · rw [if_neg hbi] at hp ⊢
      rcases hb i hi with h | h
      · exact hpA _ h hp
      · exact absurd h hbi
  have hnew : ∀ x ∈ A, newId A x = A.idxOf x + 1 := by
    intro x hx; rw [newId, if_pos hx]
  have hback : ∀ i < chf.spans.length, ProperRegion (f.getD i 0) → label lab.reg T2 i ∈ A := by
    intro i hi hp
    by_contra hna
    rw [hf2 i hi, newId, if_neg hna] at hp
    exact hna (hlabT i hi hp)
  refine ⟨lab.reg, next, f, T0, T1, T2, e, ⟨hL', hl.shape.reg_len, hb, hl.unif, hl.conn, h0, hT0, hC, hP, ht1, hM1, hT2, ht2, hM, hz, ?_, ?_, ?_, ?_, fun i hi => (hval i hi).1⟩, ?_⟩
  · intro i hi j hj hp e
    have h1 := hback i hi hp
    have h2 := hback j hj (e ▸ hp)
    refine ⟨?_, hA.proper _ h1⟩
    rw [hf2 i hi, hf2 j hj, hnew _ h1, hnew _ h2] at e
    exact (List.idxOf_inj h1).1 (by omega)
  · intro i hi j hj hp e
    have h1 := hlabT i hi hp
    refine ⟨?_, by rw [hf2 i hi, hf2 j hj, e]⟩
    rw [hf2 i hi, hnew _ h1]
    have := List.idxOf_lt_length_of_mem h1
    exact ⟨Nat.succ_ne_zero _, by unfold isBorderRegion; exact Nat.testBit_lt_two_pow (by omega)⟩
  · intro i hi hp
    have hlt : lab.reg.getD i 0 < next + 1 := by
      rcases hb i hi with h | h
      · exact h
      · rw [hp.2] at h; cases h
    rw [(hval i hi).2 hp.2, hid3 _ hlt, ← hz _ hlt]
    constructor
    · intro h
      by_cases hm : (getR T2 (lab.reg.getD i 0)).id ∈ A
      · rw [hnew _ hm] at h; omega
      · rw [newId, if_neg hm] at h; exact h
    · intro h
      rw [h, newId, if_neg]
      intro h0'; exact (hA.proper _ h0').1 rfl
  · intro i hi h0'
    rw [(hval i hi).2 (by rw [h0']; decide), h0', hid3 0 (by omega), ht2.id0, newId, if_neg]
    intro h; exact (hA.proper _ h).1 rfl
  · intro i r
    unfold RegionOf
    simp only [List.getElem?_zipWith]
    constructor
    · rintro ⟨s, hs, rfl⟩
      cases h1 : chf.spans[i]? with
      | none => rw [h1] at hs; simp at hs
      | some t =>
        cases h2 : f[i]? with
        | none => rw [h1, h2] at hs; simp at hs
        | some v =>
          rw [h1, h2] at hs
          simp only [Option.some.injEq] at hs
          subst hs
          exact ⟨(List.getElem?_eq_some_iff.1 h1).1, by simp [List.getD_eq_getElem?_getD, h2]⟩
    · rintro ⟨hi, rfl⟩
      have hif : i < f.length := by rw [hflen]; exact hi
      refine ⟨{ chf.spans[i] with region := f[i] }, ?_, ?_⟩
      · simp [hi, hif]
      · simp [List.getD_eq_getElem?_getD, hif]

end CompactHeightfield
end Rerecast
