import Verif.Lemmas.RegionsBase
import Mathlib.Data.List.Perm.Subperm
/-! `flood_region`: what one flood does to the labels. -/
set_option linter.unusedVariables false
set_option linter.unusedSectionVars false
namespace Rerecast
namespace CompactHeightfield
variable {chf : CompactHeightfield}

theorem nodup_length_le {l : List Nat} {n : Nat} (h : l.Nodup) (hb : ∀ i ∈ l, i < n) : l.length ≤ n := by
  have := (h.subperm (l₂ := List.range n) fun i hi => List.mem_range.2 (hb i hi)).length_le
  simpa using this

/-- The stack entry of a span. -/
def entryOf (chf : CompactHeightfield) (i : Nat) : LevelEntry := ⟨chf.xOf i, chf.zOf i, some i⟩

/-- One label and one distance per span; spans without a region have distance 0. -/
structure LabShape (chf : CompactHeightfield) (lab : Labels) : Prop where
  reg_len : lab.reg.length = chf.spans.length
  dist_len : lab.dist.length = chf.spans.length
  zero : ∀ i < chf.spans.length, lab.reg.getD i 0 = 0 → lab.dist.getD i 0 = 0

/-- The state of a flood of region `r` from `seed`: `acc` are the spans kept so far, `st` the spans on the stack. -/
structure FloodInv (chf : CompactHeightfield) (lab0 : Labels) (r α seed level : Nat) (acc st : List Nat) (lab : Labels) : Prop where
  nodup : (acc ++ st).Nodup
  mem : ∀ i ∈ acc ++ st, i < chf.spans.length ∧ lab0.reg.getD i 0 = 0 ∧ chf.areaAt i = α
  len : lab.reg.length = chf.spans.length
  reg : ∀ i, lab.reg.getD i 0 = if i ∈ acc ++ st then r else lab0.reg.getD i 0
  dist : lab.dist = lab0.dist
  reach : ∀ i ∈ acc, chf.ReachedWithin (· ∈ acc) seed i
  parent : ∀ i ∈ st, i = seed ∨ ∃ p ∈ acc, ∃ d < 4, chf.Link p d i
  lvl : ∀ i ∈ acc ++ st, i = seed ∨ level ≤ chf.dist.getD i 0

section
variable (hwf : chf.WellFormed) (hdl : chf.dist.length = chf.spans.length)
include hwf hdl

theorem floodDiagonal_out {bad : Prop} {reg : List Nat} (hr : reg.length = chf.spans.length) {α r a d : Nat} (ha : a < chf.spans.length) :
    Out bad (chf.floodDiagonal reg α r (chf.xOf a) (chf.zOf a) a d) fun _ => True := by
  unfold floodDiagonal
  rw [conNeighbour_eq hwf ha (by omega), bind_ok]
  cases hn : chf.nbr a ((d + 1) % 4) with
  | none => exact Out.ok trivial
  | some b =>
    have hb := nbr_dlt hwf (by omega) hn
    simp only [Option.map_some]
    rw [idx_area hwf hb, bind_ok]
    split
    · exact Out.ok trivial
    · rw [idx_getD (by rw [hr]; exact hb), bind_ok]
      split <;> exact Out.ok trivial

theorem floodCheckDir_out {bad : Prop} {reg : List Nat} (hr : reg.length = chf.spans.length) {α r i d : Nat} (hi : i < chf.spans.length)
    (hd : d < 4) (st : Option Nat) :
    Out bad (chf.floodCheckDir reg α r (chf.xOf i) (chf.zOf i) i st d) fun _ => True := by
  unfold floodCheckDir
  cases st with
  | some ar => exact Out.ok trivial
  | none =>
    simp only
    rw [conNeighbour_eq hwf hi hd, bind_ok]
    cases hn : chf.nbr i d with
    | none => exact Out.ok trivial
    | some a =>
      have ha := nbr_dlt hwf hd hn
      simp only [Option.map_some]
      rw [idx_area hwf ha, bind_ok]
      split
      · exact Out.ok trivial
      · rw [idx_getD (by rw [hr]; exact ha), bind_ok]
        split
        · exact Out.ok trivial
        · split
          · exact Out.ok trivial
          · exact floodDiagonal_out hwf hdl hr ha

theorem floodExpandDir_out {bad : Prop} {lab0 lab : Labels} (h0 : LabShape chf lab0) {r α seed level i d : Nat}
    {acc st : List Nat} (hd : d < 4) (hi : i ∈ acc) (hinv : FloodInv chf lab0 r α seed level acc st lab) (hr0 : r ≠ 0) :
    Out bad (chf.floodExpandDir level α r (chf.xOf i) (chf.zOf i) i (lab, st.map chf.entryOf) d) fun o =>
      ∃ st', o.2 = st'.map chf.entryOf ∧ FloodInv chf lab0 r α seed level acc st' o.1 ∧ st'.length ≤ st.length + 1 := by
  have hil := (hinv.mem i (by simp [hi])).1
  unfold floodExpandDir
  rw [conNeighbour_eq hwf hil hd, bind_ok]
  cases hn : chf.nbr i d with
  | none => exact Out.ok ⟨st, rfl, hinv, by omega⟩
  | some a =>
    have ha := nbr_dlt hwf hd hn
    simp only [Option.map_some]
    rw [idx_area hwf ha, bind_ok]
    split
    · exact Out.ok ⟨st, rfl, hinv, by omega⟩
    · rename_i harea
      have harea' : chf.areaAt a = α := by simpa using harea
      rw [idx_getD (by rw [hdl]; exact ha), bind_ok, idx_getD (by rw [hinv.len]; exact ha), bind_ok]
      by_cases hc : chf.dist.getD a 0 ≥ level ∧ lab.reg.getD a 0 = REGION_NONE
      · rw [if_pos hc]
        have hdist : lab.dist.length = chf.spans.length := by rw [hinv.dist]; exact h0.dist_len
        rw [setIdx_ok (by rw [hinv.len]; exact ha), bind_ok, setIdx_ok (by rw [hdist]; exact ha), bind_ok]
        have hna : a ∉ acc ++ st := by
          intro hm
          have := hinv.reg a
          rw [if_pos hm, hc.2] at this
          exact hr0 this.symm
        have hreg0 : lab0.reg.getD a 0 = 0 := by
          have := hinv.reg a
          rw [if_neg hna, hc.2] at this
          exact this.symm
        refine Out.ok ⟨a :: st, rfl, ⟨?_, ?_, ?_, ?_, ?_, hinv.reach, ?_, ?_⟩, by simp⟩
        · have : (a :: (acc ++ st)).Nodup := List.nodup_cons.2 ⟨hna, hinv.nodup⟩
          exact (List.perm_middle.nodup_iff).2 this
        · intro j hj
          rcases List.mem_append.1 hj with hj | hj
          · exact hinv.mem j (by simp [hj])
          · rcases List.mem_cons.1 hj with e | hj
            · subst e; exact ⟨ha, hreg0, harea'⟩
            · exact hinv.mem j (by simp [hj])
        · simp [hinv.len]
        · intro j
          simp only
          rw [getD_set (by rw [hinv.len]; exact ha), hinv.reg j]
          by_cases hja : j = a
          · subst hja; simp
          · simp [hja]
        · simp only
          refine (list_ext_getD ?_ ?_).trans hinv.dist
          · simp
          · intro j hj
            rw [getD_set (by rw [hdist]; exact ha)]
            split
            · rename_i e; subst e; rw [hinv.dist]; exact (h0.zero j ha hreg0).symm
            · rfl
        · intro j hj
          rcases List.mem_cons.1 hj with e | hj
          · subst e; exact Or.inr ⟨i, hi, d, hd, (nbr_iff_link hwf hd).1 hn⟩
          · exact hinv.parent j hj
        · intro j hj
          rcases List.mem_append.1 hj with hj | hj
          · exact hinv.lvl j (by simp [hj])
          · rcases List.mem_cons.1 hj with e | hj
            · subst e; exact Or.inr hc.1
            · exact hinv.lvl j (by simp [hj])
      · rw [if_neg hc]
        exact Out.ok ⟨st, rfl, hinv, by omega⟩

theorem floodLoop_out {bad : Prop} {lab0 : Labels} (h0 : LabShape chf lab0) {r α seed level : Nat} (hr0 : r ≠ 0) :
    ∀ (fuel : Nat) (acc st : List Nat) (lab : Labels), FloodInv chf lab0 r α seed level acc st lab →
      st.length + 4 * (chf.spans.length - acc.length) ≤ fuel →
      Out bad (chf.floodLoop level α r fuel acc.length lab (st.map chf.entryOf)) fun o =>
        ∃ acc', o.2 = acc'.length ∧ FloodInv chf lab0 r α seed level acc' [] o.1 := by
  intro fuel
  induction fuel with
  | zero =>
    intro acc st lab hinv hf
    have : st = [] := List.length_eq_zero_iff.1 (by omega)
    subst this
    exact Out.ok ⟨acc, rfl, hinv⟩
  | succ fuel ih =>
    intro acc st lab hinv hf
    cases st with
    | nil => exact Out.ok ⟨acc, rfl, hinv⟩
    | cons ci st =>
      simp only [List.map_cons, floodLoop, entryOf]
      have hci := hinv.mem ci (by simp)
      refine Out.bind (dirs_out (fun _ => True) none trivial fun d hd s _ =>
        floodCheckDir_out hwf hdl hinv.len hci.1 hd s) fun ar _ => ?_
      have hnd := hinv.nodup
      have hnd' : (ci :: (acc ++ st)).Nodup := (List.perm_middle.nodup_iff).1 hnd
      obtain ⟨hcin, hnd2⟩ := List.nodup_cons.1 hnd'
      have hlen : acc.length + st.length + 1 ≤ chf.spans.length := by
        have := nodup_length_le hnd' (n := chf.spans.length) (fun i hi => (hinv.mem i (by
          rcases List.mem_cons.1 hi with e | hi
          · simp [e]
          · rcases List.mem_append.1 hi with hi | hi <;> simp [hi])).1)
        simp at this; omega
      split
      · -- rejected
        rw [setIdx_ok (by rw [hinv.len]; exact hci.1), bind_ok]
        refine ih acc st _ ⟨hnd2, ?_, ?_, ?_, hinv.dist, hinv.reach, ?_, ?_⟩ (by simp at hf; omega)
        · intro j hj
          refine hinv.mem j ?_
          rcases List.mem_append.1 hj with hj | hj <;> simp [hj]
        · simp [hinv.len]
        · intro j
          simp only
          rw [getD_set (by rw [hinv.len]; exact hci.1), hinv.reg j]
          by_cases hj : j = ci
          · subst hj
            rw [if_pos rfl, if_neg hcin]; exact hci.2.1.symm
          · rw [if_neg hj]; simp [hj]
        · intro j hj; exact hinv.parent j (by simp [hj])
        · intro j hj
          refine hinv.lvl j ?_
          rcases List.mem_append.1 hj with hj | hj <;> simp [hj]
      · -- accepted
        have hinv' : FloodInv chf lab0 r α seed level (ci :: acc) st lab := by
          have hreach : ∀ i ∈ acc, chf.ReachedWithin (· ∈ ci :: acc) seed i := fun i hi =>
            (hinv.reach i hi).mono fun a ha => List.mem_cons_of_mem _ ha
          refine ⟨by simpa using hnd', ?_, hinv.len, ?_, hinv.dist, ?_, ?_, ?_⟩
          · intro j hj
            refine hinv.mem j ?_
            simp at hj ⊢; rcases hj with h | h | h <;> simp [h]
          · intro j
            rw [hinv.reg j]
            congr 1
            simp only [List.mem_append, List.mem_cons, List.cons_append]
            apply propext; constructor <;> (intro h; rcases h with h | h | h <;> simp [h])
          · intro j hj
            rcases List.mem_cons.1 hj with e | hj
            · subst e
              rcases hinv.parent j (by simp) with e | ⟨p, hp, d, hd, hl⟩
              · subst e; exact .refl (by simp)
              · exact .step (hreach p hp) (by simp) hd hl
            · exact hreach j hj
          · intro j hj
            rcases hinv.parent j (by simp [hj]) with e | ⟨p, hp, h⟩
            · exact Or.inl e
            · exact Or.inr ⟨p, by simp [hp], h⟩
          · intro j hj
            refine hinv.lvl j ?_
            simp at hj ⊢; rcases hj with h | h | h <;> simp [h]
        refine Out.bind (Out.foldlM (fun pre (o : Labels × List LevelEntry) => ∃ st', o.2 = st'.map chf.entryOf ∧
          FloodInv chf lab0 r α seed level (ci :: acc) st' o.1 ∧ st'.length ≤ st.length + pre.length) [0, 1, 2, 3] (lab, st.map chf.entryOf)
          ⟨st, rfl, hinv', by simp⟩ ?_) ?_
        · rintro pre d post ⟨l1, s1⟩ he ⟨st', e1, hi', hl⟩
          simp only at e1; subst e1
          have hd : d < 4 := by
            have : d ∈ [0, 1, 2, 3] := by rw [he]; simp
            simp at this; omega
          refine Out.mono (floodExpandDir_out hwf hdl h0 hd (by simp) hi' hr0) ?_
          rintro ⟨l2, s2⟩ ⟨st'', e2, hi'', hl'⟩
          exact ⟨st'', e2, hi'', by simp; omega⟩
        · rintro ⟨l1, s1⟩ ⟨st', e1, hi', hl⟩
          simp only at e1; subst e1
          simp only
          have := ih (ci :: acc) st' l1 hi' (by simp at hl hf ⊢; omega)
          simpa using this

/-- What `flood_region` does: the spans of `acc`, which had no region, get the new one; every one of them is reached from
the seed inside `acc`. -/
theorem floodRegion_out {bad : Prop} {lab0 : Labels} (h0 : LabShape chf lab0) {i level r : Nat} (hi : i < chf.spans.length)
    (hi0 : lab0.reg.getD i 0 = 0) (hr0 : r ≠ 0) :
    Out bad (chf.floodRegion (chf.xOf i) (chf.zOf i) i level r lab0) fun o =>
      ∃ acc, (o.2 = true ↔ acc ≠ []) ∧ FloodInv chf lab0 r (chf.areaAt i) i (level - 2) acc [] o.1 := by
  unfold floodRegion
  rw [idx_area hwf hi, bind_ok, setIdx_ok (by rw [h0.reg_len]; exact hi), bind_ok, setIdx_ok (by rw [h0.dist_len]; exact hi), bind_ok]
  have hinv : FloodInv chf lab0 r (chf.areaAt i) i (level - 2) [] [i] ⟨lab0.reg.set i r, lab0.dist.set i 0⟩ := by
    refine ⟨by simp, ?_, by simp [h0.reg_len], ?_, ?_, by simp, by simp, by simp⟩
    · intro j hj; simp at hj; subst hj; exact ⟨hi, hi0, rfl⟩
    · intro j
      simp only
      rw [getD_set (by rw [h0.reg_len]; exact hi)]
      simp
    · refine list_ext_getD (by simp) ?_
      intro j hj
      simp only
      rw [getD_set (by rw [h0.dist_len]; exact hi)]
      split
      · rename_i e; subst e; exact (h0.zero j hi hi0).symm
      · rfl
  refine Out.bind (floodLoop_out hwf hdl h0 hr0 (4 * chf.spans.length + 1) [] [i] _ hinv (by simp; omega)) ?_
  rintro ⟨lab, count⟩ ⟨acc, e, hf⟩
  refine Out.ok ⟨acc, ?_, hf⟩
  simp only at e
  simp [e, List.length_pos_iff]

end
end CompactHeightfield
end Rerecast
