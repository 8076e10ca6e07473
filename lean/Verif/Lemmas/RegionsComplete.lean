import Verif.Lemmas.RegionsExpand
/-! When a flood gives its seed no label, and why that cannot happen everywhere. -/
set_option linter.unusedVariables false
set_option linter.unusedSectionVars false
namespace Rerecast
namespace CompactHeightfield
variable {chf : CompactHeightfield}

/-- In direction `d` span `i` meets a labelled span of its area, next to it or around the corner. -/
def MeetsLabel (chf : CompactHeightfield) (reg : List Nat) (i d : Nat) : Prop :=
  ∃ a, chf.nbr i d = some a ∧ chf.areaAt a = chf.areaAt i ∧
    (reg.getD a 0 ≠ 0 ∨ ∃ c, chf.nbr a ((d + 1) % 4) = some c ∧ chf.areaAt c = chf.areaAt i ∧ reg.getD c 0 ≠ 0)

/-- A flood seeded at span `i` gives up: in some direction it meets a label, and up to this direction no neighbour of its area
is in the border. -/
def Refused (chf : CompactHeightfield) (b : Nat) (reg : List Nat) (i : Nat) : Prop :=
  ∃ d < 4, (∀ d' ≤ d, ∀ a, chf.nbr i d' = some a → chf.areaAt a = chf.areaAt i → ¬ chf.Strip b a) ∧ chf.MeetsLabel reg i d

theorem Refused.mono {b : Nat} {reg reg' : List Nat} {i : Nat} (h : ∀ k, reg.getD k 0 ≠ 0 → reg'.getD k 0 ≠ 0)
    (hr : chf.Refused b reg i) : chf.Refused b reg' i := by
  obtain ⟨d, hd, h1, a, ha, haa, h2⟩ := hr
  refine ⟨d, hd, h1, a, ha, haa, ?_⟩
  rcases h2 with h2 | ⟨c, hc, hca, h2⟩
  · exact Or.inl (h _ h2)
  · exact Or.inr ⟨c, hc, hca, h _ h2⟩

section
variable (hwf : chf.WellFormed)
include hwf

theorem areaAt_walkable {i a : Nat} (hi : i < chf.spans.length) (ha : a < chf.spans.length) (h : chf.areaAt a = chf.areaAt i)
    (hw : chf.WalkableAt i) : chf.WalkableAt a := by
  rw [walkableAt_iff hwf ha, h, ← walkableAt_iff hwf hi]; exact hw

/-- The neighbour check of a flood. -/
theorem floodCheck_holds {reg : List Nat} (hr : reg.length = chf.spans.length) {r i : Nat} (hi : i < chf.spans.length) :
    Holds ([0, 1, 2, 3].foldlM (chf.floodCheckDir reg (chf.areaAt i) r (chf.xOf i) (chf.zOf i) i) none) fun o =>
      o.getD REGION_NONE ≠ REGION_NONE → ∃ d < 4,
        (∀ d' ≤ d, ∀ a, chf.nbr i d' = some a → chf.areaAt a = chf.areaAt i → isBorderRegion (reg.getD a 0) = false) ∧
        ∃ a, chf.nbr i d = some a ∧ chf.areaAt a = chf.areaAt i ∧
          ((reg.getD a 0 ≠ 0 ∧ reg.getD a 0 ≠ r) ∨
            ∃ c, chf.nbr a ((d + 1) % 4) = some c ∧ chf.areaAt c = chf.areaAt i ∧ reg.getD c 0 ≠ 0 ∧ reg.getD c 0 ≠ r) := by
  let Meets (d : Nat) : Prop := ∃ a, chf.nbr i d = some a ∧ chf.areaAt a = chf.areaAt i ∧
          ((reg.getD a 0 ≠ 0 ∧ reg.getD a 0 ≠ r) ∨
            ∃ c, chf.nbr a ((d + 1) % 4) = some c ∧ chf.areaAt c = chf.areaAt i ∧ reg.getD c 0 ≠ 0 ∧ reg.getD c 0 ≠ r)
  let Clear (d : Nat) : Prop := ∀ a, chf.nbr i d = some a → chf.areaAt a = chf.areaAt i → isBorderRegion (reg.getD a 0) = false
  have main := (Out.foldlM (bad := False) (f := chf.floodCheckDir reg (chf.areaAt i) r (chf.xOf i) (chf.zOf i) i)
    (fun pre (s : Option Nat) => (s = none ∧ ∀ d < pre.length, Clear d) ∨ s = some 0 ∨
      ((∃ v, s = some v) ∧ ∃ d < 4, (∀ d' ≤ d, Clear d') ∧ Meets d)) [0, 1, 2, 3] none (Or.inl ⟨rfl, by simp⟩) ?_).holds
  · intro o ho hne
    rcases main o ho with ⟨h, _⟩ | h | ⟨_, d, hd, h1, h2⟩
    · subst h; exact absurd rfl hne
    · subst h; exact absurd rfl hne
    · exact ⟨d, hd, h1, h2⟩
  · intro pre d post s he hs
    have hd : d = pre.length ∧ d < 4 := by
      have e : [0, 1, 2, 3][pre.length]? = some d := by rw [he]; simp
      have hl : pre.length < 4 := by
        have := congrArg List.length he; simp at this; omega
      generalize pre.length = k at e hl
      rcases (by omega : k = 0 ∨ k = 1 ∨ k = 2 ∨ k = 3) with rfl | rfl | rfl | rfl <;> simp at e <;> omega
    obtain ⟨hdl, hd⟩ := hd
    rcases hs with ⟨rfl, hc⟩ | rfl | ⟨⟨v, rfl⟩, h⟩
    · unfold floodCheckDir
      simp only
      rw [conNeighbour_eq hwf hi hd, bind_ok]
      have hlen : (pre ++ [d]).length = d + 1 := by simp [hdl]
      have ext : Clear d → ∀ d' < (pre ++ [d]).length, Clear d' := by
        intro h d' hd'
        rw [hlen] at hd'
        rcases Nat.lt_or_eq_of_le (Nat.le_of_lt_succ hd') with h' | h'
        · exact hc d' (by omega)
        · subst h'; exact h
      cases hn : chf.nbr i d with
      | none => exact Out.ok (Or.inl ⟨rfl, ext (by intro a ha; rw [hn] at ha; cases ha)⟩)
      | some a =>
        have ha := nbr_dlt hwf hd hn
        simp only [Option.map_some]
        rw [idx_area hwf ha, bind_ok]
        split
        · rename_i hne
          exact Out.ok (Or.inl ⟨rfl, ext (by intro a' ha' h; rw [hn] at ha'; cases ha'; exact absurd h hne)⟩)
        · rename_i hA
          have hA' : chf.areaAt a = chf.areaAt i := by simpa using hA
          rw [idx_getD (by rw [hr]; exact ha), bind_ok]
          split
          · exact Out.ok (Or.inr (Or.inl rfl))
          · rename_i hb
            have hcl : Clear d := by intro a' ha' _; rw [hn] at ha'; cases ha'; simpa using hb
            have hall : ∀ d' ≤ d, Clear d' := fun d' hd' => ext hcl d' (by rw [hlen]; omega)
            split
            · rename_i h
              exact Out.ok (Or.inr (Or.inr ⟨⟨_, rfl⟩, d, hd, hall, a, hn, hA', Or.inl h⟩))
            · unfold floodDiagonal
              rw [conNeighbour_eq hwf ha (by omega), bind_ok]
              cases hn2 : chf.nbr a ((d + 1) % 4) with
              | none => exact Out.ok (Or.inl ⟨rfl, ext hcl⟩)
              | some c =>
                have hcl' := nbr_dlt hwf (by omega) hn2
                simp only [Option.map_some]
                rw [idx_area hwf hcl', bind_ok]
                split
                · exact Out.ok (Or.inl ⟨rfl, ext hcl⟩)
                · rename_i hC
                  rw [idx_getD (by rw [hr]; exact hcl'), bind_ok]
                  split
                  · rename_i h
                    exact Out.ok (Or.inr (Or.inr ⟨⟨_, rfl⟩, d, hd, hall, a, hn, hA', Or.inr ⟨c, hn2, by simpa using hC, h⟩⟩))
                  · exact Out.ok (Or.inl ⟨rfl, ext hcl⟩)
    · exact Out.ok (Or.inr (Or.inl rfl))
    · exact Out.ok (Or.inr (Or.inr ⟨⟨v, rfl⟩, h⟩))

omit hwf in
/-- The count of a flood never decreases. -/
theorem floodLoop_count {level area r : Nat} : ∀ (fuel count : Nat) (lab : Labels) (st : List LevelEntry),
    Holds (chf.floodLoop level area r fuel count lab st) fun o => count ≤ o.2 := by
  intro fuel
  induction fuel with
  | zero =>
    intro count lab st o ho
    cases st with
    | nil => unfold floodLoop at ho; cases ho; exact Nat.le_refl _
    | cons e st => unfold floodLoop at ho; cases ho
  | succ fuel ih =>
    intro count lab st o ho
    cases st with
    | nil => unfold floodLoop at ho; cases ho; exact Nat.le_refl _
    | cons e st =>
      unfold floodLoop at ho
      cases he : e.index with
      | none => rw [he] at ho; exact ih _ _ _ o ho
      | some ci =>
        rw [he] at ho
        obtain ⟨ar, h1, ho⟩ := bind_inv ho
        split at ho
        · obtain ⟨reg, h2, ho⟩ := bind_inv ho
          exact ih _ _ _ o ho
        · obtain ⟨⟨l2, s2⟩, h2, ho⟩ := bind_inv ho
          have := ih _ _ _ o ho
          omega

/-- If a flood leaves its seed without a label, it was refused at the seed. -/
theorem floodRegion_refused (hdl : chf.dist.length = chf.spans.length) {lab0 : Labels} (h0 : LabShape chf lab0) {b i level r : Nat}
    (hi : i < chf.spans.length) (hi0 : lab0.reg.getD i 0 = 0) (hr0 : r ≠ 0) (hw : chf.WalkableAt i)
    (hp : ∀ k < chf.spans.length, chf.WalkableAt k → chf.Strip b k → isBorderRegion (lab0.reg.getD k 0) = true) :
    Holds (chf.floodRegion (chf.xOf i) (chf.zOf i) i level r lab0) fun o => o.1.reg.getD i 0 = 0 → chf.Refused b lab0.reg i := by
  intro o ho hz
  obtain ⟨acc, hg, hf⟩ := (floodRegion_out hwf hdl (bad := False) h0 (level := level) hi hi0 hr0).holds o ho
  have hacc : acc = [] := by
    by_contra hne
    obtain ⟨j, hj⟩ := List.exists_mem_of_ne_nil acc hne
    have hs : i ∈ acc := by
      have := hf.reach j hj
      clear hg hz hj
      induction this with
      | refl h => exact h
      | step _ _ _ _ ih => exact ih
    have := hf.reg i
    rw [if_pos (by simp [hs]), hz] at this
    exact hr0 this.symm
  have hnot : o.2 = false := by
    cases h : o.2 with
    | false => rfl
    | true => exact absurd hacc (hg.1 h)
  -- the first step of the loop
  unfold floodRegion at ho
  rw [idx_area hwf hi, bind_ok, setIdx_ok (by rw [h0.reg_len]; exact hi), bind_ok, setIdx_ok (by rw [h0.dist_len]; exact hi), bind_ok] at ho
  obtain ⟨⟨lab, count⟩, hl, ho⟩ := bind_inv ho
  simp only at ho
  cases ho
  have hc0 : count = 0 := by simpa using hnot
  subst hc0
  unfold floodLoop at hl
  simp only at hl
  obtain ⟨ar, h1, hl⟩ := bind_inv hl
  have hlen : (lab0.reg.set i r).length = chf.spans.length := by simp [h0.reg_len]
  split at hl
  · rename_i hne
    obtain ⟨d, hd, hcl, a, ha, haa, h2⟩ := floodCheck_holds hwf hlen hi ar h1 hne
    have hget : ∀ k, (lab0.reg.set i r).getD k 0 = if k = i then r else lab0.reg.getD k 0 := fun k =>
      getD_set (by rw [h0.reg_len]; exact hi)
    have hlift : ∀ k, (lab0.reg.set i r).getD k 0 ≠ 0 → (lab0.reg.set i r).getD k 0 ≠ r → lab0.reg.getD k 0 ≠ 0 := by
      intro k hk1 hk2
      rw [hget] at hk1 hk2
      by_cases hki : k = i
      · rw [if_pos hki] at hk2; exact absurd rfl hk2
      · rw [if_neg hki] at hk1; exact hk1
    refine ⟨d, hd, ?_, a, ha, haa, ?_⟩
    · intro d' hd' a' ha' haa' hst
      have hal := nbr_dlt hwf (by omega) ha'
      have hb := hp a' hal (areaAt_walkable hwf hi hal haa' hw) hst
      have hne' : a' ≠ i := by
        intro e; rw [e, hi0] at hb; exact absurd hb (by decide)
      have := hcl d' hd' a' ha' haa'
      rw [hget, if_neg hne', hb] at this
      cases this
    · rcases h2 with ⟨h2, h3⟩ | ⟨c, hc, hca, h2, h3⟩
      · exact Or.inl (hlift a h2 h3)
      · exact Or.inr ⟨c, hc, hca, hlift c h2 h3⟩
  · obtain ⟨⟨l2, s2⟩, h2, hl⟩ := bind_inv hl
    have := floodLoop_count _ _ _ _ _ hl
    simp at this

/-- Not every span of a part of the field that nothing has reached can refuse to be a seed: the spans reached from `i` inside
their area and outside the border contain one with a label, or one whose flood is not refused. -/
theorem exists_label {b : Nat} {reg : List Nat} {i : Nat} (hi : i < chf.spans.length) (hw : chf.WalkableAt i) (hs : ¬ chf.Strip b i)
    (hsz : ∀ k < chf.spans.length, reg.getD k 0 = 0 → chf.WalkableAt k → chf.Refused b reg k) :
    ∃ c, chf.ReachedWithin (fun k => k < chf.spans.length ∧ chf.areaAt k = chf.areaAt i ∧ ¬ chf.Strip b k) i c ∧ reg.getD c 0 ≠ 0 := by
  by_contra hno
  push Not at hno
  -- the spans reached from `i`
  let C (k : Nat) : Prop := chf.ReachedWithin (fun k => k < chf.spans.length ∧ chf.areaAt k = chf.areaAt i ∧ ¬ chf.Strip b k) i k
  have hG : ∀ k, C k → k < chf.spans.length ∧ chf.areaAt k = chf.areaAt i ∧ ¬ chf.Strip b k := by
    intro k hk
    cases hk with
    | refl h => exact h
    | step _ h _ _ => exact h
  have hC : ∀ k, C k → ∀ d < 4, ∀ a, chf.nbr k d = some a → chf.areaAt a = chf.areaAt k → ¬ chf.Strip b a → C a := by
    intro k hk d hd a ha haa hst
    exact .step hk ⟨nbr_dlt hwf hd ha, by rw [haa, (hG k hk).2.1], hst⟩ hd ((nbr_iff_link hwf hd).1 ha)
  -- refused because of the border around the corner
  let Ref (k d : Nat) : Prop := (∀ d' ≤ d, ∀ a, chf.nbr k d' = some a → chf.areaAt a = chf.areaAt k → ¬ chf.Strip b a) ∧
    ∃ a, chf.nbr k d = some a ∧ C a ∧ ∃ c, chf.nbr a ((d + 1) % 4) = some c ∧ chf.areaAt c = chf.areaAt a ∧ chf.Strip b c
  have hall : ∀ k, C k → ∃ d < 4, Ref k d := by
    intro k hk
    obtain ⟨hkl, hka, _⟩ := hG k hk
    obtain ⟨d, hd, h1, a, ha, haa, h2⟩ := hsz k hkl (hno k hk) (areaAt_walkable hwf hi hkl hka hw)
    have hCa : C a := hC k hk d hd a ha haa (h1 d (Nat.le_refl _) a ha haa)
    refine ⟨d, hd, h1, a, ha, hCa, ?_⟩
    rcases h2 with h2 | ⟨c, hc, hca, h2⟩
    · exact absurd (hno a hCa) h2
    · refine ⟨c, hc, by rw [hca, haa], ?_⟩
      by_contra hst
      exact h2 (hno c (hC a hCa _ (by omega) c hc (by rw [hca, haa]) hst))
  -- the next span is refused in the same or an earlier direction
  have hnext : ∀ k d, d < 4 → Ref k d → ∃ a, chf.nbr k d = some a ∧ C a ∧ ∃ d' < (d + 1) % 4, Ref a d' := by
    rintro k d hd ⟨_, a, ha, hCa, c, hc, hca, hst⟩
    obtain ⟨d', hd', hr⟩ := hall a hCa
    refine ⟨a, ha, hCa, d', ?_, hr⟩
    by_contra hge
    exact hr.1 _ (Nat.le_of_not_lt hge) c hc hca hst
  -- coordinates of neighbours
  have hxz : ∀ k d a, d < 4 → chf.nbr k d = some a →
      neighbourCell chf.width chf.height (chf.xOf k) (chf.zOf k) d = some (chf.xOf a, chf.zOf a) := by
    intro k d a hd h
    obtain ⟨_, _, _, _, _, h, _⟩ := nbr_con hwf h hd
    exact h
  have h0 : ∀ m k, C k → chf.xOf k = m → ¬ Ref k 0 := by
    intro m
    induction m using Nat.strong_induction_on with
    | _ m ih =>
      intro k hk hm hr
      obtain ⟨a, ha, hCa, d', hd', hr'⟩ := hnext k 0 (by omega) hr
      have e := hxz k 0 a (by omega) ha
      simp only [neighbourCell] at e
      split at e
      · simp only [Option.some.injEq, Prod.mk.injEq] at e
        have : d' = 0 := by omega
        subst this
        exact ih (chf.xOf a) (by omega) a hCa rfl hr'
      · cases e
  have h1 : ∀ m k, C k → chf.height - chf.zOf k = m → ¬ Ref k 1 := by
    intro m
    induction m using Nat.strong_induction_on with
    | _ m ih =>
      intro k hk hm hr
      obtain ⟨a, ha, hCa, d', hd', hr'⟩ := hnext k 1 (by omega) hr
      have e := hxz k 1 a (by omega) ha
      simp only [neighbourCell] at e
      split at e
      · simp only [Option.some.injEq, Prod.mk.injEq] at e
        rcases (by omega : d' = 0 ∨ d' = 1) with rfl | rfl
        · exact h0 _ a hCa rfl hr'
        · exact ih (chf.height - chf.zOf a) (by omega) a hCa rfl hr'
      · cases e
  have h2 : ∀ m k, C k → chf.width - chf.xOf k = m → ¬ Ref k 2 := by
    intro m
    induction m using Nat.strong_induction_on with
    | _ m ih =>
      intro k hk hm hr
      obtain ⟨a, ha, hCa, d', hd', hr'⟩ := hnext k 2 (by omega) hr
      have e := hxz k 2 a (by omega) ha
      simp only [neighbourCell] at e
      split at e
      · simp only [Option.some.injEq, Prod.mk.injEq] at e
        rcases (by omega : d' = 0 ∨ d' = 1 ∨ d' = 2) with rfl | rfl | rfl
        · exact h0 _ a hCa rfl hr'
        · exact h1 _ a hCa rfl hr'
        · exact ih (chf.width - chf.xOf a) (by omega) a hCa rfl hr'
      · cases e
  have hCi : C i := .refl ⟨hi, rfl, hs⟩
  obtain ⟨d, hd, hr⟩ := hall i hCi
  rcases (by omega : d = 0 ∨ d = 1 ∨ d = 2 ∨ d = 3) with rfl | rfl | rfl | rfl
  · exact h0 _ i hCi rfl hr
  · exact h1 _ i hCi rfl hr
  · exact h2 _ i hCi rfl hr
  · obtain ⟨a, _, _, d', hd', _⟩ := hnext i 3 (by omega) hr
    omega

end
end CompactHeightfield
end Rerecast
