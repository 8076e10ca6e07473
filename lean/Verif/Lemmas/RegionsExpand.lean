import Verif.Lemmas.RegionsFlood
import Mathlib.Data.Finset.Card
import Mathlib.Data.Finset.Range
import Mathlib.Algebra.Group.Nat.Even
/-! `expand_regions`. -/
set_option linter.unusedVariables false
set_option linter.unusedSectionVars false
namespace Rerecast
namespace CompactHeightfield
variable {chf : CompactHeightfield}

/-- Span `i` lies in one of the outer `b` rows or columns. -/
def Strip (chf : CompactHeightfield) (b i : Nat) : Prop :=
  chf.xOf i < b ∨ chf.zOf i < b ∨ chf.width ≤ chf.xOf i + b ∨ chf.height ≤ chf.zOf i + b

/-- `r` is the id of a side of the grid at which span `i` lies in the outer `b` rows or columns. -/
def SideStrip (chf : CompactHeightfield) (b i r : Nat) : Prop :=
  (r = 0x8001 ∧ chf.xOf i < b) ∨ (r = 0x8002 ∧ chf.width ≤ chf.xOf i + b) ∨ (r = 0x8003 ∧ chf.zOf i < b) ∨ (r = 0x8004 ∧ chf.height ≤ chf.zOf i + b)

theorem SideStrip.border {b i r : Nat} (h : chf.SideStrip b i r) : isBorderRegion r = true := by
  rcases h with ⟨rfl, _⟩ | ⟨rfl, _⟩ | ⟨rfl, _⟩ | ⟨rfl, _⟩ <;> decide

/-- Number of spans with a positive distance. -/
def posCount (chf : CompactHeightfield) (dist : List Nat) : Nat :=
  ((Finset.range chf.spans.length).filter fun i => 0 < dist.getD i 0).card

theorem posCount_le (dist : List Nat) : chf.posCount dist ≤ chf.spans.length := by
  unfold posCount
  exact (Finset.card_filter_le _ _).trans (by simp)

/-- The invariant of the labelling phase; `next` is the next region id, `b` the border size. -/
structure LabInv (chf : CompactHeightfield) (b next : Nat) (lab : Labels) : Prop where
  shape : LabShape chf lab
  next0 : next ≠ 0
  walk : ∀ i < chf.spans.length, lab.reg.getD i 0 ≠ 0 → chf.WalkableAt i
  bound : ∀ i < chf.spans.length, lab.reg.getD i 0 < next ∨ (isBorderRegion (lab.reg.getD i 0) = true ∧ lab.reg.getD i 0 < 65536)
  unif : chf.Uniform (fun i => lab.reg.getD i 0)
  conn : chf.Connected (fun i => lab.reg.getD i 0)
  strip : next ≤ 0x8000 → ∀ i < chf.spans.length, isBorderRegion (lab.reg.getD i 0) = true ↔ chf.WalkableAt i ∧ chf.Strip b i
  sided : ∀ i < chf.spans.length, chf.WalkableAt i → chf.Strip b i → chf.SideStrip b i (lab.reg.getD i 0)
  distb : ∀ i < chf.spans.length, lab.dist.getD i 0 ≤ 2 * chf.posCount lab.dist
  even : ∀ i < chf.spans.length, lab.dist.getD i 0 % 2 = 0

theorem LabInv.painted {b next : Nat} {lab : Labels} (h : LabInv chf b next lab) (i : Nat) (hi : i < chf.spans.length) (hw : chf.WalkableAt i)
    (hs : chf.Strip b i) : isBorderRegion (lab.reg.getD i 0) = true := (h.sided i hi hw hs).border

/-- The entries of a stack are walkable spans with their coordinates. -/
def EntriesOk (chf : CompactHeightfield) (stack : List LevelEntry) : Prop :=
  ∀ e ∈ stack, ∀ i, e.index = some i → i < chf.spans.length ∧ e.x = chf.xOf i ∧ e.z = chf.zOf i ∧ chf.WalkableAt i

/-- ... and have no region yet. -/
def EntriesFree (reg : List Nat) (stack : List LevelEntry) : Prop :=
  ∀ e ∈ stack, ∀ i, e.index = some i → reg.getD i 0 = 0

/-- Span `i` has a neighbour of its own area with a proper region. -/
def Touches (chf : CompactHeightfield) (reg : List Nat) (i j : Nat) : Prop :=
  ∃ d < 4, chf.nbr i d = some j ∧ chf.areaAt j = chf.areaAt i ∧ ProperRegion (reg.getD j 0)

section
variable (hwf : chf.WellFormed)
include hwf

theorem expandDir_out {b next : Nat} {lab : Labels} (hl : LabInv chf b next lab) {i d : Nat} (hi : i < chf.spans.length) (hd : d < 4)
    (st : Nat × Nat) (hst : (st.1 = 0 ∧ st.2 = 65535) ∨ ∃ j, chf.Touches lab.reg i j ∧ st = (lab.reg.getD j 0, lab.dist.getD j 0 + 2)) :
    Out (32766 < chf.spans.length) (chf.expandDir lab (chf.xOf i) (chf.zOf i) i (chf.areaAt i) st d) fun o =>
      ((o.1 = 0 ∧ o.2 = 65535 ∧ st.1 = 0 ∧ ∀ j, chf.nbr i d = some j → chf.areaAt j = chf.areaAt i → ¬ ProperRegion (lab.reg.getD j 0)) ∨
        ∃ j, chf.Touches lab.reg i j ∧ o = (lab.reg.getD j 0, lab.dist.getD j 0 + 2)) := by
  unfold expandDir
  rw [conNeighbour_eq hwf hi hd, bind_ok]
  cases hn : chf.nbr i d with
  | none =>
    refine Out.ok ?_
    rcases hst with ⟨h1, h2⟩ | h
    · exact Or.inl ⟨h1, h2, h1, by simp⟩
    · exact Or.inr h
  | some a =>
    have ha := nbr_dlt hwf hd hn
    simp only [Option.map_some]
    rw [idx_area hwf ha, bind_ok]
    by_cases hA : chf.areaAt a ≠ chf.areaAt i
    · rw [if_pos hA]
      refine Out.ok ?_
      rcases hst with ⟨h1, h2⟩ | h
      · refine Or.inl ⟨h1, h2, h1, ?_⟩
        intro j hj; cases hj; intro h; exact absurd h hA
      · exact Or.inr h
    · rw [if_neg hA, idx_getD (by rw [hl.shape.reg_len]; exact ha), bind_ok, idx_getD (by rw [hl.shape.dist_len]; exact ha), bind_ok]
      have hA' : chf.areaAt a = chf.areaAt i := by simpa using hA
      have hb := hl.distb a ha
      have hc := posCount_le (chf := chf) lab.dist
      have he := hl.even a ha
      unfold addU16
      by_cases hov : lab.dist.getD a 0 + 2 ≤ 65535
      · rw [if_pos hov, bind_ok]
        by_cases hp : lab.reg.getD a 0 ≠ REGION_NONE ∧ isBorderRegion (lab.reg.getD a 0) = false ∧ lab.dist.getD a 0 + 2 < st.2
        · rw [if_pos hp]
          exact Out.ok (Or.inr ⟨a, ⟨d, hd, hn, hA', hp.1, hp.2.1⟩, rfl⟩)
        · rw [if_neg hp]
          refine Out.ok ?_
          rcases hst with ⟨h1, h2⟩ | h
          · refine Or.inl ⟨h1, h2, h1, ?_⟩
            intro j hj; cases hj; intro _ hpr
            exact hp ⟨hpr.1, hpr.2, by rw [h2]; omega⟩
          · exact Or.inr h
      · rw [if_neg hov]
        exact Or.inr ⟨by omega, .panic, rfl, by simp⟩

/-- What one pass does with one entry. -/
def PassRel (chf : CompactHeightfield) (lab : Labels) (e : LevelEntry) (o : LevelEntry × Option (Nat × Nat × Nat)) : Prop :=
  (e.index = none ∧ o = (e, none)) ∨
  (∃ i, e.index = some i ∧ o = (e, none) ∧ ∀ j, ¬ chf.Touches lab.reg i j) ∨
  (∃ i j, e.index = some i ∧ chf.Touches lab.reg i j ∧ o = ({ e with index := none }, some (i, lab.reg.getD j 0, lab.dist.getD j 0 + 2)))

theorem expandEntry_out {b next : Nat} {lab : Labels} (hl : LabInv chf b next lab) {e : LevelEntry} (hok : EntriesOk chf [e])
    (hfree : EntriesFree lab.reg [e]) :
    Out (32766 < chf.spans.length) (chf.expandEntry lab e) (PassRel chf lab e) := by
  obtain ⟨x, z, index⟩ := e
  unfold expandEntry
  cases index with
  | none => exact Out.ok (Or.inl ⟨rfl, rfl⟩)
  | some i =>
    obtain ⟨hi, hx, hz, hw⟩ := hok ⟨x, z, some i⟩ (List.mem_singleton.2 rfl) i rfl
    have hf := hfree ⟨x, z, some i⟩ (List.mem_singleton.2 rfl) i rfl
    simp only at hx hz
    subst hx hz
    simp only
    rw [idx_getD (by rw [hl.shape.reg_len]; exact hi), bind_ok, idx_area hwf hi, bind_ok, hf]
    refine Out.bind (Out.foldlM (fun pre (o : Nat × Nat) =>
      (o.1 = 0 ∧ o.2 = 65535 ∧ ∀ d ∈ pre, ∀ j, chf.nbr i d = some j → chf.areaAt j = chf.areaAt i → ¬ ProperRegion (lab.reg.getD j 0)) ∨
        ∃ j, chf.Touches lab.reg i j ∧ o = (lab.reg.getD j 0, lab.dist.getD j 0 + 2)) [0, 1, 2, 3] (0, 65535) (Or.inl ⟨rfl, rfl, by simp⟩) ?_) ?_
    · intro pre d post s he hs
      have hd : d < 4 := by
        have : d ∈ [0, 1, 2, 3] := by rw [he]; simp
        simp at this; omega
      refine Out.mono (expandDir_out hwf hl hi hd s ?_) ?_
      · rcases hs with ⟨h1, h2, _⟩ | h
        · exact Or.inl ⟨h1, h2⟩
        · exact Or.inr h
      · rintro o (⟨h1, h2, h0, h3⟩ | h)
        · refine Or.inl ⟨h1, h2, ?_⟩
          rcases hs with ⟨_, _, h4⟩ | ⟨j, ⟨_, _, _, _, hpr⟩, e⟩
          · intro d' hd'
            rcases List.mem_append.1 hd' with hd' | hd'
            · exact h4 d' hd'
            · simp at hd'; subst hd'; exact h3
          · exfalso; rw [e] at h0; exact hpr.1 h0
        · exact Or.inr h
    · rintro ⟨r, d2⟩ hs
      rcases hs with ⟨h1, h2, h3⟩ | ⟨j, ht, e⟩
      · simp only at h1 h2; subst h1
        rw [if_neg (by simp [REGION_NONE])]
        refine Out.ok (Or.inr (Or.inl ⟨i, rfl, rfl, ?_⟩))
        rintro j ⟨d, hd, hn, ha, hp⟩
        exact h3 d (by simp; omega) j hn ha hp
      · have hpr : ProperRegion (lab.reg.getD j 0) := by obtain ⟨_, _, _, _, h⟩ := ht; exact h
        simp only [Prod.mk.injEq] at e
        obtain ⟨e1, e2⟩ := e
        subst e1 e2
        rw [if_pos hpr.1]
        exact Out.ok (Or.inr (Or.inr ⟨i, j, rfl, ht, rfl⟩))

omit hwf in
theorem applyDirty_out {bad : Prop} {n : Nat} (D : List (Nat × Nat × Nat)) (hD : ∀ p ∈ D, p.1 < n) (lab : Labels)
    (h1 : lab.reg.length = n) (h2 : lab.dist.length = n) :
    Out bad (D.foldlM applyDirty lab) fun l => l.reg.length = n ∧ l.dist.length = n ∧ ∀ k,
      ((∀ p ∈ D, p.1 ≠ k) ∧ l.reg.getD k 0 = lab.reg.getD k 0 ∧ l.dist.getD k 0 = lab.dist.getD k 0) ∨
        ∃ p ∈ D, p.1 = k ∧ l.reg.getD k 0 = p.2.1 ∧ l.dist.getD k 0 = p.2.2 := by
  refine Out.foldlM (fun pre (l : Labels) => l.reg.length = n ∧ l.dist.length = n ∧ ∀ k,
      ((∀ p ∈ pre, p.1 ≠ k) ∧ l.reg.getD k 0 = lab.reg.getD k 0 ∧ l.dist.getD k 0 = lab.dist.getD k 0) ∨
        ∃ p ∈ pre, p.1 = k ∧ l.reg.getD k 0 = p.2.1 ∧ l.dist.getD k 0 = p.2.2) D lab ⟨h1, h2, fun k => Or.inl ⟨by simp, rfl, rfl⟩⟩ ?_
  rintro pre ⟨i, r, d⟩ post l he ⟨hl1, hl2, hk⟩
  have hi : i < n := hD (i, r, d) (by rw [he]; simp)
  unfold applyDirty
  simp only
  rw [setIdx_ok (by rw [hl1]; exact hi), bind_ok, setIdx_ok (by rw [hl2]; exact hi), bind_ok]
  refine Out.ok ⟨by simpa using hl1, by simpa using hl2, fun k => ?_⟩
  simp only
  rw [getD_set (by rw [hl1]; exact hi), getD_set (by rw [hl2]; exact hi)]
  by_cases hki : k = i
  · subst hki
    exact Or.inr ⟨(k, r, d), by simp, rfl, by simp, by simp⟩
  · rw [if_neg hki, if_neg hki]
    rcases hk k with ⟨a1, a2, a3⟩ | ⟨p, hp, b1, b2, b3⟩
    · refine Or.inl ⟨?_, a2, a3⟩
      intro p hp
      rcases List.mem_append.1 hp with hp | hp
      · exact a1 p hp
      · simp at hp; subst hp; exact fun h => hki h.symm
    · exact Or.inr ⟨p, by simp [hp], b1, b2, b3⟩

/-- The labels after one pass. -/
theorem LabInv.pass {b next : Nat} {lab lab' : Labels} (hl : LabInv chf b next lab) {D : List (Nat × Nat × Nat)}
    (hD : ∀ p ∈ D, p.1 < chf.spans.length ∧ lab.reg.getD p.1 0 = 0 ∧ chf.WalkableAt p.1 ∧
      ∃ j, chf.Touches lab.reg p.1 j ∧ p.2 = (lab.reg.getD j 0, lab.dist.getD j 0 + 2))
    (h1 : lab'.reg.length = chf.spans.length) (h2 : lab'.dist.length = chf.spans.length)
    (hk : ∀ k, ((∀ p ∈ D, p.1 ≠ k) ∧ lab'.reg.getD k 0 = lab.reg.getD k 0 ∧ lab'.dist.getD k 0 = lab.dist.getD k 0) ∨
        ∃ p ∈ D, p.1 = k ∧ lab'.reg.getD k 0 = p.2.1 ∧ lab'.dist.getD k 0 = p.2.2) :
    LabInv chf b next lab' ∧ chf.Extends (fun i => lab.reg.getD i 0) (fun i => lab'.reg.getD i 0) := by
  -- what happens to a dirty span
  have dirty : ∀ p ∈ D, p.1 < chf.spans.length ∧ lab.reg.getD p.1 0 = 0 ∧ chf.WalkableAt p.1 ∧ ∃ j d, d < 4 ∧
      chf.nbr p.1 d = some j ∧ j < chf.spans.length ∧ chf.areaAt j = chf.areaAt p.1 ∧ ProperRegion (lab.reg.getD j 0) ∧
        p.2.1 = lab.reg.getD j 0 ∧ p.2.2 = lab.dist.getD j 0 + 2 := by
    intro p hp
    obtain ⟨a1, a2, a3, j, ⟨d, hd, hn, ha, hpr⟩, e⟩ := hD p hp
    exact ⟨a1, a2, a3, j, d, hd, hn, nbr_dlt hwf hd hn, ha, hpr, by rw [e], by rw [e]⟩
  have hext : chf.Extends (fun i => lab.reg.getD i 0) (fun i => lab'.reg.getD i 0) := by
    intro i hi
    rcases hk i with ⟨_, e, _⟩ | ⟨p, hp, e1, e2, _⟩
    · exact Or.inl e
    · obtain ⟨_, a2, _, j, d, hd, hn, hj, ha, hpr, e3, _⟩ := dirty p hp
      subst e1
      exact Or.inr ⟨a2, j, d, hd, hn, hj, ha, hpr, by simp only; rw [e2, e3]⟩
  have hout : ∀ i, chf.spans.length ≤ i → lab.reg.getD i 0 = 0 := fun i hi => getD_of_ge (by rw [hl.shape.reg_len]; exact hi)
  have hmono : ∀ i, 0 < lab.dist.getD i 0 → 0 < lab'.dist.getD i 0 := by
    intro i hi
    rcases hk i with ⟨_, _, e⟩ | ⟨p, hp, e1, _, e3⟩
    · omega
    · obtain ⟨_, _, _, j, d, _, _, _, _, _, _, e4⟩ := dirty p hp
      omega
  have hsub : chf.posCount lab.dist ≤ chf.posCount lab'.dist := by
    unfold posCount
    refine Finset.card_le_card fun i hi => ?_
    simp only [Finset.mem_filter] at hi ⊢
    exact ⟨hi.1, hmono i hi.2⟩
  have hcnt : ∀ p ∈ D, chf.posCount lab.dist + 1 ≤ chf.posCount lab'.dist := by
    intro p hp
    obtain ⟨a1, a2, _, j, d, _, _, _, _, _, _, e4⟩ := dirty p hp
    unfold posCount
    refine Finset.card_lt_card (Finset.ssubset_iff_of_subset (fun i hi => ?_) |>.2 ⟨p.1, ?_, ?_⟩)
    · simp only [Finset.mem_filter] at hi ⊢
      exact ⟨hi.1, hmono i hi.2⟩
    · simp only [Finset.mem_filter, Finset.mem_range]
      refine ⟨a1, ?_⟩
      rcases hk p.1 with ⟨h, _⟩ | ⟨q, hq, e1, _, e3⟩
      · exact absurd rfl (h p hp)
      · obtain ⟨_, _, _, j', d', _, _, _, _, _, _, e5⟩ := dirty q hq
        omega
    · simp only [Finset.mem_filter]
      intro h
      have := hl.shape.zero p.1 a1 a2
      omega
  refine ⟨⟨⟨h1, h2, ?_⟩, hl.next0, ?_, ?_, hext.uniform hl.unif, hext.connected hwf hl.conn hout, ?_, ?_, ?_, ?_⟩, hext⟩
  · intro i hi h0
    rcases hk i with ⟨_, e, e'⟩ | ⟨p, hp, e1, e2, _⟩
    · rw [e']; exact hl.shape.zero i hi (by rw [← e]; exact h0)
    · obtain ⟨_, _, _, j, d, _, _, _, _, hpr, e3, _⟩ := dirty p hp
      rw [e2, e3] at h0; exact absurd h0 hpr.1
  · intro i hi h0
    rcases hk i with ⟨_, e, _⟩ | ⟨p, hp, e1, e2, _⟩
    · exact hl.walk i hi (by rw [← e]; exact h0)
    · subst e1; exact (dirty p hp).2.2.1
  · intro i hi
    rcases hk i with ⟨_, e, _⟩ | ⟨p, hp, e1, e2, _⟩
    · rw [e]; exact hl.bound i hi
    · obtain ⟨_, _, _, j, d, _, _, hj, _, hpr, e3, _⟩ := dirty p hp
      rw [e2, e3]; exact hl.bound j hj
  · intro hn i hi
    rw [← hl.strip hn i hi]
    rcases hk i with ⟨_, e, _⟩ | ⟨p, hp, e1, e2, _⟩
    · rw [e]
    · obtain ⟨_, a2, _, j, d, _, _, hj, _, hpr, e3, _⟩ := dirty p hp
      subst e1
      rw [e2, e3, a2, hpr.2]
      decide
  · intro i hi hw hs
    have h := hl.painted i hi hw hs
    have : lab.reg.getD i 0 ≠ 0 := by intro h0; rw [h0] at h; exact absurd h (by decide)
    have e := hext.keep hi this
    rw [e]; exact hl.sided i hi hw hs
  · intro i hi
    rcases hk i with ⟨_, _, e⟩ | ⟨p, hp, e1, _, e3⟩
    · rw [e]; have := hl.distb i hi; omega
    · obtain ⟨_, _, _, j, d, _, _, hj, _, _, _, e4⟩ := dirty p hp
      have := hl.distb j hj
      have := hcnt p hp
      rw [e3, e4]; omega
  · intro i hi
    rcases hk i with ⟨_, _, e⟩ | ⟨p, hp, e1, _, e3⟩
    · rw [e]; exact hl.even i hi
    · obtain ⟨_, _, _, j, d, _, _, hj, _, _, _, e4⟩ := dirty p hp
      have := hl.even j hj
      rw [e3, e4]; omega

/-- What the passes of `expand_regions` achieve. -/
structure Expanded (chf : CompactHeightfield) (b next level : Nat) (lab : Labels) (stack : List LevelEntry) (o : Labels × List LevelEntry) : Prop where
  inv : LabInv chf b next o.1
  keep : ∀ i < chf.spans.length, lab.reg.getD i 0 ≠ 0 → o.1.reg.getD i 0 = lab.reg.getD i 0
  ok : EntriesOk chf o.2
  free : EntriesFree o.1.reg o.2
  len : o.2.length = stack.length
  covered : ∀ e ∈ stack, ∀ i, e.index = some i → o.1.reg.getD i 0 ≠ 0 ∨ ∃ e' ∈ o.2, e'.index = some i
  stuck : level = 0 → ∀ e ∈ o.2, ∀ i, e.index = some i → ∀ j, ¬ chf.Touches o.1.reg i j
  none : (∀ k, ¬ ProperRegion (lab.reg.getD k 0)) → ∀ k, ¬ ProperRegion (o.1.reg.getD k 0)

theorem expandLoop_out {b next maxIter level : Nat} : ∀ (fuel iter : Nat) (lab : Labels) (stack : List LevelEntry), LabInv chf b next lab →
    EntriesOk chf stack → EntriesFree lab.reg stack → (stack.filter (·.index.isSome)).length < fuel →
    Out (32766 < chf.spans.length) (chf.expandLoop maxIter level fuel iter lab stack) (Expanded chf b next level lab stack) := by
  intro fuel
  induction fuel with
  | zero => intro _ _ _ _ _ _ h; omega
  | succ fuel ih =>
    intro iter lab stack hl hok hfree hfuel
    rw [expandLoop]
    by_cases hemp : stack.isEmpty = true
    · rw [if_pos hemp]
      have : stack = [] := List.isEmpty_iff.1 hemp
      subst this
      exact Out.ok ⟨hl, fun _ _ _ => rfl, hok, hfree, rfl, by simp, by simp, fun h => h⟩
    · rw [if_neg hemp]
      refine Out.bind (Out.mapM (R := PassRel chf lab) stack fun e he =>
        expandEntry_out hwf hl (by intro e' he'; simp at he'; subst he'; exact hok e' he)
          (by intro e' he'; simp at he'; subst he'; exact hfree e' he)) fun out hout => ?_
      -- the dirty entries
      have hD : ∀ p ∈ out.filterMap (·.2), p.1 < chf.spans.length ∧ lab.reg.getD p.1 0 = 0 ∧ chf.WalkableAt p.1 ∧
          (∃ j, chf.Touches lab.reg p.1 j ∧ p.2 = (lab.reg.getD j 0, lab.dist.getD j 0 + 2)) := by
        intro p hp
        obtain ⟨o, ho, e⟩ := List.mem_filterMap.1 hp
        obtain ⟨k, hk, rfl⟩ := List.mem_iff_getElem.1 ho
        have hk' : k < stack.length := by rw [hout.length_eq]; exact hk
        have hr := hout.get hk' hk
        simp only [List.get_eq_getElem] at hr
        rcases hr with ⟨_, h⟩ | ⟨i, _, h, _⟩ | ⟨i, j, hi, ht, h⟩
        · rw [h] at e; cases e
        · rw [h] at e; cases e
        · rw [h] at e; cases e
          obtain ⟨a1, _, _, a4⟩ := hok _ (List.getElem_mem hk') i hi
          exact ⟨a1, hfree _ (List.getElem_mem hk') i hi, a4, j, ht, rfl⟩
      refine Out.bind (applyDirty_out (n := chf.spans.length) _ (fun p hp => (hD p hp).1) lab hl.shape.reg_len hl.shape.dist_len) ?_
      rintro lab' ⟨l1, l2, hk⟩
      obtain ⟨hl', hext⟩ := hl.pass hwf hD l1 l2 hk
      have hkeep : ∀ i < chf.spans.length, lab.reg.getD i 0 ≠ 0 → lab'.reg.getD i 0 = lab.reg.getD i 0 :=
        fun i hi h => hext.keep hi h
      -- entries that are left
      have left : ∀ e' ∈ out.map (·.1), ∀ i, e'.index = some i → e' ∈ stack ∧ ∀ j, ¬ chf.Touches lab.reg i j := by
        intro e' he' i hi
        obtain ⟨o, ho, e⟩ := List.mem_map.1 he'
        obtain ⟨k, hk, rfl⟩ := List.mem_iff_getElem.1 ho
        have hk' : k < stack.length := by rw [hout.length_eq]; exact hk
        have hr := hout.get hk' hk
        simp only [List.get_eq_getElem] at hr
        subst e
        rcases hr with ⟨h0, h⟩ | ⟨i', h1, h, h2⟩ | ⟨i', j, h1, ht, h⟩
        · rw [h] at hi; simp only at hi; rw [h0] at hi; cases hi
        · rw [h] at hi ⊢; simp only at hi ⊢; rw [h1] at hi; cases hi
          exact ⟨List.getElem_mem hk', h2⟩
        · rw [h] at hi; cases hi
      have hok' : EntriesOk chf (out.map (·.1)) := fun e' he' i hi => hok e' (left e' he' i hi).1 i hi
      have hfree' : EntriesFree lab'.reg (out.map (·.1)) := by
        intro e' he' i hi
        obtain ⟨hm, hno⟩ := left e' he' i hi
        rcases hk i with ⟨_, e, _⟩ | ⟨p, hp, e1, _, _⟩
        · rw [e]; exact hfree e' hm i hi
        · obtain ⟨_, _, _, j, ht, _⟩ := hD p hp
          rw [e1] at ht
          exact absurd ht (hno j)
      have hlen : (out.map (·.1)).length = stack.length := by simp [hout.length_eq]
      have hcov : ∀ e ∈ stack, ∀ i, e.index = some i → lab'.reg.getD i 0 ≠ 0 ∨ ∃ e' ∈ out.map (·.1), e'.index = some i := by
        intro e he i hi
        obtain ⟨k, hk', rfl⟩ := List.mem_iff_getElem.1 he
        have hk2 : k < out.length := by rw [← hout.length_eq]; exact hk'
        have hr := hout.get hk' hk2
        simp only [List.get_eq_getElem] at hr
        rcases hr with ⟨h0, h⟩ | ⟨i', h1, h, h2⟩ | ⟨i', j, h1, ht, h⟩
        · rw [h0] at hi; cases hi
        · exact Or.inr ⟨stack[k], List.mem_map.2 ⟨_, List.getElem_mem hk2, by rw [h]⟩, hi⟩
        · have hii : i' = i := by rw [h1] at hi; simpa using hi
          subst hii
          have hp : (i', lab.reg.getD j 0, lab.dist.getD j 0 + 2) ∈ out.filterMap (·.2) :=
            List.mem_filterMap.2 ⟨_, List.getElem_mem hk2, by rw [h]⟩
          left
          rcases hk i' with ⟨h3, _⟩ | ⟨p, hp', e1, e2, _⟩
          · exact absurd rfl (h3 _ hp)
          · obtain ⟨_, _, _, j', ⟨_, _, _, _, hpr⟩, e4⟩ := hD p hp'
            rw [e2, e4]; exact hpr.1
      have hnone : (∀ k, ¬ ProperRegion (lab.reg.getD k 0)) → ∀ k, ¬ ProperRegion (lab'.reg.getD k 0) := by
        intro h k
        rcases hk k with ⟨_, e, _⟩ | ⟨p, hp, _⟩
        · rw [e]; exact h k
        · obtain ⟨_, _, _, j, ⟨_, _, _, _, hpr⟩, _⟩ := hD p hp
          exact absurd hpr (h j)
      by_cases hfail : (out.filter fun o => o.2.isNone).length = (out.map (·.1)).length
      · simp only
        rw [if_pos hfail]
        have hall : ∀ o ∈ out, o.2 = none := by
          have h : (out.filter fun o => o.2.isNone).length = out.length := by simpa using hfail
          intro o ho
          have := List.length_filter_eq_length_iff.1 h o ho
          simpa using this
        have hDnil : out.filterMap (·.2) = [] := List.filterMap_eq_nil_iff.2 hall
        have hsame : ∀ k, lab'.reg.getD k 0 = lab.reg.getD k 0 := by
          intro k
          rcases hk k with ⟨_, e, _⟩ | ⟨p, hp, _⟩
          · exact e
          · rw [hDnil] at hp; cases hp
        refine Out.ok ⟨hl', hkeep, hok', hfree', hlen, hcov, ?_, hnone⟩
        intro _ e' he' i hi j ht
        refine (left e' he' i hi).2 j ?_
        obtain ⟨d, hd, hn, ha, hp⟩ := ht
        exact ⟨d, hd, hn, ha, by rw [← hsame]; exact hp⟩
      · simp only
        rw [if_neg hfail]
        -- an entry was used up
        have hless : ((out.map (·.1)).filter (·.index.isSome)).length < (stack.filter (·.index.isSome)).length := by
          have gen : ∀ (s : List LevelEntry) (o : List (LevelEntry × Option (Nat × Nat × Nat))), List.Forall₂ (PassRel chf lab) s o →
              ((o.map (·.1)).filter (·.index.isSome)).length + (o.filter fun o => o.2.isSome).length = (s.filter (·.index.isSome)).length := by
            intro s o h
            induction h with
            | nil => rfl
            | cons h _ ih =>
              rename_i e o s os
              rcases h with ⟨h0, h⟩ | ⟨i, h1, h, h2⟩ | ⟨i, j, h1, ht, h⟩
              · subst h; simp [h0] at ih ⊢; omega
              · subst h; simp [h1] at ih ⊢; omega
              · subst h; simp [h1] at ih ⊢; omega
          have := gen stack out hout
          have hpos : 0 < (out.filter fun o => o.2.isSome).length := by
            rcases Nat.eq_zero_or_pos (out.filter fun o => o.2.isSome).length with h | h
            · exfalso
              apply hfail
              have hnil := List.filter_eq_nil_iff.1 (List.length_eq_zero_iff.1 h)
              simp only [List.length_map]
              refine List.length_filter_eq_length_iff.2 fun o ho => ?_
              have := hnil o ho
              cases h : o.2 <;> simp_all
            · exact h
          omega
        have hrec : ∀ it, Out (32766 < chf.spans.length) (chf.expandLoop maxIter level fuel it lab' (out.map (·.1))) (Expanded chf b next level lab stack) := by
          intro it
          refine Out.mono (ih it lab' _ hl' hok' hfree' (by omega)) ?_
          intro o hx
          refine ⟨hx.inv, ?_, hx.ok, hx.free, hx.len.trans hlen, ?_, hx.stuck, fun h => hx.none (hnone h)⟩
          · intro i hi h
            rw [hx.keep i hi (by rw [hkeep i hi h]; exact h), hkeep i hi h]
          · intro e he i hi
            rcases hcov e he i hi with h | ⟨e', he', hi'⟩
            · left
              have hil := (hok e he i hi).1
              rw [hx.keep i hil h]; exact h
            · exact hx.covered e' he' i hi'
        by_cases hlev : level > 0
        · rw [if_pos hlev]
          split
          · exact Out.ok ⟨hl', hkeep, hok', hfree', hlen, hcov, fun h => by omega, hnone⟩
          · exact hrec _
        · rw [if_neg hlev]
          exact hrec _

end
end CompactHeightfield
end Rerecast
