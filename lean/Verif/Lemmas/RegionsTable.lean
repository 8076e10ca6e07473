import Verif.Lemmas.RegionsLabel
/-! The region table: collecting the regions, removing small ones. -/
set_option linter.unusedVariables false
set_option linter.unusedSectionVars false
namespace Rerecast

/-- Entry `j` of the table. -/
def getR (T : List Region) (j : Nat) : Region := T.getD j (Region.new 0)

theorem idx_getR {T : List Region} {j : Nat} (h : j < T.length) : idx T j = .ok (getR T j) := by
  simp [idx, getR, List.getD_eq_getElem?_getD, List.getElem?_eq_getElem h]
theorem getR_set {T : List Region} {i j : Nat} {v : Region} (h : i < T.length) : getR (T.set i v) j = if j = i then v else getR T j := by
  simp only [getR, List.getD_eq_getElem?_getD, List.getElem?_set]
  by_cases hij : i = j
  · subst hij; simp [h]
  · have : j ≠ i := fun e => hij e.symm
    simp [hij, this]
theorem getR_ge {T : List Region} {j : Nat} (h : T.length ≤ j) : getR T j = Region.new 0 := by
  simp [getR, List.getD_eq_getElem?_getD, h]

/-! ### the cyclic lists -/

theorem removeAdjacent_out {bad : Prop} : ∀ (fuel i : Nat) (c : List Nat), c.length - i ≤ fuel →
    Out bad (removeAdjacent fuel i c) fun o => ∀ x ∈ o, x ∈ c
  | 0, i, c, h => by
    unfold removeAdjacent
    rw [if_neg (by omega)]
    exact Out.ok fun x hx => hx
  | fuel + 1, i, c, h => by
    unfold removeAdjacent
    split
    · rename_i hc
      rw [idx_getD hc.1, bind_ok, idx_getD (Nat.mod_lt _ (by omega)), bind_ok]
      split
      · refine Out.mono (removeAdjacent_out fuel i _ ?_) fun o ho x hx => List.mem_of_mem_eraseIdx (ho x hx)
        rw [List.length_eraseIdx_of_lt hc.1]; omega
      · exact removeAdjacent_out fuel (i + 1) c (by omega)
    · exact Out.ok fun x hx => hx

theorem removeAdjacentWalk_out {bad : Prop} : ∀ (fuel i : Nat) (c : List Nat), c.length - i ≤ fuel →
    Out bad (removeAdjacentWalk fuel i c) fun o => ∀ x ∈ o, x ∈ c
  | 0, i, c, h => by
    unfold removeAdjacentWalk
    rw [if_neg (by omega)]
    exact Out.ok fun x hx => hx
  | fuel + 1, i, c, h => by
    unfold removeAdjacentWalk
    split
    · rename_i hc
      rw [idx_getD hc, bind_ok, idx_getD (Nat.mod_lt _ (by omega)), bind_ok]
      split
      · refine Out.mono (removeAdjacentWalk_out fuel i _ ?_) fun o ho x hx => List.mem_of_mem_eraseIdx (ho x hx)
        rw [List.length_eraseIdx_of_lt hc]; omega
      · exact removeAdjacentWalk_out fuel (i + 1) c (by omega)
    · exact Out.ok fun x hx => hx

theorem forall₂_mem_right {α β : Type} {R : α → β → Prop} {l : List α} {l' : List β} (h : List.Forall₂ R l l') {b : β} (hb : b ∈ l') :
    ∃ a ∈ l, R a b := by
  induction h with
  | nil => cases hb
  | cons h1 _ ih =>
    rcases List.mem_cons.1 hb with rfl | hb
    · exact ⟨_, by simp, h1⟩
    · obtain ⟨a, ha, hr⟩ := ih hb; exact ⟨a, by simp [ha], hr⟩

theorem cyclicRest_out {bad : Prop} (c : List Nat) (ins : Nat) : Out bad (Region.cyclicRest c ins) fun o => ∀ x ∈ o, x ∈ c := by
  unfold Region.cyclicRest
  refine Out.mono (Out.mapM (R := fun _ x => x ∈ c) _ ?_) ?_
  · intro i hi
    have := List.mem_range.1 hi
    have hl : (ins + 1 + i) % c.length < c.length := Nat.mod_lt _ (by omega)
    rw [idx_some (List.getElem?_eq_getElem hl)]
    exact Out.ok (List.getElem_mem hl)
  · intro o ho x hx
    obtain ⟨_, _, h⟩ := forall₂_mem_right ho hx
    exact h

namespace CompactHeightfield
variable {chf : CompactHeightfield}

/-- The region across side `d` of span `i`. -/
def across (chf : CompactHeightfield) (reg : List Nat) (i d : Nat) : Nat :=
  match chf.nbr i d with | none => 0 | some k => reg.getD k 0
theorem across_none {reg : List Nat} {i d : Nat} (h : chf.nbr i d = none) : chf.across reg i d = 0 := by unfold across; rw [h]
theorem across_some {reg : List Nat} {i d k : Nat} (h : chf.nbr i d = some k) : chf.across reg i d = reg.getD k 0 := by unfold across; rw [h]

/-- What is known about the connections `con` of region `j`. -/
def ConOk (chf : CompactHeightfield) (reg : List Nat) (nreg j : Nat) (con : List Nat) : Prop :=
  ∀ c ∈ con, (isBorderRegion c = true ∨ c < nreg) ∧
    (c ≠ 0 → ∃ a d b, d < 4 ∧ chf.nbr a d = some b ∧ reg.getD a 0 = j ∧ reg.getD b 0 = c ∧ c ≠ j)

/-- The table after the collecting phase. -/
structure Collected (chf : CompactHeightfield) (reg : List Nat) (nreg : Nat) (T : List Region) : Prop where
  len : T.length = nreg
  id : ∀ j < nreg, (getR T j).id = j
  con : ∀ j < nreg, ConOk chf reg nreg j (getR T j).connections
  area : ∀ i < chf.spans.length, ProperRegion (reg.getD i 0) → (getR T (reg.getD i 0)).area = chf.areaAt i

section
variable (hwf : chf.WellFormed)
include hwf

theorem sideReg_eq {reg : List Nat} (hr : reg.length = chf.spans.length) {i d : Nat} (hi : i < chf.spans.length) (hd : d < 4) :
    chf.sideReg reg (chf.xOf i) (chf.zOf i) i d = .ok (chf.across reg i d) := by
  unfold sideReg
  rw [conNeighbour_eq hwf hi hd, bind_ok]
  cases hn : chf.nbr i d with
  | none => rw [across_none hn]; rfl
  | some k =>
    rw [across_some hn]
    simp only [Option.map_some]
    exact idx_getD (by rw [hr]; exact nbr_dlt hwf hd hn)

theorem isSolidEdge_eq {reg : List Nat} (hr : reg.length = chf.spans.length) {i d : Nat} (hi : i < chf.spans.length) (hd : d < 4) :
    chf.isSolidEdge reg (chf.xOf i) (chf.zOf i) i d =
      .ok (decide ((chf.across reg i d) ≠ reg.getD i 0)) := by
  unfold isSolidEdge
  rw [sideReg_eq hwf hr hi hd, bind_ok, idx_getD (by rw [hr]; exact hi), bind_ok]

/-- A value seen across a side of a span of region `j`. -/
theorem side_conOk {reg : List Nat} {nreg j : Nat} (hb : ∀ i < chf.spans.length, reg.getD i 0 < nreg ∨ isBorderRegion (reg.getD i 0) = true)
    (hn : 0 < nreg) {i d : Nat} (hd : d < 4) (hj : reg.getD i 0 = j) (hs : chf.across reg i d ≠ j) :
    ConOk chf reg nreg j [chf.across reg i d] := by
  intro c hc
  have hc' := List.mem_singleton.1 hc
  cases hn' : chf.nbr i d with
  | none => rw [across_none hn'] at hc'; subst hc'; exact ⟨Or.inr hn, fun h => absurd rfl h⟩
  | some k =>
    rw [across_some hn'] at hc' hs; subst hc'
    exact ⟨(hb k (nbr_dlt hwf hd hn')).symm, fun _ => ⟨i, d, k, hd, hn', hj, rfl, hs⟩⟩

omit hwf in
theorem ConOk.append {reg : List Nat} {nreg j : Nat} {s t : List Nat} (h1 : ConOk chf reg nreg j s) (h2 : ConOk chf reg nreg j t) :
    ConOk chf reg nreg j (s ++ t) := by
  intro c hc
  rcases List.mem_append.1 hc with hc | hc
  · exact h1 c hc
  · exact h2 c hc

theorem outlineLoop_out {bad : Prop} {reg : List Nat} (hr : reg.length = chf.spans.length) {nreg j : Nat}
    (hb : ∀ i < chf.spans.length, reg.getD i 0 < nreg ∨ isBorderRegion (reg.getD i 0) = true) (hn : 0 < nreg) (startI startDir : Nat) :
    ∀ (n : Nat) (p : WalkPos), p.i < chf.spans.length → p.x = chf.xOf p.i → p.z = chf.zOf p.i → p.dir < 4 → reg.getD p.i 0 = j →
      ConOk chf reg nreg j p.connections →
      Out bad (chf.outlineLoop reg startI startDir n p) fun o => ConOk chf reg nreg j o.1
  | 0, p, _, _, _, _, _, hc => Out.ok hc
  | n + 1, ⟨x, z, i, dir, cur, con⟩, hi, hx, hz, hd, hj, hc => by
    simp only at hi hx hz hd hj hc
    subst hx hz
    unfold outlineLoop
    refine Out.bind (P := fun q => ∀ p, q = some p → p.i < chf.spans.length ∧ p.x = chf.xOf p.i ∧ p.z = chf.zOf p.i ∧ p.dir < 4 ∧
      reg.getD p.i 0 = j ∧ ConOk chf reg nreg j p.connections) ?_ ?_
    · unfold outlineStep
      simp only
      rw [isSolidEdge_eq hwf hr hi hd, bind_ok]
      split
      · rename_i hsol
        have hs := side_conOk hwf hb hn (i := i) hd hj (by rw [← hj]; simpa using hsol)
        rw [sideReg_eq hwf hr hi hd, bind_ok]
        split
        · refine Out.ok ?_
          intro p hp; cases hp
          exact ⟨hi, rfl, rfl, Nat.mod_lt _ (by omega), hj, hc.append hs⟩
        · refine Out.ok ?_
          intro p hp; cases hp
          exact ⟨hi, rfl, rfl, Nat.mod_lt _ (by omega), hj, hc⟩
      · rename_i hsol
        rw [conNeighbour_eq hwf hi hd, bind_ok]
        cases hn' : chf.nbr i dir with
        | none => refine Out.ok ?_; intro p hp; cases hp
        | some k =>
          refine Out.ok ?_
          intro p hp; cases hp
          rw [across_some hn'] at hsol
          refine ⟨nbr_dlt hwf hd hn', rfl, rfl, Nat.mod_lt _ (by omega), ?_, hc⟩
          simp only [ne_eq, decide_not, Bool.not_eq_true', decide_eq_false_iff_not, not_not] at hsol
          simp only; rw [hsol, hj]
    · intro q hq
      cases q with
      | none => exact Out.ok hc
      | some q =>
        obtain ⟨h1, h2, h3, h4, h5, h6⟩ := hq q rfl
        simp only
        split
        · exact Out.ok h6
        · exact outlineLoop_out hr hb hn startI startDir n q h1 h2 h3 h4 h5 h6

theorem outlineRegions_out {bad : Prop} {reg : List Nat} (hr : reg.length = chf.spans.length) {nreg : Nat}
    (hb : ∀ i < chf.spans.length, reg.getD i 0 < nreg ∨ isBorderRegion (reg.getD i 0) = true) (hn : 0 < nreg) {i d : Nat}
    (hi : i < chf.spans.length) (hd : d < 4) (hsol : chf.across reg i d ≠ reg.getD i 0) :
    Out bad (chf.outlineRegions reg (chf.xOf i) (chf.zOf i) i d) (ConOk chf reg nreg (reg.getD i 0)) := by
  unfold outlineRegions
  rw [sideReg_eq hwf hr hi hd, bind_ok]
  have hs := side_conOk hwf hb hn (i := i) hd rfl hsol
  refine Out.bind (outlineLoop_out hwf hr hb hn i d 40000 _ hi rfl rfl hd rfl hs) ?_
  rintro ⟨c, ret⟩ hc
  simp only at hc ⊢
  split
  · exact Out.ok hc
  · split
    · exact Out.mono (removeAdjacentWalk_out _ 0 c (by omega)) fun o ho x hx => hc x (ho x hx)
    · exact Out.ok hc

theorem floorStep_out {bad : Prop} {reg : List Nat} {nreg r i : Nat} {rg : Region} {j : Nat} (hj : j < reg.length) :
    Out bad (floorStep reg nreg r i rg j) fun o => o.id = rg.id ∧ o.area = rg.area ∧ o.connections = rg.connections ∧
      o.spanCount = rg.spanCount := by
  unfold floorStep
  split
  · exact Out.ok ⟨rfl, rfl, rfl, rfl⟩
  · rw [idx_getD hj, bind_ok]
    split
    · exact Out.ok ⟨rfl, rfl, rfl, rfl⟩
    · refine Out.ok ?_
      unfold Region.addUniqueFloor
      split <;> split <;> exact ⟨rfl, rfl, rfl, rfl⟩

theorem findSolid_out {bad : Prop} {reg : List Nat} (hr : reg.length = chf.spans.length) {i : Nat} (hi : i < chf.spans.length) :
    Out bad (chf.findSolid reg (chf.xOf i) (chf.zOf i) i) fun o => ∀ d, o = some d → d < 4 ∧ chf.across reg i d ≠ reg.getD i 0 := by
  unfold findSolid
  refine dirs_out _ _ (by intro d h; cases h) ?_
  intro d hd s hs
  cases s with
  | some d' => exact Out.ok hs
  | none =>
    simp only
    rw [isSolidEdge_eq hwf hr hi hd, bind_ok]
    refine Out.ok ?_
    intro d' h
    split at h
    · rename_i hsol; cases h; exact ⟨hd, by simpa using hsol⟩
    · cases h

theorem findOutline_out {bad : Prop} {reg : List Nat} (hr : reg.length = chf.spans.length) {nreg : Nat}
    (hb : ∀ i < chf.spans.length, reg.getD i 0 < nreg ∨ isBorderRegion (reg.getD i 0) = true) (hn : 0 < nreg) {i : Nat}
    (hi : i < chf.spans.length) {rg : Region} (hcon : ConOk chf reg nreg (reg.getD i 0) rg.connections) :
    Out bad (chf.findOutline reg (chf.xOf i) (chf.zOf i) i rg) fun o => o.id = rg.id ∧ o.spanCount = rg.spanCount ∧
      ConOk chf reg nreg (reg.getD i 0) o.connections ∧ (rg.connections ≠ [] → o.area = rg.area) ∧
      (rg.connections = [] → o.area = chf.areaAt i) := by
  unfold findOutline
  split
  · rename_i h
    have : rg.connections ≠ [] := by simpa using h
    exact Out.ok ⟨rfl, rfl, hcon, fun _ => rfl, fun h => absurd h this⟩
  · rename_i h
    have hnil : rg.connections = [] := by simpa using h
    rw [idx_area hwf hi, bind_ok]
    refine Out.bind (findSolid_out hwf hr hi) fun nd hnd => ?_
    cases nd with
    | none => exact Out.ok ⟨rfl, rfl, hcon, fun h => absurd hnil h, fun _ => rfl⟩
    | some d =>
      simp only
      refine Out.bind (outlineRegions_out hwf hr hb hn hi (hnd d rfl).1 (hnd d rfl).2) fun c hc => ?_
      exact Out.ok ⟨rfl, rfl, hc, fun h => absurd hnil h, fun _ => rfl⟩

theorem collectRegions_out {bad : Prop} {reg : List Nat} (hr : reg.length = chf.spans.length) {nreg : Nat}
    (hb : ∀ i < chf.spans.length, reg.getD i 0 < nreg ∨ isBorderRegion (reg.getD i 0) = true) (hn : 0 < nreg)
    (hu : chf.Uniform (fun i => reg.getD i 0)) : Out bad (chf.collectRegions reg nreg) (Collected chf reg nreg) := by
  unfold collectRegions
  rw [forSpans_eq hwf]
  refine Out.mono (Out.foldlM (fun pre (T : List Region) => T.length = nreg ∧ (∀ j < nreg, (getR T j).id = j) ∧
    (∀ j < nreg, ConOk chf reg nreg j (getR T j).connections) ∧
    (∀ j < nreg, (getR T j).connections ≠ [] → ∃ i ∈ pre, reg.getD i 0 = j) ∧
    (∀ i ∈ pre, ProperRegion (reg.getD i 0) → (getR T (reg.getD i 0)).area = chf.areaAt i)) (List.range chf.spans.length) _ ?_ ?_) ?_
  · have hg : ∀ j < nreg, getR ((List.range nreg).map Region.new) j = Region.new j := by
      intro j hj; simp [getR, List.getD_eq_getElem?_getD, hj]
    refine ⟨by simp, fun j hj => by rw [hg j hj]; rfl, fun j hj => ?_, fun j hj h => ?_, by simp⟩
    · rw [hg j hj]; intro c hc; cases hc
    · rw [hg j hj] at h; exact absurd rfl h
  · rintro pre i post T he ⟨hl, hid, hcon, hcn, har⟩
    have hi : i < chf.spans.length := List.mem_range.1 (by rw [he]; simp)
    have hpre : ∀ k ∈ pre, k < chf.spans.length := fun k hk => List.mem_range.1 (by rw [he]; simp [hk])
    unfold collectSpan
    rw [idx_getD (by rw [hr]; exact hi), bind_ok]
    by_cases hskip : reg.getD i 0 = REGION_NONE ∨ reg.getD i 0 ≥ nreg
    · rw [if_pos hskip]
      refine Out.ok ⟨hl, hid, hcon, ?_, ?_⟩
      · intro j hj h
        obtain ⟨k, hk, e⟩ := hcn j hj h
        exact ⟨k, by simp [hk], e⟩
      · intro k hk hp
        rcases List.mem_append.1 hk with hk | hk
        · exact har k hk hp
        · have hki : k = i := by simpa using hk
          subst hki
          rcases hskip with h | h
          · exact absurd h hp.1
          · rcases hb k hi with h' | h'
            · omega
            · rw [hp.2] at h'; cases h'
    · rw [if_neg hskip]
      have hlt : reg.getD i 0 < nreg := by
        rw [not_or] at hskip; omega
      rw [idx_getR (by rw [hl]; exact hlt), bind_ok]
      obtain ⟨hcl, cell, hcell, hmem⟩ := col_spec hwf hi
      obtain ⟨hx, hz, hxz⟩ := xz_spec hwf hi
      have hcellAt : chf.cellAt (chf.xOf i) (chf.zOf i) = .ok cell := by
        simp only [cellAt, columnIndex]; rw [hxz, idx_some hcell]
      rw [hcellAt, bind_ok]
      refine Out.bind (Out.foldlM_inv (fun rg : Region => rg.id = reg.getD i 0 ∧ rg.area = (getR T (reg.getD i 0)).area ∧
        rg.connections = (getR T (reg.getD i 0)).connections) cell.indexRange _ ⟨hid _ hlt, rfl, rfl⟩ ?_) ?_
      · rintro k hk rg ⟨g1, g2, g3⟩
        refine Out.mono (floorStep_out hwf (by rw [hr]; exact mem_cell_lt hwf hcell hk)) ?_
        rintro o ⟨o1, o2, o3, _⟩
        exact ⟨o1.trans g1, o2.trans g2, o3.trans g3⟩
      · rintro rg ⟨g1, g2, g3⟩
        refine Out.bind (findOutline_out hwf hr hb hn hi (by rw [g3]; exact hcon _ hlt)) ?_
        rintro o ⟨o1, _, o3, o4, o5⟩
        rw [setIdx_ok (by rw [hl]; exact hlt)]
        have hget := fun j => getR_set (T := T) (i := reg.getD i 0) (j := j) (v := o) (by rw [hl]; exact hlt)
        -- the area of the entry is that of the span
        have hoa : ProperRegion (reg.getD i 0) → o.area = chf.areaAt i := by
          intro hp
          by_cases hc : rg.connections = []
          · exact o5 hc
          · rw [o4 hc, g2]
            obtain ⟨k, hk, e⟩ := hcn _ hlt (by rw [← g3]; exact hc)
            rw [← e, har k hk (by rw [e]; exact hp)]
            exact hu k (hpre k hk) i hi e (by simp only; rw [e]; exact hp)
        refine Out.ok ⟨by simpa using hl, ?_, ?_, ?_, ?_⟩
        · intro j hj; rw [hget]; split
          · rename_i h; rw [o1, g1, h]
          · exact hid j hj
        · intro j hj; rw [hget]; split
          · rename_i h; rw [h]; exact o3
          · exact hcon j hj
        · intro j hj h
          rw [hget] at h
          split at h
          · rename_i h'; exact ⟨i, by simp, h'.symm⟩
          · obtain ⟨k, hk, e⟩ := hcn j hj h
            exact ⟨k, by simp [hk], e⟩
        · intro k hk hp
          rw [hget]
          rcases List.mem_append.1 hk with hk | hk
          · split
            · rename_i h
              rw [hoa (h ▸ hp)]
              exact hu i hi k (hpre k hk) h.symm (by simp only; rw [← h]; exact hp)
            · exact har k hk hp
          · have hki : k = i := by simpa using hk
            subst hki
            rw [if_pos rfl]; exact hoa hp
  · rintro T ⟨hl, hid, hcon, _, har⟩
    exact ⟨hl, hid, hcon, fun i hi => har i (List.mem_range.2 hi)⟩

end
end CompactHeightfield

/-! ### removing small regions -/

/-- Same connections and areas; ids kept or dropped to `0`. -/
structure Smaller (min : Nat) (T0 T : List Region) : Prop where
  len : T.length = T0.length
  id : ∀ j, (getR T j).id = (getR T0 j).id ∨ ((getR T j).id = 0 ∧ 0 < min)
  area : ∀ j, (getR T j).area = (getR T0 j).area
  con : ∀ j, (getR T j).connections = (getR T0 j).connections

theorem Smaller.refl {min : Nat} (T : List Region) : Smaller min T T := ⟨rfl, fun _ => Or.inl rfl, fun _ => rfl, fun _ => rfl⟩

theorem Smaller.set {min : Nat} {T0 T : List Region} (h : Smaller min T0 T) {i : Nat} (hi : i < T.length) {v : Region}
    (h1 : v.id = (getR T i).id ∨ (v.id = 0 ∧ 0 < min)) (h2 : v.area = (getR T i).area) (h3 : v.connections = (getR T i).connections) :
    Smaller min T0 (T.set i v) := by
  have hg := fun j => getR_set (T := T) (i := i) (j := j) (v := v) hi
  refine ⟨by simpa using h.len, ?_, ?_, ?_⟩
  · intro j; rw [hg]; split
    · rename_i hj; subst hj
      rcases h1 with h1 | h1
      · rw [h1]; exact h.id j
      · exact Or.inr h1
    · exact h.id j
  · intro j; rw [hg]; split
    · rename_i hj; subst hj; rw [h2]; exact h.area j
    · exact h.area j
  · intro j; rw [hg]; split
    · rename_i hj; subst hj; rw [h3]; exact h.con j
    · exact h.con j

/-- Number of entries not visited yet. -/
def unvisited (T : List Region) : Nat := (T.filter fun r => !r.visited).length

theorem unvisited_cons (r : Region) (T : List Region) : unvisited (r :: T) = unvisited T + (if r.visited then 0 else 1) := by
  unfold unvisited
  rw [List.filter_cons]
  cases r.visited <;> simp

theorem unvisited_set {T : List Region} {i : Nat} (hi : i < T.length) {v : Region} (hv : v.visited = true) :
    unvisited (T.set i v) + (if (getR T i).visited then 0 else 1) = unvisited T := by
  induction T generalizing i with
  | nil => simp at hi
  | cons r T ih =>
    cases i with
    | zero =>
      rw [List.set_cons_zero, unvisited_cons, unvisited_cons, if_pos hv]; rfl
    | succ i =>
      have := ih (i := i) (by simpa using hi)
      rw [List.set_cons_succ, unvisited_cons, unvisited_cons, show getR (r :: T) (i + 1) = getR T i from rfl]
      omega

theorem unvisited_visit {T : List Region} {i : Nat} (hi : i < T.length) (r : Region) :
    unvisited (T.set i { r with visited := true }) + (if (getR T i).visited then 0 else 1) = unvisited T := unvisited_set hi rfl

theorem smallConn_out {bad : Prop} {min : Nat} {T0 : List Region} (hid : ∀ j < T0.length, (getR T0 j).id < T0.length) (st : SmallState) {c : Nat}
    (hc : isBorderRegion c = true ∨ c < T0.length) (hT : Smaller min T0 st.regions) (hst : ∀ s ∈ st.stack, s < T0.length)
    (htr : ∀ s ∈ st.trace, s < T0.length) {n : Nat} (hm : st.stack.length + unvisited st.regions ≤ n) :
    Out bad (smallConn st c) fun o => Smaller min T0 o.regions ∧ (∀ s ∈ o.stack, s < T0.length) ∧ (∀ s ∈ o.trace, s < T0.length) ∧
      o.stack.length + unvisited o.regions ≤ n := by
  unfold smallConn
  split
  · exact Out.ok ⟨hT, hst, htr, hm⟩
  · rename_i hb
    have hc' : c < st.regions.length := by
      rw [hT.len]; rcases hc with h | h
      · exact absurd h hb
      · exact h
    rw [idx_getR hc', bind_ok]
    split
    · exact Out.ok ⟨hT, hst, htr, hm⟩
    · rename_i hv
      split
      · exact Out.ok ⟨hT, hst, htr, hm⟩
      · rw [setIdx_ok hc', bind_ok]
        have hu := unvisited_visit hc' (getR st.regions c)
        rw [if_neg hv] at hu
        refine Out.ok ⟨hT.set hc' (Or.inl rfl) rfl rfl, ?_, htr, by simp only [List.length_cons]; omega⟩
        intro s hs
        rcases List.mem_cons.1 hs with rfl | hs
        · rcases hT.id c with e | ⟨e, _⟩
          · rw [e]; exact hid c (by rw [← hT.len]; exact hc')
          · rw [e, ← hT.len]; omega
        · exact hst s hs

theorem smallLoop_out {bad : Prop} {min : Nat} {T0 : List Region} (hid : ∀ j < T0.length, (getR T0 j).id < T0.length)
    (hcon : ∀ j < T0.length, ∀ c ∈ (getR T0 j).connections, isBorderRegion c = true ∨ c < T0.length) :
    ∀ (fuel : Nat) (st : SmallState), Smaller min T0 st.regions → (∀ s ∈ st.stack, s < T0.length) → (∀ s ∈ st.trace, s < T0.length) →
      st.stack.length + unvisited st.regions ≤ fuel →
      Out bad (smallLoop fuel st) fun o => Smaller min T0 o.regions ∧ (∀ s ∈ o.trace, s < T0.length) := by
  intro fuel
  induction fuel with
  | zero =>
    rintro ⟨T, stack, tr, n, tb⟩ hT hst htr hm
    unfold smallLoop
    cases stack with
    | nil => exact Out.ok ⟨hT, htr⟩
    | cons s stack => simp at hm
  | succ fuel ih =>
    rintro ⟨T, stack, tr, n, tb⟩ hT hst htr hm
    unfold smallLoop
    cases stack with
    | nil => exact Out.ok ⟨hT, htr⟩
    | cons s stack =>
      simp only at hT hst htr hm ⊢
      have hs : s < T0.length := hst s (by simp)
      rw [idx_getR (by rw [hT.len]; exact hs), bind_ok]
      refine Out.bind (Out.foldlM_inv (fun o : SmallState => Smaller min T0 o.regions ∧ (∀ s ∈ o.stack, s < T0.length) ∧
        (∀ s ∈ o.trace, s < T0.length) ∧ o.stack.length + unvisited o.regions ≤ fuel) _ _ ?_ ?_) ?_
      · refine ⟨hT, fun t ht => hst t (by simp [ht]), ?_, by simp only [List.length_cons] at hm ⊢; omega⟩
        intro t ht
        rcases List.mem_append.1 ht with ht | ht
        · exact htr t ht
        · rw [List.mem_singleton.1 ht]; exact hs
      · rintro c hc st ⟨h1, h2, h3, h4⟩
        exact smallConn_out hid st (hcon s hs c (by rw [← hT.con]; exact hc)) h1 h2 h3 h4
      · rintro st ⟨h1, h2, h3, h4⟩
        exact ih st h1 h2 h3 h4

theorem unvisited_le (T : List Region) : unvisited T ≤ T.length := List.length_filter_le _ _

theorem removeSmall_out {bad : Prop} {min : Nat} {T0 : List Region} (hid : ∀ j < T0.length, (getR T0 j).id < T0.length)
    (hcon : ∀ j < T0.length, ∀ c ∈ (getR T0 j).connections, isBorderRegion c = true ∨ c < T0.length) :
    Out bad (removeSmall min T0) (Smaller min T0) := by
  unfold removeSmall
  refine Out.foldlM_inv _ _ _ (Smaller.refl T0) ?_
  intro i hi T hT
  have hi' := List.mem_range.1 hi
  have hiT : i < T.length := by rw [hT.len]; exact hi'
  unfold removeSmallStep
  rw [idx_getR hiT, bind_ok]
  split
  · exact Out.ok hT
  split
  · exact Out.ok hT
  split
  · exact Out.ok hT
  · rename_i hv
    rw [setIdx_ok hiT, bind_ok]
    have hu := unvisited_visit hiT (getR T i)
    have hul := unvisited_le T
    refine Out.bind (smallLoop_out hid hcon _ _ (hT.set hiT (Or.inl rfl) rfl rfl) (by simpa using hi') (by simp) ?_) ?_
    · simp only [List.length_singleton, List.length_set]; omega
    · rintro st ⟨h1, h2⟩
      split
      · rename_i hmin
        refine Out.foldlM_inv (Smaller min T0) _ _ h1 ?_
        intro t ht T' hT'
        have htl : t < T'.length := by rw [hT'.len]; exact h2 t ht
        unfold killRegion
        rw [idx_getR htl, bind_ok, setIdx_ok htl]
        exact Out.ok (hT'.set htl (Or.inr ⟨rfl, by omega⟩) rfl rfl)
      · exact Out.ok h1

end Rerecast
