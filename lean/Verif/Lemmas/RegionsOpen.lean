import Verif.Lemmas.RegionsTables
/-! The walk around a basin notices sides behind which nothing is. -/
namespace Rerecast

theorem removeAdjacentWalk_keeps : ∀ (fuel j : Nat) (c : List Nat), 2 ≤ c.length →
    (∀ k, j ≤ k → ∀ (h : k + 1 < c.length), c[k] ≠ c[k + 1]) →
    Holds (removeAdjacentWalk fuel j c) fun o => ∀ x ∈ c, x ∈ o
  | 0, j, c, _, _ => by
    unfold removeAdjacentWalk
    split
    · exact Holds.error
    · exact Holds.ok fun x hx => hx
  | fuel + 1, j, c, h2, hd => by
    unfold removeAdjacentWalk
    by_cases hj : j < c.length
    · rw [if_pos hj]
      have hm : (j + 1) % c.length < c.length := Nat.mod_lt _ (by omega)
      rw [idx_some (List.getElem?_eq_getElem hj), bind_ok, idx_some (List.getElem?_eq_getElem hm), bind_ok]
      split
      · rename_i hab
        by_cases hlast : j + 1 < c.length
        · exact absurd (by simpa [Nat.mod_eq_of_lt hlast] using hab) (hd j le_rfl hlast)
        · have hje : j + 1 = c.length := by omega
          have hz : (j + 1) % c.length = 0 := by rw [hje]; exact Nat.mod_self _
          have hlen : (c.eraseIdx j).length = j := by rw [List.length_eraseIdx_of_lt hj]; omega
          have hend : removeAdjacentWalk fuel j (c.eraseIdx j) = .ok (c.eraseIdx j) := by
            cases fuel <;> (unfold removeAdjacentWalk; rw [if_neg (by rw [hlen]; exact lt_irrefl _)])
          rw [hend]
          refine Holds.ok fun x hx => ?_
          obtain ⟨k, hk, rfl⟩ := List.getElem_of_mem hx
          rw [List.mem_eraseIdx_iff_getElem]
          by_cases hkj : k = j
          · subst hkj
            refine ⟨0, by omega, by omega, ?_⟩
            have : c[(k + 1) % c.length] = c[0] := by congr 1
            rw [hab, this]
          · exact ⟨k, hk, hkj, rfl⟩
      · exact removeAdjacentWalk_keeps fuel (j + 1) c h2 fun k hk h => hd k (by omega) h
    · rw [if_neg hj]
      exact Holds.ok fun x hx => hx

namespace CompactHeightfield
variable {chf : CompactHeightfield}

/-- What is known about the labels met on the walk: no two in a row are the same, and `current` is the last. -/
structure Met (p : WalkPos) : Prop where
  chain : ∀ k, ∀ (h : k + 1 < p.connections.length), p.connections[k] ≠ p.connections[k + 1]
  last : ∃ l, p.connections = l ++ [p.current]

theorem Met.push {p : WalkPos} (h : Met p) {x z i dir r : Nat} (hr : r ≠ p.current) :
    Met ⟨x, z, i, dir, r, p.connections ++ [r]⟩ where
  chain := by
    intro k hk
    simp only [List.length_append, List.length_cons, List.length_nil] at hk
    by_cases hk' : k + 1 < p.connections.length
    · simp only
      rw [List.getElem_append_left hk', List.getElem_append_left (by omega)]
      exact h.chain k hk'
    · obtain ⟨l, hl⟩ := h.last
      have hlen : p.connections.length = l.length + 1 := by rw [hl]; simp
      have hk2 : k = l.length := by omega
      subst hk2
      simp only
      rw [List.getElem_append_left (by omega), List.getElem_append_right (by omega)]
      simp only [hlen, Nat.sub_self, List.getElem_cons_zero]
      have : p.connections[l.length]'(by omega) = p.current := by simp [hl]
      rw [this]; exact fun e => hr e.symm
  last := ⟨_, rfl⟩

section
variable (hwf : chf.WellFormed)
include hwf

/-- One step of the walk at the side `(i, d)`. -/
theorem outlineStep_open {reg : List Nat} (hr : reg.length = chf.spans.length) {p : WalkPos} (hi : p.i < chf.spans.length)
    (hx : p.x = chf.xOf p.i) (hz : p.z = chf.zOf p.i) (hd : p.dir < 4) (hm : Met p) :
    Holds (chf.outlineStep reg p) fun q => ∀ q', q = some q' →
      q'.i < chf.spans.length ∧ q'.x = chf.xOf q'.i ∧ q'.z = chf.zOf q'.i ∧ q'.dir < 4 ∧ Met q' ∧
      (∀ c ∈ p.connections, c ∈ q'.connections) ∧
      (chf.across reg p.i p.dir ≠ reg.getD p.i 0 → chf.across reg p.i p.dir ∈ q'.connections) ∧
      reg.getD q'.i 0 = reg.getD p.i 0 := by
  obtain ⟨x, z, i, dir, cur, con⟩ := p
  simp only at hi hx hz hd
  subst hx hz
  unfold outlineStep
  simp only
  rw [isSolidEdge_eq hwf hr hi hd, bind_ok]
  split
  · rw [sideReg_eq hwf hr hi hd, bind_ok]
    split
    · rename_i hne
      refine Holds.ok ?_
      intro q hq; cases hq
      exact ⟨hi, rfl, rfl, Nat.mod_lt _ (by omega), hm.push hne, fun c hc => by simp [hc], fun _ => by simp, rfl⟩
    · rename_i he
      refine Holds.ok ?_
      intro q hq; cases hq
      refine ⟨hi, rfl, rfl, Nat.mod_lt _ (by omega), ⟨hm.chain, hm.last⟩, fun c hc => hc, fun _ => ?_, rfl⟩
      obtain ⟨l, hl⟩ := hm.last
      simp only [ne_eq, not_not] at he hl
      simp only
      rw [hl, he]; simp
  · rename_i hsol
    simp only [ne_eq, decide_not, Bool.not_eq_true', decide_eq_false_iff_not, not_not] at hsol
    rw [conNeighbour_eq hwf hi hd, bind_ok]
    cases hn' : chf.nbr i dir with
    | none => refine Holds.ok ?_; intro p hp; cases hp
    | some k =>
      refine Holds.ok ?_
      intro q hq; cases hq
      rw [across_some hn'] at hsol
      exact ⟨nbr_dlt hwf hd hn', rfl, rfl, Nat.mod_lt _ (by omega), ⟨hm.chain, hm.last⟩, fun c hc => hc,
        fun h => absurd (by rw [across_some hn']; exact hsol) h, hsol⟩

theorem outlineLoop_keeps {reg : List Nat} (hr : reg.length = chf.spans.length) (startI startDir : Nat) :
    ∀ (n : Nat) (p : WalkPos), p.i < chf.spans.length → p.x = chf.xOf p.i → p.z = chf.zOf p.i → p.dir < 4 → Met p →
      Holds (chf.outlineLoop reg startI startDir n p) fun o => (∀ c ∈ p.connections, c ∈ o.1) ∧
        ∀ k, ∀ (h : k + 1 < o.1.length), o.1[k] ≠ o.1[k + 1]
  | 0, p, _, _, _, _, hm => Holds.ok ⟨fun c hc => hc, hm.chain⟩
  | n + 1, p, hi, hx, hz, hd, hm => by
    unfold outlineLoop
    refine Holds.bind (outlineStep_open hwf hr hi hx hz hd hm) ?_
    intro q hq
    cases q with
    | none => exact Holds.ok ⟨fun c hc => hc, hm.chain⟩
    | some q =>
      obtain ⟨h1, h2, h3, h4, h5, h6, _⟩ := hq q rfl
      simp only
      split
      · exact Holds.ok ⟨h6, h5.chain⟩
      · exact Holds.mono (outlineLoop_keeps hr startI startDir n q h1 h2 h3 h4 h5) fun o ho => ⟨fun c hc => ho.1 c (h6 c hc), ho.2⟩

/-- The step of the walk follows `BasinStep`. -/
theorem outlineStep_follows {reg : List Nat} (hr : reg.length = chf.spans.length) {p : WalkPos} (hi : p.i < chf.spans.length)
    (hx : p.x = chf.xOf p.i) (hz : p.z = chf.zOf p.i) (hd : p.dir < 4) (h0 : reg.getD p.i 0 ≠ 0) {b : Nat × Nat}
    (hs : BasinStep chf reg (p.i, p.dir) b) : ∃ q, chf.outlineStep reg p = .ok (some q) ∧ (q.i, q.dir) = b := by
  obtain ⟨x, z, i, dir, cur, con⟩ := p
  simp only at hi hx hz hd h0 hs
  subst hx hz
  have hget : ∀ k < chf.spans.length, reg[k]? = some (reg.getD k 0) := by
    intro k hk
    rw [List.getD_eq_getElem?_getD, List.getElem?_eq_getElem (by rw [hr]; exact hk)]; rfl
  unfold outlineStep
  simp only
  rw [isSolidEdge_eq hwf hr hi hd, bind_ok]
  cases hs with
  | turn h =>
    have hsol : chf.across reg i dir ≠ reg.getD i 0 := by
      cases hn : chf.nbr i dir with
      | none => rw [across_none hn]; exact fun e => h0 e.symm
      | some k =>
        rw [across_some hn]
        intro e
        exact h k ((nbr_iff_link hwf hd).1 hn) (by rw [hget k (nbr_dlt hwf hd hn), hget i hi, e])
    rw [if_pos (by simpa using hsol), sideReg_eq hwf hr hi hd, bind_ok]
    split
    · exact ⟨_, rfl, rfl⟩
    · exact ⟨_, rfl, rfl⟩
  | cross hk he =>
    rename_i k
    have hn := (nbr_iff_link hwf hd).2 hk
    have hkl := nbr_dlt hwf hd hn
    rw [hget k hkl, hget i hi, Option.some.injEq] at he
    rw [if_neg (by rw [across_some hn]; simpa using he), conNeighbour_eq hwf hi hd, bind_ok, hn]
    exact ⟨_, rfl, rfl⟩

/-- The walk meets the open side. -/
theorem outlineLoop_open {reg : List Nat} (hr : reg.length = chf.spans.length) (startI startDir : Nat) :
    ∀ (m n : Nat) (p : WalkPos) (w : Nat → Nat × Nat), m < n → p.i < chf.spans.length → p.x = chf.xOf p.i → p.z = chf.zOf p.i → p.dir < 4 →
      Met p → reg.getD p.i 0 ≠ 0 → w 0 = (p.i, p.dir) → (∀ j < m, BasinStep chf reg (w j) (w (j + 1))) →
      (∀ k, 1 ≤ k → k ≤ m → w k ≠ (startI, startDir)) → (∀ k, chf.Link (w m).1 (w m).2 k → reg[k]? = some REGION_NONE) →
      Holds (chf.outlineLoop reg startI startDir n p) fun o => 0 ∈ o.1
  | _, 0, _, _, h, _, _, _, _, _, _, _, _, _, _ => absurd h (Nat.not_lt_zero _)
  | 0, n + 1, p, w, _, hi, hx, hz, hd, hm, h0, hw, _, _, ho => by
    rw [hw] at ho
    simp only at ho
    have hac : chf.across reg p.i p.dir = 0 := by
      cases hn : chf.nbr p.i p.dir with
      | none => exact across_none hn
      | some k =>
        have := ho k ((nbr_iff_link hwf hd).1 hn)
        rw [across_some hn, List.getD_eq_getElem?_getD, this]; rfl
    obtain ⟨q, hq, -⟩ := outlineStep_follows hwf hr hi hx hz hd h0 (BasinStep.turn (reg := reg) (i := p.i) (d := p.dir) (fun k hk e => by
      rw [ho k hk, List.getElem?_eq_getElem (by rw [hr]; exact hi), Option.some.injEq] at e
      apply h0
      rw [List.getD_eq_getElem?_getD, List.getElem?_eq_getElem (by rw [hr]; exact hi), ← e]; rfl))
    obtain ⟨h1, h2, h3, h4, h5, h6, h7, h8⟩ := outlineStep_open hwf hr hi hx hz hd hm _ hq q rfl
    have hmem := h7 (by rw [hac]; exact fun e => h0 e.symm)
    rw [hac] at hmem
    unfold outlineLoop
    rw [hq, bind_ok]
    simp only
    split
    · exact Holds.ok hmem
    · exact Holds.mono (outlineLoop_keeps hwf hr startI startDir n q h1 h2 h3 h4 h5) fun o ho => ho.1 0 hmem
  | m + 1, n + 1, p, w, hmn, hi, hx, hz, hd, hm, h0, hw, hs, hne, ho => by
    have hs0 := hs 0 (by omega)
    rw [hw] at hs0
    obtain ⟨q, hq, hqe⟩ := outlineStep_follows hwf hr hi hx hz hd h0 hs0
    obtain ⟨h1, h2, h3, h4, h5, h6, h7, h8⟩ := outlineStep_open hwf hr hi hx hz hd hm _ hq q rfl
    unfold outlineLoop
    rw [hq, bind_ok]
    simp only
    have hns : ¬ (startI = q.i ∧ startDir = q.dir) := by
      rintro ⟨rfl, rfl⟩
      exact hne 1 le_rfl (by omega) hqe.symm
    rw [if_neg hns]
    exact outlineLoop_open hr startI startDir m n q (fun k => w (k + 1)) (by omega) h1 h2 h3 h4 h5 (by rw [h8]; exact h0) hqe.symm
      (fun j hj => hs (j + 1) (by omega)) (fun k hk hk' => hne (k + 1) (by omega) (by omega)) ho

/-- The neighbour to the west comes earlier. -/
theorem nbr_west_lt {i k : Nat} (h : chf.nbr i 0 = some k) : k < i := by
  obtain ⟨hi, hk⟩ := nbr_lt hwf (by omega) h
  obtain ⟨_, _, _, _, _, hn, _⟩ := nbr_con hwf h (by omega)
  simp only [neighbourCell] at hn
  split at hn
  · rename_i hx
    simp only [Option.some.injEq, Prod.mk.injEq] at hn
    have h1 := (xz_spec hwf hi).2.2
    have h2 := (xz_spec hwf hk).2.2
    refine lt_of_col_lt hwf hk hi ?_
    rw [← h1, ← h2, ← hn.2]
    omega
  · cases hn

/-- The outline walked from the first span of a basin meets an open side, if there is one on it. -/
theorem outlineRegions_open {reg : List Nat} (hr : reg.length = chf.spans.length) {i : Nat} (hi : i < chf.spans.length)
    (h0 : reg.getD i 0 ≠ 0) {n : Nat} {w : Nat → Nat × Nat} (hn : n < 40000) (hw : w 0 = (i, 0))
    (hs : ∀ j < n, BasinStep chf reg (w j) (w (j + 1))) (ho : ∀ k, chf.Link (w n).1 (w n).2 k → reg[k]? = some REGION_NONE) :
    Holds (chf.outlineRegions reg (chf.xOf i) (chf.zOf i) i 0) fun o => 0 ∈ o := by
  classical
  have hex : ∃ n, n < 40000 ∧ ∃ w : Nat → Nat × Nat, w 0 = (i, 0) ∧ (∀ j < n, BasinStep chf reg (w j) (w (j + 1))) ∧
      ∀ k, chf.Link (w n).1 (w n).2 k → reg[k]? = some REGION_NONE := ⟨n, hn, w, hw, hs, ho⟩
  obtain ⟨hm, w', hw', hs', ho'⟩ := Nat.find_spec hex
  have hret : ∀ k, 1 ≤ k → k ≤ Nat.find hex → w' k ≠ (i, 0) := by
    intro k hk hkm e
    refine Nat.find_min hex (m := Nat.find hex - k) (by omega) ⟨by omega, fun j => w' (j + k), by simpa using e, ?_, ?_⟩
    · intro j hj
      have := hs' (j + k) (by omega)
      rw [show j + k + 1 = j + 1 + k by omega] at this
      exact this
    · simp only [Nat.sub_add_cancel hkm]; exact ho'
  unfold outlineRegions
  rw [sideReg_eq hwf hr hi (by omega), bind_ok]
  have hmet : Met ⟨chf.xOf i, chf.zOf i, i, 0, chf.across reg i 0, [chf.across reg i 0]⟩ :=
    ⟨fun k h => by simp at h, ⟨[], rfl⟩⟩
  intro c hc
  obtain ⟨⟨o, ret⟩, e, hc⟩ := bind_inv hc
  have h1 := outlineLoop_open hwf hr i 0 _ _ _ w' hm hi rfl rfl (by simp) hmet h0 hw' hs' hret ho' _ e
  have h2 := outlineLoop_keeps hwf hr i 0 _ _ hi rfl rfl (by simp) hmet _ e
  simp only at h1 h2 hc
  split at hc
  · cases hc; exact h1
  · split at hc
    · exact removeAdjacentWalk_keeps _ 0 o (by omega) (fun k _ h => h2.2 k h) _ hc 0 h1
    · cases hc; exact h1

theorem findSolid_west {reg : List Nat} (hr : reg.length = chf.spans.length) {i : Nat} (hi : i < chf.spans.length)
    (hs : chf.across reg i 0 ≠ reg.getD i 0) : chf.findSolid reg (chf.xOf i) (chf.zOf i) i = .ok (some 0) := by
  unfold findSolid
  simp only [List.foldlM_cons, List.foldlM_nil]
  rw [isSolidEdge_eq hwf hr hi (by omega), bind_ok, if_pos (by simpa using hs)]
  rfl

/-- The connections of a basin are found by the walk from the west side of its first span. -/
theorem collectRegions_first {reg : List Nat} (hr : reg.length = chf.spans.length) {nreg l i : Nat} (hl0 : l ≠ 0) (hln : l < nreg)
    (hri : reg[i]? = some l) (hfirst : ∀ k, reg[k]? = some l → i ≤ k) (Q : List Nat → Prop) (hQ : ¬ Q [])
    (hwalk : Holds (chf.outlineRegions reg (chf.xOf i) (chf.zOf i) i 0) Q) :
    Holds (chf.collectRegions reg nreg) fun T => Q (getR T l).connections := by
  have hil : i < chf.spans.length := by rw [← hr]; exact (List.getElem?_eq_some_iff.1 hri).1
  have hgi : reg.getD i 0 = l := by rw [List.getD_eq_getElem?_getD, hri]; rfl
  have hget : ∀ k < chf.spans.length, reg[k]? = some (reg.getD k 0) := by
    intro k hk
    rw [List.getD_eq_getElem?_getD, List.getElem?_eq_getElem (by rw [hr]; exact hk)]; rfl
  unfold collectRegions
  rw [forSpans_eq hwf]
  refine Holds.mono (foldlM_holds (fun pre (T : List Region) => T.length = nreg ∧
    ((∀ k ∈ pre, reg.getD k 0 ≠ l) → (getR T l).connections = []) ∧
    ((∃ k ∈ pre, reg.getD k 0 = l) → Q (getR T l).connections)) (List.range chf.spans.length) _ ?_ ?_) ?_
  · have hg : getR ((List.range nreg).map Region.new) l = Region.new l := by
      simp [getR, List.getD_eq_getElem?_getD, hln]
    exact ⟨by simp, fun _ => by rw [hg]; rfl, by simp⟩
  · rintro pre k post T he ⟨hT, hnil, hin⟩
    have hk : k < chf.spans.length := List.mem_range.1 (by rw [he]; simp)
    unfold collectSpan
    rw [idx_getD (by rw [hr]; exact hk), bind_ok]
    by_cases hskip : reg.getD k 0 = REGION_NONE ∨ reg.getD k 0 ≥ nreg
    · rw [if_pos hskip]
      have hkl : reg.getD k 0 ≠ l := by
        rintro e
        rcases hskip with h | h
        · exact hl0 (by rw [← e]; exact h)
        · omega
      refine Holds.ok ⟨hT, fun h => hnil fun q hq => h q (by simp [hq]), ?_⟩
      rintro ⟨q, hq, e⟩
      rcases List.mem_append.1 hq with hq | hq
      · exact hin ⟨q, hq, e⟩
      · rw [List.mem_singleton.1 hq] at e; exact absurd e hkl
    · rw [if_neg hskip]
      rw [not_or] at hskip
      have hlt : reg.getD k 0 < T.length := by rw [hT]; omega
      rw [idx_getR hlt, bind_ok]
      obtain ⟨hcl, cell, hcell, hmem⟩ := col_spec hwf hk
      obtain ⟨hx, hz, hxz⟩ := xz_spec hwf hk
      have hcellAt : chf.cellAt (chf.xOf k) (chf.zOf k) = .ok cell := by
        simp only [cellAt, columnIndex]; rw [hxz, idx_some hcell]
      rw [hcellAt, bind_ok]
      refine Holds.bind (P := fun rg : Region => rg.connections = (getR T (reg.getD k 0)).connections) ?_ ?_
      · refine foldlM_holds_inv (fun rg : Region => rg.connections = (getR T (reg.getD k 0)).connections) _ _ rfl ?_
        intro q hq rg hrg
        refine Holds.mono (Out.holds (floorStep_out (bad := False) hwf (by rw [hr]; exact mem_cell_lt hwf hcell hq))) ?_
        rintro o ⟨_, _, o3, _⟩
        exact o3.trans hrg
      · intro rg hrg o hso
        obtain ⟨o, e, hso⟩ := bind_inv hso
        rw [setIdx_ok hlt] at hso
        cases hso
        have hg := getR_set (T := T) (i := reg.getD k 0) (j := l) (v := o) hlt
        by_cases hkl : reg.getD k 0 = l
        · refine ⟨by simpa using hT, fun h => absurd hkl (h k (by simp)), fun _ => ?_⟩
          rw [hg, if_pos hkl.symm]
          rw [hkl] at hrg
          unfold findOutline at e
          split at e
          · rename_i hne
            cases e
            rw [hrg]
            refine hin ?_
            by_contra hno
            push Not at hno
            have := hnil hno
            rw [hrg, this] at hne
            cases hne
          · rename_i hemp
            have hemp' : rg.connections = [] := by simpa using hemp
            have hno : ∀ q ∈ pre, reg.getD q 0 ≠ l := by
              intro q hq e'
              have := hin ⟨q, hq, e'⟩
              rw [← hrg, hemp'] at this
              exact hQ this
            have hki : k = i := by
              have h1 := hfirst k (by rw [hget k hk, hkl])
              rcases Nat.lt_or_ge i k with hlt' | hge
              · exfalso
                refine hno i ?_ hgi
                have : (List.range chf.spans.length) = pre ++ k :: post := he
                have hpk : pre = List.range k := by
                  have hlen : pre.length = k := by
                    have h2 : (List.range chf.spans.length)[pre.length]? = some k := by rw [this]; simp
                    have h3 := List.getElem?_eq_some_iff.1 h2
                    obtain ⟨h3, h4⟩ := h3
                    simpa using h4
                  have h2 := congrArg (List.take k) this
                  rw [List.take_range, List.take_append_of_le_length (by omega), List.take_of_length_le (by omega)] at h2
                  rw [← h2]; congr 1; omega
                rw [hpk]; exact List.mem_range.2 hlt'
              · omega
            subst hki
            have hac : chf.across reg k 0 ≠ reg.getD k 0 := by
              cases hnb : chf.nbr k 0 with
              | none => rw [across_none hnb, hgi]; exact fun e => hl0 e.symm
              | some q =>
                rw [across_some hnb, hgi]
                intro e'
                have h1 := nbr_west_lt hwf hnb
                have h2 := hfirst q (by rw [hget q (by omega), e'])
                omega
            obtain ⟨area, _, e⟩ := bind_inv e
            rw [findSolid_west hwf hr hk hac, bind_ok] at e
            obtain ⟨con, hcon, e⟩ := bind_inv e
            cases e
            exact hwalk _ hcon
        · refine ⟨by simpa using hT, fun h => ?_, ?_⟩
          · rw [hg, if_neg (fun e => hkl e.symm)]
            exact hnil fun q hq => h q (by simp [hq])
          · rintro ⟨q, hq, e'⟩
            rw [hg, if_neg (fun e => hkl e.symm)]
            rcases List.mem_append.1 hq with hq | hq
            · exact hin ⟨q, hq, e'⟩
            · rw [List.mem_singleton.1 hq] at e'; exact absurd e' hkl
  · rintro T ⟨_, _, hin⟩
    exact hin ⟨i, List.mem_range.2 hil, hgi⟩

/-- A basin with an open side on its outline has "none" among its connections. -/
theorem collectRegions_open {reg : List Nat} (hr : reg.length = chf.spans.length) {nreg l : Nat} (hl0 : l ≠ 0) (hln : l < nreg)
    (h : chf.ReachesOpen reg l) : Holds (chf.collectRegions reg nreg) fun T => 0 ∈ (getR T l).connections := by
  obtain ⟨i, hri, hfirst, n, w, hn, hw, hs, ho⟩ := h
  have hil : i < chf.spans.length := by rw [← hr]; exact (List.getElem?_eq_some_iff.1 hri).1
  have hgi : reg.getD i 0 = l := by rw [List.getD_eq_getElem?_getD, hri]; rfl
  exact collectRegions_first hwf hr hl0 hln hri hfirst (0 ∈ ·) (by simp)
    (outlineRegions_open hwf hr hil (by rw [hgi]; exact hl0) hn hw hs ho)

end
end CompactHeightfield
end Rerecast
