import Verif.Lemmas.RegionsCould
import Verif.Lemmas.RegionsWallRun
import Verif.Props.C89_MergeSize
/-! C95: small regions are joined with the smallest region they touch. -/
namespace Rerecast
open CompactHeightfield

/-- **C95, proved part: a small region is joined.** A basin of at most `size` spans that could be joined with a region it touches does not stay
alone.  Missing: a basin whose wall the program does not walk around in 40,000 steps, and one that touches a basin which does not touch it back
(the program walks only along the outer wall or a hole, whichever the first span is at). -/
theorem c95_joined_partial (chf : CompactHeightfield) (hr : chf.Ready) (b min size : Nat) (reg : List Nat) (next : Nat)
    (hl : chf.labelRegions b = .ok (reg, next)) (out : CompactHeightfield) (hok : chf.buildRegions b min size = .ok out)
    (l : Nat) (hkept : out.SameRegion reg l l) (hsize : basinSize reg l ≤ size) (hflat : ¬ chf.StackedOn reg l l)
    (hmutual : ∀ m k, ProperRegion m → chf.Touching reg l m (k + 1) → ∃ k', chf.Touching reg m l (k' + 1))
    (m : Nat) (hne : m ≠ l) (hm : CouldJoin chf out reg l m) : ∃ n, n ≠ l ∧ out.SameRegion reg l n := by
  obtain ⟨f, T0, T1, T2, hJ⟩ := buildRegions_joins hr.wf hr.dist hr.max b min size hok hl
  by_contra hno
  push Not at hno
  obtain ⟨hX, _, hpX, _, _, hp2, hu, _⟩ := hJ.same hkept
  have hT := hJ.tables.tab
  have hI := hJ.inv
  have hroot : (getR T2 l).id = l := by
    by_contra h
    have h1 := hI.used l hX hp2 h
    exact hno _ h (hJ.same_of hX (hT.idlt l hX) (by rw [hT.root l hX hp2]) hp2 hu h1.2.1)
  have ha : Alone (next + 1) T2 l := by
    refine ⟨hroot, fun k hk e => ?_⟩
    by_contra h
    exact hno k h (hJ.same_of hX hk (by rw [hroot, e]) hp2 hu (hI.class_used hX hk hp2 (by rw [e, hroot]) hu))
  obtain ⟨c1, c2, c3, _⟩ := hJ.candidate hT hI Relation.ReflTransGen.refl hX hpX ha hne hm
  have hsc := hJ.alone_size hI hX hpX ha
  have hcnt : (getR T0 l).spanCount = basinSize reg l := by
    rw [hJ.tables.counted.count l hX hpX.1, ← hJ.tables.reglen]
    exact count_eq_countP reg l
  rcases hJ.idle l hX with h | h | h | h | h | ⟨n, hn, hcn, hne', hnr, hnot⟩
  · exact h hp2
  · rw [hI.over l hX] at h
    exact hflat (hJ.overlap l hX h)
  · rw [hsc, hcnt] at h
    obtain ⟨i, hi, e⟩ := hu
    have : 0 < reg.count l := List.count_pos_iff.2 (by
      rw [← e, List.getD_eq_getElem?_getD, List.getElem?_eq_getElem (by rw [hJ.tables.reglen]; exact hi)]
      exact List.getElem_mem _)
    unfold basinSize at h
    omega
  · rw [hsc, hcnt] at h; omega
  · exact h _ c1 c2
  · have hnl : n < next + 1 := by rw [← hT.len]; exact hcn.lt
    have hpn : ProperRegion n := by have := hcn.proper; rwa [hnr] at this
    have h1 := hI.cnt l hX n hnl hroot hnr hpX hpn (Ne.symm hne')
    have h2 := List.count_pos_iff.2 hn
    have h3 : listed (next + 1) T0 (fun a => (getR T2 a).id) l n ≠ 0 := by omega
    unfold listed at h3
    obtain ⟨a, haa, h4⟩ := Finset.exists_ne_zero_of_sum_ne_zero h3
    obtain ⟨k, hk, h5⟩ := Finset.exists_ne_zero_of_sum_ne_zero h4
    have hkl := Finset.mem_range.1 hk
    have h6 : (getR T2 a).id = l ∧ (getR T2 k).id = n := by
      by_contra hc; rw [if_neg hc] at h5; exact h5 rfl
    rw [if_pos h6] at h5
    have hal := ha.2 a (Finset.mem_range.1 haa) h6.1
    subst hal
    have hpk := (hJ.proper hkl (by rw [h6.2]; exact hpn)).1
    obtain ⟨vs, hv, hvc⟩ := hm.there
    have hvk : chf.Touching reg a k ((getR T0 a).connections.count k - 1 + 1) := ⟨vs, hv, by rw [← hJ.wall a hX hpX.1 vs hv]; omega⟩
    obtain ⟨k', hk'⟩ := hmutual k _ hpk hvk
    have h7 := (hJ.touching hkl hpk.1 hk').1
    have h8 := hI.memb k hkl a hX (List.count_pos_iff.1 (by omega)) (by rw [h6.2]; exact hpn) hp2 (by rw [h6.2, hroot]; exact hne')
    rw [h6.2, hroot] at h8
    exact hnot h8

/-- **C95, proved part: which regions are joined.** Where a region consists of just the basins `l` and `l'`, these touch in at most one stretch,
and one of them, `x`, was joined with the other, `y`, because it has at most `size` spans or no open side, and every other region it could have
been joined with has at least as many spans as `y`.  Missing: regions of more than two basins. -/
theorem c95_pair_partial (chf : CompactHeightfield) (hr : chf.Ready) (b min size : Nat) (reg : List Nat) (next : Nat)
    (hl : chf.labelRegions b = .ok (reg, next)) (out : CompactHeightfield) (hok : chf.buildRegions b min size = .ok out)
    (l l' : Nat) (hne : l ≠ l') (hsame : out.SameRegion reg l l') (honly : ∀ k, out.SameRegion reg l k → k = l ∨ k = l') :
    (∀ n, chf.Touching reg l l' n → n ≤ 1) ∧ (∀ n, chf.Touching reg l' l n → n ≤ 1) ∧
      ∃ x y, ((x = l ∧ y = l') ∨ (x = l' ∧ y = l)) ∧ (basinSize reg x ≤ size ∨ ¬ chf.ReachesOpen reg x) ∧
        ∀ m n, m ≠ l → m ≠ l' → CouldJoin chf out reg x m → out.RegionSize reg m n → basinSize reg y ≤ n := by
  obtain ⟨f, T0, T1, T2, hJ⟩ := buildRegions_joins hr.wf hr.dist hr.max b min size hok hl
  obtain ⟨hA, hB, hpA, hpB, hid, hp2, huA, huB⟩ := hJ.same hsame
  have hTab := hJ.tables.tab
  have h1 := (hJ.proper hA hp2).2
  have h1' := (hJ.proper hB (hid ▸ hp2)).2
  obtain ⟨x, y, S, S', hxy, hT, ⟨hI, hM⟩, hm, hax, hay, hch⟩ := chain_pair hJ.chain hA hB (by rw [h1, h1']; exact hne) hid (fun k hk e =>
    honly k (hJ.same_of hA hk e.symm hp2 huA (hJ.inv.class_used hA hk hp2 e huA)))
  have hcnt : ∀ v < next + 1, ProperRegion v → (getR T0 v).spanCount = basinSize reg v := by
    intro v hv hpv
    rw [hJ.tables.counted.count v hv hpv.1, ← hJ.tables.reglen]
    exact count_eq_countP reg v
  have htouch : (∀ n, chf.Touching reg x y n → n ≤ 1) ∧ ∀ n, chf.Touching reg y x n → n ≤ 1 := by
    have cm : ∀ {r m : Region}, r.canMergeWith m = true → r.connections.count m.id ≤ 1 := by
      intro r m hc
      unfold Region.canMergeWith at hc
      split at hc
      · cases hc
      · split at hc
        · cases hc
        · omega
    have hc1 := cm hm.cand.there
    have hc2 := cm hm.cand.back
    rw [hay.1] at hc1
    rw [hax.1] at hc2
    refine ⟨fun n hn => ?_, fun n hn => ?_⟩
    · obtain ⟨e, ht⟩ := hJ.touching hm.hi hm.proper.1 hn
      have := (hI.single x hm.hi y hm.hnew hm.proper hm.newproper (Ne.symm hm.ne) hax hay (ht y)).2
      omega
    · obtain ⟨e, ht⟩ := hJ.touching hm.hnew hm.newproper.1 hn
      have := (hI.single y hm.hnew x hm.hi hm.newproper hm.proper hm.ne hay hax (ht x)).2
      omega
  have hrest : (basinSize reg x ≤ size ∨ ¬ chf.ReachesOpen reg x) ∧
      ∀ m n, m ≠ x → CouldJoin chf out reg x m → out.RegionSize reg m n → basinSize reg y ≤ n := by
    refine ⟨?_, fun m n hmx hc hn => ?_⟩
    · rcases hm.small with h | h
      · left
        rw [hJ.alone_size hI hm.hi hm.proper hax, hcnt x hm.hi hm.proper] at h
        exact h
      · right
        intro ho
        have := collectRegions_open hr.wf hJ.tables.reglen hm.proper.1 hm.hi ho _ hJ.tables.collect
        have := hM.zero x hm.hi (by rw [hax.1]; exact hm.proper) this
        rw [hax.1] at this
        exact h this
    · obtain ⟨c1, c2, _, c4⟩ := hJ.candidate hT hI hch hm.hi hm.proper hax hmx hc
      have := hm.least _ c1 c2
      rw [hJ.alone_size hI hm.hnew hm.newproper hay, hcnt y hm.hnew hm.newproper] at this
      exact this.trans (c4 n hn)
  rcases hxy with ⟨rfl, rfl⟩ | ⟨rfl, rfl⟩
  · exact ⟨htouch.1, htouch.2, x, y, Or.inl ⟨rfl, rfl⟩, hrest.1, fun m n h _ => hrest.2 m n h⟩
  · exact ⟨htouch.2, htouch.1, x, y, Or.inr ⟨rfl, rfl⟩, hrest.1, fun m n _ h => hrest.2 m n h⟩

/-! ### an example: three rooms in a row -/

/-- A small room between two larger ones, with doors between them. -/
def threeRooms : CompactHeightfield := layers 20 7 1 [
  1, 1, 1, 1, 1, 1, 1, 0, 0, 0, 0, 0, 0, 0, 1, 1, 1, 1, 1, 1,
  1, 1, 1, 1, 1, 1, 1, 0, 1, 1, 1, 1, 1, 0, 1, 1, 1, 1, 1, 1,
  1, 1, 1, 1, 1, 1, 1, 0, 1, 1, 1, 1, 1, 0, 1, 1, 1, 1, 1, 1,
  1, 1, 1, 1, 1, 1, 1, 1, 1, 1, 1, 1, 1, 1, 1, 1, 1, 1, 1, 1,
  1, 1, 1, 1, 1, 1, 1, 0, 1, 1, 1, 1, 1, 0, 1, 1, 1, 1, 1, 1,
  1, 1, 1, 1, 1, 1, 1, 0, 1, 1, 1, 1, 1, 0, 1, 1, 1, 1, 1, 1,
  1, 1, 1, 1, 1, 1, 1, 0, 0, 0, 0, 0, 0, 0, 1, 1, 1, 1, 1, 1]

/-- With its distance field. -/
def threeRoomsD : CompactHeightfield := { threeRooms with maxDistance := 6, dist := [
  0, 0, 0, 0, 0, 0, 0, 0, 0, 0, 0, 0, 0, 0, 0, 0, 0, 0, 0, 0,
  0, 2, 2, 2, 2, 2, 0, 0, 0, 0, 0, 0, 0, 0, 0, 2, 2, 2, 2, 0,
  0, 2, 3, 4, 3, 2, 0, 0, 0, 2, 2, 2, 0, 0, 0, 2, 3, 3, 2, 0,
  0, 2, 4, 4, 4, 3, 2, 0, 2, 2, 3, 2, 2, 0, 2, 3, 4, 4, 2, 0,
  0, 2, 3, 4, 3, 2, 0, 0, 0, 2, 2, 2, 0, 0, 0, 2, 3, 3, 2, 0,
  0, 2, 2, 2, 2, 2, 0, 0, 0, 0, 0, 0, 0, 0, 0, 2, 2, 2, 2, 0,
  0, 0, 0, 0, 0, 0, 0, 0, 0, 0, 0, 0, 0, 0, 0, 0, 0, 0, 0, 0] }

/-- Its basins: the large room on the left, the one on the right, and the small one, with their doors. -/
def threeLabels : List Nat := [
  1, 1, 1, 1, 1, 1, 1, 0, 0, 0, 0, 0, 0, 0, 2, 2, 2, 2, 2, 2,
  1, 1, 1, 1, 1, 1, 1, 0, 3, 3, 3, 3, 3, 0, 2, 2, 2, 2, 2, 2,
  1, 1, 1, 1, 1, 1, 1, 0, 3, 3, 3, 3, 3, 0, 2, 2, 2, 2, 2, 2,
  1, 1, 1, 1, 1, 1, 1, 1, 3, 3, 3, 3, 3, 3, 2, 2, 2, 2, 2, 2,
  1, 1, 1, 1, 1, 1, 1, 0, 3, 3, 3, 3, 3, 0, 2, 2, 2, 2, 2, 2,
  1, 1, 1, 1, 1, 1, 1, 0, 3, 3, 3, 3, 3, 0, 2, 2, 2, 2, 2, 2,
  1, 1, 1, 1, 1, 1, 1, 0, 0, 0, 0, 0, 0, 0, 2, 2, 2, 2, 2, 2]

/-- Its regions, with the setting 26: the small room is joined with the smaller of the others. -/
def threeRegions : List Nat := threeLabels.map fun l => if l = 3 then 2 else l

theorem three_wellFormed : threeRooms.WellFormed := layers_wellFormed (by decide) (by decide) (by decide) (by decide +kernel)
theorem three_distance : threeRooms.buildDistanceField = .ok threeRoomsD := by decide +kernel
theorem three_ready : threeRoomsD.Ready := (ready_of_distance_field threeRooms three_wellFormed (Or.inl (by decide)) _ three_distance).1
theorem three_labels : threeRoomsD.labelRegions 0 = .ok (threeLabels, 4) := by decide +kernel
theorem three_regions : (threeRoomsD.buildRegions 0 0 26).map (fun c => c.spans.map CompactSpan.region) = .ok threeRegions := by decide +kernel
theorem three_cols : ((List.range 140).map threeRoomsD.colOf).Nodup := by decide +kernel

/-- What a walk of `n` steps around comes past, and whether it is back then for the first time. -/
def onceAround (chf : CompactHeightfield) (reg : List Nat) (i n : Nat) : Option (List Nat) :=
  if (chf.wallRun reg n (i, 0)).1 = (i, 0) ∧ (List.range n).all (fun m => decide (m = 0 ∨ (chf.wallRun reg m (i, 0)).1 ≠ (i, 0))) then
    some (stretches (chf.wallRun reg n (i, 0)).2) else none

theorem three_around : onceAround threeRoomsD threeLabels 0 56 = some [0, 3] ∧ onceAround threeRoomsD threeLabels 14 48 = some [0, 3] ∧
    onceAround threeRoomsD threeLabels 28 40 = some [0, 1, 0, 2] := by decide +kernel

theorem onceAround_wall {chf : CompactHeightfield} (hwf : chf.WellFormed) {reg : List Nat} (hr : reg.length = chf.spans.length) {l i n : Nat} {w : List Nat}
    (hl : l ≠ 0) (hi : reg[i]? = some l) (hfirst : ∀ k < i, reg[k]? ≠ some l) (hn0 : 0 < n) (hn : n ≤ 40000) (h : onceAround chf reg i n = some w) :
    ∃ vs, chf.Wall reg l vs ∧ stretches vs = w := by
  unfold onceAround at h
  split at h
  · rename_i hc
    obtain ⟨h1, h2⟩ := hc
    rw [List.all_eq_true] at h2
    refine ⟨_, wall_of_run hwf hr hl hi hfirst hn0 hn (Prod.ext h1 rfl) (fun m hm hm0 => ?_), Option.some.inj h⟩
    have := of_decide_eq_true (h2 m (List.mem_range.2 hm))
    rcases this with h | h
    · omega
    · exact h
  · cases h

theorem three_len : threeLabels.length = threeRoomsD.spans.length := by decide +kernel
theorem three_first : threeLabels[0]? = some 1 ∧ threeLabels[14]? = some 2 ∧ (∀ k < 14, threeLabels[k]? ≠ some 2) ∧ threeLabels[28]? = some 3 ∧
    ∀ k < 28, threeLabels[k]? ≠ some 3 := by decide +kernel

theorem three_walls : (∃ vs, threeRoomsD.Wall threeLabels 1 vs ∧ stretches vs = [0, 3]) ∧ (∃ vs, threeRoomsD.Wall threeLabels 2 vs ∧ stretches vs = [0, 3]) ∧
    ∃ vs, threeRoomsD.Wall threeLabels 3 vs ∧ stretches vs = [0, 1, 0, 2] := by
  obtain ⟨h1, h2, h3⟩ := three_around
  obtain ⟨f1, f2, f3, f4, f5⟩ := three_first
  have hl := three_len
  have hwf := three_ready.wf
  generalize threeRoomsD = chf at *
  exact ⟨onceAround_wall hwf hl (by omega) f1 (fun k hk => absurd hk (by omega)) (by omega) (by omega) h1,
    onceAround_wall hwf hl (by omega) f2 f3 (by omega) (by omega) h2, onceAround_wall hwf hl (by omega) f4 f5 (by omega) (by omega) h3⟩

theorem three_unstacked (l m : Nat) : ¬ threeRoomsD.StackedOn threeLabels l m := by
  rintro ⟨x, z, i, k, s, t, hne, hi, hk, ei, ek⟩
  have hwf := three_ready.wf
  have hcol := three_cols
  have hl := three_len
  have h140 : threeLabels.length = 140 := by decide +kernel
  generalize threeRoomsD = chf at *
  have hil : i < 140 := by rw [← h140]; exact (List.getElem?_eq_some_iff.1 ei).1
  have hkl : k < 140 := by rw [← h140]; exact (List.getElem?_eq_some_iff.1 ek).1
  obtain ⟨a1, a2⟩ := at_unique hwf hi
  obtain ⟨b1, b2⟩ := at_unique hwf hk
  have c1 := (xz_spec hwf (by rw [← hl, h140]; exact hil : i < chf.spans.length)).2.2
  have c2 := (xz_spec hwf (by rw [← hl, h140]; exact hkl : k < chf.spans.length)).2.2
  have : chf.colOf i = chf.colOf k := by rw [← c1, ← c2, ← a1, ← a2, ← b1, ← b2]
  exact hne (List.inj_on_of_nodup_map hcol (List.mem_range.2 hil) (List.mem_range.2 hkl) this)

theorem three_pairs : ∀ p ∈ threeLabels.zip threeRegions, p = (1, 1) ∨ p = (0, 0) ∨ p = (2, 2) ∨ p = (3, 2) := by decide +kernel
theorem three_at : threeRegions[0]? = some 1 ∧ threeRegions[14]? = some 2 ∧ threeRegions[28]? = some 2 := by decide +kernel
theorem three_area : threeRoomsD.areas[28]? = threeRoomsD.areas[0]? ∧ threeRoomsD.areas[28]? = threeRoomsD.areas[14]? := by decide +kernel

theorem three_out : ∃ out, threeRoomsD.buildRegions 0 0 26 = .ok out ∧ out.spans.map CompactSpan.region = threeRegions := by
  have h := three_regions
  generalize threeRoomsD = chf at h
  cases hx : chf.buildRegions 0 0 26 with
  | error e => rw [hx] at h; cases h
  | ok out => rw [hx] at h; exact ⟨out, rfl, Except.ok.inj h⟩

theorem three_same {out : CompactHeightfield} (ho : out.spans.map CompactSpan.region = threeRegions) :
    (∀ l m, out.SameRegion threeLabels l m → (l = 1 ∧ m = 1) ∨ ((l = 2 ∨ l = 3) ∧ (m = 2 ∨ m = 3))) ∧
    out.SameRegion threeLabels 1 1 ∧ out.SameRegion threeLabels 2 2 ∧ out.SameRegion threeLabels 3 3 ∧ out.SameRegion threeLabels 3 2 := by
  have hro : ∀ i r, out.RegionOf i r ↔ threeRegions[i]? = some r := by
    intro i r
    rw [← ho, List.getElem?_map, Option.map_eq_some_iff]; rfl
  obtain ⟨f1, f2, _, f4, _⟩ := three_first
  obtain ⟨g1, g2, g3⟩ := three_at
  refine ⟨?_, ⟨0, 0, 1, f1, f1, by decide, (hro _ _).2 g1, (hro _ _).2 g1⟩, ⟨14, 14, 2, f2, f2, by decide, (hro _ _).2 g2, (hro _ _).2 g2⟩,
    ⟨28, 28, 2, f4, f4, by decide, (hro _ _).2 g3, (hro _ _).2 g3⟩, ⟨28, 14, 2, f4, f2, by decide, (hro _ _).2 g3, (hro _ _).2 g2⟩⟩
  rintro l m ⟨i, j, r, hi, hj, hp, h1, h2⟩
  rw [hro] at h1 h2
  have p1 := three_pairs _ (List.mem_of_getElem? (List.getElem?_zip_eq_some.2 ⟨hi, h1⟩ : (threeLabels.zip threeRegions)[i]? = some (l, r)))
  have p2 := three_pairs _ (List.mem_of_getElem? (List.getElem?_zip_eq_some.2 ⟨hj, h2⟩ : (threeLabels.zip threeRegions)[j]? = some (m, r)))
  have h0 : r ≠ 0 := hp.1
  simp only [Prod.mk.injEq] at p1 p2
  omega

theorem three_could {out : CompactHeightfield} (ho : out.spans.map CompactSpan.region = threeRegions) :
    CouldJoin threeRoomsD out threeLabels 3 1 ∧ CouldJoin threeRoomsD out threeLabels 3 2 := by
  obtain ⟨hs, s1, s2, s3, _⟩ := three_same ho
  obtain ⟨⟨v1, w1, e1⟩, ⟨v2, w2, e2⟩, v3, w3, e3⟩ := three_walls
  obtain ⟨f1, f2, _, f4, _⟩ := three_first
  have hst := three_unstacked
  have ha := three_area
  generalize threeRoomsD = chf at *
  refine ⟨⟨s1, ⟨28, 0, f4, f1, ha.1⟩, hst _ _, ⟨v3, w3, by rw [e3]; decide⟩, ⟨v1, w1, by rw [e1]; decide⟩, ?_, fun k _ => ⟨hst _ _, hst _ _⟩⟩,
    ⟨s2, ⟨28, 14, f4, f2, ha.2⟩, hst _ _, ⟨v3, w3, by rw [e3]; decide⟩, ⟨v2, w2, by rw [e2]; decide⟩, ?_, fun k _ => ⟨hst _ _, hst _ _⟩⟩⟩
  · intro k hk hne
    rcases hs 1 k hk with ⟨_, rfl⟩ | ⟨h | h, _⟩
    · exact absurd rfl hne
    · cases h
    · cases h
  · intro k hk hne
    rcases hs 2 k hk with ⟨h, _⟩ | ⟨_, rfl | rfl⟩
    · cases h
    · exact absurd rfl hne
    · exact ⟨⟨v3, w3, by rw [e3]; decide⟩, ⟨v3, w3, by rw [e3]; decide⟩⟩

/-- The hypotheses of `c95_joined_partial` are met by the small room of 26 spans and the setting 26. -/
example : ∃ out, threeRoomsD.buildRegions 0 0 26 = .ok out ∧ threeRoomsD.Ready ∧ threeRoomsD.labelRegions 0 = .ok (threeLabels, 4) ∧
    out.SameRegion threeLabels 3 3 ∧ basinSize threeLabels 3 = 26 ∧ ¬ threeRoomsD.StackedOn threeLabels 3 3 ∧
    (∀ m k, ProperRegion m → threeRoomsD.Touching threeLabels 3 m (k + 1) → ∃ k', threeRoomsD.Touching threeLabels m 3 (k' + 1)) ∧
    CouldJoin threeRoomsD out threeLabels 3 1 := by
  obtain ⟨out, h1, h2⟩ := three_out
  have hc := three_could h2
  refine ⟨out, h1, three_ready, three_labels, (three_same h2).2.2.2.1, by decide +kernel, three_unstacked 3 3, ?_, hc.1⟩
  rintro m k hp ⟨vs, hv, hcnt⟩
  obtain ⟨_, _, v3, w3, e3⟩ := three_walls
  have := wall_unique three_ready.wf three_len hv w3
  rw [this, e3] at hcnt
  have hm : m ∈ [0, 1, 0, 2] := List.count_pos_iff.1 (by omega)
  have h0 : m ≠ 0 := hp.1
  simp only [List.mem_cons, List.not_mem_nil, or_false] at hm
  have : m = 1 ∨ m = 2 := by omega
  rcases this with rfl | rfl
  · exact ⟨0, hc.1.back⟩
  · exact ⟨0, hc.2.back⟩

/-- The hypotheses of `c95_pair_partial` are met by the small room and the one on the right, of 42 spans; the small room could also be joined
with the one on the left, of 50 spans. -/
example : ∃ out, threeRoomsD.buildRegions 0 0 26 = .ok out ∧ threeRoomsD.Ready ∧ threeRoomsD.labelRegions 0 = .ok (threeLabels, 4) ∧
    out.SameRegion threeLabels 3 2 ∧ (∀ k, out.SameRegion threeLabels 3 k → k = 3 ∨ k = 2) ∧ basinSize threeLabels 2 = 42 ∧
    CouldJoin threeRoomsD out threeLabels 3 1 ∧ out.RegionSize threeLabels 1 50 := by
  obtain ⟨out, h1, h2⟩ := three_out
  obtain ⟨hs, _, _, _, s⟩ := three_same h2
  have hro : out.RegionOf 0 1 := by
    have := three_at.1
    rw [← h2, List.getElem?_map, Option.map_eq_some_iff] at this
    exact this
  refine ⟨out, h1, three_ready, three_labels, s, ?_, by decide +kernel, (three_could h2).1, 0, 1, three_first.1, hro, by rw [h2]; decide +kernel⟩
  intro k hk
  rcases hs 3 k hk with ⟨h, _⟩ | ⟨_, rfl | rfl⟩
  · cases h
  · exact Or.inr rfl
  · exact Or.inl rfl

end Rerecast
