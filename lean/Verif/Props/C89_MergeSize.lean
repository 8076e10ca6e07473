import Verif.Lemmas.RegionsOpen
import Verif.Props.C64_C65_Merging
/-! C89: regions larger than the merge size are not joined.  A basin is a set of spans that `build_regions` labels alike before it removes and
joins (`labelRegions`). -/
namespace Rerecast
open CompactHeightfield

theorem count_eq_countP (reg : List Nat) (l : Nat) : (List.range reg.length).countP (fun i => decide (reg.getD i 0 = l)) = reg.count l := by
  induction reg using List.reverseRecOn with
  | nil => rfl
  | append_singleton reg a ih =>
    have h1 : (List.range reg.length).countP (fun i => decide ((reg ++ [a]).getD i 0 = l)) =
        (List.range reg.length).countP (fun i => decide (reg.getD i 0 = l)) := by
      refine List.countP_congr fun i hi => ?_
      have := List.mem_range.1 hi
      simp [List.getD_eq_getElem?_getD, List.getElem?_append_left this]
    rw [List.length_append, List.length_singleton, List.range_succ, List.countP_append, h1, ih, List.count_append]
    simp [List.countP_singleton, List.count_singleton]

private theorem getD_some {l : List Nat} {i v : Nat} (h : l[i]? = some v) : i < l.length ∧ l.getD i 0 = v :=
  ⟨(List.getElem?_eq_some_iff.1 h).1, by simp [List.getD_eq_getElem?_getD, h]⟩

/-- **C89, proved part.** Two basins of more than `size` spans each, both with an open side on their outline, are never joined.  Missing: basins
that are surrounded by other basins, or whose outline is open only at another place than the one the program walks along; these can be joined
whatever their size is (`c89_violated`). -/
theorem c89_large_separate_partial (chf : CompactHeightfield) (hr : chf.Ready) (b min size : Nat) (reg : List Nat) (next : Nat)
    (hl : chf.labelRegions b = .ok (reg, next)) (out : CompactHeightfield) (hok : chf.buildRegions b min size = .ok out)
    (l l' : Nat) (hne : l ≠ l') (hp : ProperRegion l) (hp' : ProperRegion l') (hs : size < basinSize reg l) (hs' : size < basinSize reg l')
    (ho : chf.ReachesOpen reg l) (ho' : chf.ReachesOpen reg l') (i j r : Nat) (hi : reg[i]? = some l) (hj : reg[j]? = some l')
    (hpr : ProperRegion r) (hri : out.RegionOf i r) : ¬ out.RegionOf j r := by
  intro hrj
  obtain ⟨reg', next', f, T0, T1, T2, e, hT, hro⟩ := buildRegions_tables hr.wf hr.dist hr.max b min size hok
  rw [hl] at e; cases e
  obtain ⟨h1, h2⟩ := (hro i r).1 hri
  obtain ⟨h3, h4⟩ := (hro j r).1 hrj
  obtain ⟨h5, h6⟩ := hT.final i h1 j h3 (by rw [h2]; exact hpr) (by rw [h2, h4])
  obtain ⟨_, gi⟩ := getD_some hi
  obtain ⟨_, gj⟩ := getD_some hj
  have hlt : l < next + 1 := by
    rcases hT.bound i h1 with h | h
    · rwa [gi] at h
    · rw [gi, hp.2] at h; cases h
  have hlt' : l' < next + 1 := by
    rcases hT.bound j h3 with h | h
    · rwa [gj] at h
    · rw [gj, hp'.2] at h; cases h
  have hlab : ∀ k v, reg.getD k 0 = v → ProperRegion v → label reg T2 k = (getR T2 v).id := by
    intro k v hk hv
    unfold label
    rw [hk]
    simp [hv.2]
  rw [hlab i l gi hp] at h5 h6
  rw [hlab j l' gj hp'] at h5
  have hcnt : ∀ v < next + 1, ProperRegion v → (getR T0 v).spanCount = basinSize reg v := by
    intro v hv hpv
    rw [hT.counted.count v hv hpv.1, ← hT.reglen]
    exact count_eq_countP reg v
  have hop : ∀ v < next + 1, ProperRegion v → chf.ReachesOpen reg v → 0 ∈ (getR T0 v).connections := fun v hv hpv ho =>
    collectRegions_open hr.wf hT.reglen hpv.1 hv ho _ hT.collect
  rcases hT.merge.absorbed l hlt l' hlt' hne h6 h5 with (h | h) | (h | h)
  · rw [hcnt l hlt hp] at h; omega
  · exact h (hop l hlt hp ho)
  · rw [hcnt l' hlt' hp'] at h; omega
  · exact h (hop l' hlt' hp' ho')

/-- Two rooms of 7 × 7 cells with a door between them. -/
def rooms : CompactHeightfield := layers 15 7 1 [
  1, 1, 1, 1, 1, 1, 1, 0, 1, 1, 1, 1, 1, 1, 1,
  1, 1, 1, 1, 1, 1, 1, 0, 1, 1, 1, 1, 1, 1, 1,
  1, 1, 1, 1, 1, 1, 1, 0, 1, 1, 1, 1, 1, 1, 1,
  1, 1, 1, 1, 1, 1, 1, 1, 1, 1, 1, 1, 1, 1, 1,
  1, 1, 1, 1, 1, 1, 1, 0, 1, 1, 1, 1, 1, 1, 1,
  1, 1, 1, 1, 1, 1, 1, 0, 1, 1, 1, 1, 1, 1, 1,
  1, 1, 1, 1, 1, 1, 1, 0, 1, 1, 1, 1, 1, 1, 1]

theorem rooms_wellFormed : rooms.WellFormed := layers_wellFormed (by decide) (by decide) (by decide) (by decide)

/-- With its distance field. -/
def roomsD : CompactHeightfield := { rooms with maxDistance := 6, dist := [
  0, 0, 0, 0, 0, 0, 0, 0, 0, 0, 0, 0, 0, 0, 0,
  0, 2, 2, 2, 2, 2, 0, 0, 0, 2, 2, 2, 2, 2, 0,
  0, 2, 3, 4, 3, 2, 0, 0, 0, 2, 3, 4, 3, 2, 0,
  0, 2, 4, 4, 4, 3, 2, 0, 2, 3, 4, 4, 4, 2, 0,
  0, 2, 3, 4, 3, 2, 0, 0, 0, 2, 3, 4, 3, 2, 0,
  0, 2, 2, 2, 2, 2, 0, 0, 0, 2, 2, 2, 2, 2, 0,
  0, 0, 0, 0, 0, 0, 0, 0, 0, 0, 0, 0, 0, 0, 0] }

theorem rooms_distance : rooms.buildDistanceField = .ok roomsD := by decide +kernel
theorem rooms_ready : roomsD.Ready := (ready_of_distance_field rooms rooms_wellFormed (Or.inl (by decide)) _ rooms_distance).1

/-- Two lakes of 7 × 7 cells with a channel between them, in a field of 17 × 9 cells. -/
def lakes : CompactHeightfield := layers 17 9 1 [
  1, 1, 1, 1, 1, 1, 1, 1, 1, 1, 1, 1, 1, 1, 1, 1, 1,
  1, 2, 2, 2, 2, 2, 2, 2, 1, 2, 2, 2, 2, 2, 2, 2, 1,
  1, 2, 2, 2, 2, 2, 2, 2, 1, 2, 2, 2, 2, 2, 2, 2, 1,
  1, 2, 2, 2, 2, 2, 2, 2, 1, 2, 2, 2, 2, 2, 2, 2, 1,
  1, 2, 2, 2, 2, 2, 2, 2, 2, 2, 2, 2, 2, 2, 2, 2, 1,
  1, 2, 2, 2, 2, 2, 2, 2, 1, 2, 2, 2, 2, 2, 2, 2, 1,
  1, 2, 2, 2, 2, 2, 2, 2, 1, 2, 2, 2, 2, 2, 2, 2, 1,
  1, 2, 2, 2, 2, 2, 2, 2, 1, 2, 2, 2, 2, 2, 2, 2, 1,
  1, 1, 1, 1, 1, 1, 1, 1, 1, 1, 1, 1, 1, 1, 1, 1, 1]

theorem lakes_wellFormed : lakes.WellFormed := layers_wellFormed (by decide) (by decide) (by decide) (by decide +kernel)

/-- With its distance field. -/
def lakesD : CompactHeightfield := { lakes with maxDistance := 6, dist := [
  0, 0, 0, 0, 0, 0, 0, 0, 0, 0, 0, 0, 0, 0, 0, 0, 0,
  0, 0, 0, 0, 0, 0, 0, 0, 0, 0, 0, 0, 0, 0, 0, 0, 0,
  0, 0, 2, 2, 2, 2, 2, 0, 0, 0, 2, 2, 2, 2, 2, 0, 0,
  0, 0, 2, 3, 4, 3, 2, 0, 0, 0, 2, 3, 4, 3, 2, 0, 0,
  0, 0, 2, 4, 4, 4, 3, 2, 0, 2, 3, 4, 4, 4, 2, 0, 0,
  0, 0, 2, 3, 4, 3, 2, 0, 0, 0, 2, 3, 4, 3, 2, 0, 0,
  0, 0, 2, 2, 2, 2, 2, 0, 0, 0, 2, 2, 2, 2, 2, 0, 0,
  0, 0, 0, 0, 0, 0, 0, 0, 0, 0, 0, 0, 0, 0, 0, 0, 0,
  0, 0, 0, 0, 0, 0, 0, 0, 0, 0, 0, 0, 0, 0, 0, 0, 0] }

theorem lakes_distance : lakes.buildDistanceField = .ok lakesD := by decide +kernel
theorem lakes_ready : lakesD.Ready := (ready_of_distance_field lakes lakes_wellFormed (Or.inl (by decide)) _ lakes_distance).1

theorem lakes_basins : (lakesD.labelRegions 0).map (fun c => (c.1.count 1, c.1.count 2, c.1[18]?, c.1[26]?)) =
    .ok (50, 49, some 1, some 2) := by decide +kernel

theorem lakes_regions : (lakesD.buildRegions 0 0 20).map (fun c => (c.spans[18]?.map (·.region), c.spans[26]?.map (·.region))) =
    .ok (some 1, some 1) := by decide +kernel

/-- **C89 (finding).** `merge_region_area` is documented as the maximum area of a region that may be merged, but two lakes of 50 and 49 spans,
surrounded by land, are joined with the setting 20. -/
theorem c89_violated : ∃ (chf : CompactHeightfield) (reg : List Nat) (next : Nat) (out : CompactHeightfield), chf.Ready ∧
    chf.labelRegions 0 = .ok (reg, next) ∧ chf.buildRegions 0 0 20 = .ok out ∧ basinSize reg 1 = 50 ∧ basinSize reg 2 = 49 ∧
    reg[18]? = some 1 ∧ reg[26]? = some 2 ∧ out.RegionOf 18 1 ∧ out.RegionOf 26 1 := by
  have hlab := lakes_basins
  have hok := lakes_regions
  have hr := lakes_ready
  generalize lakesD = chf at hlab hok hr
  cases hx : chf.labelRegions 0 with
  | error e => rw [hx] at hlab; cases hlab
  | ok rn =>
    obtain ⟨reg, next⟩ := rn
    cases hy : chf.buildRegions 0 0 20 with
    | error e => rw [hy] at hok; cases hok
    | ok out =>
      rw [hx] at hlab
      rw [hy] at hok
      simp only [Except.map, Except.ok.injEq, Prod.mk.injEq, Option.map_eq_some_iff] at hlab hok
      obtain ⟨⟨a, ha, ha'⟩, b, hb, hb'⟩ := hok
      exact ⟨chf, reg, next, out, hr, hx, hy, hlab.1, hlab.2.1, hlab.2.2.1, hlab.2.2.2, ⟨a, ha, ha'⟩, b, hb, hb'⟩

theorem rooms_basins : (roomsD.labelRegions 0).map (fun c => ((c.1.count 1, c.1.count 2), (c.1[0]?, c.1[8]?, c.1[7]?),
    (List.range 8).all fun k => decide (c.1[k]? ≠ some 2))) = .ok ((50, 49), (some 1, some 2, some 0), true) := by decide +kernel

theorem rooms_west : roomsD.nbr 0 0 = none ∧ roomsD.nbr 8 0 = some 7 := by decide +kernel

/-- The hypotheses are met by two rooms of 50 and 49 cells and the setting 48. -/
example : ∃ (chf : CompactHeightfield) (reg : List Nat) (next : Nat), chf.Ready ∧ chf.labelRegions 0 = .ok (reg, next) ∧
    48 < basinSize reg 1 ∧ 48 < basinSize reg 2 ∧ chf.ReachesOpen reg 1 ∧ chf.ReachesOpen reg 2 := by
  have hlab := rooms_basins
  have hr := rooms_ready
  have hw := rooms_west
  generalize roomsD = chf at hlab hr hw
  cases hx : chf.labelRegions 0 with
  | error e => rw [hx] at hlab; cases hlab
  | ok rn =>
    obtain ⟨reg, next⟩ := rn
    rw [hx] at hlab
    simp only [Except.map, Except.ok.injEq, Prod.mk.injEq, List.all_eq_true, decide_eq_true_eq, List.mem_range] at hlab
    obtain ⟨⟨h1, h2⟩, ⟨h3, h4, h5⟩, h6⟩ := hlab
    refine ⟨chf, reg, next, hr, hx, by unfold basinSize; omega, by unfold basinSize; omega,
      ⟨0, h3, fun k _ => Nat.zero_le k, 0, fun _ => (0, 0), by omega, rfl, fun j hj => absurd hj (by omega), ?_⟩,
      ⟨8, h4, fun k hk => ?_, 0, fun _ => (8, 0), by omega, rfl, fun j hj => absurd hj (by omega), ?_⟩⟩
    · intro k hk
      dsimp only at hk
      rw [← nbr_iff_link hr.wf (by omega), hw.1] at hk
      cases hk
    · by_contra hlt
      exact h6 k (by omega) hk
    · intro k hk
      dsimp only at hk
      rw [← nbr_iff_link hr.wf (by omega), hw.2] at hk
      cases hk
      exact h5

end Rerecast
