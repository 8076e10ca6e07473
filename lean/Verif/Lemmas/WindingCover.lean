import Verif.Lemmas.WindingRegion
import Verif.Lemmas.WindingSimplify
import Verif.Lemmas.ContourError
/-! From clear points of a region to the guards of the simplification, and from contours to polygons. -/
set_option linter.unusedVariables false
set_option linter.unusedSectionVars false
namespace Rerecast

theorem crossing_shift (p : Point) (b : Rat) (q q' : Point) :
    crossing (p.1 - b, p.2 - b) ((q.1 - b, q.2 - b), (q'.1 - b, q'.2 - b)) = crossing p (q, q') := by
  have ht : ∀ q q' : Point, turn (q.1 - b, q.2 - b) (q'.1 - b, q'.2 - b) (p.1 - b, p.2 - b) = turn q q' p := by
    intro q q'; unfold turn; ring
  unfold crossing
  simp only [ht, sub_le_sub_iff_right, sub_lt_sub_iff_right]

theorem winding_shift (p : Point) (b : Nat) (l : RawContour) (h : ∀ v ∈ l, b ≤ v.1.x ∧ b ≤ v.1.z) :
    winding (p.1 - b, p.2 - b) ((withoutBorder b l).map fun v => v.1.plane) = winding p (l.map fun v => v.1.plane) := by
  have e : ((withoutBorder b l).map fun v => v.1.plane) = (l.map fun v => v.1.plane).map fun q => (q.1 - (b : Rat), q.2 - (b : Rat)) := by
    unfold withoutBorder
    rw [List.map_map, List.map_map]
    apply List.map_congr_left
    intro v hv
    obtain ⟨h1, h2⟩ := h v hv
    simp [U16Vec3.plane, Nat.cast_sub h1, Nat.cast_sub h2]
  unfold winding
  rw [e, around_map]
  congr 1
  funext q
  exact crossing_shift p b q.1 q.2

namespace CompactHeightfield
variable {chf : CompactHeightfield} (hwf : chf.WellFormed)
include hwf

/-- Raw vertex `i + 1` of an outline and the side it records. -/
theorem outline_side_at {o : Outline} (ho : chf.IsOutline o) (i : Nat) : ∃ s : Side,
    (chf.boundaryOf o.round)[(i + 1) % o.raw.length]? = some s ∧ s.2 < 4 ∧ chf.RegionOf s.1 o.region ∧ chf.BoundarySide s ∧
    chf.RunsBetween s (planeAt o.raw i) (planeAt o.raw (i + 1)) ∧
    ((∃ k, chf.Link s.1 s.2 k ∧ chf.RegionOf k (wordAt o.raw (i + 1) &&& REGION_MASK)) ∨
      ((∀ k, ¬ chf.Link s.1 s.2 k) ∧ wordAt o.raw (i + 1) &&& REGION_MASK = 0)) ∧
    (wordAt o.raw (i + 1) &&& AREA_BORDER ≠ 0 ↔ ∃ k a, chf.Link s.1 s.2 k ∧ chf.areas[k]? = some a ∧ a ≠ o.area) := by
  obtain ⟨s0, h0, hb0, _⟩ := ho.start
  have hmem0 : s0 ∈ chf.boundaryOf o.round := by
    unfold boundaryOf
    rw [List.mem_filter]
    exact ⟨List.mem_of_mem_head? h0, by simpa using hb0⟩
  have hlen := ho.raw.length_eq
  have hn : 0 < o.raw.length := by rw [← hlen]; exact List.length_pos_of_mem hmem0
  have hj : (i + 1) % o.raw.length < (chf.boundaryOf o.round).length := by rw [hlen]; exact Nat.mod_lt _ hn
  have hj0 : i % o.raw.length < (chf.boundaryOf o.round).length := by rw [hlen]; exact Nat.mod_lt _ hn
  have hrv := (List.forall₂_iff_get.1 ho.raw).2 ((i + 1) % o.raw.length) hj (by omega)
  have hplane : ∀ k (hk : k % o.raw.length < (chf.boundaryOf o.round).length), planeAt o.raw k =
      cellCorner (chf.sideEnds ((chf.boundaryOf o.round)[k % o.raw.length])).2 := by
    intro k hk
    have := congrArg (fun l => l[k % o.raw.length]?) (outline_raw hwf ho)
    simp only [List.getElem?_map, List.getElem?_eq_getElem hk, List.getElem?_eq_getElem (Nat.mod_lt k hn), Option.map_some, Option.some.injEq] at this
    rw [← this]
    unfold planeAt posAt
    rw [List.getD_eq_getElem?_getD, List.getElem?_eq_getElem (Nat.mod_lt k hn)]
    rfl
  have hword : wordAt o.raw (i + 1) = (o.raw.get ⟨(i + 1) % o.raw.length, Nat.mod_lt _ hn⟩).2 := by
    unfold wordAt
    rw [List.getD_eq_getElem?_getD, List.getElem?_eq_getElem (Nat.mod_lt _ hn)]
    rfl
  have hsm : (chf.boundaryOf o.round)[(i + 1) % o.raw.length] ∈ o.round ∧ chf.BoundarySide (chf.boundaryOf o.round)[(i + 1) % o.raw.length] := by
    have := List.getElem_mem hj
    unfold boundaryOf at this ⊢
    rw [List.mem_filter] at this
    exact ⟨this.1, by simpa using this.2⟩
  obtain ⟨c, hc⟩ := circuit_joined hwf ho.circuit
  obtain ⟨k1, k2, k3⟩ := joined_next hc
  have hstart : (chf.sideEnds (chf.boundaryOf o.round)[(i + 1) % o.raw.length]).1 = (chf.sideEnds (chf.boundaryOf o.round)[i % o.raw.length]).2 := by
    have hget : ∀ k (hk : k < (chf.boundaryOf o.round).length), ((chf.boundaryOf o.round).map chf.sideEnds)[k]? = some (chf.sideEnds (chf.boundaryOf o.round)[k]) := by
      intro k hk
      rw [List.getElem?_map, List.getElem?_eq_getElem hk]; rfl
    by_cases hw : i % o.raw.length + 1 < o.raw.length
    · have e : (i + 1) % o.raw.length = i % o.raw.length + 1 := by
        rw [Nat.add_mod, Nat.mod_eq_of_lt (show 1 < o.raw.length by omega), Nat.mod_eq_of_lt hw]
      simp only [e]
      exact k3 _ _ _ (hget _ hj0) (hget _ (by omega))
    · have e0 : i % o.raw.length = o.raw.length - 1 := by have := Nat.mod_lt i hn; omega
      have e : (i + 1) % o.raw.length = 0 := by
        rw [Nat.add_mod, e0]
        by_cases h1 : o.raw.length = 1
        · rw [h1]
        · rw [Nat.mod_eq_of_lt (show 1 < o.raw.length by omega), show o.raw.length - 1 + 1 = o.raw.length by omega, Nat.mod_self]
      simp only [e, e0]
      have h2 := k2 (chf.sideEnds (chf.boundaryOf o.round)[o.raw.length - 1]) (by
        have el : ((chf.boundaryOf o.round).map chf.sideEnds).length - 1 = o.raw.length - 1 := by rw [List.length_map, hlen]
        rw [el]
        exact hget _ (by omega))
      rw [k1 _ (hget 0 (by omega)), h2]
  refine ⟨(chf.boundaryOf o.round)[(i + 1) % o.raw.length], List.getElem?_eq_getElem hj, ho.circuit.dir _ hsm.1, ho.circuit.region _ hsm.1, hsm.2, ?_, ?_, ?_⟩
  · obtain ⟨x, z, sp, hat, _⟩ := hrv.position
    refine ⟨x, z, sp, hat, ?_, ?_⟩
    · rw [hplane i hj0, ← hstart]
      obtain ⟨rfl, rfl⟩ := at_unique hwf hat
      rfl
    · rw [hplane (i + 1) hj]
      obtain ⟨rfl, rfl⟩ := at_unique hwf hat
      rfl
  · rw [hword]; exact hrv.region
  · rw [hword]; exact hrv.area

theorem outline_side {o : Outline} (ho : chf.IsOutline o) (i : Nat) : ∃ s : Side, s.2 < 4 ∧ chf.RegionOf s.1 o.region ∧ chf.BoundarySide s ∧
    chf.RunsBetween s (planeAt o.raw i) (planeAt o.raw (i + 1)) ∧
    ((∃ k, chf.Link s.1 s.2 k ∧ chf.RegionOf k (wordAt o.raw (i + 1) &&& REGION_MASK)) ∨
      ((∀ k, ¬ chf.Link s.1 s.2 k) ∧ wordAt o.raw (i + 1) &&& REGION_MASK = 0)) ∧
    (wordAt o.raw (i + 1) &&& AREA_BORDER ≠ 0 ↔ ∃ k a, chf.Link s.1 s.2 k ∧ chf.areas[k]? = some a ∧ a ≠ o.area) := by
  obtain ⟨s, _, h⟩ := outline_side_at hwf ho i
  exact ⟨s, h⟩

theorem outline_area {o : Outline} (ho : chf.IsOutline o)
    (hua : ∀ i k r, ProperRegion r → chf.RegionOf i r → chf.RegionOf k r → chf.areas[i]? = chf.areas[k]?) {i : Nat} (hi : chf.RegionOf i o.region) :
    chf.areas[i]? = some o.area := by
  obtain ⟨s0, h0, _, ha⟩ := ho.start
  rw [← ha]
  exact hua _ _ _ ho.proper hi (ho.circuit.region _ (List.mem_of_mem_head? h0))

/-- At a clear point the simplification of an outline keeps the winding number. -/
theorem clear_simplify {o : Outline} (ho : chf.IsOutline o)
    (hua : ∀ i k r, ProperRegion r → chf.RegionOf i r → chf.RegionOf k r → chf.areas[i]? = chf.areas[k]?) {t : Tests} {gn : Nat} {e : Rat}
    (ht : t.Keeps gn e) (hgw : chf.width ≤ gn) (hgh : chf.height ≤ gn) {maxEdgeLen : Nat}
    {flags : ContourFlags} {out : RawContour} (hok : simplifyContour t o.raw maxEdgeLen flags = .ok out) {p : Point}
    (hclear : chf.Clear (2 * e) o.region p) :
    winding p (out.map fun v => v.1.plane) = winding p (o.raw.map fun v => v.1.plane) := by
  obtain ⟨s0, h0, hb0, _⟩ := ho.start
  have hn : 0 < o.raw.length := by
    rw [← ho.raw.length_eq]
    apply List.length_pos_of_mem (a := s0)
    unfold boundaryOf
    rw [List.mem_filter]
    exact ⟨List.mem_of_mem_head? h0, by simpa using hb0⟩
  have hsame : ¬ AllSame o.raw := by
    intro h
    have h1 := Nat.mod_lt 1 hn
    have := ho.closed 0 _ _ (List.getElem?_eq_getElem hn) (List.getElem?_eq_getElem (by simpa using h1))
    have e := h _ (List.getElem_mem hn) _ (List.getElem_mem (show (0 + 1) % o.raw.length < o.raw.length by simpa using h1))
    rw [e] at this
    unfold UnitStep at this
    omega
  have huniq : ∀ {i d k k' : Nat}, d < 4 → chf.Link i d k → chf.Link i d k' → k = k' := by
    intro i d k k' hd h h'
    rw [← nbr_iff_link hwf hd] at h h'
    rw [h] at h'; cases h'; rfl
  have hlt : ∀ {i d k : Nat}, d < 4 → chf.Link i d k → k < chf.spans.length := by
    intro i d k hd h
    exact (nbr_lt hwf hd ((nbr_iff_link hwf hd).2 h)).2
  have hportal : ∀ w, w ≠ 0 → ∀ i, wordAt o.raw (i + 1) &&& REGION_MASK = w ∧ wordAt o.raw (i + 1) &&& AREA_BORDER = 0 →
      ∃ s, chf.PortalSide o.region w s ∧ chf.RunsBetween s (planeAt o.raw i) (planeAt o.raw (i + 1)) := by
    intro w hw i ⟨h1, h2⟩
    obtain ⟨s, hd, hr, hb, hrun, hreg, har⟩ := outline_side hwf ho i
    refine ⟨s, ⟨hd, hr, hb, hw, ?_⟩, hrun⟩
    rcases hreg with ⟨k, hk, hkr⟩ | ⟨_, h⟩
    · refine ⟨k, hk, by rw [← h1]; exact hkr, ?_⟩
      rw [outline_area hwf ho hua hr, areas_get hwf (hlt hd hk)]
      by_contra hne
      exact har.2 ⟨k, _, hk, areas_get hwf (hlt hd hk), fun h => hne (by rw [h])⟩ h2
    · exact absurd (h1.symm.trans h) hw
  have hcorner : ∀ w, w ≠ 0 → ∀ i, PortalEnd o.raw w i → chf.PortalCorner o.region w (planeAt o.raw i) := by
    intro w hw i h
    rcases h with h | h
    · have hm : wordAt o.raw (i + o.raw.length - 1 + 1) = wordAt o.raw i := by
        rw [show i + o.raw.length - 1 + 1 = i + o.raw.length by omega, ← wordAt_mod, Nat.add_mod_right, wordAt_mod]
      have hp : planeAt o.raw (i + o.raw.length - 1 + 1) = planeAt o.raw i := by
        unfold planeAt
        rw [show i + o.raw.length - 1 + 1 = i + o.raw.length by omega, ← posAt_mod, Nat.add_mod_right, posAt_mod]
      obtain ⟨s, h1, h2⟩ := hportal w hw (i + o.raw.length - 1) (by rw [hm]; exact h)
      rw [hp] at h2
      exact ⟨s, _, h1, Or.inr h2⟩
    · obtain ⟨s, h1, h2⟩ := hportal w hw i h
      exact ⟨s, _, h1, Or.inl h2⟩
  refine simplify_winding ht (List.ne_nil_of_length_pos hn) (outline_grid ho hgw hgh) hsame hok p ?_ ?_
  · intro i ht
    obtain ⟨s, hd, hr, hb, hrun, hreg, har⟩ := outline_side hwf ho i
    refine hclear.1 s _ _ ⟨hd, hr, hb, ?_⟩ hrun
    unfold tolerated intersects at ht
    simp only [ne_eq, decide_not, Bool.not_not, Bool.or_eq_true, decide_eq_true_eq, Bool.not_eq_eq_eq_not, Bool.not_true, decide_eq_false_iff_not] at ht
    rcases ht with ht | ht
    · left
      intro k hk
      rcases hreg with ⟨k', hk', hkr⟩ | ⟨h, _⟩
      · rw [huniq hd hk hk', ← ht]; exact hkr
      · exact absurd hk (h k)
    · right
      obtain ⟨k, a, hk, ha, hne⟩ := har.1 ht
      refine ⟨k, hk, ?_⟩
      rw [outline_area hwf ho hua hr, ha]
      simpa using hne
  · intro w hw i j k hi hj hk
    exact hclear.2 w _ _ _ (hcorner w hw i hi) (hcorner w hw j hj) (hcorner w hw k hk)

end CompactHeightfield

theorem flatMap_member {β γ δ : Type} (f : β → List γ) (g : β → δ) : ∀ (l : List β) (b : β) (q : γ), b ∈ l → q ∈ f b →
    ∃ i : Nat, (l.flatMap f)[i]? = some q ∧ (l.flatMap fun b => (f b).map fun _ => g b)[i]? = some (g b)
  | [], b, q, hb, _ => by cases hb
  | a :: l, b, q, hb, hq => by
    rcases List.mem_cons.1 hb with rfl | hb
    · obtain ⟨i, hi, e⟩ := List.mem_iff_getElem.1 hq
      refine ⟨i, ?_, ?_⟩
      · rw [List.flatMap_cons, List.getElem?_append_left hi, List.getElem?_eq_getElem hi, e]
      · rw [List.flatMap_cons, List.getElem?_append_left (by simpa using hi)]
        simp [hi]
    · obtain ⟨i, h1, h2⟩ := flatMap_member f g l b q hb hq
      refine ⟨(f a).length + i, ?_, ?_⟩
      · rw [List.flatMap_cons, List.getElem?_append_right (by omega)]
        simpa using h1
      · rw [List.flatMap_cons, List.getElem?_append_right (by simp)]
        simpa using h2

end Rerecast
