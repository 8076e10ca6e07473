import Verif.Lemmas.SimplifySplit
import Verif.Props.C61_Outlines
import Verif.Lemmas.RegionsTable
import Verif.Lemmas.ContourError
/-! C80: the length limit for the edges of contours; C60 for the contours returned. -/
namespace Rerecast
open CompactHeightfield

/-- **C80 (one outline).** With a positive limit, every edge of a simplified outline of a kind the settings ask to be split is no
longer than `max_edge_len`, unless it joins two consecutive raw vertices. -/
theorem c80_edge_length (t : Tests) (points : RawContour) (hne : points ≠ []) (maxEdgeLen : Nat) (hm : 0 < maxEdgeLen) (flags : ContourFlags)
    (out : RawContour) (hok : simplifyContour t points maxEdgeLen flags = .ok out) (j : Nat) (a b : U16Vec3 × Nat) (ha : out[j]? = some a)
    (hb : out[(j + 1) % out.length]? = some b) (hs : Splittable flags a.2) :
    EdgeAtMost maxEdgeLen a.1 b.1 ∨ ∃ i, IsRaw points a i ∧ IsRaw points b ((i + 1) % points.length) := by
  rcases simplify_edge_length hne hm hok ha hb hs with h | ⟨k, rfl, rfl⟩
  · exact .inl h
  · refine .inr ⟨k % points.length, isRaw_at hne k, ?_⟩
    rw [Nat.mod_add_mod]
    exact isRaw_at hne (k + 1)

/-- **C80 (one closed outline).** On an outline that goes in unit steps there is no exception. -/
theorem c80_edge_length_walk (t : Tests) (points : RawContour) (hne : points ≠ []) (hwalk : ClosedUnitWalk points) (maxEdgeLen : Nat)
    (hm : 0 < maxEdgeLen) (flags : ContourFlags) (out : RawContour) (hok : simplifyContour t points maxEdgeLen flags = .ok out) (j : Nat)
    (a b : U16Vec3 × Nat) (ha : out[j]? = some a) (hb : out[(j + 1) % out.length]? = some b) (hs : Splittable flags a.2) :
    EdgeAtMost maxEdgeLen a.1 b.1 := by
  rcases c80_edge_length t points hne maxEdgeLen hm flags out hok j a b ha hb hs with h | ⟨i, ⟨p, hp, e1, _⟩, q, hq, e2, _⟩
  · exact h
  · have hst := hwalk i p q hp hq
    rw [← e1, ← e2] at hst
    unfold EdgeAtMost
    have h1 : ((b.1.x : Int) - a.1.x) ^ 2 + ((b.1.z : Int) - a.1.z) ^ 2 = 1 := by
      unfold UnitStep U16Vec3.xz at hst
      dsimp only at hst
      rcases hst with ⟨g1, g2 | g2⟩ | ⟨g1, g2 | g2⟩ <;> rw [g1, g2] <;> push_cast <;> ring
    rw [h1]
    have : (1 : Int) ≤ maxEdgeLen := by exact_mod_cast hm
    nlinarith

private theorem sq_shift (x y b : Nat) : (((y - b : Nat) : Int) - ((x - b : Nat) : Int)) ^ 2 ≤ ((y : Int) - x) ^ 2 := by
  rcases Nat.le_total x y with h | h
  · apply sq_le_sq' <;> omega
  · rw [← neg_sq, ← neg_sq ((y : Int) - x)]
    apply sq_le_sq' <;> omega

private theorem same_place {m : Nat} {a b c : U16Vec3} (h : EdgeAtMost m a c) (e : c.xz = b.xz) : EdgeAtMost m a b := by
  unfold U16Vec3.xz at e
  simp only [Prod.mk.injEq] at e
  unfold EdgeAtMost at h ⊢
  rw [← e.1, ← e.2]
  exact h

/-- **C80 (partial).** With a positive limit, every edge of a contour returned by `build_contours` of a kind the settings ask to be
split is no longer than `max_edge_len` cells: walls if walls are to be split, borders between areas if those are to be split.
Missing: fields with a round of more than 40,000 steps along a wall, whose outlines are not closed (C61). -/
theorem c80_contours_partial (chf : CompactHeightfield) (hwf : chf.WellFormed) (hsym : chf.SymmetricLinks)
    (hu : ∀ s ∈ chf.spans, s.region < 65536)
    (hshort : ∀ r v, chf.IsCircuit r v → (∃ s ∈ v, chf.BoundarySide s) → v.length ≤ 40000)
    (t : Tests) (maxEdgeLen : Nat) (hm : 0 < maxEdgeLen) (bf : ContourFlags) (set : ContourSet)
    (hok : chf.buildContours t maxEdgeLen bf = .ok set) (c : Contour) (hc : c ∈ set.contours) (j : Nat) (a b : U16Vec3 × Nat)
    (ha : c.vertices[j]? = some a) (hb : c.vertices[(j + 1) % c.vertices.length]? = some b) (hs : Splittable bf a.2) :
    EdgeAtMost maxEdgeLen a.1 b.1 := by
  obtain ⟨outlines, stored, hout, _, _, _, hst, hset⟩ := c61_outlines_partial chf hwf hsym hu hshort t maxEdgeLen bf set hok
  rw [hset, List.mem_filterMap] at hc
  obtain ⟨o?, hmem, rfl⟩ := hc
  obtain ⟨o, ho, simplified, out, h1, h2, h3⟩ := forall₂_mem_right hst hmem
  have hc3 : 3 ≤ out.length ∧ c = ⟨withoutBorder chf.borderSize out, withoutBorder chf.borderSize o.raw, o.region, o.area⟩ := by
    split at h3
    · rename_i h; exact ⟨h, Option.some.inj h3⟩
    · cases h3
  obtain ⟨h3l, rfl⟩ := hc3
  simp only [withoutBorder, List.length_map, List.getElem?_map, Option.map_eq_some_iff] at ha hb
  obtain ⟨a', ha, rfl⟩ := ha
  obtain ⟨b', hb, rfl⟩ := hb
  have hsides : SidesFrom simplified out := removeDegenerateFrom_sides _ _ _ _ h2
  obtain ⟨i, d, hd1, hd2, hd3⟩ := hsides j a' b' ha hb
  have hne : o.raw ≠ [] := by
    intro h0
    have := (hout o ho).raw.length_eq
    obtain ⟨s, hs1, hs2, _⟩ := (hout o ho).start
    have hin : s ∈ chf.boundaryOf o.round := by
      unfold boundaryOf
      rw [List.mem_filter]
      exact ⟨List.mem_of_mem_head? hs1, by simpa using hs2⟩
    rw [h0] at this
    rw [List.length_eq_zero_iff.1 this] at hin
    cases hin
  have hle := c80_edge_length_walk t o.raw hne (hout o ho).closed maxEdgeLen hm bf simplified h1 i a' d hd1 hd2 hs
  have hle' := same_place hle hd3
  unfold EdgeAtMost at hle' ⊢
  dsimp only
  exact (add_le_add (sq_shift _ _ _) (sq_shift _ _ _)).trans hle'

/-- `c60_contours_partial` for any tests that keep vertices within `e`. -/
theorem contours_error (chf : CompactHeightfield) (hwf : chf.WellFormed) (hsym : chf.SymmetricLinks)
    (hu : ∀ s ∈ chf.spans, s.region < 65536)
    (hshort : ∀ r v, chf.IsCircuit r v → (∃ s ∈ v, chf.BoundarySide s) → v.length ≤ 40000)
    (hin : ∀ x z i s, chf.At x z i s → ProperRegion s.region → chf.borderSize ≤ x ∧ chf.borderSize ≤ z)
    (t : Tests) (gn : Nat) (e : Rat) (ht : t.Keeps gn e) (hgw : chf.width ≤ gn) (hgh : chf.height ≤ gn) (maxEdgeLen : Nat) (bf : ContourFlags) (set : ContourSet)
    (hok : chf.buildContours t maxEdgeLen bf = .ok set) (c : Contour) (hc : c ∈ set.contours) (p : U16Vec3 × Nat)
    (hp : p ∈ c.rawVertices) (hportal : p.2 &&& REGION_MASK = 0 ∨ p.2 &&& AREA_BORDER ≠ 0) :
    WithinOfPolygon (2 * e) p.1 c.vertices ∧
      (maxEdgeLen = 0 ∨ (bf.wallEdges = false ∧ bf.areaEdges = false) → WithinOfPolygon e p.1 c.vertices) := by
  obtain ⟨outlines, stored, hout, _, _, _, hst, hset⟩ := c61_outlines_partial chf hwf hsym hu hshort t maxEdgeLen bf set hok
  rw [hset, List.mem_filterMap] at hc
  obtain ⟨o?, hmem, rfl⟩ := hc
  obtain ⟨o, ho, simplified, out, h1, h2, h3⟩ := forall₂_mem_right hst hmem
  have hc3 : 3 ≤ out.length ∧ c = ⟨withoutBorder chf.borderSize out, withoutBorder chf.borderSize o.raw, o.region, o.area⟩ := by
    split at h3
    · rename_i h; exact ⟨h, Option.some.inj h3⟩
    · cases h3
  obtain ⟨h3l, rfl⟩ := hc3
  simp only [withoutBorder, List.mem_map] at hp
  obtain ⟨p, hp, rfl⟩ := hp
  have hraw : ∀ q ∈ o.raw, chf.borderSize ≤ q.1.x ∧ chf.borderSize ≤ q.1.z := by
    intro q hq
    obtain ⟨⟨i, d⟩, hside, hr⟩ := forall₂_mem_right (hout o ho).raw hq
    unfold CompactHeightfield.boundaryOf at hside
    rw [List.mem_filter] at hside
    obtain ⟨x, z, sp, hat, hxz⟩ := hr.position
    obtain ⟨sp', e1, e2⟩ := (hout o ho).circuit.region _ hside.1
    simp only at hat e1
    rw [hat.2.2.1] at e1; cases e1
    have hb := hin x z i sp hat (by rw [e2]; exact (hout o ho).proper)
    unfold U16Vec3.xz cornerOf at hxz
    dsimp only at hxz
    split at hxz <;> simp only [Prod.mk.injEq] at hxz <;> omega
  have hne : o.raw ≠ [] := List.ne_nil_of_mem hp
  have hsub : ∀ q ∈ out, chf.borderSize ≤ q.1.x ∧ chf.borderSize ≤ q.1.z := by
    intro q hq
    rw [removeDegenerate_eq] at h2
    cases h2
    have hq' := (degen_sublist simplified.length [] simplified (Nat.le_refl _)).subset hq
    rw [List.nil_append] at hq'
    rcases c40_terminates t o.raw hne maxEdgeLen bf with ⟨out, e', ho'⟩ | ⟨_, e'⟩
    · rw [h1] at e'; cases e'
      obtain ⟨j, r, hr, ev, _⟩ := ho' q hq'
      rw [ev]
      exact hraw r (List.mem_of_getElem? hr)
    · rw [h1] at e'; cases e'
  have conv : ∀ e', WithinOfPolygon e' p.1 simplified → WithinOfPolygon e' (⟨p.1.x - chf.borderSize, p.1.y, p.1.z - chf.borderSize⟩ : U16Vec3)
      (withoutBorder chf.borderSize out) := fun e' h =>
    within_shift (hraw p hp) hsub (removeDegenerateFrom_within _ _ _ _ h2 (by omega) h)
  exact ⟨conv _ (error_bound_split ht o.raw (outline_grid (hout o ho) hgw hgh) maxEdgeLen bf simplified h1 p hp hportal),
    fun hns => conv _ (error_bound ht o.raw (outline_grid (hout o ho) hgw hgh) maxEdgeLen bf hns simplified h1 p hp hportal)⟩

/-- **C60 (contours, partial).** Every raw vertex stored with a contour lies within twice `max_error` of the contour's polygon, or within
`max_error` if edges are not split, except on a border with another region of the same area.  Missing: rounds of more than 40,000 steps (C61)
and fields with regions in the border. -/
theorem c60_contours_partial (chf : CompactHeightfield) (hwf : chf.WellFormed) (hsym : chf.SymmetricLinks)
    (hu : ∀ s ∈ chf.spans, s.region < 65536)
    (hshort : ∀ r v, chf.IsCircuit r v → (∃ s ∈ v, chf.BoundarySide s) → v.length ≤ 40000)
    (hin : ∀ x z i s, chf.At x z i s → ProperRegion s.region → chf.borderSize ≤ x ∧ chf.borderSize ≤ z)
    (e : Rat) (maxEdgeLen : Nat) (bf : ContourFlags) (set : ContourSet)
    (hok : chf.buildContours (Tests.exact e) maxEdgeLen bf = .ok set) (c : Contour) (hc : c ∈ set.contours) (p : U16Vec3 × Nat)
    (hp : p ∈ c.rawVertices) (hportal : p.2 &&& REGION_MASK = 0 ∨ p.2 &&& AREA_BORDER ≠ 0) :
    WithinOfPolygon (2 * e) p.1 c.vertices ∧
      (maxEdgeLen = 0 ∨ (bf.wallEdges = false ∧ bf.areaEdges = false) → WithinOfPolygon e p.1 c.vertices) :=
  contours_error chf hwf hsym hu hshort hin _ (max chf.width chf.height) e (keeps_exact _ e) (Nat.le_max_left ..) (Nat.le_max_right ..) maxEdgeLen bf
    set hok c hc p hp hportal

/-- The ring of cells with the limit 2: its sides of three cells are split, and all edges are walls. -/
example : ringChf.WellFormed ∧ ringChf.SymmetricLinks ∧ (∀ s ∈ ringChf.spans, s.region < 65536) ∧ ringChf.spans.length ≤ 10000 ∧
    (∀ x z i s, ringChf.At x z i s → ProperRegion s.region → ringChf.borderSize ≤ x ∧ ringChf.borderSize ≤ z) ∧
    (ringChf.buildContours (Tests.exact (13/10)) 2 ⟨true, false⟩).map (fun s => s.contours.map fun c => c.vertices.map (·.1.xz)) =
      .ok [[(0, 0), (0, 1), (0, 3), (1, 3), (3, 3), (3, 1), (3, 0), (1, 0)]] ∧
    (ringChf.buildContours (Tests.exact (13/10)) 2 ⟨true, false⟩).map (fun s => s.contours.all fun c => c.vertices.all fun v => decide (v.2 &&& REGION_MASK = 0)) =
      .ok true := by
  have hwf : ringChf.WellFormed := wellFormed_of_check (by decide +kernel)
  exact ⟨hwf, symmetric_of_check hwf (by decide +kernel), by decide +kernel, by decide +kernel,
    fun _ _ _ _ _ _ => ⟨Nat.zero_le _, Nat.zero_le _⟩, by decide +kernel, by decide +kernel⟩

end Rerecast
