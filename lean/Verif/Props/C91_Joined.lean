import Verif.Lemmas.WindingJoined2
import Verif.Props.C86_Cover
import Verif.Props.C87_ContourPrecision
/-! C91: no gaps between the polygons of regions that meet. -/
set_option linter.unusedVariables false
namespace Rerecast
open CompactHeightfield

/-- `c91_joined_partial` for any tests that keep vertices within `e`. -/
theorem joined_of_tests (chf : CompactHeightfield) (hwf : chf.WellFormed) (hsym : chf.SymmetricLinks)
    (hu : ∀ s ∈ chf.spans, s.region < 65536)
    (hshort : ∀ r v, chf.IsCircuit r v → (∃ s ∈ v, chf.BoundarySide s) → v.length ≤ 40000)
    (hin : ∀ x z i s, chf.At x z i s → ProperRegion s.region → chf.borderSize ≤ x ∧ chf.borderSize ≤ z)
    (hua : ∀ i k r, ProperRegion r → chf.RegionOf i r → chf.RegionOf k r → chf.areas[i]? = chf.areas[k]?)
    (t : Tests) (gn : Nat) (e : Rat) (ht : t.Keeps gn e) (hgw : chf.width ≤ gn) (hgh : chf.height ≤ gn) (maxEdgeLen : Nat) (bf : ContourFlags)
    (set : ContourSet) (hok : chf.buildContours t maxEdgeLen bf = .ok set)
    (hsimple : ∀ c ∈ set.contours, c.Simple) (hb : set.NoBorderVertices ∨ set.FewVertices)
    (fuel nvp : Nat) (h3 : 3 ≤ nvp) (hn : nvp ≤ 65535) (out : PolygonNavmesh) (hr : set.intoPolygonMesh fuel nvp = .ok out)
    (S : Nat → Prop) (hS : ∀ r, S r → ProperRegion r) (hni : ∀ i r, S r → chf.RegionOf i r → ¬ chf.Isolated i) (hm : chf.Matched S)
    (x z i : Nat) (s : CompactSpan) (hat : chf.At x z i s) (hp : S s.region) (p : Point)
    (hx : (x : Rat) ≤ p.1 ∧ p.1 < (x : Rat) + 1) (hz : (z : Rat) ≤ p.2 ∧ p.2 < (z : Rat) + 1) (hclear : chf.ClearOfSet (2 * e) S p) :
    ∃ j r, S r ∧ out.regions[j]? = some r ∧ (∀ k, chf.RegionOf k r → out.areas[j]? = chf.areas[k]?) ∧
      out.Over j (p.1 - chf.borderSize, p.2 - chf.borderSize) := by
  obtain ⟨outlines, stored, hout, hdis, hcov, hiso, hst, hset⟩ := c61_outlines_partial chf hwf hsym hu hshort t maxEdgeLen bf set hok
  obtain ⟨rfl, rfl⟩ := at_unique hwf hat
  have hil : i < chf.spans.length := (List.getElem?_eq_some_iff.1 hat.2.2.1).1
  obtain ⟨o, ho, simple, hoS, h1, hw⟩ := set_winding hwf hua hout hdis hcov hni hsym hS hm ht hgw hgh (fun o ho => by
    obtain ⟨_, _, simplified, _, h1, _, _⟩ := forall₂_mem_right hst.flip ho
    exact ⟨_, h1⟩) hclear hil (by rw [reg_eq hat.2.2.1]; exact hp) hx hz
  obtain ⟨j, j1, j2, j3⟩ := outline_polygon hin hsimple hb h3 hn hr hout hst hset ho h1 hw
  exact ⟨j, o.region, hoS, j1, fun k hk => by rw [j2, outline_area hwf (hout o ho) hua hk], j3⟩

/-- **C91 (partial).** Let `S` be a set of regions.  A point in the cell of a span of a region in `S` is under a polygon of a
region in `S`, if it is more than twice `max_error` from where regions of `S` end at no neighbour or at another area, and in no triangle of
corners of sides at which a region in `S` ends at one and the same region outside `S`.  So simplification opens no gap between two
regions that meet: what the polygon of one loses along their common line, that of the other gains.
Missing: as in `c86_cover_partial`, and regions that touch in a corner only (`Matched`). -/
theorem c91_joined_partial (chf : CompactHeightfield) (hwf : chf.WellFormed) (hsym : chf.SymmetricLinks)
    (hu : ∀ s ∈ chf.spans, s.region < 65536)
    (hshort : ∀ r v, chf.IsCircuit r v → (∃ s ∈ v, chf.BoundarySide s) → v.length ≤ 40000)
    (hin : ∀ x z i s, chf.At x z i s → ProperRegion s.region → chf.borderSize ≤ x ∧ chf.borderSize ≤ z)
    (hua : ∀ i k r, ProperRegion r → chf.RegionOf i r → chf.RegionOf k r → chf.areas[i]? = chf.areas[k]?)
    (e : Rat) (maxEdgeLen : Nat) (bf : ContourFlags) (set : ContourSet) (hok : chf.buildContours (Tests.exact e) maxEdgeLen bf = .ok set)
    (hsimple : ∀ c ∈ set.contours, c.Simple) (hb : set.NoBorderVertices ∨ set.FewVertices)
    (fuel nvp : Nat) (h3 : 3 ≤ nvp) (hn : nvp ≤ 65535) (out : PolygonNavmesh) (hr : set.intoPolygonMesh fuel nvp = .ok out)
    (S : Nat → Prop) (hS : ∀ r, S r → ProperRegion r) (hni : ∀ i r, S r → chf.RegionOf i r → ¬ chf.Isolated i) (hm : chf.Matched S)
    (x z i : Nat) (s : CompactSpan) (hat : chf.At x z i s) (hp : S s.region) (p : Point)
    (hx : (x : Rat) ≤ p.1 ∧ p.1 < (x : Rat) + 1) (hz : (z : Rat) ≤ p.2 ∧ p.2 < (z : Rat) + 1) (hclear : chf.ClearOfSet (2 * e) S p) :
    ∃ j r, S r ∧ out.regions[j]? = some r ∧ (∀ k, chf.RegionOf k r → out.areas[j]? = chf.areas[k]?) ∧
      out.Over j (p.1 - chf.borderSize, p.2 - chf.borderSize) :=
  joined_of_tests chf hwf hsym hu hshort hin hua _ (max chf.width chf.height) e (keeps_exact _ e) (Nat.le_max_left ..) (Nat.le_max_right ..) maxEdgeLen bf
    set hok hsimple hb fuel nvp h3 hn out hr S hS hni hm x z i s hat hp p hx hz hclear

/-- **C91 (single precision, partial).** `c91_joined_partial` in single precision. -/
theorem c91_f32_partial (chf : CompactHeightfield) (hwf : chf.WellFormed) (hsym : chf.SymmetricLinks)
    (hu : ∀ s ∈ chf.spans, s.region < 65536)
    (hshort : ∀ r v, chf.IsCircuit r v → (∃ s ∈ v, chf.BoundarySide s) → v.length ≤ 40000)
    (hin : ∀ x z i s, chf.At x z i s → ProperRegion s.region → chf.borderSize ≤ x ∧ chf.borderSize ≤ z)
    (hua : ∀ i k r, ProperRegion r → chf.RegionOf i r → chf.RegionOf k r → chf.areas[i]? = chf.areas[k]?)
    (e : Rat) (he : 0 ≤ e) (maxEdgeLen : Nat) (bf : ContourFlags) (set : ContourSet) (hok : chf.buildContours (Tests.f32 e) maxEdgeLen bf = .ok set)
    (hsimple : ∀ c ∈ set.contours, c.Simple) (hb : set.NoBorderVertices ∨ set.FewVertices)
    (fuel nvp : Nat) (h3 : 3 ≤ nvp) (hn : nvp ≤ 65535) (out : PolygonNavmesh) (hr : set.intoPolygonMesh fuel nvp = .ok out)
    (S : Nat → Prop) (hS : ∀ r, S r → ProperRegion r) (hni : ∀ i r, S r → chf.RegionOf i r → ¬ chf.Isolated i) (hm : chf.Matched S)
    (x z i : Nat) (s : CompactSpan) (hat : chf.At x z i s) (hp : S s.region) (p : Point)
    (hx : (x : Rat) ≤ p.1 ∧ p.1 < (x : Rat) + 1) (hz : (z : Rat) ≤ p.2 ∧ p.2 < (z : Rat) + 1)
    (hclear : chf.ClearOfSet (2 * withRounding e chf.extent) S p) :
    ∃ j r, S r ∧ out.regions[j]? = some r ∧ (∀ k, chf.RegionOf k r → out.areas[j]? = chf.areas[k]?) ∧
      out.Over j (p.1 - chf.borderSize, p.2 - chf.borderSize) :=
  joined_of_tests chf hwf hsym hu hshort hin hua _ chf.extent _ (keeps_f32 (grid_of hwf hat).1 (grid_of hwf hat).2 he)
    (Nat.le_max_left ..) (Nat.le_max_right ..) maxEdgeLen bf set hok hsimple hb fuel nvp h3 hn out hr S hS hni hm x z i s hat hp p hx hz hclear

/-- **C91 (builds, partial).** The same for the mesh of a build, with twice `edge_max_error` cells for the distance. -/
theorem c91_build_partial {F : Type} (env : BuildEnv F) (b : ConfigBuilder) (flags : ContourFlags) (scene : List Affector)
    (hgood : GoodBuild env b scene) (hexact : env.tests = Tests.exact) (h3 : 3 ≤ b.vertsPerPoly) (cfg : Config) (m : TriMesh ℚ) (fr : Frame)
    (hf : Heightfield) (chf : CompactHeightfield) (set : ContourSet) (poly : PolygonNavmesh)
    (st : MeshStages env b flags scene cfg m fr hf chf set poly) (hclimb : cfg.walkableClimb < cfg.walkableHeight)
    (hlay : ∀ c ∈ chf.cells, c.count ≤ 62)
    (hshort : ∀ r v, chf.IsCircuit r v → (∃ s ∈ v, chf.BoundarySide s) → v.length ≤ 40000) (hfew : set.FewVertices)
    (hsimple : ∀ c ∈ set.contours, c.Simple)
    (S : Nat → Prop) (hS : ∀ r, S r → ProperRegion r) (hni : ∀ i r, S r → chf.RegionOf i r → ¬ chf.Isolated i) (hm : chf.Matched S)
    (x z i : Nat) (s : CompactSpan) (hat : chf.At x z i s) (hp : S s.region) (p : Point)
    (hx : (x : Rat) ≤ p.1 ∧ p.1 < (x : Rat) + 1) (hz : (z : Rat) ≤ p.2 ∧ p.2 < (z : Rat) + 1)
    (hclear : chf.ClearOfSet (2 * b.edgeMaxError) S p) :
    ∃ j r, S r ∧ poly.regions[j]? = some r ∧ (∀ k, chf.RegionOf k r → poly.areas[j]? = chf.areas[k]?) ∧
      poly.Over j (p.1 - cfg.borderSize, p.2 - cfg.borderSize) := by
  obtain ⟨w, h, c0, _, _, hM, hG, hwf, h0, _, hlike⟩ := hgood.stages st.toStages
  have hsym := symmetric_of hwf (hgood.spans cfg m fr hf st.config st.input st.solid) hclimb h0 hlike hlay
  have hcon := st.contours
  rw [hexact, (config_limits st.config).2.2.2] at hcon
  have hb : chf.borderSize = cfg.borderSize := hG.border
  rw [← hb]
  exact c91_joined_partial chf hG.wf hsym hG.u16 hshort (fun x z i s hat hr => by
    have := (hG.safe x z i s hat hr).inside
    rw [hG.border]
    exact ⟨this.1, this.2.2.1⟩) (regions_uniform hgood st.toStages) b.edgeMaxError cfg.maxEdgeLen flags set hcon hsimple (Or.inr hfew)
    env.fuel _ (nvp_ge st.config h3) (nvp_le st.config) poly st.mesh S hS hni hm x z i s hat hp p hx hz hclear

/-! ### Examples -/

/-- Executable: the first boundary side on the walk along the wall from `t` on. -/
def firstSide (chf : CompactHeightfield) : Nat → Side → Option Side
  | 0, _ => none
  | n + 1, t => match chf.nbr t.1 t.2 with
    | none => some t
    | some k => if chf.reg k = chf.reg t.1 then firstSide chf n (k, (t.2 + 3) % 4) else some t

/-- Executable: the boundary side after `s`. -/
def sideAfter (chf : CompactHeightfield) (s : Side) : Option Side := firstSide chf 4 (s.1, (s.2 + 1) % 4)

theorem firstSide_spec {chf : CompactHeightfield} (hwf : chf.WellFormed) : ∀ (n : Nat) (t s : Side), t.2 < 4 → t.1 < chf.spans.length →
    ProperRegion (chf.reg t.1) → firstSide chf n t = some s → chf.FirstFrom t s
  | 0, _, _, _, _, _, h => by cases h
  | n + 1, t, s, hd, hl, hp, h => by
    unfold firstSide at h
    cases hk : chf.nbr t.1 t.2 with
    | none =>
      rw [hk] at h; cases h
      exact .here ((boundarySide_iff hwf hd).2 ⟨⟨hp, fun k hk' => by rw [hk] at hk'; cases hk'⟩, hl⟩)
    | some k =>
      rw [hk] at h
      dsimp only at h
      by_cases he : chf.reg k = chf.reg t.1
      · rw [if_pos he] at h
        have hb : ¬ chf.BoundarySide t := fun hb => ((boundarySide_iff hwf hd).1 hb).1.2 k hk he
        exact .on hb (.cross hb ((nbr_iff_link hwf hd).1 hk))
          (firstSide_spec hwf n (k, (t.2 + 3) % 4) s (Nat.mod_lt _ (by omega)) (nbr_lt hwf hd hk).2 (by rw [he]; exact hp) h)
      · rw [if_neg he] at h; cases h
        exact .here ((boundarySide_iff hwf hd).2 ⟨⟨hp, fun k' hk' => by rw [hk] at hk'; cases hk'; exact he⟩, hl⟩)

theorem sideAfter_spec {chf : CompactHeightfield} (hwf : chf.WellFormed) {s s' : Side} (hb : chf.BoundarySide s) (hd : s.2 < 4)
    (h : sideAfter chf s = some s') : chf.NextSide s s' := by
  obtain ⟨he, hl⟩ := (boundarySide_iff hwf hd).1 hb
  exact ⟨hb, _, .turn hb, firstSide_spec hwf 4 _ s' (Nat.mod_lt _ (by omega)) hl he.1 h⟩

/-- Executable test of `Matched`. -/
def matchedCheck (chf : CompactHeightfield) (S : Nat → Bool) : Bool :=
  (List.range chf.spans.length).all fun i => (List.range 4).all fun d => match chf.nbr i d with
    | none => true
    | some k => decide (chf.reg k = chf.reg i) || !(S (chf.reg i) && S (chf.reg k)) ||
      match sideAfter chf (i, d) with
      | none => false
      | some s' => match chf.nbr s'.1 s'.2 with
        | none => true
        | some k' => decide (chf.reg k' ≠ chf.reg k) || decide (sideAfter chf (k', (s'.2 + 2) % 4) = some (k, (d + 2) % 4))

theorem matched_of_check {chf : CompactHeightfield} (hwf : chf.WellFormed) (hsym : chf.SymmetricLinks) {S : Nat → Bool}
    (hS : ∀ r, S r = true → ProperRegion r) (h : matchedCheck chf S = true) :
    chf.Matched fun r => S r = true := by
  rintro r w ⟨i, d⟩ s' u u' hr hw ⟨hd, hri, hb, hw0, k, hl, hkw, _⟩ ⟨hd', hri', hb', _, k', hl', hkw', _⟩ hnx ⟨k1, hl1, rfl⟩ ⟨k1', hl1', rfl⟩
  obtain ⟨hil, hreg⟩ := (regionOf_iff hwf).1 hri
  obtain ⟨_, hreg'⟩ := (regionOf_iff hwf).1 hri'
  obtain ⟨_, hregk⟩ := (regionOf_iff hwf).1 hkw
  obtain ⟨hkl', hregk'⟩ := (regionOf_iff hwf).1 hkw'
  have hk := (nbr_iff_link hwf hd).2 hl
  have hk1 := (nbr_iff_link hwf hd).2 hl1
  have hk' := (nbr_iff_link hwf hd').2 hl'
  have hk1' := (nbr_iff_link hwf hd').2 hl1'
  simp only at hk hk1 hreg hil hd
  rw [hk] at hk1; cases hk1
  rw [hk'] at hk1'; cases hk1'
  have hedge := ((boundarySide_iff hwf (s := (i, d)) hd).1 hb).1
  have hedge' := ((boundarySide_iff hwf hd').1 hb').1
  have h1 := List.all_eq_true.1 (List.all_eq_true.1 h i (List.mem_range.2 hil)) d (List.mem_range.2 hd)
  rw [hk] at h1
  dsimp only at h1
  rw [decide_eq_false (hedge.2 k hk), hregk, hreg, hr, hw] at h1
  simp only [Bool.and_self, Bool.not_true, Bool.or_self, Bool.false_or] at h1
  cases hs : sideAfter chf (i, d) with
  | none => rw [hs] at h1; cases h1
  | some s'' =>
    have := nextSide_unique hwf (s := (i, d)) hd (sideAfter_spec hwf hb hd hs) hnx
    subst this
    rw [hs] at h1
    dsimp only at h1
    rw [hk'] at h1
    dsimp only at h1
    rw [decide_eq_false (by rw [hregk']; simp), Bool.false_or, decide_eq_true_eq] at h1
    have hlk := hsym _ _ _ hd' hl'
    have hm4 : (s''.2 + 2) % 4 < 4 := Nat.mod_lt _ (by omega)
    refine sideAfter_spec hwf ((boundarySide_iff hwf hm4).2 ⟨⟨by rw [hregk']; exact hS w hw, ?_⟩, hkl'⟩) hm4 h1
    intro j hj
    have := (nbr_iff_link hwf hm4).2 hlk
    simp only at hj this
    rw [this] at hj; cases hj
    rw [hregk', hreg']
    intro e
    exact hedge'.2 k' hk' (by rw [hregk', ← e, hreg'])

theorem clearOfSet_of_check {chf : CompactHeightfield} (hwf : chf.WellFormed) {S : Nat → Prop} {wall : Nat × Nat → Nat × Nat → Bool}
    {portal : Nat → Nat × Nat → Bool} (h : ∀ r, S r → endsCheck chf r wall portal = true) {d : Rat} {p : Point}
    (hw : ∀ a b, wall a b = true → ¬ NearSegment d p (cellCorner a) (cellCorner b))
    (hp : ∀ w a b c, ¬ S w → portal w a = true → portal w b = true → portal w c = true →
      ¬ InPlaneTriangle p (cellCorner a) (cellCorner b) (cellCorner c)) :
    chf.ClearOfSet d S p := by
  refine ⟨fun r s a b hr hs hrun => ?_, fun r w a b c hr hw' ha hb hc => ?_⟩
  · obtain ⟨a', b', rfl, rfl, hab⟩ := (ends_of_check hwf (h r hr)).1 s a b hs hrun
    exact hw a' b' hab
  · obtain ⟨a', rfl, ha'⟩ := (ends_of_check hwf (h r hr)).2 w a ha
    obtain ⟨b', rfl, hb'⟩ := (ends_of_check hwf (h r hr)).2 w b hb
    obtain ⟨c', rfl, hc'⟩ := (ends_of_check hwf (h r hr)).2 w c hc
    exact hp w a' b' c' hw' ha' hb' hc'

/-- A square of six by six cells in two regions that meet along stairs. -/
def stairsChf : CompactHeightfield :=
  let c := layers 6 6 1 (List.replicate 36 255)
  { c with spans := (List.range 36).zipWith (fun k s => { s with region := if k % 6 + k / 6 ≤ 5 then 1 else 2 }) c.spans }

theorem stairsChf_wf : stairsChf.WellFormed := wellFormed_of_check (by decide +kernel)
theorem stairsChf_sym : stairsChf.SymmetricLinks := symmetric_of_check stairsChf_wf (by decide +kernel)
theorem stairsChf_matched : stairsChf.Matched fun r => decide (r = 1 ∨ r = 2) = true :=
  matched_of_check stairsChf_wf stairsChf_sym (by intro r hr; simp at hr; unfold ProperRegion; rcases hr with rfl | rfl <;> decide) (by decide +kernel)

theorem stairsChf_clear {r : Rat} (hr : r ^ 2 < 121 / 16) : stairsChf.ClearOfSet r (fun r => decide (r = 1 ∨ r = 2) = true) (13 / 4, 13 / 4) := by
  refine clearOfSet_of_check stairsChf_wf
    (wall := fun a b => decide ((a.1 = 0 ∧ b.1 = 0) ∨ (a.1 = 6 ∧ b.1 = 6) ∨ (a.2 = 0 ∧ b.2 = 0) ∨ (a.2 = 6 ∧ b.2 = 6)))
    (portal := fun w _ => decide (w = 1 ∨ w = 2)) (fun r hr => ?_) ?_ (fun w _ _ _ h ha _ _ => absurd ha h)
  · simp only [decide_eq_true_eq] at hr
    rcases hr with rfl | rfl <;> decide +kernel
  rintro ⟨a, a'⟩ ⟨b, b'⟩ hw ⟨t, h0, h1, h⟩
  simp only [decide_eq_true_eq] at hw
  simp only [cellCorner] at h
  rcases hw with ⟨rfl, rfl⟩ | ⟨rfl, rfl⟩ | ⟨rfl, rfl⟩ | ⟨rfl, rfl⟩
  · have := sq_nonneg ((a' : Rat) + t * (b' - a') - 13 / 4)
    norm_num at h
    linarith
  · have := sq_nonneg ((a' : Rat) + t * (b' - a') - 13 / 4)
    norm_num at h
    linarith
  · have := sq_nonneg ((a : Rat) + t * (b - a) - 13 / 4)
    norm_num at h
    linarith
  · have := sq_nonneg ((a : Rat) + t * (b - a) - 13 / 4)
    norm_num at h
    linarith

/-- All hypotheses of `c91_joined_partial` hold for a point on the stairs, with `max_error` 1: it is in a cell of region 2, but beyond the straight line from
`(6, 1)` to `(1, 6)` that the contours of both regions take, so no polygon of region 2 is over it; the polygon of region 1 is. -/
example : stairsChf.WellFormed ∧ stairsChf.SymmetricLinks ∧ (∀ s ∈ stairsChf.spans, s.region < 65536) ∧ stairsChf.spans.length ≤ 10000 ∧
    (∀ x z i s, stairsChf.At x z i s → ProperRegion s.region → stairsChf.borderSize ≤ x ∧ stairsChf.borderSize ≤ z) ∧
    (∀ i k r, ProperRegion r → stairsChf.RegionOf i r → stairsChf.RegionOf k r → stairsChf.areas[i]? = stairsChf.areas[k]?) ∧
    (stairsChf.buildContours (Tests.exact 1) 0 ⟨true, false⟩).map (fun s => (s.contours.map fun c => c.vertices.map (·.1.xz),
      decide (∀ c ∈ s.contours, c.vertices.all fun v => decide (v.2 &&& BORDER_VERTEX = 0)))) =
      .ok ([[(1, 6), (6, 1), (0, 0)], [(1, 6), (6, 6), (6, 1)]], true) ∧
    ((stairsChf.buildContours (Tests.exact 1) 0 ⟨true, false⟩).bind fun s => s.intoPolygonMesh 10 6).map (fun o => (o.polys, o.regions)) =
      .ok ([[0, 1, 2], [0, 3, 1]], [1, 2]) ∧
    (∃ s, stairsChf.At 3 3 21 s ∧ s.region = 2) ∧
    (∀ i r, decide (r = 1 ∨ r = 2) = true → stairsChf.RegionOf i r → ¬ stairsChf.Isolated i) ∧
    stairsChf.Matched (fun r => decide (r = 1 ∨ r = 2) = true) ∧
    stairsChf.ClearOfSet (2 * 1) (fun r => decide (r = 1 ∨ r = 2) = true) (13 / 4, 13 / 4) := by
  have hwf := stairsChf_wf
  refine ⟨hwf, stairsChf_sym, by decide +kernel, by decide +kernel, fun _ _ _ _ _ _ => ⟨Nat.zero_le _, Nat.zero_le _⟩,
    ?_, by decide +kernel, by decide +kernel, ?_, ?_, stairsChf_matched, stairsChf_clear (by norm_num)⟩
  · intro i k r _ hi hk
    have h1 := ((regionOf_iff hwf).1 hi).1
    have h2 := ((regionOf_iff hwf).1 hk).1
    have : ∀ i < stairsChf.spans.length, stairsChf.areas[i]? = some 255 := by decide +kernel
    rw [this i h1, this k h2]
  · have hs : stairsChf.spans[21]? = some { layerSpan 6 6 3 3 0 with region := 2 } := by decide +kernel
    have := at_spec hwf hs
    rw [show stairsChf.xOf 21 = 3 by decide +kernel, show stairsChf.zOf 21 = 3 by decide +kernel] at this
    exact ⟨_, this, rfl⟩
  · intro i r _ hi hiso
    have hil := ((regionOf_iff hwf).1 hi).1
    have : ∀ i < stairsChf.spans.length, ∃ d < 4, (stairsChf.nbr i d).any (fun k => decide (stairsChf.reg k = stairsChf.reg i)) = true := by decide +kernel
    obtain ⟨d, hd, h⟩ := this i hil
    obtain ⟨k, hk, he⟩ := (Option.any_eq_true _ _).1 h
    exact ((boundarySide_iff hwf (s := (i, d)) hd).1 (hiso d hd)).1.2 k hk (by simpa using he)

/-- One region is matched with itself. -/
theorem matched_single {chf : CompactHeightfield} (hwf : chf.WellFormed) (r : Nat) : chf.Matched (· = r) := by
  rintro _ _ s s' u u' rfl rfl ⟨hd, hri, hb, _, k, hl, hkw, _⟩
  obtain ⟨_, h1⟩ := (regionOf_iff hwf).1 hri
  obtain ⟨_, h2⟩ := (regionOf_iff hwf).1 hkw
  exact absurd (h2.trans h1.symm) (((boundarySide_iff hwf hd).1 hb).1.2 k ((nbr_iff_link hwf hd).2 hl))

/-- The hypotheses of `c91_build_partial` on the set hold for the one region of the flat square; the others are as in `C86_Cover`. -/
example : exChf.Matched (· = 5) ∧ (∀ i r, r = 5 → exChf.RegionOf i r → ¬ exChf.Isolated i) ∧
    exChf.ClearOfSet (2 * exBuilder.edgeMaxError) (· = 5) (7 / 2, 7 / 2) := by
  have hwf : exChf.WellFormed := wellFormed_of_check (by decide +kernel)
  refine ⟨matched_single hwf 5, ?_, ?_, ?_⟩
  · rintro i r rfl hi hiso
    obtain ⟨hil, hr⟩ := (regionOf_iff hwf).1 hi
    have : ∀ i < exChf.spans.length, exChf.reg i = 5 → ∃ d < 4, (exChf.nbr i d).any (fun k => decide (exChf.reg k = exChf.reg i)) = true := by decide +kernel
    obtain ⟨d, hd, h⟩ := this i hil hr
    obtain ⟨k, hk, he⟩ := (Option.any_eq_true _ _).1 h
    exact ((boundarySide_iff hwf (s := (i, d)) hd).1 (hiso d hd)).1.2 k hk (by simpa using he)
  · rintro r s a b rfl h
    exact (exChf_clear _).1 s a b h
  · rintro r w a b c rfl _ ha hb hc
    exact (exChf_clear (2 * exBuilder.edgeMaxError)).2 w a b c ha hb hc

end Rerecast
