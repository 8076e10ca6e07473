import Verif.Props.C77_Coverage
import Verif.Lemmas.PipelineHang
/-! C79: when a whole build does not panic. -/
namespace Rerecast
open CompactHeightfield

/-- The scene is at least twice the agent's radius (in whole cells) and six cells wide and deep. -/
def SceneWide (b : ConfigBuilder) (scene : List Affector) : Prop :=
  (∃ u v, SceneVertex scene u ∧ SceneVertex scene v ∧ 2 * (⌈b.agentRadius / b.cellSize⌉ + 3) * b.cellSize ≤ v.x - u.x) ∧
  ∃ u v, SceneVertex scene u ∧ SceneVertex scene v ∧ 2 * (⌈b.agentRadius / b.cellSize⌉ + 3) * b.cellSize ≤ v.z - u.z

theorem wide_grid {F : Type} {env : BuildEnv F} {b : ConfigBuilder} {scene : List Affector} (hb : b.Sensible) {cfg : Config} {fr : Frame} {w h : Nat}
    (hcfg : b.build = .ok cfg) (hM : (World.ofBuild env cfg scene fr w h).Models env b scene) (hwide : SceneWide b scene) :
    2 * cfg.borderSize ≤ w ∧ 2 * cfg.borderSize ≤ h := by
  obtain ⟨⟨_, r2⟩, _, _, _, _, r6⟩ := c53_rounding b cfg hb hcfg
  have hcs := hb.cellSize
  have hce : (cfg.walkableRadius : ℚ) ≤ ⌈b.agentRadius / b.cellSize⌉ := by
    have h1 : ((cfg.walkableRadius : ℚ) - 1) * b.cellSize < b.agentRadius := by linarith
    have h2 := (lt_div_iff₀ hcs).2 h1
    have h3 := lt_of_lt_of_le h2 (Int.le_ceil _)
    have : (cfg.walkableRadius : Int) - 1 < ⌈b.agentRadius / b.cellSize⌉ := by exact_mod_cast h3
    exact_mod_cast (by omega : (cfg.walkableRadius : Int) ≤ ⌈b.agentRadius / b.cellSize⌉)
  have key : ∀ (n : Nat) (lo hi : ℚ), CoversSide n b.cellSize lo hi → 2 * (⌈b.agentRadius / b.cellSize⌉ + 3) * b.cellSize ≤ hi - lo → 2 * cfg.borderSize ≤ n := by
    intro n lo hi hc hd
    have e : (cfg.borderSize : ℚ) = cfg.walkableRadius + 3 := by rw [r6]; push_cast; ring
    have h1 := hc.2
    have h2 : (2 * (cfg.borderSize : ℚ)) * b.cellSize < (n + 1) * b.cellSize := by rw [e]; nlinarith
    have h3 := lt_of_mul_lt_mul_right h2 hcs.le
    have : 2 * cfg.borderSize < n + 1 := by exact_mod_cast h3
    omega
  obtain ⟨⟨u, v, hu, hv, hx⟩, u', v', hu', hv', hz⟩ := hwide
  have a1 := hM.contains u hu
  have a2 := hM.contains v hv
  have b1 := hM.contains u' hu'
  have b2 := hM.contains v' hv'
  exact ⟨key _ _ _ hM.width (by linarith [a1.1, a2.2.1]), key _ _ _ hM.depth (by linarith [b1.2.2.2.2.1, b2.2.2.2.2.2])⟩

/-- **C79 (first stages).** For every proper scene that is wide enough, the settings, the input and the heightfield with its filters are made. -/
theorem c79_solid {F : Type} (env : BuildEnv F) (b : ConfigBuilder) (scene : List Affector) (hgood : GoodBuild env b scene) (hwide : SceneWide b scene)
    (htile : b.tiling = true → (b.tileSize : Int) + 2 * (⌈b.agentRadius / b.cellSize⌉ + 3) ≤ 65535) :
    ∃ cfg m fr hf, b.build = .ok cfg ∧ buildInput env cfg scene = .ok (m, fr) ∧ buildSolid cfg m fr = .ok hf := by
  have hcs := hgood.settings.cellSize
  obtain ⟨cfg, hcfg⟩ := (c53_outcomes b hgood.settings).1.2 ⟨by have := hgood.radius; linarith, htile⟩
  obtain ⟨⟨u, _, hu, _⟩, _⟩ := id hwide
  obtain ⟨m, fr, hin, _⟩ := (buildInput_spec env cfg hgood.proper).2 ⟨u, hu⟩
  obtain ⟨w, h, hw, hh, hM, hI, hs, hnew⟩ := input_frame hgood.settings hgood.proper hgood.fits hcfg hin
  obtain ⟨w1, h1⟩ := wide_grid hgood.settings hcfg hM hwide
  have hb3 : 3 ≤ cfg.borderSize := by rw [(c53_rounding b cfg hgood.settings hcfg).2.2.2.2.2]; omega
  have hbox : ∀ v ∈ m.vertices, fr.aabb.Contains v := fun v hv => hI.contains v ((hI.vertices v).1 hv)
  obtain ⟨hf1, r1, wf1, _⟩ := raster_spec hs ⟨by omega, hw⟩ ⟨by omega, hh⟩ hI.wf hbox cfg.walkableClimb
  obtain ⟨hf2, e2, wf2, _⟩ := c15_filters_keep_geometry hf1 wf1 cfg.walkableHeight cfg.walkableClimb
    (hf1.filterLowHangingWalkableObstacles cfg.walkableClimb) (by simp)
  obtain ⟨hf3, e3, wf3, _⟩ := c15_filters_keep_geometry hf2 wf2 cfg.walkableHeight cfg.walkableClimb
    (hf2.filterLedgeSpans cfg.walkableHeight cfg.walkableClimb) (by simp)
  obtain ⟨hf4, e4, _⟩ := c15_filters_keep_geometry hf3 wf3 cfg.walkableHeight cfg.walkableClimb
    (hf3.filterWalkableLowHeightSpans cfg.walkableHeight) (by simp)
  exact ⟨cfg, m, fr, hf4, hcfg, hin, by rw [buildSolid, hnew, bind_ok, r1, bind_ok, e2, bind_ok, e3, bind_ok, e4]⟩

theorem spans_of_surfaces {hf : Heightfield} (hwf : hf.WellFormed) (hsm : hf.spanCount < 2 ^ 32) {wh climb : Nat} {chf : CompactHeightfield}
    (hok : hf.intoCompact wh climb = .ok chf) : chf.spans.length = hf.spanCount ∧ ∀ c ∈ chf.cells, ∃ x z l, hf.HasSurfaces x z l ∧ c.count = l.length := by
  obtain ⟨cols, spans, hr, rfl, hcv, hcnt⟩ := converted hwf hsm hok
  have hlen := hcv.same.length
  rw [List.length_map] at hlen
  refine ⟨?_, ?_⟩
  · rw [← walkable_le_spanCount, walkableSpanCount_eq hr, ← hlen]
    rfl
  · intro c hc
    obtain ⟨k, hk, rfl⟩ := List.mem_map.1 hc
    have hk := List.mem_range.1 hk
    have hw : 0 < hf.width := by
      rcases Nat.eq_zero_or_pos hf.width with h | h
      · rw [h] at hk; omega
      · exact h
    have hx := Nat.mod_lt k hw
    have hz : k / hf.width < hf.height := Nat.div_lt_of_lt_mul (by rw [Nat.mul_comm] at hk; rw [Nat.mul_comm]; exact hk)
    have e : k % hf.width + k / hf.width * hf.width = k := by rw [Nat.mul_comm]; exact Nat.mod_add_div _ _
    refine ⟨k % hf.width, k / hf.width, _, ⟨hx, hz, _, hr.column hx hz, rfl⟩, ?_⟩
    rw [e]
    unfold cellSpec
    split
    · rename_i h0
      rw [h0]; rfl
    · rfl

/-- **C79 (regions, partial).** If some ground is walkable, in at most 32766 places and at most 62 above each other, the compact heightfield with its
regions is made. -/
theorem c79_regions_partial {F : Type} (env : BuildEnv F) (b : ConfigBuilder) (scene : List Affector) (hgood : GoodBuild env b scene)
    (hwide : SceneWide b scene) (cfg : Config) (m : TriMesh ℚ) (fr : Frame) (hf : Heightfield) (hcfg : b.build = .ok cfg)
    (hinput : buildInput env cfg scene = .ok (m, fr)) (hsolid : buildSolid cfg m fr = .ok hf) (hsome : ∃ x z l, hf.HasSurfaces x z l ∧ l ≠ [])
    (hmany : hf.spanCount ≤ 32766) (hlay : ∀ x z l, hf.HasSurfaces x z l → l.length ≤ 62) :
    ∃ chf, buildCompact cfg hf = .ok chf ∧ ∀ c ∈ chf.cells, c.count ≤ 62 := by
  have hsm : hf.spanCount < 2 ^ 32 := by omega
  obtain ⟨w, h, hw, hh, hM, hI, hs, hnew⟩ := input_frame hgood.settings hgood.proper hgood.fits hcfg hinput
  obtain ⟨w1, h1⟩ := wide_grid hgood.settings hcfg hM hwide
  have hb3 : 3 ≤ cfg.borderSize := by rw [(c53_rounding b cfg hgood.settings hcfg).2.2.2.2.2]; omega
  have hbox : ∀ v ∈ m.vertices, fr.aabb.Contains v := fun v hv => hI.contains v ((hI.vertices v).1 hv)
  obtain ⟨wf, ew, eh, _⟩ := solid_spec hs ⟨by omega, hw⟩ ⟨by omega, hh⟩ hI.wf hbox hnew hsolid
  obtain ⟨c0, e0⟩ := c24_succeeds_partial hf wf hsm cfg.walkableHeight cfg.walkableClimb fun x z l hl => by
    have := hlay x z l hl; omega
  have hwf0 := c20_wellformed hf wf hsm (by omega) (by omega) _ _ c0 e0
  obtain ⟨cw, ch, hsurf⟩ := c19_exactly_the_walkable_spans hf wf hsm _ _ c0 e0
  obtain ⟨n0, n1⟩ := spans_of_surfaces wf hsm e0
  have hr := radius_le hgood.settings hcfg hgood.radius
  obtain ⟨c1, e1⟩ := (c25_outcome c0 hwf0 cfg.walkableRadius).1 (by omega)
  obtain ⟨d1, l1, _⟩ := c25_only_removes c0 hwf0 _ c1 e1
  have hwf1 : c1.WellFormed := by
    rw [d1]
    exact ⟨hwf0.width_u16, hwf0.height_u16, hwf0.cells_len, by simp only; rw [l1]; exact hwf0.areas_len, hwf0.partition, hwf0.con⟩
  have hs1 : c1.width ≤ 32767 ∨ c1.height ≤ 32767 := by rw [d1]; simp only; rw [cw, ew]; exact Or.inl hw
  have sp1 : c1.spans = c0.spans := by rw [d1]
  have hne : c1.spans ≠ [] := by
    rw [sp1]
    obtain ⟨x, z, l, ⟨hx, hz, sol, hcol, hl⟩, hne⟩ := hsome
    obtain ⟨l', hcol', hcs⟩ := hsurf x hx z hz
    rw [hcol] at hcol'; cases hcol'
    rw [hl] at hcs
    intro hnil
    unfold cellSurfaces at hcs
    obtain ⟨cell, hcell, hcs⟩ := bind_inv hcs
    cases hir : cell.indexRange with
    | nil => rw [hir] at hcs; cases hcs; exact hne rfl
    | cons i is =>
      rw [hir, List.mapM_cons, hnil] at hcs
      cases hcs
  obtain ⟨c2, e2, d2⟩ := c29_no_panic c1 hwf1 hs1 hne
  obtain ⟨rd, hmax⟩ := ready_of_distance_field c1 hwf1 hs1 c2 e2
  obtain ⟨chf, e3⟩ := c38_succeeds c2 rd (by rw [d2]; simp only; rw [sp1, n0]; exact hmany) hmax cfg.borderSize cfg.minRegionArea cfg.mergeRegionArea
  refine ⟨chf, by rw [buildCompact, e0, bind_ok, e1, bind_ok, e2, bind_ok, e3], ?_⟩
  obtain ⟨_, d3, _⟩ := c34_regions_only_on_walkable c2 rd _ _ _ chf e3
  intro c hc
  rw [d3, d2, d1] at hc
  obtain ⟨x, z, l, hl, e⟩ := n1 c hc
  rw [e]; exact hlay x z l hl

/-- **C79 (partial).** A build that has its regions returns a navmesh or, if a contour cannot be triangulated, an error; it neither panics nor runs forever.
Missing: scenes narrower than twice the agent's radius (in whole cells) and six cells, `edge_max_len` of 256 cells or more, more contours than `max_region` and
than 8, contours with vertices to remove (see C48), 65535 or more contour vertices, a sample distance of 0 or allocators that reserve more than they are
asked for (see C52, C69), and the guards of `c78_succeeds_partial`. -/
theorem c79_outcomes_partial {F : Type} (env : BuildEnv F) (b : ConfigBuilder) (flags : ContourFlags) (scene : List Affector)
    (hgood : GoodBuild env b scene) (hwide : SceneWide b scene) (h3 : 3 ≤ b.vertsPerPoly) (h126 : b.vertsPerPoly < 127)
    (hlow : ∀ u v, SceneVertex scene u → SceneVertex scene v → v.y - u.y < 65534 * b.cellHeight) (hlen : b.edgeMaxLen < 256 * b.cellSize)
    (cfg : Config) (m : TriMesh ℚ) (fr : Frame) (hf : Heightfield) (chf : CompactHeightfield) (st : Stages env b scene cfg m fr hf chf)
    (hclimb : cfg.walkableClimb < cfg.walkableHeight) (hlay : ∀ c ∈ chf.cells, c.count ≤ 62)
    (hshort : ∀ r v, chf.IsCircuit r v → (∃ s ∈ v, chf.BoundarySide s) → v.length ≤ 40000)
    (hcount : ∀ marks marks' cs, chf.markBoundaries = .ok marks →
      chf.traceAll (env.tests cfg.maxSimplificationError) cfg.maxEdgeLen flags chf.spans.length marks = .ok (marks', cs) → cs.length ≤ max chf.maxRegion 8)
    (hset : ∀ set, chf.buildContours (env.tests cfg.maxSimplificationError) cfg.maxEdgeLen flags = .ok set → set.NoBorderVertices ∧ set.FewVertices)
    (hR : ∀ bs, (detailConfig env cfg fr bs).radius env.ops ≤ 32767)
    (hst : ∀ set poly, MeshStages env b flags scene cfg m fr hf chf set poly → SidesCountable env.ops (detailConfig env cfg fr set.borderSize) poly)
    (halloc : ExactAllocator env.alloc) (hsd : env.ops.lt (env.ops.lit 0) (env.toF cfg.detailSampleDist) = true) :
    (∃ r, buildNavmesh env b flags scene = .ok r) ∨
      ∃ set, chf.buildContours (env.tests cfg.maxSimplificationError) cfg.maxEdgeLen flags = .ok set ∧
        set.intoPolygonMesh env.fuel cfg.maxVerticesPerPolygon = .error .err ∧ buildNavmesh env b flags scene = .error .err := by
  obtain ⟨w, h, c0, hw, hh, hM, hG, _⟩ := hgood.stages st
  obtain ⟨w1, h1⟩ := wide_grid hgood.settings st.config hM hwide
  have hme : cfg.maxEdgeLen ≤ 255 := by
    rw [(config_limits st.config).1]
    have : ⌊b.edgeMaxLen / b.cellSize⌋ < 256 := Int.floor_lt.2 (by rw [div_lt_iff₀ hgood.settings.cellSize]; exact_mod_cast hlen)
    unfold satU16
    omega
  have eb : chf.borderSize = cfg.borderSize := hG.border
  have ew : chf.width = w := hG.width
  have eh : chf.height = h := hG.height
  obtain ⟨marks, marks', cs, k1, k2, k3, _⟩ := c43_outcome_partial chf hG.wf (env.tests cfg.maxSimplificationError) cfg.maxEdgeLen hme flags
    (by rw [eb, ew]; omega) (by rw [eb, eh]; omega)
  have hcon := k3 (hcount marks marks' cs k1 k2)
  generalize hgen : (⟨cs, chf.width - chf.borderSize * 2, chf.height - chf.borderSize * 2, chf.borderSize⟩ : ContourSet) = set at hcon
  obtain ⟨hnb, hfew⟩ := hset set hcon
  have hsmall : set.Small := by
    intro c hc v hv
    obtain ⟨p, hs, hp⟩ := contour_marks hG hcon hc hv
    have m1 := marks_cell hp
    have m2 := hs.inside
    have : (World.ofBuild env cfg scene fr w h).width = w := rfl
    have : (World.ofBuild env cfg scene fr w h).depth = h := rfl
    omega
  rcases c48_outcomes_partial set env.fuel _ (nvp_ge st.config h3) (nvp_le st.config) hnb hsmall with ⟨poly, hp⟩ | he
  · left
    have st' : MeshStages env b flags scene cfg m fr hf chf set poly := ⟨st, hcon, hp⟩
    obtain ⟨detail, hd⟩ := c78_succeeds_partial env b flags scene hgood h3 h126 hlow cfg m fr hf chf set poly st' hclimb hlay hshort hfew
      (hR _) (hst set poly st') halloc hsd
    exact ⟨_, hd⟩
  · right
    refine ⟨set, hcon, he, ?_⟩
    unfold buildNavmesh buildMeshes
    rw [st.config, bind_ok, st.input, bind_ok]
    simp only
    rw [st.solid, bind_ok, st.compact, bind_ok, hcon, bind_ok, he]
    rfl

/-- All hypotheses are met by a build of a flat square. -/
example : GoodBuild exEnv exBuilder exScene ∧ SceneWide exBuilder exScene ∧ exBuilder.edgeMaxLen < 256 * exBuilder.cellSize ∧
    (exBuilder.tiling = true → (exBuilder.tileSize : Int) + 2 * (⌈exBuilder.agentRadius / exBuilder.cellSize⌉ + 3) ≤ 65535) ∧
    Stages exEnv exBuilder exScene exCfg exM exFr exHf11 exChf ∧ (∃ x z l, exHf11.HasSurfaces x z l ∧ l ≠ []) ∧ exHf11.spanCount ≤ 32766 ∧
    (∀ x z l, exHf11.HasSurfaces x z l → l.length ≤ 62) ∧
    (∀ marks marks' cs, exChf.markBoundaries = .ok marks →
      exChf.traceAll (exEnv.tests exCfg.maxSimplificationError) exCfg.maxEdgeLen ⟨true, false⟩ exChf.spans.length marks = .ok (marks', cs) →
        cs.length ≤ max exChf.maxRegion 8) ∧
    (∀ set, exChf.buildContours (exEnv.tests exCfg.maxSimplificationError) exCfg.maxEdgeLen ⟨true, false⟩ = .ok set →
      set.NoBorderVertices ∧ set.FewVertices) := by
  have hv : ∀ k, k < 4 → ∀ v ∈ exStrip k, SceneVertex exScene v := fun k hk v hv =>
    ⟨_, List.mem_map_of_mem (List.mem_range.2 hk), _, _, ⟨_, rfl, rfl, rfl, rfl, by rfl⟩, v, hv, rfl⟩
  have hsurf : ∀ x < 8, ∀ z < 7, (exHf11.column (x + z * 8)).map (fun sol => decide ((surfaces sol).length ≤ 62)) = .ok true := by decide +kernel
  refine ⟨exBuild_good, ⟨⟨_, _, hv 0 (by decide) ⟨0, 0, 0⟩ (by decide +kernel), hv 3 (by decide) ⟨8, 0, 0⟩ (by decide +kernel), by decide +kernel⟩,
    _, _, hv 0 (by decide) ⟨0, 0, 0⟩ (by decide +kernel), hv 0 (by decide) ⟨0, 0, 7⟩ (by decide +kernel), by decide +kernel⟩, by decide +kernel,
    by decide +kernel, ex_stages.toStages, ?_, by decide +kernel, ?_, ?_, ?_⟩
  · have hl : (exHf11.column (3 + 3 * 8)).map (fun sol => (surfaces sol).length) = .ok 1 := by decide +kernel
    cases hc : exHf11.column (3 + 3 * 8) with
    | error e => rw [hc] at hl; cases hl
    | ok sol =>
      rw [hc] at hl
      refine ⟨3, 3, _, ⟨by decide, by decide, sol, hc, rfl⟩, fun h => ?_⟩
      have : (surfaces sol).length = 1 := Except.ok.inj hl
      rw [h] at this
      cases this
  · rintro x z l ⟨hx, hz, sol, hc, rfl⟩
    have hl := hsurf x hx z hz
    have hc : exHf11.column (x + z * 8) = .ok sol := hc
    rw [hc] at hl
    exact of_decide_eq_true (Except.ok.inj hl)
  · intro marks marks' cs h1 h2
    have h3 : (do
        let marks ← exChf.markBoundaries
        let st ← exChf.traceAll (exEnv.tests exCfg.maxSimplificationError) exCfg.maxEdgeLen ⟨true, false⟩ exChf.spans.length marks
        .ok st.2.length : Res Nat) = .ok 1 := by decide +kernel
    rw [h1, bind_ok, h2, bind_ok] at h3
    have : cs.length = 1 := Except.ok.inj h3
    omega
  · intro set h
    rw [ex_contours] at h
    cases h
    unfold ContourSet.NoBorderVertices ContourSet.FewVertices
    decide +kernel

theorem lScene_vertex {v : V3 ℚ} (h : SceneVertex lScene v) : 0 ≤ v.x ∧ v.x ≤ 10 ∧ v.y = 0 ∧ 0 ≤ v.z ∧ v.z ≤ 9 := by
  obtain ⟨a, ha, vs, is, ⟨mesh, h1, _, h3, h4, _⟩, p, hp, rfl⟩ := h
  obtain ⟨k, hk, rfl⟩ := List.mem_map.1 ha
  cases h1; cases h3; cases h4
  have hk := List.mem_range.1 hk
  revert p
  interval_cases k <;> decide +kernel

theorem lBuild_good (fuel : Nat) : GoodBuild { exEnv with fuel := fuel } exBuilder lScene := by
  refine ⟨exBuild_good.settings, ⟨?_, ?_, by decide +kernel⟩, ?_, exBuild_good.radius, ?_⟩
  · rintro a ha vs is ⟨mesh, h1, _, h3, h4, _⟩
    obtain ⟨k, hk, rfl⟩ := List.mem_map.1 ha
    cases h1; cases h3; cases h4
    have hk := List.mem_range.1 hk
    interval_cases k <;> simp [lTile]
  · intro v hv
    obtain ⟨h1, h2, h3, h4, h5⟩ := lScene_vertex hv
    simp only [exEnv]
    refine ⟨?_, ?_, ?_, ?_, ?_, ?_⟩ <;> linarith
  · intro u v hu hv
    obtain ⟨a1, a2, a3, a4, a5⟩ := lScene_vertex hu
    obtain ⟨b1, b2, b3, b4, b5⟩ := lScene_vertex hv
    simp only [exBuilder]
    refine ⟨?_, ?_, ?_⟩ <;> linarith
  · intro cfg m fr hf h1 h2 h3
    rw [ex_config] at h1; cases h1
    have h2 : buildInput exEnv exCfg lScene = .ok (m, fr) := h2
    rw [l_input] at h2; cases h2
    rw [l_solid] at h3; cases h3
    decide +kernel

/-- **C79 is violated by builds that never end.** For an L-shaped floor that is wide enough, the build runs forever: however many steps are allowed, it
does not end.  (A vertex at the border, where a region of one cell without a contour of its own meets a larger one, is to be removed from the only polygon
that has it, see C48.) -/
theorem c79_violated_hang : ∃ (env : BuildEnv ℚ) (b : ConfigBuilder) (flags : ContourFlags) (scene : List Affector),
    SceneWide b scene ∧ ∀ fuel, GoodBuild { env with fuel := fuel } b scene ∧
      buildNavmesh { env with fuel := fuel } b flags scene = .error .diverge := by
  have hv : ∀ k, k < 3 → ∀ v ∈ lTile k, SceneVertex lScene v := fun k hk v hv => by
    refine ⟨_, List.mem_map_of_mem (List.mem_range.2 hk), _, _, ⟨_, rfl, rfl, rfl, rfl, ?_⟩, v, hv, rfl⟩
    interval_cases k <;> rfl
  refine ⟨exEnv, exBuilder, ⟨true, false⟩, lScene,
    ⟨⟨_, _, hv 0 (by decide) ⟨0, 0, 0⟩ (by decide +kernel), hv 1 (by decide) ⟨10, 0, 0⟩ (by decide +kernel), by decide +kernel⟩,
      _, _, hv 0 (by decide) ⟨0, 0, 0⟩ (by decide +kernel), hv 2 (by decide) ⟨5, 0, 9⟩ (by decide +kernel), by decide +kernel⟩,
    fun fuel => ⟨lBuild_good fuel, ?_⟩⟩
  unfold buildNavmesh buildMeshes
  have e2 : buildInput { exEnv with fuel := fuel } exCfg lScene = .ok (lM, lFr) := l_input
  have e5 : lChf.buildContours (({ exEnv with fuel := fuel } : BuildEnv ℚ).tests exCfg.maxSimplificationError) exCfg.maxEdgeLen ⟨true, false⟩ = .ok lSet :=
    l_contours
  rw [ex_config, bind_ok, e2, bind_ok]
  simp only
  rw [l_solid, bind_ok, l_compact, bind_ok]
  rw [e5, bind_ok, show exCfg.maxVerticesPerPolygon = 6 from rfl, l_mesh]
  rfl

end Rerecast
