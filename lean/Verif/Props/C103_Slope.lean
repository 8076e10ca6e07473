import Verif.Lemmas.Slope
import Verif.Props.C05_C08_TriMesh
import Verif.Props.C75_C79_Pipeline
import Mathlib.Analysis.SpecialFunctions.Trigonometric.Basic
/-! C103: the slope of walkable triangles. -/
namespace Rerecast

/-- **C103 (marking).** `mark_walkable_triangles`, for an angle of less than a right angle, marks exactly the triangles that face up and on which every
walk rises by less than the tangent of the angle times the horizontal distance (some ratio below the tangent bounds all of them); the others, among them
degenerate ones, walls and ceilings, keep the area they have.  It does not panic. -/
theorem c103_slope (θ : ℝ) (h0 : 0 ≤ θ) (h1 : θ < Real.pi / 2) (m : TriMesh ℚ) (h : m.WF) :
    ∃ out, m.markWalkableTriangles (slopeTest θ) = .ok out ∧ out.vertices = m.vertices ∧ out.indices = m.indices ∧
      out.areaTypes.length = m.areaTypes.length ∧
      ∀ t a b c, m.corners t = some (a, b, c) →
        ((FacesUp a b c ∧ ∃ s < Real.tan θ, RisesAtMost s a b c) → out.areaTypes[t]? = some 255) ∧
        (¬ (FacesUp a b c ∧ ∃ s < Real.tan θ, RisesAtMost s a b c) → out.areaTypes[t]? = m.areaTypes[t]?) := by
  obtain ⟨out, e1, e2, e3, e4, e5⟩ := c07_mark_walkable (slopeTest θ) m h
  refine ⟨out, e1, e2, e3, e4, fun t a b c hc => ⟨fun hs => (e5 t a b c hc).1 ((slopeTest_iff h0 h1 a b c).2 hs), fun hs => (e5 t a b c hc).2 ?_⟩⟩
  cases hb : slopeTest θ a b c
  · rfl
  · exact absurd ((slopeTest_iff h0 h1 a b c).1 hb) hs

/-- **C103 (larger angles).** With a larger angle all these triangles, and maybe more, are marked. -/
theorem c103_monotone (θ θ' : ℝ) (h0 : 0 ≤ θ) (hle : θ ≤ θ') (h1 : θ' < Real.pi / 2) (a b c : V3 ℚ) (h : slopeTest θ a b c = true) :
    slopeTest θ' a b c = true := by
  obtain ⟨hu, s, hs, hr⟩ := (slopeTest_iff h0 (hle.trans_lt h1) a b c).1 h
  refine (slopeTest_iff (h0.trans hle) h1 a b c).2 ⟨hu, s, hs.trans_le ?_, hr⟩
  rcases hle.lt_or_eq with hlt | rfl
  · exact (Real.tan_lt_tan_of_lt_of_lt_pi_div_two (by linarith [Real.pi_pos]) h1 hlt).le
  · exact le_rfl

/-- A triangle with a rise of `r` along x. -/
def ramp (r : ℚ) : Triangle := (⟨0, 0, 0⟩, ⟨0, 0, 1⟩, ⟨1, r, 0⟩)

theorem ramp_rises {r s : ℝ} (q : ℚ) (hq : (q : ℝ) = r) (h0 : 0 ≤ r) (h : RisesAtMost s (ramp q).1 (ramp q).2.1 (ramp q).2.2) : r ≤ s := by
  have := h 0 1
  simp only [ramp] at this
  norm_num [hq, abs_of_nonneg h0] at this
  exact this

/-- Both cases are met: a ramp that rises by a half is marked for an angle of 45 degrees, and one that rises by 2 is not. -/
theorem c103_ramps : slopeTest (Real.pi / 4) (ramp (1 / 2)).1 (ramp (1 / 2)).2.1 (ramp (1 / 2)).2.2 = true ∧
    slopeTest (Real.pi / 4) (ramp 2).1 (ramp 2).2.1 (ramp 2).2.2 = false := by
  have hp := Real.pi_pos
  constructor
  · refine (slopeTest_iff (by linarith) (by linarith) _ _ _).2 ⟨by unfold FacesUp ramp; norm_num, 1 / 2, by rw [Real.tan_pi_div_four]; norm_num, ?_⟩
    intro u v
    simp only [ramp]
    norm_num
    have : |v| ≤ √(v ^ 2 + u ^ 2) := Real.abs_le_sqrt (by nlinarith [sq_nonneg u])
    linarith
  · cases hb : slopeTest (Real.pi / 4) (ramp 2).1 (ramp 2).2.1 (ramp 2).2.2
    · rfl
    · obtain ⟨_, s, hs, hr⟩ := (slopeTest_iff (by linarith) (by linarith) _ _ _).1 hb
      have := ramp_rises (r := 2) 2 (by norm_num) (by norm_num) hr
      rw [Real.tan_pi_div_four] at hs
      linarith

/-- **C103 (the limit itself).** The angle is documented as the maximum slope that is walkable, but ground of exactly this slope is not marked: neither
a ramp of 45 degrees for an angle of 45 degrees, nor level ground for an angle of 0, which is within the documented limits. -/
theorem c103_limit : slopeTest (Real.pi / 4) (ramp 1).1 (ramp 1).2.1 (ramp 1).2.2 = false ∧ ∀ a b c, slopeTest 0 a b c = false := by
  have hp := Real.pi_pos
  constructor
  · cases hb : slopeTest (Real.pi / 4) (ramp 1).1 (ramp 1).2.1 (ramp 1).2.2
    · rfl
    · obtain ⟨_, s, hs, hr⟩ := (slopeTest_iff (by linarith) (by linarith) _ _ _).1 hb
      have := ramp_rises (r := 1) 1 (by norm_num) (by norm_num) hr
      rw [Real.tan_pi_div_four] at hs
      linarith
  · intro a b c
    cases hb : slopeTest 0 a b c
    · rfl
    · obtain ⟨hu, s, hs, hr⟩ := (slopeTest_iff le_rfl (by linarith) _ _ _).1 hb
      have := ((rises_iff hu s).1 hr)
      rw [Real.tan_zero] at hs
      have hny : (0 : ℝ) < (V3.cross ⟨b.x - a.x, b.y - a.y, b.z - a.z⟩ ⟨c.x - a.x, c.y - a.y, c.z - a.z⟩).y := by
        have h2 : 0 < (V3.cross ⟨b.x - a.x, b.y - a.y, b.z - a.z⟩ ⟨c.x - a.x, c.y - a.y, c.z - a.z⟩).y := by
          have h3 : 0 < (b.z - a.z) * (c.x - a.x) - (b.x - a.x) * (c.z - a.z) := hu
          show 0 < (b.z - a.z) * (c.x - a.x) - (c.z - a.z) * (b.x - a.x)
          linarith
        exact_mod_cast h2
      have := (div_nonneg (Real.sqrt_nonneg _) hny.le).trans this
      linarith

/-- **C103 (navmeshes).** Every vertex of a navmesh is at a corner of the cell of a place where the agent can stand, and in this cell, at or below this
place, there is a triangle of the scene that faces up and on which no walk is as steep as the agent's maximum slope. -/
theorem c103_vertices {F : Type} (env : BuildEnv F) (henv : env.up = fun θ : ℚ => slopeTest (θ : ℝ)) (b : ConfigBuilder) (flags : ContourFlags)
    (scene : List Affector) (hgood : GoodBuild env b scene) (h0 : 0 ≤ b.agentMaxSlope) (h1 : (b.agentMaxSlope : ℝ) < Real.pi / 2)
    (h3 : 3 ≤ b.vertsPerPoly) (poly : PolygonNavmesh) (detail : DetailNavmesh F) (hok : buildNavmesh env b flags scene = .ok (poly, detail)) :
    ∃ W : World, W.Models env b scene ∧ ∀ v ∈ poly.vertices, ∃ p, W.Safe p ∧ W.Marks p v ∧
      ∃ t q, SceneTriangle scene t ∧ FacesUp t.1 t.2.1 t.2.2 ∧ (∃ s < Real.tan b.agentMaxSlope, RisesAtMost s t.1 t.2.1 t.2.2) ∧
        InTriangle t q ∧ InCell W.fr p.x p.z q ∧ q.y - W.fr.aabb.min.y ≤ p.y * W.fr.cellHeight := by
  obtain ⟨W, hM, hv⟩ := c76_vertices_partial env b flags scene hgood h3 poly detail hok
  refine ⟨W, hM, fun v hvm => ?_⟩
  obtain ⟨p, hs, hm⟩ := hv v hvm
  obtain ⟨t, q, ht, hsl, r1, r2, r3⟩ := hs.standing.slope
  rw [hM.triangle] at ht
  rw [hM.slope, henv] at hsl
  obtain ⟨e1, e2⟩ := (slopeTest_iff (by exact_mod_cast h0) h1 _ _ _).1 hsl
  exact ⟨p, hs, hm, t, q, ht, e1, e2, r1, r2, r3⟩

/-- **C103 (no builds for slope 0).** With a maximum slope of 0, which is within the documented limits, no build succeeds, not even for level ground. -/
theorem c103_slope_zero {F : Type} (env : BuildEnv F) (henv : env.up = fun θ : ℚ => slopeTest (θ : ℝ)) (b : ConfigBuilder) (flags : ContourFlags)
    (scene : List Affector) (hgood : GoodBuild env b scene) (h0 : b.agentMaxSlope = 0) : ∀ r, buildNavmesh env b flags scene ≠ .ok r := by
  refine c79_no_ground env b flags scene hgood fun t _ => ?_
  rw [henv, h0]
  have := c103_limit.2 t.1 t.2.1 t.2.2
  show slopeTest ((0 : ℚ) : ℝ) t.1 t.2.1 t.2.2 = false
  rw [Rat.cast_zero]
  exact this

/-! ### The four strips, with this slope test -/

/-- Level ground that faces up is marked for every angle above 0. -/
theorem c103_level (θ : ℝ) (h0 : 0 < θ) (h1 : θ < Real.pi / 2) (a b c : V3 ℚ) (hu : FacesUp a b c) (hb : b.y = a.y) (hc : c.y = a.y) :
    slopeTest θ a b c = true := by
  refine (slopeTest_iff h0.le h1 a b c).2 ⟨hu, 0, Real.tan_pos_of_pos_of_lt_pi_div_two h0 h1, fun u v => ?_⟩
  rw [hb, hc]
  simp

noncomputable def exEnvSlope : BuildEnv ℚ := { exEnv with up := fun θ : ℚ => slopeTest (θ : ℝ) }

def exM0 : TriMesh ℚ := { exM with areaTypes := List.replicate 8 0 }

theorem exM0_collected : collectAffectors exScene = .ok exM0 := by decide +kernel

theorem exM0_box : exM0.computeAabb exEnv.lo exEnv.hi = some ⟨⟨0, 0, 0⟩, ⟨8, 0, 7⟩⟩ := by decide +kernel

theorem exM0_wf : exM0.WF := ⟨by decide +kernel, by decide +kernel⟩

theorem exM0_level : ∀ t < 8, ∃ a b c, exM0.corners t = some (a, b, c) ∧ 0 < (b.z - a.z) * (c.x - a.x) - (b.x - a.x) * (c.z - a.z) ∧ b.y = a.y ∧ c.y = a.y := by
  intro t ht
  have : ∀ t < 8, (exM0.corners t).any (fun p => decide (0 < (p.2.1.z - p.1.z) * (p.2.2.x - p.1.x) - (p.2.1.x - p.1.x) * (p.2.2.z - p.1.z) ∧
      p.2.1.y = p.1.y ∧ p.2.2.y = p.1.y)) = true := by decide +kernel
  have := this t ht
  rw [Option.any_eq_true] at this
  obtain ⟨⟨a, b, c⟩, h1, h2⟩ := this
  exact ⟨a, b, c, h1, by simpa using h2⟩

theorem one_lt_pi_div_two : ((1 : ℚ) : ℝ) < Real.pi / 2 := by
  rw [Rat.cast_one]
  by_contra h
  have h1 := Real.cos_one_pos
  have h2 := Real.cos_nonpos_of_pi_div_two_le_of_le (x := 1) (not_lt.1 h) (by linarith [Real.two_le_pi])
  linarith

theorem exSlope_input : buildInput exEnvSlope exCfg exScene = .ok (exM, exFr) := by
  have hm : exM0.markWalkableTriangles (exEnvSlope.up exCfg.walkableSlopeAngle) = .ok exM := by
    obtain ⟨out, e1, e2, e3, e4, e5⟩ := c07_mark_walkable (exEnvSlope.up exCfg.walkableSlopeAngle) exM0 exM0_wf
    rw [e1]
    have : out.areaTypes = List.replicate 8 255 := by
      apply List.ext_getElem?
      intro t
      by_cases ht : t < 8
      · obtain ⟨a, b, c, hc, hu, hb, hc'⟩ := exM0_level t ht
        rw [(e5 t a b c hc).1 (c103_level _ (by simp) one_lt_pi_div_two a b c hu hb hc')]
        rw [List.getElem?_replicate, if_pos ht]
      · rw [List.getElem?_eq_none (by rw [e4]; simpa [exM0] using ht), List.getElem?_eq_none (by simpa using ht)]
    obtain ⟨v, i, ar⟩ := out
    simp only at e2 e3 this
    rw [e2, e3, this]
    rfl
  unfold buildInput
  have hb : exM0.computeAabb exEnvSlope.lo exEnvSlope.hi = some ⟨⟨0, 0, 0⟩, ⟨8, 0, 7⟩⟩ := exM0_box
  rw [exM0_collected]
  simp only [bind, Except.bind, hb, hm]
  rfl

theorem exSlope_build : buildNavmesh exEnvSlope exBuilder ⟨true, false⟩ exScene = .ok (exPoly, exDetail) := by
  have h := ex_build
  unfold buildNavmesh at h ⊢
  rw [ex_config] at h ⊢
  simp only [bind, Except.bind, ex_input] at h
  simp only [bind, Except.bind, exSlope_input]
  exact h

theorem exSlope_good : GoodBuild exEnvSlope exBuilder exScene := by
  refine ⟨exBuild_good.settings, exBuild_good.proper, exBuild_good.fits, exBuild_good.radius, ?_⟩
  intro cfg m fr hf h1 h2 h3
  rw [ex_config] at h1; cases h1
  rw [exSlope_input] at h2; cases h2
  exact exBuild_good.spans _ _ _ _ ex_config ex_input h3

/-- The hypotheses of `c103_vertices` are met by the four strips, and those of `c103_slope` by their triangles. -/
example : GoodBuild exEnvSlope exBuilder exScene ∧ exEnvSlope.up = (fun θ : ℚ => slopeTest (θ : ℝ)) ∧ 0 ≤ exBuilder.agentMaxSlope ∧
    (exBuilder.agentMaxSlope : ℝ) < Real.pi / 2 ∧ 3 ≤ exBuilder.vertsPerPoly ∧
    buildNavmesh exEnvSlope exBuilder ⟨true, false⟩ exScene = .ok (exPoly, exDetail) ∧ exPoly.vertices ≠ [] ∧ exM0.WF :=
  ⟨exSlope_good, rfl, by decide +kernel, one_lt_pi_div_two, by decide +kernel, exSlope_build, by decide +kernel, exM0_wf⟩

end Rerecast
