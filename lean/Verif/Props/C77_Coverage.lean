import Verif.Lemmas.PipelineCoverage
import Verif.Props.C83_Settings
/-! C77: what a whole build covers. -/
namespace Rerecast
open CompactHeightfield

theorem satU16_small {q : ℚ} (h : satU16 q < 65535) : q < satU16 q + 1 := by
  refine satU16_gt ?_
  by_contra hc
  have : (65536 : ℤ) ≤ ⌊q⌋ := Int.le_floor.2 (by push_cast; linarith)
  unfold satU16 at h
  omega

theorem config_climb {b : ConfigBuilder} {cfg : Config} (h : b.build = .ok cfg) : cfg.walkableClimb = satU16 (b.agentMaxClimb / b.cellHeight) := by
  unfold ConfigBuilder.build at h
  obtain ⟨_, _, h⟩ := bind_inv h
  obtain ⟨_, _, h⟩ := bind_inv h
  obtain ⟨_, _, h⟩ := bind_inv h
  cases h
  simp only [satU16, Int.floor_intCast]

/-- **C77 (coverage, partial).** Ground that is firm around a spot, up to the agent's radius, is covered: the span at the spot is there and gets a
region, unless it is in the margin of the grid.  The premise that there is a spot with room for one cell more somewhere cannot be dropped: see
`c63_nothing_partial`.  Missing: minimal regions of one cell or more, agents with a climb not below their height or too large for the 8 bits in which
room above a span is kept, more than 62 layers, and the guards of `c76_regions_partial`. -/
theorem c77_coverage_partial {F : Type} (env : BuildEnv F) (b : ConfigBuilder) (scene : List Affector) (hgood : GoodBuild env b scene)
    (cfg : Config) (m : TriMesh ℚ) (fr : Frame) (hf : Heightfield) (chf : CompactHeightfield) (st : Stages env b scene cfg m fr hf chf)
    (hclimb : cfg.walkableClimb < cfg.walkableHeight) (hcap : cfg.walkableHeight + cfg.walkableClimb ≤ 255)
    (hlay : ∀ c ∈ chf.cells, c.count ≤ 62) (hmin : b.regionMinSize * b.regionMinSize < 1) (hids : FewRegions cfg hf) :
    ∃ W : World, W.Models env b scene ∧ W.Snug b ∧ ((∃ p0, W.Spacious (W.agentRadius + 1) p0) → ∀ p, W.Spacious W.agentRadius p → ¬ W.InMargin p →
      ∃ i s, chf.At p.x p.z i s ∧ s.y = p.y ∧ ProperRegion s.region) := by
  have hsm := hgood.spans cfg m fr hf st.config st.input st.solid
  obtain ⟨w, h, hw, hh, hM, hI, hs, hnew⟩ := stages_input hgood.settings hgood.proper hgood.fits st hsm
  have hbox : ∀ v ∈ m.vertices, fr.aabb.Contains v := fun v hv => hI.contains v ((hI.vertices v).1 hv)
  obtain ⟨wf, ew, eh, _⟩ := solid_spec hs hw hh hI.wf hbox hnew st.solid
  obtain ⟨c0, hc⟩ : ∃ c0, hf.intoCompact cfg.walkableHeight cfg.walkableClimb = .ok c0 := by
    have hok := st.compact
    rw [buildCompact] at hok
    obtain ⟨c0, hc, _⟩ := bind_inv hok
    exact ⟨c0, hc⟩
  obtain ⟨cw, ch, _⟩ := c19_exactly_the_walkable_spans hf wf hsm _ _ c0 hc
  have hwf := c20_wellformed hf wf hsm (by omega) (by omega) _ _ c0 hc
  have hcov := fieldCovers_of hI hs hw hh hnew st.solid hsm hc (by omega)
  obtain ⟨_, _, c0', _, _, _, _, _, hc', _, hlike⟩ := hgood.stages st
  rw [hc] at hc'; cases hc'
  have hF : FirmField (World.ofBuild env cfg scene fr w h) hf c0 :=
    ⟨wf, hsm, hc, hwf, by rw [cw, ew]; rfl, by rw [ch, eh]; rfl, hcov, by rw [← hlike.cells]; exact hlay, hclimb, hcap⟩
  have hch := hgood.settings.cellHeight
  obtain ⟨⟨_, r2⟩, _, r3, _, r4, _⟩ := c53_rounding b cfg hgood.settings st.config
  refine ⟨_, hM, ⟨r4, ?_, r2⟩, fun h0 p hp hin => ?_⟩
  · have e := config_climb st.config
    have hq := satU16_small (q := b.agentMaxClimb / b.cellHeight) (by omega)
    rw [← e, div_lt_iff₀ hch] at hq
    exact hq
  · obtain ⟨p0, h0⟩ := h0
    exact spacious_region hF hw.2 rfl rfl rfl rfl (radius_le hgood.settings st.config hgood.radius) st.compact (by
      rw [(config_limits st.config).2.1]
      have : ⌊b.regionMinSize * b.regionMinSize⌋ < 1 := Int.floor_lt.2 (by exact_mod_cast hmin)
      unfold satU16
      omega) hids h0 hp hin

/-! ### The example -/

def exWorld : World := World.ofBuild exEnv exCfg exScene exFr 8 7

theorem exWorld_flat {t : Triangle} {q : V3 ℚ} (ht : exWorld.triangle t) (hq : InTriangle t q) :
    q.y = 0 ∧ exWorld.slope t.1 t.2.1 t.2.2 = true := by
  obtain ⟨a, ha, vs, is, ⟨mesh, h1, _, h3, h4, _⟩, n, i, j, k, u, v, w, e1, e2, e3, e4, e5, e6, rfl⟩ := ht
  obtain ⟨x, hx, rfl⟩ := List.mem_map.1 ha
  cases h1; cases h3; cases h4
  have hx := List.mem_range.1 hx
  have hu := (exStrip_box hx (List.mem_of_getElem? e4)).2.2.1
  have hv := (exStrip_box hx (List.mem_of_getElem? e5)).2.2.1
  have hw := (exStrip_box hx (List.mem_of_getElem? e6)).2.2.1
  refine ⟨?_, ?_⟩
  · obtain ⟨a, b, c, _, _, _, _, _, hy, _⟩ := hq
    simp only [id] at hy
    rw [hy, hu, hv, hw]; ring
  · have hn : n = 0 ∨ n = 1 := by
      have := (List.getElem?_eq_some_iff.1 e1).1
      simp only [List.length_cons, List.length_nil] at this
      omega
    rcases hn with rfl | rfl <;> cases e1 <;> cases e2 <;> cases e3 <;> cases e4 <;> cases e5 <;> cases e6 <;>
      (show decide _ = true) <;> rw [decide_eq_true_eq] <;> simp only [id] <;> linarith

theorem exWorld_possibly {x z v : Nat} (h : exWorld.Possibly x z v) : v = 0 := by
  obtain ⟨t, q, ht, hq, _, hv, _⟩ := h
  rw [(exWorld_flat ht hq).1] at hv
  have hv : (v : ℚ) * 1 ≤ 0 - 0 := hv
  have : (v : ℚ) ≤ 0 := by linarith
  exact_mod_cast le_antisymm this (Nat.cast_nonneg v)

theorem exWorld_surely {x z : Nat} (hx : x < 8) (hz : z < 7) : exWorld.Surely x z 0 := by
  obtain ⟨k, hk, hxk⟩ : ∃ k < 4, x = 2 * k ∨ x = 2 * k + 1 := ⟨x / 2, by omega, by omega⟩
  have tri : ∀ n < 2, ∀ i j l : Nat, ([0, 1, 2, 0, 2, 3] : List Nat)[3 * n]? = some i → ([0, 1, 2, 0, 2, 3] : List Nat)[3 * n + 1]? = some j →
      ([0, 1, 2, 0, 2, 3] : List Nat)[3 * n + 2]? = some l → ∀ p q r, (exStrip k)[i]? = some p → (exStrip k)[j]? = some q →
      (exStrip k)[l]? = some r → exWorld.triangle (p, q, r) := by
    intro n _ i j l h1 h2 h3 p q r h4 h5 h6
    exact ⟨_, List.mem_map_of_mem (List.mem_range.2 hk), _, _, ⟨_, rfl, rfl, rfl, rfl, by decide⟩, n, i, j, l, p, q, r, h1, h2, h3, h4, h5, h6, rfl⟩
  have hz' : (z : ℚ) + 1 ≤ 7 := by exact_mod_cast hz
  have hx' : (x : ℚ) = 2 * k ∨ (x : ℚ) = 2 * k + 1 := by exact_mod_cast hxk
  have hz0 : (0 : ℚ) ≤ z := Nat.cast_nonneg z
  have cell : InOpenCell exWorld.fr x z ⟨x + 1 / 2, 0, z + 1 / 2⟩ := by
    show (0 : ℚ) + x * 1 < x + 1 / 2 ∧ (x : ℚ) + 1 / 2 < 0 + (x + 1) * 1 ∧ (0 : ℚ) + z * 1 < z + 1 / 2 ∧ (z : ℚ) + 1 / 2 < 0 + (z + 1) * 1
    refine ⟨?_, ?_, ?_, ?_⟩ <;> linarith
  have vox : InVoxel exWorld.fr 0 0 ∧ ∀ v', InVoxel exWorld.fr v' 0 → v' = 0 := by
    refine ⟨(?_ : ((0 : Nat) : ℚ) * 1 ≤ 0 - 0 ∧ (0 : ℚ) - 0 ≤ (((0 : Nat) : ℚ) + 1) * 1), fun v hv => ?_⟩
    · constructor <;> norm_num
    · have hv : (v : ℚ) * 1 ≤ 0 - 0 := hv.1
      have : (v : ℚ) ≤ 0 := by linarith
      exact_mod_cast le_antisymm this (Nat.cast_nonneg v)
  have hX : 0 ≤ ((x : ℚ) + 1 / 2 - 2 * k) / 2 ∧ ((x : ℚ) + 1 / 2 - 2 * k) / 2 ≤ 1 := by
    rcases hx' with e | e <;> rw [e] <;> constructor <;> linarith
  by_cases hc : ((x : ℚ) + 1 / 2 - 2 * k) / 2 ≤ (z + 1 / 2) / 7
  · refine ⟨_, ⟨x + 1 / 2, 0, z + 1 / 2⟩, tri 0 (by decide) _ _ _ rfl rfl rfl _ _ _ rfl rfl rfl,
      ⟨1 - (z + 1 / 2) / 7, (z + 1 / 2) / 7 - (x + 1 / 2 - 2 * k) / 2, (x + 1 / 2 - 2 * k) / 2, ?_, ?_, hX.1, ?_, ?_, ?_, ?_⟩, cell, vox⟩
    · linarith
    · linarith
    · ring
    · show (x : ℚ) + 1 / 2 = _ * (2 * k) + _ * (2 * k) + _ * (2 * k + 2); ring
    · show (0 : ℚ) = _ * 0 + _ * 0 + _ * 0; ring
    · show (z : ℚ) + 1 / 2 = _ * 0 + _ * 7 + _ * 7; ring
  · refine ⟨_, ⟨x + 1 / 2, 0, z + 1 / 2⟩, tri 1 (by decide) _ _ _ rfl rfl rfl _ _ _ rfl rfl rfl,
      ⟨1 - (x + 1 / 2 - 2 * k) / 2, (z + 1 / 2) / 7, (x + 1 / 2 - 2 * k) / 2 - (z + 1 / 2) / 7, ?_, ?_, ?_, ?_, ?_, ?_, ?_⟩, cell, vox⟩
    · linarith
    · linarith
    · linarith
    · ring
    · show (x : ℚ) + 1 / 2 = _ * (2 * k) + _ * (2 * k + 2) + _ * (2 * k + 2); ring
    · show (0 : ℚ) = _ * 0 + _ * 0 + _ * 0; ring
    · show (z : ℚ) + 1 / 2 = _ * 0 + _ * 7 + _ * 0; ring

theorem exWorld_clear (x z : Nat) : exWorld.Clear x z 1 :=
  ⟨by decide, fun v h1 _ h => by have := exWorld_possibly h; omega⟩

theorem exWorld_firm {x z : Nat} (hx : 1 ≤ x ∧ x < 7) (hz : 1 ≤ z ∧ z < 6) : exWorld.Firm ⟨x, z, 1⟩ where
  ground := ⟨le_rfl, exWorld_surely (by dsimp only; omega) (by dsimp only; omega)⟩
  room := exWorld_clear x z
  slope := ⟨0, Nat.one_pos, Or.inl rfl, fun t q ht hq _ _ _ => (exWorld_flat ht hq).2⟩
  inside := ⟨hx.1, (by show x + 1 < 8; omega), hz.1, (by show z + 1 < 7; omega)⟩
  side := fun nx nz h => ⟨0, by dsimp only; omega, by simp only [exWorld, World.ofBuild, exCfg]; omega,
    exWorld_surely (by unfold World.Beside at h; dsimp only at h; omega) (by unfold World.Beside at h; dsimp only at h; omega)⟩
  gentle := fun ax az bx bz a b _ _ ha hb _ _ => by
    have e1 := exWorld_possibly ha.2.1
    have e2 := exWorld_possibly hb.2.1
    have := ha.1
    have := hb.1
    omega

/-- The spot in the middle of the square has firm ground around it. -/
theorem exWorld_spacious : exWorld.Spacious 1 ⟨3, 3, 1⟩ := by
  refine ⟨fun q => (1 ≤ q.x ∧ q.x < 7) ∧ (1 ≤ q.z ∧ q.z < 6) ∧ q.y = 1, by decide, ?_, ?_⟩
  · rintro ⟨x, z, y⟩ ⟨hx, hz, rfl⟩
    exact exWorld_firm hx hz
  · rintro ⟨x, z, y⟩ ⟨hx, hz, rfl⟩ ho nx nz hb
    dsimp only at *
    have hx3 : x = 3 := by unfold octile at ho; omega
    have hz3 : z = 3 := by unfold octile at ho; omega
    have hn : (1 ≤ nx ∧ nx < 7) ∧ 1 ≤ nz ∧ nz < 6 := by unfold World.Beside at hb; omega
    exact ⟨1, ⟨hn.1, hn.2, rfl⟩, hb, ⟨by dsimp only; omega, by dsimp only; omega⟩, exWorld_firm hx hz, exWorld_firm hn.1 hn.2, exWorld_clear _ _, exWorld_clear _ _⟩

/-- All hypotheses are met by a build of a flat square, and the spot in its middle is outside the margin. -/
example : GoodBuild exEnv exBuilder exScene ∧ Stages exEnv exBuilder exScene exCfg exM exFr exHf11 exChf ∧
    exCfg.walkableClimb < exCfg.walkableHeight ∧ exCfg.walkableHeight + exCfg.walkableClimb ≤ 255 ∧ (∀ c ∈ exChf.cells, c.count ≤ 62) ∧
    exBuilder.regionMinSize * exBuilder.regionMinSize < 1 ∧ FewRegions exCfg exHf11 ∧
    exWorld.Models exEnv exBuilder exScene ∧ exWorld.Snug exBuilder ∧ exWorld.Spacious (exWorld.agentRadius + 1) ⟨3, 3, 1⟩ ∧
    exWorld.Spacious exWorld.agentRadius ⟨3, 3, 1⟩ ∧ ¬ exWorld.InMargin ⟨3, 3, 1⟩ := by
  refine ⟨exBuild_good, ex_stages.toStages, by decide, by decide, by decide +kernel, by decide +kernel, ex_regions, ?_, ⟨?_, ?_, ?_⟩, exWorld_spacious,
    ?_, ?_⟩
  · obtain ⟨w, h, c0, _, _, hM, hG, _⟩ := exBuild_good.stages ex_stages.toStages
    have e1 : 8 = w := hG.width
    have e2 : 7 = h := hG.height
    subst e1 e2
    exact hM
  · decide +kernel
  · decide +kernel
  · decide +kernel
  · obtain ⟨S, h1, h2, _⟩ := exWorld_spacious
    exact ⟨S, h1, h2, fun q _ ho => by
      simp only [exWorld, World.ofBuild, exCfg] at ho
      omega⟩
  · unfold World.InMargin
    decide +kernel

end Rerecast
