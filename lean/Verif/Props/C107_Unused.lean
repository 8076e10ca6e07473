import Verif.Props.C75_C79_Pipeline
/-! C107: the box, the tile size and the tiling of the settings have no effect on what is built. -/
namespace Rerecast

/-- The settings with another box, tile size and choice of tiling. -/
def ConfigBuilder.retiled (b : ConfigBuilder) (box : Aabb3 ℚ) (tileSize : Nat) (tiling : Bool) : ConfigBuilder :=
  { b with aabb := box, tileSize := tileSize, tiling := tiling }

theorem retiled_build {b : ConfigBuilder} {box : Aabb3 ℚ} {ts : Nat} {tl : Bool} {cfg cfg' : Config} (h : b.build = .ok cfg)
    (h' : (b.retiled box ts tl).build = .ok cfg') : cfg' = { cfg with width := cfg'.width, height := cfg'.height, tileSize := ts, aabb := box } := by
  unfold ConfigBuilder.build at h h'
  obtain ⟨bo, e1, h⟩ := bind_inv h
  obtain ⟨w, e2, h⟩ := bind_inv h
  obtain ⟨ht, e3, h⟩ := bind_inv h
  obtain ⟨bo', e1', h'⟩ := bind_inv h'
  obtain ⟨w', e2', h'⟩ := bind_inv h'
  obtain ⟨ht', e3', h'⟩ := bind_inv h'
  have : bo' = bo := Except.ok.inj (e1'.symm.trans e1)
  subst this
  cases h
  cases h'
  rfl

/-- **C107.** Whatever box, tile size and tiling are set: if both settings are accepted, the result is the same, polygons and detail, or the same
failure.  (The box of the build is that of the scene, and tiles are not built.) -/
theorem c107_unused {F : Type} (env : BuildEnv F) (b : ConfigBuilder) (flags : ContourFlags) (scene : List Affector) (box : Aabb3 ℚ) (tileSize : Nat)
    (tiling : Bool) {cfg cfg' : Config} (h : b.build = .ok cfg) (h' : (b.retiled box tileSize tiling).build = .ok cfg') :
    buildNavmesh env (b.retiled box tileSize tiling) flags scene = buildNavmesh env b flags scene := by
  have e := retiled_build h h'
  unfold buildNavmesh
  rw [h, h', bind_ok, bind_ok, e]
  rfl

/-- **C107 (without tiling).** Without tiling, every box and tile size is accepted, and the result is the same. -/
theorem c107_box {F : Type} (env : BuildEnv F) (b : ConfigBuilder) (flags : ContourFlags) (scene : List Affector) (box : Aabb3 ℚ) (tileSize : Nat)
    (hb : b.tiling = false) : buildNavmesh env (b.retiled box tileSize false) flags scene = buildNavmesh env b flags scene := by
  cases e : addU16 (satU16 ⌈b.agentRadius / b.cellSize⌉) 3 with
  | error er =>
    have h1 : b.build = .error er := by
      unfold ConfigBuilder.build
      dsimp only
      rw [e]; rfl
    have h2 : (b.retiled box tileSize false).build = .error er := by
      unfold ConfigBuilder.build
      dsimp only [ConfigBuilder.retiled]
      rw [e]; rfl
    unfold buildNavmesh
    rw [h1, h2]
  | ok bo =>
    have hs : ∀ (c : ConfigBuilder) n lo hi, c.tiling = false → c.side n lo hi = .ok (satU16 ((hi - lo) / c.cellSize + 1 / 2)) := by
      intro c n lo hi hc
      unfold ConfigBuilder.side
      rw [hc]
      rfl
    have h1 : ∃ cfg, b.build = .ok cfg := by
      unfold ConfigBuilder.build
      dsimp only
      rw [e, bind_ok, hs b _ _ _ hb, bind_ok, hs b _ _ _ hb, bind_ok]
      exact ⟨_, rfl⟩
    have h2 : ∃ cfg, (b.retiled box tileSize false).build = .ok cfg := by
      unfold ConfigBuilder.build
      have hr : satU16 ⌈(b.retiled box tileSize false).agentRadius / (b.retiled box tileSize false).cellSize⌉ =
          satU16 ⌈b.agentRadius / b.cellSize⌉ := rfl
      dsimp only
      rw [hr, e, bind_ok, hs _ _ _ _ rfl, bind_ok, hs _ _ _ _ rfl, bind_ok]
      exact ⟨_, rfl⟩
    obtain ⟨cfg, h1⟩ := h1
    obtain ⟨cfg', h2⟩ := h2
    exact c107_unused env b flags scene box tileSize false h1 h2

/-- A box that holds a quarter of the four strips only. -/
def exQuarter : Aabb3 ℚ := ⟨⟨0, 0, 0⟩, ⟨4, 1, 3⟩⟩

/-- **C107 (the documented box is not respected).** With the box and the tile size set to a quarter of the level and with tiling, still the whole level is
built: the settings are accepted, but the mesh is that of all four strips and has vertices outside of the box. -/
theorem c107_whole_level : ∃ cfg, (exBuilder.retiled exQuarter 4 true).build = .ok cfg ∧ cfg.aabb = exQuarter ∧
    buildNavmesh exEnv (exBuilder.retiled exQuarter 4 true) ⟨true, false⟩ exScene = .ok (exPoly, exDetail) ∧
    ∃ v ∈ exDetail.vertices, exQuarter.max.x < v.x ∧ exQuarter.max.z < v.z := by
  have hok : (exBuilder.retiled exQuarter 4 true).build.isOk = true := by decide +kernel
  cases h2 : (exBuilder.retiled exQuarter 4 true).build with
  | error e => rw [h2] at hok; cases hok
  | ok cfg' =>
    refine ⟨cfg', rfl, by rw [retiled_build ex_config h2], ?_, ⟨5, 2, 4⟩, by decide +kernel, by decide +kernel, by decide +kernel⟩
    rw [c107_unused exEnv exBuilder ⟨true, false⟩ exScene exQuarter 4 true ex_config h2]
    exact ex_build

example : exBuilder.tiling = false := rfl

end Rerecast
