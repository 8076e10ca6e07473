import Verif.Spec.Config
import Verif.Lemmas.Res
import Mathlib.Algebra.Order.Floor.Ring
import Mathlib.Algebra.Order.Field.Basic
import Mathlib.Tactic.Linarith
import Mathlib.Tactic.FieldSimp
import Mathlib.Tactic.NormNum
/-! C53: metric settings to voxel units. -/
namespace Rerecast
theorem map_inv {α β : Type} {x : Res α} {f : α → β} {c : β} (h : x.map f = .ok c) : ∃ a, x = .ok a ∧ f a = c := by
  cases x with
  | error e => cases h
  | ok a => cases h; exact ⟨a, rfl, rfl⟩

theorem satU16_le (q : ℚ) : satU16 q ≤ 65535 := Nat.min_le_right _ _

theorem satU16_int (z : Int) (h0 : 0 ≤ z) (h1 : z ≤ 65535) : ((satU16 (z : ℚ) : Nat) : Int) = z := by
  unfold satU16
  rw [Int.floor_intCast]
  omega

theorem satU16_int_le (z : Int) (h0 : 0 ≤ z) : ((satU16 (z : ℚ) : Nat) : Int) ≤ z := by
  unfold satU16
  rw [Int.floor_intCast]
  omega

/-- The voxel radius of an agent. -/
theorem satU16_cases (z : Int) (h0 : 0 ≤ z) : ((satU16 (z : ℚ) : Nat) : Int) = z ∨ satU16 (z : ℚ) = 65535 := by
  unfold satU16
  rw [Int.floor_intCast]
  omega

theorem ceil_bounds {x c : ℚ} {n : Nat} (hc : 0 < c) (h : (n : Int) = ⌈x / c⌉) :
    x ≤ n * c ∧ (n : ℚ) * c < x + c := by
  have h1 := Int.le_ceil (x / c)
  have h2 := Int.ceil_lt_add_one (x / c)
  rw [← h] at h1 h2
  push_cast at h1 h2
  constructor
  · exact (div_le_iff₀ hc).1 h1
  · have : (n : ℚ) - 1 < x / c := by linarith
    have := (lt_div_iff₀ hc).1 this
    linarith

theorem floor_bounds {x c : ℚ} {n : Nat} (hc : 0 < c) (h : (n : Int) = ⌊x / c⌋) :
    (n : ℚ) * c ≤ x ∧ x < n * c + c := by
  have h1 := Int.floor_le (x / c)
  have h2 := Int.lt_floor_add_one (x / c)
  rw [← h] at h1 h2
  push_cast at h1 h2
  constructor
  · exact (le_div_iff₀ hc).1 h1
  · have := (div_lt_iff₀ hc).1 h2
    linarith

theorem addU16_ok_iff {a b c : Nat} : addU16 a b = .ok c ↔ a + b ≤ 65535 ∧ c = a + b := by
  unfold addU16; split
  · constructor
    · intro h; cases h; exact ⟨by assumption, rfl⟩
    · rintro ⟨-, rfl⟩; rfl
  · constructor
    · intro h; cases h
    · rintro ⟨h, -⟩; omega

/-- **C53.** Whenever a configuration is built from settings within the documented limits, the radius in cells is at
least the agent's radius and less than one cell more; the climb is at most the agent's; and if the agent is at most
65535 cells high, the height is at least the agent's and less than one cell more, and if the climb is less than 65536
cells, it is more than the agent's climb minus one cell. The border reserved exceeds the agent's radius by three
cells. -/
theorem c53_rounding (b : ConfigBuilder) (c : Config) (hb : b.Sensible) (h : b.build = .ok c) :
    (b.agentRadius ≤ c.walkableRadius * b.cellSize ∧
      (c.walkableRadius : ℚ) * b.cellSize < b.agentRadius + b.cellSize) ∧
    (c.walkableClimb : ℚ) * b.cellHeight ≤ b.agentMaxClimb ∧
    (b.agentMaxClimb < 65536 * b.cellHeight → b.agentMaxClimb < c.walkableClimb * b.cellHeight + b.cellHeight) ∧
    (b.agentHeight ≤ 65535 * b.cellHeight → b.agentHeight ≤ c.walkableHeight * b.cellHeight) ∧
    (c.walkableHeight : ℚ) * b.cellHeight < b.agentHeight + b.cellHeight ∧
    c.borderSize = c.walkableRadius + 3 := by
  unfold ConfigBuilder.build at h
  obtain ⟨border, hborder, h⟩ := bind_inv h
  obtain ⟨w, -, h⟩ := bind_inv h
  obtain ⟨hh, -, h⟩ := bind_inv h
  cases h
  dsimp only
  obtain ⟨hb1, rfl⟩ := addU16_ok_iff.1 hborder
  have hr0 : 0 ≤ ⌈b.agentRadius / b.cellSize⌉ := Int.ceil_nonneg (div_nonneg hb.agentRadius hb.cellSize.le)
  have hh0 : 0 ≤ ⌈b.agentHeight / b.cellHeight⌉ := Int.ceil_nonneg (div_nonneg hb.agentHeight hb.cellHeight.le)
  have hc0 : 0 ≤ ⌊b.agentMaxClimb / b.cellHeight⌋ := Int.floor_nonneg.2 (div_nonneg hb.agentMaxClimb hb.cellHeight.le)
  refine ⟨?_, ?_, fun hcl => ?_, fun hht => ?_, ?_, rfl⟩
  · rcases satU16_cases _ hr0 with e | e
    · exact ceil_bounds hb.cellSize e
    · rw [e] at hb1; omega
  · rcases satU16_cases _ hc0 with e | e
    · exact (floor_bounds hb.cellHeight e).1
    · have h1 := satU16_int_le _ hc0
      rw [e] at h1 ⊢
      have h2 := Int.floor_le (b.agentMaxClimb / b.cellHeight)
      have h3 : ((65535 : Nat) : ℚ) ≤ b.agentMaxClimb / b.cellHeight := by
        refine le_trans ?_ h2
        exact_mod_cast h1
      exact (le_div_iff₀ hb.cellHeight).1 h3
  · have : b.agentMaxClimb / b.cellHeight < 65536 := (div_lt_iff₀ hb.cellHeight).2 hcl
    have h1 : ⌊b.agentMaxClimb / b.cellHeight⌋ < 65536 := by
      rw [Int.floor_lt]; exact_mod_cast this
    exact (floor_bounds hb.cellHeight (satU16_int _ hc0 (by omega))).2
  · have : b.agentHeight / b.cellHeight ≤ 65535 := (div_le_iff₀ hb.cellHeight).2 hht
    have h1 : ⌈b.agentHeight / b.cellHeight⌉ ≤ 65535 := by
      rw [Int.ceil_le]; exact_mod_cast this
    exact (ceil_bounds hb.cellHeight (satU16_int _ hh0 h1)).1
  · have h1 := satU16_int_le _ hh0
    have h2 := Int.ceil_lt_add_one (b.agentHeight / b.cellHeight)
    have h3 : ((satU16 (⌈b.agentHeight / b.cellHeight⌉ : ℚ) : Nat) : ℚ) - 1 < b.agentHeight / b.cellHeight := by
      have : ((satU16 (⌈b.agentHeight / b.cellHeight⌉ : ℚ) : Nat) : ℚ) ≤ (⌈b.agentHeight / b.cellHeight⌉ : ℚ) := by
        exact_mod_cast h1
      linarith
    have := (lt_div_iff₀ hb.cellHeight).1 h3
    linarith

/-- Unusual settings: a fine grid, an agent 1.8 high with radius 0.5 and climb 0.49. -/
def fineSettings : ConfigBuilder :=
  { ConfigBuilder.default 1 with
    cellSize := 1 / 3, cellHeight := 1 / 4, agentHeight := 9 / 5, agentRadius := 1 / 2, agentMaxClimb := 49 / 100
    aabb := ⟨⟨0, 0, 0⟩, ⟨10, 5, 7⟩⟩ }

example : fineSettings.Sensible ∧
    fineSettings.build.map (fun c => [c.walkableHeight, c.walkableRadius, c.walkableClimb, c.width, c.height,
      c.maxEdgeLen, c.borderSize]) = .ok [8, 2, 1, 30, 21, 36, 5] ∧
    fineSettings.agentHeight ≤ 65535 * fineSettings.cellHeight ∧
    fineSettings.agentMaxClimb < 65536 * fineSettings.cellHeight := by
  refine ⟨⟨?_, ?_, ?_, ?_, ?_⟩, ?_, ?_, ?_⟩ <;> decide +kernel

/-- **C53 (range).** The limit on the number of cells is needed: without it the height is underestimated: for cells of height
1/100000 an agent of height 2 is taken to be 0.65535 high (`as u16` saturates). -/
theorem c53_saturates : ∃ (b : ConfigBuilder) (c : Config), b.Sensible ∧ b.build = .ok c ∧
    (c.walkableHeight : ℚ) * b.cellHeight < b.agentHeight := by
  have h : ({ ConfigBuilder.default 1 with cellHeight := 1 / 100000 } : ConfigBuilder).build.map
      (fun c => c.walkableHeight) = .ok 65535 := by decide +kernel
  obtain ⟨c, hc, hw⟩ := map_inv h
  refine ⟨_, c, ⟨?_, ?_, ?_, ?_, ?_⟩, hc, ?_⟩
  case refine_6 => rw [hw]; decide +kernel
  all_goals decide +kernel

/-- **C53 (outcomes).** Building a configuration succeeds exactly if the radius is at most 65532 cells and, for tiles,
the tile with its two borders is at most 65535 cells wide; otherwise it panics. -/
theorem c53_outcomes (b : ConfigBuilder) (hb : b.Sensible) :
    ((∃ c, b.build = .ok c) ↔ b.agentRadius ≤ 65532 * b.cellSize ∧
      (b.tiling = true → (b.tileSize : Int) + 2 * (⌈b.agentRadius / b.cellSize⌉ + 3) ≤ 65535)) ∧
    ((∃ c, b.build = .ok c) ∨ b.build = .error .panic) := by
  have hr0 : 0 ≤ ⌈b.agentRadius / b.cellSize⌉ := Int.ceil_nonneg (div_nonneg hb.agentRadius hb.cellSize.le)
  have hle : b.agentRadius ≤ 65532 * b.cellSize ↔ ⌈b.agentRadius / b.cellSize⌉ ≤ 65532 := by
    rw [Int.ceil_le, ← div_le_iff₀ hb.cellSize]; norm_num
  rw [hle]
  unfold ConfigBuilder.build
  by_cases hr : ⌈b.agentRadius / b.cellSize⌉ ≤ 65532
  · have e := satU16_int _ hr0 (by omega)
    generalize hR : satU16 (⌈b.agentRadius / b.cellSize⌉ : ℚ) = R at e
    have hR3 : R + 3 ≤ 65535 := by omega
    have e1 : addU16 R 3 = .ok (R + 3) := by simp [addU16, hR3]
    simp only [hR, e1]
    unfold ConfigBuilder.side
    cases ht : b.tiling with
    | false =>
      exact ⟨⟨fun _ => ⟨hr, by simp⟩, fun _ => ⟨_, rfl⟩⟩, Or.inl ⟨_, rfl⟩⟩
    | true =>
      by_cases h2 : (R + 3) * 2 ≤ 65535
      · by_cases h3 : b.tileSize + (R + 3) * 2 ≤ 65535
        · have e2 : mulU16 (R + 3) 2 = .ok ((R + 3) * 2) := by simp only [mulU16, h2, if_true]
          have e3 : addU16 b.tileSize ((R + 3) * 2) = .ok (b.tileSize + (R + 3) * 2) := by
            simp only [addU16, h3, if_true]
          simp only [if_true, e2, bind, Except.bind, e3]
          exact ⟨⟨fun _ => ⟨hr, fun _ => by omega⟩, fun _ => ⟨_, rfl⟩⟩, Or.inl ⟨_, rfl⟩⟩
        · have e2 : mulU16 (R + 3) 2 = .ok ((R + 3) * 2) := by simp only [mulU16, h2, if_true]
          have e3 : addU16 b.tileSize ((R + 3) * 2) = .error .panic := by
            simp only [addU16, h3, if_false]
          simp only [if_true, e2, bind, Except.bind, e3]
          refine ⟨⟨fun h => by simp at h, fun ⟨_, h⟩ => absurd (h trivial) (by omega)⟩, by simp⟩
      · have e2 : mulU16 (R + 3) 2 = .error .panic := by simp only [mulU16, h2, if_false]
        simp only [if_true, e2, bind, Except.bind]
        refine ⟨⟨fun h => by simp at h, fun ⟨_, h⟩ => absurd (h trivial) (by omega)⟩, by simp⟩
  · have hR3 : ¬ satU16 (⌈b.agentRadius / b.cellSize⌉ : ℚ) + 3 ≤ 65535 := by
      rcases satU16_cases _ hr0 with e | e <;> omega
    have e1 : addU16 (satU16 (⌈b.agentRadius / b.cellSize⌉ : ℚ)) 3 = .error .panic := by
      simp only [addU16, hR3, if_false]
    simp only [e1, bind, Except.bind]
    refine ⟨⟨fun h => by simp at h, fun ⟨h, _⟩ => absurd h hr⟩, by simp⟩

example : (ConfigBuilder.default 1).Sensible ∧ (ConfigBuilder.default 1).build.map (fun c => c.borderSize) = .ok 5 ∧
    { ConfigBuilder.default 1 with tiling := true, tileSize := 65526 }.build = .error .panic := by
  refine ⟨⟨?_, ?_, ?_, ?_, ?_⟩, ?_, ?_⟩ <;> decide +kernel

/-- **C53 (grid).** Without tiling the grid covers the box up to half a cell on each axis, as long as it has at most
65535 cells; with tiling it is the tile and twice the border. -/
theorem c53_grid (b : ConfigBuilder) (c : Config) (hb : b.Sensible) (h : b.build = .ok c) :
    (b.tiling = false →
      (b.aabb.min.x ≤ b.aabb.max.x → b.aabb.max.x - b.aabb.min.x < 65535 * b.cellSize →
        CoversSide c.width b.cellSize b.aabb.min.x b.aabb.max.x) ∧
      (b.aabb.min.z ≤ b.aabb.max.z → b.aabb.max.z - b.aabb.min.z < 65535 * b.cellSize →
        CoversSide c.height b.cellSize b.aabb.min.z b.aabb.max.z)) ∧
    (b.tiling = true → c.width = b.tileSize + 2 * c.borderSize ∧ c.height = b.tileSize + 2 * c.borderSize) := by
  unfold ConfigBuilder.build at h
  obtain ⟨border, hborder, h⟩ := bind_inv h
  obtain ⟨w, hw, h⟩ := bind_inv h
  obtain ⟨hh, hhh, h⟩ := bind_inv h
  cases h
  dsimp only
  have key : ∀ lo hi n, b.side border lo hi = .ok n →
      (b.tiling = false → lo ≤ hi → hi - lo < 65535 * b.cellSize → CoversSide n b.cellSize lo hi) ∧
      (b.tiling = true → n = b.tileSize + 2 * border) := by
    intro lo hi n hn
    unfold ConfigBuilder.side at hn
    cases ht : b.tiling with
    | true =>
      rw [ht] at hn
      simp only [if_true] at hn
      obtain ⟨d, hd, hn⟩ := bind_inv hn
      have hd' : d = border * 2 := by
        unfold mulU16 at hd; split at hd
        · cases hd; rfl
        · cases hd
      have := (addU16_ok_iff.1 hn).2
      exact ⟨by simp, fun _ => by omega⟩
    | false =>
      rw [ht] at hn
      simp only [Bool.false_eq_true, if_false] at hn
      cases hn
      refine ⟨fun _ hlo hhi => ?_, by simp⟩
      have hcs := hb.cellSize
      have hq : (hi - lo) / b.cellSize < 65535 := (div_lt_iff₀ hcs).2 hhi
      have hq0 : 0 ≤ (hi - lo) / b.cellSize := div_nonneg (by linarith) hcs.le
      generalize hQ : (hi - lo) / b.cellSize = q at hq hq0
      have hQ' : hi - lo = q * b.cellSize := by rw [← hQ]; field_simp
      have f0 : 0 ≤ ⌊q + 1 / 2⌋ := Int.floor_nonneg.2 (by linarith)
      have f1 : ⌊q + 1 / 2⌋ < 65536 := by rw [Int.floor_lt]; push_cast; linarith
      have e : ((satU16 (q + 1 / 2) : Nat) : Int) = ⌊q + 1 / 2⌋ := by unfold satU16; omega
      have e' : ((satU16 (q + 1 / 2) : Nat) : ℚ) = (⌊q + 1 / 2⌋ : ℚ) := by exact_mod_cast e
      have g1 := Int.floor_le (q + 1 / 2)
      have g2 := Int.lt_floor_add_one (q + 1 / 2)
      unfold CoversSide
      rw [e', hQ']
      constructor
      · have := mul_le_mul_of_nonneg_right g1 hcs.le
        linarith
      · have := mul_lt_mul_of_pos_right g2 hcs
        linarith
  exact ⟨fun ht => ⟨(key _ _ _ hw).1 ht, (key _ _ _ hhh).1 ht⟩, fun ht => ⟨(key _ _ _ hw).2 ht, (key _ _ _ hhh).2 ht⟩⟩

example : fineSettings.tiling = false ∧ fineSettings.aabb.min.x ≤ fineSettings.aabb.max.x ∧
    fineSettings.aabb.max.x - fineSettings.aabb.min.x < 65535 * fineSettings.cellSize := by decide +kernel

/-- **C53 (details).** The sample distance is zero or at least 0.9 cells, and zero exactly if less than 0.9 cells were
asked for; the error is scaled by the cell height; edges are at most as long as asked for; the region sizes are the
squares of those asked for, rounded down, up to 65535. -/
theorem c53_details (b : ConfigBuilder) (c : Config) (hb : b.Sensible) (h : b.build = .ok c)
    (hl : 0 ≤ b.edgeMaxLen) :
    (c.detailSampleDist = 0 ∨ 9 / 10 * b.cellSize ≤ c.detailSampleDist) ∧
    (c.detailSampleDist = 0 ↔ b.detailSampleDist < 9 / 10) ∧
    (9 / 10 ≤ b.detailSampleDist → c.detailSampleDist = b.detailSampleDist * b.cellSize) ∧
    c.detailSampleMaxError = b.detailSampleMaxError * b.cellHeight ∧
    (c.maxEdgeLen : ℚ) * b.cellSize ≤ b.edgeMaxLen ∧
    (∀ n : Nat, n ≤ 255 → b.regionMinSize = n → c.minRegionArea = n * n) ∧
    (∀ n : Nat, n ≤ 255 → b.regionMergeSize = n → c.mergeRegionArea = n * n) ∧
    (∀ n : Nat, n ≤ 65535 → b.vertsPerPoly = n → c.maxVerticesPerPolygon = n) := by
  unfold ConfigBuilder.build at h
  obtain ⟨border, hborder, h⟩ := bind_inv h
  obtain ⟨w, hw, h⟩ := bind_inv h
  obtain ⟨hh, hhh, h⟩ := bind_inv h
  cases h
  dsimp only
  have hcs := hb.cellSize
  have sq : ∀ (q : ℚ) (n : Nat), n ≤ 255 → q = n → satU16 (q * q) = n * n := by
    intro q n hn hq
    have : q * q = ((n * n : Nat) : ℚ) := by rw [hq]; push_cast; ring
    rw [this]
    unfold satU16
    rw [Int.floor_natCast]
    have : n * n ≤ 255 * 255 := Nat.mul_le_mul hn hn
    omega
  refine ⟨?_, ?_, ?_, by ring, ?_, fun n hn => sq _ n hn, fun n hn => sq _ n hn, ?_⟩
  · split
    · exact Or.inl rfl
    · right
      rename_i hd
      have := mul_le_mul_of_nonneg_left (not_lt.1 hd) hcs.le
      linarith
  · split
    · rename_i hd; simp [hd]
    · rename_i hd
      have : 0 < b.cellSize * b.detailSampleDist := mul_pos hcs (by linarith [not_lt.1 hd])
      simp [hd, this.ne']
  · intro hd
    rw [if_neg (not_lt.2 hd)]; ring
  · have g0 : 0 ≤ b.edgeMaxLen / b.cellSize := div_nonneg hl hcs.le
    have f0 : 0 ≤ ⌊b.edgeMaxLen / b.cellSize⌋ := Int.floor_nonneg.2 g0
    have e : ((satU16 (b.edgeMaxLen / b.cellSize) : Nat) : Int) ≤ ⌊b.edgeMaxLen / b.cellSize⌋ := by
      unfold satU16; omega
    have e' : ((satU16 (b.edgeMaxLen / b.cellSize) : Nat) : ℚ) ≤ (⌊b.edgeMaxLen / b.cellSize⌋ : ℚ) := by
      exact_mod_cast e
    exact (le_div_iff₀ hcs).1 (le_trans e' (Int.floor_le _))
  · intro n hn hq
    rw [hq]
    unfold satU16
    rw [Int.floor_natCast]
    omega

example : (ConfigBuilder.default 1).build.map (fun c => (c.detailSampleDist, [c.minRegionArea, c.mergeRegionArea,
    c.maxVerticesPerPolygon, c.maxEdgeLen, c.walkableHeight, c.walkableClimb, c.walkableRadius])) =
      .ok (18 / 10, [64, 400, 6, 40, 10, 4, 2]) := by
  decide +kernel

end Rerecast
