import Verif.Model.ConfigRounded
import Verif.Lemmas.ContourRounded
import Verif.Props.C53_Config
/-! C88: metric settings to voxel units in single precision. -/
namespace Rerecast

/-- Without rounding this is the model of C53. -/
theorem buildR_id (b : ConfigBuilder) : b.buildR id = b.build := rfl

private theorem isF32_nat {n : Int} (h0 : 0 ≤ n) (h : n ≤ 65536) : IsF32 (n : ℚ) := isF32_int (by rw [abs_of_nonneg h0]; omega)

private theorem round_lower {q : ℚ} (h : 0 ≤ q) : q * (1 - 1 / 2 ^ 24) - 1 / 2 ^ 150 ≤ roundF32 q := by
  have k := roundF32_error q
  rw [pow2_24, pow2_150, abs_of_nonneg h] at k
  have := (abs_le.1 k).1
  linarith

private theorem round_upper {q : ℚ} (h : 0 ≤ q) : roundF32 q ≤ q * (1 + 1 / 2 ^ 24) + 1 / 2 ^ 150 := by
  have k := roundF32_error q
  rw [pow2_24, pow2_150, abs_of_nonneg h] at k
  have := (abs_le.1 k).2
  linarith

private theorem round_nonneg {q : ℚ} (h : 0 ≤ q) : 0 ≤ roundF32 q := by rw [← roundF32_zero]; exact roundF32_mono h

private theorem round_le_nat {q : ℚ} {n : Int} (h0 : 0 ≤ n) (h : n ≤ 65536) (hq : q ≤ n) : roundF32 q ≤ n := by
  rw [← roundF32_self (isF32_nat h0 h)]; exact roundF32_mono hq

private theorem le_round_nat {q : ℚ} {n : Int} (h0 : 0 ≤ n) (h : n ≤ 65536) (hq : n ≤ q) : (n : ℚ) ≤ roundF32 q := by
  rw [← roundF32_self (isF32_nat h0 h)]; exact roundF32_mono hq

/-- Rounding up to cells. -/
private theorem up_cells {x c : ℚ} (hx : 0 ≤ x) (hc : 0 < c) :
    (((satU16 ⌈roundF32 (x / c)⌉ : Nat) : ℚ) * c < x + c) ∧
    (satU16 ⌈roundF32 (x / c)⌉ < 65535 ∨ x ≤ 65535 * c → x * (1 - 1 / 2 ^ 24) ≤ ((satU16 ⌈roundF32 (x / c)⌉ : Nat) + 1 / 2 ^ 150) * c) := by
  have q0 : 0 ≤ x / c := div_nonneg hx hc.le
  have hxq : x = x / c * c := (div_mul_cancel₀ x hc.ne').symm
  generalize x / c = q at q0 hxq
  have f0 := round_nonneg q0
  have c0 : 0 ≤ ⌈roundF32 q⌉ := Int.ceil_nonneg f0
  constructor
  · have key : ((satU16 ⌈roundF32 q⌉ : Nat) : ℚ) < q + 1 := by
      by_cases hq : q ≤ 65535
      · have h1 : ⌈q⌉ ≤ 65535 := by rw [Int.ceil_le]; exact_mod_cast hq
        have h2 : ⌈roundF32 q⌉ ≤ ⌈q⌉ := by
          rw [Int.ceil_le]
          exact round_le_nat (Int.ceil_nonneg q0) (by omega) (Int.le_ceil q)
        have h3 := Int.ceil_lt_add_one q
        have h4 := satU16_int_le _ c0
        have h5 : ((satU16 ⌈roundF32 q⌉ : Nat) : ℚ) ≤ (⌈q⌉ : ℚ) := by exact_mod_cast le_trans h4 h2
        linarith
      · have h1 : ((satU16 ⌈roundF32 q⌉ : Nat) : ℚ) ≤ 65535 := by exact_mod_cast satU16_le _
        linarith
    have := mul_lt_mul_of_pos_right key hc
    rw [hxq]; linarith
  · intro hs
    have hlo := round_lower q0
    have hup := Int.le_ceil (roundF32 q)
    have key : q * (1 - 1 / 2 ^ 24) ≤ ((satU16 ⌈roundF32 q⌉ : Nat) : ℚ) + 1 / 2 ^ 150 := by
      have he : ((satU16 ⌈roundF32 q⌉ : Nat) : Int) = ⌈roundF32 q⌉ := by
        rcases satU16_cases _ c0 with e | e
        · exact e
        · rcases hs with hs | hs
          · omega
          · have hq : q ≤ ((65535 : Int) : ℚ) := by
              rw [hxq] at hs
              exact_mod_cast le_of_mul_le_mul_right hs hc
            have : ⌈roundF32 q⌉ ≤ 65535 := by
              rw [Int.ceil_le]; exact round_le_nat (by norm_num) (by norm_num) hq
            exact satU16_int _ c0 this
      have he' : ((satU16 ⌈roundF32 q⌉ : Nat) : ℚ) = (⌈roundF32 q⌉ : ℚ) := by exact_mod_cast he
      rw [he']; linarith
    have := mul_le_mul_of_nonneg_right key hc.le
    rw [hxq]; linarith

/-- Rounding down to cells. -/
private theorem down_cells {x c : ℚ} (hx : 0 ≤ x) (hc : 0 < c) :
    ((satU16 (roundF32 (x / c)) : Nat) : ℚ) * c ≤ x * (1 + 1 / 2 ^ 24) + 1 / 2 ^ 150 * c ∧
    (x < 65536 * c → x < (satU16 (roundF32 (x / c)) : Nat) * c + c) := by
  have q0 : 0 ≤ x / c := div_nonneg hx hc.le
  have hxq : x = x / c * c := (div_mul_cancel₀ x hc.ne').symm
  generalize x / c = q at q0 hxq
  have f0 := round_nonneg q0
  have c0 : 0 ≤ ⌊roundF32 q⌋ := Int.floor_nonneg.2 f0
  have hfl := Int.floor_le (roundF32 q)
  constructor
  · have h1 : ((satU16 (roundF32 q) : Nat) : ℚ) ≤ (⌊roundF32 q⌋ : ℚ) := by
      have : ((satU16 (roundF32 q) : Nat) : Int) ≤ ⌊roundF32 q⌋ := by unfold satU16; omega
      exact_mod_cast this
    have := mul_le_mul_of_nonneg_right (le_trans (le_trans h1 hfl) (round_upper q0)) hc.le
    rw [hxq]; linarith
  · intro hlt
    have hq : q < 65536 := by rw [hxq] at hlt; exact lt_of_mul_lt_mul_right hlt hc.le
    have h1 : ⌊q⌋ < 65536 := by rw [Int.floor_lt]; exact_mod_cast hq
    have h2 : ⌊q⌋ ≤ ⌊roundF32 q⌋ := by
      rw [Int.le_floor]
      exact le_round_nat (Int.floor_nonneg.2 q0) (by omega) (Int.floor_le q)
    have h3 := Int.lt_floor_add_one q
    have h4 : ⌊q⌋ ≤ ((satU16 (roundF32 q) : Nat) : Int) := by unfold satU16; omega
    have h5 : (⌊q⌋ : ℚ) ≤ ((satU16 (roundF32 q) : Nat) : ℚ) := by exact_mod_cast h4
    have := mul_lt_mul_of_pos_right (lt_of_lt_of_le h3 (add_le_add_left h5 1)) hc
    rw [hxq]; linarith

private theorem satU16_floor (q : ℚ) : satU16 (⌊q⌋ : ℚ) = satU16 q := by unfold satU16; rw [Int.floor_intCast]

/-- **C88 (rounding, partial).** In single precision the voxel radius and height are never a cell or more above the agent's, and the climb is never a cell
or more below; they can fail to be conservative (`c88_violated`), but by no more than a 16777216th of the setting, apart from settings
that are practically zero. -/
theorem c88_rounding_partial (b : ConfigBuilder) (c : Config) (hb : b.Sensible) (h : b.buildR roundF32 = .ok c) :
    (b.agentRadius * (1 - 1 / 2 ^ 24) ≤ (c.walkableRadius + 1 / 2 ^ 150) * b.cellSize ∧
      (c.walkableRadius : ℚ) * b.cellSize < b.agentRadius + b.cellSize) ∧
    (c.walkableClimb : ℚ) * b.cellHeight ≤ b.agentMaxClimb * (1 + 1 / 2 ^ 24) + 1 / 2 ^ 150 * b.cellHeight ∧
    (b.agentMaxClimb < 65536 * b.cellHeight → b.agentMaxClimb < c.walkableClimb * b.cellHeight + b.cellHeight) ∧
    (b.agentHeight ≤ 65535 * b.cellHeight → b.agentHeight * (1 - 1 / 2 ^ 24) ≤ (c.walkableHeight + 1 / 2 ^ 150) * b.cellHeight) ∧
    (c.walkableHeight : ℚ) * b.cellHeight < b.agentHeight + b.cellHeight ∧
    c.borderSize = c.walkableRadius + 3 := by
  unfold ConfigBuilder.buildR at h
  obtain ⟨border, hborder, h⟩ := bind_inv h
  obtain ⟨w, -, h⟩ := bind_inv h
  obtain ⟨hh, -, h⟩ := bind_inv h
  cases h
  dsimp only
  obtain ⟨hb1, rfl⟩ := addU16_ok_iff.1 hborder
  have kr := up_cells hb.agentRadius hb.cellSize
  have kh := up_cells hb.agentHeight hb.cellHeight
  have kc := down_cells hb.agentMaxClimb hb.cellHeight
  rw [satU16_floor]
  exact ⟨⟨kr.2 (Or.inl (by omega)), kr.1⟩, kc.1, kc.2, fun h => kh.2 (Or.inr h), kh.1, rfl⟩

/-- The `f32`s next to 0.2, 0.6, 0.1 and 0.7. -/
def f02 : ℚ := 13421773 / 67108864
def f06 : ℚ := 10066330 / 16777216
def f01 : ℚ := 13421773 / 134217728
def f07 : ℚ := 11744051 / 16777216

/-- **C88 (violated).** In single precision the configuration can under-estimate the agent: for cells of size and height 0.2, an agent of
radius 0.6 and height 0.6 gets three cells for each, which are less than its radius and height.  And it can over-estimate the climb: for cells
of height 0.1, an agent that climbs 0.7 gets seven cells, which are more. -/
theorem c88_violated :
    (∃ (b : ConfigBuilder) (c : Config), b.Sensible ∧ IsF32 b.cellSize ∧ IsF32 b.cellHeight ∧ IsF32 b.agentRadius ∧ IsF32 b.agentHeight ∧
      b.buildR roundF32 = .ok c ∧ (c.walkableRadius : ℚ) * b.cellSize < b.agentRadius ∧ (c.walkableHeight : ℚ) * b.cellHeight < b.agentHeight) ∧
    ∃ (b : ConfigBuilder) (c : Config), b.Sensible ∧ IsF32 b.cellHeight ∧ IsF32 b.agentMaxClimb ∧ b.buildR roundF32 = .ok c ∧
      b.agentMaxClimb < (c.walkableClimb : ℚ) * b.cellHeight := by
  have i02 : IsF32 f02 := ⟨13421773, -26, by norm_num, by norm_num, by unfold f02; rw [pow2_eq]; norm_num⟩
  have i06 : IsF32 f06 := ⟨10066330, -24, by norm_num, by norm_num, by unfold f06; rw [pow2_eq]; norm_num⟩
  have i01 : IsF32 f01 := ⟨13421773, -27, by norm_num, by norm_num, by unfold f01; rw [pow2_eq]; norm_num⟩
  have i07 : IsF32 f07 := ⟨11744051, -24, by norm_num, by norm_num, by unfold f07; rw [pow2_eq]; norm_num⟩
  constructor
  · have h : (({ ConfigBuilder.default 1 with cellSize := f02, cellHeight := f02, agentRadius := f06, agentHeight := f06 } : ConfigBuilder).buildR
        roundF32).map (fun c => (c.walkableRadius, c.walkableHeight)) = .ok (3, 3) := by decide +kernel
    obtain ⟨c, hc, hw⟩ := map_inv h
    simp only [Prod.mk.injEq] at hw
    refine ⟨_, c, ⟨?_, ?_, ?_, ?_, ?_⟩, i02, i02, i06, i06, hc, ?_, ?_⟩
    case refine_6 => rw [hw.1]; decide +kernel
    case refine_7 => rw [hw.2]; decide +kernel
    all_goals decide +kernel
  · have h : (({ ConfigBuilder.default 1 with cellHeight := f01, agentMaxClimb := f07 } : ConfigBuilder).buildR
        roundF32).map (fun c => c.walkableClimb) = .ok 7 := by decide +kernel
    obtain ⟨c, hc, hw⟩ := map_inv h
    refine ⟨_, c, ⟨?_, ?_, ?_, ?_, ?_⟩, i01, i07, hc, ?_⟩
    case refine_6 => rw [hw]; decide +kernel
    all_goals decide +kernel

/-- **C88 (grid).** Without tiling the grid covers the box up to half a cell and the rounding errors on each axis; with tiling it is the tile and
twice the border. -/
theorem c88_grid (b : ConfigBuilder) (c : Config) (hcs : 1 / 2 ^ 100 ≤ b.cellSize) (h : b.buildR roundF32 = .ok c) :
    (b.tiling = false →
      (b.aabb.min.x ≤ b.aabb.max.x → b.aabb.max.x - b.aabb.min.x < 65535 * b.cellSize →
        CoversSideWithin (1 / 2 ^ 22) c.width b.cellSize b.aabb.min.x b.aabb.max.x) ∧
      (b.aabb.min.z ≤ b.aabb.max.z → b.aabb.max.z - b.aabb.min.z < 65535 * b.cellSize →
        CoversSideWithin (1 / 2 ^ 22) c.height b.cellSize b.aabb.min.z b.aabb.max.z)) ∧
    (b.tiling = true → c.width = b.tileSize + 2 * c.borderSize ∧ c.height = b.tileSize + 2 * c.borderSize) := by
  unfold ConfigBuilder.buildR at h
  obtain ⟨border, hborder, h⟩ := bind_inv h
  obtain ⟨w, hw, h⟩ := bind_inv h
  obtain ⟨hh, hhh, h⟩ := bind_inv h
  cases h
  dsimp only
  have hpos : 0 < b.cellSize := lt_of_lt_of_le (by norm_num) hcs
  have key : ∀ lo hi n, b.sideR roundF32 border lo hi = .ok n →
      (b.tiling = false → lo ≤ hi → hi - lo < 65535 * b.cellSize → CoversSideWithin (1 / 2 ^ 22) n b.cellSize lo hi) ∧
      (b.tiling = true → n = b.tileSize + 2 * border) := by
    intro lo hi n hn
    unfold ConfigBuilder.sideR at hn
    cases ht : b.tiling with
    | true =>
      rw [ht] at hn
      simp only [if_true] at hn
      obtain ⟨d, hd, hn⟩ := bind_inv hn
      have hd' : d = border * 2 := by
        unfold mulU16 at hd; split at hd
        · cases hd; rfl
        · cases hd
      have := (addU16_ok_iff.1 hn).2
      exact ⟨by simp, fun _ => by omega⟩
    | false =>
      rw [ht] at hn
      simp only [Bool.false_eq_true, if_false] at hn
      cases hn
      refine ⟨fun _ hlo hhi => ?_, by simp⟩
      have D0 : 0 ≤ hi - lo := by linarith
      have hDq : hi - lo = (hi - lo) / b.cellSize * b.cellSize := (div_mul_cancel₀ _ hpos.ne').symm
      have hq : (hi - lo) / b.cellSize < 65535 := (div_lt_iff₀ hpos).2 hhi
      have q0 : 0 ≤ (hi - lo) / b.cellSize := div_nonneg D0 hpos.le
      -- the difference
      have d0 := round_nonneg D0
      have dl := round_lower D0
      have du := round_upper D0
      have hw50 : (1 : ℚ) / 2 ^ 150 ≤ 1 / 2 ^ 50 * b.cellSize := by
        have : (1 : ℚ) / 2 ^ 150 = 1 / 2 ^ 50 * (1 / 2 ^ 100) := by norm_num
        rw [this]; exact mul_le_mul_of_nonneg_left hcs (by norm_num)
      have e0 : 0 ≤ roundF32 (hi - lo) / b.cellSize := div_nonneg d0 hpos.le
      have el : (hi - lo) / b.cellSize * (1 - 1 / 2 ^ 24) - 1 / 2 ^ 50 ≤ roundF32 (hi - lo) / b.cellSize := by
        rw [le_div_iff₀ hpos, sub_mul, mul_right_comm, ← hDq]; linarith
      have eu : roundF32 (hi - lo) / b.cellSize ≤ (hi - lo) / b.cellSize * (1 + 1 / 2 ^ 24) + 1 / 2 ^ 50 := by
        rw [div_le_iff₀ hpos, add_mul, mul_right_comm, ← hDq]; linarith
      have gl := round_lower e0
      have gu := round_upper e0
      have g0 := round_nonneg e0
      generalize roundF32 (hi - lo) / b.cellSize = e at *
      generalize roundF32 e = g at *
      have s0 : 0 ≤ g + 1 / 2 := by linarith
      have kl := round_lower s0
      have ku := round_upper s0
      have k0 := round_nonneg s0
      generalize roundF32 (g + 1 / 2) = k at *
      generalize (hi - lo) / b.cellSize = q at *
      have hf1 := Int.floor_le k
      have hf2 := Int.lt_floor_add_one k
      have f0 : 0 ≤ ⌊k⌋ := Int.floor_nonneg.2 k0
      have hku : k < 65536 := by norm_num at *; linarith
      have f1 : ⌊k⌋ < 65536 := by rw [Int.floor_lt]; exact_mod_cast hku
      have e : ((satU16 k : Nat) : Int) = ⌊k⌋ := by unfold satU16; omega
      have e' : ((satU16 k : Nat) : ℚ) = (⌊k⌋ : ℚ) := by exact_mod_cast e
      unfold CoversSideWithin
      rw [e', hDq]
      have a1 : (⌊k⌋ : ℚ) ≤ q * (1 + 1 / 2 ^ 22) + (1 / 2 + 1 / 2 ^ 22) := by norm_num at *; linarith
      have a2 : q * (1 - 1 / 2 ^ 22) < ⌊k⌋ + (1 / 2 + 1 / 2 ^ 22) := by linarith
      constructor
      · have := mul_le_mul_of_nonneg_right a1 hpos.le
        linarith
      · have := mul_lt_mul_of_pos_right a2 hpos
        linarith
  exact ⟨fun ht => ⟨(key _ _ _ hw).1 ht, (key _ _ _ hhh).1 ht⟩, fun ht => ⟨(key _ _ _ hw).2 ht, (key _ _ _ hhh).2 ht⟩⟩

/-- **C88 (details).** In single precision: the sample distance is zero exactly if less than the `f32` next to 0.9 cells was asked for; edges are longer
than asked for by no more than a 16777216th; the region sizes are the squares of whole numbers asked for, up to 255. -/
theorem c88_details (b : ConfigBuilder) (c : Config) (hb : b.Sensible) (h : b.buildR roundF32 = .ok c) (hl : 0 ≤ b.edgeMaxLen)
    (hcs : 1 / 2 ^ 100 ≤ b.cellSize) :
    (c.detailSampleDist = 0 ↔ b.detailSampleDist < roundF32 (9 / 10)) ∧
    (roundF32 (9 / 10) ≤ b.detailSampleDist →
      |c.detailSampleDist - b.detailSampleDist * b.cellSize| ≤ (b.detailSampleDist * b.cellSize) * (1 / 2 ^ 23)) ∧
    |c.detailSampleMaxError - b.detailSampleMaxError * b.cellHeight| ≤ |b.detailSampleMaxError * b.cellHeight| * (1 / 2 ^ 24) + 1 / 2 ^ 150 ∧
    (c.maxEdgeLen : ℚ) * b.cellSize ≤ b.edgeMaxLen * (1 + 1 / 2 ^ 24) + 1 / 2 ^ 150 * b.cellSize ∧
    (b.edgeMaxLen < 65536 * b.cellSize → b.edgeMaxLen < c.maxEdgeLen * b.cellSize + b.cellSize) ∧
    (∀ n : Nat, n ≤ 255 → b.regionMinSize = n → c.minRegionArea = n * n) ∧
    (∀ n : Nat, n ≤ 255 → b.regionMergeSize = n → c.mergeRegionArea = n * n) ∧
    (∀ n : Nat, n ≤ 65535 → b.vertsPerPoly = n → c.maxVerticesPerPolygon = n) := by
  unfold ConfigBuilder.buildR at h
  obtain ⟨border, hborder, h⟩ := bind_inv h
  obtain ⟨w, hw, h⟩ := bind_inv h
  obtain ⟨hh, hhh, h⟩ := bind_inv h
  cases h
  dsimp only
  have sq : ∀ (q : ℚ) (n : Nat), n ≤ 255 → q = n → satU16 (roundF32 (q * q)) = n * n := by
    intro q n hn hq
    have hnn : n * n ≤ 255 * 255 := Nat.mul_le_mul hn hn
    have : q * q = (((n * n : Nat) : Int) : ℚ) := by rw [hq]; push_cast; ring
    rw [this, roundF32_self (isF32_nat (Int.natCast_nonneg _) (by omega))]
    unfold satU16
    rw [Int.floor_intCast]
    omega
  have h9 : (1 : ℚ) / 2 ≤ roundF32 (9 / 10) := by decide +kernel
  have hbig : ∀ d, roundF32 (9 / 10) ≤ d → 1 / 2 ^ 101 ≤ b.cellSize * d := by
    intro d hd
    have : (1 : ℚ) / 2 ^ 101 = 1 / 2 ^ 100 * (1 / 2) := by norm_num
    rw [this]
    exact mul_le_mul hcs (le_trans h9 hd) (by norm_num) hb.cellSize.le
  have hd := down_cells hl hb.cellSize
  refine ⟨?_, ?_, ?_, hd.1, hd.2, fun n hn => sq _ n hn, fun n hn => sq _ n hn, ?_⟩
  · split
    · rename_i hd; simp [hd]
    · rename_i hd
      have hp := hbig _ (not_lt.1 hd)
      have h0 : 0 ≤ b.cellSize * b.detailSampleDist := le_trans (by norm_num) hp
      have := round_lower h0
      have : 0 < roundF32 (b.cellSize * b.detailSampleDist) := by norm_num at *; linarith
      simp [hd, this.ne']
  · intro hd
    rw [if_neg (not_lt.2 hd), mul_comm b.detailSampleDist]
    have hp := hbig _ hd
    have h0 : 0 ≤ b.cellSize * b.detailSampleDist := le_trans (by norm_num) hp
    have k := roundF32_error (b.cellSize * b.detailSampleDist)
    rw [pow2_24, pow2_150, abs_of_nonneg h0] at k
    refine le_trans k ?_
    norm_num at *; linarith
  · have k := roundF32_error (b.cellHeight * b.detailSampleMaxError)
    rw [pow2_24, pow2_150] at k
    rw [mul_comm b.detailSampleMaxError, mul_comm |_|]
    exact k
  · intro n hn hq
    rw [hq]
    unfold satU16
    rw [Int.floor_natCast]
    omega

/-- The settings of C53 in single precision. -/
example : fineSettings.Sensible ∧ 1 / 2 ^ 100 ≤ fineSettings.cellSize ∧ 0 ≤ fineSettings.edgeMaxLen ∧
    (fineSettings.buildR roundF32).map (fun c => [c.walkableHeight, c.walkableRadius, c.walkableClimb, c.width, c.height,
      c.maxEdgeLen, c.borderSize]) = .ok [8, 2, 1, 30, 21, 36, 5] ∧
    fineSettings.agentHeight ≤ 65535 * fineSettings.cellHeight ∧
    fineSettings.agentMaxClimb < 65536 * fineSettings.cellHeight ∧ fineSettings.aabb.max.x - fineSettings.aabb.min.x < 65535 * fineSettings.cellSize := by
  refine ⟨⟨?_, ?_, ?_, ?_, ?_⟩, ?_, ?_, ?_, ?_, ?_, ?_⟩ <;> decide +kernel

end Rerecast
