import Verif.Spec.OpenGround
import Verif.Props.C77_Coverage
import Verif.Props.C91_Joined
import Verif.Lemmas.OpenExample
/-! C92: open ground is under a polygon of the navmesh. -/
set_option linter.unusedVariables false
namespace Rerecast
open CompactHeightfield

theorem side_in_cell {x z d : Nat} (hd : d < 4) {t : Rat} (h0 : 0 ≤ t) (h1 : t ≤ 1) (a b : Point) (ha : a = cellCorner (cornerOf x z ((d + 3) % 4)))
    (hb : b = cellCorner (cornerOf x z d)) : ((x : Rat) ≤ a.1 + t * (b.1 - a.1) ∧ a.1 + t * (b.1 - a.1) ≤ x + 1) ∧
    ((z : Rat) ≤ a.2 + t * (b.2 - a.2) ∧ a.2 + t * (b.2 - a.2) ≤ z + 1) := by
  subst ha hb
  have : d = 0 ∨ d = 1 ∨ d = 2 ∨ d = 3 := by omega
  rcases this with rfl | rfl | rfl | rfl <;> simp [cornerOf, cellCorner] <;> constructor <;> (try constructor) <;> linarith

theorem build_border_sides {cfg : Config} {hf : Heightfield} {c0 chf : CompactHeightfield}
    (hc : hf.intoCompact cfg.walkableHeight cfg.walkableClimb = .ok c0) (hwf0 : c0.WellFormed) (hw : c0.width ≤ 32767)
    (hok : buildCompact cfg hf = .ok chf) (hids : FewRegions cfg hf) {x z i r : Nat} {s : CompactSpan} (hat : chf.At x z i s) (hr : s.region = r)
    (hflag : isBorderRegion r = true) : (r = 0x8001 ∧ x < cfg.borderSize) ∨ (r = 0x8002 ∧ chf.width ≤ x + cfg.borderSize) ∨
      (r = 0x8003 ∧ z < cfg.borderSize) ∨ (r = 0x8004 ∧ chf.height ≤ z + cfg.borderSize) := by
  rw [buildCompact, hc, bind_ok] at hok
  obtain ⟨c1, h1, hok⟩ := bind_inv hok
  obtain ⟨c2, h2, h3⟩ := bind_inv hok
  obtain ⟨e1, l1, ar1⟩ := c25_only_removes c0 hwf0 _ c1 h1
  have hwf1 : c1.WellFormed := by
    rw [e1]
    exact ⟨hwf0.width_u16, hwf0.height_u16, hwf0.cells_len, by simp only; rw [l1]; exact hwf0.areas_len, hwf0.partition, hwf0.con⟩
  have hs1 : c1.width ≤ 32767 ∨ c1.height ≤ 32767 := by rw [e1]; exact Or.inl hw
  have rd := (ready_of_distance_field c1 hwf1 hs1 c2 h2).1
  obtain ⟨_, e3, m3⟩ := c34_regions_only_on_walkable c2 rd _ _ _ chf h3
  have k3 : Like chf c2 := ⟨by rw [e3], by rw [e3], by rw [e3], m3.symm⟩
  obtain ⟨t, ht, _⟩ := k3.at hat
  have := c37_border_sides c2 rd _ _ _ chf h3 (fun reg next h => hids c0 c1 c2 reg next hc h1 h2 h) i r ⟨s, hat.2.2.1, hr⟩ hflag x z t ht
  rwa [k3.width, k3.height] at this

/-- Where regions end at one side of the border, they end along a line. -/
theorem border_line {W : World} {chf : CompactHeightfield} (hG : GoodField W chf)
    (hB : ∀ x z i s, chf.At x z i s → isBorderRegion s.region = true → (s.region = 0x8001 ∧ x < W.border) ∨ (s.region = 0x8002 ∧ chf.width ≤ x + W.border) ∨
      (s.region = 0x8003 ∧ z < W.border) ∨ (s.region = 0x8004 ∧ chf.height ≤ z + W.border)) {r w : Nat} (hr : ProperRegion r)
    (hw : isBorderRegion w = true) {a : Point} (ha : chf.PortalCorner r w a) :
    (w = 0x8001 ∧ a.1 = W.border) ∨ (w = 0x8002 ∧ a.1 = (W.width : Rat) - W.border) ∨ (w = 0x8003 ∧ a.2 = W.border) ∨
      (w = 0x8004 ∧ a.2 = (W.depth : Rat) - W.border) := by
  obtain ⟨⟨i, d⟩, b, ⟨hd, ⟨sp0, hs0, hr0⟩, hb, _, k, hl, ⟨tk, htk, hkw⟩, _⟩, hrun⟩ := ha
  dsimp only at hd hs0 hl
  have hat := at_spec hG.wf hs0
  obtain ⟨nx, nz, t, hn, hatk⟩ := link_at hG.wf hd hat hl
  have ht : t = tk := by
    have := hatk.2.2.1
    rw [htk] at this
    cases this; rfl
  subst ht
  obtain ⟨b1, b2, b3, b4⟩ := (hG.safe _ _ _ _ hat (by rw [hr0]; exact hr)).inside
  dsimp only at b1 b2 b3 b4
  have hside := hB _ _ _ _ hatk (by rw [hkw]; exact hw)
  rw [hkw, hG.width, hG.height] at hside
  rw [hG.width, hG.height] at hn
  have hpos : ∃ c : Nat × Nat, a = cellCorner c ∧ (c = cornerOf (chf.xOf i) (chf.zOf i) ((d + 3) % 4) ∨ c = cornerOf (chf.xOf i) (chf.zOf i) d) := by
    rcases hrun with ⟨x, z, sp, hat2, h1, h2⟩ | ⟨x, z, sp, hat2, h1, h2⟩ <;> obtain ⟨rfl, rfl⟩ := at_unique hG.wf hat2
    · exact ⟨_, h1, Or.inl rfl⟩
    · exact ⟨_, h2, Or.inr rfl⟩
  obtain ⟨c, rfl, hc⟩ := hpos
  generalize chf.xOf i = x at *
  generalize chf.zOf i = z at *
  have key : (w = 0x8001 ∧ c.1 = W.border) ∨ (w = 0x8002 ∧ c.1 + W.border = W.width) ∨ (w = 0x8003 ∧ c.2 = W.border) ∨
      (w = 0x8004 ∧ c.2 + W.border = W.depth) := by
    have : d = 0 ∨ d = 1 ∨ d = 2 ∨ d = 3 := by omega
    rcases this with rfl | rfl | rfl | rfl <;> simp only [neighbourCell] at hn <;> split at hn <;> cases hn <;>
      rcases hc with rfl | rfl <;> simp only [cornerOf] <;> omega
  rcases key with ⟨h, e⟩ | ⟨h, e⟩ | ⟨h, e⟩ | ⟨h, e⟩
  · exact Or.inl ⟨h, by simp [cellCorner, e]⟩
  · exact Or.inr (Or.inl ⟨h, by rw [← e]; simp [cellCorner]⟩)
  · exact Or.inr (Or.inr (Or.inl ⟨h, by simp [cellCorner, e]⟩))
  · exact Or.inr (Or.inr (Or.inr ⟨h, by rw [← e]; simp [cellCorner]⟩))

/-- The point `(x, z)` of the world, in cells of the grid. -/
def World.cells (W : World) (x z : ℚ) : Point := ((x - W.fr.aabb.min.x) / W.fr.cellSize, (z - W.fr.aabb.min.z) / W.fr.cellSize)

theorem World.cells_eq {W : World} (hcs : 0 < W.fr.cellSize) (x z : ℚ) :
    x = W.fr.aabb.min.x + (W.cells x z).1 * W.fr.cellSize ∧ z = W.fr.aabb.min.z + (W.cells x z).2 * W.fr.cellSize := by
  unfold World.cells
  constructor <;> field_simp <;> ring

theorem World.cells_in {W : World} (hcs : 0 < W.fr.cellSize) {x z : ℚ} {cx cz : Nat} {y : ℚ} :
    InCell W.fr cx cz ⟨x, y, z⟩ ↔ ((cx : ℚ) ≤ (W.cells x z).1 ∧ (W.cells x z).1 ≤ cx + 1) ∧ ((cz : ℚ) ≤ (W.cells x z).2 ∧ (W.cells x z).2 ≤ cz + 1) := by
  unfold InCell World.cells
  dsimp only
  rw [le_div_iff₀ hcs, div_le_iff₀ hcs, le_div_iff₀ hcs, div_le_iff₀ hcs]
  constructor
  · rintro ⟨h1, h2, h3, h4⟩
    refine ⟨⟨?_, ?_⟩, ?_, ?_⟩ <;> linarith
  · rintro ⟨⟨h1, h2⟩, h3, h4⟩
    refine ⟨?_, ?_, ?_, ?_⟩ <;> linarith

theorem World.nearCell_of {W : World} (hcs : 0 < W.fr.cellSize) {x z : ℚ} {cx cz : Nat} (d : ℚ) (h : InCell W.fr cx cz ⟨x, 0, z⟩) :
    W.NearCell d x z cx cz := ⟨⟨x, 0, z⟩, h, by
  have := sq_nonneg (d * W.fr.cellSize)
  simpa using this⟩

theorem open_clear {W : World} {hf : Heightfield} {c0 chf : CompactHeightfield} (hF : FirmField W hf c0) (hlike : Like c0 chf)
    (hG : GoodField W chf) (hcs : 0 < W.fr.cellSize)
    (hB : ∀ x z i s, chf.At x z i s → isBorderRegion s.region = true → (s.region = 0x8001 ∧ x < W.border) ∨ (s.region = 0x8002 ∧ chf.width ≤ x + W.border) ∨
      (s.region = 0x8003 ∧ z < W.border) ∨ (s.region = 0x8004 ∧ chf.height ≤ z + W.border))
    (hreg : ∀ p i s, W.Spacious W.agentRadius p → ¬ W.InMargin p → c0.At p.x p.z i s → s.y = p.y →
      ∃ t, chf.At p.x p.z i t ∧ t.y = p.y ∧ ProperRegion t.region ∧ chf.areas[i]? = some 255) {d x z : ℚ} {S : Spot → Prop}
    (hO : W.OpenGround d x z S) : chf.ClearOfSet d ProperRegion (W.cells x z) ∧ ∃ cx cz i s, chf.At cx cz i s ∧ ProperRegion s.region ∧
      ((cx : ℚ) ≤ (W.cells x z).1 ∧ (W.cells x z).1 < cx + 1) ∧ ((cz : ℚ) ≤ (W.cells x z).2 ∧ (W.cells x z).2 < cz + 1) := by
  have hfirm : ∀ q, S q → ∃ i t, chf.At q.x q.z i t ∧ t.y = q.y ∧ ProperRegion t.region ∧ chf.areas[i]? = some 255 := by
    intro q hq
    obtain ⟨h1, h2⟩ := hO.spacious q hq
    have hfm : W.Firm q := by
      obtain ⟨T, hT, hf', _⟩ := h1
      exact hf' q hT
    obtain ⟨i, s, hat, hy, _⟩ := hF.covers.span q hfm
    exact ⟨i, hreg q i s h1 h2 hat hy⟩
  have inner : ∀ q, S q → W.border ≤ q.x ∧ q.x + W.border < W.width ∧ W.border ≤ q.z ∧ q.z + W.border < W.depth := by
    intro q hq
    have := (hO.spacious q hq).2
    unfold World.InMargin at this
    omega
  obtain ⟨q, hq, hin⟩ := hO.here
  have hin' := (World.cells_in hcs).1 hin
  have hgo := hO.step q hq (World.nearCell_of hcs d hin)
  refine ⟨⟨?_, ?_⟩, ?_⟩
  · rintro r ⟨i, e⟩ a b hr ⟨hd, ⟨sp, hsp, hrr⟩, _, hfr⟩ ⟨cx, cz, s, hat, ha, hb⟩ ⟨t, t0, t1, hnear⟩
    dsimp only at hd hsp hfr hat ha hb
    have hss : s = sp := by
      have := hat.2.2.1
      rw [hsp] at this
      cases this; rfl
    subst hss
    have hsafe := hG.safe _ _ _ _ hat (by rw [hrr]; exact hr)
    obtain ⟨g1, g2⟩ := side_in_cell hd t0 t1 a b ha hb
    have hnc : W.NearCell d x z cx cz := by
      refine ⟨⟨W.fr.aabb.min.x + (a.1 + t * (b.1 - a.1)) * W.fr.cellSize, 0, W.fr.aabb.min.z + (a.2 + t * (b.2 - a.2)) * W.fr.cellSize⟩, ?_, ?_⟩
      · unfold InCell
        dsimp only
        refine ⟨?_, ?_, ?_, ?_⟩ <;> nlinarith
      · obtain ⟨e1, e2⟩ := World.cells_eq hcs x z
        generalize W.cells x z = P at *
        subst e1 e2
        dsimp only
        calc _ = ((a.1 + t * (b.1 - a.1) - P.1) ^ 2 + (a.2 + t * (b.2 - a.2) - P.2) ^ 2) * W.fr.cellSize ^ 2 := by ring
          _ ≤ d ^ 2 * W.fr.cellSize ^ 2 := mul_le_mul_of_nonneg_right hnear (by positivity)
          _ = _ := by ring
    have hS := hO.only ⟨cx, cz, s.y⟩ hnc hsafe.standing
    obtain ⟨s0, hat0, hy0, _⟩ := hlike.symm.at hat
    have hin2 := inner _ hS
    dsimp only at hin2
    obtain ⟨nx, nz, hn⟩ : ∃ nx nz, neighbourCell c0.width c0.height cx cz e = some (nx, nz) := by
      have hpos : 1 ≤ cx ∧ cx + 1 < W.width ∧ 1 ≤ cz ∧ cz + 1 < W.depth := by
        obtain ⟨T, hT, hf', _⟩ := (hO.spacious _ hS).1
        exact (hf' _ hT).inside
      rw [hF.width, hF.height]
      have : e = 0 ∨ e = 1 ∨ e = 2 ∨ e = 3 := by omega
      rcases this with rfl | rfl | rfl | rfl <;> simp only [neighbourCell]
      · rw [if_pos (by omega)]; exact ⟨_, _, rfl⟩
      · rw [if_pos (by omega)]; exact ⟨_, _, rfl⟩
      · rw [if_pos (by omega)]; exact ⟨_, _, rfl⟩
      · rw [if_pos (by omega)]; exact ⟨_, _, rfl⟩
    have hbes : World.Beside cx cz nx nz := by
      have := neighbourCell_offset hd hn
      unfold World.Beside
      omega
    obtain ⟨y, hSy, hst⟩ := hO.step _ hS hnc nx nz hbes
    obtain ⟨k, t', hl, hatk, hyk⟩ := firm_link hF.solid hF.few hF.compact hF.covers hF.layers hF.climb hF.cap hst hd hn hat0 hy0
    obtain ⟨h1, h2⟩ := hO.spacious _ hSy
    obtain ⟨tk, hck, _, hpk, hak⟩ := hreg _ k t' h1 h2 hatk hyk
    obtain ⟨h3, h4⟩ := hO.spacious _ hS
    obtain ⟨_, _, _, _, hai⟩ := hreg _ i s0 h3 h4 hat0 hy0
    have hlc : chf.Link i e k := hlike.link hl
    rcases hfr with hz | ⟨k', hl', hne⟩
    · obtain ⟨t0, ht0, hz0⟩ := hz k hlc
      rw [hck.2.2.1] at ht0
      cases ht0
      exact hpk.1 hz0
    · have : k' = k := by
        have e1 := (nbr_iff_link hG.wf hd).2 hlc
        have e2 := (nbr_iff_link hG.wf hd).2 hl'
        rw [e1] at e2
        cases e2; rfl
      subst this
      rw [hak, hai] at hne
      exact hne rfl
  · intro r w a b c hr hw ha hb hc htri
    have hbord : isBorderRegion w = true := by
      obtain ⟨_, _, ⟨_, _, _, h0, _⟩, _⟩ := ha
      by_contra h
      exact hw ⟨h0, by simpa using h⟩
    have la := border_line hG hB hr hbord ha
    have lb := border_line hG hB hr hbord hb
    have lc := border_line hG hB hr hbord hc
    obtain ⟨s, t, u, hs, ht, hu, hsum, e1, e2⟩ := htri
    have left : (W.border : ℚ) < (W.cells x z).1 := by
      have : 1 ≤ q.x ∧ W.border + 1 ≤ q.x := by
        have hf1 : 1 ≤ q.x := by
          obtain ⟨T, hT, hf', _⟩ := (hO.spacious _ hq).1
          exact (hf' _ hT).inside.1
        obtain ⟨y, hy, _⟩ := hgo (q.x - 1) q.z (by unfold World.Beside; omega)
        have := (inner _ hy).1
        dsimp only at this
        omega
      have : ((W.border + 1 : Nat) : ℚ) ≤ q.x := by exact_mod_cast this.2
      push_cast at this
      linarith [hin'.1.1]
    have right : (W.cells x z).1 < (W.width : ℚ) - W.border := by
      obtain ⟨y, hy, _⟩ := hgo (q.x + 1) q.z (by unfold World.Beside; omega)
      have := (inner _ hy).2.1
      dsimp only at this
      have : ((q.x + 1 + W.border + 1 : Nat) : ℚ) ≤ W.width := by exact_mod_cast this
      push_cast at this
      linarith [hin'.1.2]
    have front : (W.border : ℚ) < (W.cells x z).2 := by
      have : 1 ≤ q.z ∧ W.border + 1 ≤ q.z := by
        have hf1 : 1 ≤ q.z := by
          obtain ⟨T, hT, hf', _⟩ := (hO.spacious _ hq).1
          exact (hf' _ hT).inside.2.2.1
        obtain ⟨y, hy, _⟩ := hgo q.x (q.z - 1) (by unfold World.Beside; omega)
        have := (inner _ hy).2.2.1
        dsimp only at this
        omega
      have : ((W.border + 1 : Nat) : ℚ) ≤ q.z := by exact_mod_cast this.2
      push_cast at this
      linarith [hin'.2.1]
    have back : (W.cells x z).2 < (W.depth : ℚ) - W.border := by
      obtain ⟨y, hy, _⟩ := hgo q.x (q.z + 1) (by unfold World.Beside; omega)
      have := (inner _ hy).2.2.2
      dsimp only at this
      have : ((q.z + 1 + W.border + 1 : Nat) : ℚ) ≤ W.depth := by exact_mod_cast this
      push_cast at this
      linarith [hin'.2.2]
    have same : ∀ v A B C : ℚ, A = v → B = v → C = v → s * A + t * B + u * C = v := by
      rintro v _ _ _ rfl rfl rfl
      rw [← add_mul, ← add_mul, hsum, one_mul]
    rcases la with ⟨hw1, l1⟩ | ⟨hw1, l1⟩ | ⟨hw1, l1⟩ | ⟨hw1, l1⟩ <;> subst hw1 <;> simp at lb lc
    · rw [same _ _ _ _ l1 lb lc] at e1; linarith
    · rw [same _ _ _ _ l1 lb lc] at e1; linarith
    · rw [same _ _ _ _ l1 lb lc] at e2; linarith
    · rw [same _ _ _ _ l1 lb lc] at e2; linarith
  · -- the half-open cell
    have move : ∀ nx nz, (nx = q.x ∨ nx = q.x + 1) → (nz = q.z ∨ nz = q.z + 1) → InCell W.fr nx nz ⟨x, 0, z⟩ →
        InCell W.fr nx q.z ⟨x, 0, z⟩ → ∃ y, S ⟨nx, nz, y⟩ := by
      intro nx nz hnx hnz hi1 hi2
      have h1 : ∃ y, S ⟨nx, q.z, y⟩ := by
        rcases hnx with rfl | rfl
        · exact ⟨q.y, hq⟩
        · obtain ⟨y, hy, _⟩ := hgo (q.x + 1) q.z (by unfold World.Beside; omega)
          exact ⟨y, hy⟩
      obtain ⟨y1, h1⟩ := h1
      rcases hnz with rfl | rfl
      · exact ⟨y1, h1⟩
      · obtain ⟨y, hy, _⟩ := hO.step _ h1 (World.nearCell_of hcs d hi2) nx (q.z + 1) (by unfold World.Beside; dsimp only; omega)
        exact ⟨y, hy⟩
    obtain ⟨nx, hnx, n1, n2⟩ : ∃ nx, (nx = q.x ∨ nx = q.x + 1) ∧ (nx : ℚ) ≤ (W.cells x z).1 ∧ (W.cells x z).1 < nx + 1 := by
      rcases lt_or_eq_of_le hin'.1.2 with h | h
      · exact ⟨q.x, Or.inl rfl, hin'.1.1, h⟩
      · exact ⟨q.x + 1, Or.inr rfl, by push_cast; linarith, by push_cast; linarith⟩
    obtain ⟨nz, hnz, m1, m2⟩ : ∃ nz, (nz = q.z ∨ nz = q.z + 1) ∧ (nz : ℚ) ≤ (W.cells x z).2 ∧ (W.cells x z).2 < nz + 1 := by
      rcases lt_or_eq_of_le hin'.2.2 with h | h
      · exact ⟨q.z, Or.inl rfl, hin'.2.1, h⟩
      · exact ⟨q.z + 1, Or.inr rfl, by push_cast; linarith, by push_cast; linarith⟩
    obtain ⟨y, hy⟩ := move nx nz hnx hnz ((World.cells_in hcs).2 ⟨⟨n1, n2.le⟩, m1, m2.le⟩) ((World.cells_in hcs).2 ⟨⟨n1, n2.le⟩, hin'.2⟩)
    obtain ⟨i, t, hat, _, hp, _⟩ := hfirm _ hy
    exact ⟨nx, nz, i, t, hat, hp, ⟨n1, n2⟩, m1, m2⟩

/-- Over a point of the grid is over the point of the world. -/
theorem over_world {W : World} (hcs : 0 < W.fr.cellSize) {poly : PolygonNavmesh} {j : Nat} {x z : ℚ}
    (h : poly.Over j ((W.cells x z).1 - W.border, (W.cells x z).2 - W.border)) : W.PolygonOver poly j x z := by
  obtain ⟨p, a, b, c, h1, h2, s, t, u, hs, ht, hu, hsum, e1, e2⟩ := h
  refine ⟨p, a, b, c, h1, h2, s, t, u, hs, ht, hu, hsum, ?_, ?_⟩
  · obtain ⟨e, _⟩ := World.cells_eq hcs x z
    simp only [World.above, World.position, U16Vec3.plane] at e1 ⊢
    push_cast
    have : (W.cells x z).1 = s * a.x + t * b.x + u * c.x + (s + t + u) * W.border := by rw [hsum]; linarith
    rw [e, this]
    have : W.fr.aabb.min.x = (s + t + u) * W.fr.aabb.min.x := by rw [hsum, one_mul]
    linear_combination this
  · obtain ⟨_, e⟩ := World.cells_eq hcs x z
    simp only [World.above, World.position, U16Vec3.plane] at e2 ⊢
    push_cast
    have : (W.cells x z).2 = s * a.z + t * b.z + u * c.z + (s + t + u) * W.border := by rw [hsum]; linarith
    rw [e, this]
    have : W.fr.aabb.min.z = (s + t + u) * W.fr.aabb.min.z := by rw [hsum, one_mul]
    linear_combination this

/-- `c92_open_ground_partial` for any tests that keep vertices within `e`. -/
theorem open_ground_of_tests {F : Type} (env : BuildEnv F) (b : ConfigBuilder) (flags : ContourFlags) (scene : List Affector)
    (hgood : GoodBuild env b scene) (h3 : 3 ≤ b.vertsPerPoly) (cfg : Config) (m : TriMesh ℚ) (fr : Frame)
    (hf : Heightfield) (chf : CompactHeightfield) (set : ContourSet) (poly : PolygonNavmesh)
    (st : MeshStages env b flags scene cfg m fr hf chf set poly) (hclimb : cfg.walkableClimb < cfg.walkableHeight)
    (hcap : cfg.walkableHeight + cfg.walkableClimb ≤ 255) (hlay : ∀ c ∈ chf.cells, c.count ≤ 62)
    (hmin : b.regionMinSize * b.regionMinSize < 1) (hids : FewRegions cfg hf)
    (hshort : ∀ r v, chf.IsCircuit r v → (∃ s ∈ v, chf.BoundarySide s) → v.length ≤ 40000) (hfew : set.FewVertices)
    (hsimple : ∀ c ∈ set.contours, c.Simple) (hni : ∀ i r, ProperRegion r → chf.RegionOf i r → ¬ chf.Isolated i)
    (hm : chf.Matched ProperRegion) (e : Rat) (hkeep : ∀ x z i s, chf.At x z i s → (env.tests b.edgeMaxError).Keeps chf.extent e) :
    ∃ W : World, W.Models env b scene ∧ W.Snug b ∧ ((∃ p0, W.Spacious (W.agentRadius + 1) p0) →
      ∀ x z S, W.OpenGround (2 * e) x z S → ∃ j, W.PolygonOver poly j x z) := by
  have hsm := hgood.spans cfg m fr hf st.config st.input st.solid
  obtain ⟨w, h, hw, hh, hM, hI, hs, hnew⟩ := stages_input hgood.settings hgood.proper hgood.fits st.toStages hsm
  have hbox : ∀ v ∈ m.vertices, fr.aabb.Contains v := fun v hv => hI.contains v ((hI.vertices v).1 hv)
  obtain ⟨wf, ew, eh, _⟩ := solid_spec hs hw hh hI.wf hbox hnew st.solid
  obtain ⟨w', h', c0, _, _, _, hG, _, hc, hwf0, hlike⟩ := hgood.stages st.toStages
  obtain ⟨cw, ch, _⟩ := c19_exactly_the_walkable_spans hf wf hsm _ _ c0 hc
  have e1 : w' = w := by
    have : chf.width = w' := hG.width
    rw [← this, hlike.width, cw, ew]
  have e2 : h' = h := by
    have : chf.height = h' := hG.height
    rw [← this, hlike.height, ch, eh]
  subst e1 e2
  have hcov := fieldCovers_of hI hs hw hh hnew st.solid hsm hc (by omega)
  have hF : FirmField (World.ofBuild env cfg scene fr w' h') hf c0 :=
    ⟨wf, hsm, hc, hwf0, by rw [cw, ew]; rfl, by rw [ch, eh]; rfl, hcov, by rw [← hlike.cells]; exact hlay, hclimb, hcap⟩
  have hcs : 0 < (World.ofBuild env cfg scene fr w' h').fr.cellSize := hs.cellSize
  have hch := hgood.settings.cellHeight
  obtain ⟨⟨_, r2⟩, _, r3, _, r4, _⟩ := c53_rounding b cfg hgood.settings st.config
  refine ⟨_, hM, ⟨r4, ?_, r2⟩, fun h0 x z S hO => ?_⟩
  · have e := config_climb st.config
    have hq := satU16_small (q := b.agentMaxClimb / b.cellHeight) (by omega)
    rw [← e, div_lt_iff₀ hch] at hq
    exact hq
  · obtain ⟨p0, h0⟩ := h0
    have hmr : cfg.minRegionArea = 0 := by
      rw [(config_limits st.config).2.1]
      have : ⌊b.regionMinSize * b.regionMinSize⌋ < 1 := Int.floor_lt.2 (by exact_mod_cast hmin)
      unfold satU16
      omega
    have hreg := fun p i s (hp : (World.ofBuild env cfg scene fr w' h').Spacious (World.ofBuild env cfg scene fr w' h').agentRadius p)
        (hin : ¬ (World.ofBuild env cfg scene fr w' h').InMargin p) (hat : c0.At p.x p.z i s) (hy : s.y = p.y) =>
      spacious_region_at hF hw.2 rfl rfl rfl rfl (radius_le hgood.settings st.config hgood.radius) st.compact hmr hids h0 hp hin hat hy
    obtain ⟨hclear, cx, cz, i, s, hat, hp, hx, hz⟩ := open_clear hF hlike hG hcs (fun x z i s hat hflag =>
      build_border_sides hc hwf0 (by rw [cw, ew]; exact hw.2) st.compact hids hat rfl hflag) hreg hO
    have hsym := symmetric_of wf hsm hclimb hc hlike hlay
    have hcon := st.contours
    rw [(config_limits st.config).2.2.2] at hcon
    have hb : chf.borderSize = cfg.borderSize := hG.border
    obtain ⟨j, _, _, _, _, hover⟩ := joined_of_tests chf hG.wf hsym hG.u16 hshort (fun x z i s hat hr => by
      have := (hG.safe x z i s hat hr).inside
      rw [hG.border]
      exact ⟨this.1, this.2.2.1⟩) (regions_uniform hgood st.toStages) _ chf.extent e (hkeep cx cz i s hat) (Nat.le_max_left ..) (Nat.le_max_right ..)
      cfg.maxEdgeLen flags set hcon hsimple (Or.inr hfew) env.fuel _ (nvp_ge st.config h3) (nvp_le st.config) poly st.mesh
      ProperRegion (fun _ h => h) hni hm cx cz i s hat hp _ hx hz hclear
    rw [hb] at hover
    exact ⟨j, over_world hcs hover⟩

/-- **C92 (partial).** In a build with exact contour tests whose agent climbs less than its height, with `regionMinSize` below one cell, and somewhere
ground with room for one cell more than the agent's radius: every point of the world around which the ground is open up to twice
`edge_max_error` cells is, seen from above, under a polygon of the mesh.  Missing: the guards on the compact heightfield and the contours,
namely at most 62 layers (`hlay`), region numbers that do not run out (`hids`), outlines that end (`hshort`), are simple (`hsimple`)
and few enough (`hfew`), no region cells alone (`hni`), and no regions touching as on a chessboard (`hm`). -/
theorem c92_open_ground_partial {F : Type} (env : BuildEnv F) (b : ConfigBuilder) (flags : ContourFlags) (scene : List Affector)
    (hgood : GoodBuild env b scene) (hexact : env.tests = Tests.exact) (h3 : 3 ≤ b.vertsPerPoly) (cfg : Config) (m : TriMesh ℚ) (fr : Frame)
    (hf : Heightfield) (chf : CompactHeightfield) (set : ContourSet) (poly : PolygonNavmesh)
    (st : MeshStages env b flags scene cfg m fr hf chf set poly) (hclimb : cfg.walkableClimb < cfg.walkableHeight)
    (hcap : cfg.walkableHeight + cfg.walkableClimb ≤ 255) (hlay : ∀ c ∈ chf.cells, c.count ≤ 62)
    (hmin : b.regionMinSize * b.regionMinSize < 1) (hids : FewRegions cfg hf)
    (hshort : ∀ r v, chf.IsCircuit r v → (∃ s ∈ v, chf.BoundarySide s) → v.length ≤ 40000) (hfew : set.FewVertices)
    (hsimple : ∀ c ∈ set.contours, c.Simple) (hni : ∀ i r, ProperRegion r → chf.RegionOf i r → ¬ chf.Isolated i)
    (hm : chf.Matched ProperRegion) :
    ∃ W : World, W.Models env b scene ∧ W.Snug b ∧ ((∃ p0, W.Spacious (W.agentRadius + 1) p0) →
      ∀ x z S, W.OpenGround (2 * b.edgeMaxError) x z S → ∃ j, W.PolygonOver poly j x z) :=
  open_ground_of_tests env b flags scene hgood h3 cfg m fr hf chf set poly st hclimb hcap hlay hmin hids hshort hfew hsimple hni hm _ fun _ _ _ _ _ => by
    rw [hexact]
    exact keeps_exact _ _

/-- **C92 (single precision, partial).** `c92_open_ground_partial` with the error tests of the contours in single precision. -/
theorem c92_f32_partial {F : Type} (env : BuildEnv F) (b : ConfigBuilder) (flags : ContourFlags) (scene : List Affector)
    (hgood : GoodBuild env b scene) (hf32 : env.tests = Tests.f32) (he : 0 ≤ b.edgeMaxError) (h3 : 3 ≤ b.vertsPerPoly) (cfg : Config) (m : TriMesh ℚ) (fr : Frame)
    (hf : Heightfield) (chf : CompactHeightfield) (set : ContourSet) (poly : PolygonNavmesh)
    (st : MeshStages env b flags scene cfg m fr hf chf set poly) (hclimb : cfg.walkableClimb < cfg.walkableHeight)
    (hcap : cfg.walkableHeight + cfg.walkableClimb ≤ 255) (hlay : ∀ c ∈ chf.cells, c.count ≤ 62)
    (hmin : b.regionMinSize * b.regionMinSize < 1) (hids : FewRegions cfg hf)
    (hshort : ∀ r v, chf.IsCircuit r v → (∃ s ∈ v, chf.BoundarySide s) → v.length ≤ 40000) (hfew : set.FewVertices)
    (hsimple : ∀ c ∈ set.contours, c.Simple) (hni : ∀ i r, ProperRegion r → chf.RegionOf i r → ¬ chf.Isolated i)
    (hm : chf.Matched ProperRegion) :
    ∃ W : World, W.Models env b scene ∧ W.Snug b ∧ ((∃ p0, W.Spacious (W.agentRadius + 1) p0) →
      ∀ x z S, W.OpenGround (2 * withRounding b.edgeMaxError chf.extent) x z S → ∃ j, W.PolygonOver poly j x z) :=
  open_ground_of_tests env b flags scene hgood h3 cfg m fr hf chf set poly st hclimb hcap hlay hmin hids hshort hfew hsimple hni hm _ fun x z i s hat => by
    obtain ⟨_, _, _, _, _, _, hG, _⟩ := hgood.stages st.toStages
    rw [hf32]
    exact keeps_f32 (grid_of hG.wf hat).1 (grid_of hG.wf hat).2 he

/-! ### The example -/

theorem ogScene_vertex {v : V3 ℚ} (h : SceneVertex ogScene v) : v ∈ ogSquare := by
  obtain ⟨a, ha, vs, is, ⟨mesh, h1, _, h3, h4, _⟩, p, hp, rfl⟩ := h
  obtain rfl := List.mem_singleton.1 ha
  cases h1; cases h3; cases h4
  exact hp

theorem ogSquare_box {v : V3 ℚ} (hv : v ∈ ogSquare) : 0 ≤ v.x ∧ v.x ≤ 9 ∧ v.y = 0 ∧ 0 ≤ v.z ∧ v.z ≤ 9 := by
  revert v
  decide +kernel

theorem ogBuild_good : GoodBuild exEnv ogBuilder ogScene := by
  refine ⟨⟨by decide +kernel, by decide +kernel, by decide +kernel, by decide +kernel, by decide +kernel⟩, ⟨?_, ?_, by decide +kernel⟩, ?_, by decide +kernel, ?_⟩
  · rintro a ha vs is ⟨mesh, h1, _, h3, h4, _⟩
    obtain rfl := List.mem_singleton.1 ha
    cases h1; cases h3; cases h4
    simp [ogSquare]
  · intro v hv
    obtain ⟨h1, h2, h3, h4, h5⟩ := ogSquare_box (ogScene_vertex hv)
    simp only [exEnv]
    refine ⟨?_, ?_, ?_, ?_, ?_, ?_⟩ <;> linarith
  · intro u v hu hv
    obtain ⟨a1, a2, a3, a4, a5⟩ := ogSquare_box (ogScene_vertex hu)
    obtain ⟨b1, b2, b3, b4, b5⟩ := ogSquare_box (ogScene_vertex hv)
    simp only [ogBuilder, exBuilder]
    refine ⟨?_, ?_, ?_⟩ <;> linarith
  · intro cfg m fr hf h1 h2 h3
    rw [og_config] at h1; cases h1
    rw [og_input] at h2; cases h2
    rw [og_solid] at h3; cases h3
    decide +kernel

def ogWorld : World := World.ofBuild exEnv ogCfg ogScene ogFr 9 9

theorem ogWorld_flat {t : Triangle} {q : V3 ℚ} (ht : ogWorld.triangle t) (hq : InTriangle t q) :
    q.y = 0 ∧ ogWorld.slope t.1 t.2.1 t.2.2 = true := by
  obtain ⟨a, ha, vs, is, ⟨mesh, h1, _, h3, h4, _⟩, n, i, j, k, u, v, w, e1, e2, e3, e4, e5, e6, rfl⟩ := ht
  obtain rfl := List.mem_singleton.1 ha
  cases h1; cases h3; cases h4
  have hu := (ogSquare_box (List.mem_of_getElem? e4)).2.2.1
  have hv := (ogSquare_box (List.mem_of_getElem? e5)).2.2.1
  have hw := (ogSquare_box (List.mem_of_getElem? e6)).2.2.1
  refine ⟨?_, ?_⟩
  · obtain ⟨a, b, c, _, _, _, _, _, hy, _⟩ := hq
    simp only [id] at hy
    rw [hy, hu, hv, hw]; ring
  · have hn : n = 0 ∨ n = 1 := by
      have := (List.getElem?_eq_some_iff.1 e1).1
      simp only [List.length_cons, List.length_nil] at this
      omega
    rcases hn with rfl | rfl <;> cases e1 <;> cases e2 <;> cases e3 <;> cases e4 <;> cases e5 <;> cases e6 <;>
      (show decide _ = true) <;> rw [decide_eq_true_eq] <;> norm_num

theorem ogWorld_possibly {x z v : Nat} (h : ogWorld.Possibly x z v) : v = 0 := by
  obtain ⟨t, q, ht, hq, _, hv, _⟩ := h
  rw [(ogWorld_flat ht hq).1] at hv
  have hv : (v : ℚ) * 1 ≤ 0 - 0 := hv
  have : (v : ℚ) ≤ 0 := by linarith
  exact_mod_cast le_antisymm this (Nat.cast_nonneg v)

theorem ogWorld_surely {x z : Nat} (hx : x < 9) (hz : z < 9) : ogWorld.Surely x z 0 := by
  have tri : ∀ n < 2, ∀ i j l : Nat, ([0, 1, 2, 0, 2, 3] : List Nat)[3 * n]? = some i → ([0, 1, 2, 0, 2, 3] : List Nat)[3 * n + 1]? = some j →
      ([0, 1, 2, 0, 2, 3] : List Nat)[3 * n + 2]? = some l → ∀ p q r, ogSquare[i]? = some p → ogSquare[j]? = some q →
      ogSquare[l]? = some r → ogWorld.triangle (p, q, r) := by
    intro n _ i j l h1 h2 h3 p q r h4 h5 h6
    exact ⟨_, List.mem_singleton.2 rfl, _, _, ⟨_, rfl, rfl, rfl, rfl, by decide⟩, n, i, j, l, p, q, r, h1, h2, h3, h4, h5, h6, rfl⟩
  have hz' : (z : ℚ) + 1 ≤ 9 := by exact_mod_cast hz
  have hx' : (x : ℚ) + 1 ≤ 9 := by exact_mod_cast hx
  have hz0 : (0 : ℚ) ≤ z := Nat.cast_nonneg z
  have hx0 : (0 : ℚ) ≤ x := Nat.cast_nonneg x
  have cell : InOpenCell ogWorld.fr x z ⟨x + 1 / 2, 0, z + 1 / 2⟩ := by
    show (0 : ℚ) + x * 1 < x + 1 / 2 ∧ (x : ℚ) + 1 / 2 < 0 + (x + 1) * 1 ∧ (0 : ℚ) + z * 1 < z + 1 / 2 ∧ (z : ℚ) + 1 / 2 < 0 + (z + 1) * 1
    refine ⟨?_, ?_, ?_, ?_⟩ <;> linarith
  have vox : InVoxel ogWorld.fr 0 0 ∧ ∀ v', InVoxel ogWorld.fr v' 0 → v' = 0 := by
    refine ⟨(?_ : ((0 : Nat) : ℚ) * 1 ≤ 0 - 0 ∧ (0 : ℚ) - 0 ≤ (((0 : Nat) : ℚ) + 1) * 1), fun v hv => ?_⟩
    · constructor <;> norm_num
    · have hv : (v : ℚ) * 1 ≤ 0 - 0 := hv.1
      have : (v : ℚ) ≤ 0 := by linarith
      exact_mod_cast le_antisymm this (Nat.cast_nonneg v)
  by_cases hc : (x : ℚ) ≤ z
  · refine ⟨_, ⟨x + 1 / 2, 0, z + 1 / 2⟩, tri 0 (by decide) _ _ _ rfl rfl rfl _ _ _ rfl rfl rfl,
      ⟨1 - (z + 1 / 2) / 9, (z + 1 / 2) / 9 - (x + 1 / 2) / 9, (x + 1 / 2) / 9, ?_, ?_, ?_, ?_, ?_, ?_, ?_⟩, cell, vox⟩
    · linarith
    · linarith
    · linarith
    · ring
    · show (x : ℚ) + 1 / 2 = _ * 0 + _ * 0 + _ * 9; ring
    · show (0 : ℚ) = _ * 0 + _ * 0 + _ * 0; ring
    · show (z : ℚ) + 1 / 2 = _ * 0 + _ * 9 + _ * 9; ring
  · refine ⟨_, ⟨x + 1 / 2, 0, z + 1 / 2⟩, tri 1 (by decide) _ _ _ rfl rfl rfl _ _ _ rfl rfl rfl,
      ⟨1 - (x + 1 / 2) / 9, (z + 1 / 2) / 9, (x + 1 / 2) / 9 - (z + 1 / 2) / 9, ?_, ?_, ?_, ?_, ?_, ?_, ?_⟩, cell, vox⟩
    · linarith
    · linarith
    · linarith
    · ring
    · show (x : ℚ) + 1 / 2 = _ * 0 + _ * 9 + _ * 9; ring
    · show (0 : ℚ) = _ * 0 + _ * 0 + _ * 0; ring
    · show (z : ℚ) + 1 / 2 = _ * 0 + _ * 9 + _ * 0; ring

theorem ogWorld_clear (x z : Nat) : ogWorld.Clear x z 1 :=
  ⟨by decide, fun v h1 _ h => by have := ogWorld_possibly h; omega⟩

theorem ogWorld_firm {x z : Nat} (hx : 1 ≤ x ∧ x < 8) (hz : 1 ≤ z ∧ z < 8) : ogWorld.Firm ⟨x, z, 1⟩ where
  ground := ⟨le_rfl, ogWorld_surely (by dsimp only; omega) (by dsimp only; omega)⟩
  room := ogWorld_clear x z
  slope := ⟨0, Nat.one_pos, Or.inl rfl, fun t q ht hq _ _ _ => (ogWorld_flat ht hq).2⟩
  inside := ⟨hx.1, (by show x + 1 < 9; omega), hz.1, (by show z + 1 < 9; omega)⟩
  side := fun nx nz h => ⟨0, by dsimp only; omega, by simp only [ogWorld, World.ofBuild, ogCfg, exCfg]; omega,
    ogWorld_surely (by unfold World.Beside at h; dsimp only at h; omega) (by unfold World.Beside at h; dsimp only at h; omega)⟩
  gentle := fun ax az bx bz a b _ _ ha hb _ _ => by
    have e1 := ogWorld_possibly ha.2.1
    have e2 := ogWorld_possibly hb.2.1
    have := ha.1
    have := hb.1
    omega

theorem ogWorld_step {x z nx nz : Nat} (hx : 1 ≤ x ∧ x < 8) (hz : 1 ≤ z ∧ z < 8) (hnx : 1 ≤ nx ∧ nx < 8) (hnz : 1 ≤ nz ∧ nz < 8)
    (hb : World.Beside x z nx nz) : ogWorld.FirmStep ⟨x, z, 1⟩ ⟨nx, nz, 1⟩ :=
  ⟨hb, ⟨by dsimp only; omega, by dsimp only; omega⟩, ogWorld_firm hx hz, ogWorld_firm hnx hnz, ogWorld_clear _ _, ogWorld_clear _ _⟩

theorem ogWorld_spacious : ogWorld.Spacious (ogWorld.agentRadius + 1) ⟨4, 4, 1⟩ := by
  refine ⟨fun q => (1 ≤ q.x ∧ q.x < 8) ∧ (1 ≤ q.z ∧ q.z < 8) ∧ q.y = 1, by decide, ?_, ?_⟩
  · rintro ⟨x, z, y⟩ ⟨hx, hz, rfl⟩
    exact ogWorld_firm hx hz
  · rintro ⟨x, z, y⟩ ⟨hx, hz, rfl⟩ ho nx nz hb
    simp only [ogWorld, World.ofBuild, ogCfg, exCfg] at ho
    dsimp only at *
    have hx4 : x = 4 := by unfold octile at ho; omega
    have hz4 : z = 4 := by unfold octile at ho; omega
    have hn : (1 ≤ nx ∧ nx < 8) ∧ 1 ≤ nz ∧ nz < 8 := by unfold World.Beside at hb; omega
    exact ⟨1, ⟨hn.1, hn.2, rfl⟩, ogWorld_step hx hz hn.1 hn.2 hb⟩

/-- Less than half a cell around the middle of the square, there is one cell only. -/
theorem ogWorld_near {d : ℚ} (h0 : 0 ≤ d) (hd2 : d < 1 / 2) {cx cz : Nat} (h : ogWorld.NearCell d (9 / 2) (9 / 2) cx cz) : cx = 4 ∧ cz = 4 := by
  obtain ⟨⟨x, y, z⟩, ⟨h1, h2, h3, h4⟩, hd⟩ := h
  have h1 : (0 : ℚ) + cx * 1 ≤ x := h1
  have h2 : x ≤ (0 : ℚ) + (cx + 1) * 1 := h2
  have h3 : (0 : ℚ) + cz * 1 ≤ z := h3
  have h4 : z ≤ (0 : ℚ) + (cz + 1) * 1 := h4
  have hd : (x - 9 / 2) ^ 2 + (z - 9 / 2) ^ 2 ≤ (d * 1) ^ 2 := hd
  have one : ∀ (c : Nat) (v w : ℚ), (0 : ℚ) + c * 1 ≤ v → v ≤ 0 + (c + 1) * 1 → (v - 9 / 2) ^ 2 + (w - 9 / 2) ^ 2 ≤ (d * 1) ^ 2 → c = 4 := by
    intro c v w a b h
    have hs : (v - 9 / 2) ^ 2 ≤ d ^ 2 := by rw [mul_one] at h; linarith [sq_nonneg (w - 9 / 2)]
    obtain ⟨l, u⟩ := abs_le.1 (abs_le_of_sq_le_sq hs h0)
    have k1 : (c : ℚ) < 5 := by linarith
    have k2 : (3 : ℚ) < c := by linarith
    have k1 : c < 5 := by exact_mod_cast k1
    have k2 : 3 < c := by exact_mod_cast k2
    omega
  exact ⟨one cx x z h1 h2 hd, one cz z x h3 h4 (by linarith)⟩

/-- The three by three cells in the middle are open ground around the middle. -/
theorem ogWorld_open {d : ℚ} (h0 : 0 ≤ d) (hd2 : d < 1 / 2) : ogWorld.OpenGround d (9 / 2) (9 / 2)
    fun q => (3 ≤ q.x ∧ q.x ≤ 5) ∧ (3 ≤ q.z ∧ q.z ≤ 5) ∧ q.y = 1 where
  here := ⟨⟨4, 4, 1⟩, by decide, by
    show (0 : ℚ) + (4 : Nat) * 1 ≤ 9 / 2 ∧ (9 / 2 : ℚ) ≤ 0 + ((4 : Nat) + 1) * 1 ∧ (0 : ℚ) + (4 : Nat) * 1 ≤ 9 / 2 ∧ (9 / 2 : ℚ) ≤ 0 + ((4 : Nat) + 1) * 1
    norm_num⟩
  spacious := by
    rintro ⟨x, z, y⟩ ⟨hx, hz, rfl⟩
    dsimp only at hx hz
    refine ⟨⟨fun q => q = ⟨x, z, 1⟩, rfl, ?_, ?_⟩, ?_⟩
    · rintro _ rfl
      exact ogWorld_firm (by omega) (by omega)
    · intro q _ ho
      simp only [ogWorld, World.ofBuild, ogCfg, exCfg] at ho
      omega
    · simp only [World.InMargin, ogWorld, World.ofBuild, ogCfg, exCfg]
      omega
  step := by
    rintro ⟨x, z, y⟩ ⟨hx, hz, rfl⟩ hn nx nz hb
    obtain ⟨rfl, rfl⟩ := ogWorld_near h0 hd2 hn
    have hb' := hb
    unfold World.Beside at hb'
    exact ⟨1, by dsimp only at *; omega, ogWorld_step (by omega) (by omega) (by dsimp only at *; omega) (by dsimp only at *; omega) hb⟩
  only := by
    rintro ⟨x, z, y⟩ hn hs
    obtain ⟨rfl, rfl⟩ := ogWorld_near h0 hd2 hn
    obtain ⟨h1, t, q, ht, hq, hc, hv⟩ := hs.ground
    have := ogWorld_possibly ⟨t, q, ht, hq, hc, hv⟩
    dsimp only at *
    omega

theorem og_regions : FewRegions ogCfg ogHf3 := by
  intro c0 c1 c2 reg next h0 h1 h2 h3
  have h : ((do
      let c0 ← ogHf3.intoCompact ogCfg.walkableHeight ogCfg.walkableClimb
      let c1 ← c0.erodeWalkableArea ogCfg.walkableRadius
      let c2 ← c1.buildDistanceField
      let (_, next) ← c2.labelRegions ogCfg.borderSize
      pure next : Res Nat) = .ok 6) := by decide +kernel
  rw [h0, bind_ok, h1, bind_ok, h2, bind_ok, h3, bind_ok] at h
  cases h
  omega

theorem ogChf_wf : ogChf.WellFormed := wellFormed_of_check (by decide +kernel)
theorem ogChf_one {i r : Nat} (hr : ProperRegion r) (h : ogChf.RegionOf i r) : r = 5 := by
  obtain ⟨hil, e⟩ := (regionOf_iff ogChf_wf).1 h
  have : ∀ i < ogChf.spans.length, ogChf.reg i ≠ 0 → isBorderRegion (ogChf.reg i) = false → ogChf.reg i = 5 := by decide +kernel
  rw [← e]
  rw [← e] at hr
  exact this i hil hr.1 hr.2

/-- All hypotheses of `c92_open_ground_partial` are met by a build of a flat square, and the ground is open around its middle; the mesh is one
square of three by three cells. -/
example : GoodBuild exEnv ogBuilder ogScene ∧ exEnv.tests = Tests.exact ∧ 3 ≤ ogBuilder.vertsPerPoly ∧
    MeshStages exEnv ogBuilder ⟨true, false⟩ ogScene ogCfg ogM ogFr ogHf3 ogChf ogSet ogPoly ∧
    ogCfg.walkableClimb < ogCfg.walkableHeight ∧ ogCfg.walkableHeight + ogCfg.walkableClimb ≤ 255 ∧ (∀ c ∈ ogChf.cells, c.count ≤ 62) ∧
    ogBuilder.regionMinSize * ogBuilder.regionMinSize < 1 ∧ FewRegions ogCfg ogHf3 ∧
    (∀ r v, ogChf.IsCircuit r v → (∃ s ∈ v, ogChf.BoundarySide s) → v.length ≤ 40000) ∧ ogSet.FewVertices ∧ (∀ c ∈ ogSet.contours, c.Simple) ∧
    (∀ i r, ProperRegion r → ogChf.RegionOf i r → ¬ ogChf.Isolated i) ∧ ogChf.Matched ProperRegion ∧
    ogWorld.Models exEnv ogBuilder ogScene ∧ ogWorld.Snug ogBuilder ∧ (∃ p0, ogWorld.Spacious (ogWorld.agentRadius + 1) p0) ∧
    (∃ S, ogWorld.OpenGround (2 * ogBuilder.edgeMaxError) (9 / 2) (9 / 2) S) ∧ ogPoly.polys = [[0, 1, 2, 3]] := by
  refine ⟨ogBuild_good, rfl, by decide +kernel, og_stages, by decide, by decide, by decide +kernel, by decide +kernel, og_regions,
    fun r v hv _ => c61_small_fields ogChf (by decide +kernel) r v hv, by unfold ContourSet.FewVertices; decide +kernel,
    by unfold Contour.Simple; decide +kernel, ?_, ?_, ?_, ⟨by decide +kernel, by decide +kernel, by decide +kernel⟩, ⟨_, ogWorld_spacious⟩,
    ⟨_, ogWorld_open (by decide +kernel) (by decide +kernel)⟩, by decide +kernel⟩
  · intro i r hr hi hiso
    obtain rfl := ogChf_one hr hi
    obtain ⟨hil, e⟩ := (regionOf_iff ogChf_wf).1 hi
    have : ∀ i < ogChf.spans.length, ogChf.reg i = 5 → ∃ d < 4, (ogChf.nbr i d).any (fun k => decide (ogChf.reg k = ogChf.reg i)) = true := by decide +kernel
    obtain ⟨d, hd, h⟩ := this i hil e
    obtain ⟨k, hk, he⟩ := (Option.any_eq_true _ _).1 h
    exact ((boundarySide_iff ogChf_wf (s := (i, d)) hd).1 (hiso d hd)).1.2 k hk (by simpa using he)
  · intro r w s s' u u' hr hw hs
    have hs' := hs
    obtain ⟨_, h1, _, _, k, _, h2, _⟩ := hs'
    obtain rfl := ogChf_one hr h1
    obtain rfl := ogChf_one hw h2
    exact matched_single ogChf_wf 5 _ _ s s' u u' rfl rfl hs
  · obtain ⟨w, h, c0, _, _, hM, hG, _⟩ := ogBuild_good.stages og_stages.toStages
    have e1 : 9 = w := hG.width
    have e2 : 9 = h := hG.height
    subst e1 e2
    exact hM

/-- The same build with the error tests in single precision. -/
def ogEnvF32 : BuildEnv ℚ := { exEnv with tests := Tests.f32 }

set_option maxRecDepth 100000 in
theorem og_contours_f32 : ogChf.buildContours (ogEnvF32.tests ogCfg.maxSimplificationError) ogCfg.maxEdgeLen ⟨true, false⟩ = .ok ogSet := by
  decide +kernel

/-- The hypotheses of `c92_f32_partial` that mention the environment or the distance hold for it; the others are those above. -/
example : GoodBuild ogEnvF32 ogBuilder ogScene ∧ ogEnvF32.tests = Tests.f32 ∧ 0 ≤ ogBuilder.edgeMaxError ∧
    MeshStages ogEnvF32 ogBuilder ⟨true, false⟩ ogScene ogCfg ogM ogFr ogHf3 ogChf ogSet ogPoly ∧
    ogWorld = World.ofBuild ogEnvF32 ogCfg ogScene ogFr 9 9 ∧
    ∃ S, ogWorld.OpenGround (2 * withRounding ogBuilder.edgeMaxError ogChf.extent) (9 / 2) (9 / 2) S :=
  ⟨⟨ogBuild_good.settings, ogBuild_good.proper, ogBuild_good.fits, ogBuild_good.radius, ogBuild_good.spans⟩, rfl, by decide +kernel,
    ⟨⟨og_config, og_input, og_solid, og_compact⟩, og_contours_f32, og_mesh⟩, rfl,
    _, ogWorld_open (by decide +kernel) (by decide +kernel)⟩

end Rerecast
