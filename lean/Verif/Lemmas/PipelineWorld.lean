import Verif.Lemmas.PipelineDetail
/-! Where the detail mesh is in the world. -/
namespace Rerecast
open Relation CompactHeightfield

/-! ### Heights -/

theorem dataAt_has {hp : HeightPatch} {x z : Int} {h : Nat} (hx : 0 ≤ x) (hxw : x < hp.width) (hz : 0 ≤ z) (hzh : z < hp.height)
    (he : hp.dataAt x z = .ok h) (hne : h ≠ UNSET_HEIGHT) : hp.Has x z h := by
  unfold HeightPatch.dataAt idxI at he
  split at he
  · cases he
  · exact ⟨hx, hxw, hz, hzh, hne, idx_eq_ok.1 he⟩

section
variable {F : Type} {o : FloatOps F}

theorem spiralLook_near {hp : HeightPatch} {ix iz : Int} {ch fy : F} {s s' : Spiral F} (h : spiralLook o hp ix iz ch fy s = .ok s') :
    (s'.x = s.x ∧ s'.z = s.z ∧ s'.dx = s.dx ∧ s'.dz = s.dz) ∧ (s'.h = s.h ∨ hp.Has (ix + s.x) (iz + s.z) s'.h) := by
  unfold spiralLook at h
  dsimp only at h
  split at h
  · rename_i hc
    obtain ⟨nh, h1, h⟩ := bind_inv h
    split at h
    · rename_i hne
      split at h
      · cases h
        exact ⟨⟨rfl, rfl, rfl, rfl⟩, .inr (dataAt_has hc.1 hc.2.2.1 hc.2.1 hc.2.2.2 h1 hne)⟩
      · cases h; exact ⟨⟨rfl, rfl, rfl, rfl⟩, .inl rfl⟩
    · cases h; exact ⟨⟨rfl, rfl, rfl, rfl⟩, .inl rfl⟩
  · cases h; exact ⟨⟨rfl, rfl, rfl, rfl⟩, .inl rfl⟩

theorem spiralLoop_near {hp : HeightPatch} {ix iz : Int} {ch fy : F} {h R : Nat} : ∀ (n i r k j : Nat) (s : Spiral F), 1 ≤ r → j < 8 * r → r + k = R →
    n + j ≤ 8 * r + ringCells (r + 1) k → SpiralAt r j s.x s.z s.dx s.dz → spiralLoop o hp ix iz ch fy n i s = .ok h →
    (s.h = UNSET_HEIGHT ∨ ∃ x z : Int, hp.Has (ix + x) (iz + z) s.h ∧ x.natAbs ≤ R ∧ z.natAbs ≤ R) →
    h = UNSET_HEIGHT ∨ ∃ x z : Int, hp.Has (ix + x) (iz + z) h ∧ x.natAbs ≤ R ∧ z.natAbs ≤ R
  | 0, _, _, _, _, _, _, _, _, _, _, he, hs => by
    unfold spiralLoop at he; cases he; exact hs
  | n + 1, i, r, k, j, s, hr, hj, hk, hn, hat, he, hs => by
    unfold spiralLoop at he
    obtain ⟨s1, h1, he⟩ := bind_inv he
    obtain ⟨⟨e1, e2, e3, e4⟩, e5⟩ := spiralLook_near h1
    have hs1 : s1.h = UNSET_HEIGHT ∨ ∃ x z : Int, hp.Has (ix + x) (iz + z) s1.h ∧ x.natAbs ≤ R ∧ z.natAbs ≤ R := by
      rcases e5 with e5 | e5
      · rw [e5]; exact hs
      · refine .inr ⟨_, _, e5, ?_⟩
        have := (ring_iff (r := (r : Int)) (x := s.x) (z := s.z) (by omega)).2 ⟨j, _, _, by omega, by omega, hat⟩
        omega
    rw [← e1, ← e2, ← e3, ← e4] at hat
    have step : ∀ s2 : Spiral F, s2.h = s1.h → SpiralAt r j s2.x s2.z s2.dx s2.dz → spiralLoop o hp ix iz ch fy n (i + 1) (spiralMove s2) = .ok h →
        h = UNSET_HEIGHT ∨ ∃ x z : Int, hp.Has (ix + x) (iz + z) h ∧ x.natAbs ≤ R ∧ z.natAbs ≤ R := by
      intro s2 hh2 hat2 he2
      obtain ⟨m1, m2, m3, _⟩ := spiralMove_at (s := s2) (r := (r : Int)) (j := (j : Int)) (by omega) hat2
      have hs2 : (spiralMove s2).h = UNSET_HEIGHT ∨ ∃ x z : Int, hp.Has (ix + x) (iz + z) (spiralMove s2).h ∧ x.natAbs ≤ R ∧ z.natAbs ≤ R := by
        rw [m3, hh2]; exact hs1
      by_cases hl : j + 1 < 8 * r
      · exact spiralLoop_near n _ r k (j + 1) _ hr hl hk (by omega) (by have := m1 (by omega); push_cast; exact this) he2 hs2
      · cases k with
        | zero =>
          have hn0 : n = 0 := by unfold ringCells at hn; omega
          subst hn0
          unfold spiralLoop at he2; cases he2; exact hs2
        | succ k =>
          unfold ringCells at hn
          exact spiralLoop_near n _ (r + 1) k 0 _ (by omega) (by omega) (by omega) (by omega) (by have := m2 (by omega); push_cast; exact this) he2 hs2
    split at he
    · split at he
      · cases he; exact hs1
      · exact step s1.nextRing rfl hat he
    · exact step s1 rfl hat he

/-- A height that is looked up is none or one of the patch, at most `radius` cells away. -/
theorem getHeight_near {hp : HeightPatch} {f : Vec3 F} {ics ch : F} {radius h : Nat} (hR : 1 ≤ radius) (he : getHeight o f ics ch radius hp = .ok h) :
    h = UNSET_HEIGHT ∨ ∃ x z : Int, hp.Has x z h ∧ (x - (lookupCell o f ics hp).1).natAbs ≤ radius ∧ (z - (lookupCell o f ics hp).2).natAbs ≤ radius := by
  unfold getHeight at he
  dsimp only at he
  obtain ⟨ix, h1, he⟩ := bind_inv he
  obtain ⟨iz, h2, he⟩ := bind_inv he
  obtain ⟨h0, h3, he⟩ := bind_inv he
  have b1 : ix = (lookupCell o f ics hp).1 ∧ 0 ≤ ix ∧ ix < hp.width := by
    unfold clampIndex at h1
    split at h1
    · cases h1; exact ⟨rfl, by omega, by omega⟩
    · cases h1
  have b2 : iz = (lookupCell o f ics hp).2 ∧ 0 ≤ iz ∧ iz < hp.height := by
    unfold clampIndex at h2
    split at h2
    · cases h2; exact ⟨rfl, by omega, by omega⟩
    · cases h2
  rw [← b1.1, ← b2.1]
  split at he
  · rename_i hu
    obtain ⟨n, hn, he⟩ := bind_inv he
    unfold spiralCells at hn
    split at hn
    · cases hn
      have hcells : (radius * 2 + 1) * (radius * 2 + 1) - 1 = 8 * 1 + ringCells (1 + 1) (radius - 1) := by
        have h1 := ringCells_eq (radius - 1 + 1) 1 (by omega)
        unfold ringCells at h1
        rw [h1, show 2 * (1 + (radius - 1 + 1)) - 1 = radius * 2 + 1 by omega]
      rcases spiralLoop_near (R := radius) _ 0 1 (radius - 1) 0 _ (by omega) (by omega) (by omega) (by omega) (Or.inl ⟨rfl, rfl, rfl, rfl, rfl⟩) he (.inl hu)
        with h | ⟨x, z, h, hx, hz⟩
      · exact .inl h
      · exact .inr ⟨_, _, h, by rw [show ix + x - ix = x by omega]; exact hx, by rw [show iz + z - iz = z by omega]; exact hz⟩
    · cases hn
  · rename_i hu
    cases he
    exact .inr ⟨_, _, dataAt_has b1.2.1 b1.2.2 b2.2.1 b2.2.2 h3 hu, by simp, by simp⟩

end

/-- The heights of a patch that starts from a proper region are floors to which the agent can walk from safe places. -/
theorem patch_floor {W : World} {chf : CompactHeightfield} (hG : GoodField W chf) {region : Nat} {vs : List U16Vec3} {hp : HeightPatch}
    (hpatch : IsPatch chf chf.borderSize region vs hp) (hproper : ProperRegion region) (hroot : ∃ i, hp.IsRoot chf chf.borderSize region i)
    {x z : Int} {h : Nat} (hh : hp.Has x z h) :
    ∃ p q : Spot, W.Safe p ∧ W.CanWalk p q ∧ q.y = h ∧ W.NearPolygon vs p.x p.z ∧ W.NearPolygon vs q.x q.z ∧
      (q.x : Int) = x + hp.xmin + W.border ∧ (q.z : Int) = z + hp.zmin + W.border := by
  obtain ⟨hx, hz, hc⟩ := hpatch
  obtain ⟨C, hC⟩ : ∃ C, hp.Covers chf chf.borderSize (hp.IsRoot chf chf.borderSize region) C := by
    rcases hc with ⟨_, _, h⟩ | ⟨h1, _⟩
    · exact h
    · rcases h1 with h1 | h1
      · exact absurd h1 hproper.1
      · obtain ⟨i, hi⟩ := hroot
        exact absurd hi (h1 i)
  have hnear : ∀ x z, hp.InPatch chf.borderSize x z → W.NearPolygon vs x z := by
    intro x z ⟨h1, h2, h3, h4⟩
    obtain ⟨_, ⟨v1, hv1, e1⟩, v2, hv2, e2⟩ := hx
    obtain ⟨_, ⟨v3, hv3, e3⟩, v4, hv4, e4⟩ := hz
    obtain ⟨a1, ha1, rfl⟩ := List.mem_map.1 hv1
    obtain ⟨a2, ha2, rfl⟩ := List.mem_map.1 hv2
    obtain ⟨a3, ha3, rfl⟩ := List.mem_map.1 hv3
    obtain ⟨a4, ha4, rfl⟩ := List.mem_map.1 hv4
    rw [hG.border] at h1 h2 h3 h4
    exact ⟨⟨⟨a1, ha1, by omega⟩, a2, ha2, by omega⟩, ⟨a3, ha3, by omega⟩, a4, ha4, by omega⟩
  obtain ⟨x', rfl⟩ := Int.eq_ofNat_of_zero_le hh.1
  obtain ⟨z', rfl⟩ := Int.eq_ofNat_of_zero_le hh.2.2.1
  obtain ⟨k, s, hk, hat, rfl⟩ := (hC.height x' z' h).1 hh
  obtain ⟨j, hj, hwalk⟩ := hC.reached k hk
  obtain ⟨xk, zk, sk, hatk, hink⟩ := hC.inside k hk
  have hink' : hp.InPatch chf.borderSize (x' + hp.xmin + chf.borderSize) (z' + hp.zmin + chf.borderSize) := by
    obtain ⟨e1, e2⟩ := at_unique hG.wf hat
    obtain ⟨e3, e4⟩ := at_unique hG.wf hatk
    rw [e1, e2, ← e3, ← e4]; exact hink
  obtain ⟨xj, zj, sj, hatj, hinj, hrj, _⟩ := hj
  refine ⟨⟨xj, zj, sj.y⟩, ⟨_, _, s.y⟩, hG.safe _ _ _ _ hatj (by rw [hrj]; exact hproper), ?_, rfl, hnear _ _ hinj, hnear _ _ hink', by rw [← hG.border]; push_cast; rfl,
    by rw [← hG.border]; push_cast; rfl⟩
  have key : ∀ k', ReflTransGen (fun i k => C i ∧ C k ∧ ∃ d < 4, chf.Link i d k) j k' → ∀ x z s, chf.At x z k' s →
      W.CanWalk ⟨xj, zj, sj.y⟩ ⟨x, z, s.y⟩ := by
    intro k' hw
    induction hw with
    | refl =>
      intro x z s hat
      obtain ⟨e1, e2⟩ := at_unique hG.wf hat
      obtain ⟨e3, e4⟩ := at_unique hG.wf hatj
      have e5 := hat.2.2.1
      rw [hatj.2.2.1] at e5
      cases e5
      rw [e1, e2, e3, e4]
      exact .refl
    | tail _ hstep ih =>
      intro x z s hat
      obtain ⟨hb, _, d, hd, hl⟩ := hstep
      obtain ⟨xb, zb, sb, hatb, _⟩ := hC.inside _ hb
      exact (ih xb zb sb hatb).tail (hG.inWorld.link _ d _ hd hl _ _ _ _ _ _ hatb hat)
  exact key k hwalk _ _ _ hat

section
variable {W : World} {chf : CompactHeightfield} (hG : GoodField W chf) {t : Tests} {maxEdgeLen : Nat} {bf : ContourFlags} {set : ContourSet}
  (hok : chf.buildContours t maxEdgeLen bf = .ok set) {fuel nvp : Nat} (h3 : 3 ≤ nvp) (hn : nvp ≤ 126) (hfew : set.FewVertices)
  {poly : PolygonNavmesh} (hm : set.intoPolygonMesh fuel nvp = .ok poly)
include hG hok h3 hn hfew hm

/-- The regions of polygons are proper. -/
theorem region_proper (hsym : chf.SymmetricLinks)
    (hshort : ∀ r v, chf.IsCircuit r v → (∃ s ∈ v, chf.BoundarySide s) → v.length ≤ 40000) {i region : Nat} (hi : i < poly.polygonCount)
    (hr : poly.regions[i]? = some region) : ProperRegion region := by
  obtain ⟨blocks, hB⟩ := c46_mesh set fuel nvp h3 (by omega) (Or.inr hfew) poly hm
  obtain ⟨b, hb, hq, hreg⟩ := block_of hB hi
  rw [hr] at hreg; cases hreg
  have hM := hB.makes b hb
  have hbc : b.contour ∈ set.contours := by
    have : b.contour ∈ blocks.map (·.contour) := List.mem_map_of_mem hb
    rw [hB.contours] at this
    exact (List.mem_filter.1 this).1
  obtain ⟨k1, _, k3⟩ := hM.sizes _ hq
  obtain ⟨k, hk⟩ : ∃ k, k ∈ poly.polygon i := by
    cases e : poly.polygon i with
    | nil => rw [e] at k1; simp at k1
    | cons k _ => exact ⟨k, by simp⟩
  obtain ⟨v, hv, _⟩ := forall₂_mem_right hM.stands (k3 k hk)
  obtain ⟨_, _, _, s, _, a2, a3, _⟩ := contour_region hG hsym hshort hok hbc (v := v.1) (List.mem_map_of_mem hv)
  rw [← a3]; exact a2

end

/-! ### Positions -/

/-- What the settings of the detail mesh are in the world. -/
structure ConfigIn (W : World) (dist : ℚ) (c : DetailConfig ℚ) : Prop where
  pos : 0 < W.fr.cellSize
  cellSize : c.cellSize = W.fr.cellSize
  cellHeight : c.cellHeight = W.fr.cellHeight
  chfCellSize : c.chfCellSize = W.fr.cellSize
  chfCellHeight : c.chfCellHeight = W.fr.cellHeight
  origin : c.origin = ⟨W.fr.aabb.min.x + W.border * W.fr.cellSize, W.fr.aabb.min.y, W.fr.aabb.min.z + W.border * W.fr.cellSize⟩
  sampleDist : c.sampleDist = dist
  coarse : dist = 0 ∨ 9 / 10 * W.fr.cellSize ≤ dist

section
variable {o : FloatOps ℚ} (ho : ExactArithmetic o) {W : World} {dist : ℚ} {c : DetailConfig ℚ} (hc : ConfigIn W dist c)
include ho hc

theorem world_corner (v : U16Vec3) : worldPos o c (cornerPos o c v) = W.position v := by
  unfold worldPos cornerPos World.position
  simp only [ho.add, ho.mul, ho.ofInt, hc.cellSize, hc.cellHeight, hc.chfCellHeight, hc.origin, Vec3.mk.injEq]
  push_cast
  refine ⟨?_, ?_, ?_⟩ <;> ring

omit ho hc in
theorem within_axis {R xmin width : Nat} {u : ℚ} {x c : Int} (hc : c = max 0 (min (⌊u + 1 / 100⌋ - xmin) ((width : Int) - 1)))
    (hx : (x - c).natAbs ≤ R) {v : Nat} (h1 : xmin ≤ v) (h2 : v ≤ xmin + width) :
    min u v ≤ (x + xmin : Int) + (R + 1) ∧ ((x + xmin : Int) : ℚ) ≤ max u v + (R + 1 / 100) := by
  have f1 := Int.lt_floor_add_one (u + 1 / 100)
  have f2 := Int.floor_le (u + 1 / 100)
  generalize ⌊u + 1 / 100⌋ = n at *
  constructor
  · rcases le_or_gt n (xmin + width - 1 : Int) with hn | hn
    · refine (min_le_left _ _).trans ?_
      have : n ≤ x + xmin + R := by omega
      have : (n : ℚ) ≤ ((x + xmin : Int) : ℚ) + R := by exact_mod_cast this
      linarith
    · refine (min_le_right _ _).trans ?_
      have : (v : Int) ≤ x + xmin + R + 1 := by omega
      have : (v : ℚ) ≤ ((x + xmin : Int) : ℚ) + R + 1 := by exact_mod_cast this
      linarith
  · rcases le_or_gt (xmin : Int) n with hn | hn
    · have : x + xmin ≤ n + R := by omega
      have : ((x + xmin : Int) : ℚ) ≤ n + R := by exact_mod_cast this
      have := le_max_left u (v : ℚ)
      linarith
    · have : x + xmin ≤ (v : Int) + R := by omega
      have : ((x + xmin : Int) : ℚ) ≤ v + R := by exact_mod_cast this
      have := le_max_right u (v : ℚ)
      linarith

/-- A patch extends over the corners. -/
def CoversCorners (hp : HeightPatch) (vs : List U16Vec3) : Prop :=
  ∀ v ∈ vs, (hp.xmin ≤ v.x ∧ v.x ≤ hp.xmin + hp.width) ∧ hp.zmin ≤ v.z ∧ v.z ≤ hp.zmin + hp.height

theorem world_height {hp : HeightPatch} {vs : List U16Vec3} (hcov : CoversCorners hp vs)
    (hfloor : ∀ x z h, hp.Has x z h → ∃ p q : Spot, W.Safe p ∧ W.CanWalk p q ∧ q.y = h ∧ W.NearPolygon vs p.x p.z ∧ W.NearPolygon vs q.x q.z ∧
      (q.x : Int) = x + hp.xmin + W.border ∧ (q.z : Int) = z + hp.zmin + W.border)
    {q : Vec3 ℚ} {h : Nat} (hh : c.height o hp q = .ok h) (hqx : 0 ≤ q.x ∧ q.x ≤ 32767 * W.fr.cellSize) (hqz : 0 ≤ q.z ∧ q.z ≤ 32767 * W.fr.cellSize) (a b : ℚ) :
    W.FloorHeight (c.radius o) vs (q.x + c.origin.x) (q.z + c.origin.z) (worldPos o c ⟨a, o.mul (o.ofInt h) c.chfCellHeight, b⟩).y := by
  refine ⟨h, ?_, ?_⟩
  · unfold worldPos
    simp only [ho.add, ho.mul, ho.ofInt, hc.chfCellHeight, hc.origin]
    push_cast
    ring
  · rcases getHeight_near (Nat.le_max_left _ _) hh with h1 | ⟨x, z, h1, hx, hz⟩
    · exact .inl h1
    · right
      obtain ⟨p', q', g1, g2, g3, g4, g5, g6, g7⟩ := hfloor x z h h1
      refine ⟨p', q', g1, g2, g3, g4, g5, ?_⟩
      have hpos := hc.pos
      have hfl : ∀ y : ℚ, 0 ≤ y → y ≤ 32767 * W.fr.cellSize →
          o.toI32 (o.floor (o.add (o.mul y (o.div (o.lit 1) c.chfCellSize)) (o.lit (1 / 100)))) = ⌊y / W.fr.cellSize + 1 / 100⌋ := by
        intro y hy0 hy1
        have e : y * (1 / W.fr.cellSize) + 1 / 100 = y / W.fr.cellSize + 1 / 100 := by ring
        have l1 : 0 ≤ y / W.fr.cellSize := by positivity
        have l2 : y / W.fr.cellSize ≤ 32767 := by rwa [div_le_iff₀ hpos]
        simp only [ho.floor, ho.add, ho.mul, ho.div, ho.lit, hc.chfCellSize]
        rw [e]
        refine ho.toI32 _ ?_ ?_
        · have : 0 ≤ ⌊y / W.fr.cellSize + 1 / 100⌋ := Int.floor_nonneg.2 (by linarith)
          omega
        · have : ⌊y / W.fr.cellSize + 1 / 100⌋ < 40000 := Int.floor_lt.2 (by push_cast; linarith)
          omega
      unfold lookupCell at hx hz
      dsimp only at hx hz
      rw [hfl _ hqx.1 hqx.2] at hx
      rw [hfl _ hqz.1 hqz.2] at hz
      have scale : ∀ (y k m org : ℚ) (v : Nat), k = m + W.border → (min (y / W.fr.cellSize) v ≤ m + ((c.radius o : ℚ) + 1) ∧
          m ≤ max (y / W.fr.cellSize) v + ((c.radius o : ℚ) + 1 / 100)) →
          min (y + (org + W.border * W.fr.cellSize)) (org + (v + W.border : Nat) * W.fr.cellSize) ≤ org + k * W.fr.cellSize + ((c.radius o : ℚ) + 1) * W.fr.cellSize ∧
          org + k * W.fr.cellSize ≤ max (y + (org + W.border * W.fr.cellSize)) (org + (v + W.border : Nat) * W.fr.cellSize) + ((c.radius o : ℚ) + 1 / 100) * W.fr.cellSize := by
        rintro y k m org v rfl ⟨s1, s2⟩
        have ey : y = y / W.fr.cellSize * W.fr.cellSize := by field_simp
        generalize y / W.fr.cellSize = t at *
        subst ey
        push_cast
        constructor
        · rcases min_le_iff.1 s1 with s | s
          · exact (min_le_left _ _).trans (by nlinarith)
          · exact (min_le_right _ _).trans (by nlinarith)
        · rcases le_total t v with s | s
          · rw [max_eq_right s] at s2
            have := le_max_right (t * W.fr.cellSize + (org + W.border * W.fr.cellSize)) (org + ((v : ℚ) + W.border) * W.fr.cellSize)
            nlinarith
          · rw [max_eq_left s] at s2
            have := le_max_left (t * W.fr.cellSize + (org + W.border * W.fr.cellSize)) (org + ((v : ℚ) + W.border) * W.fr.cellSize)
            nlinarith
      constructor
      · intro w hw
        obtain ⟨v, hv, rfl⟩ := List.mem_map.1 hw
        obtain ⟨⟨a1, a2⟩, _⟩ := hcov v hv
        rw [hc.origin]
        exact scale q.x q'.x ((x + hp.xmin : Int) : ℚ) _ v.x (by exact_mod_cast congrArg (Int.cast : Int → ℚ) g6) (within_axis rfl hx a1 a2)
      · intro w hw
        obtain ⟨v, hv, rfl⟩ := List.mem_map.1 hw
        obtain ⟨_, a1, a2⟩ := hcov v hv
        rw [hc.origin]
        exact scale q.z q'.z ((z + hp.zmin : Int) : ℚ) _ v.z (by exact_mod_cast congrArg (Int.cast : Int → ℚ) g7) (within_axis rfl hz a1 a2)

theorem sample_bounds {a b : U16Vec3} {n k : Nat} (h0 : 0 < k) (hk : k < n) (ha : a.x ≤ 32767 ∧ a.z ≤ 32767) (hb : b.x ≤ 32767 ∧ b.z ≤ 32767) {q : Vec3 ℚ}
    (hq : q = Vec3.add o (cornerPos o c a) (Vec3.scale o (Vec3.sub o (cornerPos o c b) (cornerPos o c a)) (o.div (o.ofInt k) (o.ofInt n)))) :
    (0 ≤ q.x ∧ q.x ≤ 32767 * W.fr.cellSize) ∧ 0 ≤ q.z ∧ q.z ≤ 32767 * W.fr.cellSize := by
  have hn : (0 : ℚ) < n := by exact_mod_cast (by omega : 0 < n)
  have l0 : 0 ≤ (k : ℚ) / n := by positivity
  have l1 : (k : ℚ) / n ≤ 1 := (div_le_one hn).2 (by exact_mod_cast hk.le)
  have hpos := hc.pos
  have key : ∀ (a b : Nat) (l : ℚ), a ≤ 32767 → b ≤ 32767 → 0 ≤ l → l ≤ 1 →
      0 ≤ a * W.fr.cellSize + (b * W.fr.cellSize - a * W.fr.cellSize) * l ∧
        a * W.fr.cellSize + (b * W.fr.cellSize - a * W.fr.cellSize) * l ≤ 32767 * W.fr.cellSize := by
    intro a b l ha hb l0 l1
    have ha' : (a : ℚ) ≤ 32767 := by exact_mod_cast ha
    have hb' : (b : ℚ) ≤ 32767 := by exact_mod_cast hb
    have e : a * W.fr.cellSize + (b * W.fr.cellSize - a * W.fr.cellSize) * l = (a * (1 - l) + b * l) * W.fr.cellSize := by ring
    rw [e]
    have m1 : 0 ≤ 1 - l := by linarith
    have m2 : (a : ℚ) * (1 - l) ≤ 32767 * (1 - l) := mul_le_mul_of_nonneg_right ha' m1
    have m3 : (b : ℚ) * l ≤ 32767 * l := mul_le_mul_of_nonneg_right hb' l0
    refine ⟨by positivity, mul_le_mul_of_nonneg_right (by linarith) hpos.le⟩
  subst hq
  unfold cornerPos Vec3.add Vec3.scale Vec3.sub
  simp only [ho.add, ho.mul, ho.sub, ho.div, ho.ofInt, hc.cellSize]
  push_cast
  exact ⟨key _ _ _ ha.1 hb.1 l0 l1, key _ _ _ ha.2 hb.2 l0 l1⟩

theorem world_sample {hp : HeightPatch} {a b : U16Vec3} {n k : Nat} (h0 : 0 < k) (hk : k < n) {p : Vec3 ℚ}
    (hs : IsSample o c hp (cornerPos o c a) (cornerPos o c b) n k p) :
    ∃ l : ℚ, 0 < l ∧ l < 1 ∧ (worldPos o c p).x = (W.position a).x + l * ((W.position b).x - (W.position a).x) ∧
      (worldPos o c p).z = (W.position a).z + l * ((W.position b).z - (W.position a).z) := by
  obtain ⟨h, q, rfl, _, rfl⟩ := hs
  have hn : (0 : ℚ) < n := by exact_mod_cast (by omega : 0 < n)
  refine ⟨(k : ℚ) / n, div_pos (by exact_mod_cast h0) hn, (div_lt_one hn).2 (by exact_mod_cast hk), ?_, ?_⟩
  all_goals
    unfold worldPos cornerPos Vec3.add Vec3.scale Vec3.sub World.position
    simp only [ho.add, ho.mul, ho.sub, ho.div, ho.ofInt, hc.cellSize, hc.origin]
    push_cast
    ring

omit hc in
theorem lowest_mem (poly : List (Vec3 ℚ)) (hne : poly ≠ []) : (∃ p ∈ poly, (lowest o poly).x = p.x) ∧ ∃ p ∈ poly, (lowest o poly).z = p.z := by
  have key : ∀ (l : List (Vec3 ℚ)) (m : Vec3 ℚ),
      (∃ p ∈ m :: l, (l.foldl (fun (m : Vec3 ℚ) p => ⟨o.min m.x p.x, o.min m.y p.y, o.min m.z p.z⟩) m).x = p.x) ∧
      ∃ p ∈ m :: l, (l.foldl (fun (m : Vec3 ℚ) p => ⟨o.min m.x p.x, o.min m.y p.y, o.min m.z p.z⟩) m).z = p.z := by
    intro l
    induction l with
    | nil => intro m; exact ⟨⟨m, by simp, rfl⟩, m, by simp, rfl⟩
    | cons b l ih =>
      intro m
      rw [List.foldl_cons]
      obtain ⟨⟨p, hp, e1⟩, q, hq, e2⟩ := ih ⟨o.min m.x b.x, o.min m.y b.y, o.min m.z b.z⟩
      refine ⟨?_, ?_⟩
      · rw [e1]
        rcases List.mem_cons.1 hp with rfl | hp
        · simp only [ho.min]
          rcases min_choice m.x b.x with h | h
          · exact ⟨m, by simp, h⟩
          · exact ⟨b, by simp, h⟩
        · exact ⟨p, by simp [hp], rfl⟩
      · rw [e2]
        rcases List.mem_cons.1 hq with rfl | hq
        · simp only [ho.min]
          rcases min_choice m.z b.z with h | h
          · exact ⟨m, by simp, h⟩
          · exact ⟨b, by simp, h⟩
        · exact ⟨q, by simp [hq], rfl⟩
  cases poly with
  | nil => exact absurd rfl hne
  | cons a l =>
    obtain ⟨⟨p, hp, e1⟩, q, hq, e2⟩ := key (a :: l) a
    exact ⟨⟨p, by simpa using hp, e1⟩, q, by simpa using hq, e2⟩

omit hc in
theorem highest_mem (poly : List (Vec3 ℚ)) (hne : poly ≠ []) : (∃ p ∈ poly, (highest o poly).x = p.x) ∧ ∃ p ∈ poly, (highest o poly).z = p.z := by
  have key : ∀ (l : List (Vec3 ℚ)) (m : Vec3 ℚ),
      (∃ p ∈ m :: l, (l.foldl (fun (m : Vec3 ℚ) p => ⟨o.max m.x p.x, o.max m.y p.y, o.max m.z p.z⟩) m).x = p.x) ∧
      ∃ p ∈ m :: l, (l.foldl (fun (m : Vec3 ℚ) p => ⟨o.max m.x p.x, o.max m.y p.y, o.max m.z p.z⟩) m).z = p.z := by
    intro l
    induction l with
    | nil => intro m; exact ⟨⟨m, by simp, rfl⟩, m, by simp, rfl⟩
    | cons b l ih =>
      intro m
      rw [List.foldl_cons]
      obtain ⟨⟨p, hp, e1⟩, q, hq, e2⟩ := ih ⟨o.max m.x b.x, o.max m.y b.y, o.max m.z b.z⟩
      refine ⟨?_, ?_⟩
      · rw [e1]
        rcases List.mem_cons.1 hp with rfl | hp
        · simp only [ho.max]
          rcases max_choice m.x b.x with h | h
          · exact ⟨m, by simp, h⟩
          · exact ⟨b, by simp, h⟩
        · exact ⟨p, by simp [hp], rfl⟩
      · rw [e2]
        rcases List.mem_cons.1 hq with rfl | hq
        · simp only [ho.max]
          rcases max_choice m.z b.z with h | h
          · exact ⟨m, by simp, h⟩
          · exact ⟨b, by simp, h⟩
        · exact ⟨q, by simp [hq], rfl⟩
  cases poly with
  | nil => exact absurd rfl hne
  | cons a l =>
    obtain ⟨⟨p, hp, e1⟩, q, hq, e2⟩ := key (a :: l) a
    exact ⟨⟨p, by simpa using hp, e1⟩, q, by simpa using hq, e2⟩

/-- A number of the sample grid between the lowest and the highest corner. -/
theorem grid_number {lo hi : Nat} (hlo : lo ≤ 32767) (hhi : hi ≤ 32767) {g : Int}
    (h1 : o.toI32 (o.floor (o.div ((lo : ℚ) * W.fr.cellSize) dist)) ≤ g) (h2 : g < o.toI32 (o.ceil (o.div ((hi : ℚ) * W.fr.cellSize) dist))) :
    ∃ n : Nat, g = n ∧ asU16 g = n ∧ (lo : ℚ) * W.fr.cellSize < n * dist + dist ∧ n * dist < hi * W.fr.cellSize := by
  simp only [ho.floor, ho.ceil, ho.div] at h1 h2
  rcases hc.coarse with h0 | h0
  · rw [h0] at h1 h2
    simp only [div_zero, Int.floor_zero, Int.ceil_zero] at h1 h2
    rw [ho.toI32 0 (by omega) (by omega)] at h1 h2
    omega
  · have hp := hc.pos
    have hd : 0 < dist := by linarith
    have hb : ∀ n : Nat, n ≤ 32767 → 0 ≤ (n : ℚ) * W.fr.cellSize / dist ∧ (n : ℚ) * W.fr.cellSize / dist ≤ 40000 := by
      intro n hn
      have hn' : (n : ℚ) ≤ 32767 := by exact_mod_cast hn
      have hn0 : (0 : ℚ) ≤ n := by positivity
      refine ⟨by positivity, ?_⟩
      rw [div_le_iff₀ hd]
      nlinarith
    have f0 : 0 ≤ ⌊(lo : ℚ) * W.fr.cellSize / dist⌋ := Int.floor_nonneg.2 (hb lo hlo).1
    have f1 : ⌊(lo : ℚ) * W.fr.cellSize / dist⌋ ≤ 40000 := by
      have := Int.floor_le ((lo : ℚ) * W.fr.cellSize / dist)
      have : (⌊(lo : ℚ) * W.fr.cellSize / dist⌋ : ℚ) ≤ 40000 := this.trans (hb lo hlo).2
      exact_mod_cast this
    have f2 : ⌈(hi : ℚ) * W.fr.cellSize / dist⌉ ≤ 40000 := Int.ceil_le.2 (by exact_mod_cast (hb hi hhi).2)
    have f3 : 0 ≤ ⌈(hi : ℚ) * W.fr.cellSize / dist⌉ := Int.ceil_nonneg (hb hi hhi).1
    rw [ho.toI32 _ (by omega) (by omega)] at h1 h2
    obtain ⟨n, rfl⟩ := Int.eq_ofNat_of_zero_le (f0.trans h1)
    refine ⟨n, rfl, by unfold asU16; omega, ?_, ?_⟩
    · have : (lo : ℚ) * W.fr.cellSize / dist < n + 1 := by
        have := Int.lt_floor_add_one ((lo : ℚ) * W.fr.cellSize / dist)
        have : (⌊(lo : ℚ) * W.fr.cellSize / dist⌋ : ℚ) ≤ n := by exact_mod_cast h1
        linarith
      rw [div_lt_iff₀ hd] at this
      linarith
    · have : (n : ℚ) < hi * W.fr.cellSize / dist := by
        have := Int.lt_ceil.1 h2
        exact_mod_cast this
      rwa [lt_div_iff₀ hd] at this

omit hc in
theorem jitter_abs (m i : Nat) : |jitter o m i| ≤ 1 := by
  unfold jitter
  simp only [ho.sub, ho.mul, ho.div, ho.ofInt, ho.lit]
  have h1 : (i * m % 65536 : Nat) < 65536 := Nat.mod_lt _ (by decide)
  rw [Int.cast_natCast]
  generalize i * m % 65536 = r at h1 ⊢
  have h2 : (r : ℚ) ≤ 65535 := by exact_mod_cast (by omega : r ≤ 65535)
  have h3 : (0 : ℚ) ≤ (r : ℚ) / 65535 := by positivity
  have h4 := div_le_one_of_le₀ h2 (by norm_num)
  rw [abs_le]
  constructor <;> linarith

theorem world_interior {hp : HeightPatch} {vs : List U16Vec3} (hne : vs ≠ []) (hv : ∀ v ∈ vs, v.x ≤ 32767 ∧ v.z ≤ 32767) (hcov : CoversCorners hp vs)
    (hfloor : ∀ x z h, hp.Has x z h → ∃ p q : Spot, W.Safe p ∧ W.CanWalk p q ∧ q.y = h ∧ W.NearPolygon vs p.x p.z ∧ W.NearPolygon vs q.x q.z ∧
      (q.x : Int) = x + hp.xmin + W.border ∧ (q.z : Int) = z + hp.zmin + W.border)
    {p : Vec3 ℚ} (h : IsInterior o c hp (vs.map (cornerPos o c)) p) :
    ∃ x z, W.OnGrid dist vs x z ∧ |(worldPos o c p).x - x| ≤ W.fr.cellSize / 10 ∧ |(worldPos o c p).z - z| ≤ W.fr.cellSize / 10 ∧
      W.FloorHeight (c.radius o) vs x z (worldPos o c p).y := by
  obtain ⟨g, hh, i, hg, rfl⟩ := h
  obtain ⟨⟨x1, x2⟩, ⟨z1, z2⟩, _, hq⟩ := hg
  have hne' : vs.map (cornerPos o c) ≠ [] := by simpa using hne
  obtain ⟨⟨p1, hp1, e1⟩, p2, hp2, e2⟩ := lowest_mem ho _ hne'
  obtain ⟨⟨p3, hp3, e3⟩, p4, hp4, e4⟩ := highest_mem ho _ hne'
  obtain ⟨v1, hv1, rfl⟩ := List.mem_map.1 hp1
  obtain ⟨v2, hv2, rfl⟩ := List.mem_map.1 hp2
  obtain ⟨v3, hv3, rfl⟩ := List.mem_map.1 hp3
  obtain ⟨v4, hv4, rfl⟩ := List.mem_map.1 hp4
  rw [e1] at x1
  rw [e3] at x2
  rw [e2] at z1
  rw [e4] at z2
  have ex : ∀ v : U16Vec3, (cornerPos o c v).x = (v.x : ℚ) * W.fr.cellSize := by
    intro v; unfold cornerPos; simp only [ho.mul, ho.ofInt, hc.cellSize]; push_cast; rfl
  have ez : ∀ v : U16Vec3, (cornerPos o c v).z = (v.z : ℚ) * W.fr.cellSize := by
    intro v; unfold cornerPos; simp only [ho.mul, ho.ofInt, hc.cellSize]; push_cast; rfl
  rw [ex, hc.sampleDist] at x1 x2
  rw [ez, hc.sampleDist] at z1 z2
  obtain ⟨gx, a0, a1, a2, a3⟩ := grid_number ho hc (hv v1 hv1).1 (hv v3 hv3).1 x1 x2
  obtain ⟨gz, b0, b1, b2, b3⟩ := grid_number ho hc (hv v2 hv2).2 (hv v4 hv4).2 z1 z2
  have hp := hc.pos
  have hj : ∀ m, |jitter o m i * W.fr.cellSize * (1 / 10)| ≤ W.fr.cellSize / 10 := by
    intro m
    rw [abs_mul, abs_mul, abs_of_pos hp, abs_of_pos (by norm_num : (0 : ℚ) < 1 / 10)]
    have := jitter_abs ho m i
    nlinarith
  refine ⟨_, _, ⟨gx, gz, rfl, rfl, ⟨⟨v1, hv1, a2⟩, v3, hv3, a3⟩, ⟨v2, hv2, b2⟩, v4, hv4, b3⟩, ?_, ?_, ?_⟩
  · have e : (worldPos o c (jittered o c g hh i)).x - (W.fr.aabb.min.x + W.border * W.fr.cellSize + gx * dist) =
        jitter o 0x8da6b343 i * W.fr.cellSize * (1 / 10) := by
      unfold worldPos jittered
      simp only [ho.add, ho.mul, ho.ofInt, ho.lit, hc.chfCellSize, hc.origin, hc.sampleDist, a1]
      push_cast
      ring
    rw [e]; exact hj _
  · have e : (worldPos o c (jittered o c g hh i)).z - (W.fr.aabb.min.z + W.border * W.fr.cellSize + gz * dist) =
        jitter o 0xd8163841 i * W.fr.cellSize * (1 / 10) := by
      unfold worldPos jittered
      simp only [ho.add, ho.mul, ho.ofInt, ho.lit, hc.chfCellSize, hc.origin, hc.sampleDist, b1]
      push_cast
      ring
    rw [e]; exact hj _
  · have hd : 0 ≤ dist := by
      rcases hc.coarse with h | h
      · exact h.ge
      · linarith
    have hgx : (gridPoint o c (vs.map (cornerPos o c)) g).x = gx * dist := by
      unfold gridPoint
      simp only [ho.mul, ho.ofInt, hc.sampleDist, a0]
      push_cast; rfl
    have hgz : (gridPoint o c (vs.map (cornerPos o c)) g).z = gz * dist := by
      unfold gridPoint
      simp only [ho.mul, ho.ofInt, hc.sampleDist, b0]
      push_cast; rfl
    have c1 : (v3.x : ℚ) * W.fr.cellSize ≤ 32767 * W.fr.cellSize := mul_le_mul_of_nonneg_right (by exact_mod_cast (hv v3 hv3).1) hp.le
    have c2 : (v4.z : ℚ) * W.fr.cellSize ≤ 32767 * W.fr.cellSize := mul_le_mul_of_nonneg_right (by exact_mod_cast (hv v4 hv4).2) hp.le
    have := world_height ho hc hcov hfloor hq (by rw [hgx]; exact ⟨by positivity, by linarith⟩) (by rw [hgz]; exact ⟨by positivity, by linarith⟩)
      (jittered o c g hh i).x (jittered o c g hh i).z
    rw [hgx, hgz, hc.origin] at this
    dsimp only at this
    rw [add_comm (gx * dist), add_comm (gz * dist)] at this
    exact this

theorem submesh_at {hp : HeightPatch} {vs : List U16Vec3} (hne : vs ≠ []) (hv : ∀ v ∈ vs, v.x ≤ 32767 ∧ v.z ≤ 32767) (hcov : CoversCorners hp vs)
    (hfloor : ∀ x z h, hp.Has x z h → ∃ p q : Spot, W.Safe p ∧ W.CanWalk p q ∧ q.y = h ∧ W.NearPolygon vs p.x p.z ∧ W.NearPolygon vs q.x q.z ∧
      (q.x : Int) = x + hp.xmin + W.border ∧ (q.z : Int) = z + hp.zmin + W.border)
    {d : Detail ℚ} (hd : IsSubMesh o c hp (vs.map (cornerPos o c)) d) :
    W.SubMeshAt (c.radius o) dist vs ((d.verts.take d.nverts).map (worldPos o c)) := by
  obtain ⟨hull, m, ⟨ext, hel, _, hm0, hflat, hside⟩, hm, hint, _⟩ := hd.outline
  rw [List.length_map] at hel hm0 hflat hside
  refine ⟨?_, ?_⟩
  · have := hd.corners
    rw [List.length_map] at this
    rw [← List.map_take, List.take_take, Nat.min_eq_left (by omega), this, List.map_map]
    exact List.map_congr_left fun v _ => world_corner ho hc v
  · intro p hp'
    rw [← List.map_drop] at hp'
    obtain ⟨u, hu, rfl⟩ := List.mem_map.1 hp'
    obtain ⟨k, hk⟩ := List.mem_iff_getElem?.1 hu
    rw [List.getElem?_drop] at hk
    have hkn : vs.length + k < d.nverts := by
      by_contra hcon
      rw [List.getElem?_eq_none (by simp; omega)] at hk
      cases hk
    rw [List.getElem?_take_of_lt hkn] at hk
    by_cases hlt : vs.length + k < m
    · -- a sample of a side
      have hin : vs.length + k ∈ ext.flatten := by
        rw [hflat, List.mem_range']
        exact ⟨k, by omega, by omega⟩
      obtain ⟨l, hl, hkl⟩ := List.mem_flatten.1 hin
      obtain ⟨i, hi⟩ := List.mem_iff_getElem?.1 hl
      obtain ⟨a, b, ha, hb, n, ks, hks, hcase⟩ := hside i l hi
      rw [List.getElem?_map, Option.map_eq_some_iff] at ha hb
      obtain ⟨va, hva, rfl⟩ := ha
      obtain ⟨vb, hvb, rfl⟩ := hb
      have hilt : i < vs.length := by
        have := (List.getElem?_eq_some_iff.1 hi).1
        omega
      have hnext : ((i + vs.length - 1) % vs.length + 1) % vs.length = i := by
        rw [Nat.mod_add_mod, show i + vs.length - 1 + 1 = i + vs.length by omega, Nat.add_mod_right, Nat.mod_eq_of_lt hilt]
      rcases hcase with ⟨_, hf, _⟩ | ⟨_, hf, _⟩
      · obtain ⟨kk, hkk, u', hu', hs⟩ := forall₂_mem_right hf.flip hkl
        rw [hk] at hu'
        cases hu'
        obtain ⟨l', l0, l1, g1, g2⟩ := world_sample ho hc (hks kk hkk).1 (hks kk hkk).2 hs
        obtain ⟨h, q, hqe, hq, rfl⟩ := hs
        obtain ⟨bx, bz⟩ := sample_bounds ho hc (hks kk hkk).1 (hks kk hkk).2 (hv va (List.mem_of_getElem? hva)) (hv vb (List.mem_of_getElem? hvb)) hqe
        refine .inl ⟨⟨_, va, vb, hva, by rw [hnext]; exact hvb, l', l0, l1, g1, g2⟩, ?_⟩
        have := world_height ho hc hcov hfloor hq bx bz q.x q.z
        unfold worldPos at this ⊢
        simp only [ho.add] at this ⊢
        exact this
      · obtain ⟨kk, hkk, u', hu', hs⟩ := forall₂_mem_right hf.flip hkl
        rw [hk] at hu'
        cases hu'
        obtain ⟨l', l0, l1, g1, g2⟩ := world_sample ho hc (hks kk hkk).1 (hks kk hkk).2 hs
        obtain ⟨h, q, hqe, hq, rfl⟩ := hs
        obtain ⟨bx, bz⟩ := sample_bounds ho hc (hks kk hkk).1 (hks kk hkk).2 (hv vb (List.mem_of_getElem? hvb)) (hv va (List.mem_of_getElem? hva)) hqe
        refine .inl ⟨⟨_, va, vb, hva, by rw [hnext]; exact hvb, 1 - l', by linarith, by linarith, ?_, ?_⟩, ?_⟩
        · rw [g1]; ring
        · rw [g2]; ring
        · have := world_height ho hc hcov hfloor hq bx bz q.x q.z
          unfold worldPos at this ⊢
          simp only [ho.add] at this ⊢
          exact this
    · obtain ⟨u', hu', hI⟩ := hint _ (by omega) hkn
      rw [hk] at hu'
      cases hu'
      exact .inr (world_interior ho hc hne hv hcov hfloor hI)

end

end Rerecast
