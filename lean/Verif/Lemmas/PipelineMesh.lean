import Verif.Lemmas.PipelineRegions
import Verif.Props.C44_C49_PolyMesh
import Verif.Props.C53_Config
import Verif.Props.C61_Outlines
/-! From regions to the polygon mesh: the vertices mark safe spots. -/
namespace Rerecast
open Relation CompactHeightfield

theorem covers_side {cs lo hi : ℚ} (hcs : 0 < cs) (hlo : lo ≤ hi) (hhi : hi - lo < 32767 * cs) :
    satU16 ((hi - lo) / cs + 1 / 2) ≤ 32767 ∧ satU128 ((hi - lo) / cs + 1 / 2) = satU16 ((hi - lo) / cs + 1 / 2) ∧
    CoversSide (satU16 ((hi - lo) / cs + 1 / 2)) cs lo hi := by
  have hq : (hi - lo) / cs < 32767 := (div_lt_iff₀ hcs).2 hhi
  have hq0 : 0 ≤ (hi - lo) / cs := div_nonneg (by linarith) hcs.le
  generalize hQ : (hi - lo) / cs = q at hq hq0
  have hQ' : hi - lo = q * cs := by rw [← hQ]; field_simp
  have f0 : 0 ≤ ⌊q + 1 / 2⌋ := Int.floor_nonneg.2 (by linarith)
  have f1 : ⌊q + 1 / 2⌋ < 32768 := by rw [Int.floor_lt]; push_cast; linarith
  have e : ((satU16 (q + 1 / 2) : Nat) : Int) = ⌊q + 1 / 2⌋ := by unfold satU16; omega
  have e' : ((satU16 (q + 1 / 2) : Nat) : ℚ) = (⌊q + 1 / 2⌋ : ℚ) := by exact_mod_cast e
  have g1 := Int.floor_le (q + 1 / 2)
  have g2 := Int.lt_floor_add_one (q + 1 / 2)
  refine ⟨by omega, by unfold satU16 satU128; omega, ?_⟩
  unfold CoversSide
  rw [e', hQ']
  constructor
  · have := mul_le_mul_of_nonneg_right g1 hcs.le
    linarith
  · have := mul_lt_mul_of_pos_right g2 hcs
    linarith

theorem config_fields {b : ConfigBuilder} {cfg : Config} (h : b.build = .ok cfg) : cfg.cellSize = b.cellSize ∧ cfg.cellHeight = b.cellHeight ∧
    cfg.walkableSlopeAngle = b.agentMaxSlope := by
  unfold ConfigBuilder.build at h
  obtain ⟨border, _, h⟩ := bind_inv h
  obtain ⟨w, _, h⟩ := bind_inv h
  obtain ⟨hh, _, h⟩ := bind_inv h
  cases h
  exact ⟨rfl, rfl, rfl⟩

theorem raster_empty {fr : Frame} {hf : Heightfield} (he : hf.spans = []) (m : TriMesh ℚ) (thr : Nat) :
    Holds (rasterizeTriangles fr hf m thr) (· = hf) := by
  unfold rasterizeTriangles
  refine foldlM_holds_inv (· = hf) _ _ rfl ?_
  intro i _ hf' hh
  rw [hh]
  unfold rasterizeMeshStep
  refine Holds.bind_any fun t _ => Holds.bind_any fun a _ => Holds.bind_any fun b _ => Holds.bind_any fun c _ => Holds.bind_any fun area _ => ?_
  unfold rasterizeTriangle
  simp only
  split
  · exact Holds.ok rfl
  · refine Holds.bind_any fun h1 _ => Holds.bind_any fun z0 _ => Holds.bind_any fun z1 _ => ?_
    refine Holds.bind (P := fun (st : RowState) => st.hf = hf) (foldlM_holds_inv (fun (st : RowState) => st.hf = hf) _ _ rfl ?_) fun st hst => Holds.ok hst
    intro z _ st hst
    unfold rowStep
    refine Holds.bind_any fun r _ => ?_
    obtain ⟨inRow, nvRow, p1, nvIn⟩ := r
    simp only
    split
    · exact Holds.ok hst
    · refine Holds.bind_any fun r _ => ?_
      obtain ⟨min_x, max_x⟩ := r
      simp only
      split
      · exact Holds.ok hst
      · refine Holds.bind_any fun w1 _ => Holds.bind_any fun x0 _ => Holds.bind_any fun x1 _ => ?_
        refine Holds.bind (P := fun (st : ColState) => st.hf = hf) (foldlM_holds_inv (fun (st : ColState) => st.hf = hf) _ _ hst ?_)
          fun st hst => Holds.ok hst
        intro x _ st hst
        unfold colStep
        refine Holds.bind_any fun r _ => ?_
        obtain ⟨p1, nv, p2, nv2⟩ := r
        simp only
        split
        · exact Holds.ok hst
        · refine Holds.bind_any fun r _ => ?_
          obtain ⟨lo, hi⟩ := r
          simp only
          refine Holds.bind_any fun o _ => ?_
          cases o with
          | none => exact Holds.ok hst
          | some p =>
            obtain ⟨mn, mx⟩ := p
            simp only
            rw [hst]
            unfold Heightfield.addSpan
            rw [he]
            simp only [List.length_nil, ge_iff_le, Nat.zero_le, if_true]
            exact Holds.error

theorem wellFormed_new (w h : Nat) : (Heightfield.new w h).WellFormed :=
  Rep.wellFormed (cols := fun _ => []) ⟨by simp [Heightfield.new], hfRep_new w h, by intro c _; simp [solids, Separated], by intro c _; simp [solids]⟩

/-- A build that gets as far as the regions has a grid with cells. -/
theorem grid_nonempty {fr : Frame} {w h : Nat} (hw : w ≤ 32767) (hh : h ≤ 32767) (hnew : fr.buildHeightfield = .ok (Heightfield.new w h))
    {cfg : Config} {m : TriMesh ℚ} {hf : Heightfield} (hs : buildSolid cfg m fr = .ok hf) (hsm : hf.spanCount < 2 ^ 32)
    {chf : CompactHeightfield} (hc : buildCompact cfg hf = .ok chf) : 1 ≤ w ∧ 1 ≤ h := by
  by_contra hcon
  have h0 : w * h = 0 := by
    rcases Nat.eq_zero_or_pos w with rfl | hw0
    · simp
    · have : h = 0 := by omega
      simp [this]
  rw [buildSolid, hnew, bind_ok] at hs
  obtain ⟨hf1, r1, hs⟩ := bind_inv hs
  obtain ⟨hf2, r2, hs⟩ := bind_inv hs
  obtain ⟨hf3, r3, r4⟩ := bind_inv hs
  have e1 : hf1 = Heightfield.new w h := raster_empty (by simp [Heightfield.new, h0]) m _ _ r1
  subst e1
  have wf1 := wellFormed_new w h
  obtain ⟨_, e2, wf2, w2, h2, g2⟩ := c15_filters_keep_geometry _ wf1 cfg.walkableHeight cfg.walkableClimb _ (List.mem_cons_self ..)
  rw [r2] at e2; cases e2
  obtain ⟨_, e3, wf3, w3, h3, g3⟩ := c15_filters_keep_geometry hf2 wf2 cfg.walkableHeight cfg.walkableClimb
    (hf2.filterLedgeSpans cfg.walkableHeight cfg.walkableClimb) (by simp)
  rw [r3] at e3; cases e3
  obtain ⟨_, e4, wf4, w4, h4, g4⟩ := c15_filters_keep_geometry hf3 wf3 cfg.walkableHeight cfg.walkableClimb
    (hf3.filterWalkableLowHeightSpans cfg.walkableHeight) (by simp)
  rw [r4] at e4; cases e4
  have ew : hf.width = w := by rw [w4, w3, w2]; rfl
  have eh : hf.height = h := by rw [h4, h3, h2]; rfl
  rw [buildCompact] at hc
  obtain ⟨c0, hc0, hc⟩ := bind_inv hc
  obtain ⟨c1, hc1, hc⟩ := bind_inv hc
  obtain ⟨c2, hc2, hc⟩ := bind_inv hc
  have hwf0 := c20_wellformed hf wf4 hsm (by omega) (by omega) _ _ c0 hc0
  obtain ⟨cw, ch, _⟩ := c19_exactly_the_walkable_spans hf wf4 hsm _ _ c0 hc0
  have hl := hwf0.cells_len
  rw [cw, ch, ew, eh, h0] at hl
  have hp := hwf0.partition
  rw [List.length_eq_zero_iff.1 hl] at hp
  have hsp : c0.spans = [] := by
    have := congrArg List.length hp
    exact List.length_eq_zero_iff.1 (by simpa using this.symm)
  obtain ⟨d1, l1, _⟩ := c25_only_removes c0 hwf0 _ c1 hc1
  have hwf1 : c1.WellFormed := by
    rw [d1]
    exact ⟨hwf0.width_u16, hwf0.height_u16, hwf0.cells_len, by simp only; rw [l1]; exact hwf0.areas_len, hwf0.partition, hwf0.con⟩
  have : c1.buildDistanceField = .error .panic :=
    c32_empty_panics c1 hwf1 (by rw [d1]; simp only; rw [cw, ew]; exact Or.inl hw) (by rw [d1]; exact hsp)
  rw [this] at hc2
  cases hc2

/-- The input of a build and its grid, which may be empty. -/
theorem input_frame {F : Type} {env : BuildEnv F} {b : ConfigBuilder} {scene : List Affector} (hb : b.Sensible)
    (hg : GoodScene env.lo env.hi scene) (hfits : SceneFits b scene) {cfg : Config} {m : TriMesh ℚ} {fr : Frame} (hcfg : b.build = .ok cfg)
    (hinput : buildInput env cfg scene = .ok (m, fr)) :
    ∃ w h, w ≤ 32767 ∧ h ≤ 32767 ∧ (World.ofBuild env cfg scene fr w h).Models env b scene ∧
      InputOf env cfg scene m fr ∧ fr.Sane ∧ fr.buildHeightfield = .ok (Heightfield.new w h) := by
  obtain ⟨e1, e2, e3⟩ := config_fields hcfg
  obtain ⟨no, yes⟩ := buildInput_spec env cfg hg
  have hne : ∃ v, SceneVertex scene v := by
    by_contra hc
    rw [no hc] at hinput
    cases hinput
  obtain ⟨m', fr', hin', hI⟩ := yes hne
  rw [hin'] at hinput; cases hinput
  obtain ⟨⟨x0, hx0, ex0⟩, ⟨x1, hx1, ex1⟩, ⟨y0, hy0, ey0⟩, ⟨y1, hy1, ey1⟩, ⟨z0, hz0, ez0⟩, ⟨z1, hz1, ez1⟩⟩ := hI.tight
  have hcs : 0 < fr.cellSize := by rw [hI.cellSize, e1]; exact hb.cellSize
  have hch : 0 < fr.cellHeight := by rw [hI.cellHeight, e2]; exact hb.cellHeight
  have hsane : fr.Sane := by
    refine ⟨hcs, hch, ?_, ?_⟩
    · rw [← ey1]; exact (hI.contains y1 hy1).2.2.1
    · rw [← ey0, ← ey1, hI.cellHeight, e2]; exact (hfits y0 y1 hy0 hy1).2.2
  have lx : fr.aabb.min.x ≤ fr.aabb.max.x := by rw [← ex1]; exact (hI.contains x1 hx1).1
  have lz : fr.aabb.min.z ≤ fr.aabb.max.z := by rw [← ez1]; exact (hI.contains z1 hz1).2.2.2.2.1
  have hx : fr.aabb.max.x - fr.aabb.min.x < 32767 * fr.cellSize := by rw [← ex0, ← ex1, hI.cellSize, e1]; exact (hfits x0 x1 hx0 hx1).1
  have hz : fr.aabb.max.z - fr.aabb.min.z < 32767 * fr.cellSize := by rw [← ez0, ← ez1, hI.cellSize, e1]; exact (hfits z0 z1 hz0 hz1).2.1
  obtain ⟨wx1, wx2, wx3⟩ := covers_side hcs lx hx
  obtain ⟨wz1, wz2, wz3⟩ := covers_side hcs lz hz
  have hnew : fr.buildHeightfield = .ok (Heightfield.new (satU16 ((fr.aabb.max.x - fr.aabb.min.x) / fr.cellSize + 1 / 2))
      (satU16 ((fr.aabb.max.z - fr.aabb.min.z) / fr.cellSize + 1 / 2))) := by
    unfold Frame.buildHeightfield
    simp only
    rw [wx2, wz2]
    have : satU16 ((fr.aabb.max.x - fr.aabb.min.x) / fr.cellSize + 1 / 2) * satU16 ((fr.aabb.max.z - fr.aabb.min.z) / fr.cellSize + 1 / 2) ≤ 32767 * 32767 :=
      Nat.mul_le_mul wx1 wz1
    rw [if_neg (by omega), if_neg (by omega)]
    rfl
  generalize hw : satU16 ((fr.aabb.max.x - fr.aabb.min.x) / fr.cellSize + 1 / 2) = w at *
  generalize hh : satU16 ((fr.aabb.max.z - fr.aabb.min.z) / fr.cellSize + 1 / 2) = h at *
  obtain ⟨r1, r2, r3, r4, r5, r6⟩ := c53_rounding b cfg hb hcfg
  exact ⟨w, h, wx1, wz1, ⟨rfl, by rw [← e3]; rfl, by rw [← e1]; exact hI.cellSize, by rw [← e2]; exact hI.cellHeight, hI.contains, hI.tight,
    by rw [← e1, ← hI.cellSize]; exact wx3, by rw [← e1, ← hI.cellSize]; exact wz3, r4, r2, r1.1, r6⟩, hI, hsane, hnew⟩

/-- The input of a build and its grid. -/
theorem stages_input {F : Type} {env : BuildEnv F} {b : ConfigBuilder} {scene : List Affector} (hb : b.Sensible)
    (hg : GoodScene env.lo env.hi scene) (hfits : SceneFits b scene) {cfg : Config} {m : TriMesh ℚ} {fr : Frame} {hf : Heightfield}
    {chf : CompactHeightfield} (st : Stages env b scene cfg m fr hf chf) (hsm : hf.spanCount < 2 ^ 32) :
    ∃ w h, (1 ≤ w ∧ w ≤ 32767) ∧ (1 ≤ h ∧ h ≤ 32767) ∧ (World.ofBuild env cfg scene fr w h).Models env b scene ∧
      InputOf env cfg scene m fr ∧ fr.Sane ∧ fr.buildHeightfield = .ok (Heightfield.new w h) := by
  obtain ⟨w, h, hw, hh, hM, hI, hs, hnew⟩ := input_frame hb hg hfits st.config st.input
  obtain ⟨w1, h1⟩ := grid_nonempty hw hh hnew st.solid hsm st.compact
  exact ⟨w, h, ⟨w1, hw⟩, ⟨h1, hh⟩, hM, hI, hs, hnew⟩

/-- Everything up to the regions. -/
theorem stages_spec {F : Type} {env : BuildEnv F} {b : ConfigBuilder} {scene : List Affector} (hb : b.Sensible)
    (hg : GoodScene env.lo env.hi scene) (hfits : SceneFits b scene) {cfg : Config} {m : TriMesh ℚ} {fr : Frame} {hf : Heightfield}
    {chf : CompactHeightfield} (st : Stages env b scene cfg m fr hf chf) (hr : cfg.walkableRadius ≤ 127) (hsm : hf.spanCount < 2 ^ 32) :
    ∃ w h c0, (1 ≤ w ∧ w ≤ 32767) ∧ (1 ≤ h ∧ h ≤ 32767) ∧ (World.ofBuild env cfg scene fr w h).Models env b scene ∧ GoodField (World.ofBuild env cfg scene fr w h) chf ∧
      hf.WellFormed ∧ hf.intoCompact cfg.walkableHeight cfg.walkableClimb = .ok c0 ∧ c0.WellFormed ∧ Like c0 chf := by
  obtain ⟨w, h, hw, hh, hM, hI, hsane, hnew⟩ := stages_input hb hg hfits st hsm
  have hcomp := st.compact
  rw [buildCompact] at hcomp
  obtain ⟨c0, hc0, _⟩ := bind_inv hcomp
  have hbox : ∀ v ∈ m.vertices, fr.aabb.Contains v := fun v hv => hI.contains v ((hI.vertices v).1 hv)
  obtain ⟨wf0, cw, ch, hW⟩ := inWorld_of hI hsane hw hh hnew st.solid hsm hc0
  obtain ⟨hG, hlike⟩ := goodField_of hw.2 hc0 wf0 cw ch hW hr st.compact
  exact ⟨w, h, c0, hw, hh, hM, hG, (solid_spec hsane hw hh hI.wf hbox hnew st.solid).1, hc0, wf0, hlike⟩

theorem corner_left {w h x z d nx nz : Nat} (hd : d < 4) (hn : neighbourCell w h x z d = some (nx, nz)) :
    cornerOf x z d = cornerOf nx nz ((d + 1) % 4) := by
  have : d = 0 ∨ d = 1 ∨ d = 2 ∨ d = 3 := by omega
  rcases this with rfl | rfl | rfl | rfl <;> simp only [neighbourCell] at hn <;> split at hn <;> cases hn <;>
    simp [cornerOf] <;> omega

theorem corner_ahead {w h x z d nx nz : Nat} (hd : d < 4) (hn : neighbourCell w h x z ((d + 1) % 4) = some (nx, nz)) :
    cornerOf x z d = cornerOf nx nz ((d + 3) % 4) := by
  have : d = 0 ∨ d = 1 ∨ d = 2 ∨ d = 3 := by omega
  rcases this with rfl | rfl | rfl | rfl <;> simp only [neighbourCell] at hn <;> split at hn <;> cases hn <;>
    simp [cornerOf] <;> omega

theorem link_at {chf : CompactHeightfield} (hwf : chf.WellFormed) {x z i d k : Nat} {s : CompactSpan} (hd : d < 4) (hat : chf.At x z i s)
    (hl : chf.Link i d k) : ∃ x' z' t, neighbourCell chf.width chf.height x z d = some (x', z') ∧ chf.At x' z' k t := by
  obtain ⟨x0, z0, s1, l, nx, nz, nb, a1, a2, a3, a4, a5⟩ := hl
  obtain ⟨rfl, rfl⟩ := at_unique hwf a1
  obtain ⟨rfl, rfl⟩ := at_unique hwf hat
  obtain ⟨_, _, hs, cell, hc, hi⟩ := a1
  obtain ⟨nx', nz', nb', b1, b2, b3⟩ := hwf.con _ hat.1 _ hat.2.1 cell hc i hi s1 hs d hd l a2
  rw [a3] at b1; cases b1
  rw [a4] at b2; cases b2
  have hmem : k ∈ nb.indexRange := by
    simp only [CompactCell.indexRange, List.mem_range'_1]
    omega
  have hlt := neighbourCell_lt hat.1 hat.2.1 a3
  have hk := mem_cell_lt hwf a4 hmem
  exact ⟨nx, nz, chf.spans[k], a3, hlt.1, hlt.2, List.getElem?_eq_getElem hk, nb, a4, hmem⟩

/-- A vertex recorded at a boundary side marks the spot of its span. -/
theorem marks_of {W : World} {chf : CompactHeightfield} (hG : GoodField W chf) {i d : Nat} (hd : d < 4) (hb : chf.BoundarySide (i, d))
    {area : Area} {p : U16Vec3 × Nat} (hp : chf.RawVertex area (i, d) p) : ∃ x z s, chf.At x z i s ∧ ProperRegion s.region ∧
      W.Safe ⟨x, z, s.y⟩ ∧ W.Marks ⟨x, z, s.y⟩ ⟨p.1.x - chf.borderSize, p.1.y, p.1.z - chf.borderSize⟩ := by
  obtain ⟨x, z, s, hat, hpos⟩ := hp.position
  simp only at hat hpos
  have hprop : ProperRegion s.region := by
    obtain ⟨r, h1, ⟨s', h2, rfl⟩, _⟩ := hb
    simp only at h2
    rw [hat.2.2.1] at h2; cases h2
    exact h1
  have hsafe := hG.safe x z i s hat hprop
  refine ⟨x, z, s, hat, hprop, hsafe, ?_⟩
  have hin := hsafe.inside
  simp only at hin
  have hcor : cornerOf x z d = (p.1.x - chf.borderSize + W.border, p.1.z - chf.borderSize + W.border) := by
    rw [hG.border, ← hpos]
    have : W.border ≤ (cornerOf x z d).1 ∧ W.border ≤ (cornerOf x z d).2 := by
      unfold cornerOf
      split <;> simp only <;> omega
    rw [← hpos] at this
    simp only [U16Vec3.xz] at this ⊢
    rw [Prod.mk.injEq]
    omega
  refine ⟨⟨d, hd, hcor⟩, hp.height_max i s .self hat.2.2.1, ?_⟩
  simp only
  rw [← hcor]
  have h4 : (d + 1) % 4 < 4 := Nat.mod_lt _ (by omega)
  have h5 : (d + 3) % 4 < 4 := Nat.mod_lt _ (by omega)
  obtain ⟨k, sp, hm, hsp, ey⟩ := hp.height_some
  have step : ∀ {x z i d x' z' k : Nat} {s t : CompactSpan}, d < 4 → chf.At x z i s → chf.Link i d k → chf.At x' z' k t →
      W.CanWalk ⟨x, z, s.y⟩ ⟨x', z', t.y⟩ :=
    fun hd ha hl hb => ReflTransGen.single (hG.inWorld.link _ _ _ hd hl _ _ _ _ _ _ ha hb)
  have fin : ∀ {x' z' : Nat} {t : CompactSpan}, chf.At x' z' k t → t.y = p.1.y := by
    intro x' z' t ha
    rw [← ey]
    have := ha.2.2.1
    rw [hsp] at this; cases this; rfl
  cases hm with
  | self => exact ⟨⟨x, z, s.y⟩, ReflTransGen.refl, fin hat, d, hd, rfl⟩
  | left hl =>
    obtain ⟨x1, z1, t, hn, ha⟩ := link_at hG.wf hd hat hl
    exact ⟨⟨x1, z1, t.y⟩, step hd hat hl ha, fin ha, _, h4, (corner_left hd hn).symm⟩
  | ahead hl =>
    obtain ⟨x1, z1, t, hn, ha⟩ := link_at hG.wf h4 hat hl
    exact ⟨⟨x1, z1, t.y⟩, step h4 hat hl ha, fin ha, _, h5, (corner_ahead hd hn).symm⟩
  | leftAhead hl hl2 =>
    obtain ⟨x1, z1, t, hn, ha⟩ := link_at hG.wf hd hat hl
    obtain ⟨x2, z2, t2, hn2, ha2⟩ := link_at hG.wf h4 ha hl2
    exact ⟨⟨x2, z2, t2.y⟩, (step hd hat hl ha).trans (step h4 ha hl2 ha2), fin ha2, _, Nat.mod_lt _ (by omega),
      (corner_left h4 hn2).symm.trans (corner_left hd hn).symm⟩
  | aheadLeft hl hl2 =>
    obtain ⟨x1, z1, t, hn, ha⟩ := link_at hG.wf h4 hat hl
    obtain ⟨x2, z2, t2, hn2, ha2⟩ := link_at hG.wf hd ha hl2
    have e : ((d + 3) % 4 + 1) % 4 = d := by omega
    refine ⟨⟨x2, z2, t2.y⟩, (step h4 hat hl ha).trans (step hd ha hl2 ha2), fin ha2, ((d + 3) % 4 + 3) % 4, Nat.mod_lt _ (by omega), ?_⟩
    exact (corner_ahead h5 (by rw [e]; exact hn2)).symm.trans (corner_ahead hd hn).symm

/-- Every contour point marks the spot of a span with a region. -/
theorem contour_marks_at {W : World} {chf : CompactHeightfield} (hG : GoodField W chf) {t : Tests} {maxEdgeLen : Nat} {bf : ContourFlags}
    {set : ContourSet} (hok : chf.buildContours t maxEdgeLen bf = .ok set) {c : Contour} (hc : c ∈ set.contours) {v : U16Vec3}
    (hv : v ∈ c.points) : ∃ x z i s, chf.At x z i s ∧ ProperRegion s.region ∧ W.Marks ⟨x, z, s.y⟩ v := by
  obtain ⟨raw, simplified, _, e2, h3, h4⟩ := c61_vertices chf hG.wf hG.u16 t maxEdgeLen bf set hok c hc
  obtain ⟨u, hu, rfl⟩ := List.mem_map.1 hv
  rw [e2] at hu
  obtain ⟨u0, hu0, rfl⟩ := List.mem_map.1 hu
  obtain ⟨p, hp, e⟩ := h4 u0 hu0
  obtain ⟨area, ⟨i, d⟩, hd, hb, hr⟩ := h3 p hp
  obtain ⟨x, z, s, hat, hpr, _, k2⟩ := marks_of hG hd hb hr
  simp only
  rw [e]
  exact ⟨x, z, i, s, hat, hpr, k2⟩

/-- Every contour point marks a safe spot. -/
theorem contour_marks {W : World} {chf : CompactHeightfield} (hG : GoodField W chf) {t : Tests} {maxEdgeLen : Nat} {bf : ContourFlags}
    {set : ContourSet} (hok : chf.buildContours t maxEdgeLen bf = .ok set) {c : Contour} (hc : c ∈ set.contours) {v : U16Vec3}
    (hv : v ∈ c.points) : ∃ p, W.Safe p ∧ W.Marks p v := by
  obtain ⟨x, z, i, s, hat, hp, hm⟩ := contour_marks_at hG hok hc hv
  exact ⟨_, hG.safe x z i s hat hp, hm⟩

/-- The points of one contour mark spots of one region. -/
theorem contour_region {W : World} {chf : CompactHeightfield} (hG : GoodField W chf) (hsym : chf.SymmetricLinks)
    (hshort : ∀ r v, chf.IsCircuit r v → (∃ s ∈ v, chf.BoundarySide s) → v.length ≤ 40000) {t : Tests} {maxEdgeLen : Nat} {bf : ContourFlags}
    {set : ContourSet} (hok : chf.buildContours t maxEdgeLen bf = .ok set) {c : Contour} (hc : c ∈ set.contours) {v : U16Vec3}
    (hv : v ∈ c.points) : ∃ x z i s, chf.At x z i s ∧ ProperRegion s.region ∧ s.region = c.region ∧ W.Marks ⟨x, z, s.y⟩ v := by
  obtain ⟨outlines, stored, h1, _, _, _, h5, h6⟩ := c61_outlines_partial chf hG.wf hsym hG.u16 hshort t maxEdgeLen bf set hok
  rw [h6, List.mem_filterMap] at hc
  obtain ⟨oc, hoc, ec⟩ := hc
  simp only [id] at ec
  subst ec
  obtain ⟨o, ho, simplified, out, hs, hd, e⟩ := forall₂_mem_right h5 hoc
  split at e
  · cases e
    have hO := h1 o ho
    rw [Contour.points, withoutBorder, List.map_map] at hv
    obtain ⟨u, hu, rfl⟩ := List.mem_map.1 hv
    have hne : o.raw ≠ [] := by
      intro e0
      rw [e0] at hs
      simp only [simplifyContour, initialVertices, extremeVertices, idx] at hs
      simp [bind, Except.bind] at hs
    rw [removeDegenerate_eq] at hd
    cases hd
    have hu' := (degen_sublist simplified.length [] simplified (Nat.le_refl _)).subset hu
    rw [List.nil_append] at hu'
    obtain ⟨p, hp, ep⟩ : ∃ p ∈ o.raw, u.1 = p.1 := by
      rcases c40_terminates t o.raw hne maxEdgeLen bf with ⟨out, e, ho⟩ | ⟨_, e⟩
      · rw [hs] at e; cases e
        obtain ⟨j, p, hp, ev, _⟩ := ho u hu'
        exact ⟨p, List.mem_of_getElem? hp, ev⟩
      · rw [hs] at e; cases e
    obtain ⟨⟨i, d⟩, hside, hr⟩ := forall₂_mem_right hO.raw hp
    unfold CompactHeightfield.boundaryOf at hside
    rw [List.mem_filter] at hside
    obtain ⟨x, z, s, k1, k2, _, k4⟩ := marks_of hG (hO.circuit.dir _ hside.1) (by simpa using hside.2) hr
    refine ⟨x, z, i, s, k1, k2, ?_, ?_⟩
    · obtain ⟨s', e1, e2⟩ := hO.circuit.region _ hside.1
      simp only at e1
      rw [k1.2.2.1] at e1; cases e1
      exact e2
    · simp only [Function.comp]
      rw [ep]
      exact k4
  · cases e

/-- The corners of one polygon stand for spots connected by safe walks. -/
theorem polygon_connected {W : World} {chf : CompactHeightfield} (hG : GoodField W chf) (hsym : chf.SymmetricLinks)
    (hshort : ∀ r v, chf.IsCircuit r v → (∃ s ∈ v, chf.BoundarySide s) → v.length ≤ 40000) {t : Tests} {maxEdgeLen : Nat} {bf : ContourFlags}
    {set : ContourSet} (hok : chf.buildContours t maxEdgeLen bf = .ok set) {fuel nvp : Nat} (h3 : 3 ≤ nvp) (hn : nvp ≤ 65535)
    (hfew : set.NoBorderVertices ∨ set.FewVertices) {poly : PolygonNavmesh} (hm : set.intoPolygonMesh fuel nvp = .ok poly)
    {q : List Nat} (hq : q ∈ poly.polys) : ∃ spots : List Spot, List.Forall₂ (fun i p => ∃ v v', poly.vertices[i]? = some v ∧ Near v v' ∧
      W.Safe p ∧ W.Marks p v') q spots ∧ ∀ p ∈ spots, ∀ p' ∈ spots, W.SafeWalk p p' := by
  obtain ⟨blocks, hB⟩ := c46_mesh set fuel nvp h3 hn hfew poly hm
  rw [hB.polys, List.mem_flatMap] at hq
  obtain ⟨b, hb, hq⟩ := hq
  have hbc : b.contour ∈ set.contours := by
    have : b.contour ∈ blocks.map (·.contour) := List.mem_map_of_mem hb
    rw [hB.contours] at this
    exact (List.mem_filter.1 this).1
  have hM := hB.makes b hb
  have hin := (hM.sizes q hq).2.2
  have each : ∀ i ∈ q, ∃ p : Spot, (∃ v v', poly.vertices[i]? = some v ∧ Near v v' ∧ W.Safe p ∧ W.Marks p v') ∧
      ∃ j s, chf.At p.x p.z j s ∧ s.y = p.y ∧ ProperRegion s.region ∧ s.region = b.contour.region := by
    intro i hi
    obtain ⟨v, hv, w, hw, hnear⟩ := forall₂_mem_right hM.stands (hin i hi)
    obtain ⟨x, z, j, s, k1, k2, k3, k4⟩ := contour_region hG hsym hshort hok hbc (v := v.1) (List.mem_map_of_mem hv)
    exact ⟨⟨x, z, s.y⟩, ⟨w, v.1, hw, hnear, hG.safe x z j s k1 k2, k4⟩, j, s, k1, rfl, k2, k3⟩
  have collect : ∀ l : List Nat, (∀ i ∈ l, i ∈ q) → ∃ spots : List Spot,
      List.Forall₂ (fun i p => ∃ v v', poly.vertices[i]? = some v ∧ Near v v' ∧ W.Safe p ∧ W.Marks p v') l spots ∧
      ∀ p ∈ spots, ∃ j s, chf.At p.x p.z j s ∧ s.y = p.y ∧ ProperRegion s.region ∧ s.region = b.contour.region := by
    intro l
    induction l with
    | nil => intro _; exact ⟨[], .nil, fun p hp => by cases hp⟩
    | cons i l ih =>
      intro hl
      obtain ⟨spots, f1, f2⟩ := ih fun k hk => hl k (by simp [hk])
      obtain ⟨p, p1, p2⟩ := each i (hl i (by simp))
      refine ⟨p :: spots, .cons p1 f1, fun p' hp' => ?_⟩
      rcases List.mem_cons.1 hp' with rfl | h
      · exact p2
      · exact f2 p' h
  obtain ⟨spots, f1, f2⟩ := collect q fun i hi => hi
  refine ⟨spots, f1, fun p hp p' hp' => ?_⟩
  obtain ⟨j, s, a1, a2, a3, a4⟩ := f2 p hp
  obtain ⟨j', s', b1, b2, _, b4⟩ := f2 p' hp'
  have := hG.joined _ _ _ _ _ _ _ _ a1 b1 a3 (b4.trans a4.symm)
  rw [a2, b2] at this
  exact this

end Rerecast
