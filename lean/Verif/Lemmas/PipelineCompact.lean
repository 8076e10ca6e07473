import Verif.Lemmas.PipelineScene
import Verif.Lemmas.PipelineSolid
import Verif.Props.C19_C24_Compact
import Verif.Props.C25_C28_Erosion
import Verif.Props.C34_C39_Regions
/-! From the filtered heightfield to regions: the spans of a region are safe spots. -/
namespace Rerecast
open Relation

theorem mapM_mem {α β : Type} {f : α → Res β} : ∀ {l : List α} {out : List β}, l.mapM f = .ok out → ∀ a ∈ l, ∃ b ∈ out, f a = .ok b := by
  intro l
  induction l with
  | nil => intro _ _ a ha; cases ha
  | cons c l ih =>
    intro out h a ha
    rw [List.mapM_cons] at h
    obtain ⟨b, hb, h⟩ := bind_inv h
    obtain ⟨bs, hbs, h⟩ := bind_inv h
    cases h
    rcases List.mem_cons.1 ha with rfl | ha
    · exact ⟨b, by simp, hb⟩
    · obtain ⟨b', hb', e⟩ := ih hbs a ha
      exact ⟨b', by simp [hb'], e⟩

theorem surfaces_index : ∀ {l : List Solid} {u : Surface}, u ∈ surfaces l → ∃ (j : Nat) (s : Solid), l[j]? = some s ∧ isWalkable s.area = true ∧
    u.floor = s.max ∧ u.clearance = min (bottom (l.drop (j + 1)) - s.max).toNat 255
  | [], _, h => by simp [surfaces] at h
  | s :: l, u, h => by
    have later : u ∈ surfaces l → ∃ (j : Nat) (s' : Solid), (s :: l)[j]? = some s' ∧ isWalkable s'.area = true ∧
        u.floor = s'.max ∧ u.clearance = min (bottom ((s :: l).drop (j + 1)) - s'.max).toNat 255 := by
      intro h
      obtain ⟨j, s', h1, h2⟩ := surfaces_index h
      exact ⟨j + 1, s', h1, h2⟩
    unfold surfaces at h
    split at h
    · rename_i hw
      rcases List.mem_cons.1 h with rfl | h
      · exact ⟨0, s, rfl, hw, rfl, rfl⟩
      · exact later h
    · exact later h

/-- Nothing is inside the cell between the floor `y` and `n` voxels above it. -/
def World.FreeTo (W : World) (n x z y : Nat) : Prop :=
  ∀ t q, W.triangle t → InTriangle t q → InOpenCell W.fr x z q →
    ¬ (y * W.fr.cellHeight < q.y - W.fr.aabb.min.y ∧ q.y - W.fr.aabb.min.y < ((y + n : Nat) : ℚ) * W.fr.cellHeight)

theorem World.FreeTo.shrink {W : World} (hc : 0 < W.fr.cellHeight) {n x z y n' y' : Nat} (h : W.FreeTo n x z y) (h1 : y ≤ y')
    (h2 : y' + n' ≤ y + n) : W.FreeTo n' x z y' := by
  rintro t q ht hq hcell ⟨g1, g2⟩
  refine h t q ht hq hcell ⟨lt_of_le_of_lt ?_ g1, lt_of_lt_of_le g2 ?_⟩
  · exact mul_le_mul_of_nonneg_right (by exact_mod_cast h1) (le_of_lt hc)
  · exact mul_le_mul_of_nonneg_right (by exact_mod_cast h2) (le_of_lt hc)

/-- The spans of a compact field are spots of the world, with the head room stored. -/
structure InWorld (W : World) (chf : CompactHeightfield) : Prop where
  pos : 0 < W.fr.cellHeight
  stand : ∀ x z i s, chf.At x z i s → W.Standing ⟨x, z, s.y⟩ ∧ W.FreeTo s.height x z s.y
  link : ∀ i d k, d < 4 → chf.Link i d k → ∀ x z s x' z' s', chf.At x z i s → chf.At x' z' k s' → W.Step ⟨x, z, s.y⟩ ⟨x', z', s'.y⟩

theorem adjacent_neighbourCell {w h x z d nx nz : Nat} (hn : neighbourCell w h x z d = some (nx, nz)) :
    (z = nz ∧ (x = nx + 1 ∨ nx = x + 1)) ∨ (x = nx ∧ (z = nz + 1 ∨ nz = z + 1)) := by
  unfold neighbourCell at hn
  split at hn <;> split at hn <;> cases hn <;> omega

theorem inWorld_of {F : Type} {env : BuildEnv F} {cfg : Config} {scene : List Affector} {m : TriMesh ℚ} {fr : Frame}
    (hin : InputOf env cfg scene m fr) (hs : fr.Sane) {w h : Nat} (hw : 1 ≤ w ∧ w ≤ 32767) (hh : 1 ≤ h ∧ h ≤ 32767)
    (hnew : fr.buildHeightfield = .ok (Heightfield.new w h)) {hf : Heightfield} (hok : buildSolid cfg m fr = .ok hf)
    (hsm : hf.spanCount < 2 ^ 32) {chf : CompactHeightfield} (hc : hf.intoCompact cfg.walkableHeight cfg.walkableClimb = .ok chf) :
    chf.WellFormed ∧ chf.width = w ∧ chf.height = h ∧ InWorld (World.ofBuild env cfg scene fr w h) chf := by
  have hbox : ∀ v ∈ m.vertices, fr.aabb.Contains v := fun v hv => hin.contains v ((hin.vertices v).1 hv)
  obtain ⟨wf, ew, eh, hcol⟩ := solid_spec hs hw hh hin.wf hbox hnew hok
  have hwf := c20_wellformed hf wf hsm (by omega) (by omega) _ _ chf hc
  obtain ⟨cw, ch, hsurf⟩ := c19_exactly_the_walkable_spans hf wf hsm _ _ chf hc
  have hstand : ∀ x z i s, chf.At x z i s →
      (World.ofBuild env cfg scene fr w h).Standing ⟨x, z, s.y⟩ ∧ (World.ofBuild env cfg scene fr w h).FreeTo s.height x z s.y := by
    intro x z i s hat
    obtain ⟨hx, hz, hsp, cell, hcell, hi⟩ := hat
    rw [cw, ew] at hx
    rw [ch, eh] at hz
    obtain ⟨l, hl, hcs⟩ := hsurf x (by rw [ew]; exact hx) z (by rw [eh]; exact hz)
    rw [ew] at hl hcs
    obtain ⟨l', hl', hgood⟩ := hcol x hx z hz
    rw [hl] at hl'; cases hl'
    rw [cw, ew] at hcell
    rw [CompactHeightfield.cellSurfaces, idx_some hcell, bind_ok] at hcs
    obtain ⟨u, hu, e⟩ := mapM_mem hcs i hi
    rw [idx_some hsp, bind_ok] at e
    obtain ⟨a, ha, e⟩ := bind_inv e
    cases e
    obtain ⟨j, b, hj, hbw, hfl, hcl⟩ := surfaces_index hu
    simp only at hfl hcl
    obtain ⟨hg, hedge⟩ := hgood j b hj hbw
    have hch := hs.cellHeight
    have tri : ∀ t, SceneTriangle scene t → ∃ k, m.corners k = some t := fun t ht => (hin.triangles t).2 ht
    have hfree : (World.ofBuild env cfg scene fr w h).FreeTo (bottom (l.drop (j + 1)) - b.max).toNat x z s.y := by
      rintro t q ht hq hcell ⟨g1, g2⟩
      obtain ⟨k, hk⟩ := tri t ht
      refine hg.free k t q hk hq hcell ⟨?_, ?_⟩
      · rw [← hfl]; exact g1
      · refine lt_of_lt_of_le g2 (mul_le_mul_of_nonneg_right ?_ (le_of_lt hch))
        have hr := hg.room
        have : ((s.y + (bottom (l.drop (j + 1)) - b.max).toNat : Nat) : Int) ≤ bottom (l.drop (j + 1)) := by omega
        exact_mod_cast this
    refine ⟨⟨?_, ?_, ?_, ?_⟩, ?_⟩
    · obtain ⟨h1, k, t, q, e1, e2, e3, e4⟩ := hg.ground
      rw [← hfl] at h1 e4
      exact ⟨h1, t, q, (hin.triangles t).1 ⟨k, e1⟩, e2, e3, e4⟩
    · obtain ⟨k, t, q, ar, e1, e2, e3, e4, e5, e6⟩ := hg.slope
      rw [hin.areas k t e1] at e2
      refine ⟨t, q, (hin.triangles t).1 ⟨k, e1⟩, ?_, e4, e5, by rw [← hfl] at e6; exact e6⟩
      by_contra hcon
      change ¬ env.up cfg.walkableSlopeAngle t.1 t.2.1 t.2.2 = true at hcon
      rw [if_neg hcon] at e2
      cases e2
      exact absurd e3 (by decide)
    · have hr := hg.room
      have : (World.ofBuild env cfg scene fr w h).FreeTo cfg.walkableHeight x z s.y :=
        World.FreeTo.shrink hch hfree (Nat.le_refl _) (by omega)
      exact this
    · rw [← hfl] at hedge
      refine ⟨hedge.inside, fun nx nz ha => ?_⟩
      obtain ⟨v, h1, h2, k, t, q, e1, e2, e3, e4⟩ := hedge.side nx nz ha
      exact ⟨v, h1, h2, t, q, (hin.triangles t).1 ⟨k, e1⟩, e2, e3, e4⟩
    · exact World.FreeTo.shrink hch hfree (Nat.le_refl _) (by rw [hcl]; omega)
  refine ⟨hwf, by rw [cw, ew], by rw [ch, eh], hs.cellHeight, hstand, ?_⟩
  intro i d k hd ⟨x0, z0, hlink⟩ x z s x' z' s' hat hat'
  obtain ⟨s1, l, nx, nz, nb, a1, a2, a3, a4, a5⟩ := hlink
  obtain ⟨rfl, rfl⟩ := CompactHeightfield.at_unique hwf a1
  obtain ⟨rfl, rfl⟩ := CompactHeightfield.at_unique hwf hat
  have es : s1 = s := by
    have := a1.2.2.1
    rw [hat.2.2.1] at this
    cases this; rfl
  subst es
  obtain ⟨nx', nz', nb', t, b1, b2, b3, b4, b5⟩ := c21_connections_sound hf wf hsm _ _ chf hc _ _ i s1 a1 d hd l a2
  rw [a3] at b1; cases b1
  rw [a4] at b2; cases b2
  have hatk : chf.At nx nz k t := by
    have hlt := neighbourCell_lt a1.1 a1.2.1 a3
    refine ⟨hlt.1, hlt.2, by rw [a5]; exact b4, nb, a4, ?_⟩
    simp only [CompactCell.indexRange, List.mem_range'_1]
    omega
  obtain ⟨e1, e2⟩ := CompactHeightfield.at_unique hwf hatk
  obtain ⟨rfl, rfl⟩ := CompactHeightfield.at_unique hwf hat'
  have es : t = s' := by
    have := hatk.2.2.1
    rw [hat'.2.2.1] at this
    cases this; rfl
  subst es
  rw [e1, e2] at a3
  obtain ⟨st1, fr1⟩ := hstand _ _ _ _ hat
  obtain ⟨st2, fr2⟩ := hstand _ _ _ _ hat'
  obtain ⟨c1, c2⟩ := b5
  refine ⟨adjacent_neighbourCell a3, ?_, st1, st2, ?_, ?_⟩
  · change _ ≤ _ + cfg.walkableClimb ∧ _ ≤ _ + cfg.walkableClimb
    simp only
    omega
  · exact World.FreeTo.shrink (n' := cfg.walkableHeight) hs.cellHeight fr1 (by simp only; omega) (by simp only; omega)
  · exact World.FreeTo.shrink (n' := cfg.walkableHeight) hs.cellHeight fr2 (by simp only; omega) (by simp only; omega)

end Rerecast
