import Verif.Lemmas.PipelineCompact
import Verif.Spec.Outline
/-! From the compact heightfield to its regions: the spans with a region are safe spots. -/
namespace Rerecast
open Relation CompactHeightfield

/-- The same spans in the same cells, up to regions. -/
structure Like (a b : CompactHeightfield) : Prop where
  width : b.width = a.width
  height : b.height = a.height
  cells : b.cells = a.cells
  spans : b.spans.map (fun s => { s with region := 0 }) = a.spans.map (fun s => { s with region := 0 })

namespace Like

theorem trans {a b c : CompactHeightfield} (h : Like a b) (g : Like b c) : Like a c :=
  ⟨g.width.trans h.width, g.height.trans h.height, g.cells.trans h.cells, g.spans.trans h.spans⟩

theorem symm {a b : CompactHeightfield} (h : Like a b) : Like b a := ⟨h.width.symm, h.height.symm, h.cells.symm, h.spans.symm⟩

variable {a b : CompactHeightfield} (h : Like a b)
include h

theorem span {i : Nat} {s : CompactSpan} (hs : a.spans[i]? = some s) : ∃ t, b.spans[i]? = some t ∧ t.y = s.y ∧ t.data = s.data := by
  have e := congrArg (fun l => l[i]?) h.spans
  simp only [List.getElem?_map, hs] at e
  cases hb : b.spans[i]? with
  | none => rw [hb] at e; cases e
  | some t =>
    rw [hb] at e
    simp only [Option.map_some, Option.some.injEq, CompactSpan.mk.injEq] at e
    exact ⟨t, rfl, e.1, e.2.2⟩

theorem «at» {x z i : Nat} {s : CompactSpan} (hs : a.At x z i s) : ∃ t, b.At x z i t ∧ t.y = s.y ∧ t.data = s.data := by
  obtain ⟨h1, h2, h3, cell, h4, h5⟩ := hs
  obtain ⟨t, e, e1, e2⟩ := h.span h3
  exact ⟨t, ⟨by rw [h.width]; exact h1, by rw [h.height]; exact h2, e, cell, by rw [h.cells, h.width]; exact h4, h5⟩, e1, e2⟩

theorem connects {x z i d k : Nat} (hc : a.Connects x z i d k) : b.Connects x z i d k := by
  obtain ⟨s, l, nx, nz, nb, h1, h2, h3, h4, h5⟩ := hc
  obtain ⟨t, e, _, e2⟩ := h.at h1
  refine ⟨t, l, nx, nz, nb, e, ?_, by rw [h.width, h.height]; exact h3, by rw [h.cells, h.width]; exact h4, h5⟩
  rw [← h2]
  unfold CompactSpan.con
  rw [e2]

theorem link {i d k : Nat} (hl : a.Link i d k) : b.Link i d k := by
  obtain ⟨x, z, hc⟩ := hl
  exact ⟨x, z, h.connects hc⟩

theorem inWorld {W : World} (hw : InWorld W a) : InWorld W b := by
  refine ⟨hw.pos, ?_, ?_⟩
  · intro x z i s hs
    obtain ⟨t, e, e1, e2⟩ := h.symm.at hs
    have := hw.stand x z i t e
    rw [e1] at this
    refine ⟨this.1, ?_⟩
    have eh : s.height = t.height := by unfold CompactSpan.height; rw [e2]
    rw [eh]
    exact this.2
  · intro i d k hd hl x z s x' z' s' hs hs'
    obtain ⟨t, e, e1, _⟩ := h.symm.at hs
    obtain ⟨t', e', e1', _⟩ := h.symm.at hs'
    have := hw.link i d k hd (h.symm.link hl) x z t x' z' t' e e'
    rw [e1, e1'] at this
    exact this

end Like

theorem Like.refl (a : CompactHeightfield) : Like a a := ⟨rfl, rfl, rfl, rfl⟩

/-- A path over reported neighbours is a walk. -/
theorem walk_of_path {W : World} {chf : CompactHeightfield} (hwf : chf.WellFormed) (hw : InWorld W chf) {G : Nat → Prop} :
    ∀ {ds : List Nat} {i k : Nat}, (∀ d ∈ ds, d < 4) → chf.PathThrough G i ds k → ∀ {x z x' z' : Nat} {s s' : CompactSpan},
      chf.At x z i s → chf.At x' z' k s' → W.CanWalk ⟨x, z, s.y⟩ ⟨x', z', s'.y⟩ := by
  intro ds
  induction ds with
  | nil =>
    intro i k _ hp x z x' z' s s' hs hs'
    obtain ⟨rfl, _⟩ := hp
    obtain ⟨rfl, rfl⟩ := at_unique hwf hs
    obtain ⟨rfl, rfl⟩ := at_unique hwf hs'
    have e := hs.2.2.1
    rw [hs'.2.2.1] at e; cases e
    exact ReflTransGen.refl
  | cons d ds ih =>
    intro i k hd hp x z x' z' s s' hs hs'
    obtain ⟨_, j, hl, hp⟩ := hp
    have hj : j < chf.spans.length := (nbr_lt hwf (hd d (by simp)) ((nbr_iff_link hwf (hd d (by simp))).2 hl)).2
    have hat := at_spec hwf (List.getElem?_eq_getElem hj)
    exact ReflTransGen.head (hw.link i d j (hd d (by simp)) hl _ _ _ _ _ _ hs hat) (ih (fun d hd' => hd d (by simp [hd'])) hp hat hs')

theorem World.Step.symm {W : World} {a b : Spot} (h : W.Step a b) : W.Step b a := by
  refine ⟨?_, h.climb.symm, h.after, h.before, ?_, ?_⟩
  · have := h.adjacent; omega
  · rw [Nat.max_comm]; exact h.room.2
  · rw [Nat.max_comm]; exact h.room.1

/-- The field a build cuts contours from. -/
structure GoodField (W : World) (chf : CompactHeightfield) : Prop where
  wf : chf.WellFormed
  width : chf.width = W.width
  height : chf.height = W.depth
  border : chf.borderSize = W.border
  u16 : ∀ s ∈ chf.spans, s.region < 65536
  inWorld : InWorld W chf
  safe : ∀ x z i s, chf.At x z i s → ProperRegion s.region → W.Safe ⟨x, z, s.y⟩
  joined : ∀ x z i s x' z' i' s', chf.At x z i s → chf.At x' z' i' s' → ProperRegion s.region → s'.region = s.region →
    W.SafeWalk ⟨x, z, s.y⟩ ⟨x', z', s'.y⟩

theorem goodField_of {F : Type} {env : BuildEnv F} {cfg : Config} {scene : List Affector} {fr : Frame} {w h : Nat}
    (hw : w ≤ 32767) {hf : Heightfield} {c0 : CompactHeightfield}
    (hc : hf.intoCompact cfg.walkableHeight cfg.walkableClimb = .ok c0) (hwf0 : c0.WellFormed) (ew : c0.width = w) (eh : c0.height = h)
    (hin0 : InWorld (World.ofBuild env cfg scene fr w h) c0) (hr : cfg.walkableRadius ≤ 127) {chf : CompactHeightfield}
    (hok : buildCompact cfg hf = .ok chf) : GoodField (World.ofBuild env cfg scene fr w h) chf ∧ Like c0 chf := by
  rw [buildCompact, hc, bind_ok] at hok
  obtain ⟨c1, h1, hok⟩ := bind_inv hok
  obtain ⟨c2, h2, h3⟩ := bind_inv hok
  obtain ⟨e1, l1, _⟩ := c25_only_removes c0 hwf0 _ c1 h1
  have k1 : Like c0 c1 := by rw [e1]; exact ⟨rfl, rfl, rfl, rfl⟩
  have hwf1 : c1.WellFormed := by
    rw [e1]
    exact ⟨hwf0.width_u16, hwf0.height_u16, hwf0.cells_len, by simp only; rw [l1]; exact hwf0.areas_len, hwf0.partition, hwf0.con⟩
  have hs1 : c1.width ≤ 32767 ∨ c1.height ≤ 32767 := by rw [k1.width, ew]; exact Or.inl hw
  obtain ⟨_, e2, d2⟩ := c29_no_panic c1 hwf1 hs1 ((c32_succeeds_iff_partial c1 hwf1 hs1).1 ⟨c2, h2⟩)
  rw [h2] at e2; cases e2
  have k2 : Like c1 c2 := by rw [d2]; exact ⟨rfl, rfl, rfl, rfl⟩
  have rd := (ready_of_distance_field c1 hwf1 hs1 c2 h2).1
  obtain ⟨hwalk, e3, m3⟩ := c34_regions_only_on_walkable c2 rd _ _ _ chf h3
  have k3 : Like c2 chf := ⟨by rw [e3], by rw [e3], by rw [e3], m3⟩
  have ka : Like c0 c2 := k1.trans k2
  have kall := ka.trans k3
  have ea : c2.areas = c1.areas := by rw [d2]
  have hlen : chf.spans.length = c2.spans.length := by simpa using congrArg List.length m3
  have hwf3 : chf.WellFormed := by
    have g := rd.wf
    refine ⟨by rw [k3.width]; exact g.width_u16, by rw [k3.height]; exact g.height_u16, by rw [k3.cells, k3.width, k3.height]; exact g.cells_len,
      ?_, by rw [k3.cells, hlen]; exact g.partition, ?_⟩
    · rw [hlen, show chf.areas = c2.areas by rw [e3]]; exact g.areas_len
    · intro x hx z hz cell hcell i hi s hs d hd k hk
      rw [k3.width] at hx hcell ⊢
      rw [k3.height] at hz ⊢
      rw [k3.cells] at hcell ⊢
      obtain ⟨t, ht, _, ht2⟩ := k3.symm.span hs
      exact g.con x hx z hz cell hcell i hi t ht d hd k (by rw [← hk]; unfold CompactSpan.con; rw [ht2])
  have hin : InWorld (World.ofBuild env cfg scene fr w h) chf := kall.inWorld hin0
  have hregion : ∀ x z i s, chf.At x z i s → chf.RegionOf i s.region := fun x z i s hs => ⟨s, hs.2.2.1, rfl⟩
  have hsafe : ∀ x z i s, chf.At x z i s → ProperRegion s.region → (World.ofBuild env cfg scene fr w h).Safe ⟨x, z, s.y⟩ := by
    intro x z i s hs hp
    have hwk := hwalk i s.region (hregion x z i s hs) hp.1
    obtain ⟨t, ht, ey, _⟩ := kall.symm.at hs
    obtain ⟨t2, ht2, _, _⟩ := k3.symm.at hs
    refine ⟨(hin.stand x z i s hs).1, ?_, ?_⟩
    · change cfg.borderSize ≤ x ∧ x + cfg.borderSize < w ∧ cfg.borderSize ≤ z ∧ z + cfg.borderSize < h
      by_contra hcon
      have hb := c37_border_painted c2 rd _ _ _ chf h3 i s.region (hregion x z i s hs) hwk ⟨x, z, t2, ht2, ?_⟩
      · rw [hp.2] at hb; cases hb
      · rw [ka.width, ka.height, ew, eh]; omega
    · intro dx dz hd
      have hwk1 : c1.WalkableAt i := by unfold WalkableAt at hwk ⊢; rw [← ea]; exact hwk
      obtain ⟨ds, k, hds, hpath, cx, cz, sk, ex, ez, hk⟩ := c26_clearance c0 hwf0 cfg.walkableRadius hr c1 h1 i x z t ht hwk1 dx dz hd
      refine ⟨⟨cx, cz, sk.y⟩, ex, ez, ?_⟩
      have := walk_of_path hwf0 hin0 hds hpath ht hk
      rw [ey] at this
      exact this
  refine ⟨⟨hwf3, by rw [kall.width, ew]; rfl, by rw [kall.height, eh]; rfl, by rw [e3]; rfl, ?_, hin, hsafe, ?_⟩, kall⟩
  · intro s hs
    obtain ⟨i, hi⟩ := List.mem_iff_getElem?.1 hs
    exact ((c36_ids_bounded c2 rd _ _ _ chf h3).2 i s.region ⟨s, hi, rfl⟩).1
  · intro x z i s x' z' i' s' hs hs' hp hr
    have hj := c62_regions_connected c2 rd _ _ _ chf h3 i i' s.region hp (hregion x z i s hs) (by rw [← hr]; exact hregion _ _ _ _ hs')
    have key : ∀ k, c2.JoinedWithin (fun a => chf.RegionOf a s.region) i k → chf.RegionOf k s.region ∧ ∀ x' z' s', chf.At x' z' k s' →
        (World.ofBuild env cfg scene fr w h).SafeWalk ⟨x, z, s.y⟩ ⟨x', z', s'.y⟩ := by
      intro k hk
      induction hk with
      | refl hg =>
        refine ⟨hg, fun x' z' s' hs' => ?_⟩
        obtain ⟨rfl, rfl⟩ := at_unique hwf3 hs
        obtain ⟨rfl, rfl⟩ := at_unique hwf3 hs'
        have e := hs.2.2.1
        rw [hs'.2.2.1] at e; cases e
        exact ReflTransGen.refl
      | @step j k d hj hg hd hl ih =>
        refine ⟨hg, fun x' z' s' hs' => ?_⟩
        obtain ⟨sj, hsj, ej⟩ := ih.1
        obtain ⟨sk, hsk, ek⟩ := hg
        rw [hs'.2.2.1] at hsk; cases hsk
        have hatj := at_spec hwf3 hsj
        refine ReflTransGen.tail (ih.2 _ _ _ hatj) ⟨?_, hsafe _ _ _ _ hatj (by rw [ej]; exact hp), hsafe _ _ _ _ hs' (by rw [ek]; exact hp)⟩
        rcases hl with hl | hl
        · exact hin.link _ d _ hd (k3.link hl) _ _ _ _ _ _ hatj hs'
        · exact (hin.link _ d _ hd (k3.link hl) _ _ _ _ _ _ hs' hatj).symm
    exact (key i' hj).2 _ _ _ hs'

end Rerecast
