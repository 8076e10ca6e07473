import Verif.Lemmas.PipelineMesh
import Verif.Props.C64_C65_Merging
/-! Islands in whole builds. -/
namespace Rerecast
open Relation CompactHeightfield

theorem mapM_get {α β : Type} {f : α → Res β} : ∀ {l : List α} {out : List β}, l.mapM f = .ok out → ∀ (i : Nat) (a : α), l[i]? = some a →
    ∃ b, out[i]? = some b ∧ f a = .ok b := by
  intro l
  induction l with
  | nil => intro _ _ i a ha; simp at ha
  | cons c l ih =>
    intro out h i a ha
    rw [List.mapM_cons] at h
    obtain ⟨b, hb, h⟩ := bind_inv h
    obtain ⟨bs, hbs, h⟩ := bind_inv h
    cases h
    cases i with
    | zero =>
      simp only [List.getElem?_cons_zero, Option.some.injEq] at ha
      subst ha
      exact ⟨b, rfl, hb⟩
    | succ i =>
      simp only [List.getElem?_cons_succ] at ha ⊢
      exact ih hbs i a ha

theorem surfaces_ascending : ∀ {l : List Solid}, Separated l → (∀ s ∈ l, s.min ≤ s.max) → (surfaces l).Pairwise fun a b => a.floor < b.floor
  | [], _, _ => by simp [surfaces]
  | s :: l, hs, hm => by
    have ih := surfaces_ascending (l := l) (List.Pairwise.of_cons hs) fun t ht => hm t (by simp [ht])
    unfold surfaces
    split
    · refine List.pairwise_cons.2 ⟨fun u hu => ?_, ih⟩
      obtain ⟨j, t, hj, _, hf, _⟩ := surfaces_index hu
      have ht := List.mem_of_getElem? hj
      have h1 := (List.pairwise_cons.1 hs).1 t ht
      have h2 := hm t (by simp [ht])
      rw [hf]
      dsimp only
      omega
    · exact ih

/-- Two spans of a cell are at different heights. -/
theorem floors_distinct {hf : Heightfield} (hwf : hf.WellFormed) (hsm : hf.spanCount < 2 ^ 32) {wh climb : Nat} {chf : CompactHeightfield}
    (hok : hf.intoCompact wh climb = .ok chf) {x z i j : Nat} {s t : CompactSpan} (hs : chf.At x z i s) (ht : chf.At x z j t)
    (h : s.y = t.y) : i = j := by
  obtain ⟨cw, ch, hsurf⟩ := c19_exactly_the_walkable_spans hf hwf hsm _ _ chf hok
  obtain ⟨hx, hz, hsp, cell, hcell, hi⟩ := hs
  obtain ⟨_, _, htp, cell', hcell', hj⟩ := ht
  rw [hcell] at hcell'; cases hcell'
  rw [cw] at hx hcell
  rw [ch] at hz
  obtain ⟨l, hl, hcs⟩ := hsurf x hx z hz
  rw [CompactHeightfield.cellSurfaces, idx_some hcell, bind_ok] at hcs
  have hsep : Separated l ∧ ∀ s ∈ l, s.min ≤ s.max := by
    obtain ⟨vis, v1, _, _, _, v5, v6⟩ := hwf.iter
    have hc : x + z * hf.width < hf.width * hf.height := col_lt hx hz
    rw [Heightfield.column, v1 _ hc, bind_ok] at hl
    cases hl
    refine ⟨v5 _ hc, fun s hs => ?_⟩
    obtain ⟨p, hp, rfl⟩ := List.mem_map.1 hs
    exact (v6 _ hc p hp).1
  have hasc := surfaces_ascending hsep.1 hsep.2
  simp only [CompactCell.indexRange, List.mem_range'_1] at hi hj
  have get : ∀ k (u : CompactSpan), chf.spans[k]? = some u → cell.index ≤ k → k < cell.index + cell.count →
      ∃ b, (surfaces l)[k - cell.index]? = some b ∧ b.floor = u.y := by
    intro k u hu h1 h2
    obtain ⟨b, hb, e⟩ := mapM_get hcs (k - cell.index) k (by
      simp only [CompactCell.indexRange]
      rw [List.getElem?_range' (by omega)]
      congr 1; omega)
    rw [idx_some hu, bind_ok] at e
    obtain ⟨a, _, e⟩ := bind_inv e
    cases e
    exact ⟨_, hb, rfl⟩
  obtain ⟨b, hb, eb⟩ := get i s hsp hi.1 hi.2
  obtain ⟨b', hb', eb'⟩ := get j t htp hj.1 hj.2
  obtain ⟨k1, e1⟩ := List.getElem?_eq_some_iff.1 hb
  obtain ⟨k2, e2⟩ := List.getElem?_eq_some_iff.1 hb'
  rcases Nat.lt_trichotomy (i - cell.index) (j - cell.index) with hlt | heq | hlt
  · have := List.pairwise_iff_getElem.1 hasc _ _ k1 k2 hlt
    rw [e1, e2, eb, eb'] at this; omega
  · omega
  · have := List.pairwise_iff_getElem.1 hasc _ _ k2 k1 hlt
    rw [e1, e2, eb, eb'] at this; omega

/-- A span with a region is on ground of at least the minimal size, or on ground that goes on into the border. -/
theorem island_of {F : Type} {env : BuildEnv F} {cfg : Config} {scene : List Affector} {fr : Frame} {w h : Nat}
    (hw : w ≤ 32767) {hf : Heightfield} (hwf : hf.WellFormed) (hsm : hf.spanCount < 2 ^ 32) {c0 : CompactHeightfield}
    (hc : hf.intoCompact cfg.walkableHeight cfg.walkableClimb = .ok c0) (hwf0 : c0.WellFormed) (ew : c0.width = w) (eh : c0.height = h)
    (hin0 : InWorld (World.ofBuild env cfg scene fr w h) c0) (hr : cfg.walkableRadius ≤ 127) {chf : CompactHeightfield}
    (hok : buildCompact cfg hf = .ok chf) (hids : FewRegions cfg hf) {x z i : Nat} {s : CompactSpan} (hat : chf.At x z i s)
    (hp : ProperRegion s.region) (L : List Spot)
    (hL : ∀ q, (World.ofBuild env cfg scene fr w h).RoomyWalk ⟨x, z, s.y⟩ q → q ∈ L) :
    cfg.minRegionArea ≤ L.length ∨
      ∃ q, (World.ofBuild env cfg scene fr w h).RoomyWalk ⟨x, z, s.y⟩ q ∧ (World.ofBuild env cfg scene fr w h).InMargin q := by
  rw [buildCompact, hc, bind_ok] at hok
  obtain ⟨c1, h1, hok⟩ := bind_inv hok
  obtain ⟨c2, h2, h3⟩ := bind_inv hok
  obtain ⟨e1, l1, _⟩ := c25_only_removes c0 hwf0 _ c1 h1
  have k1 : Like c0 c1 := by rw [e1]; exact ⟨rfl, rfl, rfl, rfl⟩
  have hwf1 : c1.WellFormed := by
    rw [e1]
    exact ⟨hwf0.width_u16, hwf0.height_u16, hwf0.cells_len, by simp only; rw [l1]; exact hwf0.areas_len, hwf0.partition, hwf0.con⟩
  have hs1 : c1.width ≤ 32767 ∨ c1.height ≤ 32767 := by rw [k1.width, ew]; exact Or.inl hw
  obtain ⟨_, e2, d2⟩ := c29_no_panic c1 hwf1 hs1 ((c32_succeeds_iff_partial c1 hwf1 hs1).1 ⟨c2, h2⟩)
  rw [h2] at e2; cases e2
  have k2 : Like c1 c2 := by rw [d2]; exact ⟨rfl, rfl, rfl, rfl⟩
  have rd := (ready_of_distance_field c1 hwf1 hs1 c2 h2).1
  obtain ⟨hwalk, e3, m3⟩ := c34_regions_only_on_walkable c2 rd _ _ _ chf h3
  have k3 : Like c2 chf := ⟨by rw [e3], by rw [e3], by rw [e3], m3⟩
  have ka : Like c0 c2 := k1.trans k2
  have ea : c2.areas = c1.areas := by rw [d2]
  have hin2 : InWorld (World.ofBuild env cfg scene fr w h) c2 := ka.inWorld hin0
  have hroomy : ∀ x z k t, c2.At x z k t → c2.WalkableAt k → (World.ofBuild env cfg scene fr w h).Roomy ⟨x, z, t.y⟩ := by
    intro x z k t ht hwk
    refine ⟨(hin2.stand x z k t ht).1, fun dx dz hd => ?_⟩
    have hwk1 : c1.WalkableAt k := by unfold WalkableAt at hwk ⊢; rw [← ea]; exact hwk
    obtain ⟨u, hu, ey, _⟩ := ka.symm.at ht
    obtain ⟨ds, j, hds, hpath, cx, cz, sk, ex, ez, hk⟩ := c26_clearance c0 hwf0 cfg.walkableRadius hr c1 h1 k x z u hu hwk1 dx dz hd
    refine ⟨⟨cx, cz, sk.y⟩, ex, ez, ?_⟩
    have := walk_of_path hwf0 hin0 hds hpath hu hk
    rw [ey] at this
    exact this
  obtain ⟨t0, ht0, ey0, _⟩ := k3.symm.at hat
  have hi : i < c2.spans.length := (List.getElem?_eq_some_iff.1 ht0.2.2.1).1
  -- joined spans are reached by roomy walks
  have hjoin : ∀ k, c2.JoinedWithin c2.WalkableAt i k → c2.WalkableAt k ∧ ∀ x' z' u, c2.At x' z' k u →
      (World.ofBuild env cfg scene fr w h).RoomyWalk ⟨x, z, s.y⟩ ⟨x', z', u.y⟩ := by
    intro k hk
    induction hk with
    | refl hg =>
      refine ⟨hg, fun x' z' u hu => ?_⟩
      obtain ⟨rfl, rfl⟩ := at_unique rd.wf ht0
      obtain ⟨rfl, rfl⟩ := at_unique rd.wf hu
      have e := ht0.2.2.1
      rw [hu.2.2.1] at e; cases e
      rw [← ey0]
      exact ReflTransGen.refl
    | @step j k d hj hg hd hl ih =>
      refine ⟨hg, fun x' z' u hu => ?_⟩
      have hjl : j < c2.spans.length := by
        have := ih.1
        unfold WalkableAt at this
        obtain ⟨a, ha, _⟩ := this
        have := (List.getElem?_eq_some_iff.1 ha).1
        rw [rd.wf.areas_len] at this
        exact this
      have hatj := at_spec rd.wf (List.getElem?_eq_getElem hjl)
      refine ReflTransGen.tail (ih.2 _ _ _ hatj) ⟨?_, hroomy _ _ _ _ hatj ih.1, hroomy _ _ _ _ hu hg⟩
      rcases hl with hl | hl
      · exact hin2.link _ d _ hd hl _ _ _ _ _ _ hatj hu
      · exact (hin2.link _ d _ hd hl _ _ _ _ _ _ hu hatj).symm
  by_contra hcon
  rw [not_or] at hcon
  obtain ⟨hsmall, hno⟩ := hcon
  classical
  let J := (List.range c2.spans.length).filter fun k => c2.JoinedWithin c2.WalkableAt i k
  have hJ : ∀ k, c2.JoinedWithin c2.WalkableAt i k → k ∈ J := by
    intro k hk
    refine List.mem_filter.2 ⟨List.mem_range.2 ?_, by simpa using hk⟩
    have := (hjoin k hk).1
    unfold WalkableAt at this
    obtain ⟨a, ha, _⟩ := this
    have := (List.getElem?_eq_some_iff.1 ha).1
    rw [rd.wf.areas_len] at this
    exact this
  let f : Nat → Spot := fun k => ⟨c2.xOf k, c2.zOf k, ((c2.spans[k]?).map (·.y)).getD 0⟩
  have hatk : ∀ k ∈ J, ∃ u, c2.At (c2.xOf k) (c2.zOf k) k u ∧ f k = ⟨c2.xOf k, c2.zOf k, u.y⟩ := by
    intro k hk
    have hkl := List.mem_range.1 (List.mem_filter.1 hk).1
    refine ⟨_, at_spec rd.wf (List.getElem?_eq_getElem hkl), ?_⟩
    simp only [f, List.getElem?_eq_getElem hkl, Option.map_some, Option.getD_some]
  have hnd : (J.map f).Nodup := by
    refine List.Nodup.map_on ?_ (List.nodup_range.filter _)
    intro a ha b hb hab
    obtain ⟨u, hu, eu⟩ := hatk a ha
    obtain ⟨v, hv, ev⟩ := hatk b hb
    rw [eu, ev] at hab
    simp only [Spot.mk.injEq] at hab
    obtain ⟨u0, hu0, yu, _⟩ := ka.symm.at hu
    obtain ⟨v0, hv0, yv, _⟩ := ka.symm.at hv
    rw [← hab.1, ← hab.2.1] at hv0
    exact floors_distinct hwf hsm hc hu0 hv0 (by rw [yu, yv]; exact hab.2.2)
  have hsub : J.map f ⊆ L := by
    intro q hq
    obtain ⟨k, hk, rfl⟩ := List.mem_map.1 hq
    obtain ⟨u, hu, eu⟩ := hatk k hk
    rw [eu]
    exact hL _ ((hjoin k (by simpa using (List.mem_filter.1 hk).2)).2 _ _ _ hu)
  have hle : J.length ≤ L.length := by
    have := (hnd.subperm hsub).length_le
    simpa using this
  have hnone : s.region = REGION_NONE := c65_small_islands_removed c2 rd _ _ _ chf h3 (fun reg next e => hids c0 c1 c2 reg next hc h1 h2 e) i J hJ
    (by omega) (fun j hj hb => by
      obtain ⟨x', z', u, hu, hbd⟩ := hb
      refine hno ⟨_, (hjoin j hj).2 _ _ _ hu, ?_⟩
      have hcb : (World.ofBuild env cfg scene fr w h).border = cfg.borderSize := rfl
      have hcw : (World.ofBuild env cfg scene fr w h).width = w := rfl
      have hch : (World.ofBuild env cfg scene fr w h).depth = h := rfl
      unfold World.InMargin
      rw [hcb, hcw, hch]
      rw [ka.width, ka.height, ew, eh] at hbd
      dsimp only
      omega) s.region ⟨s, hat.2.2.1, rfl⟩
  exact hp.1 hnone

end Rerecast
