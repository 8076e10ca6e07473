import Verif.Spec.Coverage
import Verif.Lemmas.PipelineIslands
/-! Firm spots get spans, and with enough room around them regions. -/
namespace Rerecast
open Heightfield

theorem openings_geom : ∀ {l l' : List Solid}, geom l' = geom l → openings l' = openings l
  | [], [], _ => rfl
  | [], _ :: _, h => by simp [geom] at h
  | _ :: _, [], h => by simp [geom] at h
  | a :: l, b :: l', h => by
    have h' : geom l' = geom l := by simp only [geom, List.map_cons, List.cons.injEq] at h; exact h.2
    have e : b.max = a.max := by
      simp only [geom, List.map_cons, List.cons.injEq, Prod.mk.injEq] at h
      exact h.1.2
    rw [openings, openings, openings_geom h', bottom_geom h', e]

/-- The ledge test depends on the shapes of the neighbouring columns only. -/
theorem ledge_geom {height climb : Nat} {nbr nbr' : Nat → Option (List Solid)} {f c : Int} (hg : ∀ d, (nbr' d).map geom = (nbr d).map geom)
    (h : IsLedgeSpec height climb nbr' f c) : IsLedgeSpec height climb nbr f c := by
  have get : ∀ d l', nbr' d = some l' → ∃ l, nbr d = some l ∧ geom l' = geom l := by
    intro d l' e
    have := hg d
    rw [e] at this
    cases e' : nbr d with
    | none => rw [e'] at this; cases this
    | some l =>
      rw [e'] at this
      exact ⟨l, rfl, by simpa using this⟩
  have pass : ∀ nf, Passable height nbr' f c nf → Passable height nbr f c nf := by
    rintro nf ⟨d, hd, l', e, nc, hm, hs⟩
    obtain ⟨l, e', g⟩ := get d l' e
    exact ⟨d, hd, l, e', nc, by rw [← openings_geom g]; exact hm, hs⟩
  rcases h with ⟨d, hd, h⟩ | ⟨nf, h1, h2⟩ | ⟨a, b, h1, h2, h3⟩
  · refine Or.inl ⟨d, hd, ?_⟩
    unfold VoidSide at h ⊢
    cases e : nbr' d with
    | none =>
      have := hg d
      rw [e] at this
      cases e' : nbr d with
      | none => trivial
      | some l => rw [e'] at this; cases this
    | some l' =>
      obtain ⟨l, e', g⟩ := get d l' e
      rw [e] at h
      rw [e']
      simp only at h ⊢
      rw [← bottom_geom g]; exact h
  · exact Or.inr (Or.inl ⟨nf, pass nf h1, h2⟩)
  · exact Or.inr (Or.inr ⟨a, b, h1.imp id fun h => ⟨pass a h.1, h.2⟩, h2.imp id fun h => ⟨pass b h.1, h.2⟩, h3⟩)

/-- Blocks that the rasterizer makes walkable stay so if they have room and are no ledges. -/
theorem solid_keeps {fr : Frame} (hs : fr.Sane) {w h : Nat} (hw : 1 ≤ w ∧ w ≤ 32767) (hh : 1 ≤ h ∧ h ≤ 32767) {m : TriMesh ℚ} (hm : m.WF)
    (hbox : ∀ v ∈ m.vertices, fr.aabb.Contains v) (hnew : fr.buildHeightfield = .ok (Heightfield.new w h)) {cfg : Config} {hf : Heightfield}
    (hok : buildSolid cfg m fr = .ok hf) :
    ∃ hf1 : Heightfield, hf1.width = w ∧ hf1.height = h ∧ ∀ x < w, ∀ z < h, ∃ l l1, hf.column (x + z * w) = .ok l ∧
      hf1.column (x + z * w) = .ok l1 ∧ RasterCol fr m x z l1 ∧ geom l = geom l1 ∧
      (∀ (j : Nat) (s : Solid), l1[j]? = some s → isWalkable s.area = true →
        (cfg.walkableHeight : Int) ≤ bottom (l1.drop (j + 1)) - s.max →
        ¬ IsLedgeSpec cfg.walkableHeight cfg.walkableClimb (neighbours hf1 x z) s.max (bottom (l1.drop (j + 1))) →
        ∃ s', l[j]? = some s' ∧ isWalkable s'.area = true ∧ s'.max = s.max) ∧
      ∀ s ∈ l, isWalkable s.area = true → ∃ s1 ∈ l1, s1.area = s.area := by
  obtain ⟨hf1, r1, wf1, w1, h1, c1⟩ := raster_spec hs hw hh hm hbox cfg.walkableClimb
  rw [buildSolid, hnew, bind_ok, r1, bind_ok] at hok
  obtain ⟨hf2, r2, hok⟩ := bind_inv hok
  obtain ⟨hf3, r3, r4⟩ := bind_inv hok
  obtain ⟨_, e2, wf2, w2, h2, g2⟩ := c15_filters_keep_geometry hf1 wf1 cfg.walkableHeight cfg.walkableClimb _ (List.mem_cons_self ..)
  rw [r2] at e2; cases e2
  obtain ⟨_, e3, wf3, w3, h3, g3⟩ := c15_filters_keep_geometry hf2 wf2 cfg.walkableHeight cfg.walkableClimb
    (hf2.filterLedgeSpans cfg.walkableHeight cfg.walkableClimb) (by simp)
  rw [r3] at e3; cases e3
  obtain ⟨_, e4, wf4, w4, h4, g4⟩ := c15_filters_keep_geometry hf3 wf3 cfg.walkableHeight cfg.walkableClimb
    (hf3.filterWalkableLowHeightSpans cfg.walkableHeight) (by simp)
  rw [r4] at e4; cases e4
  obtain ⟨_, e2, k2⟩ := c16_low_hanging hf1 wf1 cfg.walkableClimb
  rw [r2] at e2; cases e2
  obtain ⟨_, e3, k3⟩ := c17_ledge_verdict hf2 wf2 cfg.walkableHeight cfg.walkableClimb
  rw [r3] at e3; cases e3
  obtain ⟨_, e4, k4⟩ := c18_head_room hf3 wf3 cfg.walkableHeight
  rw [r4] at e4; cases e4
  rw [w1] at w2 g2 k2
  rw [h1] at h2 g2 k2
  rw [w2] at w3 g3 k3
  rw [h2] at h3 g3 k3
  rw [w3] at w4 g4 k4
  rw [h3] at h4 g4 k4
  refine ⟨hf1, w1, h1, fun x hx z hz => ?_⟩
  obtain ⟨l1, a1, hl1⟩ := c1 x hx z hz
  obtain ⟨_, l2, b1, a2, gg2⟩ := g2 x hx z hz
  rw [a1] at b1; cases b1
  obtain ⟨_, l3, b2, a3, gg3⟩ := g3 x hx z hz
  rw [a2] at b2; cases b2
  obtain ⟨_, l4, b3, a4, gg4⟩ := g4 x hx z hz
  rw [a3] at b3; cases b3
  obtain ⟨_, _, b1, b2, ln2, z2, q2⟩ := k2 x hx z hz
  rw [a1] at b1; cases b1
  rw [a2] at b2; cases b2
  obtain ⟨_, _, b2, b3, ln3, q3⟩ := k3 x hx z hz
  rw [a2] at b2; cases b2
  rw [a3] at b3; cases b3
  obtain ⟨_, _, b3, b4, ln4, q4⟩ := k4 x hx z hz
  rw [a3] at b3; cases b3
  rw [a4] at b4; cases b4
  refine ⟨l4, l1, a4, a1, hl1, gg4.trans (gg3.trans gg2), fun j s hj hwk hroom hnl => ?_, fun s4 hs4 hwk => ?_⟩
  rotate_left
  · obtain ⟨j, hj⟩ := List.getElem?_of_mem hs4
    have hlt : j < l4.length := (List.getElem?_eq_some_iff.1 hj).1
    have i3 : l3[j]? = some (l3[j]'(by omega)) := List.getElem?_eq_getElem (by omega)
    have i2 : l2[j]? = some (l2[j]'(by omega)) := List.getElem?_eq_getElem (by omega)
    have i1 : l1[j]? = some (l1[j]'(by omega)) := List.getElem?_eq_getElem (by omega)
    generalize l3[j]'(by omega) = s3 at i3
    generalize l2[j]'(by omega) = s2 at i2
    generalize l1[j]'(by omega) = s1 at i1
    have e43 := (q4 j s3 s4 i3 hj).2.2.2 hwk
    rw [e43] at hwk ⊢
    have e32 : s3.area = s2.area := by
      have := q3 j s2 i2
      rw [i3] at this
      simp only [Option.some.injEq] at this
      subst this
      split at hwk
      · simp [isWalkable] at hwk
      · rename_i hnl
        rw [if_neg hnl]
    rw [e32]
    cases j with
    | zero =>
      rw [i1, i2] at z2
      cases z2
      exact ⟨_, List.mem_of_getElem? i1, rfl⟩
    | succ j =>
      have hlt1 : j < l1.length := by omega
      have ip : l1[j]? = some l1[j] := List.getElem?_eq_getElem hlt1
      have := q2 j _ s1 ip i1
      rw [i2] at this
      simp only [Option.some.injEq] at this
      split at this
      · subst this
        exact ⟨_, List.mem_of_getElem? ip, rfl⟩
      · subst this
        exact ⟨_, List.mem_of_getElem? i1, rfl⟩
  have hlt : j < l1.length := (List.getElem?_eq_some_iff.1 hj).1
  have i2 : l2[j]? = some s := by
    cases j with
    | zero => rw [z2]; exact hj
    | succ j =>
      have ip : l1[j]? = some l1[j] := List.getElem?_eq_getElem (by omega)
      rw [q2 j _ s ip hj, if_neg]
      rintro ⟨hc, _⟩
      rw [hwk] at hc; cases hc
  have bot2 : bottom (l2.drop (j + 1)) = bottom (l1.drop (j + 1)) := bottom_geom (geom_drop gg2 _)
  have bot3 : bottom (l3.drop (j + 1)) = bottom (l1.drop (j + 1)) := by rw [bottom_geom (geom_drop gg3 _), bot2]
  have i3 : l3[j]? = some s := by
    rw [q3 j s i2, if_neg]
    intro hl
    rw [bot2] at hl
    refine hnl (ledge_geom (fun d => ?_) hl)
    unfold neighbours
    rw [w2, h2, w1, h1]
    cases e : neighbourCell w h x z d with
    | none => rfl
    | some p =>
      have hlt := neighbourCell_lt hx hz e
      obtain ⟨u, v, hu, hv, g⟩ := g2 p.1 hlt.1 p.2 hlt.2
      simp only [hu, hv]
      simpa [Except.toOption] using g
  have i4 : l4[j]? = some (l4[j]'(by omega)) := List.getElem?_eq_getElem (by omega)
  obtain ⟨_, e, g, _⟩ := q4 j s _ i3 i4
  exact ⟨_, i4, g.2 ⟨hwk, by rw [bot3]; exact hroom⟩, e⟩

/-- A rasterized column, described by the world. -/
structure WorldCol (W : World) (x z : Nat) (l : List Solid) : Prop where
  sep : Separated l
  strict : ∀ s ∈ l, s.min < s.max
  sound : ∀ v, Occupied l v → W.Possibly x z v
  sure : ∀ v, W.Surely x z v → Occupied l v
  area : ∀ s ∈ l, ∃ t q, W.triangle t ∧ InTriangle t q ∧ InCell W.fr x z q ∧ q.y - W.fr.aabb.min.y ≤ s.max * W.fr.cellHeight ∧
    s.min * W.fr.cellHeight ≤ q.y - W.fr.aabb.min.y ∧ (W.slope t.1 t.2.1 t.2.2 = true → isWalkable s.area = true)

theorem worldCol_of {F : Type} {env : BuildEnv F} {cfg : Config} {scene : List Affector} {m : TriMesh ℚ} {fr : Frame}
    (hin : InputOf env cfg scene m fr) {w h x z : Nat} {l : List Solid} (hl : RasterCol fr m x z l) :
    WorldCol (World.ofBuild env cfg scene fr w h) x z l := by
  refine ⟨hl.sep, hl.strict, ?_, ?_, ?_⟩
  · intro v hv
    obtain ⟨k, t, q, h1, h2, h3, h4⟩ := hl.sound v hv
    exact ⟨t, q, (hin.triangles t).1 ⟨k, h1⟩, h2, h3, h4⟩
  · rintro v ⟨t, q, h1, h2, h3, h4, h5⟩
    obtain ⟨k, hk⟩ := (hin.triangles t).2 h1
    obtain ⟨v', ho, hv'⟩ := hl.cover k t q hk h2 h3
    rw [h5 v' hv'] at ho
    exact ho
  · intro s hs
    obtain ⟨k, t, q, h1, h2, h3, h4, h5, h6⟩ := hl.area s hs
    refine ⟨t, q, (hin.triangles t).1 ⟨k, h1⟩, h3, h4, h5, h6, fun hsl => ?_⟩
    rw [hin.areas k t h1] at h2
    change env.up cfg.walkableSlopeAngle t.1 t.2.1 t.2.2 = true at hsl
    rw [if_pos hsl] at h2
    rw [← Option.some.inj h2]
    decide

theorem solid_unique {l : List Solid} (hsep : Separated l) {s t : Solid} (hs : s ∈ l) (ht : t ∈ l) (hst : s.min < s.max) (htt : t.min < t.max)
    {v : Nat} (h1 : s.min ≤ v) (h2 : v ≤ s.max) (h3 : t.min ≤ v) (h4 : v ≤ t.max) : s = t := by
  obtain ⟨i, hi, rfl⟩ := List.getElem_of_mem hs
  obtain ⟨j, hj, rfl⟩ := List.getElem_of_mem ht
  rcases Nat.lt_trichotomy i j with hlt | rfl | hlt
  · have := List.pairwise_iff_getElem.1 hsep i j hi hj hlt
    omega
  · rfl
  · have := List.pairwise_iff_getElem.1 hsep j i hj hi hlt
    omega

/-- What is free above a block is below the next one. -/
theorem le_bottom {l : List Solid} (hsep : Separated l) (hst : ∀ s ∈ l, s.min < s.max) {j : Nat} {s : Solid} (hj : l[j]? = some s) {n : Nat}
    (hn : n ≤ 65535) (hfree : ∀ v, s.max ≤ v → v < n → ¬ Occupied l v) : (n : Int) ≤ bottom (l.drop (j + 1)) := by
  cases e : l.drop (j + 1) with
  | nil => simp only [bottom]; omega
  | cons b r =>
    simp only [bottom]
    have hb : l[j + 1]? = some b := by
      have : (l.drop (j + 1))[0]? = some b := by rw [e]; rfl
      rw [List.getElem?_drop] at this
      simpa using this
    obtain ⟨i1, rfl⟩ := List.getElem?_eq_some_iff.1 hb
    obtain ⟨i2, rfl⟩ := List.getElem?_eq_some_iff.1 hj
    have h1 := List.pairwise_iff_getElem.1 hsep j (j + 1) i2 i1 (by omega)
    have h2 := hst l[j + 1] (List.getElem_mem _)
    by_contra hcon
    exact hfree l[j + 1].min (by omega) (by omega) ⟨_, List.getElem_mem i1, Nat.le_refl _, h2⟩

/-- On a firm spot there is a walkable block. -/
theorem firm_block {W : World} {p : Spot} (hp : W.Firm p) (hH : 1 ≤ W.agentHeight) {l : List Solid} (hl : WorldCol W p.x p.z l)
    (hpos : 0 < W.fr.cellHeight) : ∃ (j : Nat) (s : Solid), l[j]? = some s ∧ s.max = p.y ∧ isWalkable s.area = true := by
  obtain ⟨h1, h2⟩ := hp.ground
  obtain ⟨s, hs, h3, h4⟩ := hl.sure _ h2
  have hmax : s.max = p.y := by
    by_contra hcon
    exact hp.room.2 p.y (Nat.le_refl _) (by omega) (hl.sound _ ⟨s, hs, by omega, by omega⟩)
  obtain ⟨j, hj⟩ := List.getElem?_of_mem hs
  refine ⟨j, s, hj, hmax, ?_⟩
  obtain ⟨g, hg, hg0, hslope⟩ := hp.slope
  have hgm : g ≤ s.min := by
    by_contra hcon
    rcases hg0 with rfl | hg0
    · omega
    · exact hg0 (hl.sound _ ⟨s, hs, by omega, by omega⟩)
  obtain ⟨t, q, a1, a2, a3, a4, a5, a6⟩ := hl.area s hs
  refine a6 (hslope t q a1 a2 a3 ((mul_le_mul_of_nonneg_right (by exact_mod_cast hgm) (le_of_lt hpos)).trans a5) ?_)
  rw [← hmax]; exact a4

theorem openings_index : ∀ {l : List Solid} {nf nc : Int}, (nf, nc) ∈ openings l → ∃ (j : Nat) (s : Solid), l[j]? = some s ∧ nf = s.max ∧
    nc = bottom (l.drop (j + 1))
  | [], _, _, h => by simp [openings] at h
  | s :: l, nf, nc, h => by
    rw [openings] at h
    rcases List.mem_cons.1 h with h | h
    · cases h; exact ⟨0, s, rfl, rfl, rfl⟩
    · obtain ⟨j, t, h1, h2, h3⟩ := openings_index h
      exact ⟨j + 1, t, h1, h2, h3⟩

/-- A firm spot is no ledge. -/
theorem firm_no_ledge {W : World} {p : Spot} (hp : W.Firm p) {nbr : Nat → Option (List Solid)}
    (hn : ∀ d, ∃ nx nz l, World.Beside p.x p.z nx nz ∧ nbr d = some l ∧ WorldCol W nx nz l)  {c : Int} :
    ¬ IsLedgeSpec W.agentHeight W.agentClimb nbr p.y c := by
  have floorOf : ∀ l nx nz, WorldCol W nx nz l → ∀ (j : Nat) (s : Solid), l[j]? = some s → W.MaybeFloor nx nz s.max := by
    intro l nx nz hl j s hj
    have hs := List.mem_of_getElem? hj
    have hst := hl.strict s hs
    refine ⟨by omega, hl.sound _ ⟨s, hs, by omega, by omega⟩, fun hsure => ?_⟩
    obtain ⟨t, ht, h1, h2⟩ := hl.sure _ hsure
    have := solid_unique hl.sep hs ht hst (hl.strict t ht) (v := s.max) (by omega) (by omega) h1 (by omega)
    subst this
    omega
  rintro (⟨d, hd, h⟩ | ⟨nf, ⟨d, hd, l, hl, nc, hm, hsh⟩, hlow⟩ | ⟨a, b, ha, hb, hab⟩)
  · obtain ⟨nx, nz, l, hb, hl, hcol⟩ := hn d
    unfold VoidSide at h
    rw [hl] at h
    simp only at h
    obtain ⟨v, h1, h2, h3⟩ := hp.side nx nz hb
    obtain ⟨s, hs, h4, h5⟩ := hcol.sure v h3
    have := bottom_le hcol.sep hcol.strict hs
    omega
  · obtain ⟨nx, nz, l', hb, hl', hcol⟩ := hn d
    rw [hl] at hl'; cases hl'
    obtain ⟨j, t, hj, rfl, rfl⟩ := openings_index hm
    obtain ⟨v, h1, h2, h3⟩ := hp.side nx nz hb
    obtain ⟨s, hs, h4, h5⟩ := hcol.sure v h3
    obtain ⟨k, hk⟩ := List.getElem?_of_mem hs
    have hjk : j < k := by
      by_contra hcon
      rcases Nat.lt_or_eq_of_le (Nat.not_lt.1 hcon) with hlt | rfl
      · obtain ⟨i1, rfl⟩ := List.getElem?_eq_some_iff.1 hj
        obtain ⟨i2, rfl⟩ := List.getElem?_eq_some_iff.1 hk
        have h6 := List.pairwise_iff_getElem.1 hcol.sep k j i2 i1 hlt
        have h7 := hcol.strict l[j] (List.getElem_mem _)
        omega
      · rw [hk] at hj; cases hj; omega
    have := bottom_le_later hcol.sep hcol.strict hjk hk
    unfold Shares at hsh
    omega
  · rcases ha with rfl | ⟨⟨d, hd, l, hl, nc, hm, hsh⟩, ha⟩
    · rcases hb with rfl | ⟨_, hb⟩ <;> omega
    · rcases hb with rfl | ⟨⟨d', hd', l', hl', nc', hm', hsh'⟩, hb⟩
      · omega
      · obtain ⟨nx, nz, l1, hb1, hl1, hcol⟩ := hn d
        rw [hl] at hl1; cases hl1
        obtain ⟨nx', nz', l2, hb2, hl2, hcol'⟩ := hn d'
        rw [hl'] at hl2; cases hl2
        obtain ⟨j, t, hj, rfl, rfl⟩ := openings_index hm
        obtain ⟨j', t', hj', rfl, rfl⟩ := openings_index hm'
        have := hp.gentle nx nz nx' nz' t.max t'.max hb1 hb2 (floorOf l nx nz hcol j t hj) (floorOf l' nx' nz' hcol' j' t' hj')
          (by omega) (by omega)
        omega

theorem surfaces_of_index : ∀ {l : List Solid} {j : Nat} {s : Solid}, l[j]? = some s → isWalkable s.area = true →
    ∃ u ∈ surfaces l, u.floor = s.max ∧ u.clearance = min (bottom (l.drop (j + 1)) - s.max).toNat 255
  | [], _, _, h, _ => by simp at h
  | a :: l, 0, s, h, hw => by
    simp only [List.getElem?_cons_zero, Option.some.injEq] at h
    subst h
    unfold surfaces
    rw [if_pos hw]
    exact ⟨_, List.mem_cons_self .., rfl, rfl⟩
  | a :: l, j + 1, s, h, hw => by
    obtain ⟨u, h1, h2⟩ := surfaces_of_index (l := l) (j := j) (s := s) (by simpa using h) hw
    unfold surfaces
    split
    · exact ⟨u, List.mem_cons_of_mem _ h1, h2⟩
    · exact ⟨u, h1, h2⟩

theorem mapM_mem_out {α β : Type} {f : α → Res β} : ∀ {l : List α} {out : List β}, l.mapM f = .ok out → ∀ b ∈ out, ∃ a ∈ l, f a = .ok b := by
  intro l
  induction l with
  | nil => intro out h b hb; cases h; cases hb
  | cons c l ih =>
    intro out h b hb
    rw [List.mapM_cons] at h
    obtain ⟨b', hb', h⟩ := bind_inv h
    obtain ⟨bs, hbs, h⟩ := bind_inv h
    cases h
    rcases List.mem_cons.1 hb with rfl | hb
    · exact ⟨c, by simp, hb'⟩
    · obtain ⟨a, ha, e⟩ := ih hbs b hb
      exact ⟨a, by simp [ha], e⟩

/-- The spans of a compact field, described by the world: every firm spot has one. -/
structure FieldCovers (W : World) (chf : CompactHeightfield) : Prop where
  span : ∀ p, W.Firm p → ∃ i s, chf.At p.x p.z i s ∧ s.y = p.y ∧
    ∀ n, n ≤ 255 → p.y + n ≤ 65535 → (∀ v, p.y ≤ v → v < p.y + n → ¬ W.Possibly p.x p.z v) → n ≤ s.height
  area : ∀ i < chf.spans.length, chf.areas[i]? = some 255

theorem FieldCovers.walkable {W : World} {chf : CompactHeightfield} (h : FieldCovers W chf) (i : Nat) (hi : i < chf.spans.length) :
    chf.WalkableAt i := ⟨255, h.area i hi, by decide⟩

theorem surfaces_walkable : ∀ {l : List Solid} {u : Surface}, u ∈ surfaces l → ∃ s ∈ l, isWalkable s.area = true ∧ u.area = s.area
  | [], _, h => by simp [surfaces] at h
  | s :: l, u, h => by
    have later : u ∈ surfaces l → ∃ t ∈ s :: l, isWalkable t.area = true ∧ u.area = t.area := fun h => by
      obtain ⟨t, ht, h1⟩ := surfaces_walkable h
      exact ⟨t, List.mem_cons_of_mem _ ht, h1⟩
    unfold surfaces at h
    split at h
    · rename_i hw
      rcases List.mem_cons.1 h with rfl | h
      · exact ⟨s, List.mem_cons_self .., hw, rfl⟩
      · exact later h
    · exact later h

theorem neighbourCell_inside {w h x z : Nat} (hin : 1 ≤ x ∧ x + 1 < w ∧ 1 ≤ z ∧ z + 1 < h) (d : Nat) :
    ∃ nx nz, neighbourCell w h x z d = some (nx, nz) := by
  unfold neighbourCell
  split
  · exact ⟨_, _, if_pos (by omega)⟩
  · exact ⟨_, _, if_pos (by omega)⟩
  · exact ⟨_, _, if_pos (by omega)⟩
  · exact ⟨_, _, if_pos (by omega)⟩

theorem fieldCovers_of {F : Type} {env : BuildEnv F} {cfg : Config} {scene : List Affector} {m : TriMesh ℚ} {fr : Frame}
    (hin : InputOf env cfg scene m fr) (hs : fr.Sane) {w h : Nat} (hw : 1 ≤ w ∧ w ≤ 32767) (hh : 1 ≤ h ∧ h ≤ 32767)
    (hnew : fr.buildHeightfield = .ok (Heightfield.new w h)) {hf : Heightfield} (hok : buildSolid cfg m fr = .ok hf)
    (hsm : hf.spanCount < 2 ^ 32) {chf : CompactHeightfield} (hc : hf.intoCompact cfg.walkableHeight cfg.walkableClimb = .ok chf)
    (hH : 1 ≤ cfg.walkableHeight) : FieldCovers (World.ofBuild env cfg scene fr w h) chf := by
  have hbox : ∀ v ∈ m.vertices, fr.aabb.Contains v := fun v hv => hin.contains v ((hin.vertices v).1 hv)
  obtain ⟨wf, ew, eh, _⟩ := solid_spec hs hw hh hin.wf hbox hnew hok
  obtain ⟨hf1, w1, h1, hcol⟩ := solid_keeps hs hw hh hin.wf hbox hnew hok
  obtain ⟨cw, ch, hsurf⟩ := c19_exactly_the_walkable_spans hf wf hsm _ _ chf hc
  have hwf := c20_wellformed hf wf hsm (by omega) (by omega) _ _ chf hc
  refine ⟨fun p hp => ?_, fun i hi => ?_⟩
  · have hins : 1 ≤ p.x ∧ p.x + 1 < w ∧ 1 ≤ p.z ∧ p.z + 1 < h := hp.inside
    obtain ⟨l, l1, a, a1, hl1, hg, hkeep, _⟩ := hcol p.x (by omega) p.z (by omega)
    have hwc : WorldCol (World.ofBuild env cfg scene fr w h) p.x p.z l1 := worldCol_of hin hl1
    obtain ⟨j, s, hj, hmax, hwk⟩ := firm_block hp hH hwc hs.cellHeight
    have bot : ∀ n, p.y + n ≤ 65535 → (∀ v, p.y ≤ v → v < p.y + n → ¬ (World.ofBuild env cfg scene fr w h).Possibly p.x p.z v) →
        ((p.y + n : Nat) : Int) ≤ bottom (l1.drop (j + 1)) := by
      intro n hn hfree
      exact le_bottom hwc.sep hwc.strict hj hn fun v hv1 hv2 ho => hfree v (by omega) hv2 (hwc.sound v ho)
    have hr : ((p.y + cfg.walkableHeight : Nat) : Int) ≤ bottom (l1.drop (j + 1)) := bot _ hp.room.1 hp.room.2
    obtain ⟨s', hj', hwk', hmax'⟩ := hkeep j s hj hwk (by omega) (by
      rw [hmax]
      refine firm_no_ledge (W := World.ofBuild env cfg scene fr w h) hp fun d => ?_
      obtain ⟨nx, nz, e⟩ := neighbourCell_inside hins d
      have hlt := neighbourCell_lt (show p.x < w by omega) (show p.z < h by omega) e
      obtain ⟨_, l2, _, a2, hl2, _⟩ := hcol nx hlt.1 nz hlt.2
      refine ⟨nx, nz, l2, adjacent_neighbourCell e, ?_, worldCol_of hin hl2⟩
      unfold neighbours
      rw [w1, h1, e]
      simp only [a2]
      rfl)
    obtain ⟨u, hu, hfl, hcl⟩ := surfaces_of_index hj' hwk'
    obtain ⟨l', hl', hcs⟩ := hsurf p.x (by rw [ew]; omega) p.z (by rw [eh]; omega)
    rw [ew, a] at hl'; cases hl'
    rw [CompactHeightfield.cellSurfaces] at hcs
    obtain ⟨cell, hcell, hcs⟩ := bind_inv hcs
    obtain ⟨i, hi, e⟩ := mapM_mem_out hcs u hu
    obtain ⟨sp, hsp, e⟩ := bind_inv e
    obtain ⟨ar, har, e⟩ := bind_inv e
    cases e
    refine ⟨i, sp, ⟨by rw [cw, ew]; omega, by rw [ch, eh]; omega, idx_eq_ok.1 hsp, cell, by rw [cw]; exact idx_eq_ok.1 hcell, hi⟩, ?_, ?_⟩
    · simp only at hfl; omega
    · intro n hn hn2 hfree
      have := bot n hn2 hfree
      simp only at hcl
      rw [bottom_geom (geom_drop hg _)] at hcl
      omega
  · have hat := CompactHeightfield.at_spec hwf (List.getElem?_eq_getElem hi)
    obtain ⟨hx, hz, hsp, cell, hcell, hi'⟩ := hat
    rw [cw] at hx hcell
    rw [ch] at hz
    obtain ⟨l, hl, hcs⟩ := hsurf _ hx _ hz
    obtain ⟨l', l1, a, _, hl1, _, _, hsrc⟩ := hcol (chf.xOf i) (by omega) (chf.zOf i) (by omega)
    rw [ew, a] at hl; cases hl
    rw [CompactHeightfield.cellSurfaces, idx_some hcell, bind_ok] at hcs
    obtain ⟨u, hu, e⟩ := mapM_mem hcs i hi'
    rw [idx_some hsp, bind_ok] at e
    obtain ⟨ar, ha, e⟩ := bind_inv e
    cases e
    obtain ⟨sd, hsd, hwk, e⟩ := surfaces_walkable hu
    obtain ⟨s1, hs1, e1⟩ := hsrc sd hsd hwk
    obtain ⟨k, t, _, k1, k2, _⟩ := hl1.area s1 hs1
    rw [hin.areas k t k1] at k2
    have k3 := Option.some.inj k2
    simp only at e
    rw [idx_eq_ok.1 ha, e, ← e1]
    rw [← e1, ← k3] at hwk
    split at k3
    · rw [← k3]
    · rename_i hup
      rw [if_neg hup] at hwk
      exact absurd hwk (by decide)

theorem surfaces_stacked : ∀ {l : List Solid}, Separated l → (∀ s ∈ l, s.min ≤ s.max) →
    (surfaces l).Pairwise fun a b => a.floor + a.clearance ≤ b.floor
  | [], _, _ => by simp [surfaces]
  | s :: l, hs, hm => by
    have ih := surfaces_stacked (l := l) (List.Pairwise.of_cons hs) fun t ht => hm t (by simp [ht])
    unfold surfaces
    split
    · refine List.pairwise_cons.2 ⟨fun u hu => ?_, ih⟩
      obtain ⟨j, t, hj, _, hf, _⟩ := surfaces_index hu
      have ht := List.mem_of_getElem? hj
      have h1 := (List.pairwise_cons.1 hs).1 t ht
      have h2 := hm t (by simp [ht])
      have h3 : bottom l ≤ t.min := by
        cases l with
        | nil => cases ht
        | cons a l =>
          simp only [bottom]
          rcases List.mem_cons.1 ht with rfl | ht'
          · exact Int.le_refl _
          · have h5 := (List.pairwise_cons.1 (List.Pairwise.of_cons hs)).1 t ht'
            have h6 := hm a (by simp)
            omega
      rw [hf]
      dsimp only
      omega
    · exact ih

/-- The spans of a cell are above each other. -/
theorem cell_stacked {hf : Heightfield} (hwf : hf.WellFormed) (hsm : hf.spanCount < 2 ^ 32) {wh climb : Nat} {chf : CompactHeightfield}
    (hok : hf.intoCompact wh climb = .ok chf) {x z i j : Nat} {s t : CompactSpan} (hs : chf.At x z i s) (ht : chf.At x z j t)
    (h : i < j) : s.y + s.height ≤ t.y := by
  obtain ⟨cw, ch, hsurf⟩ := c19_exactly_the_walkable_spans hf hwf hsm _ _ chf hok
  obtain ⟨hx, hz, hsp, cell, hcell, hi⟩ := hs
  obtain ⟨_, _, htp, cell', hcell', hj⟩ := ht
  rw [hcell] at hcell'; cases hcell'
  rw [cw] at hx hcell
  rw [ch] at hz
  obtain ⟨l, hl, hcs⟩ := hsurf x hx z hz
  rw [CompactHeightfield.cellSurfaces, idx_some hcell, bind_ok] at hcs
  have hsep : Separated l ∧ ∀ s ∈ l, s.min ≤ s.max := by
    obtain ⟨vis, v1, _, _, _, v5, v6⟩ := hwf.iter
    have hc : x + z * hf.width < hf.width * hf.height := col_lt hx hz
    rw [Heightfield.column, v1 _ hc, bind_ok] at hl
    cases hl
    refine ⟨v5 _ hc, fun s hs => ?_⟩
    obtain ⟨p, hp, rfl⟩ := List.mem_map.1 hs
    exact (v6 _ hc p hp).1
  have hasc := surfaces_stacked hsep.1 hsep.2
  simp only [CompactCell.indexRange, List.mem_range'_1] at hi hj
  have get : ∀ k (u : CompactSpan), chf.spans[k]? = some u → cell.index ≤ k → k < cell.index + cell.count →
      ∃ b, (surfaces l)[k - cell.index]? = some b ∧ b.floor = u.y ∧ b.clearance = u.height := by
    intro k u hu h1 h2
    obtain ⟨b, hb, e⟩ := mapM_get hcs (k - cell.index) k (by
      simp only [CompactCell.indexRange]
      rw [List.getElem?_range' (by omega)]
      congr 1; omega)
    rw [idx_some hu, bind_ok] at e
    obtain ⟨a, _, e⟩ := bind_inv e
    cases e
    exact ⟨_, hb, rfl, rfl⟩
  obtain ⟨b, hb, eb, eb2⟩ := get i s hsp hi.1 hi.2
  obtain ⟨b', hb', eb', _⟩ := get j t htp hj.1 hj.2
  obtain ⟨k1, e1⟩ := List.getElem?_eq_some_iff.1 hb
  obtain ⟨k2, e2⟩ := List.getElem?_eq_some_iff.1 hb'
  have := List.pairwise_iff_getElem.1 hasc _ _ k1 k2 (by omega)
  rw [e1, e2, eb, eb2, eb'] at this
  exact this

/-- A firm step is a link. -/
theorem firm_link {W : World} {hf : Heightfield} (hwf : hf.WellFormed) (hsm : hf.spanCount < 2 ^ 32) {chf : CompactHeightfield}
    (hc : hf.intoCompact W.agentHeight W.agentClimb = .ok chf) (hcv : FieldCovers W chf) (hlay : ∀ c ∈ chf.cells, c.count ≤ 62)
    (hclimb : W.agentClimb < W.agentHeight) (hcap : W.agentHeight + W.agentClimb ≤ 255) {a b : Spot} (hst : W.FirmStep a b) {d : Nat}
    (hd : d < 4) (hn : neighbourCell chf.width chf.height a.x a.z d = some (b.x, b.z)) {i : Nat} {s : CompactSpan} (hat : chf.At a.x a.z i s)
    (hy : s.y = a.y) : ∃ k t, chf.Link i d k ∧ chf.At b.x b.z k t ∧ t.y = b.y := by
  obtain ⟨i', s', hat', hy', hs'⟩ := hcv.span a hst.before
  obtain ⟨k, t, hatk, hyk, htk⟩ := hcv.span b hst.after
  have hii := floors_distinct hwf hsm hc hat hat' (by omega)
  subst hii
  have ess : s = s' := by
    have := hat.2.2.1
    rw [hat'.2.2.1] at this
    cases this; rfl
  subst ess
  have hcl := hst.climb
  have free : ∀ q : Spot, W.Firm q → W.Clear q.x q.z (max a.y b.y) → max a.y b.y ≤ q.y + W.agentClimb → q.y ≤ max a.y b.y →
      q.y + (max a.y b.y - q.y + W.agentHeight) ≤ 65535 ∧
      ∀ v, q.y ≤ v → v < q.y + (max a.y b.y - q.y + W.agentHeight) → ¬ W.Possibly q.x q.z v := by
    intro q hq hr h1 h2
    have := hr.1
    refine ⟨by omega, fun v hv1 hv2 => ?_⟩
    by_cases hv : v < q.y + W.agentHeight
    · exact hq.room.2 v hv1 hv
    · exact hr.2 v (by omega) (by omega)
  have f1 := free a hst.before hst.room.1 (by omega) (by omega)
  have f2 := free b hst.after hst.room.2 (by omega) (by omega)
  have g1 := hs' _ (by omega) f1.1 f1.2
  have g2 := htk _ (by omega) f2.1 f2.2
  have hcon : Connectable W.agentHeight W.agentClimb s t := by
    unfold Connectable
    rw [hy, hyk]
    constructor <;> omega
  have ew : chf.walkableHeight = W.agentHeight ∧ chf.walkableClimb = W.agentClimb := by
    obtain ⟨cols, spans, hr, rfl, _⟩ := converted hwf hsm hc
    exact ⟨rfl, rfl⟩
  obtain ⟨_, _, htsp, nb, hnb, hk⟩ := id hatk
  simp only [CompactCell.indexRange, List.mem_range'_1] at hk
  have hre : chf.Reaches a.x a.z s d (k - nb.index) k t :=
    ⟨b.x, b.z, nb, hn, hnb, by omega, by omega, htsp, by rw [ew.1, ew.2]; exact hcon⟩
  obtain ⟨c1, c2⟩ := c22_connections_complete_partial hf hwf hsm _ _ chf hc hlay a.x a.z i s hat d hd
  cases e : s.con d with
  | none => exact absurd hre (c1.1 e _ _ _)
  | some l =>
    obtain ⟨⟨k', t', nx, nz, nb', e1, e2, e3, e4, e5, e6⟩, _⟩ := (c2 l).1 e
    rw [hn] at e1; cases e1
    rw [hnb] at e2; cases e2
    have hat2 : chf.At b.x b.z k' t' := ⟨hatk.1, hatk.2.1, e5, nb, hnb, by simp only [CompactCell.indexRange, List.mem_range'_1]; omega⟩
    rw [ew.1, ew.2] at e6
    have hkk : k' = k := by
      unfold Connectable at hcon e6
      rcases Nat.lt_trichotomy k' k with hlt | heq | hlt
      · have := cell_stacked hwf hsm hc hat2 hatk hlt
        omega
      · exact heq
      · have := cell_stacked hwf hsm hc hatk hat2 hlt
        omega
    subst hkk
    exact ⟨k', t, ⟨a.x, a.z, s, l, b.x, b.z, nb, hat, e, hn, hnb, e4⟩, hatk, hyk⟩

theorem octile_axis {dx dz ex ez : Int} (h : (ex = dx ∧ (ez = dz + 1 ∨ ez = dz - 1)) ∨ (ez = dz ∧ (ex = dx + 1 ∨ ex = dx - 1))) :
    octile ex ez ≤ octile dx dz + 2 := by
  unfold octile; omega

theorem octile_diag {dx dz ex ez : Int} (h1 : ex = dx + 1 ∨ ex = dx - 1) (h2 : ez = dz + 1 ∨ ez = dz - 1) :
    octile ex ez ≤ octile dx dz + 3 := by
  unfold octile; omega

theorem neighbourCell_offset {w h x z d nx nz : Nat} (hd : d < 4) (hn : neighbourCell w h x z d = some (nx, nz)) :
    (d % 2 = 0 ∧ nz = z ∧ (x = nx + 1 ∨ nx = x + 1)) ∨ (d % 2 = 1 ∧ nx = x ∧ (z = nz + 1 ∨ nz = z + 1)) := by
  rcases (by omega : d = 0 ∨ d = 1 ∨ d = 2 ∨ d = 3) with rfl | rfl | rfl | rfl <;> simp only [neighbourCell] at hn <;> split at hn <;>
    cases hn <;> omega

/-- What is needed of the field to follow firm steps. -/
structure FirmField (W : World) (hf : Heightfield) (chf : CompactHeightfield) : Prop where
  solid : hf.WellFormed
  few : hf.spanCount < 2 ^ 32
  compact : hf.intoCompact W.agentHeight W.agentClimb = .ok chf
  wf : chf.WellFormed
  width : chf.width = W.width
  height : chf.height = W.depth
  covers : FieldCovers W chf
  layers : ∀ c ∈ chf.cells, c.count ≤ 62
  climb : W.agentClimb < W.agentHeight
  cap : W.agentHeight + W.agentClimb ≤ 255

/-- `S` is a set of firm spots around `p`, up to `n` cells. -/
structure FirmSet (W : World) (n : Nat) (p : Spot) (S : Spot → Prop) : Prop where
  firm : ∀ q, S q → W.Firm q
  step : ∀ q, S q → octile ((q.x : Int) - p.x) ((q.z : Int) - p.z) < 2 * n → ∀ nx nz, World.Beside q.x q.z nx nz →
    ∃ y, S ⟨nx, nz, y⟩ ∧ W.FirmStep q ⟨nx, nz, y⟩

theorem firm_sides {W : World} {hf : Heightfield} {chf : CompactHeightfield} (hF : FirmField W hf chf) {n : Nat} {p : Spot} {S : Spot → Prop}
    (hS : FirmSet W n p S) {q : Spot} (hq : S q) (hnear : octile ((q.x : Int) - p.x) ((q.z : Int) - p.z) < 2 * n) {i : Nat} {s : CompactSpan}
    (hat : chf.At q.x q.z i s) (hy : s.y = q.y) {d : Nat} (hd : d < 4) :
    ∃ (q' : Spot) (k : Nat) (t : CompactSpan), S q' ∧ chf.Link i d k ∧ chf.At q'.x q'.z k t ∧ t.y = q'.y ∧
      neighbourCell chf.width chf.height q.x q.z d = some (q'.x, q'.z) := by
  have hins := (hS.firm q hq).inside
  rw [← hF.width, ← hF.height] at hins
  obtain ⟨nx, nz, e⟩ := neighbourCell_inside hins d
  obtain ⟨y, h1, h2⟩ := hS.step q hq hnear nx nz (adjacent_neighbourCell e)
  obtain ⟨k, t, h3, h4, h5⟩ := firm_link hF.solid hF.few hF.compact hF.covers hF.layers hF.climb hF.cap h2 hd e hat hy
  exact ⟨⟨nx, nz, y⟩, k, t, h1, h3, h4, h5, e⟩

theorem firm_follow {W : World} {hf : Heightfield} {chf : CompactHeightfield} (hF : FirmField W hf chf) {n : Nat} {p : Spot} {S : Spot → Prop}
    (hS : FirmSet W n p S) {q : Spot} (hq : S q) (hnear : octile ((q.x : Int) - p.x) ((q.z : Int) - p.z) < 2 * n) {i : Nat} {s : CompactSpan}
    (hat : chf.At q.x q.z i s) (hy : s.y = q.y) {d : Nat} (hd : d < 4) {k : Nat} (hl : chf.Link i d k) :
    ∃ (q' : Spot) (t : CompactSpan), S q' ∧ chf.At q'.x q'.z k t ∧ t.y = q'.y ∧
      neighbourCell chf.width chf.height q.x q.z d = some (q'.x, q'.z) := by
  obtain ⟨q', k', t, h1, h2, h3, h4, h5⟩ := firm_sides hF hS hq hnear hat hy hd
  have e1 := (CompactHeightfield.nbr_iff_link hF.wf hd).2 h2
  have e2 := (CompactHeightfield.nbr_iff_link hF.wf hd).2 hl
  rw [e1] at e2; cases e2
  exact ⟨q', t, h1, h3, h4, h5⟩

theorem firm_reach {W : World} {hf : Heightfield} {chf : CompactHeightfield} (hF : FirmField W hf chf) {n : Nat} {p : Spot} {S : Spot → Prop}
    (hS : FirmSet W n p S) {i k c : Nat} (hr : chf.Reach i k c) : ∀ {q : Spot} {s : CompactSpan}, S q → chf.At q.x q.z i s → s.y = q.y →
      octile ((q.x : Int) - p.x) ((q.z : Int) - p.z) + c < 2 * n →
      ∃ (q' : Spot) (t : CompactSpan), S q' ∧ chf.At q'.x q'.z k t ∧ t.y = q'.y ∧
        octile ((q'.x : Int) - p.x) ((q'.z : Int) - p.z) ≤ octile ((q.x : Int) - p.x) ((q.z : Int) - p.z) + c := by
  induction hr with
  | refl i => intro q s hq hat hy _; exact ⟨q, s, hq, hat, hy, Nat.le_refl _⟩
  | @axis i j k d c hd hl _ ih =>
    intro q s hq hat hy hlt
    obtain ⟨q', t, h1, h2, h3, h4⟩ := firm_follow hF hS hq (by omega) hat hy hd hl
    have ho : octile ((q'.x : Int) - p.x) ((q'.z : Int) - p.z) ≤ octile ((q.x : Int) - p.x) ((q.z : Int) - p.z) + 2 := by
      have := neighbourCell_offset hd h4
      exact octile_axis (by omega)
    obtain ⟨q2, t2, g1, g2, g3, g4⟩ := ih h1 h2 h3 (by omega)
    exact ⟨q2, t2, g1, g2, g3, by omega⟩
  | @diag i j m k d d' c hd hd' hne hl hl' _ ih =>
    intro q s hq hat hy hlt
    obtain ⟨q', t, h1, h2, h3, h4⟩ := firm_follow hF hS hq (by omega) hat hy hd hl
    have o1 := neighbourCell_offset hd h4
    have ho : octile ((q'.x : Int) - p.x) ((q'.z : Int) - p.z) ≤ octile ((q.x : Int) - p.x) ((q.z : Int) - p.z) + 2 :=
      octile_axis (by omega)
    obtain ⟨q2, t2, g1, g2, g3, g4⟩ := firm_follow hF hS h1 (by omega) h2 h3 hd' hl'
    have o2 := neighbourCell_offset hd' g4
    have ho2 : octile ((q2.x : Int) - p.x) ((q2.z : Int) - p.z) ≤ octile ((q.x : Int) - p.x) ((q.z : Int) - p.z) + 3 :=
      octile_diag (by omega) (by omega)
    obtain ⟨q3, t3, f1, f2, f3, f4⟩ := ih g1 g2 g3 (by omega)
    exact ⟨q3, t3, f1, f2, f3, by omega⟩

/-- Firm spots with enough firm ground around them survive erosion. -/
theorem firm_survives {W : World} {hf : Heightfield} {chf : CompactHeightfield} (hF : FirmField W hf chf) {n : Nat} {p : Spot} {S : Spot → Prop}
    (hS : FirmSet W n p S) {r : Nat} (hr : r ≤ 127) {c1 : CompactHeightfield} (he : chf.erodeWalkableArea r = .ok c1) {q : Spot} {s : CompactSpan}
    (hq : S q) {i : Nat} (hat : chf.At q.x q.z i s) (hy : s.y = q.y)
    (hn : octile ((q.x : Int) - p.x) ((q.z : Int) - p.z) + 2 * r ≤ 2 * n) : c1.WalkableAt i := by
  have hi : i < chf.spans.length := (List.getElem?_eq_some_iff.1 hat.2.2.1).1
  by_contra hcon
  obtain ⟨k, c, hk, hreach, hc⟩ := c27_removed_is_near_edge chf hF.wf r hr c1 he i (hF.covers.walkable i hi) hcon
  obtain ⟨q', t, h1, h2, h3, h4⟩ := firm_reach hF hS hreach hq hat hy (by omega)
  rcases hk.2 with h | ⟨d, hd, h⟩
  · exact h (hF.covers.walkable k hk.1)
  · obtain ⟨_, k', _, _, g2, g3, _⟩ := firm_sides hF hS h1 (by omega) h2 h3 hd
    exact h ⟨k', g2, hF.covers.walkable k' (List.getElem?_eq_some_iff.1 g3.2.2.1).1⟩

theorem octile_zero (p : Spot) : octile ((p.x : Int) - p.x) ((p.z : Int) - p.z) = 0 := by
  rw [Int.sub_self, Int.sub_self]; rfl

/-- The spans at spacious spots outside the border get regions, if somewhere there is room for one cell more. -/
theorem spacious_region_at {W : World} {cfg : Config} {hf : Heightfield} {c0 chf : CompactHeightfield} (hF : FirmField W hf c0)
    (hww : W.width ≤ 32767)
    (hH : W.agentHeight = cfg.walkableHeight) (hC : W.agentClimb = cfg.walkableClimb) (hR : W.agentRadius = cfg.walkableRadius)
    (hB : W.border = cfg.borderSize) (hr : cfg.walkableRadius ≤ 127)
    (hok : buildCompact cfg hf = .ok chf) (hmin : cfg.minRegionArea = 0) (hids : FewRegions cfg hf) {p0 : Spot}
    (h0 : W.Spacious (W.agentRadius + 1) p0) {p : Spot} (hp : W.Spacious W.agentRadius p) (hin : ¬ W.InMargin p)
    {i : Nat} {s : CompactSpan} (hat : c0.At p.x p.z i s) (hy : s.y = p.y) :
    ∃ t, chf.At p.x p.z i t ∧ t.y = p.y ∧ ProperRegion t.region ∧ chf.areas[i]? = some 255 := by
  have hwf0 := hF.wf
  have hc := hF.compact
  rw [hH, hC] at hc
  rw [buildCompact, hc, bind_ok] at hok
  obtain ⟨c1, h1, hok⟩ := bind_inv hok
  obtain ⟨c2, h2, h3⟩ := bind_inv hok
  obtain ⟨e1, l1, ar1⟩ := c25_only_removes c0 hwf0 _ c1 h1
  have k1 : Like c0 c1 := by rw [e1]; exact ⟨rfl, rfl, rfl, rfl⟩
  have hwf1 : c1.WellFormed := by
    rw [e1]
    exact ⟨hwf0.width_u16, hwf0.height_u16, hwf0.cells_len, by simp only; rw [l1]; exact hwf0.areas_len, hwf0.partition, hwf0.con⟩
  have hs1 : c1.width ≤ 32767 ∨ c1.height ≤ 32767 := by rw [k1.width, hF.width]; exact Or.inl hww
  obtain ⟨_, e2, d2⟩ := c29_no_panic c1 hwf1 hs1 ((c32_succeeds_iff_partial c1 hwf1 hs1).1 ⟨c2, h2⟩)
  rw [h2] at e2; cases e2
  have k2 : Like c1 c2 := by rw [d2]; exact ⟨rfl, rfl, rfl, rfl⟩
  have rd := (ready_of_distance_field c1 hwf1 hs1 c2 h2).1
  obtain ⟨hwalk, e3, m3⟩ := c34_regions_only_on_walkable c2 rd _ _ _ chf h3
  have k3 : Like c2 chf := ⟨by rw [e3], by rw [e3], by rw [e3], m3⟩
  have ka : Like c0 c2 := k1.trans k2
  have ea : c2.areas = c1.areas := by rw [d2]
  have area1 : ∀ i, c1.WalkableAt i → c1.areas[i]? = some 255 := by
    rintro i ⟨a, ha, hw⟩
    rcases ar1 i with e | e
    · have hi : i < c0.spans.length := by
        rw [e] at ha
        rw [← hwf0.areas_len]; exact (List.getElem?_eq_some_iff.1 ha).1
      rw [e, hF.covers.area i hi]
    · rw [e] at ha; cases ha; exact absurd hw (by decide)
  -- some span is not at an edge
  have hmax : 1 ≤ c2.maxDistance := by
    obtain ⟨S, hS1, hS2, hS3⟩ := h0
    have hS : FirmSet W (W.agentRadius + 1) p0 S := ⟨hS2, hS3⟩
    obtain ⟨i, s, hat, hy, _⟩ := hF.covers.span p0 (hS2 p0 hS1)
    have hz := octile_zero p0
    have hwi := firm_survives hF hS hr h1 hS1 hat hy (by omega)
    have hi : i < c0.spans.length := (List.getElem?_eq_some_iff.1 hat.2.2.1).1
    have hne : ¬ c1.AreaEdge i := by
      rintro ⟨_, d, hd, hcon⟩
      obtain ⟨q, k, t, g1, g2, g3, g4, g5⟩ := firm_sides hF hS hS1 (by omega) hat hy hd
      have ho : octile ((q.x : Int) - p0.x) ((q.z : Int) - p0.z) ≤ octile ((p0.x : Int) - p0.x) ((p0.z : Int) - p0.z) + 2 := by
        have := neighbourCell_offset hd g5
        exact octile_axis (by omega)
      have hwk := firm_survives hF hS hr h1 g1 g3 g4 (by omega)
      exact hcon ⟨k, k1.link g2, by rw [area1 k hwk, area1 i hwi]⟩
    obtain ⟨c1', c2', _, c4'⟩ := c31_bounded_by_max c1 hwf1 hs1 c2 h2
    have hlen : i < c2.dist.length := by
      rw [c1']
      obtain ⟨t, ht, _⟩ := ka.at hat
      exact (List.getElem?_eq_some_iff.1 ht.2.2.1).1
    have hd := List.getElem?_eq_getElem hlen
    have hle := c2' _ (List.getElem_mem hlen)
    by_contra hcon
    refine hne ((c4' i).1 ?_)
    rw [hd]
    congr 1
    omega
  obtain ⟨S, hS1, hS2, hS3⟩ := hp
  have hS : FirmSet W W.agentRadius p S := ⟨hS2, hS3⟩
  have hz := octile_zero p
  have hwi : c1.WalkableAt i := firm_survives hF hS hr h1 hS1 hat hy (by omega)
  obtain ⟨t, ht, ty, _⟩ := (ka.trans k3).at hat
  rw [hmin] at h3
  obtain ⟨r, ⟨u, hu, er⟩, hr'⟩ := c63_complete_partial c2 rd cfg.borderSize cfg.mergeRegionArea chf h3 (fun reg next h => hids c0 c1 c2 reg next hc h1 h2 h) hmax i
    (by unfold CompactHeightfield.WalkableAt at hwi ⊢; rw [ea]; exact hwi) (by
      rintro ⟨x, z, v, hv, hb⟩
      obtain ⟨v', hv', _, _⟩ := ka.at hat
      obtain ⟨rfl, rfl⟩ := CompactHeightfield.at_unique rd.wf hv
      obtain ⟨ex, ez⟩ := CompactHeightfield.at_unique rd.wf hv'
      rw [← ex, ← ez, ka.width, ka.height, hF.width, hF.height, ← hB] at hb
      exact hin (by unfold World.InMargin; omega))
  rw [ht.2.2.1] at hu; cases hu
  exact ⟨t, ht, by rw [ty, hy], by rw [er]; exact hr', by rw [e3]; simp only; rw [ea]; exact area1 i hwi⟩

/-- Spacious spots outside the border get regions, if somewhere there is room for one cell more. -/
theorem spacious_region {W : World} {cfg : Config} {hf : Heightfield} {c0 chf : CompactHeightfield} (hF : FirmField W hf c0)
    (hww : W.width ≤ 32767)
    (hH : W.agentHeight = cfg.walkableHeight) (hC : W.agentClimb = cfg.walkableClimb) (hR : W.agentRadius = cfg.walkableRadius)
    (hB : W.border = cfg.borderSize) (hr : cfg.walkableRadius ≤ 127)
    (hok : buildCompact cfg hf = .ok chf) (hmin : cfg.minRegionArea = 0) (hids : FewRegions cfg hf) {p0 : Spot}
    (h0 : W.Spacious (W.agentRadius + 1) p0) {p : Spot} (hp : W.Spacious W.agentRadius p) (hin : ¬ W.InMargin p) :
    ∃ i s, chf.At p.x p.z i s ∧ s.y = p.y ∧ ProperRegion s.region := by
  obtain ⟨S, hS1, hS2, hS3⟩ := id hp
  obtain ⟨i, s, hat, hy, _⟩ := hF.covers.span p (hS2 p hS1)
  obtain ⟨t, h1, h2, h3, _⟩ := spacious_region_at hF hww hH hC hR hB hr hok hmin hids h0 hp hin hat hy
  exact ⟨i, t, h1, h2, h3⟩

end Rerecast
