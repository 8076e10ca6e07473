import Verif.Spec.Pipeline
import Verif.Lemmas.RasterRow
import Verif.Props.C15_C18_Filters
/-! The walkable spans of the filtered heightfield are places where an agent can stand. -/
namespace Rerecast
open Heightfield

theorem inTriangle_box {b : Aabb3 ℚ} {t : Triangle} {q : V3 ℚ} (h1 : b.Contains t.1) (h2 : b.Contains t.2.1) (h3 : b.Contains t.2.2)
    (hq : InTriangle t q) : b.Contains q := by
  obtain ⟨a, c, d, ha, hc, hd, hs, ex, ey, ez⟩ := hq
  obtain ⟨a1, a2, a3, a4, a5, a6⟩ := h1
  obtain ⟨b1, b2, b3, b4, b5, b6⟩ := h2
  obtain ⟨c1, c2, c3, c4, c5, c6⟩ := h3
  refine ⟨?_, ?_, ?_, ?_, ?_, ?_⟩
  · rw [ex]; exact le_combo ha hc hd hs a1 b1 c1
  · rw [ex]; exact combo_le ha hc hd hs a2 b2 c2
  · rw [ey]; exact le_combo ha hc hd hs a3 b3 c3
  · rw [ey]; exact combo_le ha hc hd hs a4 b4 c4
  · rw [ez]; exact le_combo ha hc hd hs a5 b5 c5
  · rw [ez]; exact combo_le ha hc hd hs a6 b6 c6

/-- The column of a rasterized mesh over cell `(x, z)`. -/
structure RasterCol (fr : Frame) (m : TriMesh ℚ) (x z : Nat) (l : List Solid) : Prop where
  sep : Separated l
  strict : ∀ s ∈ l, s.min < s.max
  sound : ∀ v, Occupied l v → ∃ k t q, m.corners k = some t ∧ InTriangle t q ∧ InCell fr x z q ∧ InVoxel fr v q.y
  cover : ∀ k t q, m.corners k = some t → InTriangle t q → InOpenCell fr x z q → ∃ v, Occupied l v ∧ InVoxel fr v q.y
  area : ∀ s ∈ l, ∃ k t q, m.corners k = some t ∧ m.areaTypes[k]? = some s.area ∧ InTriangle t q ∧ InCell fr x z q ∧
    q.y - fr.aabb.min.y ≤ s.max * fr.cellHeight ∧ s.min * fr.cellHeight ≤ q.y - fr.aabb.min.y

theorem corners_area {m : TriMesh ℚ} (hm : m.WF) {k : Nat} {t : Triangle} (h : m.corners k = some t) :
    k < m.indices.length ∧ ∃ a, m.areaTypes[k]? = some a := by
  have hk : k < m.indices.length := by
    by_contra hcon
    rw [TriMesh.corners, List.getElem?_eq_none (by omega)] at h
    cases h
  exact ⟨hk, _, List.getElem?_eq_getElem (by rw [hm.areas]; exact hk)⟩

theorem corners_mem {m : TriMesh ℚ} {k : Nat} {t : Triangle} (h : m.corners k = some t) :
    t.1 ∈ m.vertices ∧ t.2.1 ∈ m.vertices ∧ t.2.2 ∈ m.vertices := by
  unfold TriMesh.corners at h
  split at h
  · cases h
  · split at h
    · rename_i a b c ha hb hc
      cases h
      exact ⟨List.mem_of_getElem? ha, List.mem_of_getElem? hb, List.mem_of_getElem? hc⟩
    · cases h

theorem raster_spec {fr : Frame} (hs : fr.Sane) {w h : Nat} (hw : 1 ≤ w ∧ w ≤ 32767) (hh : 1 ≤ h ∧ h ≤ 32767) {m : TriMesh ℚ} (hm : m.WF)
    (hbox : ∀ v ∈ m.vertices, fr.aabb.Contains v) (thr : Nat) :
    ∃ hf, rasterizeTriangles fr (Heightfield.new w h) m thr = .ok hf ∧ hf.WellFormed ∧ hf.width = w ∧ hf.height = h ∧
      ∀ x < w, ∀ z < h, ∃ l, hf.column (x + z * w) = .ok l ∧ RasterCol fr m x z l := by
  obtain ⟨done, hf, e, hd⟩ := rasterizeMesh_spec (thr := thr) hs hw hh (reached_new w h) hm m.indices.length (Nat.le_refl _)
  obtain ⟨cols, hr⟩ := hd.reached
  rw [List.nil_append] at hr
  have hwf : hf.WellFormed := by
    refine Rep.wellFormed (cols := cols) ⟨?_, hr.rep, ?_, ?_⟩
    · rw [hr.width, hr.height]; exact hr.len
    · rw [hr.width, hr.height]; exact hr.sep
    · rw [hr.width, hr.height]
      intro c hc s hs
      exact ⟨hr.proper c hc s hs, hr.bound _ (fun i hi => (hd.each i hi).2.2.2.1) c hc s hs⟩
  have hmin : ∀ v ∈ m.vertices, fr.aabb.min.x ≤ v.x ∧ fr.aabb.min.z ≤ v.z := fun v hv =>
    ⟨(hbox v hv).1, (hbox v hv).2.2.2.2.1⟩
  refine ⟨hf, e, hwf, hr.width, hr.height, fun x hx z hz => ?_⟩
  have hc := col_lt hx hz
  refine ⟨_, hr.rep.column (by rw [hr.len]; exact hc), hr.sep _ hc, hr.strict (fun i hi => (hd.each i hi).2.2.1) _ hc, ?_, ?_, ?_⟩
  · intro v hv
    obtain ⟨i, hi, hic, h2, h3⟩ := (hr.occ _ hc v).1 hv
    obtain ⟨a1, a2, -, -, -, k, -, -, g⟩ := hd.each i hi
    obtain ⟨t, ht, g⟩ := g hmin
    obtain ⟨q, q1, q2, q3, q4⟩ := g v h2 h3
    obtain ⟨e1, e2⟩ := col_inj a1 hx hic
    rw [e1, e2] at q2
    exact ⟨k, t, q, ht, q1, q2, q4⟩
  · intro k t q hk ht hcell
    obtain ⟨hlt, a, ha⟩ := corners_area hm hk
    obtain ⟨m1, m2, m3⟩ := corners_mem hk
    obtain ⟨i, hi, -, ex, ez, v, h1, h2, h3⟩ := hd.cov k hlt t hk a ha q ht
      (inTriangle_box (hbox _ m1) (hbox _ m2) (hbox _ m3) ht) x z hx hz hcell
    exact ⟨v, (hr.occ _ hc v).2 ⟨i, hi, by rw [ex, ez], h1, h2⟩, h3⟩
  · intro s hs'
    obtain ⟨i, hi, hic, h1, h2, h3⟩ := hr.source _ hc s hs'
    obtain ⟨a1, a2, a3, -, -, k, -, ha, g⟩ := hd.each i hi
    obtain ⟨t, ht, g⟩ := g hmin
    obtain ⟨q, q1, q2, q3, q4⟩ := g i.min (Nat.le_refl _) a3
    obtain ⟨e1, e2⟩ := col_inj a1 hx hic
    rw [e1, e2] at q2
    refine ⟨k, t, q, ht, by rw [ha, h3], q1, q2, ?_, (mul_le_mul_of_nonneg_right (by exact_mod_cast h1) (le_of_lt hs.cellHeight)).trans q4.1⟩
    have hle : ((i.min : ℚ) + 1) ≤ s.max := by exact_mod_cast Nat.le_trans a3 h2
    calc q.y - fr.aabb.min.y ≤ ((i.min : ℚ) + 1) * fr.cellHeight := q4.2
      _ ≤ s.max * fr.cellHeight := mul_le_mul_of_nonneg_right hle (le_of_lt hs.cellHeight)

theorem geom_get {l l' : List Solid} (h : geom l' = geom l) (j : Nat) :
    (l'[j]?).map (fun s => (s.min, s.max)) = (l[j]?).map fun s => (s.min, s.max) := by
  have := congrArg (fun g : List (Nat × Nat) => g[j]?) h
  simpa [geom] using this

theorem bottom_geom : ∀ {l l' : List Solid}, geom l' = geom l → bottom l' = bottom l
  | [], [], _ => rfl
  | [], _ :: _, h => by simp [geom] at h
  | _ :: _, [], h => by simp [geom] at h
  | a :: l, b :: l', h => by
    simp only [geom, List.map_cons, List.cons.injEq, Prod.mk.injEq] at h
    simp [bottom, h.1.1]

theorem geom_drop {l l' : List Solid} (h : geom l' = geom l) (n : Nat) : geom (l'.drop n) = geom (l.drop n) := by
  simp only [geom, List.map_drop] at *
  rw [h]

theorem bottom_le {l : List Solid} (hsep : Separated l) (hst : ∀ s ∈ l, s.min < s.max) {s : Solid} (hs : s ∈ l) : bottom l ≤ s.min := by
  cases l with
  | nil => cases hs
  | cons a l =>
    rcases List.mem_cons.1 hs with rfl | h
    · exact Int.le_refl _
    · have h1 := (List.pairwise_cons.1 hsep).1 s h
      have h2 := hst a (by simp)
      simp only [bottom]
      omega

theorem bottom_le_later {l : List Solid} (hsep : Separated l) (hst : ∀ s ∈ l, s.min < s.max) {j k : Nat} (hjk : j < k) {s : Solid}
    (hs : l[k]? = some s) : bottom (l.drop (j + 1)) ≤ s.min := by
  refine bottom_le (hsep.sublist (List.drop_sublist _ _)) (fun s hs => hst s (List.mem_of_mem_drop hs)) ?_
  refine List.mem_of_getElem? (i := k - (j + 1)) ?_
  rw [List.getElem?_drop, show j + 1 + (k - (j + 1)) = k by omega, hs]

/-- A walkable block of the filtered heightfield, with the free space above it. -/
structure GoodSolid (fr : Frame) (m : TriMesh ℚ) (height x z : Nat) (s : Solid) (top : Int) : Prop where
  ground : 1 ≤ s.max ∧ ∃ k t q, m.corners k = some t ∧ InTriangle t q ∧ InCell fr x z q ∧ InVoxel fr (s.max - 1) q.y
  slope : ∃ k t q a, m.corners k = some t ∧ m.areaTypes[k]? = some a ∧ isWalkable a = true ∧ InTriangle t q ∧ InCell fr x z q ∧
    q.y - fr.aabb.min.y ≤ s.max * fr.cellHeight
  free : ∀ k t q, m.corners k = some t → InTriangle t q → InOpenCell fr x z q →
    ¬ (s.max * fr.cellHeight < q.y - fr.aabb.min.y ∧ q.y - fr.aabb.min.y < (top : ℚ) * fr.cellHeight)
  room : (height : Int) ≤ top - s.max

/-- What a block of a rasterized column is, provided it is walkable or stands close above a walkable one. -/
theorem goodSolid_of {fr : Frame} (hs : fr.Sane) {m : TriMesh ℚ} {x z : Nat} {l : List Solid} (hl : RasterCol fr m x z l) {height j k : Nat}
    {s s' : Solid} (hj : l[j]? = some s) (hk : l[k]? = some s') (hkj : k ≤ j) (hw : isWalkable s'.area = true)
    (hroom : (height : Int) ≤ bottom (l.drop (j + 1)) - s.max) : GoodSolid fr m height x z s (bottom (l.drop (j + 1))) := by
  have hmem := List.mem_of_getElem? hj
  have hst := hl.strict s hmem
  have hch := hs.cellHeight
  refine ⟨⟨by omega, ?_⟩, ?_, ?_, hroom⟩
  · exact hl.sound (s.max - 1) ⟨s, hmem, by omega, by omega⟩
  · obtain ⟨n, t, q, h1, h2, h3, h4, h5, _⟩ := hl.area s' (List.mem_of_getElem? hk)
    refine ⟨n, t, q, s'.area, h1, h2, hw, h3, h4, h5.trans ?_⟩
    have hle : s'.max ≤ s.max := by
      rcases Nat.lt_or_eq_of_le hkj with hlt | rfl
      · obtain ⟨i1, rfl⟩ := List.getElem?_eq_some_iff.1 hk
        obtain ⟨i2, rfl⟩ := List.getElem?_eq_some_iff.1 hj
        have := List.pairwise_iff_getElem.1 hl.sep k j i1 i2 hlt
        omega
      · rw [hk] at hj; cases hj; exact Nat.le_refl _
    exact mul_le_mul_of_nonneg_right (by exact_mod_cast hle) (le_of_lt hch)
  · rintro n t q hn ht hq ⟨g1, g2⟩
    obtain ⟨v, ⟨b, hb, b1, b2⟩, v1, v2⟩ := hl.cover n t q hn ht hq
    have c1 : (s.max : ℚ) * fr.cellHeight < ((v : ℚ) + 1) * fr.cellHeight := lt_of_lt_of_le g1 v2
    have c2 : (v : ℚ) * fr.cellHeight < (bottom (l.drop (j + 1)) : ℚ) * fr.cellHeight := lt_of_le_of_lt v1 g2
    have d1 : (s.max : ℚ) < (v : ℚ) + 1 := lt_of_mul_lt_mul_right c1 (le_of_lt hch)
    have d2 : (v : ℚ) < (bottom (l.drop (j + 1)) : ℚ) := lt_of_mul_lt_mul_right c2 (le_of_lt hch)
    have e1 : s.max < v + 1 := by exact_mod_cast d1
    have e2 : (v : Int) < bottom (l.drop (j + 1)) := by exact_mod_cast d2
    obtain ⟨i, hi⟩ := List.getElem?_of_mem hb
    rcases Nat.lt_trichotomy i j with hlt | rfl | hgt
    · obtain ⟨i1, rfl⟩ := List.getElem?_eq_some_iff.1 hi
      obtain ⟨i2, rfl⟩ := List.getElem?_eq_some_iff.1 hj
      have := List.pairwise_iff_getElem.1 hl.sep i j i1 i2 hlt
      omega
    · rw [hi] at hj; cases hj; omega
    · have := bottom_le_later hl.sep hl.strict hgt hi
      omega

/-- A block that is not a ledge has something beside it on every side. -/
theorem occupied_beside {height climb : Nat} {f : Nat} {c : Int} (hc : c ≤ 65535) (hroom : (height : Int) ≤ c - f) : ∀ {l : List Solid},
    (∀ s ∈ l, s.min < s.max) → bottom l < f + height → (∀ nf nc, (nf, nc) ∈ openings l → Shares height f c nf nc → (f : Int) - climb ≤ nf) →
    ∃ v, Occupied l v ∧ f ≤ v + 1 + climb ∧ v < f + height
  | [], _, hb, _ => by
    simp only [bottom] at hb
    omega
  | s :: l, hst, hb, hop => by
    simp only [bottom] at hb
    have h1 := hst s (List.mem_cons_self ..)
    by_cases hcl : (f : Int) - climb ≤ s.max
    · exact ⟨max s.min (f - climb - 1), ⟨s, List.mem_cons_self .., by omega, by omega⟩, by omega, by omega⟩
    · have hn : ¬ Shares height f c s.max (bottom l) := fun hsh => hcl (hop _ _ (by simp [openings]) hsh)
      rw [Shares] at hn
      obtain ⟨v, ⟨b, hb, hv⟩, h2⟩ := occupied_beside hc hroom (l := l) (fun s hs => hst s (List.mem_cons_of_mem _ hs)) (by omega)
        (fun nf nc h => hop nf nc (by rw [openings]; exact List.mem_cons_of_mem _ h))
      exact ⟨v, ⟨b, List.mem_cons_of_mem _ hb, hv⟩, h2⟩

theorem occupied_geom {l l' : List Solid} (h : geom l' = geom l) {v : Nat} (ho : Occupied l' v) : Occupied l v := by
  obtain ⟨s, hs, h1, h2⟩ := ho
  have : (s.min, s.max) ∈ geom l := by
    rw [← h]
    exact List.mem_map_of_mem (f := fun s : Solid => (s.min, s.max)) hs
  obtain ⟨s', hs', e⟩ := List.mem_map.1 this
  simp only [Prod.mk.injEq] at e
  exact ⟨s', hs', by omega, by omega⟩

theorem strict_geom {l l' : List Solid} (h : geom l' = geom l) (hl : ∀ s ∈ l, s.min < s.max) : ∀ s ∈ l', s.min < s.max := by
  intro s hs
  have : (s.min, s.max) ∈ geom l := by
    rw [← h]
    exact List.mem_map_of_mem (f := fun s : Solid => (s.min, s.max)) hs
  obtain ⟨s', hs', e⟩ := List.mem_map.1 this
  simp only [Prod.mk.injEq] at e
  have := hl s' hs'
  omega

/-- The four cells beside `(x, z)` are in the grid, and each has something at about the height of `y`. -/
structure EdgeCell (fr : Frame) (m : TriMesh ℚ) (w h height climb x z y : Nat) : Prop where
  inside : 1 ≤ x ∧ x + 1 < w ∧ 1 ≤ z ∧ z + 1 < h
  side : ∀ nx nz : Nat, (z = nz ∧ (x = nx + 1 ∨ nx = x + 1)) ∨ (x = nx ∧ (z = nz + 1 ∨ nz = z + 1)) →
    ∃ v, y ≤ v + 1 + climb ∧ v < y + height ∧
      ∃ k t q, m.corners k = some t ∧ InTriangle t q ∧ InCell fr nx nz q ∧ InVoxel fr v q.y

theorem neighbourCell_of_adjacent {w h x z nx nz : Nat} (hx : 1 ≤ x ∧ x + 1 < w) (hz : 1 ≤ z ∧ z + 1 < h)
    (ha : (z = nz ∧ (x = nx + 1 ∨ nx = x + 1)) ∨ (x = nx ∧ (z = nz + 1 ∨ nz = z + 1))) : ∃ d < 4, neighbourCell w h x z d = some (nx, nz) := by
  rcases ha with ⟨rfl, rfl | rfl⟩ | ⟨rfl, rfl | rfl⟩
  · exact ⟨0, by omega, by simp [neighbourCell]⟩
  · exact ⟨2, by omega, by simp [neighbourCell]; omega⟩
  · exact ⟨3, by omega, by simp [neighbourCell]⟩
  · exact ⟨1, by omega, by simp [neighbourCell]; omega⟩

theorem edge_of {fr : Frame} {m : TriMesh ℚ} {w h : Nat} {hf : Heightfield} (hw : hf.width = w) (hh : hf.height = h)
    (hcol : ∀ x < w, ∀ z < h, ∃ l l', RasterCol fr m x z l ∧ hf.column (x + z * w) = .ok l' ∧ geom l' = geom l) {height climb x z f : Nat}
    {c : Int} (hc : c ≤ 65535) (hroom : (height : Int) ≤ c - f) (hx : x < w) (hz : z < h)
    (hn : ¬ IsLedgeSpec height climb (neighbours hf x z) f c) : EdgeCell fr m w h height climb x z f := by
  have hv : ∀ d < 4, ∃ nx nz, neighbourCell w h x z d = some (nx, nz) := by
    intro d hd
    cases e : neighbourCell w h x z d with
    | some p => exact ⟨p.1, p.2, rfl⟩
    | none =>
      exfalso
      refine hn (Or.inl ⟨d, hd, ?_⟩)
      unfold VoidSide neighbours
      rw [hw, hh, e]
      trivial
  have hin : 1 ≤ x ∧ x + 1 < w ∧ 1 ≤ z ∧ z + 1 < h := by
    obtain ⟨_, _, e0⟩ := hv 0 (by omega)
    obtain ⟨_, _, e1⟩ := hv 1 (by omega)
    obtain ⟨_, _, e2⟩ := hv 2 (by omega)
    obtain ⟨_, _, e3⟩ := hv 3 (by omega)
    simp only [neighbourCell, Option.ite_none_right_eq_some] at e0 e1 e2 e3
    omega
  refine ⟨hin, fun nx nz ha => ?_⟩
  obtain ⟨d, hd, e⟩ := neighbourCell_of_adjacent ⟨hin.1, hin.2.1⟩ hin.2.2 ha
  have hlt : nx < w ∧ nz < h := by omega
  obtain ⟨l, l', hl, hcl, hg⟩ := hcol nx hlt.1 nz hlt.2
  have hnb : neighbours hf x z d = some l' := by
    unfold neighbours
    rw [hw, hh, e]
    simp only [hcl]
    rfl
  have hb : bottom l' < f + height := by
    by_contra hcon
    refine hn (Or.inl ⟨d, hd, ?_⟩)
    unfold VoidSide
    rw [hnb]
    simp only
    omega
  obtain ⟨v, ho, h1, h2⟩ := occupied_beside hc hroom (climb := climb) (strict_geom hg hl.strict) hb (fun nf nc hm hsh => by
    by_contra hcon
    exact hn (Or.inr (Or.inl ⟨nf, ⟨d, hd, l', hnb, nc, hm, hsh⟩, by omega⟩)))
  exact ⟨v, h1, h2, hl.sound v (occupied_geom hg ho)⟩

theorem solid_spec {fr : Frame} (hs : fr.Sane) {w h : Nat} (hw : 1 ≤ w ∧ w ≤ 32767) (hh : 1 ≤ h ∧ h ≤ 32767) {m : TriMesh ℚ} (hm : m.WF)
    (hbox : ∀ v ∈ m.vertices, fr.aabb.Contains v) (hnew : fr.buildHeightfield = .ok (Heightfield.new w h)) {cfg : Config} {hf : Heightfield}
    (hok : buildSolid cfg m fr = .ok hf) :
    hf.WellFormed ∧ hf.width = w ∧ hf.height = h ∧ ∀ x < w, ∀ z < h, ∃ l, hf.column (x + z * w) = .ok l ∧
      ∀ (j : Nat) (s : Solid), l[j]? = some s → isWalkable s.area = true →
        GoodSolid fr m cfg.walkableHeight x z s (bottom (l.drop (j + 1))) ∧
        EdgeCell fr m w h cfg.walkableHeight cfg.walkableClimb x z s.max := by
  obtain ⟨hf1, r1, wf1, w1, h1, c1⟩ := raster_spec hs hw hh hm hbox cfg.walkableClimb
  rw [buildSolid, hnew, bind_ok, r1, bind_ok] at hok
  obtain ⟨hf2, r2, hok⟩ := bind_inv hok
  obtain ⟨hf3, r3, r4⟩ := bind_inv hok
  obtain ⟨_, e2, wf2, w2, h2, g2⟩ := c15_filters_keep_geometry hf1 wf1 cfg.walkableHeight cfg.walkableClimb _ (List.mem_cons_self ..)
  rw [r2] at e2; cases e2
  obtain ⟨_, e3, wf3, w3, h3, g3⟩ := c15_filters_keep_geometry hf2 wf2 cfg.walkableHeight cfg.walkableClimb
    (hf2.filterLedgeSpans cfg.walkableHeight cfg.walkableClimb) (by simp)
  rw [r3] at e3; cases e3
  obtain ⟨_, e4, wf4, w4, h4, g4⟩ := c15_filters_keep_geometry hf3 wf3 cfg.walkableHeight cfg.walkableClimb
    (hf3.filterWalkableLowHeightSpans cfg.walkableHeight) (by simp)
  rw [r4] at e4; cases e4
  obtain ⟨_, e2, k2⟩ := c16_low_hanging hf1 wf1 cfg.walkableClimb
  rw [r2] at e2; cases e2
  obtain ⟨_, e3, k3⟩ := c17_ledge_verdict hf2 wf2 cfg.walkableHeight cfg.walkableClimb
  rw [r3] at e3; cases e3
  obtain ⟨_, e4, k4⟩ := c18_head_room hf3 wf3 cfg.walkableHeight
  rw [r4] at e4; cases e4
  rw [w1] at w2 g2 k2
  rw [h1] at h2 g2 k2
  rw [w2] at w3 g3 k3
  rw [h2] at h3 g3 k3
  rw [w3] at w4 g4 k4
  rw [h3] at h4 g4 k4
  refine ⟨wf4, w4, h4, fun x hx z hz => ?_⟩
  obtain ⟨l1, a1, hl1⟩ := c1 x hx z hz
  obtain ⟨_, l2, b1, a2, gg2⟩ := g2 x hx z hz
  rw [a1] at b1; cases b1
  obtain ⟨_, l3, b2, a3, gg3⟩ := g3 x hx z hz
  rw [a2] at b2; cases b2
  obtain ⟨_, l4, b3, a4, gg4⟩ := g4 x hx z hz
  rw [a3] at b3; cases b3
  obtain ⟨_, _, b1, b2, ln2, z2, q2⟩ := k2 x hx z hz
  rw [a1] at b1; cases b1
  rw [a2] at b2; cases b2
  obtain ⟨_, _, b2, b3, ln3, q3⟩ := k3 x hx z hz
  rw [a2] at b2; cases b2
  rw [a3] at b3; cases b3
  obtain ⟨_, _, b3, b4, ln4, q4⟩ := k4 x hx z hz
  rw [a3] at b3; cases b3
  rw [a4] at b4; cases b4
  refine ⟨l4, a4, fun j s4 hj hwk => ?_⟩
  have hlt : j < l4.length := (List.getElem?_eq_some_iff.1 hj).1
  have i3 : l3[j]? = some (l3[j]'(by omega)) := List.getElem?_eq_getElem (by omega)
  have i2 : l2[j]? = some (l2[j]'(by omega)) := List.getElem?_eq_getElem (by omega)
  have i1 : l1[j]? = some (l1[j]'(by omega)) := List.getElem?_eq_getElem (by omega)
  generalize l3[j]'(by omega) = s3 at i3
  generalize l2[j]'(by omega) = s2 at i2
  generalize l1[j]'(by omega) = s1 at i1
  -- the geometry is that of the rasterized column
  have m43 : s4.max = s3.max := (q4 j s3 s4 i3 hj).2.1
  have m32 : s3.max = s2.max := by
    have := geom_get gg3 j
    rw [i3, i2] at this
    simp only [Option.map_some, Option.some.injEq, Prod.mk.injEq] at this
    exact this.2
  have m21 : s2.max = s1.max := by
    have := geom_get gg2 j
    rw [i2, i1] at this
    simp only [Option.map_some, Option.some.injEq, Prod.mk.injEq] at this
    exact this.2
  have bot : bottom (l4.drop (j + 1)) = bottom (l1.drop (j + 1)) := by
    rw [bottom_geom (geom_drop gg4 _), bottom_geom (geom_drop gg3 _), bottom_geom (geom_drop gg2 _)]
  have bot3 : bottom (l3.drop (j + 1)) = bottom (l1.drop (j + 1)) := by
    rw [bottom_geom (geom_drop gg3 _), bottom_geom (geom_drop gg2 _)]
  obtain ⟨hw3, hroom⟩ := (q4 j s3 s4 i3 hj).2.2.1.1 hwk
  have hw2 : isWalkable s2.area = true ∧
      ¬ IsLedgeSpec cfg.walkableHeight cfg.walkableClimb (neighbours hf2 x z) s2.max (bottom (l2.drop (j + 1))) := by
    have := q3 j s2 i2
    rw [i3] at this
    simp only [Option.some.injEq] at this
    subst this
    split at hw3
    · simp [isWalkable] at hw3
    · rename_i hnl
      exact ⟨hw3, hnl⟩
  obtain ⟨hw2, hnl⟩ := hw2
  have hroom1 : (cfg.walkableHeight : Int) ≤ bottom (l1.drop (j + 1)) - s1.max := by rw [bot3] at hroom; omega
  have hgood : GoodSolid fr m cfg.walkableHeight x z s1 (bottom (l1.drop (j + 1))) := by
    cases j with
    | zero =>
      rw [i1, i2] at z2
      cases z2
      exact goodSolid_of hs hl1 i1 i1 (Nat.le_refl _) hw2 hroom1
    | succ j =>
      have hlt1 : j < l1.length := by omega
      have ip : l1[j]? = some l1[j] := List.getElem?_eq_getElem hlt1
      have := q2 j _ s1 ip i1
      rw [i2] at this
      simp only [Option.some.injEq] at this
      by_cases hc : isWalkable s1.area = false ∧ isWalkable l1[j].area = true ∧ s1.max ≤ l1[j].max + cfg.walkableClimb
      · exact goodSolid_of hs hl1 i1 ip (Nat.le_succ j) hc.2.1 hroom1
      · rw [if_neg hc] at this
        subst this
        exact goodSolid_of hs hl1 i1 i1 (Nat.le_refl _) hw2 hroom1
  have hmx : s4.max = s1.max := by omega
  rw [bot]
  have hedge : EdgeCell fr m w h cfg.walkableHeight cfg.walkableClimb x z s2.max := by
    refine edge_of w2 h2 ?_ ?_ ?_ hx hz hnl
    · intro x' hx' z' hz'
      obtain ⟨l, a, hl⟩ := c1 x' hx' z' hz'
      obtain ⟨_, l', b, a', g⟩ := g2 x' hx' z' hz'
      rw [a] at b; cases b
      exact ⟨l, l', hl, a', g⟩
    · obtain ⟨cols, hr⟩ := wf2.toRep
      have hcol := hr.column (x := x) (z := z) (by rw [w2]; exact hx) (by rw [h2]; exact hz)
      rw [w2, a2] at hcol
      have hbd := hr.bnd (x + z * w) (by rw [w2, h2]; exact col_lt hx hz)
      cases hcol
      cases hd : List.drop (j + 1) (solids (cols (x + z * w))) with
      | nil => exact Int.le_refl _
      | cons b r =>
        have := hbd b (List.mem_of_mem_drop (i := j + 1) (by rw [hd]; exact List.mem_cons_self ..))
        simp only [bottom]
        omega
    · have : bottom (l2.drop (j + 1)) = bottom (l1.drop (j + 1)) := by rw [bottom_geom (geom_drop gg2 _)]
      omega
  obtain ⟨p1, p2, p3, p4⟩ := hgood
  rw [← hmx] at p1 p2 p3 p4
  rw [show s2.max = s4.max by omega] at hedge
  exact ⟨⟨p1, p2, p3, p4⟩, hedge⟩

end Rerecast
