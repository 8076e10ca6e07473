import Verif.Lemmas.Connect
/-! `into_compact` as a whole. -/
set_option linter.unusedVariables false
namespace Rerecast
open Heightfield

theorem cellSpec_range (cols c) :
    (cellSpec cols c).indexRange = List.range' (surfacesUpTo cols c).length (surfaces (solids (cols c))).length := by
  unfold cellSpec
  split
  · rename_i h; rw [h]; rfl
  · rfl

theorem cellSpec_partition (cols) : ∀ c, ((List.range c).map (cellSpec cols)).flatMap CompactCell.indexRange =
    List.range (surfacesUpTo cols c).length
  | 0 => rfl
  | c + 1 => by
    rw [List.range_succ, List.map_append, List.flatMap_append, cellSpec_partition cols c, surfacesUpTo_succ,
      List.length_append, List.range_eq_range', List.range_eq_range']
    simp only [List.map_cons, List.map_nil, List.flatMap_cons, List.flatMap_nil, List.append_nil, cellSpec_range]
    have := List.range'_append (s := 0) (m := (surfacesUpTo cols c).length)
      (n := (surfaces (solids (cols c))).length) (step := 1)
    simpa using this

theorem surfacesUpTo_get (cols) {c n : Nat} (hc : c < n) {j : Nat} (hj : j < (surfaces (solids (cols c))).length) :
    (surfacesUpTo cols n)[(surfacesUpTo cols c).length + j]? = (surfaces (solids (cols c)))[j]? := by
  induction n with
  | zero => omega
  | succ n ih =>
    rw [surfacesUpTo_succ]
    by_cases h : c = n
    · subst h
      rw [List.getElem?_append_right (by omega)]
      congr 1; omega
    · have hm : (surfacesUpTo cols (c + 1)).length ≤ (surfacesUpTo cols n).length := surfacesUpTo_mono cols (by omega)
      rw [surfacesUpTo_succ, List.length_append] at hm
      rw [List.getElem?_append_left (by omega)]
      exact ih (by omega)

theorem mkSpan_y (u) : (mkSpan u).y = u.floor := rfl
theorem mkSpan_height (u : Surface) (h : u.clearance ≤ 255) : (mkSpan u).height = u.clearance := height_setHeight _ h

theorem surfaces_mem : ∀ {l : List Solid} {u}, u ∈ surfaces l → (∀ s ∈ l, s.min ≤ s.max ∧ s.max ≤ 65535) →
    u.clearance ≤ 255 ∧ u.floor + u.clearance ≤ 65535 ∧ isWalkable u.area = true
  | [], u, h, _ => by simp [surfaces] at h
  | s :: l, u, h, hb => by
    have hb' := fun t ht => hb t (List.mem_cons_of_mem _ ht)
    unfold surfaces at h
    split at h
    · rename_i hw
      simp only [List.mem_cons] at h
      rcases h with rfl | h
      · have h1 := hb s (by simp)
        have h2 : bottom l ≤ 65535 := by
          cases l with
          | nil => simp [bottom]
          | cons t l =>
            have := hb t (by simp)
            simp only [bottom]; omega
        exact ⟨by simp only; omega, by simp only; omega, hw⟩
      · exact surfaces_mem h hb'
    · exact surfaces_mem h hb'

/-- The result of `into_compact` before the layer check. -/
def compactOf (hf : Heightfield) (wh climb : Nat) (cols : Nat → List Entry) (spans : List CompactSpan) : CompactHeightfield :=
  { width := hf.width, height := hf.height, walkableHeight := wh, walkableClimb := climb, borderSize := 0,
    maxDistance := 0, maxRegion := REGION_NONE, cells := (List.range (hf.width * hf.height)).map (cellSpec cols), spans,
    dist := [], areas := (surfacesUpTo cols (hf.width * hf.height)).map Surface.area }

theorem intoCompact_spec {hf : Heightfield} {cols} (hr : Rep hf cols) (wh climb : Nat)
    (hN : (surfacesUpTo cols (hf.width * hf.height)).length < 2 ^ 32)
    (hcnt : ∀ c < hf.width * hf.height, (surfaces (solids (cols c))).length ≤ 255) :
    ∃ spans ml, ConInv hf.width hf.height wh climb ((List.range (hf.width * hf.height)).map (cellSpec cols))
        ((surfacesUpTo cols (hf.width * hf.height)).map mkSpan) (fun c i d =>
        d < 4 ∧ ∃ cell, ((List.range (hf.width * hf.height)).map (cellSpec cols))[c]? = some cell ∧
          i ∈ cell.indexRange) (spans, ml) ∧
      hf.intoCompact wh climb = if ml > 62 then .error .err else .ok (compactOf hf wh climb cols spans) := by
  have hcon := connectAll_spec (hf := hf) (wh := wh) (climb := climb)
    (cells := (List.range (hf.width * hf.height)).map (cellSpec cols))
    (spans0 := (surfacesUpTo cols (hf.width * hf.height)).map mkSpan) (by simp)
    (by rw [cellSpec_partition, List.length_map])
    (by
      intro s hs
      obtain ⟨u, hu, rfl⟩ := List.mem_map.1 hs
      simp only [surfacesUpTo, List.mem_flatMap, List.mem_range] at hu
      obtain ⟨c, hc, hu⟩ := hu
      obtain ⟨h1, h2, _⟩ := surfaces_mem hu (hr.bnd c hc)
      rw [mkSpan_height _ h1, mkSpan_y]; exact h2)
  obtain ⟨⟨spans, ml⟩, h1, h2⟩ := hcon
  refine ⟨spans, ml, h2, ?_⟩
  unfold intoCompact
  rw [fill_ok hr hN hcnt, bind_ok]
  have e : fillSpec cols (hf.width * hf.height) (hf.width * hf.height) =
      ⟨(List.range (hf.width * hf.height)).map (cellSpec cols),
        (surfacesUpTo cols (hf.width * hf.height)).map mkSpan,
        (surfacesUpTo cols (hf.width * hf.height)).map Surface.area,
        (surfacesUpTo cols (hf.width * hf.height)).length⟩ := by
    simp [fillSpec]
  rw [e]
  simp only [h1, bind_ok]
  rfl

theorem mapM_range' {β} (f : Nat → Res β) : ∀ (L : List β) (a : Nat), (∀ (j : Nat) (hj : j < L.length), f (a + j) = .ok L[j]) →
    (List.range' a L.length).mapM f = .ok L
  | [], a, _ => rfl
  | b :: L, a, h => by
    rw [List.length_cons, List.range'_succ, List.mapM_cons]
    have h0 := h 0 (by simp)
    simp only [Nat.add_zero, List.getElem_cons_zero] at h0
    rw [h0, bind_ok, mapM_range' f L (a + 1) (fun j hj => by
      have := h (j + 1) (by simpa using hj)
      simp only [List.getElem_cons_succ] at this
      rw [← this]; congr 1; omega)]
    rfl

theorem walkable_le_spanCount (hf : Heightfield) : hf.walkableSpanCount = hf.spanCount := by
  unfold walkableSpanCount spanCount
  rw [List.countP_eq_length_filter]
  rfl

/-- Everything about a successful conversion, in terms of the columns. -/
structure Converted (hf : Heightfield) (wh climb : Nat) (cols : Nat → List Entry) (spans : List CompactSpan) : Prop where
  same : SameGeo spans ((surfacesUpTo cols (hf.width * hf.height)).map mkSpan)
  ok : ∀ c i d, d < 4 → (∃ cell, ((List.range (hf.width * hf.height)).map (cellSpec cols))[c]? = some cell ∧
          i ∈ cell.indexRange) → ConOK hf.width hf.height wh climb
          ((List.range (hf.width * hf.height)).map (cellSpec cols)) spans spans c i d

theorem reaches_iff_fits {hf : Heightfield} {wh climb cols spans} {x z i d j : Nat} {s : CompactSpan} (hx : x < hf.width)
    (hs : spans[i]? = some s) :
    (∃ k t, (compactOf hf wh climb cols spans).Reaches x z s d j k t) ↔
    Fits hf.width hf.height wh climb ((List.range (hf.width * hf.height)).map (cellSpec cols)) spans (x + z * hf.width) i d j := by
  obtain ⟨e1, e2⟩ := col_divmod (z := z) hx
  unfold Fits CompactHeightfield.Reaches compactOf
  simp only [e1, e2]
  constructor
  · rintro ⟨k, t, nx, nz, nb, h1, h2, h3, h4, h5, h6⟩
    subst h4
    exact ⟨nx, nz, nb, s, t, h1, h2, h3, hs, h5, h6⟩
  · rintro ⟨nx, nz, nb, s', t, h1, h2, h3, h4, h5, h6⟩
    rw [hs] at h4; cases h4
    exact ⟨nb.index + j, t, nx, nz, nb, h1, h2, h3, rfl, h5, h6⟩

theorem conOK_congr {w h wh climb cells spans0 spans c i d} (hg : SameGeo spans spans0)
    (hk : ConOK w h wh climb cells spans0 spans c i d) : ConOK w h wh climb cells spans spans c i d := by
  obtain ⟨s, hs, h1, h2⟩ := hk
  refine ⟨s, hs, ?_, ?_⟩
  · intro l hl
    obtain ⟨a, b, e⟩ := h1 l hl
    exact ⟨a, (fits_congr hg).2 b, fun j hj hf => e j hj ((fits_congr hg).1 hf)⟩
  · intro hn j hj hf
    exact h2 hn j hj ((fits_congr hg).1 hf)

/-- `Fits` on the freshly filled spans, in terms of surfaces. -/
theorem fits_surfaces {hf : Heightfield} {cols} (hr : Rep hf cols) {wh climb c m d j : Nat} (hc : c < hf.width * hf.height)
    {a : Surface} (ha : (surfaces (solids (cols c)))[m]? = some a) :
    Fits hf.width hf.height wh climb ((List.range (hf.width * hf.height)).map (cellSpec cols))
      ((surfacesUpTo cols (hf.width * hf.height)).map mkSpan) c ((surfacesUpTo cols c).length + m) d j ↔
    ∃ nx nz, neighbourCell hf.width hf.height (c % hf.width) (c / hf.width) d = some (nx, nz) ∧
      nx < hf.width ∧ nz < hf.height ∧
      ∃ b, (surfaces (solids (cols (nx + nz * hf.width))))[j]? = some b ∧ Joinable wh climb a b := by
  obtain ⟨hx, hz, hxz⟩ := col_div hc
  have hm : m < (surfaces (solids (cols c))).length := by rw [List.getElem?_eq_some_iff] at ha; exact ha.1
  have hsa : ((surfacesUpTo cols (hf.width * hf.height)).map mkSpan)[(surfacesUpTo cols c).length + m]? = some (mkSpan a) := by
    rw [List.getElem?_map, surfacesUpTo_get cols hc hm, ha]; rfl
  have hca := surfaces_mem (List.mem_of_getElem? ha) (hr.bnd c hc)
  have hjoin : ∀ c' < hf.width * hf.height, ∀ (j : Nat) (b : Surface), (surfaces (solids (cols c')))[j]? = some b →
      (Connectable wh climb (mkSpan a) (mkSpan b) ↔ Joinable wh climb a b) := by
    intro c' hc' j b hb
    have hcb := surfaces_mem (List.mem_of_getElem? hb) (hr.bnd c' hc')
    unfold Connectable Joinable
    rw [mkSpan_height _ hca.1, mkSpan_height _ hcb.1]; rfl
  constructor
  · rintro ⟨nx, nz, nb, s, t, h1, h2, h3, h4, h5, h6⟩
    rw [hsa] at h4; cases h4
    have hn : nx < hf.width ∧ nz < hf.height := by
      unfold neighbourCell at h1
      split at h1 <;> split at h1 <;> cases h1 <;> omega
    refine ⟨nx, nz, h1, hn.1, hn.2, ?_⟩
    have hcol := col_lt hn.1 hn.2
    rw [List.getElem?_map, List.getElem?_range hcol] at h2
    simp only [Option.map_some, Option.some.injEq] at h2
    have hir := cellSpec_range cols (nx + nz * hf.width)
    rw [h2] at hir
    have hlen : nb.count = (surfaces (solids (cols (nx + nz * hf.width)))).length := by
      have := congrArg List.length hir
      simpa [CompactCell.indexRange] using this
    have hidx : nb.index = (surfacesUpTo cols (nx + nz * hf.width)).length := by
      have h0 : 0 < nb.count := by omega
      unfold CompactCell.indexRange at hir
      rw [hlen] at hir
      obtain ⟨q, hq⟩ : ∃ q, (surfaces (solids (cols (nx + nz * hf.width)))).length = q + 1 := ⟨nb.count - 1, by omega⟩
      rw [hq, List.range'_succ, List.range'_succ] at hir
      exact (List.cons.inj hir).1
    rw [hlen] at h3
    rw [hidx, List.getElem?_map, surfacesUpTo_get cols hcol h3] at h5
    obtain ⟨b, hb, rfl⟩ := Option.map_eq_some_iff.1 h5
    exact ⟨b, hb, (hjoin _ hcol j b hb).1 h6⟩
  · rintro ⟨nx, nz, h1, h2, h3, b, hb, hj⟩
    have hcol := col_lt h2 h3
    have hjl : j < (surfaces (solids (cols (nx + nz * hf.width)))).length := by
      rw [List.getElem?_eq_some_iff] at hb; exact hb.1
    have hne : solids (cols (nx + nz * hf.width)) ≠ [] := by
      intro h; rw [h] at hjl; simp [surfaces] at hjl
    refine ⟨nx, nz, cellSpec cols (nx + nz * hf.width), mkSpan a, mkSpan b, h1, ?_, ?_, hsa, ?_, (hjoin _ hcol j b hb).2 hj⟩
    · rw [List.getElem?_map, List.getElem?_range hcol]; rfl
    · simp only [cellSpec, hne, if_false]; exact hjl
    · simp only [cellSpec, hne, if_false]
      rw [List.getElem?_map, surfacesUpTo_get cols hcol hjl, hb]; rfl

theorem bottom_le_max : ∀ {l : List Solid} {s}, s ∈ l → Separated l → (∀ s ∈ l, s.min ≤ s.max ∧ s.max ≤ 65535) →
    bottom l ≤ s.max
  | t :: l, s, h, hs, hb => by
    have ht := hb t (by simp)
    simp only [List.mem_cons] at h
    simp only [bottom]
    rcases h with rfl | h
    · omega
    · have := (List.pairwise_cons.1 hs).1 s h
      have := hb s (by simp [h])
      omega

theorem surfaces_floor_mem : ∀ {l : List Solid} {u}, u ∈ surfaces l → ∃ s ∈ l, u.floor = s.max
  | s :: l, u, h => by
    unfold surfaces at h
    split at h
    · simp only [List.mem_cons] at h
      rcases h with rfl | h
      · exact ⟨s, by simp, rfl⟩
      · obtain ⟨t, h1, h2⟩ := surfaces_floor_mem h; exact ⟨t, by simp [h1], h2⟩
    · obtain ⟨t, h1, h2⟩ := surfaces_floor_mem h; exact ⟨t, by simp [h1], h2⟩

/-- The space above a surface ends below the next surface of the same column. -/
theorem surfaces_pairwise : ∀ {l : List Solid}, Separated l → (∀ s ∈ l, s.min ≤ s.max ∧ s.max ≤ 65535) →
    (surfaces l).Pairwise fun a b => a.floor + a.clearance ≤ b.floor
  | [], _, _ => by simp [surfaces]
  | s :: l, hs, hb => by
    have hs' := (List.pairwise_cons.1 hs)
    have hb' := fun t ht => hb t (List.mem_cons_of_mem _ ht)
    unfold surfaces
    split
    · refine List.pairwise_cons.2 ⟨?_, surfaces_pairwise hs'.2 hb'⟩
      intro u hu
      obtain ⟨t, ht, e⟩ := surfaces_floor_mem hu
      have h1 := bottom_le_max ht hs'.2 hb'
      have h2 := hs'.1 t ht
      have h3 := hb' t ht
      simp only; omega
    · exact surfaces_pairwise hs'.2 hb'

theorem neighbourCell_lt {w h x z d nx nz : Nat} (hx : x < w) (hz : z < h) (hn : neighbourCell w h x z d = some (nx, nz)) :
    nx < w ∧ nz < h := by
  unfold neighbourCell at hn
  split at hn <;> split at hn <;> cases hn <;> omega

theorem neighbourCell_opp {w h x z d nx nz : Nat} (hd : d < 4) (hx : x < w) (hz : z < h)
    (hn : neighbourCell w h x z d = some (nx, nz)) : neighbourCell w h nx nz ((d + 2) % 4) = some (x, z) := by
  have h4 : d = 0 ∨ d = 1 ∨ d = 2 ∨ d = 3 := by omega
  rcases h4 with rfl | rfl | rfl | rfl <;> simp only [neighbourCell] at hn ⊢ <;> split at hn <;> cases hn
  · simp; omega
  · simp
  · simp
  · simp; omega

end Rerecast
