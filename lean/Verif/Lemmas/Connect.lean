import Verif.Lemmas.Fill
/-! The second pass of `into_compact`. -/
set_option linter.unusedVariables false
namespace Rerecast
open Heightfield

/-- `spans[i]` and the `j`-th span of a neighbouring range are connectable. -/
def CanConnect (wh climb : Nat) (spans : List CompactSpan) (s : CompactSpan) (base j : Nat) : Prop :=
  ∃ t, spans[base + j]? = some t ∧ Connectable wh climb s t

theorem connectScan_spec (wh climb : Nat) (spans : List CompactSpan) (s : CompactSpan) (base : Nat)
    (hov : s.y + s.height ≤ 65535) : ∀ (m j0 ml : Nat),
    (∀ j, j0 ≤ j → j < j0 + m → ∃ t, spans[base + j]? = some t ∧ t.y + t.height ≤ 65535) →
    ∃ con ml', connectScan wh climb spans s base (List.range' (base + j0) m) ml = .ok (con, ml') ∧
      (∀ l, con = some l → j0 ≤ l ∧ l < j0 + m ∧ l < 62 ∧ CanConnect wh climb spans s base l ∧
        ∀ j, j0 ≤ j → j < l → ¬ CanConnect wh climb spans s base j) ∧
      (con = none → ∀ j, j0 ≤ j → j < j0 + m → j < 62 → ¬ CanConnect wh climb spans s base j) ∧
      (ml' > 62 ↔ ml > 62 ∨ (con = none ∧ ∃ j, j0 ≤ j ∧ j < j0 + m ∧ 62 < j ∧ CanConnect wh climb spans s base j))
  | 0, j0, ml, _ => by
    refine ⟨none, ml, rfl, (by intro l h; cases h), (by intro _ j h1 h2; omega), ?_⟩
    constructor
    · exact Or.inl
    · rintro (h | ⟨_, j, h1, h2, _⟩)
      · exact h
      · omega
  | m + 1, j0, ml, hin => by
    obtain ⟨t, ht, hto⟩ := hin j0 (Nat.le_refl _) (by omega)
    have hin' : ∀ j, j0 + 1 ≤ j → j < j0 + 1 + m → ∃ t, spans[base + j]? = some t ∧ t.y + t.height ≤ 65535 :=
      fun j h1 h2 => hin j (by omega) (by omega)
    rw [List.range'_succ]
    simp only [connectScan, idx_some ht, bind_ok, addU16, hov, hto, if_true]
    have hC0 : CanConnect wh climb spans s base j0 ↔ Connectable wh climb s t := by
      constructor
      · rintro ⟨t', ht', h⟩; rw [ht] at ht'; cases ht'; exact h
      · intro h; exact ⟨t, ht, h⟩
    have hcond : ((!decide (((min (s.y + s.height) (t.y + t.height) : Nat) : Int) - ((max s.y t.y : Nat) : Int) ≥ wh) ||
        !decide ((((t.y : Int) - (s.y : Int)).natAbs : Int) ≤ climb)) = true) ↔ ¬ Connectable wh climb s t := by
      unfold Connectable
      simp only [Bool.or_eq_true, Bool.not_eq_true', decide_eq_false_iff_not]
      constructor
      · rintro (h | h) ⟨h1, h2⟩
        · exact h h1
        · exact h (by omega)
      · intro h
        by_cases h1 : ((min (s.y + s.height) (t.y + t.height) : Nat) : Int) - ((max s.y t.y : Nat) : Int) ≥ wh
        · right; intro h2; exact h ⟨h1, by omega⟩
        · left; exact h1
    by_cases hcon : Connectable wh climb s t
    · rw [if_neg (fun h => (hcond.1 h) hcon)]
      have hsub : base + j0 - base = j0 := by omega
      rw [hsub]
      by_cases hl : j0 ≥ MAX_LAYERS
      · rw [if_pos hl]
        have hl' : 62 ≤ j0 := hl
        obtain ⟨con, ml', g1, g2, g3, g4⟩ :=
          connectScan_spec wh climb spans s base hov m (j0 + 1) (max ml j0) hin'
        refine ⟨con, ml', g1, ?_, ?_, ?_⟩
        · intro l hl2; obtain ⟨a, b, c, d, e⟩ := g2 l hl2; omega
        · intro hn j h1 h2 h3; omega
        · rw [g4]
          constructor
          · rintro (h | ⟨h, j, h1, h2, h3, h4⟩)
            · by_cases hm : ml > 62
              · exact Or.inl hm
              · right
                refine ⟨?_, j0, Nat.le_refl _, by omega, by omega, hC0.2 hcon⟩
                cases hco : con with
                | none => rfl
                | some l => obtain ⟨a, b, c, _⟩ := g2 l hco; omega
            · exact Or.inr ⟨h, j, by omega, by omega, h3, h4⟩
          · rintro (h | ⟨h, j, h1, h2, h3, h4⟩)
            · left; omega
            · by_cases hj : j = j0
              · left; omega
              · right; exact ⟨h, j, by omega, by omega, h3, h4⟩
      · rw [if_neg hl]
        have hl' : ¬ 62 ≤ j0 := hl
        refine ⟨some j0, ml, rfl, ?_, ?_, ?_⟩
        · intro l hl2; cases hl2
          exact ⟨Nat.le_refl _, by omega, by omega, hC0.2 hcon, fun j h1 h2 => by omega⟩
        · intro h; cases h
        · constructor
          · exact Or.inl
          · rintro (h | ⟨h, _⟩)
            · exact h
            · cases h
    · rw [if_pos (hcond.2 hcon)]
      obtain ⟨con, ml', g1, g2, g3, g4⟩ := connectScan_spec wh climb spans s base hov m (j0 + 1) ml hin'
      refine ⟨con, ml', g1, ?_, ?_, ?_⟩
      · intro l hl2
        obtain ⟨a, b, c, d, e⟩ := g2 l hl2
        refine ⟨by omega, by omega, c, d, fun j h1 h2 => ?_⟩
        by_cases hj : j = j0
        · subst hj; exact fun h => hcon (hC0.1 h)
        · exact e j (by omega) h2
      · intro hn j h1 h2 h3
        by_cases hj : j = j0
        · subst hj; exact fun h => hcon (hC0.1 h)
        · exact g3 hn j (by omega) (by omega) h3
      · rw [g4]
        constructor
        · rintro (h | ⟨h, j, h1, h2, h3, h4⟩)
          · exact Or.inl h
          · exact Or.inr ⟨h, j, by omega, by omega, h3, h4⟩
        · rintro (h | ⟨h, j, h1, h2, h3, h4⟩)
          · exact Or.inl h
          · have hj : j ≠ j0 := by rintro rfl; exact hcon (hC0.1 h4)
            exact Or.inr ⟨h, j, by omega, by omega, h3, h4⟩

/-- Span `i` of column `c` and the `j`-th span of the adjacent cell in direction `d` are connectable. -/
def Fits (w h wh climb : Nat) (cells : List CompactCell) (spans : List CompactSpan) (c i d j : Nat) : Prop :=
  ∃ nx nz nb s t, neighbourCell w h (c % w) (c / w) d = some (nx, nz) ∧ cells[nx + nz * w]? = some nb ∧
    j < nb.count ∧ spans[i]? = some s ∧ spans[nb.index + j]? = some t ∧ Connectable wh climb s t

def geo (s : CompactSpan) : Nat × Nat := (s.y, s.height)

def SameGeo (spans spans' : List CompactSpan) : Prop := ∀ i : Nat, (spans[i]?).map geo = (spans'[i]?).map geo

theorem SameGeo.refl (s) : SameGeo s s := fun _ => rfl
theorem SameGeo.symm {s t} (h : SameGeo s t) : SameGeo t s := fun i => (h i).symm
theorem SameGeo.trans {s t u} (h : SameGeo s t) (h' : SameGeo t u) : SameGeo s u := fun i => (h i).trans (h' i)

theorem SameGeo.get {s t : List CompactSpan} (h : SameGeo s t) {i : Nat} {a : CompactSpan} (ha : s[i]? = some a) :
    ∃ b, t[i]? = some b ∧ a.y = b.y ∧ a.height = b.height := by
  have := h i
  rw [ha] at this
  cases hb : t[i]? with
  | none => rw [hb] at this; simp at this
  | some b =>
    rw [hb] at this
    simp [geo] at this
    exact ⟨b, rfl, this.1, this.2⟩

theorem SameGeo.length {s t : List CompactSpan} (h : SameGeo s t) : s.length = t.length := by
  rcases Nat.lt_trichotomy s.length t.length with hl | hl | hl
  · obtain ⟨b, hb, _⟩ := h.symm.get (List.getElem?_eq_getElem hl)
    rw [List.getElem?_eq_some_iff] at hb; exact absurd hb.1 (by omega)
  · exact hl
  · obtain ⟨b, hb, _⟩ := h.get (List.getElem?_eq_getElem hl)
    rw [List.getElem?_eq_some_iff] at hb; exact absurd hb.1 (by omega)

theorem connectable_congr {wh climb : Nat} {a b a' b' : CompactSpan} (h1 : a.y = a'.y) (h2 : a.height = a'.height)
    (h3 : b.y = b'.y) (h4 : b.height = b'.height) : Connectable wh climb a b ↔ Connectable wh climb a' b' := by
  unfold Connectable; rw [h1, h2, h3, h4]

theorem Fits.congr {w h wh climb cells spans spans' c i d j} (hg : SameGeo spans spans')
    (hfit : Fits w h wh climb cells spans c i d j) : Fits w h wh climb cells spans' c i d j := by
  obtain ⟨nx, nz, nb, s, t, h1, h2, h3, h4, h5, h6⟩ := hfit
  obtain ⟨s', hs', e1, e2⟩ := hg.get h4
  obtain ⟨t', ht', e3, e4⟩ := hg.get h5
  exact ⟨nx, nz, nb, s', t', h1, h2, h3, hs', ht', (connectable_congr e1 e2 e3 e4).1 h6⟩

theorem fits_congr {w h wh climb cells spans spans' c i d j} (hg : SameGeo spans spans') :
    Fits w h wh climb cells spans c i d j ↔ Fits w h wh climb cells spans' c i d j :=
  ⟨Fits.congr hg, Fits.congr hg.symm⟩

/-- The stored connection of span `i` is the right one. -/
def ConOK (w h wh climb : Nat) (cells : List CompactCell) (spans0 spans : List CompactSpan) (c i d : Nat) : Prop :=
  ∃ s, spans[i]? = some s ∧
    (∀ l, s.con d = some l → l < 62 ∧ Fits w h wh climb cells spans0 c i d l ∧
      ∀ j < l, ¬ Fits w h wh climb cells spans0 c i d j) ∧
    (s.con d = none → ∀ j < 62, ¬ Fits w h wh climb cells spans0 c i d j)

def Over (w h wh climb : Nat) (cells : List CompactCell) (spans0 : List CompactSpan) (c i d : Nat) : Prop :=
  (∀ j < 62, ¬ Fits w h wh climb cells spans0 c i d j) ∧ ∃ j, 62 < j ∧ Fits w h wh climb cells spans0 c i d j

/-- Invariant of the connection loops; `D` is the set of finished `(column, span, direction)` triples. -/
def ConInv (w h wh climb : Nat) (cells : List CompactCell) (spans0 : List CompactSpan)
    (D : Nat → Nat → Nat → Prop) (st : List CompactSpan × Nat) : Prop :=
  SameGeo st.1 spans0 ∧ (∀ c i d, D c i d → ConOK w h wh climb cells spans0 st.1 c i d) ∧
  (st.2 > 62 ↔ ∃ c i d, D c i d ∧ Over w h wh climb cells spans0 c i d)

theorem ConInv.congr {w h wh climb cells spans0 D D' st} (hi : ConInv w h wh climb cells spans0 D st)
    (hD : ∀ c i d, D' c i d ↔ D c i d) : ConInv w h wh climb cells spans0 D' st := by
  have : D' = D := by funext c i d; exact propext (hD c i d)
  rw [this]; exact hi

theorem sameGeo_setCon {spans : List CompactSpan} {i d : Nat} {s} (hs : spans[i]? = some s) (hd : d < 4) (v) :
    SameGeo (spans.set i (s.setCon d v)) spans := by
  intro j
  by_cases hj : i = j
  · subst hj
    have hlt : i < spans.length := by rw [List.getElem?_eq_some_iff] at hs; exact hs.1
    rw [List.getElem?_set_self hlt, hs]
    simp only [Option.map_some, geo, height_setCon _ hd]
    rfl
  · rw [List.getElem?_set_ne hj]

theorem connectDir_spec {hf : Heightfield} {wh climb : Nat} {cells : List CompactCell} {spans0 : List CompactSpan}
    (hcl : cells.length = hf.width * hf.height)
    (hrange : ∀ cell ∈ cells, ∀ i ∈ cell.indexRange, i < spans0.length)
    (hov : ∀ s ∈ spans0, s.y + s.height ≤ 65535)
    {c i d : Nat} (hc : c < hf.width * hf.height) (hi : i < spans0.length) (hd : d < 4)
    {D : Nat → Nat → Nat → Prop} (hD : ∀ c' d', D c' i d' → d' ≠ d ∧ d' < 4)
    {st} (hst : ConInv hf.width hf.height wh climb cells spans0 D st) :
    Total (connectDir hf wh climb cells (c % hf.width) (c / hf.width) i st d)
      (ConInv hf.width hf.height wh climb cells spans0 fun c' i' d' => D c' i' d' ∨ (c' = c ∧ i' = i ∧ d' = d)) := by
  obtain ⟨spans, ml⟩ := st
  obtain ⟨hg, hok, hml⟩ := hst
  simp only at hg hok hml
  obtain ⟨hx, hz, hxz⟩ := col_div hc
  have hi' : i < spans.length := by rw [hg.length]; exact hi
  have hs : spans[i]? = some spans[i] := List.getElem?_eq_getElem hi'
  generalize spans[i] = s at hs
  -- old triples survive a write to slot `d` of span `i`
  have hold : ∀ s2 v2 : CompactSpan, (∀ d' < 4, d' ≠ d → s2.con d' = s.con d') →
      ∀ c' i' d', D c' i' d' → ConOK hf.width hf.height wh climb cells spans0 (spans.set i s2) c' i' d' := by
    intro s2 _ h2 c' i' d' hD'
    obtain ⟨t, ht, h3, h4⟩ := hok c' i' d' hD'
    by_cases hii : i = i'
    · subst hii
      rw [hs] at ht; cases ht
      obtain ⟨hne, hd4⟩ := hD _ _ hD'
      refine ⟨s2, List.getElem?_set_self hi', ?_, ?_⟩
      · rw [h2 d' hd4 hne]; exact h3
      · rw [h2 d' hd4 hne]; exact h4
    · exact ⟨t, by rw [List.getElem?_set_ne hii]; exact ht, h3, h4⟩
  have hg1 : SameGeo (spans.set i (s.setCon d none)) spans0 := (sameGeo_setCon hs hd none).trans hg
  have hi1 : i < (spans.set i (s.setCon d none)).length := by rw [hg1.length]; exact hi
  have hset1 : (spans.set i (s.setCon d none))[i]? = some (s.setCon d none) := List.getElem?_set_self hi'
  have hcn : (s.setCon d none).con d = none := con_setCon_same s hd none (by simp)
  have ho1 : ∀ d' < 4, d' ≠ d → (s.setCon d none).con d' = s.con d' :=
    fun d' h1 h2 => con_setCon_other s hd h1 (fun h => h2 h.symm) none
  unfold connectDir
  simp only [idx_some hs, bind_ok, setIdx_ok hi']
  rcases contains_neighbour hf hd hx hz with ⟨h1, h2⟩ | ⟨h1, h2, h3, h4⟩
  · simp only [h1, Bool.not_false, if_true]
    refine Total.ok ⟨hg1, ?_, ?_⟩
    · rintro c' i' d' (h | ⟨rfl, rfl, rfl⟩)
      · exact hold _ s ho1 c' i' d' h
      · refine ⟨_, hset1, ?_, ?_⟩
        · intro l hl; rw [hcn] at hl; cases hl
        · rintro _ j hj ⟨nx, nz, _, _, _, hn, _⟩; rw [h2] at hn; cases hn
    · rw [hml]
      constructor
      · rintro ⟨c', i', d', h, ho⟩; exact ⟨c', i', d', Or.inl h, ho⟩
      · rintro ⟨c', i', d', h | ⟨rfl, rfl, rfl⟩, ho⟩
        · exact ⟨c', i', d', h, ho⟩
        · obtain ⟨_, j, _, nx, nz, _, _, _, hn, _⟩ := ho; rw [h2] at hn; cases hn
  · simp only [h1, Bool.not_true, Bool.false_eq_true, if_false, columnIndex]
    generalize ((c % hf.width : Nat) : Int) + dirOffsetX d = ix at h1 h2 h3 ⊢
    generalize ((c / hf.width : Nat) : Int) + dirOffsetZ d = iz at h1 h2 h4 ⊢
    generalize ix.toNat = nx at h2 h3 ⊢
    generalize iz.toNat = nz at h2 h4 ⊢
    have hcol : nx + nz * hf.width < cells.length := by rw [hcl]; exact col_lt h3 h4
    have hnb : cells[nx + nz * hf.width]? = some cells[nx + nz * hf.width] := List.getElem?_eq_getElem hcol
    have hnbm : cells[nx + nz * hf.width] ∈ cells := List.getElem_mem hcol
    generalize cells[nx + nz * hf.width] = nb at hnb hnbm
    simp only [idx_some hnb, bind_ok, idx_some hset1]
    have hgeo : ∀ (j : Nat), j < spans0.length → ∃ t, (spans.set i (s.setCon d none))[j]? = some t ∧ t.y + t.height ≤ 65535 := by
      intro j hj
      obtain ⟨t, ht, e1, e2⟩ := hg1.symm.get (List.getElem?_eq_getElem hj)
      refine ⟨t, ht, ?_⟩
      rw [← e1, ← e2]
      exact hov _ (List.getElem_mem hj)
    have hsov : (s.setCon d none).y + (s.setCon d none).height ≤ 65535 := by
      obtain ⟨t, ht, h⟩ := hgeo i hi
      rw [hset1] at ht; cases ht; exact h
    have hjl : ∀ j, j < nb.count → nb.index + j < spans0.length := by
      intro j hj
      exact hrange nb hnbm _ (by simp [CompactCell.indexRange, List.mem_range'_1]; omega)
    obtain ⟨con, ml', g1, g2, g3, g4⟩ := connectScan_spec wh climb (spans.set i (s.setCon d none)) (s.setCon d none)
      nb.index hsov nb.count 0 ml (fun j _ hj => hgeo _ (hjl j (by omega)))
    simp only [Nat.add_zero, Nat.zero_add, Nat.zero_le, true_implies, true_and] at g1 g2 g3 g4
    have hfit : ∀ j, Fits hf.width hf.height wh climb cells spans0 c i d j ↔
        j < nb.count ∧ CanConnect wh climb (spans.set i (s.setCon d none)) (s.setCon d none) nb.index j := by
      intro j
      rw [← fits_congr hg1]
      constructor
      · rintro ⟨nx', nz', nb', a, b, k1, k2, k3, k4, k5, k6⟩
        rw [h2] at k1; cases k1
        rw [hnb] at k2; cases k2
        rw [hset1] at k4; cases k4
        exact ⟨k3, b, k5, k6⟩
      · rintro ⟨k1, b, k2, k3⟩
        exact ⟨nx, nz, nb, _, b, h2, hnb, k1, hset1, k2, k3⟩
    have hover : Over hf.width hf.height wh climb cells spans0 c i d ↔ (con = none ∧ ∃ j < nb.count, 62 < j ∧
        CanConnect wh climb (spans.set i (s.setCon d none)) (s.setCon d none) nb.index j) := by
      constructor
      · rintro ⟨k1, j, k2, k3⟩
        constructor
        · cases hcon : con with
          | none => rfl
          | some l =>
            obtain ⟨a, b, c', e⟩ := g2 l hcon
            exact absurd ((hfit l).2 ⟨a, c'⟩) (k1 l b)
        · exact ⟨j, ((hfit j).1 k3).1, k2, ((hfit j).1 k3).2⟩
      · rintro ⟨k1, j, k2, k3, k4⟩
        exact ⟨fun j hj hf => g3 k1 j ((hfit j).1 hf).1 hj ((hfit j).1 hf).2, j, k3, (hfit j).2 ⟨k2, k4⟩⟩
    have hml' : ml' > 62 ↔ ∃ c' i' d', (D c' i' d' ∨ (c' = c ∧ i' = i ∧ d' = d)) ∧
        Over hf.width hf.height wh climb cells spans0 c' i' d' := by
      rw [g4, ← hover, hml]
      constructor
      · rintro (⟨c', i', d', k1, k2⟩ | k)
        · exact ⟨c', i', d', Or.inl k1, k2⟩
        · exact ⟨c, i, d, Or.inr ⟨rfl, rfl, rfl⟩, k⟩
      · rintro ⟨c', i', d', k | ⟨rfl, rfl, rfl⟩, k2⟩
        · exact Or.inl ⟨c', i', d', k, k2⟩
        · exact Or.inr k2
    have g1' : connectScan wh climb (spans.set i (s.setCon d none)) (s.setCon d none) nb.index nb.indexRange ml
      = .ok (con, ml') := g1
    rw [g1', bind_ok]
    cases hcon : con with
    | none =>
      refine Total.ok ⟨hg1, ?_, hml'⟩
      rintro c' i' d' (h | ⟨rfl, rfl, rfl⟩)
      · exact hold _ s ho1 c' i' d' h
      · refine ⟨_, hset1, ?_, ?_⟩
        · intro l hl; rw [hcn] at hl; cases hl
        · intro _ j hj hf'
          exact g3 hcon j ((hfit j).1 hf').1 hj ((hfit j).1 hf').2
    | some l =>
      simp only [setIdx_ok hi1, bind_ok, List.set_set]
      obtain ⟨k1, k2, k3, k4⟩ := g2 l hcon
      have hcs : ((s.setCon d none).setCon d (some l)).con d = some l :=
        con_setCon_same _ hd _ (by intro n hn; cases hn; omega)
      have hset2 : (spans.set i ((s.setCon d none).setCon d (some l)))[i]? =
        some ((s.setCon d none).setCon d (some l)) := List.getElem?_set_self hi'
      have hg2 : SameGeo (spans.set i ((s.setCon d none).setCon d (some l))) spans0 := by
        have := (sameGeo_setCon hset1 hd (some l)).trans hg1
        rwa [List.set_set] at this
      refine Total.ok ⟨hg2, ?_, hml'⟩
      rintro c' i' d' (h | ⟨rfl, rfl, rfl⟩)
      · refine hold _ s ?_ c' i' d' h
        intro d'' h1 h2
        rw [con_setCon_other _ hd h1 (fun h => h2 h.symm), ho1 d'' h1 h2]
      · refine ⟨_, hset2, ?_, ?_⟩
        · intro l' hl; rw [hcs] at hl; cases hl
          refine ⟨k2, (hfit l).2 ⟨k1, k3⟩, fun j hj hf' => k4 j hj ((hfit j).1 hf').2⟩
        · intro h; rw [hcs] at h; cases h

theorem connectAll_spec {hf : Heightfield} {wh climb : Nat} {cells : List CompactCell} {spans0 : List CompactSpan}
    (hcl : cells.length = hf.width * hf.height)
    (hpart : cells.flatMap CompactCell.indexRange = List.range spans0.length)
    (hov : ∀ s ∈ spans0, s.y + s.height ≤ 65535) :
    Total (connectAll hf wh climb cells spans0)
      (ConInv hf.width hf.height wh climb cells spans0 fun c i d =>
        d < 4 ∧ ∃ cell, cells[c]? = some cell ∧ i ∈ cell.indexRange) := by
  have hnd : (cells.flatMap CompactCell.indexRange).Nodup := by rw [hpart]; exact List.nodup_range
  have hrange : ∀ cell ∈ cells, ∀ i ∈ cell.indexRange, i < spans0.length := by
    intro cell hc i hi
    have : i ∈ cells.flatMap CompactCell.indexRange := List.mem_flatMap.2 ⟨cell, hc, hi⟩
    rw [hpart] at this; exact List.mem_range.1 this
  have hdisj : ∀ (c c' : Nat) (cell cell' : CompactCell) (i : Nat), cells[c]? = some cell → cells[c']? = some cell' → i ∈ cell.indexRange →
      i ∈ cell'.indexRange → c = c' := by
    have hp := (List.nodup_flatMap.1 hnd).2
    rw [List.pairwise_iff_getElem] at hp
    have key : ∀ (c c' : Nat) (cell cell' : CompactCell) (i : Nat), c < c' → cells[c]? = some cell → cells[c']? = some cell' → i ∈ cell.indexRange →
        i ∈ cell'.indexRange → False := by
      intro c c' cell cell' i hlt h1 h2 h3 h4
      obtain ⟨l1, e1⟩ := List.getElem?_eq_some_iff.1 h1
      obtain ⟨l2, e2⟩ := List.getElem?_eq_some_iff.1 h2
      have := hp c c' l1 l2 hlt
      simp only [Function.onFun, List.Disjoint, e1, e2] at this
      exact this h3 h4
    intro c c' cell cell' i h1 h2 h3 h4
    rcases Nat.lt_trichotomy c c' with h | h | h
    · exact (key c c' cell cell' i h h1 h2 h3 h4).elim
    · exact h
    · exact (key c' c cell' cell i h h2 h1 h4 h3).elim
  unfold connectAll
  rw [gridCells_eq, foldlM_map_res]
  refine (foldlM_range_total (fun c st => ConInv hf.width hf.height wh climb cells spans0 (fun c' i d =>
        c' < c ∧ d < 4 ∧ ∃ cell, cells[c']? = some cell ∧ i ∈ cell.indexRange) st) _ _ ?_ ?_).mono ?_
  · refine ⟨SameGeo.refl _, ?_, ?_⟩
    · rintro c i d ⟨h, _⟩; omega
    · constructor
      · intro h; exact absurd h (by simp)
      · rintro ⟨c, i, d, ⟨h, _⟩, _⟩; omega
  · intro c hc st hst
    obtain ⟨hx, hz, hxz⟩ := col_div hc
    simp only [hxz]
    have hcell : cells[c]? = some cells[c] := List.getElem?_eq_getElem (by rw [hcl]; exact hc)
    generalize cells[c]'(by rw [hcl]; exact hc) = cell at hcell
    have hcm : cell ∈ cells := List.mem_of_getElem? hcell
    rw [idx_some hcell, bind_ok]
    have hcnd : cell.indexRange.Nodup := (List.nodup_flatMap.1 hnd).1 cell hcm
    refine (foldlM_total (fun pre st => ConInv hf.width hf.height wh climb cells spans0 (fun c' i d =>
        d < 4 ∧ ((c' < c ∧ ∃ cell, cells[c']? = some cell ∧ i ∈ cell.indexRange) ∨ (c' = c ∧ i ∈ pre))) st) _ _ ?_ ?_).mono ?_
    · refine hst.congr ?_
      intro c' i d; simp; tauto
    · intro pre i post st hl hst
      have hi : i ∈ cell.indexRange := by rw [hl]; simp
      have hipre : i ∉ pre := by
        rw [hl] at hcnd
        have := List.nodup_append.1 hcnd
        intro h; exact this.2.2 i h i (by simp) rfl
      have hil := hrange cell hcm i hi
      have h4 : ([0, 1, 2, 3] : List Nat) = List.range 4 := rfl
      rw [h4]
      refine (foldlM_range_total (fun dd st => ConInv hf.width hf.height wh climb cells spans0 (fun c' i' d =>
        d < 4 ∧ ((c' < c ∧ ∃ cell, cells[c']? = some cell ∧ i' ∈ cell.indexRange) ∨ (c' = c ∧ i' ∈ pre) ∨
          (c' = c ∧ i' = i ∧ d < dd))) st) _ _ ?_ ?_).mono ?_
      · refine hst.congr ?_
        intro c' i d; simp
      · intro dd hdd st hst
        have := connectDir_spec (wh := wh) (climb := climb) hcl hrange hov hc hil hdd ?_ hst
        · refine this.mono ?_
          intro a ha
          refine ha.congr ?_
          intro c' i' d'
          constructor
          · rintro ⟨h1, h2 | h2 | ⟨rfl, rfl, h2⟩⟩
            · exact Or.inl ⟨h1, Or.inl h2⟩
            · exact Or.inl ⟨h1, Or.inr (Or.inl h2)⟩
            · by_cases hdd' : d' = dd
              · exact Or.inr ⟨rfl, rfl, hdd'⟩
              · exact Or.inl ⟨h1, Or.inr (Or.inr ⟨rfl, rfl, by omega⟩)⟩
          · rintro (⟨h1, h2 | h2 | ⟨rfl, rfl, h2⟩⟩ | ⟨rfl, rfl, rfl⟩)
            · exact ⟨h1, Or.inl h2⟩
            · exact ⟨h1, Or.inr (Or.inl h2)⟩
            · exact ⟨h1, Or.inr (Or.inr ⟨rfl, rfl, by omega⟩)⟩
            · exact ⟨hdd, Or.inr (Or.inr ⟨rfl, rfl, by omega⟩)⟩
        · rintro c' d' ⟨h1, ⟨h2, cell', h3, h4⟩ | ⟨h2, h3⟩ | ⟨_, _, h2⟩⟩
          · have := hdisj _ _ _ _ _ h3 hcell h4 hi; omega
          · exact absurd h3 hipre
          · exact ⟨by omega, h1⟩
      · intro a ha
        refine ha.congr ?_
        intro c' i' d'
        simp only [List.mem_append, List.mem_singleton]
        constructor
        · rintro ⟨h1, h2 | ⟨h2, h3 | h3⟩⟩
          · exact ⟨h1, Or.inl h2⟩
          · exact ⟨h1, Or.inr (Or.inl ⟨h2, h3⟩)⟩
          · exact ⟨h1, Or.inr (Or.inr ⟨h2, h3, h1⟩)⟩
        · rintro ⟨h1, h2 | ⟨h2, h3⟩ | ⟨h2, h3, _⟩⟩
          · exact ⟨h1, Or.inl h2⟩
          · exact ⟨h1, Or.inr ⟨h2, Or.inl h3⟩⟩
          · exact ⟨h1, Or.inr ⟨h2, Or.inr h3⟩⟩
    · intro a ha
      refine ha.congr ?_
      intro c' i' d'
      constructor
      · rintro ⟨h1, h2, cell', h3, h4⟩
        by_cases hcc : c' = c
        · subst hcc; rw [hcell] at h3; cases h3
          exact ⟨h2, Or.inr ⟨rfl, h4⟩⟩
        · exact ⟨h2, Or.inl ⟨by omega, cell', h3, h4⟩⟩
      · rintro ⟨h1, ⟨h2, h3⟩ | ⟨rfl, h2⟩⟩
        · exact ⟨by omega, h1, h3⟩
        · exact ⟨by omega, h1, cell, hcell, h2⟩
  · intro a ha
    refine ha.congr ?_
    intro c i d
    constructor
    · rintro ⟨h1, cell, h2, h3⟩
      refine ⟨?_, h1, cell, h2, h3⟩
      obtain ⟨l1, _⟩ := List.getElem?_eq_some_iff.1 h2
      omega
    · rintro ⟨_, h1, h2⟩; exact ⟨h1, h2⟩

end Rerecast
