import Verif.Lemmas.PreFilter
/-! `WellFormed` (stated through iteration) and the arena representation are equivalent. -/
set_option linter.unusedVariables false
namespace Rerecast
open Heightfield

theorem seg_of_visitFrom {hf : Heightfield} : ∀ {fuel : Nat} {a : Option SpanKey} {l},
    hf.visitFrom fuel a = .ok l → Seg hf.allocated a (l.map fun p => (p.1, p.2.solid)) none ∧
      ∀ p ∈ l, hf.allocated[p.1]? = some (some p.2)
  | fuel, none, l, h => by
    have : hf.visitFrom fuel none = .ok [] := by cases fuel <;> rfl
    rw [this] at h; cases h; exact ⟨rfl, by simp⟩
  | 0, some k, l, h => by simp [visitFrom] at h
  | fuel + 1, some k, l, h => by
    simp only [visitFrom] at h
    cases hs : hf.span k with
    | error e => simp [hs] at h
    | ok s =>
      simp only [hs, bind_ok] at h
      cases hr : hf.visitFrom fuel s.next with
      | error e => simp [hr] at h
      | ok rest =>
        simp only [hr, bind_ok] at h
        cases h
        obtain ⟨h1, h2⟩ := seg_of_visitFrom hr
        refine ⟨⟨rfl, s.next, span_eq_ok.1 hs, h1⟩, ?_⟩
        intro p hp; simp at hp
        rcases hp with rfl | hp
        · exact span_eq_ok.1 hs
        · exact h2 p hp

/-- The internal form of well-formedness. -/
structure Rep (hf : Heightfield) (cols : Nat → List Entry) : Prop where
  size : hf.spans.length = hf.width * hf.height
  rep : HFRep hf cols
  sep : ∀ c < hf.width * hf.height, Separated (solids (cols c))
  bnd : ∀ c < hf.width * hf.height, ∀ s ∈ solids (cols c), s.min ≤ s.max ∧ s.max ≤ 65535

theorem Heightfield.WellFormed.toRep {hf : Heightfield} (h : hf.WellFormed) : ∃ cols, Rep hf cols := by
  obtain ⟨hsize, vis, h1, h2, h3, h4, h5, h6⟩ := h
  refine ⟨fun c => (vis c).map fun p => (p.1, p.2.solid), ?_⟩
  have hkeys : ∀ c, keys ((vis c).map fun p => (p.1, p.2.solid)) = (vis c).map Prod.fst := by
    intro c; simp [keys]
  have hsol : ∀ c, solids ((vis c).map fun p => (p.1, p.2.solid)) = (vis c).map fun p => p.2.solid := by
    intro c; simp [solids]
  refine ⟨hsize, ⟨?_, ?_, ?_, ?_⟩, ?_, ?_⟩
  · intro c head hc
    have hlt : c < hf.spans.length := by rw [List.getElem?_eq_some_iff] at hc; exact hc.1
    have := h1 c (by omega)
    simp only [Heightfield.visit, idx_some hc, bind_ok] at this
    exact (seg_of_visitFrom this).1
  · intro c hc; rw [hkeys]; exact h2 c (by omega)
  · intro c hc c' hc' hne k hk
    rw [hkeys] at hk ⊢
    exact h3 c (by omega) c' (by omega) hne k hk
  · intro k s hk
    obtain ⟨c, hc, hk⟩ := h4 k ⟨s, span_eq_ok.2 hk⟩
    exact ⟨c, by omega, by rw [hkeys]; exact hk⟩
  · intro c hc; rw [hsol]; exact h5 c hc
  · intro c hc s hs
    rw [hsol, List.mem_map] at hs
    obtain ⟨p, hp, rfl⟩ := hs
    exact h6 c hc p hp

theorem Rep.wellFormed {hf : Heightfield} {cols} (h : Rep hf cols) : hf.WellFormed := by
  refine ⟨h.size, ?_⟩
  have hvis : ∀ c, ∃ l, c < hf.width * hf.height → hf.visit c = .ok l ∧ l.map (fun p => (p.1, p.2.solid)) = cols c := by
    intro c
    by_cases hc : c < hf.width * hf.height
    · obtain ⟨l, hl⟩ := h.rep.visit (c := c) (by rw [h.size]; exact hc)
      exact ⟨l, fun _ => hl⟩
    · exact ⟨[], fun h => absurd h hc⟩
  obtain ⟨vis, hvis⟩ := Classical.axiomOfChoice hvis
  have hkeys : ∀ c, c < hf.width * hf.height → (vis c).map Prod.fst = keys (cols c) := by
    intro c hc
    rw [← (hvis c hc).2]; simp [keys]
  have hsol : ∀ c, c < hf.width * hf.height → (vis c).map (fun p => p.2.solid) = solids (cols c) := by
    intro c hc
    rw [← (hvis c hc).2]; simp [solids]
  refine ⟨vis, fun c hc => (hvis c hc).1, ?_, ?_, ?_, ?_, ?_⟩
  · intro c hc; rw [hkeys c hc]; exact h.rep.nodup c (by rw [h.size]; exact hc)
  · intro c hc c' hc' hne k hk
    rw [hkeys c hc] at hk; rw [hkeys c' hc']
    exact h.rep.disj c (by rw [h.size]; exact hc) c' (by rw [h.size]; exact hc') hne k hk
  · rintro k ⟨s, hs⟩
    obtain ⟨c, hc, hk⟩ := h.rep.noleak k s (span_eq_ok.1 hs)
    rw [h.size] at hc
    exact ⟨c, hc, by rw [hkeys c hc]; exact hk⟩
  · intro c hc; rw [hsol c hc]; exact h.sep c hc
  · intro c hc p hp
    have : p.2.solid ∈ solids (cols c) := by rw [← hsol c hc]; exact List.mem_map_of_mem hp
    exact h.bnd c hc _ this

theorem geom_recol (f L) : geom (solids (recol f L)) = geom (solids L) := by
  induction L with
  | nil => rfl
  | cons e L ih => simp only [recol_cons, solids_cons, geom, List.map_cons] at ih ⊢; rw [ih]

theorem separated_iff_geom (l : List Solid) : Separated l ↔ (geom l).Pairwise fun a b => a.2 < b.1 := by
  simp [Separated, geom, List.pairwise_map]

theorem Rep.reArea {hf : Heightfield} {cols} (h : Rep hf cols) (f) :
    Rep (hf.reArea f) (fun c => recol f (cols c)) where
  size := h.size
  rep := h.rep.reArea f
  sep := by
    intro c hc
    rw [separated_iff_geom, geom_recol, ← separated_iff_geom]; exact h.sep c hc
  bnd := by
    intro c hc s hs
    have : (s.min, s.max) ∈ geom (solids (cols c)) := by
      rw [← geom_recol f]; exact List.mem_map_of_mem hs
    simp only [geom, List.mem_map, Prod.mk.injEq] at this
    obtain ⟨s', hs', e1, e2⟩ := this
    have := h.bnd c hc s' hs'
    omega

theorem Rep.column {hf : Heightfield} {cols} (h : Rep hf cols) {x z} (hx : x < hf.width) (hz : z < hf.height) :
    hf.column (x + z * hf.width) = .ok (solids (cols (x + z * hf.width))) :=
  h.rep.column (by rw [h.size]; exact col_lt hx hz)

/-- Re-assigning the areas a heightfield already has changes nothing. -/
theorem Rep.reArea_eq {hf : Heightfield} {cols} (h : Rep hf cols) (f)
    (hf' : ∀ c < hf.width * hf.height, solids (recol f (cols c)) = solids (cols c)) : hf.reArea f = hf := by
  have hk : ∀ k s, hf.allocated[k]? = some (some s) → f k = s.area := by
    intro k s hk
    obtain ⟨c, hc, hkc⟩ := h.rep.noleak k s hk
    have hcc : c < hf.width * hf.height := by rw [← h.size]; exact hc
    have hseg := h.rep.seg c _ (List.getElem?_eq_getElem hc)
    have := hf' c hcc
    clear hf'
    revert hseg this hkc
    generalize hf.spans[c] = a
    generalize cols c = L
    intro hkc hseg hL
    induction L generalizing a with
    | nil => simp at hkc
    | cons e L ih =>
      obtain ⟨k', s'⟩ := e
      obtain ⟨ha, nxt, hk', h1⟩ := hseg
      simp only [recol_cons, solids_cons, List.cons.injEq] at hL
      simp only [keys_cons, List.mem_cons] at hkc
      rcases hkc with rfl | hkc
      · rw [hk'] at hk; cases hk
        exact congrArg Solid.area hL.1
      · exact ih nxt hkc h1 hL.2
  have : (hf.reArea f).allocated = hf.allocated := by
    apply List.ext_getElem?
    intro k
    rw [reArea_alloc]
    cases ho : hf.allocated[k]? with
    | none => rfl
    | some o =>
      cases o with
      | none => rfl
      | some s => simp [hk k s ho]
  cases hf; simp_all [Heightfield.reArea]

/-! Pointwise descriptions of the column functions -/

theorem lowHeightCol_get (height : Nat) : ∀ (l : List Solid) (j : Nat),
    (lowHeightCol height l)[j]? = (l[j]?).map fun s =>
      { s with area := if bottom (l.drop (j + 1)) - (s.max : Int) < height then NOT_WALKABLE else s.area }
  | [], j => by simp [lowHeightCol]
  | s :: l, 0 => by simp [lowHeightCol]
  | s :: l, j + 1 => by simp [lowHeightCol, lowHeightCol_get height l j]

open Classical in
theorem ledgeCol_get (height climb : Nat) (nbr) : ∀ (l : List Solid) (j : Nat),
    (ledgeCol height climb nbr l)[j]? = (l[j]?).map fun s =>
      { s with area := if IsLedgeSpec height climb nbr s.max (bottom (l.drop (j + 1)))
        then NOT_WALKABLE else s.area }
  | [], j => by simp [ledgeCol]
  | s :: l, 0 => by simp [ledgeCol]
  | s :: l, j + 1 => by simp [ledgeCol, ledgeCol_get height climb nbr l j]

theorem lowHangingCol_get_succ (climb : Nat) : ∀ (l : List Solid) (prev) (j : Nat),
    (lowHangingCol climb prev l)[j + 1]? = (l[j + 1]?).map fun s =>
      { s with area := lowHangingArea climb ((l[j]?).bind fun p =>
          some (p.max, isWalkable p.area, p.area)) s.max s.area }
  | [], prev, j => by simp [lowHangingCol]
  | s :: l, prev, j + 1 => by
    simp only [lowHangingCol, List.getElem?_cons_succ]
    exact lowHangingCol_get_succ climb l _ j
  | s :: l, prev, 0 => by
    simp only [lowHangingCol, List.getElem?_cons_succ, List.getElem?_cons_zero, Option.bind_some]
    cases l with
    | nil => simp [lowHangingCol]
    | cons t l =>
      simp only [lowHangingCol, List.getElem?_cons_zero, Option.map_some, Option.some.injEq]
      have : lowHangingArea climb (some (s.max, isWalkable s.area, lowHangingArea climb prev s.max s.area))
          t.max t.area = lowHangingArea climb (some (s.max, isWalkable s.area, s.area)) t.max t.area := by
        simp only [lowHangingArea]
        by_cases hw : isWalkable s.area = true
        · have : lowHangingArea climb prev s.max s.area = s.area := by
            unfold lowHangingArea; split <;> simp [hw]
          simp only [lowHangingArea] at this
          rw [this]
        · simp [hw]
      rw [this]

theorem lowHangingCol_get_zero (climb : Nat) (l : List Solid) :
    (lowHangingCol climb none l)[0]? = l[0]? := by
  cases l <;> simp [lowHangingCol, lowHangingArea]

theorem lowHangingCol_length (climb : Nat) : ∀ (l : List Solid) (prev),
    (lowHangingCol climb prev l).length = l.length
  | [], _ => rfl
  | s :: l, prev => by simp [lowHangingCol, lowHangingCol_length climb l]
theorem lowHeightCol_length (height : Nat) : ∀ (l : List Solid), (lowHeightCol height l).length = l.length
  | [] => rfl
  | s :: l => by simp [lowHeightCol, lowHeightCol_length height l]
theorem ledgeCol_length (height climb : Nat) (nbr) : ∀ (l : List Solid),
    (ledgeCol height climb nbr l).length = l.length
  | [] => rfl
  | s :: l => by simp [ledgeCol, ledgeCol_length height climb nbr l]

/-! The ledge test depends on geometry only. -/
theorem nbrCols_recol_ledge (w h) (cols : Nat → List Entry) (f) (x z height climb : Nat) (fl ce : Int) :
    IsLedgeSpec height climb (nbrCols w h (fun c => recol f (cols c)) x z) fl ce ↔
    IsLedgeSpec height climb (nbrCols w h cols x z) fl ce := by
  have h1 : ∀ d, VoidSide height (nbrCols w h (fun c => recol f (cols c)) x z) fl ce d ↔
      VoidSide height (nbrCols w h cols x z) fl ce d := by
    intro d
    unfold VoidSide nbrCols
    cases neighbourCell w h x z d <;> simp [bottom_recol]
  have h2 : ∀ nf, Passable height (nbrCols w h (fun c => recol f (cols c)) x z) fl ce nf ↔
      Passable height (nbrCols w h cols x z) fl ce nf := by
    intro nf
    unfold Passable nbrCols
    constructor
    · rintro ⟨d, hd, l, hl, nc, h⟩
      rw [Option.map_eq_some_iff] at hl
      obtain ⟨p, hp, rfl⟩ := hl
      rw [openings_recol] at h
      exact ⟨d, hd, _, by rw [hp]; rfl, nc, h⟩
    · rintro ⟨d, hd, l, hl, nc, h⟩
      rw [Option.map_eq_some_iff] at hl
      obtain ⟨p, hp, rfl⟩ := hl
      rw [← openings_recol f] at h
      exact ⟨d, hd, _, by rw [hp]; rfl, nc, h⟩
  unfold IsLedgeSpec
  simp only [h1, h2]

theorem bottom_ledgeCol (height climb nbr) (l) : bottom (ledgeCol height climb nbr l) = bottom l := by
  cases l <;> rfl
theorem bottom_lowHeightCol (height) (l) : bottom (lowHeightCol height l) = bottom l := by
  cases l <;> rfl

theorem ledgeCol_idem (height climb nbr nbr')
    (h : ∀ fl ce, IsLedgeSpec height climb nbr' fl ce ↔ IsLedgeSpec height climb nbr fl ce) :
    ∀ l, ledgeCol height climb nbr' (ledgeCol height climb nbr l) = ledgeCol height climb nbr l
  | [] => rfl
  | s :: l => by
    simp only [ledgeCol, ledgeCol_idem height climb nbr nbr' h l]
    congr 2
    rw [bottom_ledgeCol]
    by_cases hh : IsLedgeSpec height climb nbr s.max (bottom l)
    · rw [if_pos ((h _ _).2 hh), if_pos hh]
    · rw [if_neg (fun h' => hh ((h _ _).1 h')), if_neg hh]

theorem lowHeightCol_idem (height) : ∀ l, lowHeightCol height (lowHeightCol height l) = lowHeightCol height l
  | [] => rfl
  | s :: l => by
    simp only [lowHeightCol, bottom_lowHeightCol, lowHeightCol_idem height l]
    congr 2
    split <;> rfl

end Rerecast
