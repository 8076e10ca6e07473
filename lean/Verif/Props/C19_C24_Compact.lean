import Verif.Lemmas.IntoCompact
import Verif.Lemmas.Tower
/-!
C19-C24: conversion to a compact heightfield, on every well-formed heightfield.

`Verif/Spec/CompactHeightfield.lean` has the vocabulary: `surfaces` (the walkable surfaces of a column of solids),
`CompactHeightfield.At`, `Reaches`, `Connectable`, `Joinable`, `NeedsHighLayer`.
-/
set_option linter.unusedVariables false
namespace Rerecast
open Heightfield

/-- Two columns; used as a witness below: the lower surfaces are connected, the upper ones are not. -/
def compactOps : List Insertion := [⟨0, 0, 1, 0, 5, 255⟩, ⟨1, 0, 1, 0, 6, 255⟩, ⟨1, 0, 1, 20, 22, 9⟩, ⟨1, 0, 1, 30, 31, 0⟩]

def compactHf : Heightfield :=
  match (Heightfield.new 2 1).insertAll compactOps with
  | .ok hf => hf
  | .error _ => Heightfield.new 0 0

def compactChf : CompactHeightfield :=
  match compactHf.intoCompact 10 1 with
  | .ok c => c
  | .error _ => ⟨0, 0, 0, 0, 0, 0, 0, [], [], [], []⟩

theorem compactHf_wellFormed : compactHf.WellFormed ∧ compactHf.spanCount < 2 ^ 32 ∧
    compactHf.intoCompact 10 1 = .ok compactChf := by
  refine ⟨?_, by decide, by decide⟩
  obtain ⟨hf, cols, h1, hr⟩ := reached_of_valid (w := 2) (h := 1) compactOps (by unfold ValidOps; decide)
  have : compactHf = hf := by unfold compactHf; rw [h1]
  rw [this]
  refine Rep.wellFormed (cols := cols) ⟨?_, hr.rep, ?_, ?_⟩
  · rw [hr.width, hr.height]; exact hr.len
  · rw [hr.width, hr.height]; exact hr.sep
  · rw [hr.width, hr.height]
    intro c hc s hs
    exact ⟨hr.proper c hc s hs, hr.bound 65535 (by decide) c hc s hs⟩

/-- Common part: a successful conversion comes from columns with at most 255 surfaces each. -/
theorem converted {hf : Heightfield} (hwf : hf.WellFormed) (hsm : hf.spanCount < 2 ^ 32) {wh climb : Nat}
    {chf : CompactHeightfield} (hok : hf.intoCompact wh climb = .ok chf) :
    ∃ cols spans, Rep hf cols ∧ chf = compactOf hf wh climb cols spans ∧ Converted hf wh climb cols spans ∧
      ∀ c < hf.width * hf.height, (surfaces (solids (cols c))).length ≤ 255 := by
  obtain ⟨cols, hr⟩ := hwf.toRep
  have hN : (surfacesUpTo cols (hf.width * hf.height)).length < 2 ^ 32 := by
    rw [← walkableSpanCount_eq hr]; have := walkable_le_spanCount hf; omega
  by_cases hcnt : ∀ c < hf.width * hf.height, (surfaces (solids (cols c))).length ≤ 255
  · obtain ⟨spans, ml, ⟨h1, h2, h3⟩, h4⟩ := intoCompact_spec hr wh climb hN hcnt
    rw [h4] at hok
    split at hok
    · cases hok
    · cases hok
      exact ⟨cols, spans, hr, rfl, ⟨h1, fun c i d hd hc => conOK_congr h1 (h2 c i d ⟨hd, hc⟩)⟩, hcnt⟩
  · simp only [Classical.not_forall] at hcnt
    obtain ⟨c, hc, hcc⟩ := hcnt
    unfold intoCompact at hok
    rw [fill_panic hr hN ⟨c, hc, by omega⟩] at hok
    cases hok

/-- **C19.** Column by column, the compact heightfield holds exactly the walkable surfaces of the heightfield,
lowest first: floor = top of the walkable span, clearance = gap to the next span above (or to the top of the range)
capped at 255, area = the span's area. -/
theorem c19_exactly_the_walkable_spans (hf : Heightfield) (hwf : hf.WellFormed) (hsm : hf.spanCount < 2 ^ 32)
    (wh climb : Nat) (chf : CompactHeightfield) (hok : hf.intoCompact wh climb = .ok chf) :
    chf.width = hf.width ∧ chf.height = hf.height ∧
    ∀ x < hf.width, ∀ z < hf.height, ∃ l, hf.column (x + z * hf.width) = .ok l ∧
      chf.cellSurfaces (x + z * hf.width) = .ok (surfaces l) := by
  obtain ⟨cols, spans, hr, rfl, hcv, hcnt⟩ := converted hwf hsm hok
  refine ⟨rfl, rfl, fun x hx z hz => ⟨_, hr.column hx hz, ?_⟩⟩
  have hc := col_lt hx hz
  generalize x + z * hf.width = c at hc
  unfold CompactHeightfield.cellSurfaces
  have hcell : (compactOf hf wh climb cols spans).cells[c]? = some (cellSpec cols c) := by
    simp only [compactOf]; rw [List.getElem?_map, List.getElem?_range hc]; rfl
  rw [idx_some hcell, bind_ok, cellSpec_range]
  apply mapM_range'
  intro j hj
  have hget := surfacesUpTo_get cols hc hj
  rw [List.getElem?_eq_getElem hj] at hget
  have h0 : ((surfacesUpTo cols (hf.width * hf.height)).map mkSpan)[(surfacesUpTo cols c).length + j]? =
      some (mkSpan (surfaces (solids (cols c)))[j]) := by
    rw [List.getElem?_map, hget]; rfl
  obtain ⟨s, hs, e1, e2⟩ := hcv.same.symm.get h0
  have ha : (compactOf hf wh climb cols spans).areas[(surfacesUpTo cols c).length + j]? =
      some (surfaces (solids (cols c)))[j].area := by
    simp only [compactOf]; rw [List.getElem?_map, hget]; rfl
  have hs' : (compactOf hf wh climb cols spans).spans[(surfacesUpTo cols c).length + j]? = some s := hs
  rw [idx_some hs', bind_ok, idx_some ha, bind_ok, ← e1, ← e2,
    mkSpan_height _ (surfaces_mem (List.getElem_mem hj) (hr.bnd c hc)).1, mkSpan_y]

example : compactHf.column 1 = .ok [⟨0, 6, 255⟩, ⟨20, 22, 9⟩, ⟨30, 31, 0⟩] ∧
    compactChf.cellSurfaces 1 = .ok [⟨6, 14, 255⟩, ⟨22, 8, 9⟩] := by decide

/-- **C20.** The returned compact heightfield is well formed: one cell per column, one area per span, the cells'
index ranges enumerate `0, 1, …, spans - 1` exactly once in column order, and stored connections stay inside the
neighbouring cell. -/
theorem c20_wellformed (hf : Heightfield) (hwf : hf.WellFormed) (hsm : hf.spanCount < 2 ^ 32)
    (hw : hf.width ≤ 65535) (hh : hf.height ≤ 65535)
    (wh climb : Nat) (chf : CompactHeightfield) (hok : hf.intoCompact wh climb = .ok chf) : chf.WellFormed := by
  obtain ⟨cols, spans, hr, rfl, hcv, hcnt⟩ := converted hwf hsm hok
  have hlen := hcv.same.length
  rw [List.length_map] at hlen
  refine ⟨hw, hh, by simp [compactOf], by simp [compactOf, hlen], ?_, ?_⟩
  · simp only [compactOf]; rw [cellSpec_partition, hlen]
  · intro x hx z hz cell hcell i hi s hs d hd k hk
    obtain ⟨s', hs', h1, _⟩ := hcv.ok _ i d hd ⟨cell, hcell, hi⟩
    have e : s' = s := by have := hs'.symm.trans hs; simpa using this
    subst e
    obtain ⟨_, ⟨nx, nz, nb, _, _, h2, h3, h4, _⟩, _⟩ := h1 k hk
    have hx' : x < hf.width := hx
    obtain ⟨e1, e2⟩ := col_divmod (z := z) hx'
    have e1' : (x + z * (compactOf hf wh climb cols spans).width) % hf.width = x := e1
    have e2' : (x + z * (compactOf hf wh climb cols spans).width) / hf.width = z := e2
    rw [e1', e2'] at h2
    exact ⟨nx, nz, nb, h2, h3, h4⟩

/-- Full description of every stored connection: layer `l` is stored exactly when it is the lowest connectable
surface of the neighbouring cell and is below 62. -/
theorem c22_connection_exact_partial (hf : Heightfield) (hwf : hf.WellFormed) (hsm : hf.spanCount < 2 ^ 32)
    (wh climb : Nat) (chf : CompactHeightfield) (hok : hf.intoCompact wh climb = .ok chf)
    (x z i : Nat) (s : CompactSpan) (hat : chf.At x z i s) (d : Nat) (hd : d < 4) (l : Nat) :
    s.con d = some l ↔ l < 62 ∧ (∃ k t, chf.Reaches x z s d l k t) ∧ ∀ j < l, ¬ ∃ k t, chf.Reaches x z s d j k t := by
  obtain ⟨cols, spans, hr, rfl, hcv, hcnt⟩ := converted hwf hsm hok
  obtain ⟨hx, hz, hs, cell, hcell, hi⟩ := hat
  have hx' : x < hf.width := hx
  have hs' : spans[i]? = some s := hs
  obtain ⟨s', hs2, h1, h2⟩ := hcv.ok (x + z * hf.width) i d hd ⟨cell, hcell, hi⟩
  rw [hs'] at hs2; cases hs2
  simp only [reaches_iff_fits hx' hs']
  constructor
  · exact h1 l
  · rintro ⟨k1, k2, k3⟩
    cases hcon : s.con d with
    | none => exact absurd k2 (h2 hcon l k1)
    | some l' =>
      obtain ⟨k4, k5, k6⟩ := h1 l' hcon
      rcases Nat.lt_trichotomy l l' with h | h | h
      · exact absurd k2 (k6 l h)
      · rw [h]
      · exact absurd k5 (k3 l' h)

/-- **C21.** A reported neighbour exists, is a span of the adjacent in-grid cell, shares at least `walkable_height` of
vertical space and its floor is at most `walkable_climb` away. -/
theorem c21_connections_sound (hf : Heightfield) (hwf : hf.WellFormed) (hsm : hf.spanCount < 2 ^ 32)
    (wh climb : Nat) (chf : CompactHeightfield) (hok : hf.intoCompact wh climb = .ok chf)
    (x z i : Nat) (s : CompactSpan) (hat : chf.At x z i s) (d : Nat) (hd : d < 4) (l : Nat) (hl : s.con d = some l) :
    ∃ nx nz nb t, neighbourCell chf.width chf.height x z d = some (nx, nz) ∧
      chf.cells[nx + nz * chf.width]? = some nb ∧ l < nb.count ∧ chf.spans[nb.index + l]? = some t ∧
      Connectable wh climb s t := by
  have h := (c22_connection_exact_partial hf hwf hsm wh climb chf hok x z i s hat d hd l).1 hl
  obtain ⟨cols, spans, hr, rfl, hcv, hcnt⟩ := converted hwf hsm hok
  obtain ⟨_, ⟨k, t, nx, nz, nb, h1, h2, h3, rfl, h5, h6⟩, _⟩ := h
  exact ⟨nx, nz, nb, t, h1, h2, h3, h5, h6⟩

example : (∃ s, compactChf.At 0 0 0 s ∧ s.con 2 = some 0) ∧ ∃ s, compactChf.At 1 0 2 s ∧ s.con 0 = none :=
  ⟨⟨_, ⟨by decide, by decide, rfl, _, rfl, by decide⟩, by decide⟩, ⟨_, ⟨by decide, by decide, rfl, _, rfl, by decide⟩, by decide⟩⟩

/-- **C22.** If no cell has more than 62 spans, a span is connected in direction `d` exactly when the adjacent cell has
a connectable span, and then to the lowest one.  (Full property: without the bound on the layers.  It fails there, see
`c22_violated`.) -/
theorem c22_connections_complete_partial (hf : Heightfield) (hwf : hf.WellFormed) (hsm : hf.spanCount < 2 ^ 32)
    (wh climb : Nat) (chf : CompactHeightfield) (hok : hf.intoCompact wh climb = .ok chf)
    (hlay : ∀ c ∈ chf.cells, c.count ≤ 62)
    (x z i : Nat) (s : CompactSpan) (hat : chf.At x z i s) (d : Nat) (hd : d < 4) :
    (s.con d = none ↔ ∀ j k t, ¬ chf.Reaches x z s d j k t) ∧
    ∀ l, s.con d = some l ↔ (∃ k t, chf.Reaches x z s d l k t) ∧ ∀ j < l, ¬ ∃ k t, chf.Reaches x z s d j k t := by
  have hlt : ∀ j k t, chf.Reaches x z s d j k t → j < 62 := by
    rintro j k t ⟨nx, nz, nb, _, h2, h3, _⟩
    have := hlay nb (List.mem_of_getElem? h2)
    omega
  have hex := c22_connection_exact_partial hf hwf hsm wh climb chf hok x z i s hat d hd
  have hsome : ∀ l, s.con d = some l ↔ (∃ k t, chf.Reaches x z s d l k t) ∧ ∀ j < l, ¬ ∃ k t, chf.Reaches x z s d j k t := by
    intro l
    rw [hex l]
    constructor
    · exact fun h => h.2
    · rintro ⟨⟨k, t, h1⟩, h2⟩; exact ⟨hlt _ _ _ h1, ⟨k, t, h1⟩, h2⟩
  refine ⟨?_, hsome⟩
  constructor
  · intro hn j
    induction j using Nat.strongRecOn with
    | _ j ih =>
      intro k t hr
      have := (hsome j).2 ⟨⟨k, t, hr⟩, fun j' hj' ⟨k', t', hr'⟩ => ih j' hj' k' t' hr'⟩
      rw [hn] at this; cases this
  · intro hno
    cases hc : s.con d with
    | none => rfl
    | some l =>
      obtain ⟨⟨k, t, h⟩, _⟩ := (hsome l).1 hc
      exact absurd h (hno l k t)

example : ∀ c ∈ compactChf.cells, c.count ≤ 62 := by decide

/-- **C23.** If the climb is smaller than the agent height and no cell has more than 62 spans, connections are
symmetric: `i` reports `k` in direction `d` exactly when `k` reports `i` in the opposite direction.  (Full property:
without the bound on the layers.  It fails there, see `c22_violated`.) -/
theorem c23_connections_symmetric_partial (hf : Heightfield) (hwf : hf.WellFormed) (hsm : hf.spanCount < 2 ^ 32)
    (wh climb : Nat) (hlt : climb < wh) (chf : CompactHeightfield) (hok : hf.intoCompact wh climb = .ok chf)
    (hlay : ∀ c ∈ chf.cells, c.count ≤ 62)
    (x z nx nz i k d : Nat) (hx : x < chf.width) (hz : z < chf.height) (hd : d < 4)
    (hn : neighbourCell chf.width chf.height x z d = some (nx, nz)) :
    chf.Connects x z i d k ↔ chf.Connects nx nz k ((d + 2) % 4) i := by
  obtain ⟨cols, spans, hr, rfl, hcv, hcnt⟩ := converted hwf hsm hok
  have hx0 : x < hf.width := hx
  have hz0 : z < hf.height := hz
  have key : ∀ x z nx nz i k d : Nat, x < hf.width → z < hf.height → d < 4 →
      neighbourCell hf.width hf.height x z d = some (nx, nz) →
      (compactOf hf wh climb cols spans).Connects x z i d k →
      (compactOf hf wh climb cols spans).Connects nx nz k ((d + 2) % 4) i := by
    intro x z nx nz i k d hx hz hd hn ⟨s, l, nx', nz', nb, hat, hcon, hn', hnb, hk⟩
    have hn2 : neighbourCell hf.width hf.height x z d = some (nx', nz') := hn'
    rw [hn] at hn2; cases hn2
    clear hn'
    obtain ⟨hnx, hnz⟩ := neighbourCell_lt hx hz hn
    obtain ⟨_, _, nx', nz', nb', t, h1, h2, h3, h4, h5⟩ : l < 62 ∧ True ∧ ∃ nx nz nb t,
        neighbourCell hf.width hf.height x z d = some (nx, nz) ∧
        (compactOf hf wh climb cols spans).cells[nx + nz * hf.width]? = some nb ∧ l < nb.count ∧
        spans[nb.index + l]? = some t ∧ Connectable wh climb s t := by
      obtain ⟨a, ⟨k, t, nx, nz, nb, h1, h2, h3, rfl, h5, h6⟩, _⟩ :=
        (c22_connection_exact_partial hf hwf hsm wh climb _ hok x z i s hat d hd l).1 hcon
      exact ⟨a, trivial, nx, nz, nb, t, h1, h2, h3, h5, h6⟩
    rw [hn] at h1; cases h1
    have hnb' : (compactOf hf wh climb cols spans).cells[nx + nz * hf.width]? = some nb := hnb
    rw [hnb'] at h2; cases h2
    -- the cell of `s`
    obtain ⟨_, _, hs, cell, hcell, hi⟩ := hat
    have hs' : spans[i]? = some s := hs
    have hcell' : (compactOf hf wh climb cols spans).cells[x + z * hf.width]? = some cell := hcell
    have hce : cell = cellSpec cols (x + z * hf.width) := by
      simp only [compactOf] at hcell'
      rw [List.getElem?_map, List.getElem?_range (col_lt hx hz)] at hcell'
      simpa using hcell'.symm
    have hmem : ∃ m < cell.count, i = cell.index + m := by
      simp only [CompactCell.indexRange, List.mem_range'_1] at hi
      exact ⟨i - cell.index, by omega, by omega⟩
    obtain ⟨m, hm, him⟩ := hmem
    have hatt : (compactOf hf wh climb cols spans).At nx nz k t :=
      ⟨hnx, hnz, by rw [hk]; exact h4, nb, hnb, by
        rw [hk]; simp only [CompactCell.indexRange, List.mem_range'_1]; omega⟩
    have hd' : (d + 2) % 4 < 4 := by omega
    have hop := neighbourCell_opp hd hx hz hn
    have hsym : ∀ a b, Connectable wh climb a b → Connectable wh climb b a := by
      intro a b ⟨h1, h2⟩; unfold Connectable; rw [Nat.min_comm, Nat.max_comm b.y]; exact ⟨h1, by omega⟩
    refine ⟨t, m, x, z, cell, hatt, ?_, hop, hcell', him⟩
    refine ((c22_connections_complete_partial hf hwf hsm wh climb _ hok hlay nx nz k t hatt _ hd').2 m).2 ⟨?_, ?_⟩
    · exact ⟨i, s, x, z, cell, hop, hcell', hm, him, hs', hsym _ _ h5⟩
    · rintro j hj ⟨k', u, nx', nz', nb', g1, g2, g3, g4, g5, g6⟩
      have g1' : neighbourCell hf.width hf.height nx nz ((d + 2) % 4) = some (nx', nz') := g1
      rw [hop] at g1'; cases g1'
      have g2' : (compactOf hf wh climb cols spans).cells[x + z * hf.width]? = some nb' := g2
      rw [hcell'] at g2'; cases g2'
      -- heights of the two spans of this cell
      have hc := col_lt hx hz
      rw [hce] at hm g3
      have hcnt' : (cellSpec cols (x + z * hf.width)).count = (surfaces (solids (cols (x + z * hf.width)))).length := by
        have := congrArg List.length (cellSpec_range cols (x + z * hf.width))
        simpa [CompactCell.indexRange] using this
      have hidx : (cellSpec cols (x + z * hf.width)).index = (surfacesUpTo cols (x + z * hf.width)).length := by
        have hne : solids (cols (x + z * hf.width)) ≠ [] := by
          intro h; rw [hcnt', h] at hm; simp [surfaces] at hm
        simp [cellSpec, hne]
      rw [hcnt'] at hm g3
      have hgeo : ∀ (m : Nat) (hm : m < (surfaces (solids (cols (x + z * hf.width)))).length) (v : CompactSpan),
          spans[cell.index + m]? = some v →
          v.y = (surfaces (solids (cols (x + z * hf.width))))[m].floor ∧
          v.height = (surfaces (solids (cols (x + z * hf.width))))[m].clearance := by
        intro m hm v hv
        rw [hce, hidx] at hv
        obtain ⟨b, hb, e1, e2⟩ := hcv.same.get hv
        rw [List.getElem?_map, surfacesUpTo_get cols hc hm, List.getElem?_eq_getElem hm] at hb
        simp only [Option.map_some, Option.some.injEq] at hb
        subst hb
        rw [mkSpan_height _ (surfaces_mem (List.getElem_mem hm) (hr.bnd _ hc)).1] at e2
        exact ⟨e1, e2⟩
      rw [him] at hs'
      rw [g4] at g5
      obtain ⟨a1, a2⟩ := hgeo m hm s hs'
      obtain ⟨b1, b2⟩ := hgeo j g3 u g5
      have hpw := surfaces_pairwise (hr.sep _ hc) (hr.bnd _ hc)
      rw [List.pairwise_iff_getElem] at hpw
      have := hpw j m g3 hm hj
      rw [← a1, ← b1, ← b2] at this
      obtain ⟨q1, q2⟩ := h5
      obtain ⟨q3, q4⟩ := g6
      simp only [compactOf] at q3 q4
      clear hpw hgeo hsym hlay hcnt
      omega
  constructor
  · exact key x z nx nz i k d hx0 hz0 hd hn
  · intro h
    obtain ⟨hnx, hnz⟩ := neighbourCell_lt hx0 hz0 hn
    have := key nx nz x z k i ((d + 2) % 4) hnx hnz (by omega) (neighbourCell_opp hd hx0 hz0 hn) h
    have e : ((d + 2) % 4 + 2) % 4 = d := by omega
    rwa [e] at this

example : compactChf.Connects 0 0 0 2 1 ∧ compactChf.Connects 1 0 1 0 0 :=
  ⟨⟨_, 0, 1, 0, _, ⟨by decide, by decide, rfl, _, rfl, by decide⟩, by decide, by decide, rfl, by decide⟩,
   ⟨_, 0, 0, 0, _, ⟨by decide, by decide, rfl, _, rfl, by decide⟩, by decide, by decide, rfl, by decide⟩⟩

/-- **C24 (exact outcome).** `into_compact` panics exactly when a column has more than 255 walkable spans; otherwise it
returns the error exactly when some surface needs a connection to a layer above 62 and has none below 62; otherwise it
succeeds. -/
theorem c24_outcome (hf : Heightfield) (hwf : hf.WellFormed) (hsm : hf.spanCount < 2 ^ 32) (wh climb : Nat) :
    (hf.intoCompact wh climb = .error .panic ↔ ∃ x z l, hf.HasSurfaces x z l ∧ 255 < l.length) ∧
    (hf.intoCompact wh climb = .error .err ↔
      (¬ ∃ x z l, hf.HasSurfaces x z l ∧ 255 < l.length) ∧ hf.NeedsHighLayer wh climb) ∧
    ((∃ chf, hf.intoCompact wh climb = .ok chf) ↔
      (¬ ∃ x z l, hf.HasSurfaces x z l ∧ 255 < l.length) ∧ ¬ hf.NeedsHighLayer wh climb) := by
  obtain ⟨cols, hr⟩ := hwf.toRep
  have hN : (surfacesUpTo cols (hf.width * hf.height)).length < 2 ^ 32 := by
    rw [← walkableSpanCount_eq hr]; have := walkable_le_spanCount hf; omega
  have hhas : ∀ x z l, hf.HasSurfaces x z l ↔ x < hf.width ∧ z < hf.height ∧ l = surfaces (solids (cols (x + z * hf.width))) := by
    intro x z l
    constructor
    · rintro ⟨h1, h2, sol, h3, h4⟩
      rw [hr.column h1 h2] at h3; cases h3
      exact ⟨h1, h2, h4.symm⟩
    · rintro ⟨h1, h2, rfl⟩; exact ⟨h1, h2, _, hr.column h1 h2, rfl⟩
  by_cases hcnt : ∀ c < hf.width * hf.height, (surfaces (solids (cols c))).length ≤ 255
  · have hno : ¬ ∃ x z l, hf.HasSurfaces x z l ∧ 255 < l.length := by
      rintro ⟨x, z, l, h, hl⟩
      rw [hhas] at h
      obtain ⟨h1, h2, rfl⟩ := h
      have := hcnt _ (col_lt h1 h2); omega
    obtain ⟨spans, ml, ⟨h1, h2, h3⟩, h4⟩ := intoCompact_spec hr wh climb hN hcnt
    simp only at h3
    have hiff : ml > 62 ↔ hf.NeedsHighLayer wh climb := by
      rw [h3]
      constructor
      · rintro ⟨c, i, d, ⟨hd, cell, hcell, hi⟩, hlow, j, hj, hfit⟩
        have hc : c < hf.width * hf.height := by
          have := (List.getElem?_eq_some_iff.1 hcell).1
          simpa using this
        obtain ⟨hx, hz, hxz⟩ := col_div hc
        rw [List.getElem?_map, List.getElem?_range hc] at hcell
        simp only [Option.map_some, Option.some.injEq] at hcell
        subst hcell
        rw [cellSpec_range, List.mem_range'_1] at hi
        obtain ⟨m, rfl⟩ : ∃ m, i = (surfacesUpTo cols c).length + m := ⟨i - (surfacesUpTo cols c).length, by omega⟩
        have hm : m < (surfaces (solids (cols c))).length := by omega
        have ha := List.getElem?_eq_getElem hm
        obtain ⟨nx, nz, k1, k2, k3, b, k4, k5⟩ := (fits_surfaces hr hc ha).1 hfit
        refine ⟨c % hf.width, c / hf.width, _, _, d, nx, nz, _, (hhas _ _ _).2 ⟨hx, hz, rfl⟩, ?_, hd, k1,
          (hhas _ _ _).2 ⟨k2, k3, rfl⟩, ?_, j, b, hj, k4, k5⟩
        · rw [hxz]; exact List.getElem_mem hm
        · intro j' b' hj' hb' hjo
          exact hlow j' hj' ((fits_surfaces hr hc ha).2 ⟨nx, nz, k1, k2, k3, b', hb', hjo⟩)
      · rintro ⟨x, z, l, a, d, nx, nz, l', g1, g2, g3, g4, g5, g6, j, b, g7, g8, g9⟩
        rw [hhas] at g1 g5
        obtain ⟨hx, hz, rfl⟩ := g1
        obtain ⟨hnx, hnz, rfl⟩ := g5
        obtain ⟨m, hm, ha⟩ := List.getElem_of_mem g2
        have ha' : (surfaces (solids (cols (x + z * hf.width))))[m]? = some a := by
          rw [List.getElem?_eq_getElem hm, ha]
        have hc := col_lt hx hz
        obtain ⟨e1, e2⟩ := col_divmod (z := z) hx
        refine ⟨x + z * hf.width, (surfacesUpTo cols (x + z * hf.width)).length + m, d,
          ⟨g3, cellSpec cols (x + z * hf.width), ?_, ?_⟩, ?_, j, g7, ?_⟩
        · rw [List.getElem?_map, List.getElem?_range hc]; rfl
        · rw [cellSpec_range, List.mem_range'_1]; omega
        · intro j' hj' hfit
          obtain ⟨nx', nz', k1, k2, k3, b', k4, k5⟩ := (fits_surfaces hr hc ha').1 hfit
          rw [e1, e2, g4] at k1; cases k1
          exact g6 j' b' hj' k4 k5
        · exact (fits_surfaces hr hc ha').2 ⟨nx, nz, by rw [e1, e2]; exact g4, hnx, hnz, b, g8, g9⟩
    rw [h4]
    by_cases hm : ml > 62
    · rw [if_pos hm]
      have := hiff.1 hm
      refine ⟨⟨fun h => (by cases h), fun h => absurd h hno⟩, ⟨fun _ => ⟨hno, this⟩, fun _ => rfl⟩,
        ⟨fun ⟨_, h⟩ => (by cases h), fun h => absurd this h.2⟩⟩
    · rw [if_neg hm]
      have : ¬ hf.NeedsHighLayer wh climb := fun h => hm (hiff.2 h)
      refine ⟨⟨fun h => (by cases h), fun h => absurd h hno⟩, ⟨fun h => (by cases h), fun h => absurd h.2 this⟩,
        ⟨fun _ => ⟨hno, this⟩, fun _ => ⟨_, rfl⟩⟩⟩
  · simp only [Classical.not_forall] at hcnt
    obtain ⟨c, hc, hcc⟩ := hcnt
    have hp : hf.intoCompact wh climb = .error .panic := by
      unfold intoCompact
      rw [fill_panic hr hN ⟨c, hc, by omega⟩]; rfl
    have hex : ∃ x z l, hf.HasSurfaces x z l ∧ 255 < l.length := by
      obtain ⟨hx, hz, hxz⟩ := col_div hc
      refine ⟨_, _, _, (hhas _ _ _).2 ⟨hx, hz, rfl⟩, ?_⟩
      rw [hxz]; omega
    rw [hp]
    refine ⟨⟨fun _ => hex, fun _ => rfl⟩, ⟨fun h => (by cases h), fun h => absurd hex h.1⟩,
      ⟨fun ⟨_, h⟩ => (by cases h), fun h => absurd hex h.1⟩⟩

/-- **C24.** With at most 63 walkable spans per column the conversion succeeds.  (Full property: it always returns,
reporting an error exactly when a needed connection is not representable.  It fails, see `c24_violated_panic` and
`c22_violated`.) -/
theorem c24_succeeds_partial (hf : Heightfield) (hwf : hf.WellFormed) (hsm : hf.spanCount < 2 ^ 32) (wh climb : Nat)
    (hlay : ∀ x z l, hf.HasSurfaces x z l → l.length ≤ 63) : ∃ chf, hf.intoCompact wh climb = .ok chf := by
  refine (c24_outcome hf hwf hsm wh climb).2.2.2 ⟨?_, ?_⟩
  · rintro ⟨x, z, l, h, hl⟩; have := hlay x z l h; omega
  · rintro ⟨x, z, l, a, d, nx, nz, l', _, _, _, _, h, _, j, b, hj, hb, _⟩
    have := hlay nx nz l' h
    have := (List.getElem?_eq_some_iff.1 hb).1
    omega

/-- The heightfield of `n` slabs in column 0 (see `tower`) and, in column 1, one slab level with the topmost. -/
private theorem twoTowers (n : Nat) (hn : 0 < n) (hn' : n ≤ 1000) : ∃ hf cols, ValidOps 2 1 (tower n ++ [⟨1, 0, 0, 4 * n - 4, 4 * n - 3, 255⟩]) ∧
    (Heightfield.new 2 1).insertAll (tower n ++ [⟨1, 0, 0, 4 * n - 4, 4 * n - 3, 255⟩]) = .ok hf ∧
    hf.WellFormed ∧ hf.spanCount < 2 ^ 32 ∧ hf.width = 2 ∧ hf.height = 1 ∧ Rep hf cols ∧
    solids (cols 0) = (List.range n).map slab ∧ solids (cols 1) = [⟨4 * n - 4, 4 * n - 3, 255⟩] := by
  obtain ⟨hf, cols, h1, h2, h3, h4⟩ := tower_reached (w := 2) (h := 1) (by omega) (by omega) n
  obtain ⟨hf', cols', k1, k2, k3, k4⟩ := h2.step ⟨1, 0, 0, 4 * n - 4, 4 * n - 3, 255⟩ (by simp) (by simp) (by simp; omega)
  have hops : (Heightfield.new 2 1).insertAll (tower n ++ [⟨1, 0, 0, 4 * n - 4, 4 * n - 3, 255⟩]) = .ok hf' := by
    simp only [insertAll] at h1 ⊢
    rw [List.foldlM_append, h1, bind_ok, List.foldlM_cons, k1]; rfl
  have hrep : Rep hf' cols' := by
    refine ⟨?_, k2.rep, ?_, ?_⟩
    · rw [k2.width, k2.height]; exact k2.len
    · rw [k2.width, k2.height]; exact k2.sep
    · rw [k2.width, k2.height]
      intro c hc s hs
      refine ⟨k2.proper c hc s hs, k2.bound 65535 ?_ c hc s hs⟩
      intro i hi
      simp only [List.mem_append, List.mem_singleton] at hi
      rcases hi with hi | rfl
      · obtain ⟨k, hk, rfl⟩ := List.mem_map.1 hi
        have := List.mem_range.1 hk
        simp only; omega
      · simp only; omega
  refine ⟨hf', cols', ?_, hops, hrep.wellFormed, ?_, k2.width, k2.height, hrep, ?_, ?_⟩
  · intro i hi
    simp only [List.mem_append, List.mem_singleton] at hi
    rcases hi with hi | rfl
    · exact tower_valid (by omega) (by omega) n i hi
    · simp; omega
  · rw [← walkable_le_spanCount, walkableSpanCount_eq hrep, k2.width, k2.height]
    have e0 : (surfaces (solids (cols' 0))).length ≤ n := by
      rw [surfaces_length]
      refine Nat.le_trans List.countP_le_length ?_
      have := congrArg List.length (show solids (cols' 0) = (List.range n).map slab by rw [k4 0 (by simp)]; exact h3)
      have e : (solids (cols' 0)).length = (cols' 0).length := by simp [solids]
      simp only [List.length_map, List.length_range] at this
      omega
    have e1 : (surfaces (solids (cols' 1))).length ≤ 1 := by
      simp only [Nat.zero_mul, Nat.add_zero] at k3
      rw [k3, h4 1 (by omega)]
      simp [insertCol, surfaces]
      split <;> simp
    have : surfacesUpTo cols' (2 * 1) = surfaces (solids (cols' 0)) ++ surfaces (solids (cols' 1)) := by
      simp [surfacesUpTo, List.range_succ]
    rw [this, List.length_append]; omega
  · have : cols' 0 = cols 0 := k4 0 (by simp)
    rw [this]; exact h3
  · simp only [Nat.zero_mul, Nat.add_zero] at k3
    rw [k3, h4 1 (by omega)]; rfl

/-- **C22, C23, C24 fail** for 63 layers: in a `2 × 1` field with 63 slabs in column 0 and one slab in column 1 level
with the topmost of them, the conversion succeeds, the topmost slab reports its neighbour, but that neighbour reports
none although the slab is connectable: the needed connection to layer 62 is dropped without an error. -/
theorem c22_violated : ∃ ops hf chf, ValidOps 2 1 ops ∧ (Heightfield.new 2 1).insertAll ops = .ok hf ∧
    hf.intoCompact 2 0 = .ok chf ∧ chf.Connects 0 0 62 2 63 ∧
    ∃ s t, chf.At 1 0 63 s ∧ s.con 0 = none ∧ chf.Reaches 1 0 s 0 62 62 t := by
  obtain ⟨hf, cols', h1, h2, h3, h4, h5, h6, hr', h7', h8'⟩ := twoTowers 63 (by omega) (by omega)
  obtain ⟨L, hL1, hL2, hL3⟩ := surfaces_slabs 63 0 (by omega)
  rw [← List.range_eq_range'] at hL1
  obtain ⟨chf, hchf⟩ := c24_succeeds_partial hf h3 h4 2 0 (by
    rintro x z l ⟨hx, hz, sol, g1, g2⟩
    rw [hr'.column hx hz] at g1; cases g1
    rw [h5] at hx; rw [h6] at hz
    rw [← g2, h5]
    obtain ⟨rfl | rfl, rfl⟩ : (x = 0 ∨ x = 1) ∧ z = 0 := by omega
    · simp only [Nat.zero_mul, Nat.add_zero]; rw [h7', hL1, hL2]; exact Nat.le_refl _
    · simp only [Nat.zero_mul, Nat.add_zero]; rw [h8']; simp [surfaces]; split <;> simp)
  refine ⟨_, hf, chf, h1, h2, hchf, ?_⟩
  -- the stored spans
  obtain ⟨cols, spans, hr, rfl, hcv, hcnt⟩ := converted h3 h4 hchf
  have hcols : ∀ c < 2, solids (cols c) = solids (cols' c) := by
    intro c hc
    have e1 := hr.column (x := c) (z := 0) (by omega) (by omega)
    have e2 := hr'.column (x := c) (z := 0) (by omega) (by omega)
    rw [e1] at e2
    simpa using e2
  have hc0 : solids (cols 0) = (List.range 63).map slab := by rw [hcols 0 (by omega), h7']
  have hc1 : surfaces (solids (cols 1)) = [⟨249, 255, 255⟩] := by rw [hcols 1 (by omega), h8']; decide
  have hup : surfacesUpTo cols (hf.width * hf.height) = L ++ [⟨249, 255, 255⟩] := by
    rw [h5, h6]
    have e0 : surfaces (solids (cols 0)) = L := by rw [hc0, hL1]
    simp [surfacesUpTo, List.range_succ, e0, hc1]
  have hup1 : (surfacesUpTo cols 1).length = 63 := by
    simp [surfacesUpTo, hc0, hL1, hL2]
  have hcell0 : (compactOf hf 2 0 cols spans).cells[0]? = some ⟨0, 63⟩ := by
    simp only [compactOf]
    rw [List.getElem?_map, List.getElem?_range (by rw [h5, h6]; omega)]
    have : solids (cols 0) ≠ [] := by rw [hc0]; simp
    simp [cellSpec, this, surfacesUpTo]
    rw [hc0, hL1, hL2]
  have hcell1 : (compactOf hf 2 0 cols spans).cells[1]? = some ⟨63, 1⟩ := by
    simp only [compactOf]
    rw [List.getElem?_map, List.getElem?_range (by rw [h5, h6]; omega)]
    have : solids (cols 1) ≠ [] := by intro h; rw [h] at hc1; simp [surfaces] at hc1
    simp [cellSpec, this, hup1, hc1]
  have hb := hcv.same
  rw [hup] at hb
  have hspan : ∀ i < 63, ∃ s, spans[i]? = some s ∧ s.y = 4 * i + 1 ∧ 3 ≤ s.height := by
    intro i hi
    have hg : L[i]? = some L[i] := List.getElem?_eq_getElem (by omega)
    have h0 : ((L ++ [(⟨249, 255, 255⟩ : Surface)]).map mkSpan)[i]? = some (mkSpan L[i]) := by
      rw [List.getElem?_map, List.getElem?_append_left (by omega), hg]; rfl
    obtain ⟨s, hs, e1, e2⟩ := hb.symm.get h0
    have hm : L[i] ∈ surfaces (solids (cols 0)) := by rw [hc0, hL1]; exact List.getElem_mem _
    have := surfaces_mem hm (hr.bnd 0 (by rw [h5, h6]; omega))
    rw [mkSpan_height _ this.1] at e2
    rw [mkSpan_y] at e1
    have := hL3 i _ hg
    exact ⟨s, hs, by omega, by omega⟩
  have hspan1 : ∃ s, spans[63]? = some s ∧ s.y = 249 ∧ s.height = 255 := by
    have h0 : ((L ++ [(⟨249, 255, 255⟩ : Surface)]).map mkSpan)[63]? = some (mkSpan ⟨249, 255, 255⟩) := by
      rw [List.getElem?_map, List.getElem?_append_right (by omega), hL2]; rfl
    obtain ⟨s, hs, e1, e2⟩ := hb.symm.get h0
    rw [mkSpan_height _ (by simp)] at e2
    rw [mkSpan_y] at e1
    exact ⟨s, hs, e1.symm, e2.symm⟩
  obtain ⟨s, hs, hsy, hsh⟩ := hspan 62 (by omega)
  obtain ⟨t, ht, hty, hth⟩ := hspan1
  have hats : (compactOf hf 2 0 cols spans).At 0 0 62 s :=
    ⟨by simp [compactOf, h5], by simp [compactOf, h6], hs, ⟨0, 63⟩, by simpa using hcell0, by decide⟩
  have hatt : (compactOf hf 2 0 cols spans).At 1 0 63 t :=
    ⟨by simp [compactOf, h5], by simp [compactOf, h6], ht, ⟨63, 1⟩, by simpa using hcell1, by decide⟩
  have n2 : neighbourCell hf.width hf.height 0 0 2 = some (1, 0) := by rw [h5, h6]; decide
  have n0 : neighbourCell hf.width hf.height 1 0 0 = some (0, 0) := by rw [h5, h6]; decide
  refine ⟨⟨s, 0, 1, 0, ⟨63, 1⟩, hats, ?_, n2, by simpa using hcell1, rfl⟩, t, s, hatt, ?_, ?_⟩
  · refine (c22_connection_exact_partial hf h3 h4 2 0 _ hchf 0 0 62 s hats 2 (by omega) 0).2
      ⟨by omega, ⟨63, t, 1, 0, ⟨63, 1⟩, n2, by simpa using hcell1, by simp, rfl, ht, ?_⟩, by omega⟩
    simp only [Connectable, compactOf]; omega
  · cases hc : t.con 0 with
    | none => rfl
    | some l =>
      obtain ⟨g1, ⟨k, u, nx, nz, nb, g2, g3, g4, g5, g6, g7⟩, _⟩ :=
        (c22_connection_exact_partial hf h3 h4 2 0 _ hchf 1 0 63 t hatt 0 (by omega) l).1 hc
      have g2' : neighbourCell hf.width hf.height 1 0 0 = some (nx, nz) := g2
      rw [n0] at g2'; cases g2'
      simp only [Nat.zero_mul, Nat.add_zero] at g3
      rw [hcell0] at g3; cases g3
      obtain ⟨u', hu', e1, e2⟩ := hspan l (by omega)
      have g6' : spans[k]? = some u := g6
      rw [g5, Nat.zero_add, hu'] at g6'; cases g6'
      simp only [Connectable, compactOf] at g7
      omega
  · refine ⟨0, 0, ⟨0, 63⟩, n0, by simpa using hcell0, by simp, rfl, hs, ?_⟩
    simp only [Connectable, compactOf]; omega

/-- **C24 fails** by panicking on a column with 256 walkable spans. -/
theorem c24_violated_panic : ∃ ops hf, ValidOps 2 1 ops ∧ (Heightfield.new 2 1).insertAll ops = .ok hf ∧
    hf.WellFormed ∧ hf.intoCompact 2 0 = .error .panic := by
  obtain ⟨hf, cols, h1, h2, h3, h4, h5, h6, hr, h7, h8⟩ := twoTowers 256 (by omega) (by omega)
  refine ⟨_, hf, h1, h2, h3, (c24_outcome hf h3 h4 2 0).1.2 ⟨0, 0, _, ⟨by omega, by omega, _, hr.column (by omega) (by omega), rfl⟩, ?_⟩⟩
  obtain ⟨L, hL1, hL2, hL3⟩ := surfaces_slabs 256 0 (by omega)
  rw [← List.range_eq_range'] at hL1
  simp only [Nat.zero_mul, Nat.add_zero]
  rw [h7, hL1, hL2]; omega

/-- The error outcome of `c24_outcome` does occur: 64 slabs, the topmost needed by the neighbour. -/
example : ∃ ops hf, ValidOps 2 1 ops ∧ (Heightfield.new 2 1).insertAll ops = .ok hf ∧
    hf.WellFormed ∧ hf.intoCompact 2 0 = .error .err := by
  obtain ⟨hf, cols, h1, h2, h3, h4, h5, h6, hr, h7, h8⟩ := twoTowers 64 (by omega) (by omega)
  obtain ⟨L, hL1, hL2, hL3⟩ := surfaces_slabs 64 0 (by omega)
  rw [← List.range_eq_range'] at hL1
  have hc1 : surfaces (solids (cols 1)) = [⟨253, 255, 255⟩] := by rw [h8]; decide
  refine ⟨_, hf, h1, h2, h3, (c24_outcome hf h3 h4 2 0).2.1.2 ⟨?_, ?_⟩⟩
  · rintro ⟨x, z, l, ⟨hx, hz, sol, g1, g2⟩, hl⟩
    rw [hr.column hx hz] at g1; cases g1
    rw [h5] at hx; rw [h6] at hz
    rw [← g2, h5] at hl
    obtain ⟨rfl | rfl, rfl⟩ : (x = 0 ∨ x = 1) ∧ z = 0 := by omega
    · simp only [Nat.zero_mul, Nat.add_zero] at hl; rw [h7, hL1, hL2] at hl; omega
    · simp only [Nat.zero_mul, Nat.add_zero] at hl; rw [hc1] at hl; simp at hl
  · have hg : L[63]? = some L[63] := List.getElem?_eq_getElem (by omega)
    refine ⟨1, 0, _, ⟨253, 255, 255⟩, 0, 0, 0, L,
      ⟨by omega, by omega, _, hr.column (by omega) (by omega), rfl⟩, ?_, by omega, by rw [h5, h6]; decide,
      ⟨by omega, by omega, _, hr.column (by omega) (by omega), ?_⟩, ?_, 63, L[63], by omega, hg, ?_⟩
    · simp only [Nat.zero_mul, Nat.add_zero]; rw [hc1]; simp
    · simp only [Nat.zero_mul, Nat.add_zero]; rw [h7, hL1]
    · intro j b hj hb ⟨_, hq⟩
      have := hL3 j b hb
      simp only at hq; omega
    · have := hL3 63 _ hg
      simp only [Joinable]; omega

end Rerecast
