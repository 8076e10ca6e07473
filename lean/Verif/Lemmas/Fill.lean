import Verif.Lemmas.WellFormed
import Verif.Lemmas.CompactSpan
import Verif.Spec.CompactHeightfield
import Mathlib.Data.List.Induction
/-! The first pass of `into_compact`. -/
set_option linter.unusedVariables false
namespace Rerecast
open Heightfield

def mkSpan (u : Surface) : CompactSpan := ({ CompactSpan.default with y := u.floor } : CompactSpan).setHeight u.clearance

theorem set_append_replicate {α} (A : List α) (d v : α) (m : Nat) :
    (A ++ List.replicate (m + 1) d).set A.length v = (A ++ [v]) ++ List.replicate m d := by
  rw [List.set_append_right _ _ (Nat.le_refl _)]
  simp [List.replicate_succ]

theorem topOf_seg {hf : Heightfield} : ∀ {L : List Entry} {a}, Seg hf.allocated a L none →
    ∃ t : Nat, hf.topOf a = .ok t ∧ (t : Int) = bottom (solids L)
  | [], a, h => by cases h; exact ⟨65535, rfl, rfl⟩
  | (k, s) :: L, a, ⟨ha, nxt, hk, h1⟩ => by
    subst ha
    exact ⟨s.min, by simp [topOf, span_eq_ok.2 hk], rfl⟩

theorem fillColumn_spec {hf : Heightfield} : ∀ (L : List Entry) (a fuel) (cell : CompactCell) (cs : List CompactCell)
    (A : List Surface) (m : Nat),
    Seg hf.allocated a L none → L.length ≤ fuel → (surfaces (solids L)).length ≤ m →
    hf.fillColumn fuel a cell ⟨cs, A.map mkSpan ++ List.replicate m CompactSpan.default,
        A.map Surface.area ++ List.replicate m NOT_WALKABLE, A.length⟩ =
      if cell.count + (surfaces (solids L)).length ≤ 255 ∨ surfaces (solids L) = [] then
      .ok (⟨cell.index, cell.count + (surfaces (solids L)).length⟩,
        ⟨cs, (A ++ surfaces (solids L)).map mkSpan ++
            List.replicate (m - (surfaces (solids L)).length) CompactSpan.default,
          (A ++ surfaces (solids L)).map Surface.area ++
            List.replicate (m - (surfaces (solids L)).length) NOT_WALKABLE,
          A.length + (surfaces (solids L)).length⟩) else .error .panic
  | [], a, fuel, cell, cs, A, m, h, _, _ => by
    cases h
    have : ∀ st, hf.fillColumn fuel none cell st = .ok (cell, st) := by intro st; cases fuel <;> rfl
    rw [this]; simp [surfaces]
  | (k, s) :: L, a, fuel, cell, cs, A, m, ⟨ha, nxt, hk, h1⟩, hlen, hm => by
    subst ha
    obtain ⟨fuel, rfl⟩ : ∃ g, fuel = g + 1 := ⟨fuel - 1, by simp at hlen; omega⟩
    have hlen' : L.length ≤ fuel := by simpa using hlen
    simp only [fillColumn, span_eq_ok.2 hk, bind_ok]
    by_cases hw : isWalkable s.area = true
    · have hsurf : surfaces (solids ((k, s) :: L)) =
          ⟨s.max, min (bottom (solids L) - s.max).toNat 255, s.area⟩ :: surfaces (solids L) := by
        simp [surfaces, hw]
      obtain ⟨t, ht1, ht2⟩ := topOf_seg h1
      rw [hsurf] at hm ⊢
      simp only [List.length_cons] at hm ⊢
      obtain ⟨m, rfl⟩ : ∃ m', m = m' + 1 := ⟨m - 1, by omega⟩
      simp only [hw, Bool.not_true, Bool.false_eq_true, if_false, ht1, bind_ok]
      have hi1 : idx (A.map mkSpan ++ List.replicate (m + 1) CompactSpan.default) A.length
          = .ok CompactSpan.default := by
        apply idx_some
        rw [List.getElem?_append_right (by simp)]
        simp
      have hs1 : ∀ v, setIdx (A.map mkSpan ++ List.replicate (m + 1) CompactSpan.default) A.length v
          = .ok ((A.map mkSpan ++ [v]) ++ List.replicate m CompactSpan.default) := by
        intro v
        rw [setIdx_ok (by simp)]
        have := set_append_replicate (A.map mkSpan) CompactSpan.default v m
        rw [List.length_map] at this; rw [this]
      have hs2 : ∀ v, setIdx (A.map Surface.area ++ List.replicate (m + 1) NOT_WALKABLE) A.length v
          = .ok ((A.map Surface.area ++ [v]) ++ List.replicate m NOT_WALKABLE) := by
        intro v
        rw [setIdx_ok (by simp)]
        have := set_append_replicate (A.map Surface.area) NOT_WALKABLE v m
        rw [List.length_map] at this; rw [this]
      simp only [hi1, hs1, hs2, bind_ok]
      have hcl : min (bottom (solids L) - s.max).toNat 255 = min (t - s.max) 255 := by
        rw [← ht2]; congr 1; omega
      unfold CompactCell.incCount
      by_cases hcnt : cell.count + 1 ≤ 255
      · simp only [hcnt, if_true, bind_ok]
        have ih := fillColumn_spec L nxt fuel { cell with count := cell.count + 1 } cs
          (A ++ [⟨s.max, min (bottom (solids L) - s.max).toNat 255, s.area⟩]) m h1 hlen' (by omega)
        simp only [List.map_append, List.map_cons, List.map_nil, List.length_append, List.length_cons,
          List.length_nil, mkSpan, hcl, List.append_assoc, List.cons_append, List.nil_append] at ih ⊢
        rw [ih]
        by_cases hc2 : cell.count + ((surfaces (solids L)).length + 1) ≤ 255
        · rw [if_pos (by omega), if_pos (by omega)]
          have a1 : m + 1 - ((surfaces (solids L)).length + 1) = m - (surfaces (solids L)).length := by omega
          have a2 : cell.count + 1 + (surfaces (solids L)).length =
            cell.count + ((surfaces (solids L)).length + 1) := by omega
          have a3 : A.length + (0 + 1) + (surfaces (solids L)).length =
            A.length + ((surfaces (solids L)).length + 1) := by omega
          rw [a1, a2, a3]
        · by_cases hnil : surfaces (solids L) = []
          · exfalso; apply hc2; rw [hnil]; simp; omega
          · rw [if_neg (by rintro (h | h); omega; exact hnil h), if_neg (by simp; omega)]
      · simp only [hcnt, if_false, bind_error]
        rw [if_neg (by simp; omega)]
    · have hw' : isWalkable s.area = false := by simpa using hw
      have hsurf : surfaces (solids ((k, s) :: L)) = surfaces (solids L) := by simp [surfaces, hw']
      simp only [hw', Bool.not_false, if_true]
      rw [hsurf] at hm ⊢
      exact fillColumn_spec L nxt fuel cell cs A m h1 hlen' hm

/-- All surfaces of the first `c` columns, in scan order. -/
def surfacesUpTo (cols : Nat → List Entry) (c : Nat) : List Surface :=
  (List.range c).flatMap fun c => surfaces (solids (cols c))

theorem surfacesUpTo_succ (cols c) :
    surfacesUpTo cols (c + 1) = surfacesUpTo cols c ++ surfaces (solids (cols c)) := by
  simp [surfacesUpTo, List.range_succ]

theorem surfacesUpTo_mono (cols) {c n : Nat} (h : c ≤ n) :
    (surfacesUpTo cols c).length ≤ (surfacesUpTo cols n).length := by
  induction n with
  | zero => have : c = 0 := by omega
            subst this; exact Nat.le_refl _
  | succ n ih =>
    by_cases h' : c = n + 1
    · subst h'; exact Nat.le_refl _
    · rw [surfacesUpTo_succ, List.length_append]
      have := ih (by omega); omega

def cellSpec (cols : Nat → List Entry) (c : Nat) : CompactCell :=
  if solids (cols c) = [] then CompactCell.default
  else ⟨(surfacesUpTo cols c).length, (surfaces (solids (cols c))).length⟩

theorem surfaces_length (L : List Entry) :
    (surfaces (solids L)).length = L.countP fun e => isWalkable e.2.area := by
  induction L with
  | nil => rfl
  | cons e L ih =>
    simp only [solids_cons, surfaces, List.countP_cons]
    split <;> simp_all

theorem countP_eq_filter_range {α} (p : α → Bool) (l : List α) :
    l.countP p = ((List.range l.length).filter fun k => match l[k]? with
      | some a => p a
      | none => false).length := by
  induction l using List.reverseRecOn with
  | nil => rfl
  | append_singleton l a ih =>
    rw [List.countP_append, List.length_append, List.length_singleton, List.range_succ, List.filter_append,
      List.length_append, ih]
    congr 1
    · congr 1
      apply List.filter_congr
      intro k hk
      rw [List.getElem?_append_left (List.mem_range.1 hk)]
    · simp only [List.countP_cons, List.countP_nil, List.filter_cons, List.filter_nil]
      rw [List.getElem?_append_right (Nat.le_refl _)]
      simp
      split <;> simp

theorem Seg.get_mem {alloc} : ∀ {L : List Entry} {a b}, Seg alloc a L b → ∀ e ∈ L,
    ∃ nxt, alloc[e.1]? = some (some ⟨e.2.min, e.2.max, e.2.area, nxt⟩)
  | (k, s) :: L, _, _, ⟨_, nxt, hk, h1⟩, e, he => by
    simp at he
    rcases he with rfl | he
    · exact ⟨nxt, hk⟩
    · exact Seg.get_mem h1 e he

theorem walkableSpanCount_eq {hf : Heightfield} {cols} (hr : Rep hf cols) :
    hf.walkableSpanCount = (surfacesUpTo cols (hf.width * hf.height)).length := by
  unfold walkableSpanCount
  rw [countP_eq_filter_range]
  have hseg : ∀ c < hf.width * hf.height, ∃ a, Seg hf.allocated a (cols c) none := fun c hc =>
    ⟨_, hr.rep.seg c _ (List.getElem?_eq_getElem (by rw [hr.size]; exact hc))⟩
  have e2 : (surfacesUpTo cols (hf.width * hf.height)).length =
      ((List.range (hf.width * hf.height)).flatMap fun c =>
        ((cols c).filter fun e => isWalkable e.2.area).map Prod.fst).length := by
    simp only [surfacesUpTo, List.length_flatMap, List.length_map]
    congr 1
    apply List.map_congr_left
    intro c _
    rw [surfaces_length, List.countP_eq_length_filter]
  rw [e2]
  apply List.Perm.length_eq
  apply (List.perm_ext_iff_of_nodup ?_ ?_).2
  · intro k
    simp only [List.mem_filter, List.mem_range, List.mem_flatMap, List.mem_map]
    constructor
    · rintro ⟨hk, h⟩
      rw [List.getElem?_eq_getElem hk] at h
      simp only at h
      cases ho : hf.allocated[k] with
      | none => rw [ho] at h; simp at h
      | some s =>
        rw [ho] at h
        have hs : hf.allocated[k]? = some (some s) := by rw [List.getElem?_eq_getElem hk, ho]
        obtain ⟨c, hc, hkc⟩ := hr.rep.noleak k s hs
        rw [hr.size] at hc
        obtain ⟨e, he, hek⟩ := List.mem_map.1 hkc
        refine ⟨c, hc, e, ⟨he, ?_⟩, hek⟩
        obtain ⟨a, hsg⟩ := hseg c hc
        obtain ⟨nxt, hn⟩ := hsg.get_mem e he
        rw [hek, hs] at hn
        cases hn; exact h
    · rintro ⟨c, hc, e, ⟨he, hw⟩, rfl⟩
      obtain ⟨a, hsg⟩ := hseg c hc
      obtain ⟨nxt, hn⟩ := hsg.get_mem e he
      rw [hn]
      exact ⟨by rw [List.getElem?_eq_some_iff] at hn; exact hn.1, hw⟩
  · exact List.Nodup.filter _ List.nodup_range
  · rw [List.nodup_flatMap]
    constructor
    · intro c hc
      have hc := List.mem_range.1 hc
      have : (((cols c).filter fun e => isWalkable e.2.area).map Prod.fst).Sublist (keys (cols c)) :=
        List.Sublist.map _ List.filter_sublist
      exact this.nodup (hr.rep.nodup c (by rw [hr.size]; exact hc))
    · apply List.Pairwise.imp_of_mem ?_ List.nodup_range
      intro c c' hc hc' hne
      have hc := List.mem_range.1 hc
      have hc' := List.mem_range.1 hc'
      simp only [Function.onFun, List.Disjoint]
      intro k hk hk'
      have s1 : ∀ c, (((cols c).filter fun e => isWalkable e.2.area).map Prod.fst) ⊆ (keys (cols c)) :=
        fun c => (List.Sublist.map _ List.filter_sublist).subset
      exact hr.rep.disj c (by rw [hr.size]; exact hc) c' (by rw [hr.size]; exact hc') hne k (s1 c hk) (s1 c' hk')

/-- State after the first `c` columns. -/
def fillSpec (cols : Nat → List Entry) (W c : Nat) : FillState :=
  let N := (surfacesUpTo cols W).length
  let n := (surfacesUpTo cols c).length
  { cells := (List.range c).map (cellSpec cols) ++ List.replicate (W - c) CompactCell.default
    spans := (surfacesUpTo cols c).map mkSpan ++ List.replicate (N - n) CompactSpan.default
    areas := (surfacesUpTo cols c).map Surface.area ++ List.replicate (N - n) NOT_WALKABLE
    cellIndex := n }

theorem fillCell_spec {hf : Heightfield} {cols} (hr : Rep hf cols) {c : Nat} (hc : c < hf.width * hf.height)
    (hN : (surfacesUpTo cols (hf.width * hf.height)).length < 2 ^ 32) :
    hf.fillCell (fillSpec cols (hf.width * hf.height) c) (c % hf.width, c / hf.width) =
      if (surfaces (solids (cols c))).length ≤ 255 then
        .ok (fillSpec cols (hf.width * hf.height) (c + 1)) else .error .panic := by
  obtain ⟨h1, h2, h3⟩ := col_div hc
  have hseg := spanKeyAt_seg hr.rep hr.size h1 h2
  have hnd := hr.rep.nodup _ (hr.size ▸ hc)
  rw [h3] at hseg
  have hlen := hseg.length_le hnd
  have hmono : (surfacesUpTo cols (c + 1)).length ≤ (surfacesUpTo cols (hf.width * hf.height)).length :=
    surfacesUpTo_mono cols (by omega)
  have hsucc : (surfacesUpTo cols (c + 1)).length =
      (surfacesUpTo cols c).length + (surfaces (solids (cols c))).length := by
    rw [surfacesUpTo_succ, List.length_append]
  obtain ⟨r, hr'⟩ : ∃ r, hf.width * hf.height - c = r + 1 := ⟨hf.width * hf.height - c - 1, by omega⟩
  have hr'' : hf.width * hf.height - (c + 1) = r := by omega
  unfold fillCell
  simp only
  cases hk : hf.spanKeyAt (c % hf.width) (c / hf.width) with
  | none =>
    rw [hk] at hseg
    have hnil : cols c = [] := by
      cases hL : cols c with
      | nil => rfl
      | cons e L => rw [hL] at hseg; obtain ⟨h, _⟩ := hseg; cases h
    have hs : surfaces (solids (cols c)) = [] := by rw [hnil]; rfl
    simp only [hs, List.length_nil, Nat.zero_le, if_true]
    congr 1
    simp only [fillSpec, surfacesUpTo_succ, hs, List.append_nil, hr', hr'', List.range_succ, List.map_append,
      List.map_cons, List.map_nil]
    have : cellSpec cols c = CompactCell.default := by simp [cellSpec, hnil]
    simp [this, List.replicate_succ]
  | some k =>
    rw [hk] at hseg
    have hne : solids (cols c) ≠ [] := by
      intro hs
      have : cols c = [] := by simpa [solids] using hs
      rw [this] at hseg; cases hseg
    simp only [columnIndex, h3]
    have hcl : c < (fillSpec cols (hf.width * hf.height) c).cells.length := by
      simp [fillSpec]; omega
    rw [idx_ok hcl, bind_ok]
    have hfs := fillColumn_spec (cols c) (some k) hf.allocated.length
      ⟨(fillSpec cols (hf.width * hf.height) c).cellIndex % 2 ^ 32, 0⟩
      (fillSpec cols (hf.width * hf.height) c).cells (surfacesUpTo cols c)
      ((surfacesUpTo cols (hf.width * hf.height)).length - (surfacesUpTo cols c).length) hseg hlen (by omega)
    have hst : (⟨(fillSpec cols (hf.width * hf.height) c).cells,
        (surfacesUpTo cols c).map mkSpan ++ List.replicate ((surfacesUpTo cols (hf.width * hf.height)).length - (surfacesUpTo cols c).length) CompactSpan.default,
        (surfacesUpTo cols c).map Surface.area ++ List.replicate ((surfacesUpTo cols (hf.width * hf.height)).length - (surfacesUpTo cols c).length) NOT_WALKABLE,
        (surfacesUpTo cols c).length⟩ : FillState) = fillSpec cols (hf.width * hf.height) c := rfl
    rw [hst] at hfs
    rw [hfs]
    by_cases hcnt : (surfaces (solids (cols c))).length ≤ 255
    · rw [if_pos (by left; simpa using hcnt), if_pos hcnt, bind_ok]
      simp only
      rw [setIdx_ok hcl, bind_ok]
      congr 1
      simp only [fillSpec, hr', hr'', List.range_succ, List.map_append, List.map_cons, List.map_nil]
      have e1 : cellSpec cols c = ⟨(surfacesUpTo cols c).length, (surfaces (solids (cols c))).length⟩ := by
        simp [cellSpec, hne]
      have e2 : (surfacesUpTo cols c).length % 2 ^ 32 = (surfacesUpTo cols c).length :=
        Nat.mod_eq_of_lt (by omega)
      rw [e1, e2, Nat.zero_add, hsucc]
      congr 1
      · have := set_append_replicate ((List.range c).map (cellSpec cols)) CompactCell.default
          ⟨(surfacesUpTo cols c).length, (surfaces (solids (cols c))).length⟩ r
        rw [List.length_map, List.length_range] at this
        exact this
      · rw [surfacesUpTo_succ, List.map_append]; congr 2; omega
      · rw [surfacesUpTo_succ, List.map_append]; congr 2; omega
    · rw [if_neg (by
        rintro (h | h)
        · simp at h; omega
        · rw [h] at hcnt; simp at hcnt), if_neg hcnt, bind_error]

theorem fillSpec_zero {hf : Heightfield} {cols} (hr : Rep hf cols) :
    fillSpec cols (hf.width * hf.height) 0 =
    { cells := List.replicate (hf.width * hf.height) CompactCell.default
      spans := List.replicate hf.walkableSpanCount CompactSpan.default
      areas := List.replicate hf.walkableSpanCount NOT_WALKABLE
      cellIndex := 0 } := by
  rw [walkableSpanCount_eq hr]
  simp [fillSpec, surfacesUpTo]

theorem fill_ok {hf : Heightfield} {cols} (hr : Rep hf cols)
    (hN : (surfacesUpTo cols (hf.width * hf.height)).length < 2 ^ 32)
    (hcnt : ∀ c < hf.width * hf.height, (surfaces (solids (cols c))).length ≤ 255) :
    hf.fill = .ok (fillSpec cols (hf.width * hf.height) (hf.width * hf.height)) := by
  unfold fill
  simp only
  rw [← fillSpec_zero hr, gridCells_eq, foldlM_map_res]
  obtain ⟨st, h1, rfl⟩ := foldlM_range_total
    (f := fun s c => hf.fillCell s (c % hf.width, c / hf.width))
    (fun c st => st = fillSpec cols (hf.width * hf.height) c) (hf.width * hf.height) _ rfl
    (fun c hc s hs => by
      subst hs
      rw [fillCell_spec hr hc hN, if_pos (hcnt c hc)]
      exact Total.ok rfl)
  exact h1

theorem fill_panic {hf : Heightfield} {cols} (hr : Rep hf cols)
    (hN : (surfacesUpTo cols (hf.width * hf.height)).length < 2 ^ 32)
    (hcnt : ∃ c < hf.width * hf.height, 255 < (surfaces (solids (cols c))).length) :
    hf.fill = .error .panic := by
  -- the first overfull column
  have hex : ∃ c, c < hf.width * hf.height ∧ 255 < (surfaces (solids (cols c))).length ∧
      ∀ c' < c, ¬ (255 < (surfaces (solids (cols c'))).length) := by
    obtain ⟨c, hc, h⟩ := hcnt
    induction c using Nat.strongRecOn with
    | _ c ih =>
      by_cases hall : ∀ c' < c, ¬ (255 < (surfaces (solids (cols c'))).length)
      · exact ⟨c, hc, h, hall⟩
      · simp only [Classical.not_forall, Classical.not_not] at hall
        obtain ⟨c', hc', h'⟩ := hall
        exact ih c' hc' (by omega) h'
  obtain ⟨c, hc, h, hall⟩ := hex
  unfold fill
  simp only
  rw [← fillSpec_zero hr, gridCells_eq, foldlM_map_res]
  have hsplit : List.range (hf.width * hf.height) = List.range c ++ c ::
      (List.range (hf.width * hf.height - (c + 1))).map (fun i => c + 1 + i) := by
    have : hf.width * hf.height = (c + 1) + (hf.width * hf.height - (c + 1)) := by omega
    conv_lhs => rw [this, List.range_add, List.range_succ]
    simp
  rw [hsplit, List.foldlM_append]
  obtain ⟨st, h1, rfl⟩ := foldlM_range_total
    (f := fun s c => hf.fillCell s (c % hf.width, c / hf.width))
    (fun c st => st = fillSpec cols (hf.width * hf.height) c) c _ rfl
    (fun c' hc' s hs => by
      subst hs
      rw [fillCell_spec hr (by omega) hN, if_pos (by have := hall c' hc'; omega)]
      exact Total.ok rfl)
  rw [h1, bind_ok, List.foldlM_cons, fillCell_spec hr hc hN, if_neg (by omega), bind_error]

end Rerecast
