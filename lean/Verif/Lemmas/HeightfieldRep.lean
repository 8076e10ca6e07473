import Verif.Spec.Heightfield
import Verif.Lemmas.Res
import Mathlib.Data.List.Perm.Subperm
/-! Linked-list representation of columns and refinement of `add_span` to a list function. -/
set_option linter.unusedVariables false
namespace Rerecast

abbrev Entry := SpanKey × Solid

/-- `Seg alloc a L b`: following links from `a` visits exactly the entries `L` and then reaches `b`. -/
def Seg (alloc : List (Option Span)) : Option SpanKey → List Entry → Option SpanKey → Prop
  | a, [], b => a = b
  | a, (k, s) :: L, b =>
    a = some k ∧ ∃ nxt, alloc[k]? = some (some ⟨s.min, s.max, s.area, nxt⟩) ∧ Seg alloc nxt L b

def keys (L : List Entry) : List SpanKey := L.map Prod.fst
def solids (L : List Entry) : List Solid := L.map Prod.snd

@[simp] theorem keys_nil : keys [] = [] := rfl
@[simp] theorem keys_cons (e : Entry) (L) : keys (e :: L) = e.1 :: keys L := rfl
@[simp] theorem keys_append (L M) : keys (L ++ M) = keys L ++ keys M := by simp [keys]
@[simp] theorem solids_nil : solids [] = [] := rfl
@[simp] theorem solids_cons (e : Entry) (L) : solids (e :: L) = e.2 :: solids L := rfl
@[simp] theorem solids_append (L M) : solids (L ++ M) = solids L ++ solids M := by simp [solids]

def lastKey (L : List Entry) : Option SpanKey := L.getLast?.map Prod.fst
@[simp] theorem lastKey_nil : lastKey [] = none := rfl
@[simp] theorem lastKey_concat (L e) : lastKey (L ++ [e]) = some e.1 := by simp [lastKey]

theorem Seg.append {alloc} : ∀ {L M : List Entry} {a b c}, Seg alloc a L b → Seg alloc b M c →
    Seg alloc a (L ++ M) c
  | [], M, a, b, c, h1, h2 => by cases h1; exact h2
  | (k, s) :: L, M, a, b, c, ⟨ha, nxt, hk, h1⟩, h2 => ⟨ha, nxt, hk, Seg.append h1 h2⟩

theorem Seg.split {alloc} : ∀ {L M : List Entry} {a c}, Seg alloc a (L ++ M) c →
    ∃ b, Seg alloc a L b ∧ Seg alloc b M c
  | [], M, a, c, h => ⟨a, rfl, h⟩
  | (k, s) :: L, M, a, c, ⟨ha, nxt, hk, h1⟩ =>
    let ⟨b, h2, h3⟩ := Seg.split h1
    ⟨b, ⟨ha, nxt, hk, h2⟩, h3⟩

theorem Seg.frame {alloc alloc'} : ∀ {L : List Entry} {a b}, Seg alloc a L b →
    (∀ k ∈ keys L, alloc'[k]? = alloc[k]?) → Seg alloc' a L b
  | [], _, _, h, _ => h
  | (k, s) :: L, _, _, ⟨ha, nxt, hk, h1⟩, hf =>
    ⟨ha, nxt, by rw [hf k (by simp)]; exact hk, Seg.frame h1 fun k' hk' => hf k' (by simp [hk'])⟩

/-- The last element's link can be redirected. -/
theorem Seg.setLast {alloc} {L : List Entry} {p s a b b'} (h : Seg alloc a (L ++ [(p, s)]) b)
    (hp : p ∉ keys L) :
    alloc[p]? = some (some ⟨s.min, s.max, s.area, b⟩) ∧
    Seg (alloc.set p (some ⟨s.min, s.max, s.area, b'⟩)) a (L ++ [(p, s)]) b' := by
  obtain ⟨m, h1, h2, nxt, h3, h4⟩ := Seg.split h
  cases h2; cases h4
  refine ⟨h3, ?_⟩
  have hlt : p < alloc.length := by
    rw [List.getElem?_eq_some_iff] at h3; exact h3.1
  refine Seg.append (b := some p) ?_ ?_
  · refine h1.frame fun k hk => ?_
    rw [List.getElem?_set_ne]; rintro rfl; exact hp hk
  · exact ⟨rfl, b', by simp [hlt], rfl⟩

theorem Seg.mem_alloc {alloc} : ∀ {L : List Entry} {a b}, Seg alloc a L b → ∀ k ∈ keys L,
    ∃ s, alloc[k]? = some (some s)
  | (k, s) :: L, _, _, ⟨_, nxt, hk, h1⟩, k', hk' => by
    simp at hk'
    rcases hk' with rfl | hk'
    · exact ⟨_, hk⟩
    · exact Seg.mem_alloc h1 k' hk'

/-- A chain with distinct keys is not longer than the number of slots. -/
theorem Seg.length_le {alloc} {L : List Entry} {a b} (h : Seg alloc a L b) (hn : (keys L).Nodup) :
    L.length ≤ alloc.length := by
  have h1 : keys L ⊆ List.range alloc.length := by
    intro k hk
    obtain ⟨s, hs⟩ := h.mem_alloc k hk
    rw [List.getElem?_eq_some_iff] at hs
    exact List.mem_range.2 hs.1
  have := (List.subperm_of_subset hn h1).length_le
  simpa [keys] using this

/-- List-level description of what the insertion loop does to a column. -/
def mergeSolid (thr : Nat) (new c : Solid) : Solid :=
  let mx := if c.max > new.max then c.max else new.max
  ⟨if c.min < new.min then c.min else new.min, mx,
   if ((mx : Int) - (c.max : Int)).natAbs ≤ thr then max new.area c.area else new.area⟩

/-- List-level insertion. -/
def insertCol (thr : Nat) : Solid → List Solid → List Solid
  | new, [] => [new]
  | new, c :: rest =>
    if c.min > new.max then new :: c :: rest
    else if c.max < new.min then c :: insertCol thr new rest
    else insertCol thr (mergeSolid thr new c) rest

open Heightfield

theorem span_eq_ok {hf : Heightfield} {k s} : hf.span k = .ok s ↔ hf.allocated[k]? = some (some s) := by
  unfold Heightfield.span
  split
  · rename_i s' h; simp [h]
  · rename_i h
    constructor
    · intro h'; cases h'
    · intro h'; exact absurd h' (h s)

theorem setSpan_ok {hf : Heightfield} {k s s0} (h : hf.allocated[k]? = some (some s0)) :
    hf.setSpan k s = .ok { hf with allocated := hf.allocated.set k (some s) } := by
  unfold Heightfield.setSpan; rw [h]

theorem addSpanLoop_spec (thr col : Nat) : ∀ (rest pre : List Entry) (hf : Heightfield) (new : Span)
    (fuel : Nat) (head cur : Option SpanKey),
    hf.spans[col]? = some head → Seg hf.allocated head pre cur → Seg hf.allocated cur rest none →
    (keys (pre ++ rest)).Nodup → rest.length ≤ fuel →
    ∃ hf' new' pre' rest' head',
      addSpanLoop thr col fuel hf new (lastKey pre) cur = .ok (hf', new', lastKey pre') ∧
      hf'.width = hf.width ∧ hf'.height = hf.height ∧
      hf'.spans = hf.spans.set col head' ∧
      Seg hf'.allocated head' (pre' ++ rest') none ∧
      solids pre' ++ new'.solid :: solids rest' = solids pre ++ insertCol thr new.solid (solids rest) ∧
      (keys (pre' ++ rest')).Sublist (keys (pre ++ rest)) ∧
      hf'.allocated.length = hf.allocated.length ∧
      (∀ k, k ∉ keys (pre ++ rest) → hf'.allocated[k]? = hf.allocated[k]?) ∧
      (∀ k ∈ keys (pre ++ rest), k ∉ keys (pre' ++ rest') → hf'.allocated[k]? = some none) := by
  intro rest
  induction rest with
  | nil =>
    intro pre hf new fuel head cur hhead hpre hrest hnd hfuel
    cases hrest
    refine ⟨hf, new, pre, [], head, by simp [addSpanLoop], rfl, rfl, ?_, by simpa using hpre, rfl,
      List.Sublist.refl _, rfl, fun _ _ => rfl, fun k h1 h2 => absurd h1 h2⟩
    have hlt : col < hf.spans.length := by
      rw [List.getElem?_eq_some_iff] at hhead; exact hhead.1
    rw [List.getElem?_eq_some_iff] at hhead
    obtain ⟨_, h⟩ := hhead
    rw [← h, List.set_getElem_self]
  | cons e rest ih =>
    obtain ⟨k, c⟩ := e
    intro pre hf new fuel head cur hhead hpre hrest hnd hfuel
    obtain ⟨rfl, nxt, hk, hrest⟩ := hrest
    obtain ⟨fuel, rfl⟩ : ∃ f, fuel = f + 1 := ⟨fuel - 1, by simp at hfuel; omega⟩
    have hlt : col < hf.spans.length := by
      rw [List.getElem?_eq_some_iff] at hhead; exact hhead.1
    have hself : hf.spans.set col head = hf.spans := by
      rw [List.getElem?_eq_some_iff] at hhead
      obtain ⟨_, h⟩ := hhead
      rw [← h, List.set_getElem_self]
    have hspan : hf.span k = .ok ⟨c.min, c.max, c.area, nxt⟩ := span_eq_ok.2 hk
    unfold addSpanLoop
    simp only [hspan, bind_ok]
    by_cases h1 : c.min > new.max
    · simp only [h1, if_true]
      refine ⟨hf, new, pre, (k, c) :: rest, head, rfl, rfl, rfl, hself.symm, ?_, ?_,
        List.Sublist.refl _, rfl, fun _ _ => rfl, fun k h1 h2 => absurd h1 h2⟩
      · exact hpre.append ⟨rfl, nxt, hk, hrest⟩
      · have : c.min > new.solid.max := h1
        simp [insertCol, this]
    · simp only [h1, if_false]
      by_cases h2 : c.max < new.min
      · simp only [h2, if_true]
        have hpre' : Seg hf.allocated head (pre ++ [(k, c)]) nxt :=
          hpre.append ⟨rfl, nxt, hk, rfl⟩
        obtain ⟨hf', new', pre', rest', head', g1, g2, g3, g4, g5, g6, g7, g8, g9, g10⟩ :=
          ih (pre ++ [(k, c)]) hf new fuel head nxt hhead hpre' hrest (by simpa using hnd)
            (by simp at hfuel; omega)
        refine ⟨hf', new', pre', rest', head', by simpa using g1, g2, g3, g4, g5, ?_, by simpa using g7,
          g8, by simpa using g9, by simpa using g10⟩
        have a1 : ¬ c.min > new.solid.max := h1
        have a2 : c.max < new.solid.min := h2
        rw [g6]
        simp only [solids_append, solids_cons, solids_nil, List.append_assoc, List.singleton_append,
          insertCol, a1, a2, if_false, if_true]
      · simp only [h2, if_false]
        -- merging
        have hmerge : (mergeSpan thr new ⟨c.min, c.max, c.area, nxt⟩).solid = mergeSolid thr new.solid c := by
          unfold mergeSpan mergeSolid Span.solid
          simp only
          split <;> split <;> split <;> simp_all
        have hkpre : k ∉ keys pre := by
          intro h; rw [keys_append, List.nodup_append] at hnd
          exact hnd.2.2 k h k (by simp) rfl
        have hkrest : k ∉ keys rest := by
          rw [keys_append, List.nodup_append] at hnd
          have := hnd.2.1; simp at this; exact this.1
        have hklt : k < hf.allocated.length := by
          rw [List.getElem?_eq_some_iff] at hk; exact hk.1
        have hnd' : (keys (pre ++ rest)).Nodup := by
          refine List.Sublist.nodup ?_ hnd
          simp only [keys_append, keys_cons]
          exact List.Sublist.append (List.Sublist.refl _) (List.sublist_cons_self _ _)
        -- the unlinked heightfield
        have hun : ∃ hf1 head1, hf.unlink col (lastKey pre) k nxt = .ok hf1 ∧
            hf1.width = hf.width ∧ hf1.height = hf.height ∧ hf1.spans = hf.spans.set col head1 ∧
            Seg hf1.allocated head1 pre nxt ∧ Seg hf1.allocated nxt rest none ∧
            hf1.allocated.length = hf.allocated.length ∧
            (∀ k', k' ∉ keys (pre ++ (k, c) :: rest) → hf1.allocated[k']? = hf.allocated[k']?) ∧
            hf1.allocated[k]? = some none := by
          rcases List.eq_nil_or_concat' pre with rfl | ⟨L, ⟨p, s⟩, rfl⟩
          · cases hpre
            refine ⟨{ hf.removeSpan k with spans := hf.spans.set col nxt }, nxt, ?_, rfl, rfl, rfl, rfl, ?_, ?_, ?_, ?_⟩
            · simp [unlink, removeSpan, setIdx, hlt]
            · exact hrest.frame fun k' hk' => by
                simp only [removeSpan]; rw [List.getElem?_set_ne]; rintro rfl; exact hkrest hk'
            · simp [removeSpan]
            · intro k' hk'
              simp only [removeSpan]; rw [List.getElem?_set_ne]; rintro rfl; simp at hk'
            · simp [removeSpan, hklt]
          · have hpk : p ≠ k := by rintro rfl; exact hkpre (by simp)
            have hpre1 : Seg (hf.removeSpan k).allocated head (L ++ [(p, s)]) (some k) :=
              hpre.frame fun k' hk' => by
                simp only [removeSpan]; rw [List.getElem?_set_ne]; rintro rfl
                exact hkpre hk'
            have hpL : p ∉ keys L := by
              have h3 : (keys (L ++ [(p, s)])).Nodup := (List.nodup_append.1 (keys_append _ _ ▸ hnd)).1
              rw [keys_append, List.nodup_append] at h3
              intro h; exact h3.2.2 p h p (by simp) rfl
            have hprest : p ∉ keys rest := by
              rw [keys_append, List.nodup_append] at hnd'
              intro h; exact hnd'.2.2 p (by simp) p h rfl
            obtain ⟨hp1, hp2⟩ := hpre1.setLast (b' := nxt) hpL
            refine ⟨{ hf.removeSpan k with allocated := (hf.removeSpan k).allocated.set p (some ⟨s.min, s.max, s.area, nxt⟩) }, head, ?_, rfl, rfl, ?_, hp2, ?_, ?_, ?_, ?_⟩
            · simp only [unlink, lastKey_concat]
              rw [span_eq_ok.2 hp1, bind_ok, setSpan_ok hp1]
            · exact hself.symm
            · refine hrest.frame fun k' hk' => ?_
              simp only [removeSpan]
              rw [List.getElem?_set_ne, List.getElem?_set_ne]
              · rintro rfl; exact hkrest hk'
              · rintro rfl; exact hprest hk'
            · simp [removeSpan]
            · intro k' hk'
              simp only [removeSpan]
              rw [List.getElem?_set_ne, List.getElem?_set_ne]
              · rintro rfl; simp at hk'
              · rintro rfl; simp at hk'
            · simp only [removeSpan]
              rw [List.getElem?_set_ne hpk]; simp [hklt]
        obtain ⟨hf1, head1, u1, u2, u3, u4, u5, u6, u7, u8, u9⟩ := hun
        rw [u1, bind_ok]
        obtain ⟨hf', new', pre', rest', head', g1, g2, g3, g4, g5, g6, g7, g8, g9, g10⟩ :=
          ih pre hf1 (mergeSpan thr new ⟨c.min, c.max, c.area, nxt⟩) fuel head1 nxt
            (by rw [u4]; simp [hlt]) u5 u6 hnd' (by simp at hfuel; omega)
        have hsub : (keys (pre ++ rest)).Sublist (keys (pre ++ (k, c) :: rest)) := by
          simp only [keys_append, keys_cons]
          exact List.Sublist.append (List.Sublist.refl _) (List.sublist_cons_self _ _)
        refine ⟨hf', new', pre', rest', head', g1, g2.trans u2, g3.trans u3, ?_, g5, ?_,
          g7.trans hsub, g8.trans u7, ?_, ?_⟩
        · rw [g4, u4, List.set_set]
        · rw [g6, hmerge]
          have a1 : ¬ c.min > new.solid.max := h1
          have a2 : ¬ c.max < new.solid.min := h2
          simp [insertCol, a1, a2]
        · intro k' hk'
          rw [g9 k' fun h => hk' (hsub.subset h), u8 k' hk']
        · intro k' hk' hk''
          by_cases hkk : k' = k
          · subst hkk
            rw [g9 k' (by simp [hkpre, hkrest]), u9]
          · refine g10 k' ?_ hk''
            simp only [keys_append, keys_cons, List.mem_append, List.mem_cons] at hk' ⊢
            rcases hk' with h | h | h
            · exact Or.inl h
            · exact absurd h hkk
            · exact Or.inr h

end Rerecast
