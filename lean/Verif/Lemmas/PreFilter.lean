import Verif.Lemmas.ReArea
import Verif.Spec.PreFilter
/-! Refinement of the filters to list functions. -/
set_option linter.unusedVariables false
namespace Rerecast
open Heightfield

theorem spanKeyAt_seg {hf : Heightfield} {cols} (hr : HFRep hf cols)
    (hsize : hf.spans.length = hf.width * hf.height) {x z} (hx : x < hf.width) (hz : z < hf.height) :
    Seg hf.allocated (hf.spanKeyAt x z) (cols (x + z * hf.width)) none := by
  have hlt : x + z * hf.width < hf.spans.length := by rw [hsize]; exact col_lt hx hz
  have := hr.seg _ _ (List.getElem?_eq_getElem hlt)
  simpa [spanKeyAt, columnIndex, List.getElem?_eq_getElem hlt] using this

theorem ceilingOf_seg {hf : Heightfield} : ∀ {L : List Entry} {a}, Seg hf.allocated a L none →
    hf.ceilingOf a = .ok (bottom (solids L))
  | [], a, h => by cases h; rfl
  | (k, s) :: L, a, ⟨ha, nxt, hk, h1⟩ => by
    subst ha
    simp [ceilingOf, span_eq_ok.2 hk, bottom]

theorem bottom_recol (f L) : bottom (solids (recol f L)) = bottom (solids L) := by
  cases L <;> rfl

theorem openings_recol (f) : ∀ L, openings (solids (recol f L)) = openings (solids L)
  | [] => rfl
  | e :: L => by simp [openings, bottom_recol, openings_recol f L]

theorem ceilingOf_reArea {hf : Heightfield} {f} {L : List Entry} {a} (h : Seg hf.allocated a L none) :
    (hf.reArea f).ceilingOf a = .ok (bottom (solids L)) := by
  rw [ceilingOf_seg (reArea_seg f h), bottom_recol]

/-! ### Low-hanging obstacles -/

def lowHangingCol (climb : Nat) : Option (Nat × Bool × Area) → List Solid → List Solid
  | _, [] => []
  | prev, s :: l =>
    let area := lowHangingArea climb prev s.max s.area
    { s with area := area } :: lowHangingCol climb (some (s.max, isWalkable s.area, area)) l

theorem lowHangingLoop_spec {hf : Heightfield} (climb : Nat) : ∀ (L : List Entry) (a f fuel prev),
    Seg hf.allocated a L none → (keys L).Nodup → L.length ≤ fuel →
    ∃ f', lowHangingLoop climb fuel (hf.reArea f) prev a = .ok (hf.reArea f') ∧
      (∀ k, k ∉ keys L → f' k = f k) ∧
      solids (recol f' L) = lowHangingCol climb prev (solids (recol f L))
  | [], a, f, fuel, prev, h, _, _ => by
    cases h; exact ⟨f, by cases fuel <;> rfl, fun _ _ => rfl, rfl⟩
  | (k, s) :: L, a, f, fuel, prev, ⟨ha, nxt, hk, h1⟩, hnd, hlen => by
    subst ha
    obtain ⟨fuel, rfl⟩ : ∃ g, fuel = g + 1 := ⟨fuel - 1, by simp at hlen; omega⟩
    simp only [keys_cons, List.nodup_cons] at hnd
    simp only [lowHangingLoop, reArea_span hk, bind_ok]
    generalize hA : lowHangingArea climb prev s.max (f k) = A
    have hset := reArea_setSpan (f := f) (a := A) hk
    simp only at hset
    obtain ⟨f', g1, g2, g3⟩ := lowHangingLoop_spec climb L nxt (upd f k A) fuel
      (some (s.max, isWalkable (f k), A)) h1 hnd.2 (by simpa using hlen)
    refine ⟨f', ?_, ?_, ?_⟩
    · rw [hset]; exact g1
    · intro j hj
      simp at hj
      rw [g2 j hj.2, upd_ne hj.1]
    · simp only [recol_cons, solids_cons, lowHangingCol, hA, g3]
      rw [g2 k hnd.1, upd_same]
      congr 2
      rw [recol_congr (g := f)]
      intro j hj
      exact upd_ne (by rintro rfl; exact hnd.1 hj)

/-! ### Low ceilings -/

def lowHeightCol (height : Nat) : List Solid → List Solid
  | [] => []
  | s :: l =>
    { s with area := if bottom l - (s.max : Int) < height then NOT_WALKABLE else s.area } :: lowHeightCol height l

theorem lowHeightLoop_spec {hf : Heightfield} (height : Nat) : ∀ (L : List Entry) (a f fuel),
    Seg hf.allocated a L none → (keys L).Nodup → L.length ≤ fuel →
    ∃ f', lowHeightLoop height fuel (hf.reArea f) a = .ok (hf.reArea f') ∧
      (∀ k, k ∉ keys L → f' k = f k) ∧
      solids (recol f' L) = lowHeightCol height (solids (recol f L))
  | [], a, f, fuel, h, _, _ => by
    cases h; exact ⟨f, by cases fuel <;> rfl, fun _ _ => rfl, rfl⟩
  | (k, s) :: L, a, f, fuel, ⟨ha, nxt, hk, h1⟩, hnd, hlen => by
    subst ha
    obtain ⟨fuel, rfl⟩ : ∃ g, fuel = g + 1 := ⟨fuel - 1, by simp at hlen; omega⟩
    simp only [keys_cons, List.nodup_cons] at hnd
    simp only [lowHeightLoop, reArea_span hk, bind_ok, ceilingOf_reArea h1]
    by_cases hc : bottom (solids L) - (s.max : Int) < height
    · simp only [hc, if_true]
      have hset := reArea_setSpan (f := f) (a := NOT_WALKABLE) hk
      simp only at hset
      obtain ⟨f', g1, g2, g3⟩ := lowHeightLoop_spec height L nxt (upd f k NOT_WALKABLE) fuel
        h1 hnd.2 (by simpa using hlen)
      refine ⟨f', ?_, ?_, ?_⟩
      · rw [hset]; exact g1
      · intro j hj
        simp at hj
        rw [g2 j hj.2, upd_ne hj.1]
      · simp only [recol_cons, solids_cons, lowHeightCol, g3, bottom_recol, hc, if_true]
        rw [g2 k hnd.1, upd_same]
        congr 2
        rw [recol_congr (g := f)]
        intro j hj
        exact upd_ne (by rintro rfl; exact hnd.1 hj)
    · simp only [hc, if_false, bind_ok]
      obtain ⟨f', g1, g2, g3⟩ := lowHeightLoop_spec height L nxt f fuel
        h1 hnd.2 (by simpa using hlen)
      refine ⟨f', g1, ?_, ?_⟩
      · intro j hj
        simp at hj
        exact g2 j hj.2
      · simp only [recol_cons, solids_cons, lowHeightCol, g3, bottom_recol, hc, if_false]
        rw [g2 k hnd.1]

/-! ### Ledges -/

/-- What the accumulator knows about the set `S` of passable floors seen so far. -/
def GoodAcc (climb : Nat) (f : Int) (S : Int → Prop) (acc : LedgeAcc) : Prop :=
  ((∃ nf, S nf ∧ nf < f - climb) → acc.diff < -(climb : Int)) ∧
  (¬ (∃ nf, S nf ∧ nf < f - climb) →
    acc.diff ≥ -(climb : Int) ∧
    (∀ a, (a = f ∨ S a ∧ (a - f).natAbs ≤ climb) → acc.lo ≤ a ∧ a ≤ acc.hi) ∧
    (acc.lo = f ∨ S acc.lo ∧ (acc.lo - f).natAbs ≤ climb) ∧
    (acc.hi = f ∨ S acc.hi ∧ (acc.hi - f).natAbs ≤ climb))

theorem GoodAcc.congr {climb f S S' acc} (h : GoodAcc climb f S acc) (hs : ∀ a, S a ↔ S' a) :
    GoodAcc climb f S' acc := by
  have : S = S' := funext fun a => propext (hs a)
  exact this ▸ h

theorem ledgeNeighbourLoop_spec {hf : Heightfield} (height climb : Nat) (fl c : Int) :
    ∀ (L : List Entry) (a g fuel acc S), Seg hf.allocated a L none → L.length ≤ fuel →
    GoodAcc climb fl S acc →
    ∃ acc', ledgeNeighbourLoop (hf.reArea g) height climb fl c fuel acc a = .ok acc' ∧
      GoodAcc climb fl (fun nf => S nf ∨ ∃ nc, (nf, nc) ∈ openings (solids L) ∧ Shares height fl c nf nc) acc'
  | [], a, g, fuel, acc, S, h, _, hg => by
    cases h
    refine ⟨acc, by cases fuel <;> rfl, hg.congr fun a => by simp [openings]⟩
  | (k, s) :: L, a, g, fuel, acc, S, ⟨ha, nxt, hk, h1⟩, hlen, hg => by
    subst ha
    obtain ⟨fuel, rfl⟩ : ∃ g, fuel = g + 1 := ⟨fuel - 1, by simp at hlen; omega⟩
    have hlen' : L.length ≤ fuel := by simpa using hlen
    simp only [ledgeNeighbourLoop, reArea_span hk, bind_ok, ceilingOf_reArea h1]
    have hop : ∀ S' : Int → Prop, (∀ a, S' a ↔ (S a ∨ (a = (s.max : Int) ∧ Shares height fl c a (bottom (solids L))))) →
        ∀ nf, (S' nf ∨ ∃ nc, (nf, nc) ∈ openings (solids L) ∧ Shares height fl c nf nc) ↔
        (S nf ∨ ∃ nc, (nf, nc) ∈ openings (solids ((k, s) :: L)) ∧ Shares height fl c nf nc) := by
      intro S' hS' nf
      rw [hS']
      simp only [solids_cons, openings, List.mem_cons, Prod.mk.injEq]
      constructor
      · rintro ((h | ⟨rfl, h⟩) | ⟨nc, h, h'⟩)
        · exact Or.inl h
        · exact Or.inr ⟨_, Or.inl ⟨rfl, rfl⟩, h⟩
        · exact Or.inr ⟨nc, Or.inr h, h'⟩
      · rintro (h | ⟨nc, (⟨rfl, rfl⟩ | h), h'⟩)
        · exact Or.inl (Or.inl h)
        · exact Or.inl (Or.inr ⟨rfl, h'⟩)
        · exact Or.inr ⟨nc, h, h'⟩
    by_cases hsh : min c (bottom (solids L)) - max fl (s.max : Int) < height
    · simp only [hsh, if_true]
      obtain ⟨acc', g1, g2⟩ := ledgeNeighbourLoop_spec height climb fl c L nxt g fuel acc S h1 hlen' hg
      refine ⟨acc', g1, g2.congr (hop S fun a => ?_)⟩
      constructor
      · exact Or.inl
      · rintro (h | ⟨rfl, h⟩)
        · exact h
        · unfold Shares at h; omega
    · simp only [hsh, if_false]
      have hshares : Shares height fl c (s.max : Int) (bottom (solids L)) := by unfold Shares; omega
      -- the set after this span
      have hS1 : ∀ a, (S a ∨ a = (s.max : Int)) ↔
          (S a ∨ (a = (s.max : Int) ∧ Shares height fl c a (bottom (solids L)))) := by
        intro a
        constructor
        · rintro (h | rfl)
          · exact Or.inl h
          · exact Or.inr ⟨rfl, hshares⟩
        · rintro (h | ⟨h, _⟩)
          · exact Or.inl h
          · exact Or.inr h
      obtain ⟨hg1, hg2⟩ := hg
      generalize (s.max : Int) = m at *
      by_cases hcl : ((m - fl).natAbs : Int) ≤ climb
      · simp only [hcl, if_true]
        have hgood : GoodAcc climb fl (fun a => S a ∨ a = m)
            ⟨min acc.diff (m - fl), min acc.lo m, max acc.hi m⟩ := by
          refine ⟨?_, ?_⟩
          · rintro ⟨nf, (h | rfl), h'⟩
            · have := hg1 ⟨nf, h, h'⟩; simp only; omega
            · omega
          · intro hno
            obtain ⟨k1, k2, k3, k4⟩ := hg2 fun ⟨nf, h, h'⟩ => hno ⟨nf, Or.inl h, h'⟩
            simp only
            refine ⟨by omega, ?_, ?_, ?_⟩
            · rintro a (rfl | ⟨(h | rfl), h'⟩)
              · have := k2 a (Or.inl rfl); omega
              · have := k2 a (Or.inr ⟨h, h'⟩); omega
              · omega
            · rcases Int.le_total acc.lo m with h | h
              · rw [Int.min_eq_left h]
                rcases k3 with h | ⟨h, h'⟩
                · exact Or.inl h
                · exact Or.inr ⟨Or.inl h, h'⟩
              · rw [Int.min_eq_right h]; exact Or.inr ⟨Or.inr rfl, by omega⟩
            · rcases Int.le_total acc.hi m with h | h
              · rw [Int.max_eq_right h]; exact Or.inr ⟨Or.inr rfl, by omega⟩
              · rw [Int.max_eq_left h]
                rcases k4 with h | ⟨h, h'⟩
                · exact Or.inl h
                · exact Or.inr ⟨Or.inl h, h'⟩
        obtain ⟨acc', g1, g2⟩ := ledgeNeighbourLoop_spec height climb fl c L nxt g fuel _ _ h1 hlen' hgood
        exact ⟨acc', g1, g2.congr (hop _ hS1)⟩
      · simp only [hcl, if_false]
        by_cases hd : m - fl < -(climb : Int)
        · simp only [hd, if_true]
          refine ⟨_, rfl, ⟨fun _ => by simp only; omega, fun hno => ?_⟩⟩
          exact absurd ⟨m, (hop _ hS1 m).1 (Or.inl (Or.inr rfl)), by omega⟩ hno
        · simp only [hd, if_false]
          have hgood : GoodAcc climb fl (fun a => S a ∨ a = m)
              ⟨min acc.diff (m - fl), acc.lo, acc.hi⟩ := by
            refine ⟨?_, ?_⟩
            · rintro ⟨nf, (h | rfl), h'⟩
              · have := hg1 ⟨nf, h, h'⟩; simp only; omega
              · omega
            · intro hno
              obtain ⟨k1, k2, k3, k4⟩ := hg2 fun ⟨nf, h, h'⟩ => hno ⟨nf, Or.inl h, h'⟩
              simp only
              refine ⟨by omega, ?_, ?_, ?_⟩
              · rintro a (rfl | ⟨(h | rfl), h'⟩)
                · have := k2 a (Or.inl rfl); omega
                · have := k2 a (Or.inr ⟨h, h'⟩); omega
                · omega
              · rcases k3 with h | ⟨h, h'⟩
                · exact Or.inl h
                · exact Or.inr ⟨Or.inl h, h'⟩
              · rcases k4 with h | ⟨h, h'⟩
                · exact Or.inl h
                · exact Or.inr ⟨Or.inl h, h'⟩
          obtain ⟨acc', g1, g2⟩ := ledgeNeighbourLoop_spec height climb fl c L nxt g fuel _ _ h1 hlen' hgood
          exact ⟨acc', g1, g2.congr (hop _ hS1)⟩

/-- The neighbouring columns of `(x, z)`. -/
def nbrCols (w h : Nat) (cols : Nat → List Entry) (x z : Nat) : Nat → Option (List Solid) := fun d =>
  (neighbourCell w h x z d).map fun p => solids (cols (p.1 + p.2 * w))

theorem contains_neighbour (hf : Heightfield) {x z d : Nat} (hd : d < 4) (hx : x < hf.width) (hz : z < hf.height) :
    (hf.contains ((x : Int) + dirOffsetX d) ((z : Int) + dirOffsetZ d) = false ∧
      neighbourCell hf.width hf.height x z d = none) ∨
    (hf.contains ((x : Int) + dirOffsetX d) ((z : Int) + dirOffsetZ d) = true ∧
      neighbourCell hf.width hf.height x z d =
        some (((x : Int) + dirOffsetX d).toNat, ((z : Int) + dirOffsetZ d).toNat) ∧
      ((x : Int) + dirOffsetX d).toNat < hf.width ∧ ((z : Int) + dirOffsetZ d).toNat < hf.height) := by
  have h4 : d = 0 ∨ d = 1 ∨ d = 2 ∨ d = 3 := by omega
  rcases h4 with rfl | rfl | rfl | rfl <;> simp only [contains, dirOffsetX, dirOffsetZ, neighbourCell]
  · by_cases h : 0 < x
    · right; refine ⟨by simp; omega, ?_, by omega, by omega⟩
      simp only [h, if_true]; congr 2 <;> omega
    · left; simp [h]; omega
  · by_cases h : z + 1 < hf.height
    · right; refine ⟨by simp; omega, ?_, by omega, by omega⟩
      simp only [h, if_true]; congr 2 
    · left; simp [h]; omega
  · by_cases h : x + 1 < hf.width
    · right; refine ⟨by simp; omega, ?_, by omega, by omega⟩
      simp only [h, if_true]; congr 2 
    · left; simp [h]; omega
  · by_cases h : 0 < z
    · right; refine ⟨by simp; omega, ?_, by omega, by omega⟩
      simp only [h, if_true]; congr 2 <;> omega
    · left; simp [h]; omega

theorem ledgeDirections_spec {hf : Heightfield} {cols} (hr : HFRep hf cols)
    (hsize : hf.spans.length = hf.width * hf.height) (height climb : Nat) {x z : Nat}
    (hx : x < hf.width) (hz : z < hf.height) (fl c : Int) (g) :
    ∀ (dirs : List Nat) (acc S), (∀ d ∈ dirs, d < 4) → GoodAcc climb fl S acc →
    ∃ acc', ledgeDirections (hf.reArea g) height climb x z fl c dirs acc = .ok acc' ∧
      ((∃ d ∈ dirs, VoidSide height (nbrCols hf.width hf.height cols x z) fl c d) → acc'.diff < -(climb : Int)) ∧
      (¬ (∃ d ∈ dirs, VoidSide height (nbrCols hf.width hf.height cols x z) fl c d) →
        GoodAcc climb fl (fun nf => S nf ∨ ∃ d ∈ dirs, ∃ l, nbrCols hf.width hf.height cols x z d = some l ∧
          ∃ nc, (nf, nc) ∈ openings l ∧ Shares height fl c nf nc) acc')
  | [], acc, S, _, hg => ⟨acc, rfl, by simp, fun _ => hg.congr fun a => by simp⟩
  | d :: dirs, acc, S, hd, hg => by
    simp only [ledgeDirections, reArea_contains]
    rcases contains_neighbour hf (hd d (by simp)) hx hz with ⟨h1, h2⟩ | ⟨h1, h2, h3, h4⟩
    · simp only [h1, Bool.not_false, if_true]
      refine ⟨_, rfl, fun _ => by simp only; omega, fun hno => ?_⟩
      exact absurd ⟨d, by simp, by simp [VoidSide, nbrCols, h2]⟩ hno
    · simp only [h1, Bool.not_true, if_false, Bool.false_eq_true, reArea_spanKeyAt]
      have hnb : nbrCols hf.width hf.height cols x z d =
          some (solids (cols (((x : Int) + dirOffsetX d).toNat + ((z : Int) + dirOffsetZ d).toNat * hf.width))) := by
        simp [nbrCols, h2]
      have hseg := spanKeyAt_seg hr hsize h3 h4
      have hcl : ((x : Int) + dirOffsetX d).toNat + ((z : Int) + dirOffsetZ d).toNat * hf.width < hf.spans.length :=
        hsize ▸ col_lt h3 h4
      have hlen := hseg.length_le (hr.nodup _ hcl)
      generalize ((x : Int) + dirOffsetX d).toNat + ((z : Int) + dirOffsetZ d).toNat * hf.width = C at *
      rw [ceilingOf_reArea hseg, bind_ok]
      by_cases hv : min c (bottom (solids (cols C))) - fl ≥ height
      · simp only [hv, if_true]
        refine ⟨_, rfl, fun _ => by simp only; omega, fun hno => ?_⟩
        exact absurd ⟨d, by simp, by simpa [VoidSide, hnb] using hv⟩ hno
      · simp only [hv, if_false]
        obtain ⟨acc1, k1, k2⟩ := ledgeNeighbourLoop_spec height climb fl c _ _ g
          (hf.reArea g).allocated.length acc S hseg (by simpa using hlen) hg
        obtain ⟨acc2, j1, j2, j3⟩ := ledgeDirections_spec hr hsize height climb hx hz fl c g dirs acc1 _
          (fun d hd' => hd d (by simp [hd'])) k2
        have hvd : ¬ VoidSide height (nbrCols hf.width hf.height cols x z) fl c d := by
          simpa [VoidSide, hnb] using hv
        refine ⟨acc2, by rw [k1, bind_ok, j1], ?_, ?_⟩
        · rintro ⟨d', hd', hv'⟩
          simp at hd'
          rcases hd' with rfl | hd'
          · exact absurd hv' hvd
          · exact j2 ⟨d', hd', hv'⟩
        · intro hno
          refine (j3 fun ⟨d', hd', hv'⟩ => hno ⟨d', by simp [hd'], hv'⟩).congr fun nf => ?_
          constructor
          · rintro ((h | ⟨nc, h, h'⟩) | ⟨d', hd', l, hl, h⟩)
            · exact Or.inl h
            · exact Or.inr ⟨d, by simp, _, hnb, nc, h, h'⟩
            · exact Or.inr ⟨d', by simp [hd'], l, hl, h⟩
          · rintro (h | ⟨d', hd', l, hl, h⟩)
            · exact Or.inl (Or.inl h)
            · simp at hd'
              rcases hd' with rfl | hd'
              · rw [hnb] at hl; cases hl; exact Or.inl (Or.inr h)
              · exact Or.inr ⟨d', hd', l, hl, h⟩

open Classical in
theorem isLedge_spec {hf : Heightfield} {cols} (hr : HFRep hf cols)
    (hsize : hf.spans.length = hf.width * hf.height) (height climb : Nat) {x z : Nat}
    (hx : x < hf.width) (hz : z < hf.height) (g) {s : Span} {L} (hn : Seg hf.allocated s.next L none) :
    isLedge (hf.reArea g) height climb x z s = .ok (decide
      (IsLedgeSpec height climb (nbrCols hf.width hf.height cols x z) s.max (bottom (solids L)))) := by
  simp only [isLedge, ceilingOf_reArea hn, bind_ok]
  generalize hfl : (s.max : Int) = fl
  generalize hce : bottom (solids L) = ce
  have hinit : GoodAcc climb fl (fun _ => False) ⟨(MAX_HEIGHTFIELD_HEIGHT : Int), fl, fl⟩ := by
    refine ⟨by simp, fun _ => ⟨by simp [MAX_HEIGHTFIELD_HEIGHT], by simp, Or.inl rfl, Or.inl rfl⟩⟩
  obtain ⟨acc, h1, h2, h3⟩ := ledgeDirections_spec hr hsize height climb hx hz fl ce g [0, 1, 2, 3] _ _
    (by simp) hinit
  rw [h1, bind_ok]
  have hmem : ∀ d, d ∈ [0, 1, 2, 3] ↔ d < 4 := by intro d; simp; omega
  simp only [hmem, false_or] at h2 h3
  have hset : ∀ nf, (∃ d, d < 4 ∧ ∃ l, nbrCols hf.width hf.height cols x z d = some l ∧
      ∃ nc, (nf, nc) ∈ openings l ∧ Shares height fl ce nf nc) ↔
      Passable height (nbrCols hf.width hf.height cols x z) fl ce nf := fun nf => Iff.rfl
  by_cases hvoid : ∃ d < 4, VoidSide height (nbrCols hf.width hf.height cols x z) fl ce d
  · rw [if_pos (h2 hvoid)]
    congr 1
    symm; rw [decide_eq_true_eq]; exact Or.inl hvoid
  · obtain ⟨k1, k2⟩ := (h3 hvoid).congr hset
    by_cases hdrop : ∃ nf, Passable height (nbrCols hf.width hf.height cols x z) fl ce nf ∧ nf < fl - climb
    · rw [if_pos (k1 hdrop)]
      congr 1
      symm; rw [decide_eq_true_eq]; exact Or.inr (Or.inl hdrop)
    · obtain ⟨m1, m2, m3, m4⟩ := k2 hdrop
      rw [if_neg (by omega)]
      congr 1
      apply decide_eq_decide.2
      constructor
      · intro h
        exact Or.inr (Or.inr ⟨acc.hi, acc.lo, m4, m3, h⟩)
      · rintro (h | h | ⟨a, b, ha, hb, h⟩)
        · exact absurd h hvoid
        · exact absurd h hdrop
        · have := m2 a ha; have := m2 b hb; omega

open Classical in
noncomputable def ledgeCol (height climb : Nat) (nbr : Nat → Option (List Solid)) : List Solid → List Solid
  | [] => []
  | s :: l =>
    { s with area := if IsLedgeSpec height climb nbr s.max (bottom l) then NOT_WALKABLE else s.area } ::
      ledgeCol height climb nbr l

theorem not_isWalkable {a : Area} (h : isWalkable a = false) : a = NOT_WALKABLE := by
  simpa [isWalkable] using h

theorem ledgeLoop_spec {hf : Heightfield} {cols} (hr : HFRep hf cols)
    (hsize : hf.spans.length = hf.width * hf.height) (height climb : Nat) {x z : Nat}
    (hx : x < hf.width) (hz : z < hf.height) : ∀ (L : List Entry) (a f fuel),
    Seg hf.allocated a L none → (keys L).Nodup → L.length ≤ fuel →
    ∃ f', ledgeLoop height climb x z fuel (hf.reArea f) a = .ok (hf.reArea f') ∧
      (∀ k, k ∉ keys L → f' k = f k) ∧
      solids (recol f' L) = ledgeCol height climb (nbrCols hf.width hf.height cols x z) (solids (recol f L))
  | [], a, f, fuel, h, _, _ => by
    cases h; exact ⟨f, by cases fuel <;> rfl, fun _ _ => rfl, rfl⟩
  | (k, s) :: L, a, f, fuel, ⟨ha, nxt, hk, h1⟩, hnd, hlen => by
    subst ha
    obtain ⟨fuel, rfl⟩ : ∃ g, fuel = g + 1 := ⟨fuel - 1, by simp at hlen; omega⟩
    simp only [keys_cons, List.nodup_cons] at hnd
    simp only [ledgeLoop, reArea_span hk, bind_ok]
    by_cases hw : isWalkable (f k) = true
    · simp only [hw, Bool.not_true, Bool.false_eq_true, if_false]
      rw [isLedge_spec hr hsize height climb hx hz f (s := ⟨s.min, s.max, f k, nxt⟩) h1, bind_ok]
      by_cases hc : IsLedgeSpec height climb (nbrCols hf.width hf.height cols x z) s.max (bottom (solids L))
      · simp only [hc, decide_true, if_true]
        have hset := reArea_setSpan (f := f) (a := NOT_WALKABLE) hk
        simp only at hset
        obtain ⟨f', g1, g2, g3⟩ := ledgeLoop_spec hr hsize height climb hx hz L nxt (upd f k NOT_WALKABLE) fuel
          h1 hnd.2 (by simpa using hlen)
        refine ⟨f', ?_, ?_, ?_⟩
        · rw [hset]; exact g1
        · intro j hj
          simp at hj
          rw [g2 j hj.2, upd_ne hj.1]
        · simp only [recol_cons, solids_cons, ledgeCol, g3, bottom_recol, hc, if_true]
          rw [g2 k hnd.1, upd_same]
          congr 2
          rw [recol_congr (g := f)]
          intro j hj
          exact upd_ne (by rintro rfl; exact hnd.1 hj)
      · simp only [hc, decide_false, Bool.false_eq_true, if_false, bind_ok]
        obtain ⟨f', g1, g2, g3⟩ := ledgeLoop_spec hr hsize height climb hx hz L nxt f fuel
          h1 hnd.2 (by simpa using hlen)
        refine ⟨f', g1, ?_, ?_⟩
        · intro j hj
          simp at hj
          exact g2 j hj.2
        · simp only [recol_cons, solids_cons, ledgeCol, g3, bottom_recol, hc, if_false]
          rw [g2 k hnd.1]
    · have hw' : isWalkable (f k) = false := by simpa using hw
      simp only [hw', Bool.not_false, if_true]
      obtain ⟨f', g1, g2, g3⟩ := ledgeLoop_spec hr hsize height climb hx hz L nxt f fuel
        h1 hnd.2 (by simpa using hlen)
      refine ⟨f', g1, ?_, ?_⟩
      · intro j hj
        simp at hj
        exact g2 j hj.2
      · simp only [recol_cons, solids_cons, ledgeCol, g3]
        rw [g2 k hnd.1]
        congr 2
        rw [not_isWalkable hw']; simp

/-! ### The three filters -/

theorem filterLowHanging_spec {hf : Heightfield} {cols} (hr : HFRep hf cols)
    (hsize : hf.spans.length = hf.width * hf.height) (climb : Nat) :
    ∃ f', hf.filterLowHangingWalkableObstacles climb = .ok (hf.reArea f') ∧
      ∀ c < hf.width * hf.height, solids (recol f' (cols c)) = lowHangingCol climb none (solids (cols c)) := by
  refine grid_area_loop hr hsize _ (fun _ => lowHangingCol climb none) ?_
  intro f x z hx hz
  have hseg := spanKeyAt_seg hr hsize hx hz
  have hnd := hr.nodup _ (hsize ▸ col_lt hx hz)
  exact lowHangingLoop_spec climb _ _ f _ none hseg hnd (by simpa using hseg.length_le hnd)

theorem filterLowHeight_spec {hf : Heightfield} {cols} (hr : HFRep hf cols)
    (hsize : hf.spans.length = hf.width * hf.height) (height : Nat) :
    ∃ f', hf.filterWalkableLowHeightSpans height = .ok (hf.reArea f') ∧
      ∀ c < hf.width * hf.height, solids (recol f' (cols c)) = lowHeightCol height (solids (cols c)) := by
  refine grid_area_loop hr hsize _ (fun _ => lowHeightCol height) ?_
  intro f x z hx hz
  have hseg := spanKeyAt_seg hr hsize hx hz
  have hnd := hr.nodup _ (hsize ▸ col_lt hx hz)
  exact lowHeightLoop_spec height _ _ f _ hseg hnd (by simpa using hseg.length_le hnd)

theorem filterLedge_spec {hf : Heightfield} {cols} (hr : HFRep hf cols)
    (hsize : hf.spans.length = hf.width * hf.height) (height climb : Nat) :
    ∃ f', hf.filterLedgeSpans height climb = .ok (hf.reArea f') ∧
      ∀ x < hf.width, ∀ z < hf.height, solids (recol f' (cols (x + z * hf.width))) =
        ledgeCol height climb (nbrCols hf.width hf.height cols x z) (solids (cols (x + z * hf.width))) := by
  have hmd : ∀ x z, x < hf.width → (x + z * hf.width) % hf.width = x ∧ (x + z * hf.width) / hf.width = z := by
    intro x z hx
    exact ⟨by rw [Nat.add_mul_mod_self_right, Nat.mod_eq_of_lt hx],
      by rw [Nat.add_mul_div_right _ _ (by omega), Nat.div_eq_of_lt hx, Nat.zero_add]⟩
  have hstep : ∀ f x z, x < hf.width → z < hf.height →
      ∃ f', ledgeLoop height climb x z (hf.reArea f).allocated.length (hf.reArea f) ((hf.reArea f).spanKeyAt x z)
          = .ok (hf.reArea f') ∧
        (∀ k, k ∉ keys (cols (x + z * hf.width)) → f' k = f k) ∧
        solids (recol f' (cols (x + z * hf.width))) =
          ledgeCol height climb (nbrCols hf.width hf.height cols ((x + z * hf.width) % hf.width)
            ((x + z * hf.width) / hf.width)) (solids (recol f (cols (x + z * hf.width)))) := by
    intro f x z hx hz
    have hseg := spanKeyAt_seg hr hsize hx hz
    have hnd := hr.nodup _ (hsize ▸ col_lt hx hz)
    rw [(hmd x z hx).1, (hmd x z hx).2]
    exact ledgeLoop_spec hr hsize height climb hx hz _ _ f _ hseg hnd (by simpa using hseg.length_le hnd)
  obtain ⟨f', h1, h2⟩ := grid_area_loop hr hsize
    (fun hf (x, z) => ledgeLoop height climb x z hf.allocated.length hf (hf.spanKeyAt x z))
    (fun c => ledgeCol height climb (nbrCols hf.width hf.height cols (c % hf.width) (c / hf.width))) hstep
  refine ⟨f', h1, fun x hx z hz => ?_⟩
  rw [h2 _ (col_lt hx hz), (hmd x z hx).1, (hmd x z hx).2]

end Rerecast
