import Verif.Lemmas.WellFormed
import Verif.Lemmas.HeightfieldHistory
/-!
C15-C18: the three heightfield filters, on every well-formed heightfield.

`Verif/Spec/PreFilter.lean` has the per-span descriptions (`bottom`, `openings`, `IsLedgeSpec`) that the theorems
compare the modelled loops with.
-/
namespace Rerecast
open Heightfield

/-- Every heightfield reached by insertions with `u16` heights is well formed, so the theorems below apply to it. -/
theorem c09_reachable_wellformed (w h : Nat) (ops : List Insertion) (hv : ValidOps w h ops)
    (hu : ∀ i ∈ ops, i.max ≤ 65535) :
    ∃ hf, (Heightfield.new w h).insertAll ops = .ok hf ∧ hf.width = w ∧ hf.height = h ∧ hf.WellFormed := by
  obtain ⟨hf, cols, h1, hr⟩ := reached_of_valid ops hv
  refine ⟨hf, h1, hr.width, hr.height, Rep.wellFormed (cols := cols) ⟨?_, hr.rep, ?_, ?_⟩⟩
  · rw [hr.width, hr.height]; exact hr.len
  · rw [hr.width, hr.height]; exact hr.sep
  · rw [hr.width, hr.height]
    intro c hc s hs
    exact ⟨hr.proper c hc s hs, hr.bound _ hu c hc s hs⟩

/-- A small well-formed heightfield with walkable and unwalkable spans, used as a witness below. -/
def sampleHf : Heightfield :=
  match (Heightfield.new 2 2).insertAll
    [⟨0, 0, 1, 2, 4, 2⟩, ⟨0, 0, 1, 7, 10, 0⟩, ⟨1, 1, 0, 3, 5, 255⟩, ⟨0, 0, 1, 12, 14, 3⟩] with
  | .ok hf => hf
  | .error _ => Heightfield.new 0 0

example : sampleHf.WellFormed ∧ sampleHf.width = 2 ∧ sampleHf.height = 2 ∧
    sampleHf.column 0 = .ok [⟨2, 4, 2⟩, ⟨7, 10, 0⟩, ⟨12, 14, 3⟩] := by
  obtain ⟨hf, h1, h2, h3, h4⟩ := c09_reachable_wellformed 2 2
    [⟨0, 0, 1, 2, 4, 2⟩, ⟨0, 0, 1, 7, 10, 0⟩, ⟨1, 1, 0, 3, 5, 255⟩, ⟨0, 0, 1, 12, 14, 3⟩]
    (by unfold ValidOps; decide) (by decide)
  have : sampleHf = hf := by unfold sampleHf; rw [h1]
  rw [this]
  refine ⟨h4, h2, h3, ?_⟩
  rw [← this]; decide

/-- **C15.** Each filter succeeds, returns a well-formed heightfield of the same size, and leaves the `(min, max)`
sequence of every column unchanged. -/
theorem c15_filters_keep_geometry (hf : Heightfield) (hwf : hf.WellFormed) (height climb : Nat) :
    ∀ r ∈ [hf.filterLowHangingWalkableObstacles climb, hf.filterLedgeSpans height climb,
        hf.filterWalkableLowHeightSpans height],
      ∃ hf', r = .ok hf' ∧ hf'.WellFormed ∧ hf'.width = hf.width ∧ hf'.height = hf.height ∧
        ∀ x < hf.width, ∀ z < hf.height, ∃ l l', hf.column (x + z * hf.width) = .ok l ∧
          hf'.column (x + z * hf.width) = .ok l' ∧ geom l' = geom l := by
  obtain ⟨cols, hr⟩ := hwf.toRep
  have key : ∀ f, (hf.reArea f).WellFormed ∧ (hf.reArea f).width = hf.width ∧ (hf.reArea f).height = hf.height ∧
        ∀ x < hf.width, ∀ z < hf.height, ∃ l l', hf.column (x + z * hf.width) = .ok l ∧
          (hf.reArea f).column (x + z * hf.width) = .ok l' ∧ geom l' = geom l := fun f =>
    ⟨(hr.reArea f).wellFormed, rfl, rfl, fun x hx z hz =>
      ⟨_, _, hr.column hx hz, (hr.reArea f).column hx hz, geom_recol f _⟩⟩
  intro r hrm
  simp at hrm
  rcases hrm with rfl | rfl | rfl
  · obtain ⟨f, h1, _⟩ := filterLowHanging_spec hr.rep hr.size climb; exact ⟨_, h1, key f⟩
  · obtain ⟨f, h1, _⟩ := filterLedge_spec hr.rep hr.size height climb; exact ⟨_, h1, key f⟩
  · obtain ⟨f, h1, _⟩ := filterLowHeight_spec hr.rep hr.size height; exact ⟨_, h1, key f⟩

/-- **C16.** Span `j` of a column changes exactly when it is unwalkable, the span `j - 1` below it was walkable
before the filter and its top is at most `climb` above that span's top; it then takes that span's area. -/
theorem c16_low_hanging (hf : Heightfield) (hwf : hf.WellFormed) (climb : Nat) :
    ∃ hf', hf.filterLowHangingWalkableObstacles climb = .ok hf' ∧
      ∀ x < hf.width, ∀ z < hf.height, ∃ l l', hf.column (x + z * hf.width) = .ok l ∧
        hf'.column (x + z * hf.width) = .ok l' ∧ l'.length = l.length ∧
        l'[0]? = l[0]? ∧
        ∀ j p s, l[j]? = some p → l[j + 1]? = some s →
          l'[j + 1]? = some (if isWalkable s.area = false ∧ isWalkable p.area = true ∧ s.max ≤ p.max + climb
            then { s with area := p.area } else s) := by
  obtain ⟨cols, hr⟩ := hwf.toRep
  obtain ⟨f, h1, h2⟩ := filterLowHanging_spec hr.rep hr.size climb
  refine ⟨_, h1, fun x hx z hz => ⟨_, _, hr.column hx hz, (hr.reArea f).column hx hz, ?_⟩⟩
  have h2 := h2 _ (col_lt hx hz)
  simp only [reArea_width]
  rw [h2]
  refine ⟨lowHangingCol_length _ _ _, lowHangingCol_get_zero _ _, ?_⟩
  intro j p s hp hs
  rw [lowHangingCol_get_succ, hp, hs]
  simp only [Option.map_some, Option.bind_some, lowHangingArea, Option.some.injEq]
  have hiff : ((!isWalkable s.area && isWalkable p.area && decide ((s.max : Int) - (p.max : Int) ≤ climb)) = true) ↔
      (isWalkable s.area = false ∧ isWalkable p.area = true ∧ s.max ≤ p.max + climb) := by
    simp only [Bool.and_eq_true, Bool.not_eq_true', decide_eq_true_eq, and_assoc]
    constructor
    · rintro ⟨a, b, c⟩; exact ⟨a, b, by omega⟩
    · rintro ⟨a, b, c⟩; exact ⟨a, b, by omega⟩
  simp only [hiff]
  split <;> rfl

/-- The filter is not idempotent in general: a stack of two obstacles is climbed one step per application. -/
theorem c16_not_idempotent :
    ∃ hf hf1 hf2 : Heightfield, hf.WellFormed ∧ hf.filterLowHangingWalkableObstacles 3 = .ok hf1 ∧
      hf1.filterLowHangingWalkableObstacles 3 = .ok hf2 ∧ hf1 ≠ hf2 := by
  obtain ⟨hf, h1, h2, h3, h4⟩ := c09_reachable_wellformed 1 1
    [⟨0, 0, 1, 2, 4, 2⟩, ⟨0, 0, 1, 5, 6, 0⟩, ⟨0, 0, 0, 7, 8, 0⟩] (by unfold ValidOps; decide) (by decide)
  have e : hf = ⟨1, 1, [some 0], [some ⟨2, 4, 2, some 1⟩, some ⟨5, 6, 0, some 2⟩, some ⟨7, 8, 0, none⟩]⟩ := by
    have : (Heightfield.new 1 1).insertAll
      [⟨0, 0, 1, 2, 4, 2⟩, ⟨0, 0, 1, 5, 6, 0⟩, ⟨0, 0, 0, 7, 8, 0⟩] =
      .ok ⟨1, 1, [some 0], [some ⟨2, 4, 2, some 1⟩, some ⟨5, 6, 0, some 2⟩, some ⟨7, 8, 0, none⟩]⟩ := by decide
    rw [this] at h1; cases h1; rfl
  refine ⟨hf, _, _, h4, by rw [e]; rfl, rfl, by decide⟩

/-- The columns next to `(x, z)`; `none` outside the grid. -/
def neighbours (hf : Heightfield) (x z : Nat) (d : Nat) : Option (List Solid) :=
  match neighbourCell hf.width hf.height x z d with
  | none => none
  | some (nx, nz) => (hf.column (nx + nz * hf.width)).toOption

open Classical in
/-- **C17.** The ledge filter gives every span exactly the verdict of the independent per-span test `IsLedgeSpec`,
evaluated on the heightfield as it was before the filter ran. -/
theorem c17_ledge_verdict (hf : Heightfield) (hwf : hf.WellFormed) (height climb : Nat) :
    ∃ hf', hf.filterLedgeSpans height climb = .ok hf' ∧
      ∀ x < hf.width, ∀ z < hf.height, ∃ l l', hf.column (x + z * hf.width) = .ok l ∧
        hf'.column (x + z * hf.width) = .ok l' ∧ l'.length = l.length ∧
        ∀ j s, l[j]? = some s → l'[j]? = some
          (if IsLedgeSpec height climb (neighbours hf x z) s.max (bottom (l.drop (j + 1)))
            then { s with area := NOT_WALKABLE } else s) := by
  obtain ⟨cols, hr⟩ := hwf.toRep
  obtain ⟨f, h1, h2⟩ := filterLedge_spec hr.rep hr.size height climb
  refine ⟨_, h1, fun x hx z hz => ⟨_, _, hr.column hx hz, (hr.reArea f).column hx hz, ?_⟩⟩
  have h2 := h2 x hx z hz
  simp only [reArea_width]
  rw [h2]
  refine ⟨ledgeCol_length _ _ _ _, ?_⟩
  intro j s hs
  have hn : ∀ d < 4, neighbours hf x z d = nbrCols hf.width hf.height cols x z d := by
    intro d hd
    unfold neighbours nbrCols
    rcases contains_neighbour hf hd hx hz with ⟨_, hb⟩ | ⟨_, hb, hc, hd⟩
    · rw [hb]; rfl
    · rw [hb]
      simp only [Option.map_some]
      rw [hr.column hc hd]; rfl
  have hiff : ∀ fl ce, IsLedgeSpec height climb (neighbours hf x z) fl ce ↔
      IsLedgeSpec height climb (nbrCols hf.width hf.height cols x z) fl ce := by
    intro fl ce
    have hv : ∀ d < 4, VoidSide height (neighbours hf x z) fl ce d ↔
        VoidSide height (nbrCols hf.width hf.height cols x z) fl ce d := by
      intro d hd; unfold VoidSide; rw [hn d hd]
    have hp : ∀ nf, Passable height (neighbours hf x z) fl ce nf ↔
        Passable height (nbrCols hf.width hf.height cols x z) fl ce nf := by
      intro nf
      constructor
      · rintro ⟨d, hd, l, hl, h⟩; exact ⟨d, hd, l, by rw [← hn d hd]; exact hl, h⟩
      · rintro ⟨d, hd, l, hl, h⟩; exact ⟨d, hd, l, by rw [hn d hd]; exact hl, h⟩
    unfold IsLedgeSpec
    simp only [hp]
    have : (∃ d < 4, VoidSide height (neighbours hf x z) fl ce d) ↔
        (∃ d < 4, VoidSide height (nbrCols hf.width hf.height cols x z) fl ce d) :=
      ⟨fun ⟨d, hd, h⟩ => ⟨d, hd, (hv d hd).1 h⟩, fun ⟨d, hd, h⟩ => ⟨d, hd, (hv d hd).2 h⟩⟩
    rw [this]
  rw [ledgeCol_get, hs]
  simp only [Option.map_some, Option.some.injEq]
  by_cases hh : IsLedgeSpec height climb (neighbours hf x z) s.max
      (bottom ((solids (cols (x + z * hf.width))).drop (j + 1)))
  · rw [if_pos hh, if_pos ((hiff _ _).1 hh)]
  · rw [if_neg hh, if_neg (fun h => hh ((hiff _ _).2 h))]

/-- **C17 (idempotence).** -/
theorem c17_ledge_idempotent (hf : Heightfield) (hwf : hf.WellFormed) (height climb : Nat) :
    ∃ hf', hf.filterLedgeSpans height climb = .ok hf' ∧ hf'.filterLedgeSpans height climb = .ok hf' := by
  obtain ⟨cols, hr⟩ := hwf.toRep
  obtain ⟨f, h1, h2⟩ := filterLedge_spec hr.rep hr.size height climb
  have hr' := hr.reArea f
  obtain ⟨f', h1', h2'⟩ := filterLedge_spec hr'.rep hr'.size height climb
  refine ⟨_, h1, ?_⟩
  rw [h1', hr'.reArea_eq f']
  intro c hc
  obtain ⟨ha, hb, hcc⟩ := col_div hc
  simp only [reArea_width, reArea_height] at ha hb hcc h2'
  have e1 := h2 _ ha _ hb
  have e2 := h2' _ ha _ hb
  rw [hcc] at e1 e2
  rw [e2, e1]
  exact ledgeCol_idem height climb _ _ (fun fl ce => nbrCols_recol_ledge _ _ cols f _ _ height climb fl ce) _

/-- **C18.** After the low-height filter, a span is walkable iff it was walkable and has head room; its area is
then unchanged. -/
theorem c18_head_room (hf : Heightfield) (hwf : hf.WellFormed) (height : Nat) :
    ∃ hf', hf.filterWalkableLowHeightSpans height = .ok hf' ∧
      ∀ x < hf.width, ∀ z < hf.height, ∃ l l', hf.column (x + z * hf.width) = .ok l ∧
        hf'.column (x + z * hf.width) = .ok l' ∧ l'.length = l.length ∧
        ∀ (j : Nat) s s', l[j]? = some s → l'[j]? = some s' →
          s'.min = s.min ∧ s'.max = s.max ∧
          (isWalkable s'.area = true ↔
            isWalkable s.area = true ∧ (height : Int) ≤ bottom (l.drop (j + 1)) - s.max) ∧
          (isWalkable s'.area = true → s'.area = s.area) := by
  obtain ⟨cols, hr⟩ := hwf.toRep
  obtain ⟨f, h1, h2⟩ := filterLowHeight_spec hr.rep hr.size height
  refine ⟨_, h1, fun x hx z hz => ⟨_, _, hr.column hx hz, (hr.reArea f).column hx hz, ?_⟩⟩
  have h2 := h2 _ (col_lt hx hz)
  simp only [reArea_width]
  rw [h2]
  refine ⟨lowHeightCol_length _ _, ?_⟩
  intro j s s' hs hs'
  rw [lowHeightCol_get, hs] at hs'
  simp only [Option.map_some, Option.some.injEq] at hs'
  subst hs'
  refine ⟨rfl, rfl, ?_, ?_⟩
  · split
    · simp [isWalkable, NOT_WALKABLE]; omega
    · simp; omega
  · split
    · simp [isWalkable, NOT_WALKABLE]
    · simp

/-- **C18 (idempotence).** -/
theorem c18_idempotent (hf : Heightfield) (hwf : hf.WellFormed) (height : Nat) :
    ∃ hf', hf.filterWalkableLowHeightSpans height = .ok hf' ∧
      hf'.filterWalkableLowHeightSpans height = .ok hf' := by
  obtain ⟨cols, hr⟩ := hwf.toRep
  obtain ⟨f, h1, h2⟩ := filterLowHeight_spec hr.rep hr.size height
  have hr' := hr.reArea f
  obtain ⟨f', h1', h2'⟩ := filterLowHeight_spec hr'.rep hr'.size height
  refine ⟨_, h1, ?_⟩
  rw [h1', hr'.reArea_eq f']
  intro c hc
  rw [h2' c hc, h2 c hc]
  exact lowHeightCol_idem height _

/-- The filters do something on the sample: the ledge filter removes every walkable span of this tiny grid and the
low-height filter removes the span at `[2, 4)`, which has only 3 voxels of head room. -/
example : (sampleHf.filterWalkableLowHeightSpans 4 >>= fun hf => hf.column 0) =
      .ok [⟨2, 4, 0⟩, ⟨7, 10, 0⟩, ⟨12, 14, 3⟩] ∧
    (sampleHf.filterLowHangingWalkableObstacles 6 >>= fun hf => hf.column 0) =
      .ok [⟨2, 4, 2⟩, ⟨7, 10, 2⟩, ⟨12, 14, 3⟩] ∧
    (sampleHf.filterLedgeSpans 4 1 >>= fun hf => hf.column 0) =
      .ok [⟨2, 4, 0⟩, ⟨7, 10, 0⟩, ⟨12, 14, 0⟩] := by decide

end Rerecast
