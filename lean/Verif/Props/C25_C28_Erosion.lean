import Verif.Lemmas.Erosion
import Verif.Props.C19_C24_Compact
/-!
C25-C28: erosion of the walkable area, on every well-formed compact heightfield (`CompactHeightfield.WellFormed`, which
conversion guarantees, see C20).  Vocabulary in `Verif/Spec/Chamfer.lean`: `Link`, `PathThrough`, `Reach`,
`WalkableEdge`, `InCell`, `octile`.
-/
set_option linter.unusedVariables false
namespace Rerecast
open CompactHeightfield

/-- A flat 3×3 field, one surface per cell; used as a witness. -/
def flatOps : List Insertion := (gridCells 3 3).map fun p => ⟨p.1, p.2, 1, 0, 5, 255⟩

def flatHf : Heightfield :=
  match (Heightfield.new 3 3).insertAll flatOps with
  | .ok hf => hf
  | .error _ => Heightfield.new 0 0

def flatChf : CompactHeightfield :=
  match flatHf.intoCompact 10 1 with
  | .ok c => c
  | .error _ => ⟨0, 0, 0, 0, 0, 0, 0, [], [], [], []⟩

theorem wellFormed_of_ops {w h : Nat} {ops : List Insertion} (hv : ValidOps w h ops) (hB : ∀ i ∈ ops, i.max ≤ 65535)
    (hw : w ≤ 65535) (hh : h ≤ 65535)
    {hf : Heightfield} (hi : (Heightfield.new w h).insertAll ops = .ok hf) (hs : hf.spanCount < 2 ^ 32) {wh climb : Nat}
    {chf : CompactHeightfield} (hc : hf.intoCompact wh climb = .ok chf) : chf.WellFormed := by
  obtain ⟨hf', cols, h1, hr⟩ := reached_of_valid (w := w) (h := h) ops hv
  rw [hi] at h1; cases h1
  refine c20_wellformed hf ?_ hs (by rw [hr.width]; exact hw) (by rw [hr.height]; exact hh) wh climb chf hc
  refine Rep.wellFormed (cols := cols) ⟨?_, hr.rep, ?_, ?_⟩
  · rw [hr.width, hr.height]; exact hr.len
  · rw [hr.width, hr.height]; exact hr.sep
  · rw [hr.width, hr.height]
    intro c hc s hs
    exact ⟨hr.proper c hc s hs, hr.bound 65535 hB c hc s hs⟩

theorem flatChf_wellFormed : flatChf.WellFormed :=
  wellFormed_of_ops (w := 3) (h := 3) (ops := flatOps) (hf := flatHf) (wh := 10) (climb := 1)
    (by unfold ValidOps; decide +kernel) (by decide +kernel) (by decide) (by decide) (by decide +kernel) (by decide +kernel) (by decide +kernel)

/-- **C25 (outcome).** On a well-formed field, eroding by `r` returns exactly when `2 * r` fits in a `u16`; otherwise it
panics. -/
theorem c25_outcome (chf : CompactHeightfield) (hwf : chf.WellFormed) (r : Nat) :
    (r ≤ 32767 → ∃ out, chf.erodeWalkableArea r = .ok out) ∧ (32767 < r → chf.erodeWalkableArea r = .error .panic) := by
  obtain ⟨f1, f2, hc, h⟩ := erode_spec hwf
  refine ⟨fun hr => ?_, fun hr => (h r).1 (by omega)⟩
  obtain ⟨a, h1, _⟩ := (h r).2 (by omega)
  exact ⟨_, h1⟩

/-- **C25.** Erosion changes nothing but areas, and an area only to unwalkable. -/
theorem c25_only_removes (chf : CompactHeightfield) (hwf : chf.WellFormed) (r : Nat) (out : CompactHeightfield)
    (hok : chf.erodeWalkableArea r = .ok out) :
    out = { chf with areas := out.areas } ∧ out.areas.length = chf.areas.length ∧
    ∀ i : Nat, out.areas[i]? = chf.areas[i]? ∨ out.areas[i]? = some NOT_WALKABLE := by
  obtain ⟨f1, f2, hc, h⟩ := erode_spec hwf
  by_cases hr : r * 2 ≤ 65535
  · obtain ⟨a, h1, h2, h3⟩ := (h r).2 hr
    rw [h1] at hok; cases hok
    refine ⟨rfl, h2, fun i => ?_⟩
    by_cases hi : i < chf.spans.length
    · simp only [h3 i hi]; split
      · exact Or.inr rfl
      · exact Or.inl rfl
    · left
      have := hwf.areas_len
      simp only
      rw [List.getElem?_eq_none (by omega), List.getElem?_eq_none (by omega)]
  · rw [(h r).1 (by omega)] at hok; cases hok

/-- **C25.** Radius 0 changes nothing. -/
theorem c25_radius_zero (chf : CompactHeightfield) (hwf : chf.WellFormed) : chf.erodeWalkableArea 0 = .ok chf := by
  obtain ⟨f1, f2, hc, h⟩ := erode_spec hwf
  obtain ⟨a, h1, h2, h3⟩ := (h 0).2 (by omega)
  rw [h1]
  have : a = chf.areas := by
    apply List.ext_getElem?
    intro i
    by_cases hi : i < chf.spans.length
    · rw [h3 i hi, if_neg (by omega)]
    · have := hwf.areas_len
      rw [List.getElem?_eq_none (by omega), List.getElem?_eq_none (by omega)]
  rw [this]

example : flatChf.WellFormed ∧ (flatChf.erodeWalkableArea 1).map (·.areas) = .ok [0, 0, 0, 0, 255, 0, 0, 0, 0] ∧
    flatChf.areas = List.replicate 9 255 := ⟨flatChf_wellFormed, by decide +kernel, by decide +kernel⟩

/-- A surviving span has a large boundary distance. -/
private theorem survivor {chf : CompactHeightfield} (hwf : chf.WellFormed) {r : Nat} (hr : r ≤ 127) {out}
    (hok : chf.erodeWalkableArea r = .ok out) : ∃ f1 f2, chf.Chamfer chf.edge0 f1 f2 ∧
      ∀ i < chf.spans.length, (out.WalkableAt i ↔ chf.WalkableAt i ∧ r * 2 ≤ f2 i) := by
  obtain ⟨f1, f2, hc, h⟩ := erode_spec hwf
  obtain ⟨a, h1, h2, h3⟩ := (h r).2 (by omega)
  rw [h1] at hok; cases hok
  refine ⟨f1, f2, hc, fun i hi => ?_⟩
  have hm : r * 2 % 256 = r * 2 := by omega
  have h3 := h3 i hi
  rw [hm] at h3
  unfold WalkableAt
  simp only [h3]
  split
  · constructor
    · rintro ⟨a, e, hw⟩; cases e; exact absurd hw (by decide)
    · intro h; omega
  · constructor
    · intro h; exact ⟨h, by omega⟩
    · intro h; exact h.1

/-- **C26.** If a span survives erosion by `r ≤ 127`, then for every cell offset whose chamfer cost is at most `2 * r`
(in particular for every cell at most `r` steps away along an axis) the cell lies inside the field and holds a span that
can be reached from the survivor over reported neighbours, all spans on the way, ends included, having been walkable
before the erosion. -/
theorem c26_clearance (chf : CompactHeightfield) (hwf : chf.WellFormed) (r : Nat) (hr : r ≤ 127) (out : CompactHeightfield)
    (hok : chf.erodeWalkableArea r = .ok out) (i x z : Nat) (s : CompactSpan) (hat : chf.At x z i s)
    (hw : out.WalkableAt i) (dx dz : Int) (hd : octile dx dz ≤ 2 * r) :
    ∃ ds k, (∀ d ∈ ds, d < 4) ∧ chf.PathThrough chf.WalkableAt i ds k ∧ chf.InCell k (x + dx) (z + dz) := by
  obtain ⟨f1, f2, hc, h⟩ := survivor hwf hr hok
  have hi : i < chf.spans.length := (List.getElem?_eq_some_iff.1 hat.2.2.1).1
  obtain ⟨h1, h2⟩ := (h i hi).1 hw
  refine clear_octile hwf hc ?_ ?_ hat h1 dx dz (by omega)
  · intro j hj _ h0 d hd
    by_contra hcon
    unfold edge0 at h0
    rw [if_pos ⟨hj, Or.inr ⟨d, hd, hcon⟩⟩] at h0
    omega
  · rintro k ⟨a, ha, _⟩
    rw [← hwf.areas_len]; exact (List.getElem?_eq_some_iff.1 ha).1

/-- The survivor of the 3×3 field, and all four axis neighbours plus the cells at chamfer cost 2. -/
example : (flatChf.erodeWalkableArea 1).map (·.areas[4]?) = .ok (some 255) ∧ octile 1 0 ≤ 2 * 1 ∧ octile 0 (-1) ≤ 2 * 1 ∧
    octile 1 1 = 3 := by decide +kernel

/-- **C27.** A walkable span that erosion by `r ≤ 127` removes is joined to an edge span of the walkable area by a
chain of reported neighbours of cost less than `2 * r`. -/
theorem c27_removed_is_near_edge (chf : CompactHeightfield) (hwf : chf.WellFormed) (r : Nat) (hr : r ≤ 127)
    (out : CompactHeightfield) (hok : chf.erodeWalkableArea r = .ok out) (i : Nat) (hw : chf.WalkableAt i)
    (hrem : ¬ out.WalkableAt i) : ∃ k c, chf.WalkableEdge k ∧ chf.Reach i k c ∧ c < 2 * r := by
  obtain ⟨f1, f2, hc, h⟩ := survivor hwf hr hok
  have hi : i < chf.spans.length := by
    obtain ⟨a, ha, _⟩ := hw
    rw [← hwf.areas_len]; exact (List.getElem?_eq_some_iff.1 ha).1
  have hlt : f2 i < r * 2 := by
    by_contra hcon
    exact hrem ((h i hi).2 ⟨hw, by omega⟩)
  obtain ⟨k, c, hk, hreach, he⟩ := hc.witness2 hwf _ i (Nat.le_refl _) hi
  refine ⟨k, c, ?_, hreach, by omega⟩
  by_contra hcon
  unfold edge0 at he
  rw [if_neg hcon] at he
  omega

/-- Conversely every edge span is removed by any radius from 1 to 127. -/
theorem c27_edges_removed (chf : CompactHeightfield) (hwf : chf.WellFormed) (r : Nat) (hr : r ≤ 127) (h1 : 1 ≤ r)
    (out : CompactHeightfield) (hok : chf.erodeWalkableArea r = .ok out) (k : Nat) (he : chf.WalkableEdge k) :
    ¬ out.WalkableAt k := by
  obtain ⟨f1, f2, hc, h⟩ := survivor hwf hr hok
  intro hw
  have := ((h k he.1).1 hw).2
  have l1 := hc.le01 k
  have l2 := hc.le12 k
  unfold edge0 at l1
  rw [if_pos he] at l1
  omega

example : flatChf.areas[0]? = some 255 ∧ (flatChf.erodeWalkableArea 1).map (·.areas[0]?) = .ok (some 0) := by
  decide +kernel

/-- **C28 (partial).** Erosion is monotone in the radius as long as the doubled radius, reduced modulo 256, is.
Missing: pairs of radii for which the `as u8` conversion wraps differently; there the statement is false
(`c28_violated`). -/
theorem c28_monotone_partial (chf : CompactHeightfield) (hwf : chf.WellFormed) (r r' : Nat) (hr : r % 128 ≤ r' % 128)
    (out out' : CompactHeightfield) (hok : chf.erodeWalkableArea r = .ok out) (hok' : chf.erodeWalkableArea r' = .ok out')
    (i : Nat) (hw : out'.WalkableAt i) : out.WalkableAt i := by
  obtain ⟨f1, f2, hc, h⟩ := erode_spec hwf
  have hb : ∀ {q o}, chf.erodeWalkableArea q = .ok o → q * 2 ≤ 65535 := by
    intro q o hq
    by_contra hcon
    rw [(h q).1 (by omega)] at hq; cases hq
  obtain ⟨a, h1, h2, h3⟩ := (h r).2 (hb hok)
  obtain ⟨a', h1', h2', h3'⟩ := (h r').2 (hb hok')
  rw [h1] at hok; cases hok
  rw [h1'] at hok'; cases hok'
  obtain ⟨b, hb1, hb2⟩ := hw
  simp only at hb1
  have hi : i < chf.spans.length := by
    have := (List.getElem?_eq_some_iff.1 hb1).1
    rw [← hwf.areas_len]; omega
  rw [h3' i hi] at hb1
  split at hb1
  · cases hb1; exact absurd hb2 (by decide)
  · refine ⟨b, ?_, hb2⟩
    simp only
    rw [h3 i hi, if_neg (by omega)]
    exact hb1

example : (1 : Nat) % 128 ≤ 2 % 128 ∧ (flatChf.erodeWalkableArea 2).map (·.areas) = .ok (List.replicate 9 0) := by
  decide +kernel

/-- **C28 is violated in full:** radius 127 removes every span of the 3×3 field, radius 128 removes none. -/
theorem c28_violated : ¬ ∀ (chf : CompactHeightfield), chf.WellFormed → ∀ r r' : Nat, r ≤ r' → ∀ out out',
    chf.erodeWalkableArea r = .ok out → chf.erodeWalkableArea r' = .ok out' → ∀ i, out'.WalkableAt i → out.WalkableAt i := by
  intro h
  obtain ⟨a, e1⟩ : ∃ a, flatChf.erodeWalkableArea 127 = .ok a := (c25_outcome _ flatChf_wellFormed 127).1 (by decide)
  obtain ⟨b, e2⟩ : ∃ a, flatChf.erodeWalkableArea 128 = .ok a := (c25_outcome _ flatChf_wellFormed 128).1 (by decide)
  have f1 : ∀ a, flatChf.erodeWalkableArea 127 = .ok a → a.areas = List.replicate 9 0 := by
    have : (flatChf.erodeWalkableArea 127).toOption.map (·.areas) = some (List.replicate 9 0) := by decide +kernel
    intro a ha; rw [ha] at this; simpa [Except.toOption] using this
  have f2 : ∀ a, flatChf.erodeWalkableArea 128 = .ok a → a.areas = List.replicate 9 255 := by
    have : (flatChf.erodeWalkableArea 128).toOption.map (·.areas) = some (List.replicate 9 255) := by decide +kernel
    intro a ha; rw [ha] at this; simpa [Except.toOption] using this
  obtain ⟨c, hc, hw⟩ := h flatChf flatChf_wellFormed 127 128 (by decide) a b e1 e2 0 ⟨255, by rw [f2 b e2]; rfl, by decide⟩
  rw [f1 a e1] at hc
  cases hc
  exact absurd hw (by decide)

end Rerecast
