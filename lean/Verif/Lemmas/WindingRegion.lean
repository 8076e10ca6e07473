import Verif.Lemmas.Winding
import Verif.Lemmas.OutlineWalk
import Verif.Spec.Cover
import Mathlib.Algebra.BigOperators.Ring.Finset
import Mathlib.Algebra.Order.BigOperators.Group.Finset
/-! The outlines of a region wind, all together, once around every cell of it. -/
set_option linter.unusedVariables false
set_option linter.unusedSectionVars false
namespace Rerecast

/-- Consecutive segments from `c` to `e`. -/
def Joined : α → List (α × α) → α → Prop
  | c, [], e => c = e
  | c, q :: l, e => q.1 = c ∧ Joined q.2 l e

theorem joined_pathSum (g : α × α → Int) : ∀ (l : List (α × α)) (c e : α), Joined c l e → pathSum g (c :: l.map (·.2)) = (l.map g).sum
  | [], c, e, _ => rfl
  | q :: l, c, e, h => by
    have ih := joined_pathSum g l q.2 e h.2
    simp only [List.map_cons, List.sum_cons]
    rw [← ih, show q = (c, q.2) from Prod.ext h.1 rfl]
    unfold pathSum
    simp [path_cons_cons]

theorem joined_last : ∀ (l : List (α × α)) (c e : α), Joined c l e → (c :: l.map (·.2)).getLast (by simp) = e
  | [], c, e, h => h
  | q :: l, c, e, h => by
    have ih := joined_last l q.2 e h.2
    simpa using ih

/-- The sum around the end points is the sum of the segments. -/
theorem joined_around (g : α × α → Int) {l : List (α × α)} {c : α} (h : Joined c l c) : around g (l.map (·.2)) = (l.map g).sum := by
  rw [← joined_pathSum g l c c h]
  cases l with
  | nil => rfl
  | cons q l =>
    have hl := joined_last _ _ _ h
    obtain ⟨E, hE⟩ : ∃ E, (q :: l).map (·.2) = E ++ [c] := by
      refine ⟨((q :: l).map (·.2)).dropLast, ?_⟩
      conv_lhs => rw [← List.dropLast_append_getLast (show (q :: l).map (·.2) ≠ [] by simp)]
      rw [List.getLast_cons (by simp)] at hl
      rw [hl]
    rw [hE, around_append_comm]
    exact around_cons g c E

theorem joined_next : ∀ {l : List (α × α)} {c e : α}, Joined c l e → (∀ q, l[0]? = some q → q.1 = c) ∧
    (∀ q, l[l.length - 1]? = some q → q.2 = e) ∧ ∀ (j : Nat) (q q' : α × α), l[j]? = some q → l[j + 1]? = some q' → q'.1 = q.2
  | [], c, e, _ => by simp
  | a :: l, c, e, h => by
    obtain ⟨h1, h2, h3⟩ := joined_next h.2
    refine ⟨?_, ?_, ?_⟩
    · intro q hq
      simp at hq; subst hq; exact h.1
    · intro q hq
      cases l with
      | nil => simp at hq; subst hq; exact h.2
      | cons b l => exact h2 q (by simpa using hq)
    · intro j q q' hq hq'
      cases j with
      | zero =>
        simp at hq; subst hq
        exact h1 q' (by simpa using hq')
      | succ j => exact h3 j q q' (by simpa using hq) (by simpa using hq')

theorem sum_flatMap_map (f : α → List β) (g : β → Int) : ∀ l : List α, ((l.flatMap f).map g).sum = (l.map fun a => ((f a).map g).sum).sum
  | [] => rfl
  | a :: l => by
    rw [List.flatMap_cons, List.map_append, List.sum_append, List.map_cons, List.sum_cons, sum_flatMap_map f g l]

namespace CompactHeightfield

/-- The grid points at which a side starts and ends. -/
def sideEnds (chf : CompactHeightfield) (s : Side) : (Nat × Nat) × (Nat × Nat) :=
  (startCorner (chf.xOf s.1) (chf.zOf s.1) s.2, cornerOf (chf.xOf s.1) (chf.zOf s.1) s.2)

/-- Crossings of a side. -/
def sideCross (chf : CompactHeightfield) (p : Point) (s : Side) : Int :=
  crossing p (cellCorner (chf.sideEnds s).1, cellCorner (chf.sideEnds s).2)

section
variable {chf : CompactHeightfield} (hwf : chf.WellFormed) (hsym : chf.SymmetricLinks)
include hwf

open Classical in
theorem wallStep_start {s t : Side} (hd : s.2 < 4) (h : chf.WallStep s t) :
    (chf.sideEnds t).1 = if chf.BoundarySide s then (chf.sideEnds s).2 else (chf.sideEnds s).1 := by
  cases h with
  | turn hb =>
    rw [if_pos hb]
    exact startCorner_turn hwf hd
  | cross hb hl =>
    rw [if_neg hb]
    exact startCorner_move hwf hd ((nbr_iff_link hwf hd).2 hl)

/-- Along a walk the boundary sides met are joined. -/
theorem walk_joined : ∀ (v : List Side) (t : Side), (v ++ [t]).IsChain chf.WallStep → (∀ s ∈ v, s.2 < 4) → ∀ h, (v ++ [t]).head? = some h →
    Joined (chf.sideEnds h).1 ((chf.boundaryOf v).map chf.sideEnds) (chf.sideEnds t).1
  | [], t, _, _, h, hh => by
    simp at hh; subst hh
    rfl
  | s :: v, t, hc, hd, h, hh => by
    simp at hh; subst hh
    obtain ⟨h', hh'⟩ : ∃ h', (v ++ [t]).head? = some h' := by
      cases v with
      | nil => exact ⟨t, rfl⟩
      | cons a v => exact ⟨a, rfl⟩
    have hstep : chf.WallStep s h' := by
      cases v with
      | nil => simp at hh'; subst hh'; simpa using hc
      | cons a v =>
        simp at hh'; subst hh'
        exact (List.isChain_cons_cons.1 hc).1
    have ih := walk_joined v t (List.IsChain.tail hc) (fun s hs => hd s (by simp [hs])) h' hh'
    rw [wallStep_start hwf (hd s (by simp)) hstep] at ih
    unfold boundaryOf at ih ⊢
    rw [List.filter_cons]
    by_cases hb : chf.BoundarySide s
    · rw [if_pos hb] at ih
      rw [if_pos (by simpa using hb)]
      exact ⟨rfl, ih⟩
    · rw [if_neg hb] at ih
      rw [if_neg (by simpa using hb)]
      exact ih

theorem circuit_joined {r : Nat} {v : List Side} (h : chf.IsCircuit r v) : ∃ c, Joined c ((chf.boundaryOf v).map chf.sideEnds) c := by
  obtain ⟨t, v', rfl⟩ := List.exists_cons_of_ne_nil h.ne
  refine ⟨(chf.sideEnds t).1, walk_joined hwf (t :: v') t ?_ h.dir t rfl⟩
  rw [List.isChain_iff_getElem]
  intro j hj
  have hj' : j < (t :: v').length := by simp at hj ⊢; omega
  have e1 : (t :: v' ++ [t])[j]'(by omega) = (t :: v')[j] := List.getElem_append_left hj'
  rw [e1]
  have hm : (j + 1) % (t :: v').length < (t :: v').length := Nat.mod_lt _ (by simp)
  have hs := h.step j _ _ (List.getElem?_eq_getElem hj') (List.getElem?_eq_getElem hm)
  have e2 : (t :: v' ++ [t])[j + 1] = (t :: v')[(j + 1) % (t :: v').length] := by
    by_cases hl : j + 1 < (t :: v').length
    · rw [List.getElem_append_left hl]
      congr 1
      exact (Nat.mod_eq_of_lt hl).symm
    · have hl' : j + 1 = (t :: v').length := by omega
      rw [List.getElem_append_right (by omega)]
      simp [hl']
  rw [e2]
  exact hs

/-- The raw vertices of an outline are the ends of its boundary sides. -/
theorem outline_raw {o : Outline} (ho : chf.IsOutline o) : o.raw.map (fun v => v.1.plane) = (chf.boundaryOf o.round).map fun s => cellCorner (chf.sideEnds s).2 := by
  have h := ho.raw
  generalize chf.boundaryOf o.round = b at h ⊢
  generalize o.raw = raw at h ⊢
  induction h with
  | nil => rfl
  | cons hp _ ih =>
    rw [List.map_cons, List.map_cons, ih]
    congr 1
    obtain ⟨x, z, sp, hat, hxz⟩ := hp.position
    obtain ⟨rfl, rfl⟩ := at_unique hwf hat
    unfold U16Vec3.xz at hxz
    unfold U16Vec3.plane cellCorner sideEnds
    simp only [← hxz]

theorem outline_winding {o : Outline} (ho : chf.IsOutline o) (p : Point) :
    winding p (o.raw.map fun v => v.1.plane) = ((chf.boundaryOf o.round).map (chf.sideCross p)).sum := by
  obtain ⟨c, hc⟩ := circuit_joined hwf ho.circuit
  have := joined_around (fun q => crossing p (cellCorner q.1, cellCorner q.2)) hc
  rw [outline_raw hwf ho, winding]
  rw [List.map_map, List.map_map] at this
  rw [show ((chf.boundaryOf o.round).map fun s => cellCorner (chf.sideEnds s).2) = ((chf.boundaryOf o.round).map ((·.2) ∘ chf.sideEnds)).map cellCorner by
    rw [List.map_map]; rfl, around_map]
  exact this

/-- The cell of a span winds around its points. -/
theorem cell_cross (p : Point) (i : Nat) : chf.sideCross p (i, 0) + chf.sideCross p (i, 1) + chf.sideCross p (i, 2) + chf.sideCross p (i, 3) =
    if ((chf.xOf i : Rat) ≤ p.1 ∧ p.1 < (chf.xOf i : Rat) + 1) ∧ ((chf.zOf i : Rat) ≤ p.2 ∧ p.2 < (chf.zOf i : Rat) + 1) then -1 else 0 := by
  unfold sideCross sideEnds startCorner cellCorner
  simp only [cornerOf]
  generalize (chf.xOf i) = x
  generalize (chf.zOf i) = z
  obtain ⟨a, b⟩ := p
  norm_num [cornerOf]
  rcases lt_or_ge b z with h1 | h1
  · have h1' : b < (z : Rat) + 1 := by linarith
    rw [crossing_high (by simpa using h1) (by simpa using h1'), crossing_high (by simpa using h1') (by simpa using h1'),
      crossing_high (by simpa using h1') (by simpa using h1), crossing_high (by simpa using h1) (by simpa using h1), if_neg]
    · rfl
    · rintro ⟨_, h, _⟩; linarith
  · rcases lt_or_ge b ((z : Rat) + 1) with h2 | h2
    · rw [crossing_up (by simpa using h1) (by simpa using h2), crossing_high (by simpa using h2) (by simpa using h2),
        crossing_down (by simpa using h2) (by simpa using h1), crossing_low (by simpa using h1) (by simpa using h1)]
      have t1 : turn ((x : Rat), (z : Rat)) ((x : Rat), (z : Rat) + 1) (a, b) = x - a := by unfold turn; ring
      have t2 : turn ((x : Rat) + 1, (z : Rat) + 1) ((x : Rat) + 1, (z : Rat)) (a, b) = a - (x + 1) := by unfold turn; ring
      rw [t1, t2]
      rcases lt_or_ge a x with h3 | h3
      · rw [if_pos (by linarith), if_pos (by linarith), if_neg (by rintro ⟨⟨h, _⟩, _⟩; linarith)]; rfl
      · rw [if_neg (by linarith)]
        rcases lt_or_ge a ((x : Rat) + 1) with h4 | h4
        · rw [if_pos (by linarith), if_pos ⟨⟨h3, h4⟩, h1, h2⟩]; rfl
        · rw [if_neg (by linarith), if_neg (by rintro ⟨⟨_, h⟩, _⟩; linarith)]; rfl
    · rw [crossing_low (by simpa using h1) (by simpa using h2), crossing_low (by simpa using h2) (by simpa using h2),
        crossing_low (by simpa using h2) (by simpa using h1), crossing_low (by simpa using h1) (by simpa using h1), if_neg]
      · rfl
      · rintro ⟨_, _, h⟩; linarith

/-- Across a side the neighbour has the same side in the other direction. -/
theorem side_back {i d k : Nat} (hd : d < 4) (hk : chf.nbr i d = some k) : chf.sideEnds (k, (d + 2) % 4) = ((chf.sideEnds (i, d)).2, (chf.sideEnds (i, d)).1) := by
  obtain ⟨s, con, _, _, _, hn, _⟩ := nbr_con hwf hk hd
  have : d = 0 ∨ d = 1 ∨ d = 2 ∨ d = 3 := by omega
  rcases this with rfl | rfl | rfl | rfl <;> simp only [neighbourCell] at hn <;> split at hn <;>
    simp only [Option.some.injEq, Prod.mk.injEq, reduceCtorEq] at hn <;>
    simp [sideEnds, startCorner, cornerOf] <;> omega

theorem sideCross_back (p : Point) {i d k : Nat} (hd : d < 4) (hk : chf.nbr i d = some k) :
    chf.sideCross p (i, d) + chf.sideCross p (k, (d + 2) % 4) = 0 := by
  unfold sideCross
  rw [side_back hwf hd hk]
  have := crossing_antisymm p (cellCorner (chf.sideEnds (i, d)).1) (cellCorner (chf.sideEnds (i, d)).2)
  rw [this]
  omega

open Classical in
/-- The sides of the spans of a region that are not isolated. -/
noncomputable def regionSides (chf : CompactHeightfield) (r : Nat) : Finset Side :=
  (Finset.range chf.spans.length ×ˢ Finset.range 4).filter fun s => chf.reg s.1 = r ∧ ¬ chf.Isolated s.1

include hsym

open Classical in
/-- Sides inside a region cancel. -/
theorem inner_cancel {r : Nat} (hr : ProperRegion r) (p : Point) : ∑ s ∈ (chf.regionSides r).filter (fun s => ¬ chf.BoundarySide s), chf.sideCross p s = 0 := by
  have hn : ∀ s ∈ (chf.regionSides r).filter (fun s => ¬ chf.BoundarySide s), s.1 < chf.spans.length ∧ s.2 < 4 ∧ chf.reg s.1 = r ∧ ¬ chf.BoundarySide s ∧
      ∃ k, chf.nbr s.1 s.2 = some k ∧ chf.reg k = r ∧ k < chf.spans.length ∧ chf.nbr k ((s.2 + 2) % 4) = some s.1 := by
    intro s hs
    simp only [regionSides, Finset.mem_filter, Finset.mem_product, Finset.mem_range] at hs
    obtain ⟨⟨⟨h1, h2⟩, h3, _⟩, h4⟩ := hs
    have he : ¬ chf.Edge s.1 s.2 := fun he => h4 ((boundarySide_iff hwf h2).2 ⟨he, h1⟩)
    obtain ⟨k, hk, hkr⟩ := not_edge hwf ⟨h1, by rw [h3]; exact hr⟩ he
    exact ⟨h1, h2, h3, h4, k, hk, by rw [hkr, h3], (nbr_lt hwf h2 hk).2,
      (nbr_iff_link hwf (Nat.mod_lt _ (by omega))).2 (hsym s.1 k s.2 h2 ((nbr_iff_link hwf h2).1 hk))⟩
  refine Finset.sum_involution (fun s _ => ((chf.nbr s.1 s.2).getD 0, (s.2 + 2) % 4)) ?_ ?_ ?_ ?_
  · intro s hs
    obtain ⟨h1, h2, h3, h4, k, hk, hkr, hkl, hback⟩ := hn s hs
    rw [hk]
    exact sideCross_back hwf p h2 hk
  · intro s hs _ he
    obtain ⟨h1, h2, _⟩ := hn s hs
    have := congrArg Prod.snd he
    simp only at this
    omega
  · intro s hs
    obtain ⟨h1, h2, h3, h4, k, hk, hkr, hkl, hback⟩ := hn s hs
    rw [hk]
    have hd' : (s.2 + 2) % 4 < 4 := Nat.mod_lt _ (by omega)
    have hnb : ¬ chf.BoundarySide (k, (s.2 + 2) % 4) := by
      intro hb
      exact ((boundarySide_iff hwf (s := (k, _)) hd').1 hb).1.2 s.1 hback (by rw [h3, hkr])
    simp only [regionSides, Finset.mem_filter, Finset.mem_product, Finset.mem_range, Option.getD_some]
    exact ⟨⟨⟨hkl, hd'⟩, hkr, fun hi => hnb (hi _ hd')⟩, hnb⟩
  · intro s hs
    obtain ⟨h1, h2, h3, h4, k, hk, hkr, hkl, hback⟩ := hn s hs
    simp only [hk, Option.getD_some, hback]
    refine Prod.ext rfl ?_
    simp only
    omega

open Classical in
/-- The outlines of a region together wind around every point of its cells. -/
theorem region_winding {r : Nat} (hr : ProperRegion r) {outlines : List Outline} (hout : ∀ o ∈ outlines, chf.IsOutline o)
    (hdis : outlines.Pairwise fun o o' => ∀ s ∈ o.round, s ∉ o'.round)
    (hcov : ∀ s, s.2 < 4 → chf.BoundarySide s → ¬ chf.Isolated s.1 → ∃ o ∈ outlines, s ∈ o.round)
    (hiso : ∀ o ∈ outlines, ∀ s ∈ o.round, ¬ chf.Isolated s.1) {p : Point} {i : Nat} (hi : i < chf.spans.length) (hir : chf.reg i = r)
    (hni : ¬ chf.Isolated i) (hx : (chf.xOf i : Rat) ≤ p.1 ∧ p.1 < (chf.xOf i : Rat) + 1) (hz : (chf.zOf i : Rat) ≤ p.2 ∧ p.2 < (chf.zOf i : Rat) + 1) :
    ∃ o ∈ outlines, o.region = r ∧ winding p (o.raw.map fun v => v.1.plane) ≠ 0 := by
  by_contra hcon
  push Not at hcon
  have hbmem : ∀ (v : List Side) s, s ∈ chf.boundaryOf v ↔ s ∈ v ∧ chf.BoundarySide s := by
    intro v s
    unfold boundaryOf
    simp [List.mem_filter]
  have hreg : ∀ o ∈ outlines, ∀ s ∈ o.round, s.1 < chf.spans.length ∧ chf.reg s.1 = o.region := by
    intro o ho s hs
    exact (regionOf_iff hwf).1 ((hout o ho).circuit.region s hs)
  have hsum0 : ((outlines.filter fun o => o.region = r).map fun o => ((chf.boundaryOf o.round).map (chf.sideCross p)).sum).sum = 0 := by
    apply List.sum_eq_zero
    intro a ha
    obtain ⟨o, ho, rfl⟩ := List.mem_map.1 ha
    rw [List.mem_filter] at ho
    rw [← outline_winding hwf (hout o ho.1)]
    exact hcon o ho.1 (by simpa using ho.2)
  have hflat : ((outlines.filter fun o => o.region = r).flatMap fun o => chf.boundaryOf o.round).Nodup := by
    rw [List.nodup_flatMap]
    refine ⟨fun o ho => ?_, ?_⟩
    · exact List.Nodup.filter _ (hout o (List.mem_filter.1 ho).1).circuit.nodup
    · refine (hdis.filter _).imp ?_
      intro o o' h s hs hs'
      exact h s ((hbmem _ _).1 hs).1 ((hbmem _ _).1 hs').1
  have hset : ((outlines.filter fun o => o.region = r).flatMap fun o => chf.boundaryOf o.round).toFinset =
      (chf.regionSides r).filter fun s => chf.BoundarySide s := by
    ext s
    simp only [List.mem_toFinset, List.mem_flatMap, List.mem_filter, regionSides, Finset.mem_filter, Finset.mem_product, Finset.mem_range, hbmem,
      decide_eq_true_eq]
    constructor
    · rintro ⟨o, ⟨ho, hor⟩, hs, hb⟩
      obtain ⟨h1, h2⟩ := hreg o ho s hs
      exact ⟨⟨⟨h1, (hout o ho).circuit.dir s hs⟩, by rw [h2, hor], hiso o ho s hs⟩, hb⟩
    · rintro ⟨⟨⟨h1, h2⟩, h3, h4⟩, hb⟩
      obtain ⟨o, ho, hs⟩ := hcov s h2 hb h4
      exact ⟨o, ⟨ho, by rw [← (hreg o ho s hs).2, h3]⟩, hs, hb⟩
  have hB : ∑ s ∈ (chf.regionSides r).filter (fun s => chf.BoundarySide s), chf.sideCross p s = 0 := by
    rw [← hset, List.sum_toFinset _ hflat, sum_flatMap_map]
    exact hsum0
  have hA : ∑ s ∈ chf.regionSides r, chf.sideCross p s = 0 := by
    rw [← Finset.sum_filter_add_sum_filter_not _ (fun s => chf.BoundarySide s), hB, inner_cancel hwf hsym hr p]
    rfl
  have hcells : ∑ s ∈ chf.regionSides r, chf.sideCross p s = ∑ j ∈ Finset.range chf.spans.length, if chf.reg j = r ∧ ¬ chf.Isolated j then
      (if ((chf.xOf j : Rat) ≤ p.1 ∧ p.1 < (chf.xOf j : Rat) + 1) ∧ ((chf.zOf j : Rat) ≤ p.2 ∧ p.2 < (chf.zOf j : Rat) + 1) then -1 else 0 : Int) else 0 := by
    unfold regionSides
    rw [Finset.sum_filter, Finset.sum_product]
    refine Finset.sum_congr rfl fun j _ => ?_
    rw [← cell_cross hwf p j]
    split
    · simp [Finset.sum_range_succ]
    · simp
  rw [hcells] at hA
  have hneg : ∑ j ∈ Finset.range chf.spans.length, (if chf.reg j = r ∧ ¬ chf.Isolated j then
      (if ((chf.xOf j : Rat) ≤ p.1 ∧ p.1 < (chf.xOf j : Rat) + 1) ∧ ((chf.zOf j : Rat) ≤ p.2 ∧ p.2 < (chf.zOf j : Rat) + 1) then -1 else 0 : Int) else 0) < 0 := by
    refine Finset.sum_neg' (fun j _ => ?_) ⟨i, Finset.mem_range.2 hi, ?_⟩
    · split
      · split <;> omega
      · omega
    · rw [if_pos ⟨hir, hni⟩, if_pos ⟨hx, hz⟩]
      omega
  omega

end
end CompactHeightfield
end Rerecast
