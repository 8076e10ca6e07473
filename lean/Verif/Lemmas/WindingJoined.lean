import Verif.Lemmas.WindingCover
import Verif.Lemmas.WindingPortal
import Verif.Spec.Joined
import Mathlib.Logic.Relation
/-! The outlines of regions that meet along portals wind, all together and after simplification, around the points of their cells. -/
set_option linter.unusedVariables false
set_option linter.unusedSectionVars false
namespace Rerecast
open Classical

/-- A deterministic chain has one end. -/
theorem chain_end_unique {r : α → α → Prop} (hf : ∀ {a b c}, r a b → r a c → b = c) {a b c : α} (h1 : Relation.ReflTransGen r a b)
    (hb : ∀ d, ¬ r b d) (h2 : Relation.ReflTransGen r a c) (hc : ∀ d, ¬ r c d) : b = c := by
  induction h1 using Relation.ReflTransGen.head_induction_on with
  | refl =>
    rcases Relation.ReflTransGen.cases_head h2 with h | ⟨d, h, _⟩
    · exact h
    · exact absurd h (hb d)
  | head h h' ih =>
    rcases Relation.ReflTransGen.cases_head h2 with h3 | ⟨d, h3, h4⟩
    · subst h3; exact absurd h (hc _)
    · rw [hf h3 h] at h4
      exact ih h4

/-- Sums around a circle can start anywhere. -/
theorem sum_shift_one {n : Nat} {G : Nat → Int} (h : G n = G 0) : ∑ i ∈ Finset.range n, G (i + 1) = ∑ i ∈ Finset.range n, G i := by
  have h1 := Finset.sum_range_succ' G n
  have h2 := Finset.sum_range_succ G n
  omega

theorem sum_range_getElem (l : List α) (F : α → Int) (G : Nat → Int) (h : ∀ i a, l[i]? = some a → G i = F a) :
    ∑ i ∈ Finset.range l.length, G i = (l.map F).sum := by
  induction l generalizing G with
  | nil => rfl
  | cons a l ih =>
    rw [List.length_cons, Finset.sum_range_succ', List.map_cons, List.sum_cons, ih (fun i => G (i + 1)) (fun i b hb => h (i + 1) b (by simpa using hb)),
      h 0 a rfl, add_comm]

namespace CompactHeightfield

section
variable {chf : CompactHeightfield} (hwf : chf.WellFormed)
include hwf

theorem wallStep_dir {s t : Side} (h : chf.WallStep s t) : t.2 < 4 := by
  cases h <;> exact Nat.mod_lt _ (by omega)

theorem wallStep_same {s t t' : Side} (hd : s.2 < 4) (h : chf.WallStep s t) (h' : chf.WallStep s t') : t = t' := by
  cases h with
  | turn hb =>
    cases h' with
    | turn _ => rfl
    | cross hb' _ => exact absurd hb hb'
  | cross hb hl =>
    cases h' with
    | turn hb' => exact absurd hb' hb
    | cross _ hl' =>
      have h1 := (nbr_iff_link hwf hd).2 hl
      have h2 := (nbr_iff_link hwf hd).2 hl'
      rw [h1] at h2; cases h2; rfl

theorem firstFrom_unique {t s s' : Side} (hd : t.2 < 4) (h : chf.FirstFrom t s) (h' : chf.FirstFrom t s') : s = s' := by
  induction h with
  | here hb =>
    cases h' with
    | here _ => rfl
    | on hb' _ _ => exact absurd hb hb'
  | on hb hw _ ih =>
    cases h' with
    | here hb' => exact absurd hb' hb
    | on _ hw' h'' =>
      have := wallStep_same hwf hd hw hw'
      subst this
      exact ih (wallStep_dir hwf hw) h''

theorem nextSide_unique {s t t' : Side} (hd : s.2 < 4) (h : chf.NextSide s t) (h' : chf.NextSide s t') : t = t' := by
  obtain ⟨_, a, ha, h⟩ := h
  obtain ⟨_, a', ha', h'⟩ := h'
  have := wallStep_same hwf hd ha ha'
  subst this
  exact firstFrom_unique hwf (wallStep_dir hwf ha) h h'

theorem chain_first : ∀ (L : List Side) (t s : Side), L.head? = some t → L.IsChain chf.WallStep → (chf.boundaryOf L).head? = some s → chf.FirstFrom t s
  | [], t, s, h, _, _ => by cases h
  | a :: L, t, s, h, hc, hs => by
    simp at h; subst h
    by_cases hb : chf.BoundarySide a
    · unfold boundaryOf at hs
      rw [List.filter_cons, if_pos (by simpa using hb)] at hs
      simp at hs; subst hs
      exact .here hb
    · unfold boundaryOf at hs
      rw [List.filter_cons, if_neg (by simpa using hb)] at hs
      cases L with
      | nil => cases hs
      | cons b L =>
        rw [List.isChain_cons_cons] at hc
        exact .on hb hc.1 (chain_first (b :: L) b s rfl hc.2 hs)

/-- Consecutive boundary sides of a walk. -/
theorem chain_next : ∀ (L : List Side), L.IsChain chf.WallStep → ∀ (j : Nat) (s s' : Side), (chf.boundaryOf L)[j]? = some s → (chf.boundaryOf L)[j + 1]? = some s' →
    chf.NextSide s s'
  | [], _, j, s, s', h, _ => by cases h
  | a :: L, hc, j, s, s', h, h' => by
    by_cases hb : chf.BoundarySide a
    · have e : chf.boundaryOf (a :: L) = a :: chf.boundaryOf L := by
        unfold boundaryOf
        rw [List.filter_cons, if_pos (by simpa using hb)]
      rw [e] at h h'
      cases j with
      | zero =>
        simp at h; subst h
        cases L with
        | nil => simp [boundaryOf] at h'
        | cons b L =>
          rw [List.isChain_cons_cons] at hc
          refine ⟨hb, b, hc.1, chain_first hwf (b :: L) b s' rfl hc.2 ?_⟩
          rw [List.head?_eq_getElem?]
          simpa using h'
      | succ j => exact chain_next L (List.IsChain.tail hc) j s s' (by simpa using h) (by simpa using h')
    · have e : chf.boundaryOf (a :: L) = chf.boundaryOf L := by
        unfold boundaryOf
        rw [List.filter_cons, if_neg (by simpa using hb)]
      rw [e] at h h'
      exact chain_next L (List.IsChain.tail hc) j s s' h h'

/-- Consecutive boundary sides of an outline. -/
theorem outline_next {o : Outline} (ho : chf.IsOutline o) (k : Nat) (s s' : Side) (h : (chf.boundaryOf o.round)[k % o.raw.length]? = some s)
    (h' : (chf.boundaryOf o.round)[(k + 1) % o.raw.length]? = some s') : chf.NextSide s s' := by
  obtain ⟨s0, h0, hb0, _⟩ := ho.start
  have hlen := ho.raw.length_eq
  obtain ⟨v, hv⟩ : ∃ v, o.round = s0 :: v := by
    cases hr : o.round with
    | nil => rw [hr] at h0; cases h0
    | cons a v => rw [hr] at h0; simp at h0; subst h0; exact ⟨v, rfl⟩
  have hchain : (o.round ++ [s0]).IsChain chf.WallStep := by
    have hcirc := ho.circuit
    rw [hv] at hcirc ⊢
    rw [List.isChain_iff_getElem]
    intro j hj
    have hj' : j < (s0 :: v).length := by simp at hj ⊢; omega
    have e1 : (s0 :: v ++ [s0])[j]'(by omega) = (s0 :: v)[j] := List.getElem_append_left hj'
    rw [e1]
    have hm : (j + 1) % (s0 :: v).length < (s0 :: v).length := Nat.mod_lt _ (by simp)
    have hs := hcirc.step j _ _ (List.getElem?_eq_getElem hj') (List.getElem?_eq_getElem hm)
    have e2 : (s0 :: v ++ [s0])[j + 1] = (s0 :: v)[(j + 1) % (s0 :: v).length] := by
      by_cases hl : j + 1 < (s0 :: v).length
      · rw [List.getElem_append_left hl]
        congr 1
        exact (Nat.mod_eq_of_lt hl).symm
      · have hl' : j + 1 = (s0 :: v).length := by omega
        rw [List.getElem_append_right (by omega)]
        simp [hl']
    rw [e2]
    exact hs
  have hbo : chf.boundaryOf (o.round ++ [s0]) = chf.boundaryOf o.round ++ [s0] := by
    unfold boundaryOf
    rw [List.filter_append, List.filter_cons, if_pos (by simpa using hb0)]
    rfl
  have hb0' : (chf.boundaryOf o.round)[0]? = some s0 := by
    unfold boundaryOf
    rw [hv, List.filter_cons, if_pos (by simpa using hb0)]
    rfl
  have hn : 0 < o.raw.length := by
    rw [← hlen]; exact (List.getElem?_eq_some_iff.1 hb0').1
  have hk := Nat.mod_lt k hn
  refine chain_next hwf _ hchain (k % o.raw.length) s s' ?_ ?_
  · rw [hbo, List.getElem?_append_left (by omega)]; exact h
  · rw [hbo]
    by_cases hw : k % o.raw.length + 1 < o.raw.length
    · have e : (k + 1) % o.raw.length = k % o.raw.length + 1 := by
        rw [Nat.add_mod, Nat.mod_eq_of_lt (show 1 < o.raw.length by omega), Nat.mod_eq_of_lt hw]
      rw [e] at h'
      rw [List.getElem?_append_left (by omega)]; exact h'
    · have e0 : k % o.raw.length + 1 = o.raw.length := by omega
      have e : (k + 1) % o.raw.length = 0 := by
        rw [← Nat.mod_add_mod, e0, Nat.mod_self]
      rw [e, hb0'] at h'
      cases h'
      rw [e0, ← hlen, List.getElem?_append_right (Nat.le_refl _)]
      simp

/-- A portal side in terms of the neighbour. -/
theorem portalSide_iff {r w : Nat} {s : Side} : chf.PortalSide r w s ↔ s.2 < 4 ∧ s.1 < chf.spans.length ∧ chf.reg s.1 = r ∧ ProperRegion r ∧ w ≠ 0 ∧ w ≠ r ∧
    ∃ k, chf.nbr s.1 s.2 = some k ∧ chf.reg k = w ∧ chf.ara k = chf.ara s.1 := by
  constructor
  · rintro ⟨hd, hr, hb, hw, k, hk, hkw, ha⟩
    obtain ⟨hl, hr⟩ := (regionOf_iff hwf).1 hr
    obtain ⟨hkl, hkw⟩ := (regionOf_iff hwf).1 hkw
    obtain ⟨⟨hp, he⟩, _⟩ := (boundarySide_iff hwf hd).1 hb
    have hk' := (nbr_iff_link hwf hd).2 hk
    refine ⟨hd, hl, hr, by rw [← hr]; exact hp, hw, ?_, k, hk', hkw, ?_⟩
    · have := he k hk'
      rw [hkw, hr] at this; exact this
    · rw [areas_get hwf hkl, areas_get hwf hl] at ha
      injection ha
  · rintro ⟨hd, hl, hr, hp, hw, hne, k, hk, hkw, ha⟩
    have hkl := (nbr_lt hwf hd hk).2
    refine ⟨hd, (regionOf_iff hwf).2 ⟨hl, hr⟩, (boundarySide_iff hwf hd).2 ⟨⟨by rw [hr]; exact hp, ?_⟩, hl⟩, hw, k, (nbr_iff_link hwf hd).1 hk,
      (regionOf_iff hwf).2 ⟨hkl, hkw⟩, ?_⟩
    · intro k' hk'
      rw [hk] at hk'; cases hk'
      rw [hkw, hr]; exact hne
    · rw [areas_get hwf hkl, areas_get hwf hl, ha]

theorem portalSide_unique {r w r' w' : Nat} {s : Side} (h : chf.PortalSide r w s) (h' : chf.PortalSide r' w' s) : r = r' ∧ w = w' := by
  obtain ⟨_, _, h1, _, _, _, k, h2, h3, _⟩ := (portalSide_iff hwf).1 h
  obtain ⟨_, _, h1', _, _, _, k', h2', h3', _⟩ := (portalSide_iff hwf).1 h'
  rw [h2] at h2'; cases h2'
  exact ⟨h1.symm.trans h1', h3.symm.trans h3'⟩

end

/-- The side seen from the other side. -/
def opp (chf : CompactHeightfield) (s : Side) : Side := ((chf.nbr s.1 s.2).getD 0, (s.2 + 2) % 4)

/-- The side is a portal between regions of `S`. -/
def Joint (chf : CompactHeightfield) (S : Nat → Prop) (s : Side) : Prop := ∃ r w, S r ∧ S w ∧ chf.PortalSide r w s

/-- Consecutive portals between the same two regions of `S`. -/
def JointNext (chf : CompactHeightfield) (S : Nat → Prop) (s s' : Side) : Prop :=
  ∃ r w, S r ∧ S w ∧ chf.PortalSide r w s ∧ chf.PortalSide r w s' ∧ chf.NextSide s s'

/-- A run of portals from `s` to `t`. -/
def RunOf (chf : CompactHeightfield) (S : Nat → Prop) (s t : Side) : Prop :=
  chf.Joint S s ∧ (∀ a, ¬ chf.JointNext S a s) ∧ Relation.ReflTransGen (chf.JointNext S) s t ∧ ∀ a, ¬ chf.JointNext S t a

section
variable {chf : CompactHeightfield} (hwf : chf.WellFormed) (hsym : chf.SymmetricLinks) {S : Nat → Prop} (hS : ∀ r, S r → ProperRegion r)
include hwf

theorem jointNext_unique {s t t' : Side} (h : chf.JointNext S s t) (h' : chf.JointNext S s t') : t = t' := by
  obtain ⟨r, w, _, _, hp, _, hn⟩ := h
  obtain ⟨_, _, _, _, _, _, hn'⟩ := h'
  exact nextSide_unique hwf hp.1 hn hn'

theorem runOf_unique {s t t' : Side} (h : chf.RunOf S s t) (h' : chf.RunOf S s t') : t = t' :=
  chain_end_unique (r := chf.JointNext S) (fun h h' => jointNext_unique hwf h h') h.2.2.1 h.2.2.2 h'.2.2.1 h'.2.2.2

theorem jointNext_joint {s t : Side} (h : chf.JointNext S s t) : chf.Joint S t := by
  obtain ⟨r, w, h1, h2, _, h3, _⟩ := h
  exact ⟨r, w, h1, h2, h3⟩

include hsym hS

theorem opp_portal {r w : Nat} (hr : S r) (hw : S w) {s : Side} (h : chf.PortalSide r w s) : chf.PortalSide w r (chf.opp s) ∧ chf.opp (chf.opp s) = s ∧
    chf.Across s (chf.opp s) ∧ chf.sideEnds (chf.opp s) = ((chf.sideEnds s).2, (chf.sideEnds s).1) := by
  obtain ⟨hd, hl, hreg, hp, hw0, hne, k, hk, hkw, ha⟩ := (portalSide_iff hwf).1 h
  have hback : chf.nbr k ((s.2 + 2) % 4) = some s.1 :=
    (nbr_iff_link hwf (Nat.mod_lt _ (by omega))).2 (hsym s.1 k s.2 hd ((nbr_iff_link hwf hd).1 hk))
  have e : chf.opp s = (k, (s.2 + 2) % 4) := by unfold opp; rw [hk]; rfl
  have hr0 : r ≠ 0 := (hS r hr).1
  refine ⟨?_, ?_, ⟨k, (nbr_iff_link hwf hd).1 hk, e⟩, ?_⟩
  · rw [e]
    refine (portalSide_iff hwf).2 ⟨Nat.mod_lt _ (by omega), (nbr_lt hwf hd hk).2, hkw, hS w hw, hr0, hne.symm, s.1, hback, hreg, ha.symm⟩
  · rw [e]
    unfold opp
    simp only [hback, Option.getD_some]
    refine Prod.ext rfl ?_
    simp only
    omega
  · rw [e]
    exact side_back hwf hd hk

theorem opp_joint {s : Side} (h : chf.Joint S s) : chf.Joint S (chf.opp s) ∧ chf.opp (chf.opp s) = s ∧ chf.sideEnds (chf.opp s) = ((chf.sideEnds s).2, (chf.sideEnds s).1) := by
  obtain ⟨r, w, hr, hw, h⟩ := h
  obtain ⟨h1, h2, _, h3⟩ := opp_portal hwf hsym hS hr hw h
  exact ⟨⟨w, r, hw, hr, h1⟩, h2, h3⟩

theorem opp_next (hm : chf.Matched S) {s s' : Side} (h : chf.JointNext S s s') : chf.JointNext S (chf.opp s') (chf.opp s) := by
  obtain ⟨r, w, hr, hw, h1, h2, hn⟩ := h
  obtain ⟨a1, _, a2, _⟩ := opp_portal hwf hsym hS hr hw h1
  obtain ⟨b1, _, b2, _⟩ := opp_portal hwf hsym hS hr hw h2
  exact ⟨w, r, hw, hr, b1, a1, hm r w s s' _ _ hr hw h1 h2 hn a2 b2⟩

theorem opp_chain (hm : chf.Matched S) {s t : Side} (h : Relation.ReflTransGen (chf.JointNext S) s t) :
    Relation.ReflTransGen (chf.JointNext S) (chf.opp t) (chf.opp s) := by
  induction h with
  | refl => exact .refl
  | tail _ h ih => exact .head (opp_next hwf hsym hS hm h) ih

/-- The run seen from the other side. -/
theorem opp_run (hm : chf.Matched S) {s t : Side} (h : chf.RunOf S s t) : chf.Joint S t ∧ chf.RunOf S (chf.opp t) (chf.opp s) := by
  obtain ⟨h1, h2, h3, h4⟩ := h
  have ht : chf.Joint S t := by
    rcases Relation.ReflTransGen.cases_tail h3 with h | ⟨b, _, h⟩
    · rw [h]; exact h1
    · exact jointNext_joint hwf h
  obtain ⟨a1, a2, _⟩ := opp_joint hwf hsym hS ht
  obtain ⟨b1, b2, _⟩ := opp_joint hwf hsym hS h1
  refine ⟨ht, a1, ?_, opp_chain hwf hsym hS hm h3, ?_⟩
  · intro a ha
    have := opp_next hwf hsym hS hm ha
    rw [a2] at this
    exact h4 _ this
  · intro a ha
    have := opp_next hwf hsym hS hm ha
    rw [b2] at this
    exact h2 _ this

end

/-- What a boundary side counts for: itself, or the chord of the run of portals it is the first of. -/
noncomputable def sideTerm (chf : CompactHeightfield) (S : Nat → Prop) (p : Point) (s : Side) : Int :=
  if chf.Joint S s then (if h : ∃ t, chf.RunOf S s t then crossing p (cellCorner (chf.sideEnds s).1, cellCorner (chf.sideEnds h.choose).2) else 0)
  else chf.sideCross p s

/-- The sides of the spans of the regions in `S`. -/
noncomputable def setSides (chf : CompactHeightfield) (S : Nat → Prop) : Finset Side :=
  (Finset.range chf.spans.length ×ˢ Finset.range 4).filter fun s => S (chf.reg s.1)

section
variable {chf : CompactHeightfield} (hwf : chf.WellFormed) (hsym : chf.SymmetricLinks) {S : Nat → Prop} (hS : ∀ r, S r → ProperRegion r)
include hwf

theorem mem_setSides {s : Side} : s ∈ chf.setSides S ↔ s.1 < chf.spans.length ∧ s.2 < 4 ∧ S (chf.reg s.1) := by
  simp [setSides, and_assoc]

theorem sideTerm_run {p : Point} {s t : Side} (h : chf.RunOf S s t) :
    chf.sideTerm S p s = crossing p (cellCorner (chf.sideEnds s).1, cellCorner (chf.sideEnds t).2) := by
  have hx : ∃ t, chf.RunOf S s t := ⟨t, h⟩
  unfold sideTerm
  rw [if_pos h.1, dif_pos hx, runOf_unique hwf hx.choose_spec h]

include hsym hS

/-- The chords of the runs cancel. -/
theorem chords_cancel (hm : chf.Matched S) (p : Point) : ∑ s ∈ (chf.setSides S).filter (fun s => chf.Joint S s), chf.sideTerm S p s = 0 := by
  have hz : ∑ s ∈ (chf.setSides S).filter (fun s => chf.Joint S s), chf.sideTerm S p s =
      ∑ s ∈ ((chf.setSides S).filter (fun s => chf.Joint S s)).filter (fun s => ∃ t, chf.RunOf S s t), chf.sideTerm S p s := by
    symm
    apply Finset.sum_filter_of_ne
    intro s hs hne
    by_contra hno
    apply hne
    unfold sideTerm
    rw [if_pos (Finset.mem_filter.1 hs).2, dif_neg hno]
  rw [hz]
  have hmem : ∀ s, chf.Joint S s → s ∈ chf.setSides S := by
    rintro s ⟨r, w, hr, _, h⟩
    obtain ⟨hd, hl, hreg, _⟩ := (portalSide_iff hwf).1 h
    exact (mem_setSides hwf).2 ⟨hl, hd, by rw [hreg]; exact hr⟩
  have hkey : ∀ s, s ∈ ((chf.setSides S).filter (fun s => chf.Joint S s)).filter (fun s => ∃ t, chf.RunOf S s t) → ∃ t, chf.RunOf S s t := by
    intro s hs
    exact (Finset.mem_filter.1 hs).2
  refine Finset.sum_involution (fun s hs => chf.opp (hkey s hs).choose) ?_ ?_ ?_ ?_
  · intro s hs
    have ht := (hkey s hs).choose_spec
    generalize (hkey s hs).choose = t at ht
    obtain ⟨hj, hrun⟩ := opp_run hwf hsym hS hm ht
    rw [sideTerm_run hwf ht, sideTerm_run hwf hrun, (opp_joint hwf hsym hS hj).2.2, (opp_joint hwf hsym hS ht.1).2.2]
    have := crossing_antisymm p (cellCorner (chf.sideEnds s).1) (cellCorner (chf.sideEnds t).2)
    simp only [this]
    omega
  · intro s hs hne he
    have ht := (hkey s hs).choose_spec
    generalize (hkey s hs).choose = t at ht he
    obtain ⟨hj, hrun⟩ := opp_run hwf hsym hS hm ht
    apply hne
    have h1 := sideTerm_run hwf (p := p) ht
    have h2 := sideTerm_run hwf (p := p) hrun
    rw [he, (opp_joint hwf hsym hS ht.1).2.2] at h2
    have e1 : (chf.sideEnds s).1 = (chf.sideEnds t).2 := by
      rw [← he, (opp_joint hwf hsym hS hj).2.2]
    rw [h1, e1, crossing_self]
  · intro s hs
    have ht := (hkey s hs).choose_spec
    generalize (hkey s hs).choose = t at ht
    obtain ⟨hj, hrun⟩ := opp_run hwf hsym hS hm ht
    exact Finset.mem_filter.2 ⟨Finset.mem_filter.2 ⟨hmem _ hrun.1, hrun.1⟩, _, hrun⟩
  · intro s hs
    have ht := (hkey s hs).choose_spec
    generalize_proofs h1 h2
    have ht' := h2.choose_spec
    generalize h2.choose = t' at ht'
    obtain ⟨hj, hrun⟩ := opp_run hwf hsym hS hm ht
    rw [runOf_unique hwf ht' hrun]
    exact (opp_joint hwf hsym hS ht.1).2.1

/-- Sides inside the regions and portals between them cancel. -/
theorem joint_cancel (p : Point) :
    ∑ s ∈ (chf.setSides S).filter (fun s => ¬ (chf.BoundarySide s ∧ ¬ chf.Joint S s)), chf.sideCross p s = 0 := by
  have hn : ∀ s ∈ (chf.setSides S).filter (fun s => ¬ (chf.BoundarySide s ∧ ¬ chf.Joint S s)), s.1 < chf.spans.length ∧ s.2 < 4 ∧
      ∃ k, chf.nbr s.1 s.2 = some k ∧ k < chf.spans.length ∧ S (chf.reg k) ∧ chf.nbr k ((s.2 + 2) % 4) = some s.1 ∧
        ¬ (chf.BoundarySide (k, (s.2 + 2) % 4) ∧ ¬ chf.Joint S (k, (s.2 + 2) % 4)) := by
    intro s hs
    rw [Finset.mem_filter, mem_setSides hwf] at hs
    obtain ⟨⟨h1, h2, h3⟩, h4⟩ := hs
    have hd' : (s.2 + 2) % 4 < 4 := Nat.mod_lt _ (by omega)
    by_cases hj : chf.Joint S s
    · have hj' := (opp_joint hwf hsym hS hj).1
      obtain ⟨r, w, hr, hw, h⟩ := hj
      obtain ⟨_, _, _, _, _, _, k, hk, hkw, _⟩ := (portalSide_iff hwf).1 h
      have e : chf.opp s = (k, (s.2 + 2) % 4) := by unfold opp; rw [hk]; rfl
      rw [e] at hj'
      exact ⟨h1, h2, k, hk, (nbr_lt hwf h2 hk).2, by rw [hkw]; exact hw,
        (nbr_iff_link hwf hd').2 (hsym s.1 k s.2 h2 ((nbr_iff_link hwf h2).1 hk)), fun h => h.2 hj'⟩
    · have h5 : ¬ chf.BoundarySide s := fun hb => h4 ⟨hb, hj⟩
      have he : ¬ chf.Edge s.1 s.2 := fun he => h5 ((boundarySide_iff hwf h2).2 ⟨he, h1⟩)
      obtain ⟨k, hk, hkr⟩ := not_edge hwf ⟨h1, hS _ h3⟩ he
      have hback := (nbr_iff_link hwf hd').2 (hsym s.1 k s.2 h2 ((nbr_iff_link hwf h2).1 hk))
      refine ⟨h1, h2, k, hk, (nbr_lt hwf h2 hk).2, by rw [hkr]; exact h3, hback, ?_⟩
      rintro ⟨hb, _⟩
      exact ((boundarySide_iff hwf (s := (k, _)) hd').1 hb).1.2 s.1 hback hkr.symm
  refine Finset.sum_involution (fun s _ => ((chf.nbr s.1 s.2).getD 0, (s.2 + 2) % 4)) ?_ ?_ ?_ ?_
  · intro s hs
    obtain ⟨h1, h2, k, hk, hkl, hkS, hback, _⟩ := hn s hs
    rw [hk]
    exact sideCross_back hwf p h2 hk
  · intro s hs _ he
    obtain ⟨h1, h2, _⟩ := hn s hs
    have := congrArg Prod.snd he
    simp only at this
    omega
  · intro s hs
    obtain ⟨h1, h2, k, hk, hkl, hkS, hback, hb⟩ := hn s hs
    rw [hk, Finset.mem_filter, mem_setSides hwf]
    exact ⟨⟨hkl, Nat.mod_lt _ (by omega), hkS⟩, hb⟩
  · intro s hs
    obtain ⟨h1, h2, k, hk, hkl, hkS, hback, _⟩ := hn s hs
    simp only [hk, Option.getD_some, hback]
    refine Prod.ext rfl ?_
    simp only
    omega

/-- All sides of the regions together wind around the points of their cells, also with runs of portals replaced by their chords. -/
theorem set_negative (hm : chf.Matched S) {p : Point} {i : Nat} (hi : i < chf.spans.length) (hir : S (chf.reg i))
    (hx : (chf.xOf i : Rat) ≤ p.1 ∧ p.1 < (chf.xOf i : Rat) + 1) (hz : (chf.zOf i : Rat) ≤ p.2 ∧ p.2 < (chf.zOf i : Rat) + 1) :
    ∑ s ∈ (chf.setSides S).filter (fun s => chf.BoundarySide s), chf.sideTerm S p s < 0 := by
  have h1 : ∑ s ∈ (chf.setSides S).filter (fun s => chf.BoundarySide s), chf.sideTerm S p s =
      ∑ s ∈ (chf.setSides S).filter (fun s => chf.BoundarySide s ∧ ¬ chf.Joint S s), chf.sideCross p s := by
    rw [← Finset.sum_filter_add_sum_filter_not _ (fun s => chf.Joint S s), Finset.filter_filter, Finset.filter_filter]
    have e1 : (chf.setSides S).filter (fun s => chf.BoundarySide s ∧ chf.Joint S s) = (chf.setSides S).filter (fun s => chf.Joint S s) := by
      apply Finset.filter_congr
      intro s _
      constructor
      · exact fun h => h.2
      · rintro ⟨r, w, hr, hw, h⟩
        exact ⟨h.2.2.1, r, w, hr, hw, h⟩
    rw [e1, chords_cancel hwf hsym hS hm p, zero_add]
    apply Finset.sum_congr rfl
    intro s hs
    unfold sideTerm
    rw [if_neg (Finset.mem_filter.1 hs).2.2]
  have h2 : ∑ s ∈ chf.setSides S, chf.sideCross p s = ∑ s ∈ (chf.setSides S).filter (fun s => chf.BoundarySide s ∧ ¬ chf.Joint S s), chf.sideCross p s := by
    rw [← Finset.sum_filter_add_sum_filter_not (chf.setSides S) (fun s => chf.BoundarySide s ∧ ¬ chf.Joint S s), joint_cancel hwf hsym hS p, add_zero]
  have hcells : ∑ s ∈ chf.setSides S, chf.sideCross p s = ∑ j ∈ Finset.range chf.spans.length, if S (chf.reg j) then
      (if ((chf.xOf j : Rat) ≤ p.1 ∧ p.1 < (chf.xOf j : Rat) + 1) ∧ ((chf.zOf j : Rat) ≤ p.2 ∧ p.2 < (chf.zOf j : Rat) + 1) then -1 else 0 : Int) else 0 := by
    unfold setSides
    rw [Finset.sum_filter, Finset.sum_product]
    refine Finset.sum_congr rfl fun j _ => ?_
    rw [← cell_cross hwf p j]
    split
    · simp [Finset.sum_range_succ]
    · simp
  rw [h1, ← h2, hcells]
  refine Finset.sum_neg' (fun j _ => ?_) ⟨i, Finset.mem_range.2 hi, ?_⟩
  · split
    · split <;> omega
    · omega
  · rw [if_pos hir, if_pos ⟨hx, hz⟩]
    omega

end
end CompactHeightfield
end Rerecast
