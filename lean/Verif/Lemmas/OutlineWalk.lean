import Verif.Lemmas.OutlineCorner
import Mathlib.Data.List.Induction
/-! The walk along a wall goes once around the cycle of its first side. -/
set_option linter.unusedVariables false
set_option linter.unusedSectionVars false
namespace Rerecast
namespace CompactHeightfield

/-- The next side on the walk. -/
noncomputable abbrev nextSide (chf : CompactHeightfield) : Side → Side := follow chf.nbr chf.Edge

/-- A span of a proper region. -/
def InProper (chf : CompactHeightfield) (i : Nat) : Prop := i < chf.spans.length ∧ ProperRegion (chf.reg i)

/-- A side of such a span. -/
def SideOk (chf : CompactHeightfield) (s : Side) : Prop := chf.InProper s.1 ∧ s.2 < 4

section
variable {chf : CompactHeightfield} (hwf : chf.WellFormed) (hsym : chf.SymmetricLinks)
include hwf

theorem boundarySide_iff {s : Side} (hd : s.2 < 4) : chf.BoundarySide s ↔ chf.Edge s.1 s.2 ∧ s.1 < chf.spans.length := by
  unfold BoundarySide Edge
  constructor
  · rintro ⟨r, hp, hr, h⟩
    obtain ⟨hl, rfl⟩ := (regionOf_iff hwf).1 hr
    refine ⟨⟨hp, ?_⟩, hl⟩
    intro k hk e
    exact h k ((nbr_iff_link hwf hd).1 hk) ((regionOf_iff hwf).2 ⟨(nbr_lt hwf hd hk).2, e⟩)
  · rintro ⟨⟨hp, h⟩, hl⟩
    refine ⟨_, hp, (regionOf_iff hwf).2 ⟨hl, rfl⟩, ?_⟩
    intro k hk hr
    exact h k ((nbr_iff_link hwf hd).2 hk) ((regionOf_iff hwf).1 hr).2

theorem edge_ok {i d : Nat} (h : chf.Edge i d) (hi : i < chf.spans.length) (hd : d < 4) : chf.SideOk (i, d) := ⟨⟨hi, h.1⟩, hd⟩

theorem not_edge {i d : Nat} (hi : chf.InProper i) (h : ¬ chf.Edge i d) : ∃ k, chf.nbr i d = some k ∧ chf.reg k = chf.reg i := by
  unfold Edge at h
  by_contra hcon
  push Not at hcon
  exact h ⟨hi.2, hcon⟩

include hsym

theorem followable : Followable chf.spans.length chf.nbr chf.Edge chf.InProper where
  lt := fun i h => h.1
  cross := by
    intro i hi d hd he
    obtain ⟨k, hk, hr⟩ := not_edge hwf hi he
    have hkl := (nbr_lt hwf hd hk).2
    have hd' : (d + 2) % 4 < 4 := Nat.mod_lt _ (by omega)
    have hback : chf.nbr k ((d + 2) % 4) = some i := (nbr_iff_link hwf hd').2 (hsym i k d hd ((nbr_iff_link hwf hd).1 hk))
    refine ⟨k, hk, ⟨hkl, by rw [hr]; exact hi.2⟩, ?_, hback⟩
    intro he'
    exact he'.2 i hback hr.symm

theorem nextSide_ok {s : Side} (hs : chf.SideOk s) : chf.SideOk (chf.nextSide s) := follow_mem (followable hwf hsym) hs

theorem iter_ok {s : Side} (hs : chf.SideOk s) (m : Nat) : chf.SideOk (chf.nextSide^[m] s) := iterate_mem (followable hwf hsym) hs m

theorem nextSide_reg {s : Side} (hs : chf.SideOk s) : chf.reg (chf.nextSide s).1 = chf.reg s.1 := by
  unfold nextSide follow
  by_cases he : chf.Edge s.1 s.2
  · rw [if_pos he]
  · rw [if_neg he]
    obtain ⟨k, hk, hr⟩ := not_edge hwf hs.1 he
    rw [hk]; exact hr

theorem iter_reg {s : Side} (hs : chf.SideOk s) (m : Nat) : chf.reg (chf.nextSide^[m] s).1 = chf.reg s.1 := by
  induction m with
  | zero => rfl
  | succ m ih => rw [Function.iterate_succ_apply', nextSide_reg hwf hsym (iter_ok hwf hsym hs m), ih]

theorem wallStep_next {s : Side} (hs : chf.SideOk s) : chf.WallStep s (chf.nextSide s) := by
  obtain ⟨i, d⟩ := s
  unfold nextSide follow
  by_cases he : chf.Edge i d
  · rw [if_pos he]
    exact .turn ((boundarySide_iff hwf (s := (i, d)) hs.2).2 ⟨he, hs.1.1⟩)
  · rw [if_neg he]
    obtain ⟨k, hk, hr⟩ := not_edge hwf hs.1 he
    simp only [hk, Option.getD_some]
    exact .cross (fun hb => he ((boundarySide_iff hwf (s := (i, d)) hs.2).1 hb).1) ((nbr_iff_link hwf hs.2).1 hk)

theorem wallStep_unique {s a : Side} (hs : chf.SideOk s) (h : chf.WallStep s a) : a = chf.nextSide s := by
  have hn := wallStep_next hwf hsym hs
  cases h with
  | turn hb =>
    generalize ht : chf.nextSide _ = t at hn
    cases hn with
    | turn _ => rfl
    | cross hc _ => exact absurd hb hc
  | cross hc hl =>
    generalize ht : chf.nextSide _ = t at hn
    cases hn with
    | turn hb => exact absurd hb hc
    | cross _ hl' =>
      have e1 := (nbr_iff_link hwf hs.2).2 hl
      have e2 := (nbr_iff_link hwf hs.2).2 hl'
      rw [e1] at e2
      cases e2
      rfl

/-- The round through a side is a circuit. -/
theorem orbit_circuit {s : Side} (hs : chf.SideOk s) : chf.IsCircuit (chf.reg s.1) (orbitOf chf.nbr chf.Edge s) := by
  have hp : 0 < Function.minimalPeriod chf.nextSide s := period_pos (followable hwf hsym) hs
  have hlen : (orbitOf chf.nbr chf.Edge s).length = Function.minimalPeriod chf.nextSide s := orbitOf_length chf.nbr chf.Edge s
  have hget : ∀ j, j < Function.minimalPeriod chf.nextSide s → (orbitOf chf.nbr chf.Edge s)[j]? = some (chf.nextSide^[j] s) := by
    intro j hj
    unfold orbitOf
    rw [List.getElem?_map, List.getElem?_range hj]; rfl
  refine ⟨?_, orbitOf_nodup _ _ _, ?_, ?_, ?_⟩
  · intro h; rw [h] at hlen; simp at hlen; omega
  · intro t ht
    obtain ⟨m, rfl⟩ := (mem_orbitOf (followable hwf hsym) hs).1 ht
    exact (iter_ok hwf hsym hs m).2
  · intro t ht
    obtain ⟨m, rfl⟩ := (mem_orbitOf (followable hwf hsym) hs).1 ht
    exact (regionOf_iff hwf).2 ⟨(iter_ok hwf hsym hs m).1.1, iter_reg hwf hsym hs m⟩
  · intro j a b ha hb
    have hj : j < Function.minimalPeriod chf.nextSide s := by
      have := (List.getElem?_eq_some_iff.1 ha).1
      omega
    rw [hlen, hget _ (Nat.mod_lt _ hp)] at hb
    rw [hget j hj] at ha
    cases ha
    have e : chf.nextSide^[(j + 1) % Function.minimalPeriod chf.nextSide s] s = chf.nextSide^[j + 1] s := Function.iterate_mod_minimalPeriod_eq
    have hb' : b = chf.nextSide (chf.nextSide^[j] s) := by
      rw [← Function.iterate_succ_apply' chf.nextSide, ← e]
      exact (Option.some.inj hb).symm
    rw [hb']
    exact wallStep_next hwf hsym (iter_ok hwf hsym hs j)

/-- Only an isolated span leads to an isolated span. -/
theorem isolated_back {s : Side} (hs : chf.SideOk s) (h : chf.Isolated (chf.nextSide s).1) : chf.Isolated s.1 := by
  by_cases he : chf.Edge s.1 s.2
  · have : (chf.nextSide s).1 = s.1 := by unfold nextSide follow; rw [if_pos he]
    rwa [this] at h
  · obtain ⟨k, hk, hD, hE, hn⟩ := (followable hwf hsym).cross s.1 hs.1 s.2 hs.2 he
    have : (chf.nextSide s).1 = k := by unfold nextSide follow; rw [if_neg he, hk]; rfl
    rw [this] at h
    have hd' : (s.2 + 2) % 4 < 4 := Nat.mod_lt _ (by omega)
    exact absurd ((boundarySide_iff hwf (s := (k, _)) hd').1 (h _ hd')).1 hE

theorem isolated_iter {s : Side} (hs : chf.SideOk s) (m : Nat) (h : chf.Isolated (chf.nextSide^[m] s).1) : chf.Isolated s.1 := by
  induction m with
  | zero => exact h
  | succ m ih =>
    rw [Function.iterate_succ_apply'] at h
    exact ih (isolated_back hwf hsym (iter_ok hwf hsym hs m) h)

/-- Coordinate sum of the corner at which a side starts. -/
def cornerSum (chf : CompactHeightfield) (s : Side) : Nat :=
  (startCorner (chf.xOf s.1) (chf.zOf s.1) s.2).1 + (startCorner (chf.xOf s.1) (chf.zOf s.1) s.2).2

theorem cornerSum_cross {s : Side} (hs : chf.SideOk s) (he : ¬ chf.Edge s.1 s.2) : chf.cornerSum (chf.nextSide s) = chf.cornerSum s := by
  obtain ⟨k, hk, hr⟩ := not_edge hwf hs.1 he
  unfold nextSide follow cornerSum
  rw [if_neg he, hk, Option.getD_some, startCorner_move hwf hs.2 hk]

theorem cornerSum_turn {s : Side} (hs : chf.SideOk s) (he : chf.Edge s.1 s.2) (h2 : 2 ≤ s.2) : chf.cornerSum (chf.nextSide s) + 1 = chf.cornerSum s := by
  obtain ⟨i, d⟩ := s
  unfold nextSide follow cornerSum
  rw [if_pos he]
  simp only at h2 ⊢
  have hd : d < 4 := hs.2
  rw [startCorner_turn hwf hd]
  have : d = 2 ∨ d = 3 := by omega
  rcases this with rfl | rfl <;> simp [startCorner, cornerOf] <;> omega

/-- Every round that meets a boundary side meets one facing direction 0 or 1. -/
theorem orbit_low {s : Side} (hs : chf.SideOk s) (he : chf.Edge s.1 s.2) : ∃ m, chf.Edge (chf.nextSide^[m] s).1 (chf.nextSide^[m] s).2 ∧
    (chf.nextSide^[m] s).2 < 2 := by
  by_contra hcon
  push Not at hcon
  have hle : ∀ m, chf.cornerSum (chf.nextSide^[m + 1] s) < chf.cornerSum s := by
    intro m
    induction m with
    | zero =>
      have := cornerSum_turn hwf hsym hs he (hcon 0 he)
      simp only [Function.iterate_succ, Function.iterate_zero, Function.comp, id]
      omega
    | succ m ih =>
      rw [Function.iterate_succ_apply']
      have hok := iter_ok hwf hsym hs (m + 1)
      by_cases h : chf.Edge (chf.nextSide^[m + 1] s).1 (chf.nextSide^[m + 1] s).2
      · have := cornerSum_turn hwf hsym hok h (hcon _ h)
        omega
      · have := cornerSum_cross hwf hsym hok h
        omega
  have hp : 0 < Function.minimalPeriod chf.nextSide s := period_pos (followable hwf hsym) hs
  have := hle (Function.minimalPeriod chf.nextSide s - 1)
  rw [Nat.sub_add_cancel hp, Function.iterate_minimalPeriod] at this
  omega

end

/-- Clearing one flag. -/
theorem FlagsAre.clear {chf : CompactHeightfield} {flags : List (BitVec 8)} {T : Nat → Nat → Prop} (h : chf.FlagsAre flags T) {i d : Nat}
    {f : BitVec 8} (hf : flags[i]? = some f) (hd : d < 4) :
    chf.FlagsAre (flags.set i (f &&& ~~~(1#8 <<< d))) (fun j e => T j e ∧ (j, e) ≠ (i, d)) := by
  refine ⟨by simp [h.1], ?_⟩
  intro j g hg
  rw [List.getElem?_set] at hg
  split at hg
  · rename_i e
    subst e
    split at hg
    · cases hg
      obtain ⟨h1, h2⟩ := h.2 _ f hf
      constructor
      · intro e he
        have hbit : (1#8 <<< d).getLsbD e = decide (d = e) := by
          have h1 : d = 0 ∨ d = 1 ∨ d = 2 ∨ d = 3 := by omega
          have h2 : e = 0 ∨ e = 1 ∨ e = 2 ∨ e = 3 := by omega
          rcases h1 with rfl | rfl | rfl | rfl <;> rcases h2 with rfl | rfl | rfl | rfl <;> decide
        rw [BitVec.getLsbD_and, BitVec.getLsbD_not, hbit, Bool.and_eq_true, h1 e he]
        have h8 : e < 8 := by omega
        simp only [h8, decide_true, Bool.true_and, Bool.not_eq_true', decide_eq_false_iff_not, ne_eq, Prod.mk.injEq, true_and]
        constructor
        · rintro ⟨a, b⟩; exact ⟨a, fun e => b e.symm⟩
        · rintro ⟨a, b⟩; exact ⟨a, fun e => b e.symm⟩
      · intro e he
        rw [BitVec.getLsbD_and, h2 e he]; rfl
    · cases hg
  · rename_i hne
    obtain ⟨h1, h2⟩ := h.2 j g hg
    refine ⟨?_, h2⟩
    intro e he
    rw [h1 e he]
    constructor
    · intro a; exact ⟨a, fun e => hne (by cases e; rfl)⟩
    · exact fun a => a.1

theorem FlagsAre.congr {chf : CompactHeightfield} {flags : List (BitVec 8)} {T T' : Nat → Nat → Prop} (h : chf.FlagsAre flags T)
    (he : ∀ i d, i < chf.spans.length → d < 4 → (T i d ↔ T' i d)) : chf.FlagsAre flags T' := by
  refine ⟨h.1, ?_⟩
  intro i f hf
  have hi : i < chf.spans.length := by rw [← h.1]; exact (List.getElem?_eq_some_iff.1 hf).1
  obtain ⟨h1, h2⟩ := h.2 i f hf
  exact ⟨fun d hd => (h1 d hd).trans (he i d hi hd), h2⟩

theorem FlagsAre.high {chf : CompactHeightfield} {flags : List (BitVec 8)} {T : Nat → Nat → Prop} (h : chf.FlagsAre flags T) : HighClear flags :=
  fun i f hf d hd => (h.2 i f hf).2 d hd

section
variable {chf : CompactHeightfield} (hwf : chf.WellFormed) (hsym : chf.SymmetricLinks) (hu : ∀ s ∈ chf.spans, s.region < 65536)
include hwf hsym hu

open Classical in
/-- The state of the walk after `m` steps. -/
structure WalkAt (chf : CompactHeightfield) (area : Area) (s : Side) (T : Nat → Nat → Prop) (m : Nat) (w : Walk) : Prop where
  ok : chf.WalkOk w
  here : (w.i, w.dir) = chf.nextSide^[m] s
  flags : chf.FlagsAre w.flags (fun i d => T i d ∧ ∀ j < m, chf.nextSide^[j] s ≠ (i, d))
  points : List.Forall₂ (chf.RawVertex area) (((List.range m).map fun j => chf.nextSide^[j] s).filter fun t => chf.Edge t.1 t.2) w.points
  steps : Steps (startCorner (chf.xOf s.1) (chf.zOf s.1) s.2) w.points (startCorner w.x w.z w.dir)

theorem walk_step (area : Area) {s : Side} (hs : chf.SideOk s) {T : Nat → Nat → Prop}
    (hT : ∀ m, T (chf.nextSide^[m] s).1 (chf.nextSide^[m] s).2 ↔ chf.Edge (chf.nextSide^[m] s).1 (chf.nextSide^[m] s).2)
    {m : Nat} (hm : m < Function.minimalPeriod chf.nextSide s) {w : Walk} (hw : WalkAt chf area s T m w) (n : Nat) :
    ∃ w', WalkAt chf area s T (m + 1) w' ∧
      chf.walkLoop area s.1 s.2 (n + 1) w = if m + 1 = Function.minimalPeriod chf.nextSide s then .ok w' else chf.walkLoop area s.1 s.2 n w' := by
  have hok := iter_ok hwf hsym hs m
  have hhere := hw.here
  have e1 : (chf.nextSide^[m] s).1 = w.i := by rw [← hhere]
  have e2 : (chf.nextSide^[m] s).2 = w.dir := by rw [← hhere]
  rw [← hhere] at hok
  have hnew : ∀ w' : Walk, (w'.i, w'.dir) = chf.nextSide^[m + 1] s → ((s.1 = w'.i ∧ s.2 = w'.dir) ↔ m + 1 = Function.minimalPeriod chf.nextSide s) := by
    intro w' h'
    have : (s.1 = w'.i ∧ s.2 = w'.dir) ↔ chf.nextSide^[m + 1] s = s := by
      rw [← h']
      obtain ⟨a, b⟩ := s
      simp only [Prod.mk.injEq]
      exact ⟨fun ⟨h1, h2⟩ => ⟨h1.symm, h2.symm⟩, fun ⟨h1, h2⟩ => ⟨h1.symm, h2.symm⟩⟩
    rw [this]
    constructor
    · intro h
      have hper : Function.IsPeriodicPt chf.nextSide (m + 1) s := h
      have := hper.minimalPeriod_le (by omega)
      omega
    · intro h; rw [h]; exact Function.iterate_minimalPeriod
  have hi : w.i < w.flags.length := by rw [hw.ok.flags_len]; exact hw.ok.i_lt
  have hf : w.flags[w.i]? = some w.flags[w.i] := List.getElem?_eq_getElem hi
  -- the flag tells whether this is a boundary side
  have hflag : (w.flags[w.i]).getLsbD w.dir = true ↔ chf.Edge w.i w.dir := by
    rw [(hw.flags.2 _ _ hf).1 _ hw.ok.dir_lt]
    have h0 := hT m
    rw [e1, e2] at h0
    simp only [h0]
    constructor
    · exact fun h => h.1
    · intro h
      refine ⟨h, ?_⟩
      intro j hj e
      rw [hhere] at e
      have := Function.iterate_injOn_Iio_minimalPeriod (f := chf.nextSide) (x := s) (show j < _ by omega) hm e
      omega
  have hnext : chf.nextSide^[m + 1] s = chf.nextSide (w.i, w.dir) := by rw [Function.iterate_succ_apply', hhere]
  rw [walkLoop, idx_ok hi, bind_ok]
  by_cases he : chf.Edge w.i w.dir
  · have hb := hflag.2 he
    obtain ⟨p, hp, hxz, hwe⟩ := walkEdge_spec hwf hu area hw.ok w.flags[w.i]
    have hn' : chf.nextSide (w.i, w.dir) = (w.i, (w.dir + 1) % 4) := by unfold nextSide follow; rw [if_pos he]
    rw [if_pos hb, hwe, bind_ok, bind_ok]
    simp only
    refine ⟨_, ⟨walkOk_edge hwf hw.ok (f := w.flags[w.i] &&& ~~~(1#8 <<< w.dir)) (fun d h4 => ?_) p, by rw [hnext, hn'], ?_, ?_, ?_⟩, ?_⟩
    · rw [BitVec.getLsbD_and, hw.ok.high _ _ hf d h4]; rfl
    · refine (hw.flags.clear hf hw.ok.dir_lt).congr ?_
      intro i d _ _
      constructor
      · rintro ⟨⟨h1, h2⟩, h3⟩
        refine ⟨h1, ?_⟩
        intro j hj
        rcases Nat.lt_succ_iff_lt_or_eq.1 hj with h | rfl
        · exact h2 j h
        · rw [← hhere]; exact fun e => h3 e.symm
      · rintro ⟨h1, h2⟩
        refine ⟨⟨h1, fun j hj => h2 j (by omega)⟩, ?_⟩
        rw [hhere]
        exact fun e => h2 m (by omega) e.symm
    · rw [List.range_succ, List.map_append, List.filter_append, List.map_singleton, List.filter_cons,
        if_pos (by rw [e1, e2]; simpa using he), List.filter_nil]
      refine List.rel_append hw.points ?_
      rw [← hhere]
      exact List.Forall₂.cons hp .nil
    · have := steps_append hwf hw.steps (p := p) (by rw [hxz]; exact unit_corner hwf hw.ok.dir_lt)
      rw [hxz, ← startCorner_turn hwf hw.ok.dir_lt] at this
      exact this
    · by_cases h : m + 1 = Function.minimalPeriod chf.nextSide s
      · rw [if_pos h, if_pos]
        exact (hnew ⟨w.x, w.z, w.i, (w.dir + 1) % 4, [], []⟩ (by rw [hnext, hn'])).2 h
      · rw [if_neg h, if_neg]
        exact fun h' => h ((hnew ⟨w.x, w.z, w.i, (w.dir + 1) % 4, [], []⟩ (by rw [hnext, hn'])).1 h')
  · have hb : ¬ (w.flags[w.i]).getLsbD w.dir = true := fun h => he (hflag.1 h)
    obtain ⟨k, hk, hr⟩ := not_edge hwf hok.1 he
    have hn' : chf.nextSide (w.i, w.dir) = (k, (w.dir + 3) % 4) := by unfold nextSide follow; rw [if_neg he]; simp only [hk, Option.getD_some]
    rw [if_neg hb, walkMove_ok hwf hw.ok, hk, Option.map_some, bind_ok]
    simp only
    refine ⟨_, ⟨walkOk_move hwf hw.ok hk, by rw [hnext, hn'], ?_, ?_, ?_⟩, ?_⟩
    · refine hw.flags.congr ?_
      intro i d _ _
      constructor
      · rintro ⟨h1, h2⟩
        refine ⟨h1, ?_⟩
        intro j hj
        rcases Nat.lt_succ_iff_lt_or_eq.1 hj with h | rfl
        · exact h2 j h
        · rw [← hhere]
          intro e
          cases e
          have := hT j
          rw [e1, e2] at this
          exact he (this.1 h1)
      · rintro ⟨h1, h2⟩
        exact ⟨h1, fun j hj => h2 j (by omega)⟩
    · rw [List.range_succ, List.map_append, List.filter_append, List.map_singleton, List.filter_cons,
        if_neg (by rw [e1, e2]; simpa using he), List.filter_nil, List.append_nil]
      exact hw.points
    · have := hw.steps
      rw [hw.ok.x_eq, hw.ok.z_eq, ← startCorner_move hwf hw.ok.dir_lt hk] at this
      exact this
    · by_cases h : m + 1 = Function.minimalPeriod chf.nextSide s
      · rw [if_pos h, if_pos]
        exact (hnew ⟨0, 0, k, (w.dir + 3) % 4, [], []⟩ (by rw [hnext, hn'])).2 h
      · rw [if_neg h, if_neg]
        exact fun h' => h ((hnew ⟨0, 0, k, (w.dir + 3) % 4, [], []⟩ (by rw [hnext, hn'])).1 h')

theorem walk_round (area : Area) {s : Side} (hs : chf.SideOk s) {T : Nat → Nat → Prop}
    (hT : ∀ m, T (chf.nextSide^[m] s).1 (chf.nextSide^[m] s).2 ↔ chf.Edge (chf.nextSide^[m] s).1 (chf.nextSide^[m] s).2) :
    ∀ (n m : Nat), m < Function.minimalPeriod chf.nextSide s → Function.minimalPeriod chf.nextSide s ≤ m + n → ∀ w, WalkAt chf area s T m w →
      ∃ w', chf.walkLoop area s.1 s.2 n w = .ok w' ∧ WalkAt chf area s T (Function.minimalPeriod chf.nextSide s) w' := by
  intro n
  induction n with
  | zero => intro m h1 h2; omega
  | succ n ih =>
    intro m h1 h2 w hw
    obtain ⟨w', hw', he⟩ := walk_step hwf hsym hu area hs hT h1 hw n
    rw [he]
    by_cases h : m + 1 = Function.minimalPeriod chf.nextSide s
    · rw [if_pos h]
      rw [h] at hw'
      exact ⟨w', rfl, hw'⟩
    · rw [if_neg h]
      exact ih (m + 1) (by omega) (by omega) w' hw'

/-- A walk that is cut short. -/
theorem walk_cut (area : Area) {s : Side} (hs : chf.SideOk s) {T : Nat → Nat → Prop}
    (hT : ∀ m, T (chf.nextSide^[m] s).1 (chf.nextSide^[m] s).2 ↔ chf.Edge (chf.nextSide^[m] s).1 (chf.nextSide^[m] s).2) :
    ∀ (n m : Nat), m + n < Function.minimalPeriod chf.nextSide s → ∀ w, WalkAt chf area s T m w →
      ∃ w', chf.walkLoop area s.1 s.2 n w = .ok w' ∧ WalkAt chf area s T (m + n) w' := by
  intro n
  induction n with
  | zero => intro m _ w hw; exact ⟨w, rfl, hw⟩
  | succ n ih =>
    intro m h1 w hw
    obtain ⟨w', hw', he⟩ := walk_step hwf hsym hu area hs hT (by omega) hw n
    rw [he, if_neg (by omega)]
    obtain ⟨w2, h2, h3⟩ := ih (m + 1) (by omega) w' hw'
    exact ⟨w2, h2, by rw [show m + (n + 1) = m + 1 + n by omega]; exact h3⟩

end

theorem steps_ends : ∀ (l : RawContour) (c e : Nat × Nat), Steps c l e → (∀ p, l[0]? = some p → UnitStep c p.1.xz) ∧
    (∀ p, l.getLast? = some p → p.1.xz = e) ∧
    ∀ (j : Nat) (p q : U16Vec3 × Nat), l[j]? = some p → l[j + 1]? = some q → UnitStep p.1.xz q.1.xz := by
  intro l
  induction l with
  | nil => intro c e _; simp
  | cons a l ih =>
    intro c e hs
    obtain ⟨h1, h2, h3⟩ := ih _ _ hs.2
    refine ⟨?_, ?_, ?_⟩
    · intro p hp
      simp only [List.getElem?_cons_zero, Option.some.injEq] at hp
      subst hp; exact hs.1
    · intro p hp
      cases l with
      | nil =>
        simp only [List.getLast?_singleton, Option.some.injEq] at hp
        subst hp
        exact hs.2
      | cons b l =>
        rw [List.getLast?_cons_cons] at hp
        exact h2 p hp
    · intro j p q hp hq
      cases j with
      | zero =>
        simp only [List.getElem?_cons_zero, Option.some.injEq] at hp
        subst hp
        exact h1 q (by simpa using hq)
      | succ j => exact h3 j p q (by simpa using hp) (by simpa using hq)

/-- A path of unit steps that ends where it begins is a closed walk. -/
theorem closed_of_steps {c : Nat × Nat} {l : RawContour} (h : Steps c l c) : ClosedUnitWalk l := by
  obtain ⟨h1, h2, h3⟩ := steps_ends l c c h
  intro j p q hp hq
  have hj := (List.getElem?_eq_some_iff.1 hp).1
  by_cases hl : j + 1 < l.length
  · rw [Nat.mod_eq_of_lt hl] at hq
    exact h3 j p q hp hq
  · have : j + 1 = l.length := by omega
    rw [this, Nat.mod_self] at hq
    have hpc : p.1.xz = c := h2 p (by rw [List.getLast?_eq_getElem?, show l.length - 1 = j by omega]; exact hp)
    rw [hpc]
    exact h1 q hq

end CompactHeightfield
end Rerecast
