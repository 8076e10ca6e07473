import Verif.Model.Basic
import Mathlib.Dynamics.PeriodicPts.Lemmas
import Mathlib.Data.Set.Finite.Lattice
import Mathlib.Data.Finite.Prod
import Mathlib.Order.Interval.Set.Infinite
import Mathlib.Order.Interval.Finset.Nat
/-! Following the boundary of a set of spans: the next side, and that it runs in cycles. -/
namespace Rerecast

/-- A side of a span: the span's number and the direction. -/
abbrev Side := Nat × Nat

open Classical in
/-- One step along the boundary: turn at a boundary side, cross any other side. -/
noncomputable def follow (nbr : Nat → Nat → Option Nat) (E : Nat → Nat → Prop) (s : Side) : Side :=
  if E s.1 s.2 then (s.1, (s.2 + 1) % 4) else ((nbr s.1 s.2).getD 0, (s.2 + 3) % 4)

/-- The sides on which `follow` is a permutation. -/
structure Followable (n : Nat) (nbr : Nat → Nat → Option Nat) (E : Nat → Nat → Prop) (D : Nat → Prop) : Prop where
  lt : ∀ i, D i → i < n
  cross : ∀ i, D i → ∀ d < 4, ¬ E i d → ∃ k, nbr i d = some k ∧ D k ∧ ¬ E k ((d + 2) % 4) ∧ nbr k ((d + 2) % 4) = some i

section
variable {n : Nat} {nbr : Nat → Nat → Option Nat} {E : Nat → Nat → Prop} {D : Nat → Prop} (h : Followable n nbr E D)
include h

theorem follow_mem {s : Side} (hs : D s.1 ∧ s.2 < 4) : D (follow nbr E s).1 ∧ (follow nbr E s).2 < 4 := by
  unfold follow
  split
  · exact ⟨hs.1, Nat.mod_lt _ (by omega)⟩
  · rename_i he
    obtain ⟨k, hk, hD, _⟩ := h.cross s.1 hs.1 s.2 hs.2 he
    rw [hk]
    exact ⟨hD, Nat.mod_lt _ (by omega)⟩

theorem follow_inj {s t : Side} (hs : D s.1 ∧ s.2 < 4) (ht : D t.1 ∧ t.2 < 4) (e : follow nbr E s = follow nbr E t) : s = t := by
  obtain ⟨i, d⟩ := s
  obtain ⟨j, e'⟩ := t
  simp only at hs ht
  unfold follow at e
  simp only at e
  by_cases h1 : E i d <;> by_cases h2 : E j e'
  · rw [if_pos h1, if_pos h2] at e
    simp only [Prod.mk.injEq] at e ⊢
    omega
  · rw [if_pos h1, if_neg h2] at e
    obtain ⟨k, hk, hD, hE, hn⟩ := h.cross j ht.1 e' ht.2 h2
    rw [hk] at e
    simp only [Prod.mk.injEq, Option.getD_some] at e
    obtain ⟨rfl, e2⟩ := e
    have : (e' + 2) % 4 = d := by omega
    rw [this] at hE
    exact absurd h1 hE
  · rw [if_neg h1, if_pos h2] at e
    obtain ⟨k, hk, hD, hE, hn⟩ := h.cross i hs.1 d hs.2 h1
    rw [hk] at e
    simp only [Prod.mk.injEq, Option.getD_some] at e
    obtain ⟨rfl, e2⟩ := e
    have : (d + 2) % 4 = e' := by omega
    rw [this] at hE
    exact absurd h2 hE
  · rw [if_neg h1, if_neg h2] at e
    obtain ⟨k, hk, hD, hE, hn⟩ := h.cross i hs.1 d hs.2 h1
    obtain ⟨k', hk', hD', hE', hn'⟩ := h.cross j ht.1 e' ht.2 h2
    rw [hk, hk'] at e
    simp only [Prod.mk.injEq, Option.getD_some] at e
    obtain ⟨rfl, e2⟩ := e
    have : e' = d := by omega
    subst this
    rw [hn] at hn'
    simp only [Option.some.injEq] at hn'
    rw [hn']

theorem iterate_mem {s : Side} (hs : D s.1 ∧ s.2 < 4) (m : Nat) : D ((follow nbr E)^[m] s).1 ∧ ((follow nbr E)^[m] s).2 < 4 := by
  induction m with
  | zero => exact hs
  | succ m ih => rw [Function.iterate_succ_apply']; exact follow_mem h ih

theorem follow_periodic {s : Side} (hs : D s.1 ∧ s.2 < 4) : s ∈ Function.periodicPts (follow nbr E) := by
  let S : Set Side := {t | D t.1 ∧ t.2 < 4}
  have hfin : S.Finite := by
    refine Set.Finite.subset (Set.Finite.prod (Set.finite_lt_nat n) (Set.finite_lt_nat 4)) ?_
    rintro ⟨i, d⟩ ⟨h1, h2⟩
    exact ⟨h.lt i h1, h2⟩
  have : Finite S := hfin
  let g : S → S := fun t => ⟨follow nbr E t.1, follow_mem h t.2⟩
  have hg : Function.Injective g := by
    intro a b hab
    exact Subtype.ext (follow_inj h a.2 b.2 (congrArg Subtype.val hab))
  obtain ⟨m, hm, hp⟩ := hg.mem_periodicPts ⟨s, hs⟩
  refine ⟨m, hm, ?_⟩
  have hv : ∀ k, ((g^[k] ⟨s, hs⟩ : S) : Side) = (follow nbr E)^[k] s := by
    intro k
    induction k with
    | zero => rfl
    | succ k ih => rw [Function.iterate_succ_apply', Function.iterate_succ_apply', ← ih]
  have := congrArg Subtype.val hp
  rw [hv] at this
  exact this

end

/-- The cycle through a side. -/
noncomputable def orbitOf (nbr : Nat → Nat → Option Nat) (E : Nat → Nat → Prop) (s : Side) : List Side :=
  (List.range (Function.minimalPeriod (follow nbr E) s)).map fun m => (follow nbr E)^[m] s

theorem orbitOf_length (nbr : Nat → Nat → Option Nat) (E : Nat → Nat → Prop) (s : Side) :
    (orbitOf nbr E s).length = Function.minimalPeriod (follow nbr E) s := by simp [orbitOf]

theorem orbitOf_nodup (nbr : Nat → Nat → Option Nat) (E : Nat → Nat → Prop) (s : Side) : (orbitOf nbr E s).Nodup := by
  refine (List.nodup_map_iff_inj_on List.nodup_range).2 ?_
  intro a ha b hb e
  exact Function.iterate_injOn_Iio_minimalPeriod (List.mem_range.1 ha) (List.mem_range.1 hb) e

section
variable {n : Nat} {nbr : Nat → Nat → Option Nat} {E : Nat → Nat → Prop} {D : Nat → Prop} (h : Followable n nbr E D)
include h

theorem period_pos {s : Side} (hs : D s.1 ∧ s.2 < 4) : 0 < Function.minimalPeriod (follow nbr E) s :=
  Function.minimalPeriod_pos_of_mem_periodicPts (follow_periodic h hs)

theorem mem_orbitOf {s : Side} (hs : D s.1 ∧ s.2 < 4) {t : Side} : t ∈ orbitOf nbr E s ↔ ∃ m, (follow nbr E)^[m] s = t := by
  have hp := period_pos h hs
  constructor
  · intro ht
    obtain ⟨m, _, e⟩ := List.mem_map.1 ht
    exact ⟨m, e⟩
  · rintro ⟨m, rfl⟩
    refine List.mem_map.2 ⟨m % Function.minimalPeriod (follow nbr E) s, List.mem_range.2 (Nat.mod_lt _ hp), ?_⟩
    exact Function.iterate_mod_minimalPeriod_eq

theorem orbit_self {s : Side} (hs : D s.1 ∧ s.2 < 4) : s ∈ orbitOf nbr E s := (mem_orbitOf h hs).2 ⟨0, rfl⟩

/-- The cycle is closed under stepping, in both directions. -/
theorem orbit_closed {s : Side} (hs : D s.1 ∧ s.2 < 4) {t : Side} (ht : D t.1 ∧ t.2 < 4) :
    follow nbr E t ∈ orbitOf nbr E s ↔ t ∈ orbitOf nbr E s := by
  rw [mem_orbitOf h hs, mem_orbitOf h hs]
  constructor
  · rintro ⟨m, e⟩
    have hp := period_pos h hs
    -- step back
    refine ⟨m + Function.minimalPeriod (follow nbr E) s - 1, ?_⟩
    refine follow_inj h (iterate_mem h hs _) ht ?_
    rw [← Function.iterate_succ_apply' (follow nbr E), show (m + Function.minimalPeriod (follow nbr E) s - 1).succ = m + Function.minimalPeriod (follow nbr E) s by omega,
      Function.iterate_add_apply, Function.iterate_minimalPeriod, e]
  · rintro ⟨m, rfl⟩
    exact ⟨m + 1, by rw [Function.iterate_succ_apply']⟩

end
end Rerecast
