import Verif.Spec.PolyMesh
import Mathlib.Tactic.Linarith
import Mathlib.Algebra.BigOperators.Group.List.Lemmas
/-! Sides that polygons do not share are the sides of the polygon they make up. -/
namespace Rerecast

variable {α : Type} [DecidableEq α]

/-- How often a list of sides passes `e` forward, less how often backward. -/
def flow (e : α × α) (x : α × α) : Int := (if x = e then 1 else 0) - if x = (e.2, e.1) then 1 else 0

theorem flow_antisymmetric (e : α × α) : Antisymmetric (flow e) := by
  intro a b
  unfold flow
  obtain ⟨u, v⟩ := e
  simp only [Prod.mk.injEq]
  by_cases h1 : a = u <;> by_cases h2 : b = v <;> by_cases h3 : a = v <;> by_cases h4 : b = u <;> simp_all

theorem flow_sum (e : α × α) (l : List (α × α)) : (l.map (flow e)).sum = (l.count e : Int) - l.count (e.2, e.1) := by
  induction l with
  | nil => rfl
  | cons x l ih =>
    rw [List.map_cons, List.sum_cons, ih, List.count_cons, List.count_cons]
    unfold flow
    by_cases h1 : x = e <;> by_cases h2 : x = (e.2, e.1) <;> simp [h1, h2] <;> omega

omit [DecidableEq α] in
theorem sides_mem {p : List α} {e : α × α} (h : e ∈ sides p) : ∃ i, ∃ hi : i < p.length, e = (p[i], p[(i + 1) % p.length]'(Nat.mod_lt _ (by omega))) := by
  unfold sides at h
  obtain ⟨i, hlt, hi⟩ := List.mem_iff_getElem.1 h
  have hlen : i < p.length := by simpa using hlt
  refine ⟨i, hlen, ?_⟩
  rw [← hi]
  simp [List.getElem_rotate]

/-- Along a polygon with at least three corners, all different, each side occurs once and its reverse never. -/
theorem sides_once {p : List α} (hn : p.Nodup) (h3 : 3 ≤ p.length) {e : α × α} (h : e ∈ sides p) :
    (sides p).count e = 1 ∧ (sides p).count (e.2, e.1) = 0 := by
  have hnd : (sides p).Nodup := by
    unfold sides
    exact List.Nodup.of_map Prod.fst (by rw [List.map_fst_zip (by simp)]; exact hn)
  refine ⟨List.count_eq_one_of_mem hnd h, List.count_eq_zero.2 fun hr => ?_⟩
  obtain ⟨i, hi, rfl⟩ := sides_mem h
  obtain ⟨j, hj, e⟩ := sides_mem hr
  simp only [Prod.mk.injEq] at e
  have e1 := (List.Nodup.getElem_inj_iff hn).1 e.1
  have e2 := (List.Nodup.getElem_inj_iff hn).1 e.2
  rcases Nat.lt_or_ge (i + 1) p.length with h1 | h1
  · rw [Nat.mod_eq_of_lt h1] at e1
    subst e1
    rcases Nat.lt_or_ge (i + 1 + 1) p.length with h2 | h2
    · rw [Nat.mod_eq_of_lt h2] at e2; omega
    · rw [show i + 1 + 1 = p.length by omega, Nat.mod_self] at e2; omega
  · rw [show i + 1 = p.length by omega, Nat.mod_self] at e1
    subst e1
    rw [Nat.mod_eq_of_lt (by omega)] at e2
    omega

/-- Polygons with the boundary of `p` that use no directed side twice: the sides of `p` are those whose reverse is not used. -/
theorem boundary_sides {ps : List (List α)} {p : List α} (hn : p.Nodup) (h3 : 3 ≤ p.length) (honce : (allSides ps).Nodup)
    (hb : SameBoundary ps p) (e : α × α) : e ∈ sides p ↔ e ∈ allSides ps ∧ (e.2, e.1) ∉ allSides ps := by
  have key := hb (flow e) (flow_antisymmetric e)
  rw [flow_sum, flow_sum] at key
  constructor
  · intro h
    obtain ⟨k1, k2⟩ := sides_once hn h3 h
    rw [k1, k2] at key
    have c1 := List.nodup_iff_count_le_one.1 honce e
    have : (allSides ps).count e = 1 ∧ (allSides ps).count (e.2, e.1) = 0 := by omega
    exact ⟨List.count_pos_iff.1 (by omega), List.count_eq_zero.1 this.2⟩
  · rintro ⟨h1, h2⟩
    rw [List.count_eq_one_of_mem honce h1, List.count_eq_zero.2 h2] at key
    by_contra h
    rw [List.count_eq_zero.2 h] at key
    omega

end Rerecast
