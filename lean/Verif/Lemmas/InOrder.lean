import Verif.Lemmas.Cycle
/-! Cyclic order. -/
set_option linter.unusedVariables false
namespace Rerecast

theorem unrotate (p : List α) (k : Nat) : ∃ j, (p.rotate k).rotate j = p := by
  by_cases h0 : p.length = 0
  · exact ⟨0, by rw [List.length_eq_zero_iff] at h0; subst h0; simp⟩
  · refine ⟨p.length - k % p.length, ?_⟩
    have hk := Nat.mod_lt k (Nat.pos_of_ne_zero h0)
    rw [List.rotate_rotate, ← List.rotate_mod]
    have h1 : k + (p.length - k % p.length) = p.length * (k / p.length + 1) := by
      have := Nat.div_add_mod k p.length
      rw [Nat.mul_add]; omega
    rw [h1, Nat.mul_mod_right, List.rotate_zero]

theorem inOrder_rotate {p l : List α} {k : Nat} : InOrder (p.rotate k) l ↔ InOrder p l := by
  constructor
  · rintro ⟨j, hj⟩
    exact ⟨k + j, by rwa [← List.rotate_rotate]⟩
  · rintro ⟨j, hj⟩
    obtain ⟨i, hi⟩ := unrotate p k
    exact ⟨i + j, by rw [← List.rotate_rotate, hi]; exact hj⟩

theorem InOrder.sub {p q l : List α} (h : InOrder q l) (hs : p.Sublist q) : InOrder p l := by
  obtain ⟨k, hk⟩ := h
  rw [← List.rotate_mod] at hk
  by_cases h0 : q.length = 0
  · rw [List.length_eq_zero_iff] at h0
    subst h0
    rw [List.sublist_nil] at hs
    subst hs
    exact ⟨0, List.nil_sublist _⟩
  · have hlt := Nat.mod_lt k (Nat.pos_of_ne_zero h0)
    rw [List.rotate_eq_drop_append_take hlt.le] at hk
    rw [← List.take_append_drop (k % q.length) q] at hs
    obtain ⟨a, b, hab, ha, hb⟩ := List.sublist_append_iff.1 hs
    refine ⟨a.length, ?_⟩
    rw [hab, List.rotate_append_length_eq]
    exact (hb.append ha).trans hk

theorem InOrder.refl (p : List α) : InOrder p p := ⟨0, by simp⟩

theorem InOrder.mem {p l : List α} (h : InOrder p l) {x : α} (hx : x ∈ p) : x ∈ l := by
  obtain ⟨k, hk⟩ := h
  exact hk.subset (by simpa using hx)

theorem InOrder.nodup {p l : List α} (h : InOrder p l) (hn : l.Nodup) : p.Nodup := by
  obtain ⟨k, hk⟩ := h
  have := hn.sublist hk
  simpa using this

theorem InOrder.map {p l : List α} (h : InOrder p l) (f : α → β) : InOrder (p.map f) (l.map f) := by
  obtain ⟨k, hk⟩ := h
  exact ⟨k, by rw [← List.map_rotate]; exact hk.map f⟩

end Rerecast
