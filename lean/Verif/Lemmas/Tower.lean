import Verif.Lemmas.IntoCompact
import Verif.Lemmas.HeightfieldHistory
/-! A column with any number of thin walkable slabs, used for the counterexamples about layers. -/
set_option linter.unusedVariables false
namespace Rerecast
open Heightfield

def slab (k : Nat) : Solid := ⟨4 * k, 4 * k + 1, 255⟩

/-- `n` thin walkable slabs above each other in column 0. -/
def tower (n : Nat) : List Insertion := (List.range n).map fun k => ⟨0, 0, 0, 4 * k, 4 * k + 1, 255⟩

theorem tower_valid {w h : Nat} (hw : 0 < w) (hh : 0 < h) (n : Nat) : ValidOps w h (tower n) := by
  intro i hi
  obtain ⟨k, _, rfl⟩ := List.mem_map.1 hi
  exact ⟨hw, hh, by simp⟩

theorem insertCol_above (thr : Nat) (n : Solid) : ∀ l : List Solid, n.min ≤ n.max → (∀ s ∈ l, s.min ≤ s.max ∧ s.max < n.min) →
    insertCol thr n l = l ++ [n]
  | [], _, _ => rfl
  | s :: l, hn, h => by
    have h1 := h s (by simp)
    unfold insertCol
    split
    · omega
    · rw [insertCol_above thr n l hn (fun t ht => h t (by simp [ht]))]
      simp [h1.2]

theorem tower_reached {w h : Nat} (hw : 0 < w) (hh : 0 < h) : ∀ n, ∃ hf cols,
    (Heightfield.new w h).insertAll (tower n) = .ok hf ∧ Reached w h (tower n) hf cols ∧
    solids (cols 0) = (List.range n).map slab ∧ ∀ c, c ≠ 0 → cols c = []
  | 0 => ⟨_, _, rfl, reached_new w h, rfl, fun _ _ => rfl⟩
  | n + 1 => by
    obtain ⟨hf, cols, h1, h2, h3, h4⟩ := tower_reached hw hh n
    obtain ⟨hf', cols', k1, k2, k3, k4⟩ := h2.step ⟨0, 0, 0, 4 * n, 4 * n + 1, 255⟩ hw hh (by simp)
    have e : tower (n + 1) = tower n ++ [⟨0, 0, 0, 4 * n, 4 * n + 1, 255⟩] := by simp [tower, List.range_succ]
    refine ⟨hf', cols', ?_, by rw [e]; exact k2, ?_, ?_⟩
    · rw [e]
      simp only [insertAll] at h1 ⊢
      rw [List.foldlM_append, h1, bind_ok, List.foldlM_cons, k1]; rfl
    · simp only [Nat.zero_mul, Nat.add_zero] at k3
      rw [k3, h3, insertCol_above]
      · simp [List.range_succ, slab, Insertion.solid]
      · simp [Insertion.solid]
      · intro s hs
        obtain ⟨k, hk, rfl⟩ := List.mem_map.1 hs
        have := List.mem_range.1 hk
        simp only [slab, Insertion.solid]; omega
    · intro c hc
      rw [k4 c (by simpa using hc)]; exact h4 c hc

theorem surfaces_slabs : ∀ n a, 4 * (a + n) ≤ 65535 → ∃ L, surfaces ((List.range' a n).map slab) = L ∧ L.length = n ∧
    ∀ (j : Nat) (u : Surface), L[j]? = some u → u.floor = 4 * (a + j) + 1 ∧ 3 ≤ u.clearance
  | 0, a, _ => ⟨[], rfl, rfl, by simp⟩
  | n + 1, a, h => by
    obtain ⟨L, h1, h2, h3⟩ := surfaces_slabs n (a + 1) (by omega)
    rw [List.range'_succ, List.map_cons, surfaces, if_pos (by rfl), h1]
    refine ⟨_, rfl, by simp [h2], ?_⟩
    intro j u hu
    cases j with
    | zero =>
      simp only [List.getElem?_cons_zero, Option.some.injEq] at hu
      subst hu
      refine ⟨rfl, ?_⟩
      simp only
      cases n with
      | zero => simp [bottom, slab]; omega
      | succ n => rw [List.range'_succ, List.map_cons]; simp [bottom, slab]; omega
    | succ j =>
      rw [List.getElem?_cons_succ] at hu
      have := h3 j u hu
      omega

end Rerecast
