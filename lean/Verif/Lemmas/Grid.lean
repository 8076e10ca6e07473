import Verif.Model.Basic
import Verif.Lemmas.Res
import Mathlib.Data.List.Nodup
/-! The double loop over the grid visits every column exactly once. -/
namespace Rerecast

theorem mem_gridCells {w h x z : Nat} : (x, z) ∈ gridCells w h ↔ x < w ∧ z < h := by
  simp [gridCells]; omega

theorem mem_gridCells' {w h} {p : Nat × Nat} : p ∈ gridCells w h ↔ p.1 < w ∧ p.2 < h := by
  obtain ⟨x, z⟩ := p; exact mem_gridCells

theorem gridCells_nodup (w h : Nat) : (gridCells w h).Nodup := by
  unfold gridCells
  rw [List.nodup_flatMap]
  constructor
  · intro z _
    exact List.Nodup.map (fun a b hab => by simpa using hab) List.nodup_range
  · refine List.Pairwise.imp ?_ List.nodup_range
    intro a b hab
    simp only [Function.onFun, List.Disjoint]
    intro p hp hq
    simp at hp hq
    obtain ⟨_, _, rfl⟩ := hp
    obtain ⟨_, _, h⟩ := hq
    simp at h
    exact hab h.2.symm

theorem col_lt {x z w h : Nat} (hx : x < w) (hz : z < h) : x + z * w < w * h := by
  calc x + z * w < w + z * w := by omega
    _ = (z + 1) * w := by rw [Nat.add_mul]; omega
    _ ≤ h * w := Nat.mul_le_mul_right _ hz
    _ = w * h := Nat.mul_comm _ _

theorem col_inj {x z x' z' w : Nat} (hx : x < w) (hx' : x' < w) (h : x + z * w = x' + z' * w) :
    x = x' ∧ z = z' := by
  have e1 : x = x' := by
    have := congrArg (· % w) h
    simp only [Nat.add_mul_mod_self_right, Nat.mod_eq_of_lt hx, Nat.mod_eq_of_lt hx'] at this
    exact this
  subst e1
  have : z * w = z' * w := by omega
  exact ⟨rfl, Nat.eq_of_mul_eq_mul_right (by omega) this⟩

theorem col_div {c w h : Nat} (hc : c < w * h) : c % w < w ∧ c / w < h ∧ c % w + c / w * w = c := by
  have hw : 0 < w := by
    rcases Nat.eq_zero_or_pos w with rfl | h
    · simp at hc
    · exact h
  refine ⟨Nat.mod_lt _ hw, ?_, ?_⟩
  · exact Nat.div_lt_of_lt_mul hc
  · rw [Nat.mul_comm]; exact Nat.mod_add_div c w

theorem col_divmod {x z w : Nat} (hx : x < w) : (x + z * w) % w = x ∧ (x + z * w) / w = z :=
  ⟨by rw [Nat.add_mul_mod_self_right, Nat.mod_eq_of_lt hx],
   by rw [Nat.add_mul_div_right _ _ (by omega), Nat.div_eq_of_lt hx, Nat.zero_add]⟩

/-- The double loop is a single loop over column numbers. -/
theorem gridCells_eq (w h : Nat) : gridCells w h = (List.range (w * h)).map fun c => (c % w, c / w) := by
  induction h with
  | zero => rfl
  | succ h ih =>
    have e : gridCells w (h + 1) = gridCells w h ++ (List.range w).map fun x => (x, h) := by
      simp [gridCells, List.range_succ, List.flatMap_append]
    rw [e, ih, Nat.mul_succ, List.range_add, List.map_append, List.map_map]
    congr 1
    apply List.map_congr_left
    intro x hx
    have hx := List.mem_range.1 hx
    have := col_divmod (z := h) hx
    rw [Nat.add_comm, Nat.mul_comm] at this
    simp [this]

theorem foldlM_map_res {f : σ → β → Res σ} {g : α → β} : ∀ (l : List α) (s : σ),
    (l.map g).foldlM f s = l.foldlM (fun s a => f s (g a)) s
  | [], s => rfl
  | a :: l, s => by
    simp only [List.map_cons, List.foldlM_cons]
    congr 1; funext s'; exact foldlM_map_res l s'

/-- Loop over `0..n`, total correctness with an invariant on the counter. -/
theorem foldlM_range_total {f : σ → Nat → Res σ} (P : Nat → σ → Prop) (n : Nat) (init : σ) (h0 : P 0 init)
    (step : ∀ c < n, ∀ s, P c s → Total (f s c) (P (c + 1))) :
    Total ((List.range n).foldlM f init) (P n) := by
  induction n with
  | zero => exact Total.ok h0
  | succ n ih =>
    rw [List.range_succ, List.foldlM_append]
    refine Total.bind (ih fun c hc => step c (by omega)) ?_
    intro s hs
    simp only [List.foldlM_cons, List.foldlM_nil]
    refine Total.bind (step n (by omega) s hs) ?_
    intro s' hs'
    exact Total.pure hs'

end Rerecast
