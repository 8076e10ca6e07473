import Verif.Lemmas.RegionsWalls
/-! Walking along a wall, as a function: for examples. -/
namespace Rerecast
namespace CompactHeightfield
variable {chf : CompactHeightfield}

/-- Where a walk of `n` steps from side `a.2` of span `a.1` ends, and the labels it comes past. -/
def wallRun (chf : CompactHeightfield) (reg : List Nat) : Nat → Nat × Nat → (Nat × Nat) × List Nat
  | 0, a => (a, [])
  | n + 1, (i, d) =>
    if chf.across reg i d = reg.getD i 0 then
      match chf.nbr i d with
      | some k => wallRun chf reg n (k, (d + 3) % 4)
      | none => ((i, d), [])
    else
      let r := wallRun chf reg n (i, (d + 1) % 4)
      (r.1, chf.across reg i d :: r.2)

section
variable (hwf : chf.WellFormed)
include hwf

theorem run_of_walk {reg : List Nat} (hr : reg.length = chf.spans.length) {a e : Nat × Nat} {n : Nat} {vs : List Nat} (hw : chf.WallWalk reg a e n vs)
    (hd : a.2 < 4) (hi : a.1 < chf.spans.length) : chf.wallRun reg n a = (e, vs) := by
  induction hw with
  | done => rfl
  | @turn i d v e n vs hv hne _ ih =>
    have hi : i < chf.spans.length := hi
    have hd : d < 4 := hd
    have hget : reg[i]? = some (reg.getD i 0) := by
      rw [List.getD_eq_getElem?_getD, List.getElem?_eq_getElem (by rw [hr]; exact hi)]; rfl
    have ha := labelBehind_across hwf hr hd hv
    unfold wallRun
    rw [if_neg (by rw [ha]; intro e; exact hne (by rw [hget, e])), ih (Nat.mod_lt _ (by omega)) hi, ha]
  | @cross i d k e n vs hk he _ ih =>
    have hi : i < chf.spans.length := hi
    have hd : d < 4 := hd
    have hn := (nbr_iff_link hwf hd).2 hk
    unfold wallRun
    rw [if_pos (by rw [across_some hn, List.getD_eq_getElem?_getD, List.getD_eq_getElem?_getD, he]), hn]
    exact ih (Nat.mod_lt _ (by omega)) (nbr_dlt hwf hd hn)

theorem walk_of_run {reg : List Nat} (hr : reg.length = chf.spans.length) : ∀ (n : Nat) (a : Nat × Nat), a.2 < 4 → a.1 < chf.spans.length →
    reg.getD a.1 0 ≠ 0 → chf.WallWalk reg a (chf.wallRun reg n a).1 n (chf.wallRun reg n a).2
  | 0, a, _, _, _ => WallWalk.done
  | n + 1, (i, d), hd, hi, h0 => by
    have hi : i < chf.spans.length := hi
    have hd : d < 4 := hd
    have hget : ∀ k < chf.spans.length, reg[k]? = some (reg.getD k 0) := by
      intro k hk
      rw [List.getD_eq_getElem?_getD, List.getElem?_eq_getElem (by rw [hr]; exact hk)]; rfl
    unfold wallRun
    split
    · rename_i e
      cases hn : chf.nbr i d with
      | none => rw [across_none hn] at e; exact absurd e.symm h0
      | some k =>
        rw [across_some hn] at e
        have hk := nbr_dlt hwf hd hn
        exact WallWalk.cross ((nbr_iff_link hwf hd).1 hn) (by rw [hget k hk, hget i hi, e])
          (walk_of_run hr n _ (Nat.mod_lt _ (by omega)) hk (by show reg.getD k 0 ≠ 0; rw [e]; exact h0))
    · rename_i e
      refine WallWalk.turn ?_ (by rw [hget i hi]; intro e'; exact e (Option.some.inj e').symm) (walk_of_run hr n _ (Nat.mod_lt _ (by omega)) hi h0)
      cases hn : chf.nbr i d with
      | none => exact Or.inr ⟨fun k hk => (by rw [(nbr_iff_link hwf hd).2 hk] at hn; cases hn), across_none hn⟩
      | some k => exact Or.inl ⟨k, (nbr_iff_link hwf hd).1 hn, by rw [hget k (nbr_dlt hwf hd hn), across_some hn]⟩

/-- A run that comes back for the first time shows the wall. -/
theorem wall_of_run {reg : List Nat} (hr : reg.length = chf.spans.length) {l i n : Nat} {vs : List Nat} (hl : l ≠ 0) (hi : reg[i]? = some l)
    (hfirst : ∀ k < i, reg[k]? ≠ some l) (hn0 : 0 < n) (hn : n ≤ 40000) (hrun : chf.wallRun reg n (i, 0) = ((i, 0), vs))
    (hret : ∀ m < n, 0 < m → (chf.wallRun reg m (i, 0)).1 ≠ (i, 0)) : chf.Wall reg l vs := by
  have hil : i < chf.spans.length := by rw [← hr]; exact (List.getElem?_eq_some_iff.1 hi).1
  refine ⟨i, n, hi, fun k hk => ?_, hn0, hn, ?_, fun m ws hm hmn hw => ?_⟩
  · by_contra h; exact hfirst k (by omega) hk
  · have := walk_of_run hwf hr n (i, 0) (by simp) hil (by simp [List.getD_eq_getElem?_getD, hi, hl])
    rwa [hrun] at this
  · have := run_of_walk hwf hr hw (by simp) hil
    exact hret m hmn hm (by rw [this])

theorem wall_unique {reg : List Nat} (hr : reg.length = chf.spans.length) {l : Nat} {vs ws : List Nat} (h : chf.Wall reg l vs) (h' : chf.Wall reg l ws) :
    vs = ws := by
  obtain ⟨i, n, hi, hf, hn0, _, hw, hret⟩ := h
  obtain ⟨j, m, hj, hf', hm0, _, hw', hret'⟩ := h'
  have hij : i = j := Nat.le_antisymm (hf j hj) (hf' i hi)
  subst hij
  have hil : i < chf.spans.length := by rw [← hr]; exact (List.getElem?_eq_some_iff.1 hi).1
  have hnm : n = m := by
    rcases Nat.lt_trichotomy n m with h | h | h
    · exact absurd hw (hret' n vs hn0 h)
    · exact h
    · exact absurd hw' (hret m ws hm0 h)
  subst hnm
  have e1 := run_of_walk hwf hr hw (by simp) hil
  have e2 := run_of_walk hwf hr hw' (by simp) hil
  rw [e1] at e2
  exact (Prod.mk.inj e2).2

end
end CompactHeightfield
end Rerecast
