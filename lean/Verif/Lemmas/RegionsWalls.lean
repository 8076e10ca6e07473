import Verif.Lemmas.RegionsOpen
import Verif.Spec.Joining
/-! The walk around a basin lists the stretches of its wall. -/
namespace Rerecast

/-- On a list without repetitions the last loop of the walk removes the last entry if it is the first, and nothing else. -/
theorem removeAdjacentWalk_eq : ∀ (fuel j : Nat) (c : List Nat), 2 ≤ c.length → c.length ≤ fuel + j → j < c.length →
    (∀ k, j ≤ k → ∀ (h : k + 1 < c.length), c[k] ≠ c[k + 1]) →
    removeAdjacentWalk fuel j c = .ok (if c.head? = c.getLast? then c.dropLast else c)
  | 0, j, c, _, h, hj, _ => by omega
  | fuel + 1, j, c, h2, hf, hj, hd => by
    unfold removeAdjacentWalk
    rw [if_pos hj]
    have hm : (j + 1) % c.length < c.length := Nat.mod_lt _ (by omega)
    rw [idx_some (List.getElem?_eq_getElem hj), bind_ok, idx_some (List.getElem?_eq_getElem hm), bind_ok]
    by_cases hlast : j + 1 < c.length
    · rw [if_neg (by simpa [Nat.mod_eq_of_lt hlast] using hd j le_rfl hlast)]
      exact removeAdjacentWalk_eq fuel (j + 1) c h2 (by omega) hlast fun k hk h => hd k (by omega) h
    · have hje : j = c.length - 1 := by omega
      have hz : (j + 1) % c.length = 0 := by rw [show j + 1 = c.length by omega]; exact Nat.mod_self _
      have hends : (c[j] = c[(j + 1) % c.length]) ↔ c.head? = c.getLast? := by
        have e1 : c[(j + 1) % c.length] = c[0] := by congr 1
        rw [e1, List.head?_eq_getElem?, List.getLast?_eq_getElem?, List.getElem?_eq_getElem (by omega), List.getElem?_eq_getElem (by omega),
          Option.some.injEq]
        subst hje
        exact ⟨fun h => h.symm, fun h => h.symm⟩
      by_cases he : c.head? = c.getLast?
      · rw [if_pos (hends.2 he), if_pos he]
        have e : c.eraseIdx j = c.dropLast := by
          rw [List.eraseIdx_eq_take_drop_succ, List.drop_of_length_le (by omega), List.append_nil, List.dropLast_eq_take, hje]
        rw [e]
        have hlen : c.dropLast.length = j := by rw [List.length_dropLast]; omega
        cases fuel <;> (unfold removeAdjacentWalk; rw [if_neg (by rw [hlen]; exact lt_irrefl _)])
      · rw [if_neg (fun h => he (hends.1 h)), if_neg he]
        cases fuel <;> (unfold removeAdjacentWalk; rw [if_neg (by omega)])

theorem isChain_getElem {c : List Nat} (h : c.IsChain (· ≠ ·)) : ∀ k, ∀ (hk : k + 1 < c.length), c[k] ≠ c[k + 1] := fun k hk =>
  (List.isChain_iff_getElem.1 h) k hk

namespace CompactHeightfield
variable {chf : CompactHeightfield}

section
variable (hwf : chf.WellFormed)
include hwf

theorem labelBehind_across {reg : List Nat} (hr : reg.length = chf.spans.length) {i d v : Nat} (hd : d < 4) (h : chf.LabelBehind reg i d v) :
    chf.across reg i d = v := by
  rcases h with ⟨k, hk, hv⟩ | ⟨hno, rfl⟩
  · rw [across_some ((nbr_iff_link hwf hd).2 hk), List.getD_eq_getElem?_getD, hv]; rfl
  · cases hn : chf.nbr i d with
    | none => exact across_none hn
    | some k => exact absurd ((nbr_iff_link hwf hd).1 hn) (hno k)

theorem outlineLoop_wall {reg : List Nat} (hr : reg.length = chf.spans.length) {a e : Nat × Nat} {n : Nat} {vs : List Nat}
    (hw : chf.WallWalk reg a e n vs) : ∀ (fuel : Nat) (p : WalkPos) (l : List Nat), (p.i, p.dir) = a → p.i < chf.spans.length → p.x = chf.xOf p.i →
      p.z = chf.zOf p.i → p.dir < 4 → p.connections = l ++ [p.current] → 0 < n → n ≤ fuel →
      (∀ m ws, 0 < m → m < n → ¬ chf.WallWalk reg a e m ws) →
      chf.outlineLoop reg e.1 e.2 fuel p = .ok (l ++ vs.destutter' (· ≠ ·) p.current, false) := by
  have hget : ∀ k < chf.spans.length, reg[k]? = some (reg.getD k 0) := by
    intro k hk
    rw [List.getD_eq_getElem?_getD, List.getElem?_eq_getElem (by rw [hr]; exact hk)]; rfl
  induction hw with
  | done => intro _ _ _ _ _ _ _ _ _ h; omega
  | @turn i d v e n vs hv hne hw ih =>
    intro fuel p l hp hi hx hz hd hc _ hf hfirst
    obtain ⟨x, z, i', dir, cur, con⟩ := p
    simp only [Prod.mk.injEq] at hp hi hx hz hd hc
    obtain ⟨rfl, rfl⟩ := hp
    subst hx hz hc
    obtain ⟨fuel, rfl⟩ : ∃ f, fuel = f + 1 := ⟨fuel - 1, by omega⟩
    have hac := labelBehind_across hwf hr hd hv
    have hsol : chf.across reg i' dir ≠ reg.getD i' 0 := by
      rw [hac]
      intro e'
      exact hne (by rw [hget i' hi, e'])
    have hstep : chf.outlineStep reg ⟨chf.xOf i', chf.zOf i', i', dir, cur, l ++ [cur]⟩ = .ok (some
        (if v ≠ cur then ⟨chf.xOf i', chf.zOf i', i', (dir + 1) % 4, v, l ++ [cur] ++ [v]⟩ else ⟨chf.xOf i', chf.zOf i', i', (dir + 1) % 4, cur, l ++ [cur]⟩)) := by
      unfold outlineStep
      simp only
      rw [isSolidEdge_eq hwf hr hi hd, bind_ok, if_pos (by simpa using hsol), sideReg_eq hwf hr hi hd, bind_ok, hac]
      split <;> rfl
    unfold outlineLoop
    rw [hstep, bind_ok]
    simp only
    have main : ∀ (cur' : Nat) (l' : List Nat), l' ++ vs.destutter' (· ≠ ·) cur' = l ++ (v :: vs).destutter' (· ≠ ·) cur →
        (if e.1 = i' ∧ e.2 = (dir + 1) % 4 then Except.ok (l' ++ [cur'], false)
          else chf.outlineLoop reg e.1 e.2 fuel ⟨chf.xOf i', chf.zOf i', i', (dir + 1) % 4, cur', l' ++ [cur']⟩) =
          Except.ok (l ++ (v :: vs).destutter' (· ≠ ·) cur, false) := by
      intro cur' l' he
      split
      · rename_i hret
        have hn : n = 0 := by
          by_contra hn
          refine hfirst 1 [v] (by omega) (by omega) (WallWalk.turn hv hne ?_)
          have : e = (i', (dir + 1) % 4) := Prod.ext hret.1 hret.2
          rw [this]; exact WallWalk.done
        subst hn
        cases hw
        rw [← he]; rfl
      · rename_i hret
        have hn : 0 < n := by
          rcases Nat.eq_zero_or_pos n with rfl | h
          · cases hw; exact absurd ⟨rfl, rfl⟩ hret
          · exact h
        rw [ih fuel ⟨chf.xOf i', chf.zOf i', i', (dir + 1) % 4, cur', l' ++ [cur']⟩ l' rfl hi rfl rfl (Nat.mod_lt _ (by omega)) rfl hn (by omega)
          fun m ws h1 h2 h3 => hfirst (m + 1) (v :: ws) (by omega) (by omega) (WallWalk.turn hv hne h3), he]
    by_cases hvc : v = cur
    · subst hvc
      simp only [ne_eq, not_true_eq_false, if_false]
      refine main v l ?_
      rw [List.destutter'_cons_neg]
      simp
    · simp only [ne_eq, hvc, not_false_eq_true, if_true]
      refine main v (l ++ [cur]) ?_
      rw [List.destutter'_cons_pos vs (fun h : cur = v => hvc h.symm)]
      simp
  | @cross i d k e n vs hk heq hw ih =>
    intro fuel p l hp hi hx hz hd hc _ hf hfirst
    obtain ⟨x, z, i', dir, cur, con⟩ := p
    simp only [Prod.mk.injEq] at hp hi hx hz hd hc
    obtain ⟨rfl, rfl⟩ := hp
    subst hx hz hc
    obtain ⟨fuel, rfl⟩ : ∃ f, fuel = f + 1 := ⟨fuel - 1, by omega⟩
    have hn := (nbr_iff_link hwf hd).2 hk
    have hkl := nbr_dlt hwf hd hn
    have heq' := heq
    rw [hget k hkl, hget i' hi, Option.some.injEq] at heq'
    unfold outlineLoop
    have hstep : chf.outlineStep reg ⟨chf.xOf i', chf.zOf i', i', dir, cur, l ++ [cur]⟩ = .ok (some
        ⟨chf.xOf k, chf.zOf k, k, (dir + 3) % 4, cur, l ++ [cur]⟩) := by
      unfold outlineStep
      simp only
      rw [isSolidEdge_eq hwf hr hi hd, bind_ok, if_neg (by rw [across_some hn]; simpa using heq'), conNeighbour_eq hwf hi hd, bind_ok, hn]
      rfl
    rw [hstep, bind_ok]
    simp only
    split
    · rename_i hret
      have hn : n = 0 := by
        by_contra hn
        refine hfirst 1 [] (by omega) (by omega) (WallWalk.cross hk heq ?_)
        have : e = (k, (dir + 3) % 4) := Prod.ext hret.1 hret.2
        rw [this]; exact WallWalk.done
      subst hn
      cases hw
      rfl
    · rename_i hret
      have hn : 0 < n := by
        rcases Nat.eq_zero_or_pos n with rfl | h
        · cases hw; exact absurd ⟨rfl, rfl⟩ hret
        · exact h
      exact ih fuel ⟨chf.xOf k, chf.zOf k, k, (dir + 3) % 4, cur, l ++ [cur]⟩ l rfl hkl rfl rfl (Nat.mod_lt _ (by omega)) rfl hn (by omega)
        fun m ws h1 h2 h3 => hfirst (m + 1) ws (by omega) (by omega) (WallWalk.cross hk heq h3)

/-- The west side of the first span of a basin is a side of its wall. -/
theorem first_solid {reg : List Nat} (hr : reg.length = chf.spans.length) {l i : Nat} (hl0 : l ≠ 0) (hri : reg[i]? = some l)
    (hfirst : ∀ k, reg[k]? = some l → i ≤ k) : chf.across reg i 0 ≠ reg.getD i 0 := by
  have hgi : reg.getD i 0 = l := by rw [List.getD_eq_getElem?_getD, hri]; rfl
  cases hnb : chf.nbr i 0 with
  | none => rw [across_none hnb, hgi]; exact fun e => hl0 e.symm
  | some q =>
    rw [across_some hnb, hgi]
    intro e'
    have h1 := nbr_west_lt hwf hnb
    have h2 := hfirst q (by
      rw [List.getD_eq_getElem?_getD] at e'
      cases hq : reg[q]? with
      | none => rw [hq] at e'; exact absurd e'.symm hl0
      | some v => rw [hq] at e'; simpa using e')
    omega

theorem outlineRegions_wall {reg : List Nat} (hr : reg.length = chf.spans.length) {l i n : Nat} {vs : List Nat} (hl0 : l ≠ 0) (hri : reg[i]? = some l)
    (hfirst : ∀ k, reg[k]? = some l → i ≤ k) (hn0 : 0 < n) (hn : n ≤ 40000) (hw : chf.WallWalk reg (i, 0) (i, 0) n vs)
    (hret : ∀ m ws, 0 < m → m < n → ¬ chf.WallWalk reg (i, 0) (i, 0) m ws) :
    chf.outlineRegions reg (chf.xOf i) (chf.zOf i) i 0 = .ok (stretches vs) := by
  have hi : i < chf.spans.length := by rw [← hr]; exact (List.getElem?_eq_some_iff.1 hri).1
  have hs := first_solid hwf hr hl0 hri hfirst
  obtain ⟨vs', rfl⟩ : ∃ vs', vs = chf.across reg i 0 :: vs' := by
    have hgi : reg.getD i 0 = l := by rw [List.getD_eq_getElem?_getD, hri]; rfl
    cases hw with
    | done => omega
    | turn hv _ _ => exact ⟨_, by rw [labelBehind_across hwf hr (by omega) hv]⟩
    | cross hk heq _ =>
      exfalso
      apply hs
      rw [across_some ((nbr_iff_link hwf (by omega)).2 hk), List.getD_eq_getElem?_getD, heq, hri, hgi]; rfl
  unfold outlineRegions
  rw [sideReg_eq hwf hr hi (by omega), bind_ok]
  rw [outlineLoop_wall hwf hr hw 40000 ⟨chf.xOf i, chf.zOf i, i, 0, chf.across reg i 0, [chf.across reg i 0]⟩ [] rfl hi rfl rfl (by simp) rfl hn0 hn hret,
    bind_ok]
  simp only [Bool.false_eq_true, if_false, List.nil_append]
  have e : (chf.across reg i 0 :: vs').destutter' (· ≠ ·) (chf.across reg i 0) = (chf.across reg i 0 :: vs').destutter (· ≠ ·) := by
    rw [List.destutter_cons', List.destutter'_cons_neg]
    simp
  rw [e]
  have hch := isChain_getElem (List.isChain_destutter (R := (· ≠ ·)) (chf.across reg i 0 :: vs'))
  unfold stretches
  generalize (chf.across reg i 0 :: vs').destutter (· ≠ ·) = s at hch
  by_cases h1 : 1 < s.length
  · rw [if_pos (show s.length > 1 from h1), removeAdjacentWalk_eq _ 0 s (by omega) (by omega) (by omega) fun k _ h => hch k h]
    simp only [h1, true_and]
  · rw [if_neg (show ¬ s.length > 1 from h1)]
    simp [h1]

end
end CompactHeightfield
end Rerecast
