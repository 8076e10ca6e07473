import Verif.Lemmas.SimplifySplit
import Verif.Lemmas.RegionsTable
import Verif.Spec.Outline
/-! Removing degenerate segments and the border keeps the distance from the outline. -/
namespace Rerecast

theorem WithinOfSegment.congr {e : Rat} {p a b a' b' : U16Vec3} (h : WithinOfSegment e p a b) (ha : a.xz = a'.xz) (hb : b.xz = b'.xz) :
    WithinOfSegment e p a' b' := by
  unfold U16Vec3.xz at ha hb
  simp only [Prod.mk.injEq] at ha hb
  unfold WithinOfSegment at h ⊢
  rw [← ha.1, ← ha.2, ← hb.1, ← hb.2]
  exact h

theorem WithinOfSegment.at_start {e : Rat} {p a b c : U16Vec3} (h : WithinOfSegment e p a b) (hab : a.xz = b.xz) : WithinOfSegment e p b c := by
  unfold U16Vec3.xz at hab
  simp only [Prod.mk.injEq] at hab
  obtain ⟨l, h0, h1, h⟩ := h
  refine ⟨0, le_refl _, by norm_num, ?_⟩
  rw [hab.1, hab.2] at h
  simp only [sub_self, mul_zero, add_zero, zero_mul] at h ⊢
  exact h

theorem within_erase {e : Rat} {p : U16Vec3} {s : RawContour} {i : Nat} {u v : U16Vec3 × Nat} (hu : s[i]? = some u)
    (hv : s[(i + 1) % s.length]? = some v) (huv : u.1.xz = v.1.xz) (hne : 2 ≤ s.length) (h : WithinOfPolygon e p s) :
    WithinOfPolygon e p (s.eraseIdx i) := by
  have hi := (List.getElem?_eq_some_iff.1 hu).1
  obtain ⟨j, a, b, ha, hb, hw⟩ := h
  have hj := (List.getElem?_eq_some_iff.1 ha).1
  have hlen : (s.eraseIdx i).length = s.length - 1 := List.length_eraseIdx_of_lt hi
  -- the place of `s[k]` in the shorter list
  have place : ∀ k x, s[k]? = some x → k ≠ i → (s.eraseIdx i)[if k < i then k else k - 1]? = some x := by
    intro k x hk hki
    rw [List.getElem?_eraseIdx]
    by_cases hlt : k < i
    · rw [if_pos hlt, if_pos hlt]; exact hk
    · rw [if_neg hlt, if_neg (by omega), show k - 1 + 1 = k by omega]; exact hk
  -- the next one
  have next : ∀ k < s.length, (k + 1) % s.length ≠ i → k ≠ i →
      ((if k < i then k else k - 1) + 1) % (s.length - 1) = if (k + 1) % s.length < i then (k + 1) % s.length else (k + 1) % s.length - 1 := by
    intro k hk h1 h2
    rcases Nat.lt_or_ge (k + 1) s.length with hlt | hge
    · rw [Nat.mod_eq_of_lt hlt] at h1 ⊢
      by_cases hki : k < i
      · rw [if_pos hki, if_pos (by omega), Nat.mod_eq_of_lt (by omega)]
      · rw [if_neg hki, if_neg (by omega), Nat.mod_eq_of_lt (by omega)]; omega
    · have ek : k + 1 = s.length := by omega
      rw [ek, Nat.mod_self] at h1 ⊢
      rw [if_neg (by omega), if_pos (by omega), show k - 1 + 1 = s.length - 1 by omega, Nat.mod_self]
  -- stepping over `i`
  have over : ∀ k < s.length, (k + 1) % s.length = i → k ≠ i →
      ((if k < i then k else k - 1) + 1) % (s.length - 1) = if (i + 1) % s.length < i then (i + 1) % s.length else (i + 1) % s.length - 1 := by
    intro k hk h1 h2
    rcases Nat.lt_or_ge (k + 1) s.length with hlt | hge
    · rw [Nat.mod_eq_of_lt hlt] at h1
      rw [if_pos (by omega)]
      rcases Nat.lt_or_ge (i + 1) s.length with hlt' | hge'
      · rw [Nat.mod_eq_of_lt hlt', if_neg (by omega), Nat.mod_eq_of_lt (by omega)]; omega
      · rw [show i + 1 = s.length by omega, Nat.mod_self, if_pos (by omega), show k + 1 = s.length - 1 by omega, Nat.mod_self]
    · rw [show k + 1 = s.length by omega, Nat.mod_self] at h1
      subst h1
      rw [if_neg (by omega), Nat.mod_eq_of_lt (show 0 + 1 < s.length by omega), if_neg (by omega), show k - 1 + 1 = s.length - 1 by omega, Nat.mod_self]
  have hvi : (i + 1) % s.length ≠ i := by
    intro h
    rcases Nat.lt_or_ge (i + 1) s.length with hlt | hge
    · rw [Nat.mod_eq_of_lt hlt] at h; omega
    · rw [show i + 1 = s.length by omega, Nat.mod_self] at h; omega
  have hv' := place _ _ hv hvi
  by_cases hji : j = i
  · subst hji
    rw [hu] at ha; cases ha
    rw [hv] at hb; cases hb
    have hlt := (List.getElem?_eq_some_iff.1 hv').1
    have hm : ((if (j + 1) % s.length < j then (j + 1) % s.length else (j + 1) % s.length - 1) + 1) % (s.eraseIdx j).length < (s.eraseIdx j).length :=
      Nat.mod_lt _ (by omega)
    exact ⟨_, _, _, hv', List.getElem?_eq_getElem hm, hw.at_start huv⟩
  · have ha' := place _ _ ha hji
    by_cases hni : (j + 1) % s.length = i
    · refine ⟨_, a, v, ha', ?_, ?_⟩
      · rw [hlen, over j hj hni hji]; exact hv'
      · rw [hni, hu] at hb; cases hb
        exact hw.congr rfl huv
    · refine ⟨_, a, b, ha', ?_, hw⟩
      rw [hlen, next j hj hni hji]
      exact place _ _ hb hni

theorem removeDegenerateFrom_length : ∀ (fuel i : Nat) (s out : RawContour), removeDegenerateFrom fuel i s = .ok out → out.length ≤ s.length := by
  intro fuel
  induction fuel with
  | zero =>
    intro i s out h
    unfold removeDegenerateFrom at h
    split at h
    · cases h
    · cases h; exact le_refl _
  | succ fuel ih =>
    intro i s out h
    unfold removeDegenerateFrom at h
    split at h
    · rename_i hi
      obtain ⟨p, hp, h⟩ := bind_inv h
      obtain ⟨q, hq, h⟩ := bind_inv h
      split at h
      · have := ih _ _ _ h
        rw [List.length_eraseIdx_of_lt hi] at this
        omega
      · exact ih _ _ _ h
    · cases h; exact le_refl _

theorem removeDegenerateFrom_within {e : Rat} {p : U16Vec3} : ∀ (fuel i : Nat) (s out : RawContour), removeDegenerateFrom fuel i s = .ok out →
    1 ≤ out.length → WithinOfPolygon e p s → WithinOfPolygon e p out := by
  intro fuel
  induction fuel with
  | zero =>
    intro i s out h _ hw
    unfold removeDegenerateFrom at h
    split at h
    · cases h
    · cases h; exact hw
  | succ fuel ih =>
    intro i s out h h1 hw
    unfold removeDegenerateFrom at h
    split at h
    · rename_i hi
      obtain ⟨u, hu, h⟩ := bind_inv h
      obtain ⟨v, hv, h⟩ := bind_inv h
      split at h
      · rename_i huv
        have hl := removeDegenerateFrom_length _ _ _ _ h
        rw [List.length_eraseIdx_of_lt hi] at hl
        exact ih _ _ _ h h1 (within_erase (idx_eq_ok.1 hu) (idx_eq_ok.1 hv) huv (by omega) hw)
      · exact ih _ _ _ h h1 hw
    · cases h; exact hw

/-- Moving outline and polygon by the border keeps distances, if all of the polygon is beyond the border. -/
theorem within_shift {e : Rat} {p : U16Vec3} {s : RawContour} {b : Nat} (hp : b ≤ p.x ∧ b ≤ p.z) (hs : ∀ v ∈ s, b ≤ v.1.x ∧ b ≤ v.1.z)
    (h : WithinOfPolygon e p s) :
    WithinOfPolygon e { p with x := p.x - b, z := p.z - b } (s.map fun v => ({ v.1 with x := v.1.x - b, z := v.1.z - b }, v.2)) := by
  obtain ⟨j, u, v, hu, hv, l, h0, h1, hw⟩ := h
  refine ⟨j, _, _, by rw [List.getElem?_map, hu]; rfl, by rw [List.length_map, List.getElem?_map, hv]; rfl, l, h0, h1, ?_⟩
  obtain ⟨a1, a2⟩ := hs u (List.mem_of_getElem? hu)
  obtain ⟨b1, b2⟩ := hs v (List.mem_of_getElem? hv)
  dsimp only
  rw [Nat.cast_sub a1, Nat.cast_sub a2, Nat.cast_sub b1, Nat.cast_sub b2, Nat.cast_sub hp.1, Nat.cast_sub hp.2]
  refine le_of_eq_of_le ?_ hw
  ring

/-- The raw vertices of an outline are on the grid. -/
theorem CompactHeightfield.outline_grid {chf : CompactHeightfield} {o : Outline} (ho : chf.IsOutline o) {n : Nat} (hw : chf.width ≤ n) (hh : chf.height ≤ n) : ∀ q ∈ o.raw, OnGrid n q.1 := by
  intro q hq
  obtain ⟨⟨i, d⟩, hside, hr⟩ := forall₂_mem_right ho.raw hq
  obtain ⟨x, z, sp, hat, hxz⟩ := hr.position
  have h1 := hat.1
  have h2 := hat.2.1
  unfold OnGrid
  unfold U16Vec3.xz cornerOf at hxz
  dsimp only at hxz
  split at hxz <;> simp only [Prod.mk.injEq] at hxz <;> omega

end Rerecast
