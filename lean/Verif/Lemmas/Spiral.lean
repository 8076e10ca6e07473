import Verif.Spec.DetailMesh
import Verif.Lemmas.Outs
import Mathlib.Tactic.Ring
import Mathlib.Algebra.Order.Ring.Int
/-! The spiral of `get_height` visits ring after ring. -/
set_option linter.unusedVariables false
namespace Rerecast
variable {A : Fault → Prop} {F : Type} {o : FloatOps F}

/-- Position and direction of the spiral at cell number `j` of ring `r`. -/
def SpiralAt (r j x z dx dz : Int) : Prop :=
  (j = 0 ∧ x = r ∧ z = 1 - r ∧ dx = 1 ∧ dz = 0) ∨
  (1 ≤ j ∧ j ≤ 2 * r - 1 ∧ x = r ∧ z = j + 1 - r ∧ dx = 0 ∧ dz = 1) ∨
  (2 * r ≤ j ∧ j ≤ 4 * r - 1 ∧ x = 3 * r - 1 - j ∧ z = r ∧ dx = -1 ∧ dz = 0) ∨
  (4 * r ≤ j ∧ j ≤ 6 * r - 1 ∧ x = -r ∧ z = 5 * r - 1 - j ∧ dx = 0 ∧ dz = -1) ∨
  (6 * r ≤ j ∧ j ≤ 8 * r - 1 ∧ x = j + 1 - 7 * r ∧ z = -r ∧ dx = 1 ∧ dz = 0)

theorem spiralMove_at {s : Spiral F} {r j : Int} (hr : 1 ≤ r) (h : SpiralAt r j s.x s.z s.dx s.dz) :
    (j + 1 < 8 * r → SpiralAt r (j + 1) (spiralMove s).x (spiralMove s).z (spiralMove s).dx (spiralMove s).dz) ∧
    (j + 1 = 8 * r → SpiralAt (r + 1) 0 (spiralMove s).x (spiralMove s).z (spiralMove s).dx (spiralMove s).dz) ∧
    (spiralMove s).h = s.h ∧ (spiralMove s).dmin = s.dmin ∧ (spiralMove s).ringStart = s.ringStart ∧ (spiralMove s).ringIters = s.ringIters := by
  obtain ⟨x, z, dx, dz, rs, ri, hh, dm⟩ := s
  unfold SpiralAt at h ⊢
  dsimp only at h
  unfold spiralMove
  dsimp only
  rcases h with ⟨a, b, c, rfl, rfl⟩ | ⟨a, b, c, d, rfl, rfl⟩ | ⟨a, b, c, d, rfl, rfl⟩ | ⟨a, b, c, d, rfl, rfl⟩ | ⟨a, b, c, d, rfl, rfl⟩
  · rw [if_pos (by omega)]
    exact ⟨fun _ => Or.inr (Or.inl ⟨by omega, by omega, by simp only; omega, by simp only; omega, by simp, rfl⟩), fun _ => by omega, rfl, rfl, rfl, rfl⟩
  · by_cases hj : j = 2 * r - 1
    · rw [if_pos (by omega)]
      exact ⟨fun _ => Or.inr (Or.inr (Or.inl ⟨by omega, by omega, by simp only; omega, by simp only; omega, by simp, rfl⟩)), fun _ => by omega,
        rfl, rfl, rfl, rfl⟩
    · rw [if_neg (by omega)]
      exact ⟨fun _ => Or.inr (Or.inl ⟨by omega, by omega, by simp only; omega, by simp only; omega, by simp, rfl⟩), fun _ => by omega, rfl, rfl, rfl, rfl⟩
  · by_cases hj : j = 4 * r - 1
    · rw [if_pos (by omega)]
      exact ⟨fun _ => Or.inr (Or.inr (Or.inr (Or.inl ⟨by omega, by omega, by simp only; omega, by simp only; omega, by simp, rfl⟩))), fun _ => by omega,
        rfl, rfl, rfl, rfl⟩
    · rw [if_neg (by omega)]
      exact ⟨fun _ => Or.inr (Or.inr (Or.inl ⟨by omega, by omega, by simp only; omega, by simp only; omega, by simp, rfl⟩)), fun _ => by omega,
        rfl, rfl, rfl, rfl⟩
  · by_cases hj : j = 6 * r - 1
    · rw [if_pos (by omega)]
      exact ⟨fun _ => Or.inr (Or.inr (Or.inr (Or.inr ⟨by omega, by omega, by simp only; omega, by simp only; omega, by simp, rfl⟩))), fun _ => by omega,
        rfl, rfl, rfl, rfl⟩
    · rw [if_neg (by omega)]
      exact ⟨fun _ => Or.inr (Or.inr (Or.inr (Or.inl ⟨by omega, by omega, by simp only; omega, by simp only; omega, by simp, rfl⟩))), fun _ => by omega,
        rfl, rfl, rfl, rfl⟩
  · rw [if_neg (by omega)]
    exact ⟨fun _ => Or.inr (Or.inr (Or.inr (Or.inr ⟨by omega, by omega, by simp only; omega, by simp only; omega, by simp, rfl⟩))),
      fun _ => Or.inl ⟨rfl, by simp only; omega, by simp only; omega, rfl, rfl⟩, rfl, rfl, rfl, rfl⟩

/-- Ring `r` consists of the cells at distance `r`. -/
theorem ring_iff {r x z : Int} (hr : 1 ≤ r) : (max x.natAbs z.natAbs : Nat) = r.natAbs ↔ ∃ j dx dz, 0 ≤ j ∧ j < 8 * r ∧ SpiralAt r j x z dx dz := by
  constructor
  · intro h
    by_cases h1 : x = r ∧ 1 - r ≤ z
    · by_cases h2 : z = 1 - r
      · exact ⟨0, 1, 0, by omega, by omega, Or.inl ⟨rfl, h1.1, h2, rfl, rfl⟩⟩
      · exact ⟨z - 1 + r, 0, 1, by omega, by omega, Or.inr (Or.inl ⟨by omega, by omega, h1.1, by omega, rfl, rfl⟩)⟩
    · by_cases h2 : z = r
      · exact ⟨3 * r - 1 - x, -1, 0, by omega, by omega, Or.inr (Or.inr (Or.inl ⟨by omega, by omega, by omega, h2, rfl, rfl⟩))⟩
      · by_cases h3 : x = -r
        · exact ⟨5 * r - 1 - z, 0, -1, by omega, by omega, Or.inr (Or.inr (Or.inr (Or.inl ⟨by omega, by omega, h3, by omega, rfl, rfl⟩)))⟩
        · exact ⟨x + 7 * r - 1, 1, 0, by omega, by omega, Or.inr (Or.inr (Or.inr (Or.inr ⟨by omega, by omega, by omega, by omega, rfl, rfl⟩)))⟩
  · rintro ⟨j, dx, dz, h1, h2, h | h | h | h | h⟩ <;> omega

/-- The position in a ring is determined by the number. -/
theorem spiralAt_inj {r j x z dx dz x' z' dx' dz' : Int} (hr : 1 ≤ r) (h : SpiralAt r j x z dx dz) (h' : SpiralAt r j x' z' dx' dz') :
    x = x' ∧ z = z' := by
  unfold SpiralAt at h h'; omega

section
variable (o) (hp : HeightPatch) (ix iz : Int) (ch fy : F)

/-- The best height among the cells satisfying `V`. -/
def RingBest (V : Int → Int → Prop) (s : Spiral F) : Prop :=
  (s.h = UNSET_HEIGHT ∧ s.dmin = o.maxVal ∧ ∀ x z h, V x z → ¬ hp.Has (ix + x) (iz + z) h) ∨
  (∃ x z, V x z ∧ hp.Has (ix + x) (iz + z) s.h ∧ s.dmin = heightError o ch fy s.h ∧
    ∀ x z h, V x z → hp.Has (ix + x) (iz + z) h → o.lt (heightError o ch fy h) s.dmin = false)
end

variable {hp : HeightPatch} {ix iz : Int} {ch fy : F}

theorem dataAt_ok (hlen : hp.width * hp.height ≤ hp.data.length) {x z : Int} (hx : 0 ≤ x) (hxw : x < hp.width) (hz : 0 ≤ z) (hzh : z < hp.height) :
    (x + z * hp.width).toNat < hp.data.length ∧ 0 ≤ x + z * hp.width ∧ hp.dataAt x z = idx hp.data (x + z * hp.width).toNat := by
  have h0 : 0 ≤ x + z * hp.width := add_nonneg hx (mul_nonneg hz (by omega))
  have h1 : x + z * hp.width < hp.width * hp.height := by
    have : z * hp.width ≤ (hp.height - 1) * hp.width := mul_le_mul_of_nonneg_right (by omega) (by omega)
    have e : ((hp.height : Int) - 1) * hp.width = hp.width * hp.height - hp.width := by ring
    rw [e] at this
    omega
  refine ⟨?_, h0, ?_⟩
  · have : ((hp.width * hp.height : Nat) : Int) ≤ hp.data.length := by exact_mod_cast hlen
    push_cast at this
    omega
  · unfold HeightPatch.dataAt idxI
    rw [if_neg (by omega)]

theorem spiralLook_out (hlen : hp.width * hp.height ≤ hp.data.length) (hmax : ∀ h ∈ hp.data, o.lt (heightError o ch fy h) o.maxVal = true)
    (htr : ∀ a b c, o.lt a b = true → o.lt b c = true → o.lt a c = true) (hir : ∀ a, o.lt a a = false) {V : Int → Int → Prop} {s : Spiral F}
    (h : RingBest o hp ix iz ch fy V s) :
    Outs A (spiralLook o hp ix iz ch fy s) fun s' => RingBest o hp ix iz ch fy (fun x z => V x z ∨ (x = s.x ∧ z = s.z)) s' ∧ s'.x = s.x ∧ s'.z = s.z ∧
      s'.dx = s.dx ∧ s'.dz = s.dz ∧ s'.ringStart = s.ringStart ∧ s'.ringIters = s.ringIters := by
  have hnew : (∀ h, ¬ hp.Has (ix + s.x) (iz + s.z) h) → RingBest o hp ix iz ch fy (fun x z => V x z ∨ (x = s.x ∧ z = s.z)) s := by
    intro hno
    rcases h with ⟨h1, h2, h3⟩ | ⟨x, z, h1, h2, h3, h4⟩
    · refine Or.inl ⟨h1, h2, ?_⟩
      rintro x z h (hv | ⟨rfl, rfl⟩)
      · exact h3 x z h hv
      · exact hno h
    · refine Or.inr ⟨x, z, Or.inl h1, h2, h3, ?_⟩
      rintro x z h (hv | ⟨rfl, rfl⟩) hh
      · exact h4 x z h hv hh
      · exact absurd hh (hno h)
  unfold spiralLook
  dsimp only
  split
  · rename_i hc
    obtain ⟨hk, h0, he⟩ := dataAt_ok hlen hc.1 hc.2.2.1 hc.2.1 hc.2.2.2
    rw [he, idx_ok hk, bind_ok]
    split
    · rename_i hne
      have hhas : hp.Has (ix + s.x) (iz + s.z) hp.data[(ix + s.x + (iz + s.z) * hp.width).toNat] :=
        ⟨hc.1, hc.2.2.1, hc.2.1, hc.2.2.2, hne, List.getElem?_eq_getElem hk⟩
      have huniq : ∀ h, hp.Has (ix + s.x) (iz + s.z) h → h = hp.data[(ix + s.x + (iz + s.z) * hp.width).toNat] := by
        rintro h ⟨_, _, _, _, _, hh⟩
        rw [List.getElem?_eq_getElem hk] at hh
        exact (Option.some.inj hh).symm
      generalize hp.data[(ix + s.x + (iz + s.z) * hp.width).toNat] = nh at hhas huniq hne ⊢
      split
      · rename_i hlt
        refine Outs.ok ⟨Or.inr ⟨s.x, s.z, Or.inr ⟨rfl, rfl⟩, hhas, rfl, ?_⟩, rfl, rfl, rfl, rfl, rfl, rfl⟩
        dsimp only
        rintro x z h0 (hv | ⟨rfl, rfl⟩) hh
        · rcases h with ⟨h1, h2, h3⟩ | ⟨x', z', h1, h2, h3, h4⟩
          · exact absurd hh (h3 x z _ hv)
          · have := h4 x z _ hv hh
            by_contra hcon
            rw [Bool.not_eq_false] at hcon
            rw [htr _ _ _ hcon hlt] at this
            cases this
        · rw [huniq h0 hh]; exact hir _
      · rename_i hlt
        refine Outs.ok ⟨?_, rfl, rfl, rfl, rfl, rfl, rfl⟩
        rcases h with ⟨h1, h2, h3⟩ | ⟨x', z', h1, h2, h3, h4⟩
        · rw [h2] at hlt
          exact absurd (hmax nh (List.mem_of_getElem? hhas.2.2.2.2.2)) hlt
        · refine Or.inr ⟨x', z', Or.inl h1, h2, h3, ?_⟩
          rintro x z h (hv | ⟨rfl, rfl⟩) hh
          · exact h4 x z h hv hh
          · rw [huniq h hh]
            exact Bool.eq_false_iff.2 hlt
    · rename_i hne
      refine Outs.ok ⟨hnew ?_, rfl, rfl, rfl, rfl, rfl, rfl⟩
      rintro h ⟨_, _, _, _, h5, h6⟩
      rw [List.getElem?_eq_getElem hk] at h6
      have := Option.some.inj h6
      exact h5 (this ▸ not_not.1 hne)
  · rename_i hc
    refine Outs.ok ⟨hnew ?_, rfl, rfl, rfl, rfl, rfl, rfl⟩
    rintro h ⟨h1, h2, h3, h4, _⟩
    exact hc ⟨h1, h3, h2, h4⟩

theorem RingBest.congr {V W : Int → Int → Prop} {s : Spiral F} (h : RingBest o hp ix iz ch fy V s) (hvw : ∀ x z, V x z ↔ W x z) :
    RingBest o hp ix iz ch fy W s := by
  have : V = W := by funext x z; exact propext (hvw x z)
  rwa [← this]

/-- The cells visited in ring `r` before number `j`. -/
def Visited (r j : Nat) (x z : Int) : Prop := ∃ (k : Nat) (dx dz : Int), k < j ∧ SpiralAt r k x z dx dz

/-- `rem r k`: number of cells in the `k` rings from ring `r` on. -/
def ringCells (r : Nat) : Nat → Nat
  | 0 => 0
  | k + 1 => 8 * r + ringCells (r + 1) k

theorem ringCells_eq (k : Nat) : ∀ r, 1 ≤ r → ringCells r k = (2 * (r + k) - 1) * (2 * (r + k) - 1) - (2 * r - 1) * (2 * r - 1) := by
  induction k with
  | zero => intro r _; simp [ringCells]
  | succ k ih =>
    intro r hr
    unfold ringCells
    rw [ih (r + 1) (by omega)]
    obtain ⟨q, rfl⟩ : ∃ q, r = q + 1 := ⟨r - 1, by omega⟩
    rw [show 2 * (q + 1 + 1 + k) - 1 = 2 * q + 2 * k + 3 by omega, show 2 * (q + 1 + 1) - 1 = 2 * q + 3 by omega,
      show 2 * (q + 1 + (k + 1)) - 1 = 2 * q + 2 * k + 3 by omega, show 2 * (q + 1) - 1 = 2 * q + 1 by omega]
    have e1 : (2 * q + 3) * (2 * q + 3) = (2 * q + 1) * (2 * q + 1) + 8 * (q + 1) := by ring
    have e2 : (2 * q + 2 * k + 3) * (2 * q + 2 * k + 3) = (2 * q + 3) * (2 * q + 3) + (8 * q * k + 4 * k * k + 12 * k) := by ring
    omega

/-- The loop looks at ring after ring, and stops after the first one with a height. -/
theorem spiralLoop_out (hlen : hp.width * hp.height ≤ hp.data.length) (hmax : ∀ h ∈ hp.data, o.lt (heightError o ch fy h) o.maxVal = true)
    (htr : ∀ a b c, o.lt a b = true → o.lt b c = true → o.lt a c = true) (hir : ∀ a, o.lt a a = false) :
    ∀ (n r k j i : Nat) (s : Spiral F), 1 ≤ r → j < 8 * r → n + j = 8 * r + ringCells (r + 1) k → s.ringStart + j = i + 8 * r → s.ringIters = 8 * (r + 1) →
    SpiralAt r j s.x s.z s.dx s.dz → RingBest o hp ix iz ch fy (Visited r j) s →
    (∀ x z h, hp.Has (ix + x) (iz + z) h → r ≤ max x.natAbs z.natAbs) →
    Outs A (spiralLoop o hp ix iz ch fy n i s) fun h =>
      (∃ x z, hp.Has (ix + x) (iz + z) h ∧ max x.natAbs z.natAbs ≤ r + k ∧ ∀ x' z' h', hp.Has (ix + x') (iz + z') h' →
        max x.natAbs z.natAbs ≤ max x'.natAbs z'.natAbs ∧ (max x'.natAbs z'.natAbs = max x.natAbs z.natAbs →
          o.lt (heightError o ch fy h') (heightError o ch fy h) = false)) ∨
      (h = UNSET_HEIGHT ∧ ∀ x z h', hp.Has (ix + x) (iz + z) h' → r + k < max x.natAbs z.natAbs) := by
  intro n
  induction n with
  | zero => intro r k j i s hr hj hn; omega
  | succ n ih =>
    intro r k j i s hr hj hn hrs hri hat hbest hfar
    unfold spiralLoop
    refine (spiralLook_out hlen hmax htr hir hbest).bind ?_
    rintro s' ⟨hb, hx, hz, hdx, hdz, hrs', hri'⟩
    have hvis : ∀ x z, (Visited r j x z ∨ (x = s.x ∧ z = s.z)) ↔ Visited r (j + 1) x z := by
      intro x z
      constructor
      · rintro (⟨q, dx, dz, hq, h⟩ | ⟨rfl, rfl⟩)
        · exact ⟨q, dx, dz, by omega, h⟩
        · exact ⟨j, _, _, by omega, hat⟩
      · rintro ⟨q, dx, dz, hq, h⟩
        rcases Nat.lt_or_ge q j with hlt | hge
        · exact Or.inl ⟨q, dx, dz, hlt, h⟩
        · have : q = j := by omega
          subst this
          exact Or.inr (spiralAt_inj (by omega) h hat)
    have hb := hb.congr hvis
    have hat' : SpiralAt r j s'.x s'.z s'.dx s'.dz := by rw [hx, hz, hdx, hdz]; exact hat
    rw [← hrs'] at hrs
    rw [← hri'] at hri
    by_cases hlast : j + 1 = 8 * r
    · rw [if_pos (by omega)]
      have hring : ∀ x z, Visited r (j + 1) x z ↔ max x.natAbs z.natAbs = r := by
        intro x z
        have := ring_iff (r := r) (x := x) (z := z) (by omega)
        rw [Int.natAbs_natCast] at this
        rw [this, hlast]
        constructor
        · rintro ⟨q, dx, dz, hq, h⟩; exact ⟨q, dx, dz, by omega, by omega, h⟩
        · rintro ⟨q, dx, dz, h0, hq, h⟩
          refine ⟨q.toNat, dx, dz, by omega, ?_⟩
          rwa [Int.toNat_of_nonneg h0]
      have hb := hb.congr hring
      split
      · rename_i hne
        rcases hb with ⟨h1, _⟩ | ⟨x, z, h1, h2, h3, h4⟩
        · exact absurd h1 hne
        · refine Outs.ok (Or.inl ⟨x, z, h2, by omega, ?_⟩)
          intro x' z' h' hh
          have := hfar x' z' h' hh
          refine ⟨by omega, fun he => ?_⟩
          rw [← h3]
          exact h4 x' z' h' (by omega) hh
      · rename_i hne
        rw [not_not] at hne
        rcases hb with ⟨h1, h2, h3⟩ | ⟨x, z, h1, h2, h3, h4⟩
        · have hfar' : ∀ x z h, hp.Has (ix + x) (iz + z) h → r + 1 ≤ max x.natAbs z.natAbs := by
            intro x z h hh
            have := hfar x z h hh
            have : max x.natAbs z.natAbs ≠ r := fun he => h3 x z h he hh
            omega
          have hmv := spiralMove_at (s := s'.nextRing) (by omega) (show SpiralAt r j s'.nextRing.x s'.nextRing.z s'.nextRing.dx s'.nextRing.dz from hat')
          have hunset : (spiralMove s'.nextRing).h = UNSET_HEIGHT := by rw [hmv.2.2.1]; exact h1
          cases k with
          | zero =>
            have hn0 : n = 0 := by unfold ringCells at hn; omega
            subst hn0
            unfold spiralLoop
            refine Outs.ok (Or.inr ⟨hunset, ?_⟩)
            intro x z h' hh
            have := hfar' x z h' hh
            omega
          | succ k =>
            unfold ringCells at hn
            have := ih (r + 1) k 0 (i + 1) (spiralMove s'.nextRing) (by omega) (by omega) (by omega) ?_ ?_ ?_ ?_ hfar'
            · rwa [show r + 1 + k = r + (k + 1) by omega] at this
            · rw [hmv.2.2.2.2.1]
              show s'.ringStart + s'.ringIters + 0 = _
              omega
            · rw [hmv.2.2.2.2.2]
              show s'.ringIters + 8 = _
              omega
            · have := hmv.2.1 (by omega)
              push_cast
              exact this
            · refine Or.inl ⟨hunset, ?_, ?_⟩
              · rw [hmv.2.2.2.1]; exact h2
              · rintro x z h ⟨q, _, _, hq, _⟩; omega
        · exact absurd hne h2.2.2.2.2.1
    · rw [if_neg (by omega)]
      have hmv := spiralMove_at (s := s') (by omega) hat'
      refine ih r k (j + 1) (i + 1) (spiralMove s') hr (by omega) (by omega) ?_ ?_ ?_ ?_ hfar
      · rw [hmv.2.2.2.2.1]; omega
      · rw [hmv.2.2.2.2.2]; exact hri
      · have := hmv.1 (by omega)
        push_cast
        exact this
      · unfold RingBest
        rw [hmv.2.2.1, hmv.2.2.2.1]
        exact hb

theorem clampIndex_out {v lo hi : Int} (h : lo ≤ hi) : clampIndex v lo hi = .ok (max lo (min v hi)) := by
  unfold clampIndex; rw [if_pos h]

theorem getHeight_out {f : Vec3 F} {ics ch : F} {radius : Nat} (hw : 1 ≤ hp.width) (hh : 1 ≤ hp.height) (hlen : hp.width * hp.height ≤ hp.data.length)
    (hR : radius ≤ 32767) (h1R : 1 ≤ radius) (hmax : ∀ h ∈ hp.data, o.lt (heightError o ch f.y h) o.maxVal = true)
    (htr : ∀ a b c, o.lt a b = true → o.lt b c = true → o.lt a c = true) (hir : ∀ a, o.lt a a = false) :
    Outs A (getHeight o f ics ch radius hp) fun h =>
      hp.NearestHeight (fun h' h => o.lt (heightError o ch f.y h') (heightError o ch f.y h) = true) radius (lookupCell o f ics hp) h := by
  unfold getHeight
  dsimp only
  rw [clampIndex_out (by omega), bind_ok, clampIndex_out (by omega), bind_ok]
  show Outs A (do let h ← hp.dataAt (lookupCell o f ics hp).1 (lookupCell o f ics hp).2; _) _
  have hx0 : 0 ≤ (lookupCell o f ics hp).1 := by unfold lookupCell; omega
  have hx1 : (lookupCell o f ics hp).1 < hp.width := by unfold lookupCell; dsimp only; omega
  have hz0 : 0 ≤ (lookupCell o f ics hp).2 := by unfold lookupCell; omega
  have hz1 : (lookupCell o f ics hp).2 < hp.height := by unfold lookupCell; dsimp only; omega
  change Outs A (do
    let h ← hp.dataAt (lookupCell o f ics hp).1 (lookupCell o f ics hp).2
    if h = UNSET_HEIGHT then do
      let n ← spiralCells radius
      spiralLoop o hp (lookupCell o f ics hp).1 (lookupCell o f ics hp).2 ch f.y n 0 ⟨1, 0, 1, 0, 8, 16, h, o.maxVal⟩
    else .ok h) _
  generalize lookupCell o f ics hp = p at *
  obtain ⟨ix, iz⟩ := p
  dsimp only at hx0 hx1 hz0 hz1 ⊢
  obtain ⟨hk, h0, he⟩ := dataAt_ok hlen hx0 hx1 hz0 hz1
  rw [he, idx_ok hk, bind_ok]
  split
  · rename_i hun
    have hsq : (radius * 2 + 1) * (radius * 2 + 1) < 4294967296 := by
      have : (radius * 2 + 1) * (radius * 2 + 1) ≤ 65535 * 65535 := Nat.mul_le_mul (by omega) (by omega)
      omega
    unfold spiralCells
    rw [if_pos hsq, bind_ok]
    have hcells : (radius * 2 + 1) * (radius * 2 + 1) - 1 = 8 * 1 + ringCells (1 + 1) (radius - 1) := by
      have h1 := ringCells_eq (radius - 1 + 1) 1 (by omega)
      unfold ringCells at h1
      rw [h1, show 2 * (1 + (radius - 1 + 1)) - 1 = radius * 2 + 1 by omega]
    have hcenter : ∀ h, ¬ hp.Has ix iz h := by
      rintro h ⟨_, _, _, _, h5, h6⟩
      rw [List.getElem?_eq_getElem hk] at h6
      have := Option.some.inj h6
      exact h5 (this ▸ hun)
    have hloop := spiralLoop_out (A := A) (o := o) (hp := hp) (ix := ix) (iz := iz) (ch := ch) (fy := f.y) hlen hmax htr hir
      ((radius * 2 + 1) * (radius * 2 + 1) - 1) 1 (radius - 1) 0 0 ⟨1, 0, 1, 0, 8, 16, hp.data[(ix + iz * hp.width).toNat], o.maxVal⟩
      (by omega) (by omega) (by omega) rfl rfl (Or.inl ⟨rfl, rfl, rfl, rfl, rfl⟩)
      (Or.inl ⟨hun, rfl, by rintro x z h ⟨q, _, _, hq, _⟩; omega⟩)
      (by
        intro x z h hh
        by_contra hcon
        have hx : x = 0 := by omega
        have hz : z = 0 := by omega
        subst hx; subst hz
        simp only [add_zero] at hh
        exact hcenter h hh)
    refine hloop.mono ?_
    have hcheb : ∀ x z : Int, chebyshev (ix + x, iz + z) (ix, iz) = max x.natAbs z.natAbs := by
      intro x z; unfold chebyshev; dsimp only; omega
    have hcheb' : ∀ x z : Int, chebyshev (x, z) (ix, iz) = max (x - ix).natAbs (z - iz).natAbs := fun x z => rfl
    rintro h (⟨x, z, hhas, hle, hbest⟩ | ⟨hu, hno⟩)
    · refine Or.inl ⟨ix + x, iz + z, hhas, by rw [hcheb]; omega, ?_⟩
      intro x' z' h' hh'
      have := hbest (x' - ix) (z' - iz) h' (by rwa [show ix + (x' - ix) = x' by omega, show iz + (z' - iz) = z' by omega])
      rw [hcheb, hcheb']
      refine ⟨this.1, fun he => ?_⟩
      show ¬ (o.lt (heightError o ch f.y h') (heightError o ch f.y h) = true)
      rw [this.2 he]
      simp
    · refine Or.inr ⟨hu, fun x z h' hh' => ?_⟩
      have := hno (x - ix) (z - iz) h' (by rwa [show ix + (x - ix) = x by omega, show iz + (z - iz) = z by omega])
      rw [hcheb']
      omega
  · rename_i hun
    have hself : chebyshev (ix, iz) (ix, iz) = 0 := by unfold chebyshev; simp
    have hhas : hp.Has ix iz hp.data[(ix + iz * hp.width).toNat] := ⟨hx0, hx1, hz0, hz1, hun, List.getElem?_eq_getElem hk⟩
    refine Outs.ok (Or.inl ⟨ix, iz, hhas, by omega, ?_⟩)
    intro x' z' h' hh'
    refine ⟨by omega, fun he => ?_⟩
    rw [hself] at he
    have hx' : x' = ix := by unfold chebyshev at he; dsimp only at he; omega
    have hz' : z' = iz := by unfold chebyshev at he; dsimp only at he; omega
    subst hx'; subst hz'
    have : h' = hp.data[(x' + z' * hp.width).toNat] := by
      have := hh'.2.2.2.2.2
      rw [List.getElem?_eq_getElem hk] at this
      exact (Option.some.inj this).symm
    rw [this]
    show ¬ (o.lt _ _ = true)
    rw [hir]
    simp

theorem spiralLook_total (hlen : hp.width * hp.height ≤ hp.data.length) (s : Spiral F) :
    Outs A (spiralLook o hp ix iz ch fy s) fun _ => True := by
  unfold spiralLook
  dsimp only
  split
  · rename_i hc
    obtain ⟨hk, h0, he⟩ := dataAt_ok hlen hc.1 hc.2.2.1 hc.2.1 hc.2.2.2
    rw [he, idx_ok hk, bind_ok]
    split
    · split <;> exact Outs.ok trivial
    · exact Outs.ok trivial
  · exact Outs.ok trivial

theorem spiralLoop_total (hlen : hp.width * hp.height ≤ hp.data.length) : ∀ (n i : Nat) (s : Spiral F),
    Outs A (spiralLoop o hp ix iz ch fy n i s) fun _ => True
  | 0, _, _ => Outs.ok trivial
  | n + 1, i, s => by
    unfold spiralLoop
    refine (spiralLook_total hlen s).bind ?_
    intro s' _
    split
    · split
      · exact Outs.ok trivial
      · exact spiralLoop_total hlen n _ _
    · exact spiralLoop_total hlen n _ _

theorem getHeight_total {f : Vec3 F} {ics : F} {radius : Nat} (hw : 1 ≤ hp.width) (hh : 1 ≤ hp.height) (hlen : hp.width * hp.height ≤ hp.data.length)
    (hR : radius ≤ 32767) : Outs A (getHeight o f ics ch radius hp) fun _ => True := by
  unfold getHeight
  dsimp only
  rw [clampIndex_out (by omega), bind_ok, clampIndex_out (by omega), bind_ok]
  obtain ⟨hk, h0, he⟩ := dataAt_ok (x := max 0 (min (o.toI32 (o.floor (o.add (o.mul f.x ics) (o.lit (1 / 100)))) - hp.xmin) ((hp.width : Int) - 1)))
    (z := max 0 (min (o.toI32 (o.floor (o.add (o.mul f.z ics) (o.lit (1 / 100)))) - hp.zmin) ((hp.height : Int) - 1))) hlen
    (by omega) (by omega) (by omega) (by omega)
  rw [he, idx_ok hk, bind_ok]
  split
  · have hsq : (radius * 2 + 1) * (radius * 2 + 1) < 4294967296 := by
      have : (radius * 2 + 1) * (radius * 2 + 1) ≤ 65535 * 65535 := Nat.mul_le_mul (by omega) (by omega)
      omega
    unfold spiralCells
    rw [if_pos hsq, bind_ok]
    exact spiralLoop_total hlen _ _ _
  · exact Outs.ok trivial

end Rerecast
