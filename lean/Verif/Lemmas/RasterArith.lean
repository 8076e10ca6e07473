import Verif.Lemmas.ClipHull
import Mathlib.Algebra.Order.Field.Basic
import Mathlib.Data.Rat.Floor
/-! Conversions, snapping and bounds used by the rasterizer. -/
set_option linter.unusedVariables false
namespace Rerecast

theorem ratTrunc_nonneg {q : Rat} (h : 0 ≤ q) : ratTrunc q = q.floor := by
  unfold ratTrunc
  rw [Rat.floor_def, Int.tdiv_eq_ediv_of_nonneg (Rat.num_nonneg.2 h)]

theorem ratTrunc_neg (q : Rat) : ratTrunc (-q) = - ratTrunc q := by
  simp [ratTrunc, Int.neg_tdiv]

theorem ratTrunc_int (n : Int) : ratTrunc (n : Rat) = n := by
  simp [ratTrunc]

theorem ratTrunc_le {q : Rat} {n : Int} (hn : 0 ≤ n) (h : q < n + 1) : ratTrunc q ≤ n := by
  rcases le_or_gt 0 q with h0 | h0
  · rw [ratTrunc_nonneg h0]
    have : q.floor < n + 1 := Rat.floor_lt_iff.2 (by push_cast; exact h)
    omega
  · have h1 := ratTrunc_neg (-q)
    rw [neg_neg] at h1
    rw [h1, ratTrunc_nonneg (by linarith)]
    have : (0 : Int) ≤ (-q).floor := Rat.le_floor_iff.2 (by push_cast; linarith)
    omega

theorem le_ratTrunc {q : Rat} {n : Int} (hn : 0 ≤ n) (h : (n : Rat) ≤ q) : n ≤ ratTrunc q := by
  have hn' : (0 : Rat) ≤ n := by exact_mod_cast hn
  rw [ratTrunc_nonneg (by linarith)]
  exact Rat.le_floor_iff.2 h

theorem le_ratTrunc_zero {q : Rat} (h : -1 < q) : 0 ≤ ratTrunc q := by
  rcases le_or_gt 0 q with h0 | h0
  · exact le_ratTrunc (le_refl _) (by push_cast; exact h0)
  · have h1 := ratTrunc_neg (-q)
    rw [neg_neg] at h1
    rw [h1]
    have : ratTrunc (-q) ≤ 0 := ratTrunc_le (le_refl _) (by push_cast; linarith)
    omega

theorem ratTrunc_mul_le {q : Rat} (h : 0 ≤ q) : (ratTrunc q : Rat) ≤ q := by
  rw [ratTrunc_nonneg h]; exact Rat.floor_le q

/-- The vertical snapping: which voxels are produced for the height range `[lo, hi]`. -/
theorem snapSpan_spec (fr : Frame) (lo hi : Rat) (hlh : lo ≤ hi) (hch : 0 < fr.cellHeight)
    (hby0 : 0 ≤ fr.aabb.max.y - fr.aabb.min.y)
    (hby : fr.aabb.max.y - fr.aabb.min.y < 65535 * fr.cellHeight) :
    (snapSpan fr lo hi = .ok none ∧
      (hi - fr.aabb.min.y < 0 ∨ lo - fr.aabb.min.y > fr.aabb.max.y - fr.aabb.min.y)) ∨
    ∃ mn mx, snapSpan fr lo hi = .ok (some (mn, mx)) ∧ mn < mx ∧ mx ≤ 65535 ∧
      (∀ y, lo ≤ y → y ≤ hi → fr.aabb.min.y ≤ y → y ≤ fr.aabb.max.y →
        ∃ v : Nat, mn ≤ v ∧ v < mx ∧ (v : Rat) * fr.cellHeight ≤ y - fr.aabb.min.y ∧
          y - fr.aabb.min.y ≤ ((v : Rat) + 1) * fr.cellHeight) ∧
      (∀ v : Nat, mn ≤ v → v < mx → ∃ y, lo ≤ y ∧ y ≤ hi ∧ fr.aabb.min.y ≤ y ∧ y ≤ fr.aabb.max.y ∧
        (v : Rat) * fr.cellHeight ≤ y - fr.aabb.min.y ∧
          y - fr.aabb.min.y ≤ ((v : Rat) + 1) * fr.cellHeight) := by
  set ch := fr.cellHeight with hchd
  set by_ := fr.aabb.max.y - fr.aabb.min.y with hbyd
  by_cases hout : hi - fr.aabb.min.y < 0 ∨ lo - fr.aabb.min.y > by_
  · left
    refine ⟨?_, hout⟩
    unfold snapSpan
    dsimp only
    rw [← hbyd, if_pos hout]
  · right
    have hin := hout
    push Not at hin
    set a := max (lo - fr.aabb.min.y) 0 with had
    set b := min (hi - fr.aabb.min.y) by_ with hbd
    have ha0 : 0 ≤ a := le_max_right _ _
    have hab : a ≤ b := by
      rw [had, hbd]
      exact max_le (le_min (by linarith) hin.2) (le_min hin.1 hby0)
    have hbby : b ≤ by_ := min_le_right _ _
    have div : ∀ t : Rat, t * (1 / ch) * ch = t := by
      intro t; field_simp
    have lt_of_mul : ∀ s t : Rat, s * ch < t → s < t * (1 / ch) := by
      intro s t h
      rw [mul_one_div, lt_div_iff₀ hch]; exact h
    have le_of_mul : ∀ s t : Rat, s * ch ≤ t → s ≤ t * (1 / ch) := by
      intro s t h
      rw [mul_one_div, le_div_iff₀ hch]; exact h
    have mul_of_le : ∀ s t : Rat, s ≤ t * (1 / ch) → s * ch ≤ t := by
      intro s t h
      rw [mul_one_div, le_div_iff₀ hch] at h; exact h
    have le_of_mul' : ∀ s t : Rat, t ≤ s * ch → t * (1 / ch) ≤ s := by
      intro s t h
      rw [mul_one_div, div_le_iff₀ hch]; exact h
    have mul_of_le' : ∀ s t : Rat, t * (1 / ch) ≤ s → t ≤ s * ch := by
      intro s t h
      rw [mul_one_div, div_le_iff₀ hch] at h; exact h
    set F := (a * (1 / ch)).floor with hF
    set Ce := (b * (1 / ch)).ceil with hC
    have hF0 : 0 ≤ F := Rat.le_floor_iff.2 (by
      push_cast; exact mul_nonneg ha0 (by positivity))
    have hF1 : F < 65535 := Rat.floor_lt_iff.2 (by
      push_cast
      rw [mul_one_div, div_lt_iff₀ hch]
      linarith)
    have hC1 : Ce ≤ 65535 := Rat.ceil_le_iff.2 (by
      push_cast
      apply le_of_mul'
      linarith)
    have hFC : F ≤ Ce := by
      have h1 : (F : Rat) ≤ a * (1 / ch) := Rat.floor_le _
      have h2 : b * (1 / ch) ≤ (Ce : Rat) := Rat.le_ceil
      have h3 : a * (1 / ch) ≤ b * (1 / ch) :=
        mul_le_mul_of_nonneg_right hab (by positivity)
      have : (F : Rat) ≤ Ce := by linarith
      exact_mod_cast this
    have e1 : ratAsI32 ((F : Int) : Rat) = F := by
      unfold ratAsI32; rw [ratTrunc_int]; omega
    have e2 : ratAsI32 ((Ce : Int) : Rat) = Ce := by
      unfold ratAsI32; rw [ratTrunc_int]; omega
    refine ⟨F.toNat, (max (F + 1) (min Ce 65535)).toNat, ?_, by omega, by omega, ?_, ?_⟩
    · unfold snapSpan
      dsimp only
      rw [← hbyd, if_neg hout]
      rw [← hchd, ← had, ← hbd, ← hF, ← hC, e1, e2]
      unfold clampI
      rw [if_pos (by omega), bind_ok]
      have h0 : max 0 (min F 65535) = F := by omega
      rw [h0, if_pos (by omega), bind_ok]
    · intro y h1 h2 h3 h4
      have hay : a ≤ y - fr.aabb.min.y := max_le (by linarith) (by linarith)
      have hyb : y - fr.aabb.min.y ≤ b := le_min (by linarith) (by linarith)
      -- the voxel: the floor of `y`, unless it is the very top
      set G := ((y - fr.aabb.min.y) * (1 / ch)).floor with hG
      have hFG : F ≤ G := Rat.le_floor_iff.2 (by
        have h5 : (F : Rat) ≤ a * (1 / ch) := Rat.floor_le _
        have h6 : a * (1 / ch) ≤ (y - fr.aabb.min.y) * (1 / ch) :=
          mul_le_mul_of_nonneg_right hay (by positivity)
        linarith)
      have hGle : (G : Rat) * ch ≤ y - fr.aabb.min.y := mul_of_le _ _ (Rat.floor_le _)
      have hGlt : y - fr.aabb.min.y ≤ ((G : Rat) + 1) * ch := by
        apply mul_of_le'
        have := Rat.lt_floor_add_one ((y - fr.aabb.min.y) * (1 / ch))
        push_cast at this
        exact le_of_lt this
      have hyC : y - fr.aabb.min.y ≤ (Ce : Rat) * ch := by
        apply mul_of_le'
        have h5 : b * (1 / ch) ≤ (Ce : Rat) := Rat.le_ceil
        have h6 : (y - fr.aabb.min.y) * (1 / ch) ≤ b * (1 / ch) :=
          mul_le_mul_of_nonneg_right hyb (by positivity)
        linarith
      by_cases hlt : G < max (F + 1) (min Ce 65535)
      · refine ⟨G.toNat, by omega, by omega, ?_, ?_⟩
        · have : ((G.toNat : Nat) : Rat) = (G : Rat) := by
            rw [← Int.cast_natCast, Int.toNat_of_nonneg (by omega)]
          rw [this]; exact hGle
        · have : ((G.toNat : Nat) : Rat) = (G : Rat) := by
            rw [← Int.cast_natCast, Int.toNat_of_nonneg (by omega)]
          rw [this]; exact hGlt
      · -- `y` is the upper end and an integer: the voxel below
        have hGC : G = Ce := by
          have : (G : Rat) ≤ Ce := by
            by_contra hc
            push Not at hc
            have := mul_lt_mul_of_pos_right hc hch
            linarith
          have : G ≤ Ce := by exact_mod_cast this
          omega
        refine ⟨(Ce - 1).toNat, by omega, by omega, ?_, ?_⟩
        · have : (((Ce - 1).toNat : Nat) : Rat) = (Ce : Rat) - 1 := by
            rw [← Int.cast_natCast, Int.toNat_of_nonneg (by omega)]; push_cast; ring
          rw [this]
          rw [hGC] at hGle
          nlinarith
        · have : (((Ce - 1).toNat : Nat) : Rat) = (Ce : Rat) - 1 := by
            rw [← Int.cast_natCast, Int.toNat_of_nonneg (by omega)]; push_cast; ring
          rw [this]; linarith
    · intro v h1 h2
      have hvF : F ≤ (v : Int) := by omega
      have hvF' : (F : Rat) ≤ v := by exact_mod_cast hvF
      have ha1 : a < ((F : Rat) + 1) * ch := by
        have := Rat.lt_floor_add_one (a * (1 / ch))
        rw [← hF] at this
        push_cast at this
        rw [mul_one_div, div_lt_iff₀ hch] at this
        exact this
      have hav : a ≤ ((v : Rat) + 1) * ch := by
        have : ((F : Rat) + 1) * ch ≤ ((v : Rat) + 1) * ch :=
          mul_le_mul_of_nonneg_right (by linarith) (le_of_lt hch)
        linarith
      have hvb : (v : Rat) * ch ≤ b := by
        by_cases hc : (v : Int) < Ce
        · apply mul_of_le
          exact le_of_lt (Rat.lt_ceil_iff.1 hc)
        · have hveq : (v : Int) = F := by omega
          have : (v : Rat) = F := by exact_mod_cast hveq
          rw [this]
          have := mul_of_le _ _ (Rat.floor_le (a * (1 / ch)))
          linarith
      set t := max a ((v : Rat) * ch) with ht
      have t1 : a ≤ t := le_max_left _ _
      have t2 : (v : Rat) * ch ≤ t := le_max_right _ _
      have t3 : t ≤ b := max_le hab hvb
      have t4 : t ≤ ((v : Rat) + 1) * ch := max_le hav (by nlinarith)
      have a1 : lo - fr.aabb.min.y ≤ a := le_max_left _ _
      have b1 : b ≤ hi - fr.aabb.min.y := min_le_left _ _
      exact ⟨t + fr.aabb.min.y, by linarith, by linarith, by linarith, by linarith,
        by linarith, by linarith⟩

/-- `bounds` is the exact range of `f` over the listed vertices. -/
theorem bounds_spec {f : V3 Rat → Rat} {buf : List (V3 Rat)} {n : Nat} {L : List (V3 Rat)}
    (hb : Buf buf n L) (hne : L ≠ []) : ∃ lo hi, bounds f buf n = .ok (lo, hi) ∧
      (∀ v ∈ L, lo ≤ f v ∧ f v ≤ hi) ∧ (∃ v ∈ L, f v = lo) ∧ ∃ v ∈ L, f v = hi := by
  have hpos := List.length_pos_iff.2 hne
  have hn : n = L.length := hb.count
  have get : ∀ i, i < n → buf[i]? = L[i]? := by
    intro i hi
    rw [← hb.take, List.getElem?_take, if_pos hi]
  have h0 : buf[0]? = some L[0] := by rw [get 0 (by omega)]; exact List.getElem?_eq_getElem hpos
  unfold bounds
  rw [idx_some h0, bind_ok]
  have key : ∀ k m (mm : Rat × Rat), m + k ≤ n → 1 ≤ m →
      (∀ i < m, ∀ v, L[i]? = some v → mm.1 ≤ f v ∧ f v ≤ mm.2) →
      (∃ v ∈ L, f v = mm.1) → (∃ v ∈ L, f v = mm.2) →
      ∃ lo hi, (List.range' m k).foldlM (fun (mm : Rat × Rat) i => do
        let v ← idx buf i
        (.ok (min mm.1 (f v), max mm.2 (f v)) : Res (Rat × Rat))) mm = .ok (lo, hi) ∧
        (∀ i < m + k, ∀ v, L[i]? = some v → lo ≤ f v ∧ f v ≤ hi) ∧
        (∃ v ∈ L, f v = lo) ∧ ∃ v ∈ L, f v = hi := by
    intro k
    induction k with
    | zero => intro m mm _ _ h1 h2 h3; exact ⟨mm.1, mm.2, rfl, by simpa using h1, h2, h3⟩
    | succ k ih =>
      intro m mm hk hm h1 h2 h3
      have hmL : m < L.length := by omega
      rw [List.range'_succ, List.foldlM_cons, idx_some ((get m (by omega)).trans
        (List.getElem?_eq_getElem hmL)), bind_ok, bind_ok]
      obtain ⟨lo, hi, e, g1, g2, g3⟩ := ih (m + 1) (min mm.1 (f L[m]), max mm.2 (f L[m])) (by omega)
        (by omega) (by
          intro i hi v hv
          by_cases him : i = m
          · subst him
            rw [List.getElem?_eq_getElem hmL] at hv
            cases hv
            exact ⟨min_le_right _ _, le_max_right _ _⟩
          · obtain ⟨k1, k2⟩ := h1 i (by omega) v hv
            exact ⟨le_trans (min_le_left _ _) k1, le_trans k2 (le_max_left _ _)⟩)
        (by
          rcases min_choice mm.1 (f L[m]) with h | h
          · rw [h]; exact h2
          · rw [h]; exact ⟨_, List.getElem_mem hmL, rfl⟩)
        (by
          rcases max_choice mm.2 (f L[m]) with h | h
          · rw [h]; exact h3
          · rw [h]; exact ⟨_, List.getElem_mem hmL, rfl⟩)
      exact ⟨lo, hi, e, by
        intro i hi; exact g1 i (by omega), g2, g3⟩
  obtain ⟨lo, hi, e, g1, g2, g3⟩ := key (n - 1) 1 (f L[0], f L[0]) (by omega) (le_refl _)
    (by
      intro i hi v hv
      have : i = 0 := by omega
      subst this
      rw [List.getElem?_eq_getElem hpos] at hv
      cases hv
      exact ⟨le_refl _, le_refl _⟩)
    ⟨_, List.getElem_mem hpos, rfl⟩ ⟨_, List.getElem_mem hpos, rfl⟩
  refine ⟨lo, hi, e, ?_, g2, g3⟩
  intro v hv
  obtain ⟨i, hi, rfl⟩ := List.getElem_of_mem hv
  exact g1 i (by omega) _ (List.getElem?_eq_getElem hi)

end Rerecast
