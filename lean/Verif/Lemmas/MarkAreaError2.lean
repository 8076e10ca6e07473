import Verif.Lemmas.MarkAreaError
import Verif.Spec.MarkAreaRounded
/-! The tests of `mark_convex_poly_area` in single precision. -/
namespace Rerecast

theorem crossesR_eq {p a b : V2} {M : ℚ} (hM : 1 / 2 ^ 20 ≤ M) (ha : |a.x| ≤ M) (hb : |b.x| ≤ M) (hd : a.y = b.y ∨ 1 / 2 ^ 60 ≤ |a.y - b.y|)
    (hclear : ∀ l, 0 ≤ l → l ≤ 1 → b.y + l * (a.y - b.y) = p.y → M / 2 ^ 20 < |b.x + l * (a.x - b.x) - p.x|) :
    crossesR roundF32 p b a = crosses p b a := by
  unfold crossesR crosses
  by_cases hs : (decide (b.y > p.y) != decide (a.y > p.y)) = true
  · rw [hs, Bool.true_and, Bool.true_and, decide_eq_decide]
    have hs' : (b.y > p.y ↔ ¬ a.y > p.y) := by
      revert hs
      by_cases h : b.y > p.y <;> by_cases h' : a.y > p.y <;> simp [h, h']
    obtain ⟨hD, _, t0, t1, _, _⟩ := straddle_between hs'
    have hd' : 1 / 2 ^ 60 ≤ |a.y - b.y| := by
      rcases hd with hd | hd
      · rw [hd, sub_self] at hD; exact absurd rfl hD
      · exact hd
    have herr := crossing_error hM hb ha hd' hs'
    have hc := hclear ((p.y - b.y) / (a.y - b.y)) t0 t1 (by rw [div_mul_cancel₀ _ hD]; ring)
    have e : b.x + (p.y - b.y) / (a.y - b.y) * (a.x - b.x) = (a.x - b.x) * (p.y - b.y) / (a.y - b.y) + b.x := by ring
    rw [e] at hc
    generalize (a.x - b.x) * (p.y - b.y) / (a.y - b.y) + b.x = c at *
    generalize crossingR roundF32 p b a = r at *
    rw [abs_le] at herr
    rcases lt_abs.1 hc with hc | hc
    · exact ⟨fun _ => by linarith, fun _ => by linarith⟩
    · exact ⟨fun _ => by linarith, fun _ => by linarith⟩
  · rw [Bool.not_eq_true] at hs
    rw [hs, Bool.false_and, Bool.false_and]

theorem foldPolyR_congr (p : V2) : ∀ (vs : List V2) (b : Bool) (prev : V2),
    (∀ s ∈ sidesFrom prev vs, crossesR roundF32 p s.2 s.1 = crosses p s.2 s.1) →
    vs.foldl (fun (st : Bool × V2) v => ((if crossesR roundF32 p v st.2 then !st.1 else st.1), v)) (b, prev) =
      vs.foldl (fun (st : Bool × V2) v => ((if crosses p v st.2 then !st.1 else st.1), v)) (b, prev) := by
  intro vs
  induction vs with
  | nil => intro b prev _; rfl
  | cons v vs ih =>
    intro b prev h
    rw [List.foldl_cons, List.foldl_cons]
    rw [sidesFrom] at h
    dsimp only
    have h1 := h (prev, v) (by simp)
    dsimp only at h1
    rw [h1]
    exact ih _ _ fun s hs => h s (by simp [hs])

theorem pointInPolyR_clear {p : V2} {vol : ConvexVolume} {M : ℚ} (hM : 1 / 2 ^ 20 ≤ M) (hvol : vol.Moderate M)
    (hclear : ClearOfOutline (M / 2 ^ 20) p vol.vertices) : pointInPolyR roundF32 p vol.vertices = pointInPoly p vol.vertices := by
  have key : ∀ s ∈ polySides vol.vertices, crossesR roundF32 p s.2 s.1 = crosses p s.2 s.1 := fun s hs =>
    crossesR_eq hM (hvol.bounded _ (mem_polySides hs).1).1 (hvol.bounded _ (mem_polySides hs).2).1 (hvol.sides s hs) (hclear s hs)
  unfold polySides at key
  unfold pointInPolyR pointInPoly
  cases hl : vol.vertices.getLast? with
  | none => rfl
  | some last =>
    rw [hl] at key
    dsimp only at key ⊢
    rw [foldPolyR_congr p _ _ _ key]

/-- One coordinate of a cell's centre, and the cell found for it. -/
theorem centre_error {m cs M : ℚ} {n x : Nat} (hx : x < n) (hn : n ≤ 65535) (hcs : 0 < cs) (hm : |m| ≤ M) (hm' : |m + n * cs| ≤ M) (hM : 1 / 2 ^ 20 ≤ M)
    (hMc : M ≤ 2 ^ 15 * cs) :
    |roundF32 (m + roundF32 (roundF32 ((x : ℚ) + 1 / 2) * cs)) - (m + ((x : ℚ) + 1 / 2) * cs)| ≤ M / 2 ^ 22 ∧
    (x : ℚ) ≤ inCellsR roundF32 (roundF32 (m + roundF32 (roundF32 ((x : ℚ) + 1 / 2) * cs))) m cs ∧
    inCellsR roundF32 (roundF32 (m + roundF32 (roundF32 ((x : ℚ) + 1 / 2) * cs))) m cs < x + 1 := by
  have hhalf : roundF32 ((x : ℚ) + 1 / 2) = (x : ℚ) + 1 / 2 := by
    apply roundF32_self
    refine ⟨2 * x + 1, -1, ?_, by norm_num, ?_⟩
    · rw [abs_of_nonneg (by omega)]; norm_num; omega
    · rw [pow2_eq]; push_cast; norm_num; ring
  rw [hhalf]
  have hxr : (x : ℚ) + 1 ≤ n := by exact_mod_cast hx
  have hnr : (n : ℚ) ≤ 65535 := by exact_mod_cast hn
  have hx0 : (0 : ℚ) ≤ x := by positivity
  have hm1 := abs_le.1 hm
  have hm2 := abs_le.1 hm'
  have hprod : 0 ≤ ((x : ℚ) + 1 / 2) * cs := by positivity
  have hprod' : ((x : ℚ) + 1 / 2) * cs ≤ n * cs := mul_le_mul_of_nonneg_right (by linarith) hcs.le
  have hin : |m + ((x : ℚ) + 1 / 2) * cs| ≤ M := by rw [abs_le]; constructor <;> linarith
  have hP := rnd_err (((x : ℚ) + 1 / 2) * cs)
  rw [abs_of_nonneg hprod] at hP
  have hexp : ((x : ℚ) + 1 / 2) * cs / cs = (x : ℚ) + 1 / 2 := by field_simp
  generalize ((x : ℚ) + 1 / 2) * cs = y at *
  generalize roundF32 y = P at *
  have hC := rnd_err (m + P)
  generalize roundF32 (m + P) = C at *
  have h1 : |C - (m + y)| ≤ |C - (m + P)| + |P - y| := by
    have := abs_sub_le C (m + P) (m + y)
    rwa [add_sub_add_left_eq_sub] at this
  have h2 : |m + P| ≤ |m + y| + |P - y| := by
    have := abs_sub_abs_le_abs_sub (m + P) (m + y)
    rw [add_sub_add_left_eq_sub] at this
    linarith
  have hCerr : |C - (m + y)| ≤ M / 2 ^ 22 := by norm_num at *; linarith
  refine ⟨hCerr, ?_⟩
  have hV := rnd_err (C - m)
  unfold inCellsR
  generalize hVd : roundF32 (C - m) = V at *
  have h3 : |C - m| ≤ y + |C - (m + y)| := by
    have := abs_sub_abs_le_abs_sub (C - m) y
    rw [abs_of_nonneg hprod, show C - m - y = C - (m + y) by ring] at this
    linarith
  have h4 : |V - y| ≤ |V - (C - m)| + |C - (m + y)| := by
    have := abs_sub_le V (C - m) y
    rwa [show C - m - y = C - (m + y) by ring] at this
  have hVy : |V - y| ≤ cs / 16 := by norm_num at *; linarith
  have hT := rnd_err (V / cs)
  generalize roundF32 (V / cs) = T at *
  have h5 : |V / cs - ((x : ℚ) + 1 / 2)| ≤ 1 / 16 := by
    rw [← hexp, ← sub_div, abs_div, abs_of_pos hcs, div_le_iff₀ hcs]
    linarith
  rw [abs_le] at h5
  have h6 : |V / cs| ≤ 65536 := by rw [abs_le]; constructor <;> linarith
  rw [abs_le] at hT
  norm_num at *
  constructor <;> linarith

theorem inCellsR_mono {v w m c : ℚ} (h : v ≤ w) (hc : 0 ≤ c) : inCellsR roundF32 v m c ≤ inCellsR roundF32 w m c := by
  unfold inCellsR
  exact roundF32_mono (div_le_div_of_nonneg_right (roundF32_mono (by linarith)) hc)

/-- A height in voxels. -/
theorem height_error {v m ch : ℚ} (hch : 1 / 2 ^ 20 ≤ ch) : |inCellsR roundF32 v m ch - (v - m) / ch| ≤ (|v - m| + ch) / 2 ^ 22 / ch := by
  have hpos : 0 < ch := lt_of_lt_of_le (by norm_num) hch
  unfold inCellsR
  have h1 := rnd_err (v - m)
  generalize v - m = d at *
  generalize roundF32 d = V at *
  have h2 := rnd_err (V / ch)
  generalize roundF32 (V / ch) = T at *
  have h3 : |V / ch - d / ch| ≤ (|d| / 2 ^ 24 + 1 / 2 ^ 150) / ch := by
    rw [← sub_div, abs_div, abs_of_pos hpos]
    exact div_le_div_of_nonneg_right h1 hpos.le
  have h4 : |V / ch| ≤ |d / ch| + |V / ch - d / ch| := by
    have := abs_sub_abs_le_abs_sub (V / ch) (d / ch)
    linarith
  have h5 : |T - d / ch| ≤ |T - V / ch| + |V / ch - d / ch| := abs_sub_le _ _ _
  have e1 : (|d| / 2 ^ 24 + 1 / 2 ^ 150) / ch = |d| / ch / 2 ^ 24 + 1 / ch / 2 ^ 150 := by field_simp
  have e2 : (|d| + ch) / 2 ^ 22 / ch = |d| / ch / 2 ^ 22 + 1 / 2 ^ 22 := by field_simp
  have e3 : |d / ch| = |d| / ch := by rw [abs_div, abs_of_pos hpos]
  have e4 : 1 / ch ≤ 2 ^ 20 := by
    rw [div_le_iff₀ hpos]
    norm_num at *
    linarith
  rw [e2]
  rw [e1] at h3
  rw [e3] at h4
  have e5 : 0 ≤ |d| / ch := by positivity
  generalize |d| / ch = q at *
  generalize 1 / ch = r at *
  norm_num at *
  linarith

end Rerecast
