import Verif.Lemmas.MarkAreaError2
import Verif.Props.C33_MarkArea
/-! C102: area volumes in single precision. -/
namespace Rerecast
open CompactHeightfield

/-- Without rounding, this is the model of C33. -/
theorem c102_unrounded (chf : CompactHeightfield) (lo hi : ℚ) (fr : Frame) (vol : ConvexVolume) :
    chf.markConvexPolyAreaR id lo hi fr vol = chf.markConvexPolyArea lo hi fr vol := rfl

/-- The outcome in terms of a point near the centre, the centre as computed. -/
private theorem marks_point (chf : CompactHeightfield) (hwf : chf.WellFormed) (hy : ∀ s ∈ chf.spans, s.y ≤ 65535) (hsz : chf.width * chf.height ≤ 2147483648)
    (fr : Frame) (M : ℚ) (hfr : fr.Moderate chf.width chf.height M) (vol : ConvexVolume) (hvol : vol.Moderate M)
    (lo hi : ℚ) (hfin : ∀ v ∈ vol.vertices, (lo ≤ v.x ∧ v.x ≤ hi) ∧ lo ≤ v.y ∧ v.y ≤ hi) :
    ∃ areas, chf.markConvexPolyAreaR roundF32 lo hi fr vol = .ok { chf with areas } ∧ areas.length = chf.areas.length ∧
      ∀ (i : Nat) s a, chf.spans[i]? = some s → chf.areas[i]? = some a → ∃ p : V2,
        |p.x - (cellCentre fr (chf.xOf i) (chf.zOf i)).x| ≤ M / 2 ^ 22 ∧ |p.y - (cellCentre fr (chf.xOf i) (chf.zOf i)).y| ≤ M / 2 ^ 22 ∧
        (areas[i]? = some a ∨ areas[i]? = some vol.area) ∧
        (ClearOfOutline (M / 2 ^ 20) p vol.vertices → isWalkable a = true → ClearlyInRange fr vol s.y → InsidePoly p vol.vertices →
          areas[i]? = some vol.area) ∧
        (isWalkable a = false ∨ ClearlyOutOfRange fr vol s.y ∨ (ClearOfOutline (M / 2 ^ 20) p vol.vertices ∧ ¬ InsidePoly p vol.vertices) →
          areas[i]? = some a) := by
  classical
  have hcs : 0 < fr.cellSize := lt_of_lt_of_le (by norm_num) hfr.cellSize.1
  have hch : 0 < fr.cellHeight := lt_of_lt_of_le (by norm_num) hfr.cellHeight.1
  have hM : 1 / 2 ^ 20 ≤ M := hfr.cellSize.1.trans hfr.scale.1
  have hcen : ∀ i < chf.spans.length, (chf.xOf i < chf.width ∧ chf.zOf i < chf.height) := by
    intro i hi
    obtain ⟨hc, _⟩ := col_spec hwf hi
    obtain ⟨hx, hz, _⟩ := col_div hc
    exact ⟨hx, hz⟩
  have hpos : ∀ i < chf.spans.length,
      |(centreR roundF32 fr (chf.xOf i) (chf.zOf i)).x - (cellCentre fr (chf.xOf i) (chf.zOf i)).x| ≤ M / 2 ^ 22 ∧
      |(centreR roundF32 fr (chf.xOf i) (chf.zOf i)).y - (cellCentre fr (chf.xOf i) (chf.zOf i)).y| ≤ M / 2 ^ 22 ∧
      (((chf.xOf i : Nat) : ℚ) ≤ inCellsR roundF32 (centreR roundF32 fr (chf.xOf i) (chf.zOf i)).x fr.aabb.min.x fr.cellSize ∧
        inCellsR roundF32 (centreR roundF32 fr (chf.xOf i) (chf.zOf i)).x fr.aabb.min.x fr.cellSize < (chf.xOf i : Nat) + 1) ∧
      (((chf.zOf i : Nat) : ℚ) ≤ inCellsR roundF32 (centreR roundF32 fr (chf.xOf i) (chf.zOf i)).y fr.aabb.min.z fr.cellSize ∧
        inCellsR roundF32 (centreR roundF32 fr (chf.xOf i) (chf.zOf i)).y fr.aabb.min.z fr.cellSize < (chf.zOf i : Nat) + 1) := by
    intro i hi
    obtain ⟨hx, hz⟩ := hcen i hi
    have h1 := centre_error hx hwf.width_u16 hcs hfr.left hfr.right hM hfr.scale.2
    have h2 := centre_error hz hwf.height_u16 hcs hfr.front hfr.back hM hfr.scale.2
    simp only [centreR, cellCentre, Int.cast_natCast]
    exact ⟨h1.1, h2.1, h1.2, h2.2⟩
  -- the vertical tests
  have hin : ∀ s ∈ chf.spans, ClearlyInRange fr vol s.y → ratAsI32 (inCellsR roundF32 vol.minY fr.aabb.min.y fr.cellHeight) ≤ (s.y : Int) ∧
      (s.y : Int) ≤ ratAsI32 (inCellsR roundF32 vol.maxY fr.aabb.min.y fr.cellHeight) := by
    rintro s hs ⟨h1, h2⟩
    have e1 := abs_le.1 (height_error (v := vol.minY) (m := fr.aabb.min.y) hfr.cellHeight.1)
    have e2 := abs_le.1 (height_error (v := vol.maxY) (m := fr.aabb.min.y) hfr.cellHeight.1)
    unfold heightTolerance at h1 h2
    refine ⟨(asI32_le (hy s hs)).2 ?_, (le_asI32 (hy s hs)).2 (Or.inl ?_)⟩
    · have : (vol.minY - fr.aabb.min.y) / fr.cellHeight + (|vol.minY - fr.aabb.min.y| + fr.cellHeight) / 2 ^ 22 / fr.cellHeight < s.y + 1 := by
        rw [← add_div, div_lt_iff₀ hch]; linarith
      linarith [e1.2]
    · have : (s.y : ℚ) ≤ (vol.maxY - fr.aabb.min.y) / fr.cellHeight - (|vol.maxY - fr.aabb.min.y| + fr.cellHeight) / 2 ^ 22 / fr.cellHeight := by
        rw [← sub_div, le_div_iff₀ hch]; linarith
      linarith [e2.1]
  have hout : ∀ s ∈ chf.spans, ClearlyOutOfRange fr vol s.y → ¬ (ratAsI32 (inCellsR roundF32 vol.minY fr.aabb.min.y fr.cellHeight) ≤ (s.y : Int) ∧
      (s.y : Int) ≤ ratAsI32 (inCellsR roundF32 vol.maxY fr.aabb.min.y fr.cellHeight)) := by
    rintro s hs h ⟨h1, h2⟩
    have e1 := abs_le.1 (height_error (v := vol.minY) (m := fr.aabb.min.y) hfr.cellHeight.1)
    have e2 := abs_le.1 (height_error (v := vol.maxY) (m := fr.aabb.min.y) hfr.cellHeight.1)
    rw [asI32_le (hy s hs)] at h1
    rw [le_asI32 (hy s hs)] at h2
    unfold ClearlyOutOfRange heightTolerance at h
    rcases h with h | ⟨h, h'⟩
    · have : (s.y : ℚ) + 1 ≤ (vol.minY - fr.aabb.min.y) / fr.cellHeight - (|vol.minY - fr.aabb.min.y| + fr.cellHeight) / 2 ^ 22 / fr.cellHeight := by
        rw [← sub_div, le_div_iff₀ hch]; linarith
      linarith [e1.1]
    · have g1 : (vol.maxY - fr.aabb.min.y) / fr.cellHeight + (|vol.maxY - fr.aabb.min.y| + fr.cellHeight) / 2 ^ 22 / fr.cellHeight < s.y := by
        rw [← add_div, div_lt_iff₀ hch]; linarith
      rcases h2 with h2 | ⟨h2, h3⟩
      · linarith [e2.2]
      · rcases h' with h' | h'
        · omega
        · have : (vol.maxY - fr.aabb.min.y) / fr.cellHeight + (|vol.maxY - fr.aabb.min.y| + fr.cellHeight) / 2 ^ 22 / fr.cellHeight ≤ -1 := by
            rw [← add_div, div_le_iff₀ hch]; linarith
          linarith [e2.2]
  by_cases hne : vol.vertices = []
  · refine ⟨chf.areas, ?_, rfl, ?_⟩
    · unfold markConvexPolyAreaR aabb2dFromVerts
      simp [hne]
    · intro i s a hs ha
      have hi : i < chf.spans.length := (List.getElem?_eq_some_iff.1 hs).1
      obtain ⟨p1, p2, _⟩ := hpos i hi
      refine ⟨_, p1, p2, Or.inl ha, fun _ _ _ h => ?_, fun _ => ha⟩
      unfold InsidePoly polySides at h
      rw [hne] at h
      simp at h
  · obtain ⟨mn, mx, hbb, hb⟩ := aabb2d_spec hne hfin
    unfold markConvexPolyAreaR
    rw [hbb]
    simp only
    generalize ratAsI32 (inCellsR roundF32 vol.minY fr.aabb.min.y fr.cellHeight) = minY at *
    generalize ratAsI32 (inCellsR roundF32 vol.maxY fr.aabb.min.y fr.cellHeight) = maxY at *
    have key : ∀ i < chf.spans.length, InsidePoly (centreR roundF32 fr (chf.xOf i) (chf.zOf i)) vol.vertices →
        (ratAsI32 (inCellsR roundF32 mn.x fr.aabb.min.x fr.cellSize) ≤ chf.xOf i ∧ (chf.xOf i : Int) ≤ ratAsI32 (inCellsR roundF32 mx.x fr.aabb.min.x fr.cellSize)) ∧
        (ratAsI32 (inCellsR roundF32 mn.y fr.aabb.min.z fr.cellSize) ≤ chf.zOf i ∧ (chf.zOf i : Int) ≤ ratAsI32 (inCellsR roundF32 mx.y fr.aabb.min.z fr.cellSize)) ∧
        chf.xOf i < chf.width ∧ chf.zOf i < chf.height := by
      intro i hi hin
      obtain ⟨hx, hz⟩ := hcen i hi
      have hxw := hwf.width_u16
      have hzw := hwf.height_u16
      obtain ⟨⟨h1, h2⟩, h3, h4⟩ := inside_bounds hin (fun v hv => (hb v hv).1) (fun v hv => (hb v hv).2)
      obtain ⟨_, _, ⟨c1, c2⟩, c3, c4⟩ := hpos i hi
      refine ⟨⟨(asI32_le (by omega)).2 ?_, (le_asI32 (by omega)).2 (Or.inl ?_)⟩, ⟨(asI32_le (by omega)).2 ?_, (le_asI32 (by omega)).2 (Or.inl ?_)⟩, hx, hz⟩
      · exact lt_of_le_of_lt (inCellsR_mono h1 hcs.le) c2
      · exact c1.trans (inCellsR_mono h2.le hcs.le)
      · exact lt_of_le_of_lt (inCellsR_mono h3 hcs.le) c4
      · exact c3.trans (inCellsR_mono h4.le hcs.le)
    generalize ratAsI32 (inCellsR roundF32 mn.x fr.aabb.min.x fr.cellSize) = x0 at *
    generalize ratAsI32 (inCellsR roundF32 mx.x fr.aabb.min.x fr.cellSize) = x1 at *
    generalize ratAsI32 (inCellsR roundF32 mn.y fr.aabb.min.z fr.cellSize) = z0 at *
    generalize ratAsI32 (inCellsR roundF32 mx.y fr.aabb.min.z fr.cellSize) = z1 at *
    split
    · rename_i hout'
      refine ⟨chf.areas, rfl, rfl, ?_⟩
      intro i s a hs ha
      have hi : i < chf.spans.length := (List.getElem?_eq_some_iff.1 hs).1
      obtain ⟨p1, p2, _⟩ := hpos i hi
      refine ⟨_, p1, p2, Or.inl ha, fun _ _ _ h => ?_, fun _ => ha⟩
      have := key i hi h
      omega
    · rename_i hin'
      obtain ⟨areas, hok, hu⟩ := markLoopR_ok roundF32 hwf fr vol hne minY maxY hsz (x0 := max x0 0) (x1 := min x1 ((chf.width : Int) - 1))
        (z0 := max z0 0) (z1 := min z1 ((chf.height : Int) - 1)) (by omega) (by omega) (by omega) (by omega)
      rw [hok, bind_ok]
      refine ⟨areas, rfl, hu.1, ?_⟩
      intro i s a hs ha
      have hi : i < chf.spans.length := (List.getElem?_eq_some_iff.1 hs).1
      obtain ⟨p1, p2, _⟩ := hpos i hi
      refine ⟨_, p1, p2, ?_, ?_, ?_⟩
      · rw [hu.2 i a ha]
        split
        · exact Or.inr rfl
        · exact Or.inl rfl
      · intro hclear hw hr hins
        refine hu.pos _ _ _ _ _ ha (by have := key i hi hins; omega) ⟨hw, ⟨s, hs, hin s (List.mem_of_getElem? hs) hr⟩, ?_⟩
        rw [pointInPolyR_clear hM hvol hclear, pointInPoly_spec _ hne, decide_eq_true hins]
      · intro h
        refine hu.neg _ _ _ _ _ ha ?_
        rintro ⟨_, hw, ⟨s', hs', hr⟩, hp⟩
        rw [hs] at hs'
        cases hs'
        rcases h with h | h | ⟨hclear, h⟩
        · rw [h] at hw; cases hw
        · exact hout s (List.mem_of_getElem? hs) h hr
        · rw [pointInPolyR_clear hM hvol hclear, pointInPoly_spec _ hne, decide_eq_false h] at hp
          cases hp

/-- **C102.** In single precision, marking an area volume succeeds and changes nothing but areas, and these only to the volume's area.  Rounding does not
matter for spans that are not on the verge: a walkable span gets the area if it is in the vertical range of the volume and the centre of its cell inside the
polygon by more than rounding can do; and it keeps its own if one of the two is not so by more than rounding can do, or if it is not walkable. -/
theorem c102_marks (chf : CompactHeightfield) (hwf : chf.WellFormed) (hy : ∀ s ∈ chf.spans, s.y ≤ 65535) (hsz : chf.width * chf.height ≤ 2147483648)
    (fr : Frame) (M : ℚ) (hfr : fr.Moderate chf.width chf.height M) (vol : ConvexVolume) (hvol : vol.Moderate M)
    (lo hi : ℚ) (hfin : ∀ v ∈ vol.vertices, (lo ≤ v.x ∧ v.x ≤ hi) ∧ lo ≤ v.y ∧ v.y ≤ hi) :
    ∃ areas, chf.markConvexPolyAreaR roundF32 lo hi fr vol = .ok { chf with areas } ∧ areas.length = chf.areas.length ∧
      ∀ (i : Nat) s a, chf.spans[i]? = some s → chf.areas[i]? = some a →
        (areas[i]? = some a ∨ areas[i]? = some vol.area) ∧
        (isWalkable a = true → ClearlyInRange fr vol s.y → SurelyInside fr M (chf.xOf i) (chf.zOf i) vol.vertices → areas[i]? = some vol.area) ∧
        (isWalkable a = false ∨ ClearlyOutOfRange fr vol s.y ∨ SurelyOutside fr M (chf.xOf i) (chf.zOf i) vol.vertices → areas[i]? = some a) := by
  obtain ⟨areas, h1, h2, h3⟩ := marks_point chf hwf hy hsz fr M hfr vol hvol lo hi hfin
  refine ⟨areas, h1, h2, fun i s a hs ha => ?_⟩
  obtain ⟨p, p1, p2, p3, p4, p5⟩ := h3 i s a hs ha
  refine ⟨p3, fun hw hr hin => p4 (hin p p1 p2).1 hw hr (hin p p1 p2).2, ?_⟩
  rintro (h | h | h)
  · exact p5 (Or.inl h)
  · exact p5 (Or.inr (Or.inl h))
  · exact p5 (Or.inr (Or.inr (h p p1 p2)))

/-- Unit cells, up to height 20. -/
def lowFrame : Frame := ⟨⟨⟨0, 0, 0⟩, ⟨3, 20, 3⟩⟩, 1, 1⟩

theorem lowFrame_moderate : lowFrame.Moderate 3 3 32 := by
  have h : ∀ n : Nat, n ≤ 100 → IsF32 (n : ℚ) := fun n hn => by
    have := isF32_int (k := (n : Int)) (by rw [abs_of_nonneg (by omega)]; norm_num; omega)
    simpa using this
  have h0 := h 0 (by omega)
  have h1 := h 1 (by omega)
  norm_num at h0 h1
  refine ⟨⟨h1, h0, h0, h0⟩, ?_, ?_, ?_, ?_, ?_, ?_, ?_, ?_, ?_, ?_⟩ <;> norm_num [lowFrame]

theorem triVolume_moderate : triVolume.Moderate 32 := by
  constructor
  · decide +kernel
  · decide +kernel

/-- The triangle of C33 on the plain: the cell (0, 0) is surely inside, and single precision marks the same cells. -/
example : flatChf.WellFormed ∧ lowFrame.Moderate 3 3 32 ∧ triVolume.Moderate 32 ∧ SurelyInside lowFrame 32 0 0 triVolume.vertices ∧
    ClearlyInRange lowFrame triVolume 5 ∧
    (flatChf.markConvexPolyAreaR roundF32 (-100) 100 lowFrame triVolume).map (·.areas) = .ok [7, 7, 255, 7, 255, 255, 255, 255, 255] := by
  refine ⟨flatChf_wellFormed, lowFrame_moderate, triVolume_moderate, ?_, ?_, by decide +kernel⟩
  · intro p h1 h2
    simp only [cellCentre, lowFrame] at h1 h2
    rw [abs_le] at h1 h2
    norm_num at h1 h2
    obtain ⟨a1, a2⟩ := h1
    obtain ⟨b1, b2⟩ := h2
    constructor
    · intro s hs l l0 l1 hl
      have hs : s ∈ [((⟨0, 9 / 4⟩ : V2), (⟨0, 0⟩ : V2)), (⟨0, 0⟩, ⟨9 / 4, 0⟩), (⟨9 / 4, 0⟩, ⟨0, 9 / 4⟩)] := hs
      simp only [List.mem_cons, List.not_mem_nil, or_false] at hs
      rcases hs with rfl | rfl | rfl
      · dsimp only at hl ⊢
        rw [lt_abs]; right; norm_num at *; linarith
      · dsimp only at hl ⊢
        norm_num at hl
        linarith
      · dsimp only at hl ⊢
        rw [lt_abs]; left; norm_num at *; linarith
    · classical
      have h := pointInPoly_spec p (vs := triVolume.vertices) (by decide)
      by_contra hc
      rw [decide_eq_false hc] at h
      have e : pointInPoly p triVolume.vertices = .ok true := by
        have c1 : ¬ (0 : ℚ) > p.y := by linarith
        have c2 : (9 / 4 : ℚ) > p.y := by linarith
        have c3 : ¬ p.x < 0 := by linarith
        have c4 : p.x < (9 / 4 - 0) * (p.y - 9 / 4) / (0 - 9 / 4) + 0 := by
          rw [show (9 / 4 - 0) * (p.y - 9 / 4) / (0 - 9 / 4) + 0 = 9 / 4 - p.y by ring]
          linarith
        simp [pointInPoly, triVolume, crosses, c1, c2, c3]
        linarith
      rw [h] at e
      cases e
  · unfold ClearlyInRange heightTolerance
    norm_num [lowFrame, triVolume]

/-- Two triangles that make up a larger one: both have the side from (0, 1) to (1.7, 2.7). -/
def leftVolume : ConvexVolume := ⟨[⟨0, 1⟩, ⟨7130317 / 4194304, 11324621 / 4194304⟩, ⟨0, 11324621 / 4194304⟩], 0, 20, 7⟩
def rightVolume : ConvexVolume := ⟨[⟨7130317 / 4194304, 11324621 / 4194304⟩, ⟨0, 1⟩, ⟨3, 1⟩], 0, 20, 7⟩

/-- **C102 (volumes side by side).** On the verge rounding does matter.  Two volumes that share a side can both miss a cell whose centre is on that side:
the place where a side crosses a line of cells depends on the direction of the side.  Without rounding one of the two gets it. -/
theorem c102_gap : ((flatChf.markConvexPolyAreaR roundF32 (-100) 100 lowFrame leftVolume).bind fun chf =>
      (chf.markConvexPolyAreaR roundF32 (-100) 100 lowFrame rightVolume).map (·.areas)) = .ok [255, 255, 255, 7, 7, 7, 7, 255, 255] ∧
    ((flatChf.markConvexPolyArea (-100) 100 lowFrame leftVolume).bind fun chf =>
      (chf.markConvexPolyArea (-100) 100 lowFrame rightVolume).map (·.areas)) = .ok [255, 255, 255, 7, 7, 7, 7, 7, 255] :=
  ⟨by decide +kernel, by decide +kernel⟩

end Rerecast
