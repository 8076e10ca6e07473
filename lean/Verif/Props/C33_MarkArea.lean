import Verif.Lemmas.MarkArea
import Verif.Props.C25_C28_Erosion
/-! C33: area volumes. -/
namespace Rerecast
open CompactHeightfield

/-- The outcome of `mark_convex_poly_area`, with the vertical test as the code makes it. -/
private theorem mark_exact {chf : CompactHeightfield} (hwf : chf.WellFormed) {fr : Frame} (hcs : 0 < fr.cellSize)
    (hsz : chf.width * chf.height ≤ 2147483648)
    {lo hi : Rat} {vol : ConvexVolume} (hfin : ∀ v ∈ vol.vertices, (lo ≤ v.x ∧ v.x ≤ hi) ∧ lo ≤ v.y ∧ v.y ≤ hi) :
    ∃ areas, chf.markConvexPolyArea lo hi fr vol = .ok { chf with areas } ∧
      chf.Upd fr vol (ratAsI32 ((vol.minY - fr.aabb.min.y) / fr.cellHeight)) (ratAsI32 ((vol.maxY - fr.aabb.min.y) / fr.cellHeight))
        (fun _ => True) areas := by
  classical
  by_cases hne : vol.vertices = []
  · refine ⟨chf.areas, ?_, rfl, ?_⟩
    · unfold markConvexPolyArea aabb2dFromVerts
      simp [hne]
    · intro i a ha
      rw [ha, if_neg]
      rintro ⟨_, _, _, h⟩
      unfold InsidePoly polySides at h
      rw [hne] at h
      simp at h
  · obtain ⟨mn, mx, hbb, hb⟩ := aabb2d_spec hne hfin
    unfold markConvexPolyArea
    rw [hbb]
    simp only
    generalize ratAsI32 ((vol.minY - fr.aabb.min.y) / fr.cellHeight) = minY
    generalize ratAsI32 ((vol.maxY - fr.aabb.min.y) / fr.cellHeight) = maxY
    -- cells whose centre is inside are in the footprint
    have key : ∀ i < chf.spans.length, InsidePoly (cellCentre fr (chf.xOf i) (chf.zOf i)) vol.vertices →
        (ratAsI32 ((mn.x - fr.aabb.min.x) / fr.cellSize) ≤ chf.xOf i ∧ (chf.xOf i : Int) ≤ ratAsI32 ((mx.x - fr.aabb.min.x) / fr.cellSize)) ∧
        (ratAsI32 ((mn.y - fr.aabb.min.z) / fr.cellSize) ≤ chf.zOf i ∧ (chf.zOf i : Int) ≤ ratAsI32 ((mx.y - fr.aabb.min.z) / fr.cellSize)) ∧
        chf.xOf i < chf.width ∧ chf.zOf i < chf.height := by
      intro i hi hin
      obtain ⟨hc, _⟩ := col_spec hwf hi
      obtain ⟨hx, hz, _⟩ := col_div hc
      have hx : chf.xOf i < chf.width := hx
      have hz : chf.zOf i < chf.height := hz
      have hxw := hwf.width_u16
      have hzw := hwf.height_u16
      obtain ⟨⟨h1, h2⟩, h3, h4⟩ := inside_bounds hin (fun v hv => (hb v hv).1) (fun v hv => (hb v hv).2)
      simp only [cellCentre] at h1 h2 h3 h4
      refine ⟨⟨(asI32_le (by omega)).2 ?_, (le_asI32 (by omega)).2 (Or.inl ?_)⟩, ⟨(asI32_le (by omega)).2 ?_, (le_asI32 (by omega)).2 (Or.inl ?_)⟩, hx, hz⟩
      · rw [div_lt_iff₀ hcs]; nlinarith
      · rw [le_div_iff₀ hcs]; nlinarith
      · rw [div_lt_iff₀ hcs]; nlinarith
      · rw [le_div_iff₀ hcs]; nlinarith
    generalize ratAsI32 ((mn.x - fr.aabb.min.x) / fr.cellSize) = x0 at *
    generalize ratAsI32 ((mx.x - fr.aabb.min.x) / fr.cellSize) = x1 at *
    generalize ratAsI32 ((mn.y - fr.aabb.min.z) / fr.cellSize) = z0 at *
    generalize ratAsI32 ((mx.y - fr.aabb.min.z) / fr.cellSize) = z1 at *
    split
    · rename_i hout
      refine ⟨chf.areas, rfl, rfl, ?_⟩
      intro i a ha
      have hi : i < chf.spans.length := by rw [← hwf.areas_len]; exact (List.getElem?_eq_some_iff.1 ha).1
      rw [ha, if_neg]
      rintro ⟨_, _, _, h⟩
      have := key i hi h
      omega
    · rename_i hin
      obtain ⟨areas, hok, hu⟩ := markLoop_ok hwf fr vol hne minY maxY hsz (x0 := max x0 0) (x1 := min x1 ((chf.width : Int) - 1))
        (z0 := max z0 0) (z1 := min z1 ((chf.height : Int) - 1)) (by omega) (by omega) (by omega) (by omega)
      rw [hok, bind_ok]
      refine ⟨areas, rfl, hu.1, ?_⟩
      intro i a ha
      have hi : i < chf.spans.length := by rw [← hwf.areas_len]; exact (List.getElem?_eq_some_iff.1 ha).1
      split
      · rename_i h
        exact hu.pos _ _ _ _ ha (by have := key i hi h.2.2.2; omega) h.2
      · rename_i h
        exact hu.neg _ _ _ _ ha fun h' => h ⟨trivial, h'.2⟩

open Classical in
/-- **C33 (partial).** In exact arithmetic, marking an area volume on a well-formed field relabels exactly the walkable spans whose
cell centre is inside the polygon and whose floor is in the volume's vertical range; every other span keeps its area and nothing
else changes.  This holds for every polygon (also empty or outside the grid), provided the volume does not end below the floor of
the field.  Missing: volumes that end less than one cell height below the field; they relabel ground-level spans (`c33_violated`). -/
theorem c33_marks_exactly_partial (chf : CompactHeightfield) (hwf : chf.WellFormed) (hy : ∀ s ∈ chf.spans, s.y ≤ 65535)
    (hsz : chf.width * chf.height ≤ 2147483648) (fr : Frame) (hcs : 0 < fr.cellSize) (hch : 0 < fr.cellHeight)
    (lo hi : Rat) (vol : ConvexVolume) (hfin : ∀ v ∈ vol.vertices, (lo ≤ v.x ∧ v.x ≤ hi) ∧ lo ≤ v.y ∧ v.y ≤ hi)
    (htop : fr.aabb.min.y ≤ vol.maxY ∨ vol.maxY ≤ fr.aabb.min.y - fr.cellHeight) :
    ∃ areas, chf.markConvexPolyArea lo hi fr vol = .ok { chf with areas } ∧ areas.length = chf.areas.length ∧
      ∀ (i : Nat) s a, chf.spans[i]? = some s → chf.areas[i]? = some a →
        areas[i]? = some (if isWalkable a = true ∧ InVolumeRange fr vol s.y ∧
          InsidePoly (cellCentre fr (chf.xOf i) (chf.zOf i)) vol.vertices then vol.area else a) := by
  obtain ⟨areas, hok, hu⟩ := mark_exact hwf hcs hsz hfin
  refine ⟨areas, hok, hu.1, ?_⟩
  intro i s a hs ha
  have hsy := hy s (List.mem_of_getElem? hs)
  have hrange : (ratAsI32 ((vol.minY - fr.aabb.min.y) / fr.cellHeight) ≤ (s.y : Int) ∧ (s.y : Int) ≤ ratAsI32 ((vol.maxY - fr.aabb.min.y) / fr.cellHeight)) ↔
      InVolumeRange fr vol s.y := by
    rw [asI32_le hsy, le_asI32 hsy, div_lt_iff₀ hch, le_div_iff₀ hch, lt_div_iff₀ hch]
    unfold InVolumeRange
    have hs0 : (0 : Rat) ≤ s.y := by positivity
    constructor
    · rintro ⟨h1, h2⟩
      refine ⟨by linarith, ?_⟩
      rcases h2 with h2 | ⟨h2, h3⟩
      · linarith
      · rw [h2]
        rcases htop with h | h
        · push_cast; linarith
        · linarith
    · rintro ⟨h1, h2⟩
      exact ⟨by linarith, Or.inl (by linarith)⟩
  split
  · rename_i h
    exact hu.pos _ _ _ _ ha trivial ⟨h.1, ⟨s, hs, hrange.2 h.2.1⟩, h.2.2⟩
  · rename_i h
    refine hu.neg _ _ _ _ ha ?_
    rintro ⟨_, hw, ⟨s', hs', hr⟩, hin⟩
    rw [hs] at hs'; cases hs'
    exact h ⟨hw, hrange.1 hr, hin⟩

/-- **C33 (idempotence).** Marking the same volume again changes nothing. -/
theorem c33_idempotent (chf : CompactHeightfield) (hwf : chf.WellFormed) (hsz : chf.width * chf.height ≤ 2147483648)
    (fr : Frame) (hcs : 0 < fr.cellSize) (lo hi : Rat) (vol : ConvexVolume)
    (hfin : ∀ v ∈ vol.vertices, (lo ≤ v.x ∧ v.x ≤ hi) ∧ lo ≤ v.y ∧ v.y ≤ hi) (out : CompactHeightfield)
    (hok : chf.markConvexPolyArea lo hi fr vol = .ok out) : out.markConvexPolyArea lo hi fr vol = .ok out := by
  classical
  obtain ⟨areas, h1, hu⟩ := mark_exact hwf hcs hsz hfin
  rw [hok] at h1
  cases h1
  have hwf' : ({ chf with areas } : CompactHeightfield).WellFormed :=
    ⟨hwf.width_u16, hwf.height_u16, hwf.cells_len, by rw [← hwf.areas_len]; exact hu.1, hwf.partition, hwf.con⟩
  obtain ⟨areas', h2, hu'⟩ := mark_exact hwf' hcs hsz hfin
  rw [h2]
  have : areas' = areas := by
    apply List.ext_getElem?
    intro i
    by_cases hi : i < chf.areas.length
    · have ha : chf.areas[i]? = some chf.areas[i] := List.getElem?_eq_getElem hi
      by_cases hm : chf.MarkHit fr vol (ratAsI32 ((vol.minY - fr.aabb.min.y) / fr.cellHeight)) (ratAsI32 ((vol.maxY - fr.aabb.min.y) / fr.cellHeight)) i chf.areas[i]
      · have h3 := hu.pos _ _ _ _ ha trivial hm
        rw [h3]
        by_cases hm' : ({ chf with areas } : CompactHeightfield).MarkHit fr vol (ratAsI32 ((vol.minY - fr.aabb.min.y) / fr.cellHeight))
            (ratAsI32 ((vol.maxY - fr.aabb.min.y) / fr.cellHeight)) i vol.area
        · exact hu'.pos _ _ _ _ h3 trivial hm'
        · exact hu'.neg _ _ _ _ h3 fun h => hm' h.2
      · have h3 := hu.neg _ _ _ _ ha fun h => hm h.2
        rw [h3]
        exact hu'.neg _ _ _ _ h3 fun h => hm h.2
    · rw [List.getElem?_eq_none (by rw [hu'.1]; show areas.length ≤ i; have := hu.1; omega), List.getElem?_eq_none (by have := hu.1; omega)]
  rw [this]

/-- A frame of unit cells. -/
def unitFrame : Frame := ⟨⟨⟨0, 0, 0⟩, ⟨3, 65535, 3⟩⟩, 1, 1⟩

/-- A triangle that contains the centres of cells (0,0), (1,0) and (0,1). -/
def triVolume : ConvexVolume := ⟨[⟨0, 0⟩, ⟨9/4, 0⟩, ⟨0, 9/4⟩], 0, 20, 7⟩

example : flatChf.WellFormed ∧ (∀ s ∈ flatChf.spans, s.y ≤ 65535) ∧
    (∀ v ∈ triVolume.vertices, ((-100 : Rat) ≤ v.x ∧ v.x ≤ 100) ∧ (-100 : Rat) ≤ v.y ∧ v.y ≤ 100) ∧ unitFrame.aabb.min.y ≤ triVolume.maxY ∧
    (flatChf.markConvexPolyArea (-100) 100 unitFrame triVolume).map (·.areas) = .ok [7, 7, 255, 7, 255, 255, 255, 255, 255] :=
  ⟨flatChf_wellFormed, by decide +kernel, by decide +kernel, by decide +kernel, by decide +kernel⟩

/-- Ground-level field: one span at height 0. -/
def groundChf : CompactHeightfield := ⟨1, 1, 10, 1, 0, 0, 0, [⟨0, 1⟩], [⟨0, 0, 0⟩], [], [255]⟩

/-- **C33 is violated.** A volume that lies wholly below the field (its top is half a cell height below the floor) relabels a
ground-level span. -/
theorem c33_violated : ∃ (chf : CompactHeightfield) (fr : Frame) (vol : ConvexVolume), vol.maxY < fr.aabb.min.y ∧
    chf.areas = [255] ∧ (chf.markConvexPolyArea (-100) 100 fr vol).map (·.areas) = .ok [7] :=
  ⟨groundChf, ⟨⟨⟨0, 0, 0⟩, ⟨1, 100, 1⟩⟩, 1, 1⟩, ⟨[⟨0, 0⟩, ⟨1, 0⟩, ⟨1, 1⟩, ⟨0, 1⟩], -10, -1/2, 7⟩, by decide +kernel, by decide +kernel, by decide +kernel⟩

end Rerecast
