import Verif.Props.C50_C69_DetailMesh
import Mathlib.Tactic.Linarith
import Mathlib.Tactic.Ring
import Mathlib.Tactic.FieldSimp
import Mathlib.Tactic.Positivity
/-!
C70: the sampling error of the detail mesh.  C71: the distances it is measured with, in exact arithmetic.
-/
set_option linter.unusedVariables false
namespace Rerecast
variable {F : Type}

/-- Exact arithmetic is ordered. -/
theorem exactOps_order : FloatOrder exactOps := by
  refine ⟨fun a => ?_, fun a b c h1 h2 => ?_, fun a b c h => ?_, fun a b => ?_⟩ <;> simp only [exactOps, decide_eq_true_eq, decide_eq_false_iff_not] at *
  · exact lt_irrefl a
  · exact lt_trans h1 h2
  · rcases lt_or_ge a b with h' | h'
    · exact Or.inl h'
    · exact Or.inr (lt_of_le_of_lt h' h)
  · exact not_lt.symm

/-! ### C70 -/

/-- **C70.** The detail mesh follows the sampled heights: for every polygon there are the polygon's height patch and the vertices and triangles made with it such that
each side is sampled in as many steps as the sample distance asks for (at most 31, or as there is space for), and every sample not
kept is, as computed, within the error of the line between the kept ones next to it; and unless the polygon is narrow or
the limits on vertices or triangles are reached, every point of the sample grid inside the polygon is a vertex or,
as computed, within the error of the triangles. -/
theorem c70_error_bound (o : FloatOps F) (ho : FloatOrder o) (alloc : Allocator) (c : DetailConfig F) (mesh : PolygonNavmesh) (chf : CompactHeightfield)
    (hwf : chf.WellFormed) (hw : 1 ≤ chf.width) (hh : 1 ≤ chf.height) (hy : ∀ s ∈ chf.spans, s.y ≠ 0xFFFF) (hin : DetailInput mesh chf c.borderSize)
    (hR : c.radius o ≤ 32767) (hst : SidesCountable o c mesh) (dm : DetailNavmesh F) (hdm : detailNavmesh o alloc c mesh chf = .ok dm)
    (i : Nat) (m : SubMesh) (hm : dm.meshes[i]? = some m) :
    ∃ vs region hp verts tris flags, List.Forall₂ (fun k v => mesh.vertices[k]? = some v) (mesh.polygon i) vs ∧
      mesh.regions[i]? = some region ∧ IsPatch chf c.borderSize region vs hp ∧
      dm.part m = ((verts.take m.vertexCount).map (worldPos o c), tris, flags) ∧
      ∃ hull k, IsOutline o c hp verts (vs.map (cornerPos o c)) k hull ∧ k ≤ m.vertexCount ∧
        ((∃ ext, polyMinExtent o (vs.map (cornerPos o c)) vs.length = .ok ext ∧
            o.lt ext (o.mul (o.mul c.sampleDist (o.lit 2)) (o.mul c.sampleDist (o.lit 2))) = true) ∨
          (m.vertexCount < 127 → m.triangleCount < 255 →
            ∃ num : Int × Int → Nat, ∀ g h, InGrid o c hp (vs.map (cornerPos o c)) g h →
              (∃ v, k ≤ v ∧ v < m.vertexCount ∧ verts[v]? = some (jittered o c g h (num g))) ∨
              ∀ e, distToTriMesh o (jittered o c g h (num g)) verts tris = .ok (some e) →
                ¬ (o.lt (o.lit 0) e = true ∧ o.lt c.sampleMaxError e = true))) := by
  obtain ⟨vs, region, hp, d, h1, h2, h3, h4, h5, h6, h7⟩ := (c66_tables o alloc c mesh chf hwf hw hh hy hin hR hst dm hdm).parts i m hm
  obtain ⟨hull, k, g1, g2, g3, g4, g5, g6, g7, _⟩ := h4.outline
  refine ⟨vs, region, hp, d.verts, d.tris, d.flags, h1, h2, h3, by rw [h6]; exact h5, hull, k, g1, by rw [h6]; exact g2, ?_⟩
  rw [List.length_map] at g7
  rw [h6, h7]
  refine g7.imp_right fun g7 l1 l2 => ?_
  obtain ⟨num, _, hnum⟩ := g7 l1 l2 ho
  exact ⟨num, hnum⟩

/-- A bump in the middle of 5 × 5 columns. -/
def bumpPatch : HeightPatch := ⟨[0, 0, 0, 0, 0, 0, 0, 0, 0, 0, 0, 0, 6, 0, 0, 0, 0, 0, 0, 0, 0, 0, 0, 0, 0], 0, 0, 5, 5⟩
/-- A ridge across 5 × 5 columns. -/
def ridgePatch : HeightPatch := ⟨[0, 0, 6, 0, 0, 0, 0, 6, 0, 0, 0, 0, 6, 0, 0, 0, 0, 6, 0, 0, 0, 0, 6, 0, 0], 0, 0, 5, 5⟩

/-- A bump in the interior makes an interior vertex, a ridge makes vertices on the sides. -/
example : let square := [⟨0, 0, 0⟩, ⟨0, 0, 4⟩, ⟨4, 0, 4⟩, ⟨4, 0, 0⟩]
    let c : DetailConfig Rat := ⟨1, 1 / 2, ⟨10, 0, 20⟩, 1, 1, 1 / 2, 2, 1, 0⟩
    (buildPolyDetail exactOps c bumpPatch square (List.replicate 256 (Vec3.zero exactOps))).map (fun d => (d.tris, (d.verts.take d.nverts).drop 4)) =
      .ok ([(2, 3, 4), (3, 0, 4), (0, 1, 4), (1, 2, 4)], [⟨19 / 10, 3, 19 / 10⟩]) ∧
    (buildPolyDetail exactOps c ridgePatch square (List.replicate 256 (Vec3.zero exactOps))).map (fun d => (d.tris, (d.verts.take d.nverts).drop 4)) =
      .ok ([(3, 4, 2), (4, 5, 2), (4, 1, 5), (4, 0, 1)], [⟨8 / 3, 3, 0⟩, ⟨8 / 3, 3, 4⟩]) := by
  decide +kernel

/-! ### C71 -/

/-- The squared distance of `p` from the point `t` of the way from `a` to `b`, in the plane. -/
def planeDistSq (p a b : Vec3 Rat) (t : Rat) : Rat :=
  (a.x + t * (b.x - a.x) - p.x) ^ 2 + (a.z + t * (b.z - a.z) - p.z) ^ 2
/-- The same in space. -/
def spaceDistSq (p a b : Vec3 Rat) (t : Rat) : Rat :=
  (a.x + t * (b.x - a.x) - p.x) ^ 2 + (a.y + t * (b.y - a.y) - p.y) ^ 2 + (a.z + t * (b.z - a.z) - p.z) ^ 2

/-- A convex quadratic is least at its vertex, clamped. -/
theorem quad_clamp (D T C : Rat) (hD : 0 ≤ D) (hT : D = 0 → T = 0) :
    ∃ s, (if (if 0 < D then T / D else T) < 0 then 0 else if 1 < (if 0 < D then T / D else T) then 1 else if 0 < D then T / D else T) = s ∧
      0 ≤ s ∧ s ≤ 1 ∧ ∀ t : Rat, 0 ≤ t → t ≤ 1 → s * s * D - 2 * s * T + C ≤ t * t * D - 2 * t * T + C := by
  refine ⟨_, rfl, ?_⟩
  rcases hD.lt_or_eq with hpos | hzero
  · simp only [if_pos hpos]
    obtain ⟨r, hr⟩ : ∃ r, r = T / D := ⟨_, rfl⟩
    have hTr : T = r * D := by rw [hr]; field_simp
    rw [← hr, hTr]
    split
    · refine ⟨le_refl _, by norm_num, fun t h0 h1 => ?_⟩
      rename_i hneg
      nlinarith [mul_nonneg h0 hpos.le, mul_nonneg (mul_nonneg h0 h0) hpos.le, mul_nonneg (mul_nonneg h0 (neg_pos.2 hneg).le) hpos.le]
    · split
      · refine ⟨by norm_num, le_refl _, fun t h0 h1 => ?_⟩
        rename_i _ hgt
        have e : t * t * D - 2 * t * (r * D) + C - (1 * 1 * D - 2 * 1 * (r * D) + C) = D * ((1 - t) * ((r - 1) + (r - t))) := by ring
        have : 0 ≤ D * ((1 - t) * ((r - 1) + (r - t))) := mul_nonneg hpos.le (mul_nonneg (by linarith) (by linarith))
        linarith
      · rename_i h0 h1
        refine ⟨by linarith, by linarith, fun t _ _ => ?_⟩
        have e : t * t * D - 2 * t * (r * D) + C - (r * r * D - 2 * r * (r * D) + C) = D * (t - r) ^ 2 := by ring
        have : 0 ≤ D * (t - r) ^ 2 := mul_nonneg hpos.le (sq_nonneg _)
        linarith
  · have hT0 := hT hzero.symm
    subst hT0
    rw [← hzero]
    norm_num

/-- **C71 (segments).** The computed squared distance of a point from a segment is, without rounding, the least squared distance from the points of the
segment: in the plane. -/
theorem c71_distance_plane (p a b : Vec3 Rat) :
    (∃ t, 0 ≤ t ∧ t ≤ 1 ∧ distPtSeg2 exactOps p a b = planeDistSq p a b t) ∧
      ∀ t, 0 ≤ t → t ≤ 1 → distPtSeg2 exactOps p a b ≤ planeDistSq p a b t := by
  obtain ⟨D, hDdef⟩ : ∃ D, D = (b.x - a.x) * (b.x - a.x) + (b.z - a.z) * (b.z - a.z) := ⟨_, rfl⟩
  obtain ⟨T, hTdef⟩ : ∃ T, T = (b.x - a.x) * (p.x - a.x) + (b.z - a.z) * (p.z - a.z) := ⟨_, rfl⟩
  obtain ⟨C, hCdef⟩ : ∃ C, C = (a.x - p.x) ^ 2 + (a.z - p.z) ^ 2 := ⟨_, rfl⟩
  have hD : 0 ≤ D := by rw [hDdef]; nlinarith [mul_self_nonneg (b.x - a.x), mul_self_nonneg (b.z - a.z)]
  have hT : D = 0 → T = 0 := by
    intro h0
    rw [hDdef] at h0
    have h1 : b.x - a.x = 0 := mul_self_eq_zero.1 (by nlinarith [mul_self_nonneg (b.x - a.x), mul_self_nonneg (b.z - a.z)])
    have h2 : b.z - a.z = 0 := mul_self_eq_zero.1 (by nlinarith [mul_self_nonneg (b.x - a.x), mul_self_nonneg (b.z - a.z)])
    rw [hTdef, h1, h2]; ring
  obtain ⟨s, hs, h0, h1, hmin⟩ := quad_clamp D T C hD hT
  have key : ∀ t, planeDistSq p a b t = t * t * D - 2 * t * T + C := by
    intro t; unfold planeDistSq; rw [hDdef, hTdef, hCdef]; ring
  have hval : distPtSeg2 exactOps p a b = planeDistSq p a b s := by
    unfold distPtSeg2 planeDistSq
    simp only [exactOps, Vec3.sub, Vec3.add, Vec3.scale, Vec3.dotXZ, decide_eq_true_eq]
    rw [← hDdef, ← hTdef, hs]
    ring
  refine ⟨⟨s, h0, h1, hval⟩, fun t ht0 ht1 => ?_⟩
  rw [hval, key, key]
  exact hmin t ht0 ht1

/-- **C71 (segments).** The same in space. -/
theorem c71_distance_space (p a b : Vec3 Rat) :
    (∃ t, 0 ≤ t ∧ t ≤ 1 ∧ distPtSeg3 exactOps p a b = spaceDistSq p a b t) ∧
      ∀ t, 0 ≤ t → t ≤ 1 → distPtSeg3 exactOps p a b ≤ spaceDistSq p a b t := by
  obtain ⟨D, hDdef⟩ : ∃ D, D = (b.x - a.x) * (b.x - a.x) + (b.y - a.y) * (b.y - a.y) + (b.z - a.z) * (b.z - a.z) := ⟨_, rfl⟩
  obtain ⟨T, hTdef⟩ : ∃ T, T = (b.x - a.x) * (p.x - a.x) + (b.y - a.y) * (p.y - a.y) + (b.z - a.z) * (p.z - a.z) := ⟨_, rfl⟩
  obtain ⟨C, hCdef⟩ : ∃ C, C = (a.x - p.x) ^ 2 + (a.y - p.y) ^ 2 + (a.z - p.z) ^ 2 := ⟨_, rfl⟩
  have h3 := And.intro (mul_self_nonneg (b.x - a.x)) (And.intro (mul_self_nonneg (b.y - a.y)) (mul_self_nonneg (b.z - a.z)))
  have hD : 0 ≤ D := by rw [hDdef]; linarith [h3.1, h3.2.1, h3.2.2]
  have hT : D = 0 → T = 0 := by
    intro h0
    rw [hDdef] at h0
    have h1 : b.x - a.x = 0 := mul_self_eq_zero.1 (by linarith [h3.1, h3.2.1, h3.2.2])
    have h2 : b.y - a.y = 0 := mul_self_eq_zero.1 (by linarith [h3.1, h3.2.1, h3.2.2])
    have h4 : b.z - a.z = 0 := mul_self_eq_zero.1 (by linarith [h3.1, h3.2.1, h3.2.2])
    rw [hTdef, h1, h2, h4]; ring
  obtain ⟨s, hs, h0, h1, hmin⟩ := quad_clamp D T C hD hT
  have key : ∀ t, spaceDistSq p a b t = t * t * D - 2 * t * T + C := by
    intro t; unfold spaceDistSq; rw [hDdef, hTdef, hCdef]; ring
  have hval : distPtSeg3 exactOps p a b = spaceDistSq p a b s := by
    unfold distPtSeg3 spaceDistSq
    simp only [exactOps, Vec3.sub, Vec3.add, Vec3.scale, Vec3.dot, decide_eq_true_eq]
    rw [← hDdef, ← hTdef, hs]
    ring
  refine ⟨⟨s, h0, h1, hval⟩, fun t ht0 ht1 => ?_⟩
  rw [hval, key, key]
  exact hmin t ht0 ht1

example : distPtSeg2 exactOps ⟨1, 7, 2⟩ ⟨0, 0, 0⟩ ⟨4, 0, 0⟩ = 4 ∧ distPtSeg3 exactOps ⟨5, 3, 2⟩ ⟨0, 0, 0⟩ ⟨4, 0, 0⟩ = 14 := by decide +kernel

/-- The point of the triangle `a b c` below or above `p` is `a + u (c - a) + v (b - a)`. -/
def Below (p a b c : Vec3 Rat) (u v : Rat) : Prop :=
  p.x = a.x + u * (c.x - a.x) + v * (b.x - a.x) ∧ p.z = a.z + u * (c.z - a.z) + v * (b.z - a.z)

/-- **C71 (triangles).** The computed distance of a point from a triangle which is not vertical is, without rounding, the difference of heights at the point of the
triangle's plane below or above it; it is given exactly if that point is in the triangle, with a tolerance of a ten-thousandth. -/
theorem c71_distance_triangle (p a b c : Vec3 Rat) (hdet : (c.x - a.x) * (b.z - a.z) - (c.z - a.z) * (b.x - a.x) ≠ 0) :
    ∃ u v, Below p a b c u v ∧ ∀ d, distPtTri exactOps p a b c = some d ↔
      (-(1 / 10000) ≤ u ∧ -(1 / 10000) ≤ v ∧ u + v ≤ 1 + 1 / 10000) ∧ d = |a.y + u * (c.y - a.y) + v * (b.y - a.y) - p.y| := by
  obtain ⟨X, hX⟩ : ∃ X, X = (c.x - a.x) * (b.z - a.z) - (c.z - a.z) * (b.x - a.x) := ⟨_, rfl⟩
  rw [← hX] at hdet
  have hden : ((c.x - a.x) * (c.x - a.x) + (c.z - a.z) * (c.z - a.z)) * ((b.x - a.x) * (b.x - a.x) + (b.z - a.z) * (b.z - a.z)) -
      ((c.x - a.x) * (b.x - a.x) + (c.z - a.z) * (b.z - a.z)) * ((c.x - a.x) * (b.x - a.x) + (c.z - a.z) * (b.z - a.z)) = X * X := by
    rw [hX]; ring
  obtain ⟨u, hu⟩ : ∃ u, u = ((p.x - a.x) * (b.z - a.z) - (p.z - a.z) * (b.x - a.x)) / X := ⟨_, rfl⟩
  obtain ⟨v, hv⟩ : ∃ v, v = ((c.x - a.x) * (p.z - a.z) - (c.z - a.z) * (p.x - a.x)) / X := ⟨_, rfl⟩
  have hu' : (((b.x - a.x) * (b.x - a.x) + (b.z - a.z) * (b.z - a.z)) * ((c.x - a.x) * (p.x - a.x) + (c.z - a.z) * (p.z - a.z)) -
      ((c.x - a.x) * (b.x - a.x) + (c.z - a.z) * (b.z - a.z)) * ((b.x - a.x) * (p.x - a.x) + (b.z - a.z) * (p.z - a.z))) * (1 / (X * X)) = u := by
    rw [hu]; field_simp; rw [hX]; ring
  have hv' : (((c.x - a.x) * (c.x - a.x) + (c.z - a.z) * (c.z - a.z)) * ((b.x - a.x) * (p.x - a.x) + (b.z - a.z) * (p.z - a.z)) -
      ((c.x - a.x) * (b.x - a.x) + (c.z - a.z) * (b.z - a.z)) * ((c.x - a.x) * (p.x - a.x) + (c.z - a.z) * (p.z - a.z))) * (1 / (X * X)) = v := by
    rw [hv]; field_simp; rw [hX]; ring
  refine ⟨u, v, ⟨?_, ?_⟩, fun d => ?_⟩
  · rw [hu, hv]; field_simp; rw [hX]; ring
  · rw [hu, hv]; field_simp; rw [hX]; ring
  · unfold distPtTri
    simp only [exactOps, Vec3.sub, Vec3.dotXZ, Bool.and_eq_true, decide_eq_true_eq]
    rw [hden, hu', hv']
    have habs : ∀ q : Rat, (if q < 0 then -q else q) = |q| := by
      intro q
      split
      · rw [abs_of_neg (by assumption)]
      · rw [abs_of_nonneg (by linarith)]
    rw [habs, show (c.y - a.y) * u = u * (c.y - a.y) from mul_comm _ _, show (b.y - a.y) * v = v * (b.y - a.y) from mul_comm _ _]
    split
    · rename_i h
      simp only [Option.some.injEq]
      constructor
      · rintro rfl; exact ⟨⟨h.1.1, h.1.2, h.2⟩, rfl⟩
      · rintro ⟨_, rfl⟩; rfl
    · rename_i h
      simp only [reduceCtorEq, false_iff, not_and]
      intro h' _
      exact absurd ⟨⟨h'.1, h'.2.1⟩, h'.2.2⟩ h

example : distPtTri exactOps ⟨1, 5, 1⟩ ⟨0, 0, 0⟩ ⟨0, 4, 4⟩ ⟨4, 8, 0⟩ = some 2 ∧ distPtTri exactOps ⟨3, 5, 3⟩ ⟨0, 0, 0⟩ ⟨0, 4, 4⟩ ⟨4, 8, 0⟩ = none := by
  decide +kernel

/-- The ray from `p` in the direction of `x` crosses the side from `a` to `b`, the end with the larger `z` excluded. -/
def RayCrosses (p a b : Vec3 Rat) : Prop :=
  min a.z b.z ≤ p.z ∧ p.z < max a.z b.z ∧ ∃ t, 0 ≤ t ∧ t ≤ 1 ∧ p.z = a.z + t * (b.z - a.z) ∧ p.x < a.x + t * (b.x - a.x)

theorem rayCrosses_iff (p a b : Vec3 Rat) : RayCrosses p a b ↔
    ((decide (p.z < a.z) != decide (p.z < b.z)) && decide (p.x < (b.x - a.x) * (p.z - a.z) / (b.z - a.z) + a.x)) = true := by
  rw [Bool.and_eq_true, decide_eq_true_eq, bne_iff_ne, ne_eq, decide_eq_decide]
  constructor
  · rintro ⟨h1, h2, t, h3, h4, h5, h6⟩
    have hne : b.z - a.z ≠ 0 := by
      intro h0
      rw [h0, mul_zero, add_zero] at h5
      have : b.z = a.z := by linarith
      rw [this] at h2
      simp only [max_self] at h2
      linarith
    refine ⟨?_, ?_⟩
    · intro h
      rcases lt_or_ge p.z a.z with h7 | h7
      · have := h.1 h7
        rw [min_le_iff] at h1
        rcases h1 with h1 | h1 <;> linarith
      · have : ¬ p.z < b.z := fun h8 => by have := h.2 h8; linarith
        rw [lt_max_iff] at h2
        rcases h2 with h2 | h2 <;> linarith
    · have : (b.x - a.x) * (p.z - a.z) / (b.z - a.z) = t * (b.x - a.x) := by
        rw [h5]; field_simp; ring
      rw [this]; linarith
  · rintro ⟨h1, h2⟩
    have hz : (a.z ≤ p.z ∧ p.z < b.z) ∨ (b.z ≤ p.z ∧ p.z < a.z) := by
      rcases lt_or_ge p.z a.z with h7 | h7 <;> rcases lt_or_ge p.z b.z with h8 | h8
      · exact absurd ⟨fun _ => h8, fun _ => h7⟩ h1
      · exact Or.inr ⟨h8, h7⟩
      · exact Or.inl ⟨h7, h8⟩
      · exact absurd ⟨fun h => absurd h (not_lt.2 h7), fun h => absurd h (not_lt.2 h8)⟩ h1
    have hne : b.z - a.z ≠ 0 := by rcases hz with hz | hz <;> intro h0 <;> linarith [hz.1, hz.2]
    refine ⟨?_, ?_, (p.z - a.z) / (b.z - a.z), ?_, ?_, ?_, ?_⟩
    · rw [min_le_iff]; exact hz.imp (·.1) (·.1)
    · rw [lt_max_iff]
      rcases hz with hz | hz
      · exact Or.inr hz.2
      · exact Or.inl hz.2
    · rcases hz with hz | hz
      · exact div_nonneg (by linarith [hz.1]) (by linarith [hz.1, hz.2])
      · exact div_nonneg_of_nonpos (by linarith [hz.2]) (by linarith [hz.1, hz.2])
    · rcases hz with hz | hz
      · rw [div_le_one (by linarith [hz.1, hz.2])]; linarith [hz.2]
      · rw [div_le_one_of_neg (by linarith [hz.1, hz.2])]; linarith [hz.1]
    · field_simp; ring
    · have : (p.z - a.z) / (b.z - a.z) * (b.x - a.x) = (b.x - a.x) * (p.z - a.z) / (b.z - a.z) := by ring
      rw [this]; linarith

/-- The `i`-th side of a polygon, from the corner before to corner `i`. -/
def CornerSide (poly : List (Vec3 Rat)) (i : Nat) (vj vi : Vec3 Rat) : Prop :=
  poly[i]? = some vi ∧ poly[(i + poly.length - 1) % poly.length]? = some vj

/-- **C71 (polygons).** The computed distance of a point from a polygon is, without rounding, the least squared distance from its sides (or
`f32::MAX` if that is less), with a minus sign for the points inside, which are those from where a ray crosses the sides an odd number of times. -/
theorem c71_distance_polygon (poly : List (Vec3 Rat)) (h : 1 ≤ poly.length) (p : Vec3 Rat) :
    ∃ m, ∃ crossed : List Nat, distToPoly exactOps poly p = .ok (if crossed.length % 2 = 1 then -m else m) ∧
      (crossed.Nodup ∧ ∀ i, i ∈ crossed ↔ ∃ vi vj, CornerSide poly i vj vi ∧ RayCrosses p vi vj) ∧
      (∀ i vi vj, CornerSide poly i vj vi → m ≤ distPtSeg2 exactOps p vj vi) ∧
      (m = exactOps.maxVal ∨ ∃ i vi vj, CornerSide poly i vj vi ∧ m = distPtSeg2 exactOps p vj vi) := by
  unfold distToPoly subU
  rw [if_pos h, bind_ok]
  have key : Outs (fun _ => False) ((cornerPairs poly.length).foldlM (fun (st : Rat × Bool) ji => do
      let vi ← idx poly ji.2
      let vj ← idx poly ji.1
      let crosses := (exactOps.lt p.z vi.z != exactOps.lt p.z vj.z) &&
        exactOps.lt p.x (exactOps.add (exactOps.div (exactOps.mul (exactOps.sub vj.x vi.x) (exactOps.sub p.z vi.z)) (exactOps.sub vj.z vi.z)) vi.x)
      (.ok (exactOps.min st.1 (distPtSeg2 exactOps p vj vi), if crosses then !st.2 else st.2) : Res (Rat × Bool))) (exactOps.maxVal, false))
      (fun st => ∃ crossed : List Nat, st.2 = decide (crossed.length % 2 = 1) ∧
        (crossed.Nodup ∧ ∀ i, i ∈ crossed ↔ ∃ vi vj, CornerSide poly i vj vi ∧ RayCrosses p vi vj) ∧
        (∀ i vi vj, CornerSide poly i vj vi → st.1 ≤ distPtSeg2 exactOps p vj vi) ∧
        (st.1 = exactOps.maxVal ∨ ∃ i vi vj, CornerSide poly i vj vi ∧ st.1 = distPtSeg2 exactOps p vj vi)) := by
    refine (Outs.foldlM (fun pre (st : Rat × Bool) => ∃ crossed : List Nat, st.2 = decide (crossed.length % 2 = 1) ∧
        (crossed.Nodup ∧ ∀ i, i ∈ crossed ↔ i < pre.length ∧ ∃ vi vj, CornerSide poly i vj vi ∧ RayCrosses p vi vj) ∧
        (∀ i vi vj, i < pre.length → CornerSide poly i vj vi → st.1 ≤ distPtSeg2 exactOps p vj vi) ∧
        (st.1 = exactOps.maxVal ∨ ∃ i vi vj, CornerSide poly i vj vi ∧ st.1 = distPtSeg2 exactOps p vj vi)) _ _ ⟨[], by simp, by simp, by simp, Or.inl rfl⟩ ?_).mono ?_
    · rintro pre ⟨j, i⟩ post ⟨m, b⟩ hl ⟨crossed, h1, ⟨h2, h3⟩, h4, h5⟩
      have hi : (cornerPairs poly.length)[pre.length]? = some (j, i) := by rw [hl]; simp
      unfold cornerPairs at hi
      have hlen : pre.length < poly.length := by
        have := congrArg List.length hl
        simp [cornerPairs] at this; omega
      rw [List.getElem?_map, List.getElem?_range hlen, Option.map_some, Option.some.injEq, Prod.mk.injEq] at hi
      obtain ⟨rfl, rfl⟩ := hi
      have hj := Nat.mod_lt (pre.length + poly.length - 1) (show 0 < poly.length by omega)
      have hva := List.getElem?_eq_getElem hlen
      have hvb := List.getElem?_eq_getElem hj
      dsimp only at h1 h4 h5 ⊢
      rw [idx_some hva, bind_ok, idx_some hvb, bind_ok]
      generalize poly[pre.length] = vi at hva
      generalize poly[(pre.length + poly.length - 1) % poly.length] = vj at hvb
      have hside : CornerSide poly pre.length vj vi := ⟨hva, hvb⟩
      have huniq : ∀ vj' vi', CornerSide poly pre.length vj' vi' → vj' = vj ∧ vi' = vi := by
        rintro vj' vi' ⟨ha, hb⟩
        rw [hva] at ha; rw [hvb] at hb
        cases ha; cases hb; exact ⟨rfl, rfl⟩
      have hmin : exactOps.min m (distPtSeg2 exactOps p vj vi) = min m (distPtSeg2 exactOps p vj vi) := by
        simp only [exactOps, min_def]
      have hx : ((exactOps.lt p.z vi.z != exactOps.lt p.z vj.z) && exactOps.lt p.x (exactOps.add (exactOps.div (exactOps.mul
          (exactOps.sub vj.x vi.x) (exactOps.sub p.z vi.z)) (exactOps.sub vj.z vi.z)) vi.x)) = true ↔ RayCrosses p vi vj := (rayCrosses_iff p vi vj).symm
      rw [hmin]
      have hnew : ∀ i, (i < pre.length + 1 ∧ ∃ vi vj, CornerSide poly i vj vi ∧ RayCrosses p vi vj) ↔
          (i < pre.length ∧ ∃ vi vj, CornerSide poly i vj vi ∧ RayCrosses p vi vj) ∨ (i = pre.length ∧ RayCrosses p vi vj) := by
        intro i
        constructor
        · rintro ⟨h1, va, vb, h2, h3⟩
          rcases Nat.lt_or_ge i pre.length with h4 | h4
          · exact Or.inl ⟨h4, va, vb, h2, h3⟩
          · have : i = pre.length := by omega
            subst this
            obtain ⟨rfl, rfl⟩ := huniq _ _ h2
            exact Or.inr ⟨rfl, h3⟩
        · rintro (⟨h1, h2⟩ | ⟨rfl, h2⟩)
          · exact ⟨by omega, h2⟩
          · exact ⟨by omega, vi, vj, hside, h2⟩
      have hle : ∀ i va vb, i < pre.length + 1 → CornerSide poly i vb va → min m (distPtSeg2 exactOps p vj vi) ≤ distPtSeg2 exactOps p vb va := by
        intro i va vb h1 h2
        rcases Nat.lt_or_ge i pre.length with h6 | h6
        · exact le_trans (min_le_left _ _) (h4 i va vb h6 h2)
        · have : i = pre.length := by omega
          subst this
          obtain ⟨rfl, rfl⟩ := huniq _ _ h2
          exact min_le_right _ _
      have hat : min m (distPtSeg2 exactOps p vj vi) = exactOps.maxVal ∨
          ∃ i va vb, CornerSide poly i vb va ∧ min m (distPtSeg2 exactOps p vj vi) = distPtSeg2 exactOps p vb va := by
        rcases min_choice m (distPtSeg2 exactOps p vj vi) with h6 | h6
        · rw [h6]; exact h5
        · rw [h6]; exact Or.inr ⟨_, vi, vj, hside, rfl⟩
      simp only [List.length_append, List.length_singleton]
      by_cases hc : RayCrosses p vi vj
      · rw [if_pos (hx.2 hc)]
        refine Outs.ok ⟨pre.length :: crossed, ?_, ⟨?_, ?_⟩, hle, hat⟩
        · dsimp only
          rw [h1, List.length_cons, ← decide_not, decide_eq_decide]
          omega
        · rw [List.nodup_cons]
          exact ⟨fun hm => by have := (h3 _).1 hm; omega, h2⟩
        · intro i
          rw [hnew, List.mem_cons, h3]
          constructor
          · rintro (rfl | h6)
            · exact Or.inr ⟨rfl, hc⟩
            · exact Or.inl h6
          · rintro (h6 | h6)
            · exact Or.inr h6
            · exact Or.inl h6.1
      · rw [if_neg (fun h => hc (hx.1 h))]
        refine Outs.ok ⟨crossed, h1, ⟨h2, fun i => ?_⟩, hle, hat⟩
        rw [hnew, h3]
        constructor
        · exact Or.inl
        · rintro (h6 | h6)
          · exact h6
          · exact absurd h6.2 hc
    · rintro ⟨m, b⟩ ⟨crossed, h1, ⟨h2, h3⟩, h4, h5⟩
      have hl : (cornerPairs poly.length).length = poly.length := by simp [cornerPairs]
      rw [hl] at h3 h4
      have hi : ∀ {i vj vi}, CornerSide poly i vj vi → i < poly.length := fun h => (List.getElem?_eq_some_iff.1 h.1).1
      refine ⟨crossed, h1, ⟨h2, fun i => ?_⟩, fun i vi vj h => h4 i vi vj (hi h) h, h5⟩
      rw [h3]
      constructor
      · exact fun h => h.2
      · rintro ⟨vi, vj, h6, h7⟩
        exact ⟨hi h6, vi, vj, h6, h7⟩
  rcases key with ⟨st, hst, crossed, h1, h2, h3, h4⟩ | ⟨e, _, he⟩
  · refine ⟨st.1, crossed, ?_, h2, h3, h4⟩
    rw [hst, bind_ok]
    obtain ⟨m, b⟩ := st
    dsimp only at h1 ⊢
    rw [h1]
    simp only [decide_eq_true_eq]
    rfl
  · exact he.elim

example : distToPoly exactOps [⟨0, 0, 0⟩, ⟨0, 0, 4⟩, ⟨4, 0, 4⟩, ⟨4, 0, 0⟩] ⟨1, 0, 2⟩ = .ok (-1) ∧
    distToPoly exactOps [⟨0, 0, 0⟩, ⟨0, 0, 4⟩, ⟨4, 0, 4⟩, ⟨4, 0, 0⟩] ⟨-2, 0, 2⟩ = .ok 4 := by decide +kernel

/-- **C71 (sub-meshes).** The computed distance of a point from a list of triangles is the least of the computed distances from the triangles; there is none if
no triangle gives a distance below `f32::MAX`. -/
theorem c71_distance_mesh (p : Vec3 Rat) (verts : List (Vec3 Rat)) (tris : List DTri) (h : ∀ t ∈ tris, ∀ v ∈ Tri.corners t, v < verts.length) :
    ∃ r, distToTriMesh exactOps p verts tris = .ok r ∧
      (r = none → ∀ t a b c d, t ∈ tris → verts[t.1]? = some a → verts[t.2.1]? = some b → verts[t.2.2]? = some c →
        distPtTri exactOps p a b c = some d → exactOps.maxVal ≤ d) ∧
      ∀ m, r = some m → (∃ t a b c, t ∈ tris ∧ verts[t.1]? = some a ∧ verts[t.2.1]? = some b ∧ verts[t.2.2]? = some c ∧
          distPtTri exactOps p a b c = some m) ∧
        ∀ t a b c d, t ∈ tris → verts[t.1]? = some a → verts[t.2.1]? = some b → verts[t.2.2]? = some c →
          distPtTri exactOps p a b c = some d → m ≤ d := by
  unfold distToTriMesh
  have key : Outs (fun _ => False) (tris.foldlM (fun (dmin : Rat) t => do
      let va ← idx verts t.1
      let vb ← idx verts t.2.1
      let vc ← idx verts t.2.2
      (.ok (smallerDist exactOps dmin (distPtTri exactOps p va vb vc)) : Res Rat)) exactOps.maxVal) fun m =>
      (m = exactOps.maxVal ∨ ∃ t a b c, t ∈ tris ∧ verts[t.1]? = some a ∧ verts[t.2.1]? = some b ∧ verts[t.2.2]? = some c ∧
          distPtTri exactOps p a b c = some m) ∧
        ∀ t a b c d, t ∈ tris → verts[t.1]? = some a → verts[t.2.1]? = some b → verts[t.2.2]? = some c →
          distPtTri exactOps p a b c = some d → m ≤ d := by
    refine Outs.foldlM (fun (pre : List DTri) (m : Rat) =>
      (m = exactOps.maxVal ∨ ∃ t a b c, t ∈ tris ∧ verts[t.1]? = some a ∧ verts[t.2.1]? = some b ∧ verts[t.2.2]? = some c ∧
          distPtTri exactOps p a b c = some m) ∧
        ∀ t a b c d, t ∈ pre → verts[t.1]? = some a → verts[t.2.1]? = some b → verts[t.2.2]? = some c →
          distPtTri exactOps p a b c = some d → m ≤ d) _ _ ⟨Or.inl rfl, by simp⟩ ?_
    rintro pre t post m hl ⟨h1, h2⟩
    have htm : t ∈ tris := by rw [hl]; simp
    have hv := h t htm
    simp only [Tri.corners, List.mem_cons, List.not_mem_nil, or_false, forall_eq_or_imp, forall_eq] at hv
    have e1 := List.getElem?_eq_getElem hv.1
    have e2 := List.getElem?_eq_getElem hv.2.1
    have e3 := List.getElem?_eq_getElem hv.2.2
    rw [idx_some e1, bind_ok, idx_some e2, bind_ok, idx_some e3, bind_ok]
    generalize verts[t.1] = a at e1
    generalize verts[t.2.1] = b at e2
    generalize verts[t.2.2] = c at e3
    have huniq : ∀ a' b' c', verts[t.1]? = some a' → verts[t.2.1]? = some b' → verts[t.2.2]? = some c' → a' = a ∧ b' = b ∧ c' = c := by
      intro a' b' c' f1 f2 f3
      rw [e1] at f1; rw [e2] at f2; rw [e3] at f3
      cases f1; cases f2; cases f3
      exact ⟨rfl, rfl, rfl⟩
    cases hd : distPtTri exactOps p a b c with
    | some d =>
      dsimp only [smallerDist]
      by_cases hlt : d < m
      · have e : (if exactOps.lt d m = true then d else m) = d := if_pos (by simpa [exactOps] using hlt)
        rw [e]
        refine Outs.ok ⟨Or.inr ⟨t, a, b, c, htm, e1, e2, e3, hd⟩, fun t' a' b' c' d' ht' f1 f2 f3 hd' => ?_⟩
        rw [List.mem_append, List.mem_singleton] at ht'
        rcases ht' with ht' | rfl
        · exact le_trans hlt.le (h2 t' a' b' c' d' ht' f1 f2 f3 hd')
        · obtain ⟨rfl, rfl, rfl⟩ := huniq _ _ _ f1 f2 f3
          rw [hd] at hd'; cases hd'; exact le_refl _
      · have e : (if exactOps.lt d m = true then d else m) = m := if_neg (by simpa [exactOps] using hlt)
        rw [e]
        refine Outs.ok ⟨h1, fun t' a' b' c' d' ht' f1 f2 f3 hd' => ?_⟩
        rw [List.mem_append, List.mem_singleton] at ht'
        rcases ht' with ht' | rfl
        · exact h2 t' a' b' c' d' ht' f1 f2 f3 hd'
        · obtain ⟨rfl, rfl, rfl⟩ := huniq _ _ _ f1 f2 f3
          rw [hd] at hd'; cases hd'; exact not_lt.1 hlt
    | none =>
      refine Outs.ok ⟨h1, fun t' a' b' c' d' ht' f1 f2 f3 hd' => ?_⟩
      rw [List.mem_append, List.mem_singleton] at ht'
      rcases ht' with ht' | rfl
      · exact h2 t' a' b' c' d' ht' f1 f2 f3 hd'
      · obtain ⟨rfl, rfl, rfl⟩ := huniq _ _ _ f1 f2 f3
        rw [hd] at hd'; cases hd'
  rcases key with ⟨m, hm, h1, h2⟩ | ⟨e, _, he⟩
  · rw [hm, bind_ok]
    refine ⟨_, rfl, ?_, ?_⟩
    · intro hn t a b c d ht f1 f2 f3 hd
      have : m = exactOps.maxVal := by
        by_contra hne
        rw [if_neg (by simpa [exactOps] using hne)] at hn
        cases hn
      rw [← this]
      exact h2 t a b c d ht f1 f2 f3 hd
    · intro m' hm'
      by_cases he : m = exactOps.maxVal
      · rw [if_pos (by simpa [exactOps] using he)] at hm'
        cases hm'
      · rw [if_neg (by simpa [exactOps] using he)] at hm'
        cases hm'
        exact ⟨h1.resolve_left he, h2⟩
  · exact he.elim

example : distToTriMesh exactOps ⟨1, 5, 1⟩ [⟨0, 0, 0⟩, ⟨0, 4, 4⟩, ⟨4, 8, 0⟩, ⟨4, 6, 4⟩] [(0, 1, 2), (1, 3, 0)] = .ok (some 2) := by decide +kernel

/-- **C71 (width).** A polygon counts as narrower than `T` exactly if there is a side from whose segment all other corners are nearer. -/
theorem c71_narrow (poly : List (Vec3 Rat)) (T : Rat) (h0 : 0 < T) (hT : T ≤ exactOps.maxVal) :
    ∃ e, polyMinExtent exactOps poly poly.length = .ok e ∧
      (e < T ↔ ∃ (i : Nat) (a b : Vec3 Rat), poly[i]? = some a ∧ poly[(i + 1) % poly.length]? = some b ∧
        ∀ (j : Nat) v, j ≠ i → j ≠ (i + 1) % poly.length → poly[j]? = some v → distPtSeg2 exactOps v a b < T) := by
  have hmax : ∀ (i ni : Nat) (a b : Vec3 Rat) (l : List (Vec3 Rat)) (k : Nat) (m : Rat), (l.zipIdx k).foldl (fun (m : Rat) (vj : Vec3 Rat × Nat) =>
      if vj.2 = i || vj.2 = ni then m else exactOps.max m (distPtSeg2 exactOps vj.1 a b)) m < T ↔
      m < T ∧ ∀ (j : Nat) v, j + k ≠ i → j + k ≠ ni → l[j]? = some v → distPtSeg2 exactOps v a b < T := by
    intro i ni a b l
    induction l with
    | nil => intro k m; simp
    | cons x l ih =>
      intro k m
      rw [List.zipIdx_cons, List.foldl_cons, ih]
      have hm : exactOps.max m (distPtSeg2 exactOps x a b) < T ↔ m < T ∧ distPtSeg2 exactOps x a b < T := by
        simp only [exactOps]
        rw [← max_def, max_lt_iff]
      constructor
      · rintro ⟨h1, h2⟩
        split at h1
        · rename_i hk
          refine ⟨h1, fun j v h3 h4 hv => ?_⟩
          cases j with
          | zero => simp at hk; omega
          | succ j => exact h2 j v (by omega) (by omega) hv
        · rw [hm] at h1
          refine ⟨h1.1, fun j v h3 h4 hv => ?_⟩
          cases j with
          | zero => cases hv; exact h1.2
          | succ j => exact h2 j v (by omega) (by omega) hv
      · rintro ⟨h1, h2⟩
        refine ⟨?_, fun j v h3 h4 hv => h2 (j + 1) v (by omega) (by omega) hv⟩
        split
        · exact h1
        · rename_i hk
          simp at hk
          rw [hm]
          exact ⟨h1, h2 0 x (by omega) (by omega) rfl⟩
  unfold polyMinExtent
  have key : Outs (fun _ => False) ((List.range poly.length).foldlM (fun (minDist : Rat) i => do
      let ni ← nextIdx i poly.length
      let p1 ← idx poly i
      let p2 ← idx poly ni
      let maxEdge := ((poly.take poly.length).zipIdx).foldl (fun (m : Rat) (vj : Vec3 Rat × Nat) =>
        if vj.2 = i || vj.2 = ni then m else exactOps.max m (distPtSeg2 exactOps vj.1 p1 p2)) (exactOps.lit 0)
      (.ok (exactOps.min minDist maxEdge) : Res Rat)) exactOps.maxVal) fun e => e < T ↔ ∃ i ∈ List.range poly.length, ∃ (a b : Vec3 Rat),
        poly[i]? = some a ∧ poly[(i + 1) % poly.length]? = some b ∧
        ∀ (j : Nat) v, j ≠ i → j ≠ (i + 1) % poly.length → poly[j]? = some v → distPtSeg2 exactOps v a b < T := by
    refine Outs.foldlM (fun pre (e : Rat) => e < T ↔ ∃ i ∈ pre, ∃ (a b : Vec3 Rat),
        poly[i]? = some a ∧ poly[(i + 1) % poly.length]? = some b ∧
        ∀ (j : Nat) v, j ≠ i → j ≠ (i + 1) % poly.length → poly[j]? = some v → distPtSeg2 exactOps v a b < T) _ _ ?_ ?_
    · simpa using hT
    · intro pre i post e hl he
      have hi : i < poly.length := List.mem_range.1 (by rw [hl]; simp)
      have hm := Nat.mod_lt (i + 1) (show 0 < poly.length by omega)
      have e1 := List.getElem?_eq_getElem hi
      have e2 := List.getElem?_eq_getElem hm
      rw [nextIdx_ok (by omega), bind_ok, idx_some e1, bind_ok, idx_some e2, bind_ok]
      generalize poly[i] = a at e1
      generalize poly[(i + 1) % poly.length] = b at e2
      refine Outs.ok ?_
      have hmin : ∀ x y : Rat, exactOps.min x y < T ↔ x < T ∨ y < T := by
        intro x y
        simp only [exactOps]
        rw [← min_def, min_lt_iff]
      rw [hmin, he, List.take_length, hmax]
      have hlit : exactOps.lit 0 < T := h0
      simp only [Nat.add_zero]
      constructor
      · rintro (⟨k, hk, h⟩ | ⟨_, h⟩)
        · exact ⟨k, by simp [hk], h⟩
        · exact ⟨i, by simp, a, b, e1, e2, h⟩
      · rintro ⟨k, hk, a', b', f1, f2, h⟩
        rw [List.mem_append, List.mem_singleton] at hk
        rcases hk with hk | rfl
        · exact Or.inl ⟨k, hk, a', b', f1, f2, h⟩
        · rw [e1] at f1; rw [e2] at f2; cases f1; cases f2
          exact Or.inr ⟨hlit, h⟩
  rcases key with ⟨e, he, hiff⟩ | ⟨e, _, he⟩
  · refine ⟨e, he, hiff.trans ?_⟩
    constructor
    · rintro ⟨i, _, h⟩; exact ⟨i, h⟩
    · rintro ⟨i, a, b, h1, h2⟩
      exact ⟨i, List.mem_range.2 (List.getElem?_eq_some_iff.1 h1).1, a, b, h1, h2⟩
  · exact he.elim

example : polyMinExtent exactOps [⟨0, 0, 0⟩, ⟨0, 0, 1⟩, ⟨5, 0, 1⟩, ⟨5, 0, 0⟩] 4 = .ok 1 := by decide +kernel

end Rerecast
