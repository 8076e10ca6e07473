import Verif.Lemmas.Jordan11
import Verif.Lemmas.BuildMesh
/-! The polygons made from a simple contour do not overlap and cover what the contour encloses. -/
namespace Rerecast.Jordan
open List

section
variable {verts : List U16Vec3} {nvp : Nat} {c : Contour} {l : List Nat} {polys : List (List Nat)}

theorem ring_pt (h : StandsFor verts c l) {i : Nat} (hi : i < l.length) : pt (pos verts (l.getD i 0)) = cornerPt c.points i := by
  obtain ⟨h1, h2⟩ := h.pos hi
  unfold cornerPt pt
  rw [h1, h2]

theorem ring_points (h : StandsFor verts c l) : l.map (fun i => pt (pos verts i)) = c.points.map pt := by
  have hl : c.vertices.length = l.length := h.length_eq
  have hp : c.points.length = l.length := by simp [Contour.points, hl]
  apply List.ext_getElem
  · simp [hp]
  · intro i h1 h2
    have hi : i < l.length := by simpa using h1
    have := ring_pt h hi
    rw [List.getElem_map, List.getElem_map]
    have e1 : l.getD i 0 = l[i] := by simp [List.getD_eq_getElem?_getD, hi]
    have e2 : cornerPt c.points i = pt c.points[i] := by simp [cornerPt, List.getD_eq_getElem?_getD, hp, hi]
    rw [e1, e2] at this
    exact this

theorem simple_corners (S : SimplePolygon (c.points.map U16Vec3.plane)) : c.Simple := by
  have := S.corners
  unfold Contour.Simple
  unfold Contour.points at this
  rw [List.map_map] at this
  refine List.Nodup.of_map (fun v : Nat × Nat => ((v.1 : Rat), (v.2 : Rat))) ?_
  rw [List.map_map]
  exact this

variable (M : MakesUp verts nvp c l polys) (S : SimplePolygon (c.points.map U16Vec3.plane)) (hneg : shoelace id c.points < 0)
  (hs : ∀ v ∈ c.points, v.x ≤ 32767 ∧ v.z ≤ 32767)
include S hneg hs

theorem wellTriangulated : c.WellTriangulated := by
  obtain ⟨T, hT, _, ht, _⟩ := triangulate_simple hs (simple_pt S) (val_pt S hneg)
  intro T' hT'
  rw [hT] at hT'
  injection hT' with e
  rw [← e]
  exact ht

include M

theorem poly_nonneg {p : List Nat} (hp : p ∈ polys) (q : Point) : 0 ≤ winding q (p.map fun i => pt (pos verts i)) := by
  obtain ⟨T, hT, hparts⟩ := M.parts (M.distinct (simple_corners S))
  obtain ⟨g, hg, hb⟩ := hparts p hp
  obtain ⟨T', hT', htri, ht, _⟩ := triangulate_simple hs (simple_pt S) (val_pt S hneg)
  rw [hT] at hT'
  injection hT' with e
  subst e
  rw [← pieces_sum hb]
  apply List.sum_nonneg
  intro x hx
  obtain ⟨y, hy, rfl⟩ := List.mem_map.1 hx
  obtain ⟨t, htg, rfl⟩ := List.mem_map.1 hy
  have hl : c.points.length = l.length := by
    have : c.vertices.length = l.length := M.stands.length_eq
    simp [Contour.points, this]
  have e : (t.corners.map fun i => l.getD i 0).map (fun i => pt (pos verts i)) = t.corners.map (cornerPt c.points) := by
    rw [List.map_map]
    apply List.map_congr_left
    intro i hi
    refine ring_pt M.stands ?_
    rw [← hl]
    simpa using (htri.corners t (hg t htg)).mem hi
  rw [e]
  exact tri_nonneg ht (hg t htg) q

theorem polys_sum (q : Point) : (polys.map fun p => winding q (p.map fun i => pt (pos verts i))).sum = winding q (c.points.map pt) := by
  rw [← ring_points M.stands]
  exact pieces_sum (M.boundary (M.distinct (simple_corners S))) _ q

theorem poly_encloses {p : List Nat} (hp : p ∈ polys) (q : Point) :
    Encloses (p.map fun i => (pos verts i).plane) q ↔ winding q.swap (p.map fun i => pt (pos verts i)) = 1 := by
  have h0 := poly_nonneg M S hneg hs hp q.swap
  have hle := List.single_le_sum (l := polys.map fun p => winding q.swap (p.map fun i => pt (pos verts i))) (by
    intro z hz
    obtain ⟨x, hx, rfl⟩ := List.mem_map.1 hz
    exact poly_nonneg M S hneg hs hx _) _ (List.mem_map.2 ⟨p, hp, rfl⟩)
  rw [polys_sum M S hneg hs] at hle
  have e : (p.map fun i => (pos verts i).plane).map Prod.swap = p.map fun i => pt (pos verts i) := by rw [List.map_map]; rfl
  rw [encloses_iff, e]
  rcases winding_once (simple_pt S) (val_pt S hneg) q.swap with k | k <;> omega

theorem polys_apart : polys.Pairwise fun p p' => ∀ q,
    ¬ (Encloses (p.map fun i => (pos verts i).plane) q ∧ Encloses (p'.map fun i => (pos verts i).plane) q) := by
  have := once_pairwise (fun (p : List Nat) q => winding q (p.map fun i => pt (pos verts i))) polys (fun p m q => poly_nonneg M S hneg hs m q) (by
    intro q
    rw [polys_sum M S hneg hs]
    rcases winding_once (simple_pt S) (val_pt S hneg) q with e | e <;> omega)
  refine List.Pairwise.imp_of_mem ?_ this
  rintro t t' m m' hh p ⟨h1, h2⟩
  exact hh p.swap ⟨(poly_encloses M S hneg hs m p).1 h1, (poly_encloses M S hneg hs m' p).1 h2⟩

theorem polys_cover (q : Point) : Encloses (c.points.map U16Vec3.plane) q ↔ ∃ p ∈ polys, Encloses (p.map fun i => (pos verts i).plane) q := by
  rw [encloses_iff, ← map_pt]
  constructor
  · intro h
    have : (polys.map fun p => winding q.swap (p.map fun i => pt (pos verts i))).sum ≠ 0 := by
      rw [polys_sum M S hneg hs]; intro e; rw [e] at h; simp at h
    obtain ⟨p, m, hw⟩ := sum_nonzero _ polys this
    refine ⟨p, m, (poly_encloses M S hneg hs m q).2 ?_⟩
    have h0 := poly_nonneg M S hneg hs m q.swap
    have hle := List.single_le_sum (l := polys.map fun p => winding q.swap (p.map fun i => pt (pos verts i))) (by
      intro z hz
      obtain ⟨x, hx, rfl⟩ := List.mem_map.1 hz
      exact poly_nonneg M S hneg hs hx _) _ (List.mem_map.2 ⟨p, m, rfl⟩)
    rw [polys_sum M S hneg hs] at hle
    rcases winding_once (simple_pt S) (val_pt S hneg) q.swap with k | k <;> omega
  · rintro ⟨p, m, hp⟩
    rw [poly_encloses M S hneg hs m] at hp
    have hle := List.single_le_sum (l := polys.map fun p => winding q.swap (p.map fun i => pt (pos verts i))) (by
      intro z hz
      obtain ⟨x, hx, rfl⟩ := List.mem_map.1 hz
      exact poly_nonneg M S hneg hs hx _) _ (List.mem_map.2 ⟨p, m, rfl⟩)
    rw [polys_sum M S hneg hs, hp] at hle
    rcases winding_once (simple_pt S) (val_pt S hneg) q.swap with k | k
    · omega
    · rw [k]; rfl

end

end Rerecast.Jordan
