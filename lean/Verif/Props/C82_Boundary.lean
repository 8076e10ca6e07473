import Verif.Lemmas.MeshBoundary
import Verif.Props.C44_C49_PolyMesh
import Verif.Props.C80_EdgeLength
/-! C82: the outer sides of the polygons are the edges of the contours. -/
namespace Rerecast

/-- Polygon `i` of the mesh belongs to one of the blocks, and so do the values listed with it. -/
theorem flatMap_block {β γ δ : Type} (f : β → List γ) (g : β → δ) : ∀ (l : List β) (i : Nat) (q : γ), (l.flatMap f)[i]? = some q →
    ∃ b ∈ l, q ∈ f b ∧ (l.flatMap fun b => (f b).map fun _ => g b)[i]? = some (g b) := by
  intro l
  induction l with
  | nil => intro i q h; simp at h
  | cons b l ih =>
    intro i q h
    rw [List.flatMap_cons] at h ⊢
    rcases Nat.lt_or_ge i (f b).length with hi | hi
    · rw [List.getElem?_append_left hi] at h
      refine ⟨b, by simp, List.mem_of_getElem? h, ?_⟩
      rw [List.getElem?_append_left (by simpa using hi)]
      simp [hi]
    · rw [List.getElem?_append_right hi] at h
      obtain ⟨b', h1, h2, h3⟩ := ih _ _ h
      refine ⟨b', by simp [h1], h2, ?_⟩
      rw [List.getElem?_append_right (by simpa using hi)]
      simpa using h3

/-- **C82 (blocks).** The polygons made from a contour without double points have its edges as outer sides: an edge of the contour is a side
of one of them, in the direction of the contour and not in the other, and every other side occurs in both directions. -/
theorem c82_blocks (cset : ContourSet) (fuel nvp : Nat) (h3 : 3 ≤ nvp) (hn : nvp ≤ 65535) (hb : cset.NoBorderVertices ∨ cset.FewVertices)
    (out : PolygonNavmesh) (hr : cset.intoPolygonMesh fuel nvp = .ok out) :
    ∃ blocks, MeshOf cset nvp out blocks ∧ ∀ b ∈ blocks, b.contour.Simple → ∀ u v,
      (u, v) ∈ sides b.ring ↔ (u, v) ∈ allSides b.polys ∧ (v, u) ∉ allSides b.polys := by
  obtain ⟨blocks, h⟩ := c46_mesh cset fuel nvp h3 hn hb out hr
  refine ⟨blocks, h, fun b hbm hs u v => ?_⟩
  have hm := h.makes b hbm
  have hnd := hm.distinct hs
  have hc : b.contour ∈ blocks.map (·.contour) := List.mem_map_of_mem hbm
  rw [h.contours, List.mem_filter] at hc
  have hl := hm.stands.length_eq
  exact boundary_sides hnd (by rw [← hl]; simpa using hc.2) (hm.once hnd) (hm.boundary hnd) (u, v)

/-- **C82.** If no contour has double points, every side of a polygon that is not a side of another polygon in the opposite direction is an
edge of a contour: it joins mesh vertices standing for two consecutive contour vertices, and the polygon has the contour's region and
area. -/
theorem c82_open_sides (cset : ContourSet) (fuel nvp : Nat) (h3 : 3 ≤ nvp) (hn : nvp ≤ 65535) (hb : cset.NoBorderVertices ∨ cset.FewVertices)
    (out : PolygonNavmesh) (hr : cset.intoPolygonMesh fuel nvp = .ok out) (hsimple : ∀ c ∈ cset.contours, c.Simple) (i j u v : Nat)
    (hs : out.side i j = some (u, v)) (hopen : ∀ k l, out.side k l ≠ some (v, u)) :
    ∃ c ∈ cset.contours, ∃ k a b, c.vertices[k]? = some a ∧ c.vertices[(k + 1) % c.vertices.length]? = some b ∧
      Near (pos out.vertices u) a.1 ∧ Near (pos out.vertices v) b.1 ∧ out.regions[i]? = some c.region ∧ out.areas[i]? = some c.area := by
  obtain ⟨blocks, h, hbl⟩ := c82_blocks cset fuel nvp h3 hn hb out hr
  unfold PolygonNavmesh.side at hs
  obtain ⟨q, hq, hqs⟩ := Option.bind_eq_some_iff.1 hs
  have hcnt : out.polys.length = out.polygonCount := by unfold PolygonNavmesh.polys; simp
  have hi : i < out.polygonCount := by rw [← hcnt]; exact (List.getElem?_eq_some_iff.1 hq).1
  obtain ⟨b, hbm, hqb, hreg⟩ := flatMap_block (fun b : Block => b.polys) (fun b => (b.contour.region, b.contour.area)) blocks i q
    (by rw [← h.polys]; exact hq)
  have hreg1 : out.regions[i]? = some b.contour.region := by
    have e : (blocks.flatMap fun b => b.polys.map fun _ => b.contour.region)[i]? = some b.contour.region := by
      have := congrArg (Option.map Prod.fst) hreg
      rw [← List.getElem?_map, List.map_flatMap] at this
      simpa using this
    rw [← h.regions, List.getElem?_take, if_pos hi] at e
    exact e
  have hreg2 : out.areas[i]? = some b.contour.area := by
    have := congrArg (Option.map Prod.snd) hreg
    rw [← List.getElem?_map, List.map_flatMap] at this
    rw [h.areas]
    simpa using this
  have hc : b.contour ∈ blocks.map (·.contour) := List.mem_map_of_mem hbm
  rw [h.contours, List.mem_filter] at hc
  have hin : ∀ e ∈ allSides b.polys, ∃ k l, out.side k l = some e := by
    intro e he
    obtain ⟨p, hp, he⟩ := List.mem_flatMap.1 he
    have hpm : p ∈ out.polys := by rw [h.polys]; exact List.mem_flatMap.2 ⟨b, hbm, hp⟩
    obtain ⟨k, hk⟩ := List.mem_iff_getElem?.1 hpm
    obtain ⟨l, hl⟩ := List.mem_iff_getElem?.1 he
    exact ⟨k, l, by unfold PolygonNavmesh.side; rw [hk]; exact hl⟩
  have hmem : (u, v) ∈ allSides b.polys := List.mem_flatMap.2 ⟨q, hqb, List.mem_of_getElem? hqs⟩
  have hring := (hbl b hbm (hsimple _ hc.1) u v).2 ⟨hmem, fun hrev => by
    obtain ⟨k, l, hkl⟩ := hin _ hrev
    exact hopen k l hkl⟩
  obtain ⟨k, hk, e⟩ := sides_mem hring
  simp only [Prod.mk.injEq] at e
  have hst := (h.makes b hbm).stands
  unfold StandsFor at hst
  have hl := hst.length_eq
  have hk' : k < b.contour.vertices.length := by omega
  have hk2 : (k + 1) % b.contour.vertices.length < b.contour.vertices.length := Nat.mod_lt _ (by omega)
  obtain ⟨w, hw, hnw⟩ := (List.forall₂_iff_get.1 hst).2 k hk' hk
  obtain ⟨w', hw', hnw'⟩ := (List.forall₂_iff_get.1 hst).2 ((k + 1) % b.contour.vertices.length) hk2 (by omega)
  have p1 : pos out.vertices u = w := by
    unfold pos
    rw [e.1, List.getD_eq_getElem?_getD, show b.ring[k] = b.ring.get ⟨k, hk⟩ from rfl, hw]; rfl
  have p2 : pos out.vertices v = w' := by
    unfold pos
    have : b.ring[(k + 1) % b.ring.length]'(Nat.mod_lt _ (by omega)) = b.ring.get ⟨(k + 1) % b.contour.vertices.length, by omega⟩ := by
      simp only [List.get_eq_getElem, hl]
    rw [e.2, List.getD_eq_getElem?_getD, this, hw']; rfl
  refine ⟨b.contour, hc.1, k, _, _, List.getElem?_eq_getElem hk', List.getElem?_eq_getElem hk2, ?_, ?_, hreg1, hreg2⟩
  · rw [p1]; exact hnw
  · rw [p2]; exact hnw'

/-- An L-shaped contour and a square that fits into its corner have no double points.  Their mesh has three polygons; the side from 1 to 2 is open,
the side from 3 to 2 is shared by the first and the third polygon. -/
example : exampleContours.NoBorderVertices ∧ (∀ c ∈ exampleContours.contours, c.Simple) ∧
    (exampleContours.intoPolygonMesh 0 4).map (fun o => (o.polys, o.side 0 0, o.side 0 1, o.side 2 0)) =
      .ok ([[1, 2, 3, 0], [5, 0, 3, 4], [3, 2, 6, 4]], some (1, 2), some (2, 3), some (3, 2)) := by
  refine ⟨?_, ?_, by decide +kernel⟩
  · unfold ContourSet.NoBorderVertices; decide
  · unfold Contour.Simple; decide

end Rerecast
