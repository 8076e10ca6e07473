import Verif.Lemmas.Visualize
import Verif.Lemmas.Jordan14
import Mathlib.Tactic.IntervalCases
import Verif.Props.C75_C79_Pipeline
import Verif.Props.C81_World
/-! C93: the editor draws exactly the navmesh. -/
namespace Rerecast.Visualize
variable {P : Type}

/-- **C93 (iterator).** `polygons()` yields the `polygon_count()` polygons of the mesh, in order, each without its padding; it panics for a mesh with
`max_vertices_per_polygon = 0`, and for no other. -/
theorem c93_iterator (mesh : PolygonNavmesh) : mesh.iterPolygons = if mesh.nvp = 0 then .error .panic else .ok mesh.polys := by
  unfold PolygonNavmesh.iterPolygons
  split
  · rfl
  · rw [chunksExact_eq (by omega) _ _ (Nat.le_refl _), List.map_map]
    rfl

/-- **C93 (polygons).** Drawing the polygon mesh of contours without vertices to remove, or with fewer than 65535 vertices, does not panic.  One closed line is drawn
for each polygon, through its corners in order; the triangles shown are those of the fans around the first corners of the polygons, polygon by
polygon, and all indices are those of vertices of the visual mesh.  `pos` is any way to place the vertices. -/
theorem c93_polygons_partial (cset : ContourSet) (fuel nvp : Nat) (h3 : 3 ≤ nvp) (hn : nvp ≤ 32767) (hb : cset.NoBorderVertices ∨ cset.FewVertices)
    (out : PolygonNavmesh) (hr : cset.intoPolygonMesh fuel nvp = .ok out) (pos : U16Vec3 → P) :
    ∃ d corners, drawPolyMesh pos out = .ok d ∧ CornersAt pos out corners ∧ d.strips = corners.map closedLine ∧
      Shows d.verts d.indices (corners.flatMap fanOf) ∧ ∀ i ∈ d.indices, i < d.verts.length := by
  have ht := (intoPolygonMesh_made h3 (by omega) hb out hr).tables
  have hc : out.polys.length = out.polygonCount := by simp [PolygonNavmesh.polys]
  have hmem : ∀ i < out.polygonCount, out.polygon i ∈ out.polys := fun i hi => List.mem_map_of_mem (List.mem_range.2 hi)
  have hdraw : Drawable out := by
    refine ⟨by rw [ht.nvp_eq]; exact ht.polygons, by rw [ht.nvp_eq]; exact ht.rows, fun i hi => ?_, by rw [ht.nvp_eq]; omega, ?_⟩
    · have hl := ht.fits.len _ (hmem i hi)
      refine ⟨fun e => by rw [e] at hl; simp at hl, by rw [ht.nvp_eq]; exact hl.2, fun v hv => ?_⟩
      have := ht.fits.lt _ (hmem i hi) v hv
      have h2 := ht.fits.nv_le
      exact ⟨this, by unfold NO_INDEX; omega⟩
    · have h1 := ht.fits.n_le
      rw [hc] at h1
      rw [ht.nvp_eq]
      calc out.polygonCount * (2 * nvp) ≤ 65535 * (2 * 32767) := Nat.mul_le_mul h1 (by omega)
        _ < 4294967296 := by norm_num
  obtain ⟨d, corners, h1, h2, h3, h4⟩ := drawPolyMesh_spec hdraw pos
  exact ⟨d, corners, h1, h2, h3, h4, h4.index⟩

theorem sides_open {α : Type} (a b : α) (l : List α) : sides (a :: b :: l) = (a, b) :: ((b :: l).zip (l ++ [a])) := rfl

/-- Twice the signed area between the corner `a` and an open chain. -/
theorem fan_area {α : Type} (v : α → U16Vec3) (a : α) : ∀ (b : α) (l : List α),
    ((((b :: l).zip l).map fun bc => shoelace v [a, bc.1, bc.2]).sum : Int) =
      ((a, b) :: ((b :: l).zip (l ++ [a])) |>.map fun e => ((v e.1).x : Int) * (v e.2).z - ((v e.2).x : Int) * (v e.1).z).sum := by
  intro b l
  induction l generalizing b with
  | nil => simp
  | cons c l ih =>
    have := ih c
    simp only [List.zip_cons_cons, List.map_cons, List.sum_cons, List.cons_append] at this ⊢
    rw [this]
    have hs : shoelace v [a, b, c] = ((v a).x : Int) * (v b).z - ((v b).x : Int) * (v a).z + (((v b).x : Int) * (v c).z - ((v c).x : Int) * (v b).z) +
        (((v c).x : Int) * (v a).z - ((v a).x : Int) * (v c).z) := by
      simp [shoelace, sides]; ring
    rw [hs]
    ring

/-- **C93 (area).** The signed areas of the triangles drawn for a polygon add up to the signed area of the polygon; `k` corners give `k - 2` triangles. -/
theorem c93_area {α : Type} (v : α → U16Vec3) (p : List α) (h3 : 3 ≤ p.length) :
    (fanOf p).length = p.length - 2 ∧ ((fanOf p).map fun t => shoelace v [t.1, t.2.1, t.2.2]).sum = shoelace v p := by
  match p, h3 with
  | a :: b :: c :: l, _ =>
    refine ⟨by simp [fanOf], ?_⟩
    unfold fanOf
    rw [List.map_map]
    have := fan_area v a b (c :: l)
    unfold shoelace at this ⊢
    rw [sides_open a b (c :: l)]
    exact this

theorem fan_boundary (g : Nat × Nat → Int) (hg : Antisymmetric g) (a : Nat) : ∀ (b : Nat) (l : List Nat),
    (((b :: l).zip l).map fun bc => g (a, bc.1) + g (bc.1, bc.2) + g (bc.2, a)).sum = ((a, b) :: ((b :: l).zip (l ++ [a])) |>.map g).sum := by
  intro b l
  induction l generalizing b with
  | nil => simp [hg b a]
  | cons c l ih =>
    have := ih c
    simp only [List.zip_cons_cons, List.map_cons, List.sum_cons, List.cons_append] at this ⊢
    rw [this, hg a c]
    ring

/-- **C93 (filling).** The triangles drawn for a strictly convex polygon fill it: they do not overlap, do not stick out, and leave nothing uncovered. -/
theorem c93_fills (verts : List U16Vec3) (p : List Nat) (h3 : 3 ≤ p.length) (hc : StrictlyConvex (p.map (Rerecast.pos verts))) :
    Fills (fun v => (Rerecast.pos verts v).plane) (fanOf p) (p.map fun v => (Rerecast.pos verts v).plane) := by
  have ht : Turning turn (p.map fun v => Jordan.pt (Rerecast.pos verts v)) := by
    intro x y z hs
    obtain ⟨i, j, k, hij, hjk, e1, e2, e3⟩ := sublist_three hs
    obtain ⟨hk, e3⟩ := List.getElem?_eq_some_iff.1 e3
    obtain ⟨hj, e2⟩ := List.getElem?_eq_some_iff.1 e2
    obtain ⟨hi, e1⟩ := List.getElem?_eq_some_iff.1 e1
    rw [List.getElem_map] at e1 e2 e3
    rw [List.length_map] at hk
    have := hc i j k hij hjk (by rw [List.length_map]; exact hk)
    rw [List.getElem_map, List.getElem_map, List.getElem_map, Jordan.cross_neg, e1, e2, e3] at this
    exact this
  match p, h3, ht with
  | a :: b :: c :: l, h3, ht =>
    refine Jordan.fills_of (P := fun v => Jordan.pt (Rerecast.pos verts v)) (hull := a :: b :: c :: l) (fun v => rfl) ?_ ?_
      (C := (a :: b :: c :: l).map fun v => Jordan.pt (Rerecast.pos verts v)) (by rw [List.map_map]; rfl) (fun x y z hs => (ht x y z hs).le) (fun q => rfl)
      (Jordan.turning_once (by simp) ht)
    · intro t htm
      obtain ⟨bc, hbc, rfl⟩ := List.mem_map.1 htm
      refine ⟨0, ?_⟩
      rw [List.rotate_zero]
      refine List.cons_sublist_cons.2 ?_
      obtain ⟨i, hi⟩ := List.mem_iff_getElem?.1 hbc
      rw [List.getElem?_zip_eq_some] at hi
      rw [List.tail_cons] at hi
      have h2 : (b :: c :: l)[i + 1]? = some bc.2 := hi.2
      obtain ⟨hl, e2⟩ := List.getElem?_eq_some_iff.1 h2
      obtain ⟨hl1, e1⟩ := List.getElem?_eq_some_iff.1 hi.1
      have : (b :: c :: l).drop i = bc.1 :: bc.2 :: (b :: c :: l).drop (i + 2) := by
        rw [List.drop_eq_getElem_cons hl1, e1, List.drop_eq_getElem_cons hl, e2]
      have hs : [bc.1, bc.2].Sublist ((b :: c :: l).drop i) := by rw [this]; simp
      exact hs.trans (List.drop_sublist _ _)
    · intro g hg
      rw [sides_open, ← fan_boundary g hg a b (c :: l)]
      unfold fanOf allSides
      dsimp only
      rw [List.tail_cons, List.map_map, List.flatMap_map]
      generalize (b :: c :: l).zip (c :: l) = z
      induction z with
      | nil => rfl
      | cons e z ih =>
        rw [List.flatMap_cons, List.map_append, List.sum_append, ih, List.map_cons, List.sum_cons]
        congr 1
        simp [Tri.corners, sides]
        ring

/-- The polygon of the four strips is strictly convex. -/
example : 3 ≤ (exPoly.polygon 0).length ∧ StrictlyConvex ((exPoly.polygon 0).map (Rerecast.pos exPoly.vertices)) := by
  refine ⟨by decide +kernel, ?_⟩
  rw [show (exPoly.polygon 0).map (Rerecast.pos exPoly.vertices) = [⟨0, 1, 1⟩, ⟨2, 1, 1⟩, ⟨2, 1, 0⟩, ⟨0, 1, 0⟩] by decide +kernel]
  intro i j k hij hjk hk
  have hk : k < 4 := hk
  interval_cases k <;> interval_cases j <;> interval_cases i <;> simp [cross]

/-- **C93 (detail mesh).** Drawing a detail mesh does not panic.  One closed line is drawn for each triangle of each sub-mesh, and the triangles shown are
these triangles, sub-mesh by sub-mesh; the vertices are those of the detail mesh. -/
theorem c93_detail {F : Type} (o : FloatOps F) (c : DetailConfig F) (mesh : PolygonNavmesh) (chf : CompactHeightfield) (dm : DetailNavmesh F)
    (h : IsDetailMesh o c mesh chf dm) (hfew : mesh.polygonCount * 255 < 4294967296) :
    ∃ d ts, drawDetailMesh dm = .ok d ∧ DetailTriangles dm ts ∧ d.strips = ts.flatten.map (fun t => closedLine [t.1, t.2.1, t.2.2]) ∧
      d.verts = dm.vertices ∧ Shows d.verts d.indices ts.flatten := by
  refine drawDetailMesh_spec ⟨h.bases, h.vertices, h.triangles, ?_, ?_⟩
  · intro m hm t ht
    obtain ⟨i, hi⟩ := List.mem_iff_getElem?.1 hm
    obtain ⟨vs, region, hp, d, _, _, _, hsub, hpart, hvc, _⟩ := h.parts i m hi
    rw [hpart] at ht
    have := (hsub.tris t ht).1
    rw [hvc]
    exact ⟨this _ (by simp [Tri.corners]), this _ (by simp [Tri.corners]), this _ (by simp [Tri.corners])⟩
  · rw [h.vertices]
    have : (dm.meshes.map SubMesh.vertexCount).sum ≤ dm.meshes.length * 127 := by
      have hall : ∀ m ∈ dm.meshes, m.vertexCount ≤ 127 := by
        intro m hm
        obtain ⟨i, hi⟩ := List.mem_iff_getElem?.1 hm
        obtain ⟨vs, region, hp, d, _, _, _, hsub, _, hvc, _⟩ := h.parts i m hi
        rw [hvc]; exact hsub.max_verts
      clear hfew
      have main : ∀ l : List SubMesh, (∀ m ∈ l, m.vertexCount ≤ 127) → (l.map SubMesh.vertexCount).sum ≤ l.length * 127 := by
        intro l
        induction l with
        | nil => simp
        | cons m l ih =>
          intro hl
          have h1 := ih fun q hq => hl q (by simp [hq])
          have h2 := hl m (by simp)
          simp only [List.map_cons, List.sum_cons, List.length_cons]
          omega
      exact main _ hall
    rw [h.count] at this
    omega

/-- **C93 (builds).** In every build of a scene that can be built (the guards are those of C78), drawing the polygon mesh and drawing the detail mesh both
succeed, and show the polygons and the detail triangles of the build. -/
theorem c93_build_partial {F : Type} (env : BuildEnv F) (b : ConfigBuilder) (flags : ContourFlags) (scene : List Affector)
    (hgood : GoodBuild env b scene) (h3 : 3 ≤ b.vertsPerPoly) (h126 : b.vertsPerPoly < 127)
    (hlow : ∀ u v, SceneVertex scene u → SceneVertex scene v → v.y - u.y < 65534 * b.cellHeight)
    (cfg : Config) (m : TriMesh ℚ) (fr : Frame) (hf : Heightfield)
    (chf : CompactHeightfield) (set : ContourSet) (poly : PolygonNavmesh) (st : MeshStages env b flags scene cfg m fr hf chf set poly)
    (hfew : set.FewVertices) (hR : (detailConfig env cfg fr set.borderSize).radius env.ops ≤ 32767)
    (hst : SidesCountable env.ops (detailConfig env cfg fr set.borderSize) poly) (detail : DetailNavmesh F)
    (hd : detailNavmesh env.ops env.alloc (detailConfig env cfg fr set.borderSize) poly chf = .ok detail) (pos : U16Vec3 → P) :
    (∃ d corners, drawPolyMesh pos poly = .ok d ∧ CornersAt pos poly corners ∧ d.strips = corners.map closedLine ∧
      Shows d.verts d.indices (corners.flatMap fanOf)) ∧
    ∃ d ts, drawDetailMesh detail = .ok d ∧ DetailTriangles detail ts ∧ d.strips = ts.flatten.map (fun t => closedLine [t.1, t.2.1, t.2.2]) ∧
      d.verts = detail.vertices ∧ Shows d.verts d.indices ts.flatten := by
  have hmesh := c78_detail_partial env b flags scene hgood h3 h126 hlow cfg m fr hf chf set poly st hfew hR hst detail hd
  obtain ⟨w, h, c0, hw, hh, hM, hG, _⟩ := hgood.stages st.toStages
  have hin := detailInput_of hG st.contours (nvp_ge st.config h3) (nvp_le' st.config h126) hfew st.mesh (by show w ≤ 65535; omega)
    (by show h ≤ 65535; omega) (by rw [hM.border]; omega)
  refine ⟨?_, c93_detail _ _ _ _ _ hmesh hin.few⟩
  obtain ⟨d, corners, h1, h2, h3, h4, _⟩ := c93_polygons_partial set env.fuel cfg.maxVerticesPerPolygon (nvp_ge st.config h3)
    (by have := nvp_le' st.config h126; omega) (Or.inr hfew) poly st.mesh pos
  exact ⟨d, corners, h1, h2, h3, h4⟩

/-- **C93 (affectors).** The lines of an affector are those of its triangles. -/
theorem c93_affector {F : Type} (mesh : TriMesh F) (h : ∀ t ∈ mesh.indices, t.1 < mesh.vertices.length ∧ t.2.1 < mesh.vertices.length ∧ t.2.2 < mesh.vertices.length) :
    ∃ ts, List.Forall₂ (CornersOf mesh.vertices) mesh.indices ts ∧ drawAffector mesh = .ok (ts.map fun t => closedLine [t.1, t.2.1, t.2.2]) := by
  obtain ⟨ts, hts⟩ := triangles_exist mesh.indices h
  refine ⟨ts, hts, mapM_ok_of ?_⟩
  rw [List.forall₂_map_right_iff]
  exact hts.imp fun t p hp => triStrip_spec hp

/-! ### Examples: the four strips of C76 -/

/-- Corners as triples of numbers. -/
def asTriple (v : U16Vec3) : Nat × Nat × Nat := (v.x, v.y, v.z)

example : exPoly.iterPolygons = .ok [[0, 1, 2, 3]] := by decide +kernel

example : drawPolyMesh asTriple exPoly = .ok
    { strips := [[(0, 1, 1), (2, 1, 1), (2, 1, 0), (0, 1, 0), (0, 1, 1)]]
      verts := [(0, 1, 1), (2, 1, 1), (2, 1, 0), (2, 1, 0), (0, 1, 0)], indices := [0, 1, 2, 0, 3, 4] } := by decide +kernel

example : (drawDetailMesh exDetail).map (fun d => (d.strips.length, d.indices)) = .ok (2, [3, 0, 2, 0, 1, 2]) := by decide +kernel

/-- The hypotheses of `c93_build_partial` are those of `c78_detail_partial` (see its examples); the build exists. -/
example : buildNavmesh exEnv exBuilder ⟨true, false⟩ exScene = .ok (exPoly, exDetail) := ex_build

/-- A mesh with an empty polygon would not be drawn. -/
example : drawPolyMesh asTriple { vertices := [], polygons := [NO_INDEX, NO_INDEX, NO_INDEX], polygonNeighbors := [], flags := [], regions := [], areas := [], nvp := 3 } =
    .error .panic := by decide

end Rerecast.Visualize
