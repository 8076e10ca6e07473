import Verif.Lemmas.EarConvex
import Verif.Lemmas.IntoPolyMesh
import Verif.Lemmas.RemoveVertex
import Mathlib.Tactic.IntervalCases
/-! C44–C49: the polygon mesh. -/
namespace Rerecast

private theorem sum_flatMap {α β : Type} (l : List α) (g : α → List β) (f : β → Int) :
    ((l.flatMap g).map f).sum = (l.map fun a => ((g a).map f).sum).sum := by
  induction l with
  | nil => rfl
  | cons a l ih => rw [List.flatMap_cons, List.map_append, List.sum_append, ih, List.map_cons, List.sum_cons]

/-- With the same boundary, the signed areas add up. -/
theorem SameBoundary.area {α : Type} {ps : List (List α)} {p : List α} (h : SameBoundary ps p) (v : α → U16Vec3) :
    (ps.map (shoelace v)).sum = shoelace v p := by
  have := h (fun e => ((v e.1).x : Int) * (v e.2).z - ((v e.2).x : Int) * (v e.1).z) (fun a b => by dsimp only; omega)
  unfold shoelace
  rw [← this, allSides, sum_flatMap]

/-! ### C44 -/

/-- **C44.** When triangulating a contour of `n ≥ 3` vertices succeeds, there are exactly `n - 2` triangles.  Their corners are
three different vertices of the contour, in the order of the contour.  No directed side is used twice, and the triangles
together have the boundary of the contour, so their signed areas add up to its signed area. -/
theorem c44_triangulation_exact (verts : List U16Vec3) (h3 : 3 ≤ verts.length) (T : List Tri) (hT : triangulate verts = .ok T) :
    T.length = verts.length - 2 ∧
    (∀ t ∈ T, InOrder t.corners (List.range verts.length)) ∧
    (∀ t ∈ T, t.1 ≠ t.2.1 ∧ t.2.1 ≠ t.2.2 ∧ t.1 ≠ t.2.2 ∧ t.1 < verts.length ∧ t.2.1 < verts.length ∧ t.2.2 < verts.length) ∧
    (allSides (T.map Tri.corners)).Nodup ∧
    SameBoundary (T.map Tri.corners) (List.range verts.length) ∧
    (T.map fun t => shoelace (fun i => verts.getD i ⟨0, 0, 0⟩) t.corners).sum =
      shoelace (fun i => verts.getD i ⟨0, 0, 0⟩) (List.range verts.length) := by
  have h := (triangulate_out (A := fun _ => True) trivial h3 (Or.inr trivial)).holds T hT
  refine ⟨h.count, h.corners, ?_, h.once, h.bal, ?_⟩
  · intro t ht
    have ho := h.corners t ht
    have hn : t.corners.Nodup := ho.nodup List.nodup_range
    have hm : ∀ x ∈ t.corners, x < verts.length := fun x hx => List.mem_range.1 (ho.mem hx)
    simp only [Tri.corners, List.nodup_cons, List.mem_cons, List.not_mem_nil, or_false, not_or] at hn
    exact ⟨hn.1.1, hn.2.1, hn.1.2, hm _ (by simp [Tri.corners]), hm _ (by simp [Tri.corners]), hm _ (by simp [Tri.corners])⟩
  · rw [← h.bal.area, List.map_map]; rfl

/-- **C44 (outcomes).** For coordinates up to 32767 triangulation ends with triangles or with an error; it neither panics nor
runs forever. -/
theorem c44_outcomes (verts : List U16Vec3) (h3 : 3 ≤ verts.length) (hs : ∀ v ∈ verts, v.x ≤ 32767 ∧ v.z ≤ 32767) :
    (∃ T, triangulate verts = .ok T) ∨ triangulate verts = .error .err := by
  rcases triangulate_out (A := fun e => e = .err) rfl h3 (Or.inl hs) with ⟨T, h, _⟩ | ⟨e, h, rfl⟩
  · exact Or.inl ⟨T, h⟩
  · exact Or.inr h

/-- **C44 (convex contours).** Triangulating a strictly convex contour with coordinates up to 32767 succeeds, and all triangles
turn like the contour: they overlap nowhere. -/
theorem c44_convex (verts : List U16Vec3) (h3 : 3 ≤ verts.length) (hs : ∀ v ∈ verts, v.x ≤ 32767 ∧ v.z ≤ 32767)
    (hc : StrictlyConvex verts) : ∃ T, triangulate verts = .ok T ∧ ∀ t ∈ T, t.turn verts < 0 := by
  obtain ⟨T, h1, _, h2⟩ := triangulate_convex h3 hs hc
  exact ⟨T, h1, h2⟩

/-- The bound on the coordinates in `c44_outcomes` is needed: a large triangle overflows `i32` arithmetic. -/
theorem c44_panics_on_large_coordinates :
    triangulate [⟨0, 0, 0⟩, ⟨0, 0, 65535⟩, ⟨65535, 0, 65535⟩, ⟨65535, 0, 0⟩] = .error .panic := by decide +kernel

/-- An L-shaped contour meets the hypotheses of `c44_triangulation_exact` and `c44_outcomes`. -/
example : triangulate [⟨0, 0, 0⟩, ⟨0, 0, 8⟩, ⟨4, 0, 8⟩, ⟨4, 0, 4⟩, ⟨8, 0, 4⟩, ⟨8, 0, 0⟩] =
    .ok [(1, 2, 3), (0, 1, 3), (3, 4, 5), (0, 3, 5)] := by decide +kernel

/-- A pentagon meets the hypotheses of `c44_convex`. -/
example : StrictlyConvex [⟨0, 0, 0⟩, ⟨0, 0, 4⟩, ⟨2, 0, 6⟩, ⟨4, 0, 4⟩, ⟨4, 0, 0⟩] := by
  intro i j k hij hjk hk
  have hk' : k < 5 := hk
  interval_cases k <;> interval_cases j <;> first | omega | (interval_cases i <;> simp [cross])

/-! ### C45 -/

private theorem addAll_out {A : Fault → Prop} {cap : Nat} {vs : List U16Vec3} (h : (vs.length ≤ cap ∧ cap ≤ 65535) ∨ A .panic) :
    Outs A (VertexTable.addAll cap vs) fun r => r.1.Ok ∧ r.1.verts.Sublist vs ∧
      List.Forall₂ (fun v i => ∃ w, r.1.verts[i]? = some w ∧ Near w v) vs r.2 := by
  unfold VertexTable.addAll
  refine Outs.foldlM (fun pre (r : VertexTable × List Nat) => r.1.Ok ∧ r.1.verts.Sublist pre ∧
      List.Forall₂ (fun v i => ∃ w, r.1.verts[i]? = some w ∧ Near w v) pre r.2) vs _ ⟨VertexTable.ok_empty, List.Sublist.refl _, .nil⟩ ?_
  rintro pre v post ⟨t, is⟩ hl ⟨h1, h2, h3⟩
  have hlen := congrArg List.length hl
  simp only [List.length_append, List.length_cons] at hlen
  have hle := h2.length_le
  dsimp only at hle
  refine Outs.bind (VertexTable.add_out h1 cap v (h.imp (fun h => ⟨by dsimp only; omega, h.2⟩) id)) ?_
  rintro ⟨t', i⟩ ⟨k1, k2, w, hw, hsame⟩
  have hext : ∀ (j : Nat) (u : U16Vec3), t.verts[j]? = some u → t'.verts[j]? = some u := by
    intro j u hj
    rcases k2 with k2 | ⟨k2, _⟩
    · dsimp only at k2; rw [k2]; exact hj
    · dsimp only at k2; rw [k2, List.getElem?_append_left (List.getElem?_eq_some_iff.1 hj).1]; exact hj
  refine Outs.ok ⟨k1, ?_, ?_⟩
  · dsimp only at k2 ⊢
    rcases k2 with k2 | ⟨k2, _⟩
    · rw [k2]; exact h2.trans (List.sublist_append_left _ _)
    · rw [k2]; exact h2.append (List.Sublist.refl _)
  · refine List.rel_append ?_ ?_
    · exact h3.imp fun a j ⟨u, hu, hn⟩ => ⟨u, hext j u hu, hn⟩
    · refine .cons ⟨w, hw, ?_⟩ .nil
      have := VertexTable.sameVertex_iff.1 hsame
      exact ⟨this.1, this.2.1, this.2.2.1, this.2.2.2⟩

/-- **C45.** Whatever vertices are inserted, in whatever order and number: the index returned for a vertex belongs to a stored
vertex with the same x and z and y at most 2 apart, and still does after all later insertions; no two stored vertices have equal
x and z and y at most 2 apart; the stored vertices are vertices that were inserted. -/
theorem c45_deduplicated (cap : Nat) (vs : List U16Vec3) (t : VertexTable) (is : List Nat)
    (hr : VertexTable.addAll cap vs = .ok (t, is)) :
    List.Forall₂ (fun v i => ∃ w, t.verts[i]? = some w ∧ Near w v) vs is ∧
    t.verts.Pairwise (fun v w => ¬ Near v w) ∧ t.verts.Sublist vs := by
  obtain ⟨h1, h2, h3⟩ := (addAll_out (A := fun _ => True) (Or.inr trivial)).holds _ hr
  refine ⟨h3, ?_, h2⟩
  rw [List.pairwise_iff_getElem]
  intro i j hi hj hij hn
  have := h1.apart i j _ _ hij (List.getElem?_eq_getElem hi) (List.getElem?_eq_getElem hj)
  have h' : sameVertex t.verts[i] t.verts[j] = true := VertexTable.sameVertex_iff.2 ⟨hn.1, hn.2.1, hn.2.2.1, hn.2.2.2⟩
  rw [this] at h'; cases h'

/-- **C45 (totality).** Insertion always succeeds while there is room for all vertices. -/
theorem c45_total (cap : Nat) (vs : List U16Vec3) (h1 : vs.length ≤ cap) (h2 : cap ≤ 65535) :
    ∃ r, VertexTable.addAll cap vs = .ok r := by
  obtain ⟨r, hr, _⟩ := (addAll_out (A := fun _ => False) (Or.inl ⟨h1, h2⟩)).total (fun _ => id)
  exact ⟨r, hr⟩

/-- **C45 (mesh).** The vertices of every mesh returned, whether or not border vertices were removed, are contour vertices, and no
two of them have equal x and z and y at most 2 apart. -/
theorem c45_mesh (cset : ContourSet) (fuel nvp : Nat) (h3 : 3 ≤ nvp) (out : PolygonNavmesh)
    (hr : cset.intoPolygonMesh fuel nvp = .ok out) :
    out.vertices.Pairwise (fun v w => ¬ Near v w) ∧ ∀ v ∈ out.vertices, ∃ c ∈ cset.contours, v ∈ c.points := by
  have main : Holds (cset.intoPolygonMesh fuel nvp) fun out =>
      out.vertices.Pairwise (fun v w => ¬ Near v w) ∧ ∀ v ∈ out.vertices, ∃ c ∈ cset.contours, v ∈ c.points := by
    unfold ContourSet.intoPolygonMesh
    refine Holds.bind' fun b hb => ?_
    obtain ⟨_, blocks, hinv⟩ := (buildMesh_out (A := fun _ => True) trivial h3 (Or.inr trivial)).holds b hb
    dsimp only
    refine Holds.bind' fun m hm => ?_
    have hsub := removeBorder_verts _ _ _ _ m hm
    dsimp only at hsub
    have hfin : ∀ (slots : List Slot) (out : PolygonNavmesh), ({ m with slots } : Mesh).toNavmesh nvp (List.replicate m.npolys 0) = .ok out →
        out.vertices.Pairwise (fun v w => ¬ Near v w) ∧ ∀ v ∈ out.vertices, ∃ c ∈ cset.contours, v ∈ c.points := by
      intro slots out ho
      unfold Mesh.toNavmesh at ho
      rw [if_neg (by omega)] at ho
      cases ho
      dsimp only
      refine ⟨List.Pairwise.sublist hsub ?_, ?_⟩
      · rw [List.pairwise_iff_getElem]
        intro i j hi hj hij hn
        have := hinv.table.apart i j _ _ hij (List.getElem?_eq_getElem hi) (List.getElem?_eq_getElem hj)
        rw [VertexTable.sameVertex_iff.2 ⟨hn.1, hn.2.1, hn.2.2.1, hn.2.2.2⟩] at this
        cases this
      · intro v hv
        obtain ⟨c, hc, _, hm⟩ := hinv.from_ v (hsub.subset hv)
        exact ⟨c, hc, hm⟩
    refine Holds.bind' fun slots _ => ?_
    split
    · exact Holds.bind' fun s' _ => hfin s'
    · exact Holds.bind' fun s' _ => hfin s'
  exact main out hr

/-- Three insertions, two of them of nearly the same vertex. -/
example : (VertexTable.addAll 8 [⟨1, 5, 1⟩, ⟨2, 5, 1⟩, ⟨1, 7, 1⟩]).map (fun r => (r.1.verts, r.2)) =
    .ok ([⟨1, 5, 1⟩, ⟨2, 5, 1⟩], [0, 1, 0]) := by decide +kernel

/-! ### C46 -/

/-- **C46.** Merging two polygons whose merge value is positive: the result has `na + nb - 2 ≤ nvp` corners.  If the shared side is
used in opposite directions, the result has the boundary of the two polygons, so that its signed area is the sum of theirs, and it
is convex at every corner if both polygons are, and strictly convex (any three corners in order turn the same way) if both polygons are. -/
theorem c46_merge (verts : List U16Vec3) (nvp : Nat) (pa pb : List Nat) (ha : 3 ≤ pa.length) (hb : 3 ≤ pb.length)
    (hla : ∀ v ∈ pa, v < verts.length) (hlb : ∀ v ∈ pb, v < verts.length) (v ea eb : Nat) (hv : 0 < v)
    (hm : mergeValue verts nvp pa pb = .ok (some (v, ea, eb))) :
    Shared pa pb ea eb ∧ ∃ p, mergePolyVerts pa pb ea eb = .ok p ∧ p.length = pa.length + pb.length - 2 ∧ p.length ≤ nvp ∧
      (∀ a b, (sides pa)[ea]? = some (a, b) → (sides pb)[eb]? = some (b, a) →
        SameBoundary [pa, pb] p ∧ (∀ pos : Nat → U16Vec3, shoelace pos p = shoelace pos pa + shoelace pos pb) ∧
        (ConvexCorners verts pa → ConvexCorners verts pb → ConvexCorners verts p) ∧
        (StrictlyConvex (pa.map (pos verts)) → StrictlyConvex (pb.map (pos verts)) → StrictlyConvex (p.map (pos verts)))) := by
  have h := ((mergeValue_out (A := fun _ => True) (nvp := nvp) ⟨hla, Or.inr trivial⟩ ⟨hlb, Or.inr trivial⟩ (by omega)).holds _ hm).1 v ea eb rfl hv
  have hs := h.shared
  obtain ⟨e, f, he, hf, _⟩ := hs
  have hea : ea < pa.length := by rw [← sides_length pa]; exact (List.getElem?_eq_some_iff.1 he).1
  have heb : eb < pb.length := by rw [← sides_length pb]; exact (List.getElem?_eq_some_iff.1 hf).1
  have hlen := h.len
  have hml : (mergedPoly pa pb ea eb).length = pa.length + pb.length - 2 := mergedPoly_length (by omega) (by omega)
  refine ⟨h.shared, mergedPoly pa pb ea eb, mergePolyVerts_eq hea heb, hml, by omega, ?_⟩
  intro a b h1 h2
  obtain ⟨X, hX⟩ := rotate_side h1 (by omega)
  obtain ⟨Y, hY⟩ := rotate_side h2 (by omega)
  have meet : Meet pa pb ea eb a b X Y := ⟨hX, hY, h1⟩
  have hb : SameBoundary [pa, pb] (mergedPoly pa pb ea eb) := by
    intro g hg
    have := (meet.sides.map g).sum_eq
    rw [List.map_append, List.sum_append] at this
    have hab := hg a b
    simp only [List.map_cons, List.map_nil, List.sum_cons, List.sum_nil, add_zero] at this
    simp only [allSides, List.flatMap_cons, List.flatMap_nil, List.append_nil]
    omega
  have lX := congrArg List.length hX
  have lY := congrArg List.length hY
  simp at lX lY
  have hX0 : X ≠ [] := by rintro rfl; simp at lX; omega
  have hY0 : Y ≠ [] := by rintro rfl; simp at lY; omega
  refine ⟨hb, ?_, fun ca cb => meet.corners hX0 hY0 hea heb ca cb h.convex, fun ca cb => meet.convex hX0 hY0 hea heb ca cb h.convex⟩
  · intro pos
    have := hb.area pos
    simp only [List.map_cons, List.map_nil, List.sum_cons, List.sum_nil, add_zero] at this
    exact this.symm

/-- **C46 (mesh).** In a mesh of contours without vertices to remove, or with fewer than 65535 vertices: for every contour of at least 3 vertices there are mesh vertices
standing for it, and polygons of at most `nvp` corners that make it up (`MakesUp`): they run in its direction, use no directed side
twice, have its boundary, stay convex, and no two of them could be merged.  The mesh has these polygons and no others, each with
region and area of its contour. -/
theorem c46_mesh (cset : ContourSet) (fuel nvp : Nat) (h3 : 3 ≤ nvp) (hn : nvp ≤ 65535) (hb : cset.NoBorderVertices ∨ cset.FewVertices)
    (out : PolygonNavmesh) (hr : cset.intoPolygonMesh fuel nvp = .ok out) : ∃ blocks, MeshOf cset nvp out blocks :=
  (intoPolygonMesh_made h3 hn hb out hr).block

/-- **C46 (area).** For such a mesh, if no two vertices of a contour coincide in the plane, the signed areas of its polygons add up to
the signed area of the contour. -/
theorem c46_area (cset : ContourSet) (fuel nvp : Nat) (h3 : 3 ≤ nvp) (hn : nvp ≤ 65535) (hb : cset.NoBorderVertices ∨ cset.FewVertices)
    (out : PolygonNavmesh) (hr : cset.intoPolygonMesh fuel nvp = .ok out) :
    ∃ blocks, MeshOf cset nvp out blocks ∧ ∀ b ∈ blocks, b.contour.Simple →
      (b.polys.map (shoelace (pos out.vertices))).sum =
        shoelace (fun i => b.contour.points.getD i ⟨0, 0, 0⟩) (List.range b.contour.vertices.length) := by
  obtain ⟨blocks, h⟩ := c46_mesh cset fuel nvp h3 hn hb out hr
  refine ⟨blocks, h, ?_⟩
  intro b hbm hs
  have hm := h.makes b hbm
  have hnd := hm.distinct hs
  rw [(hm.boundary hnd).area]
  have hl : b.contour.vertices.length = b.ring.length := hm.stands.length_eq
  have e : b.ring = (List.range b.ring.length).map fun i => b.ring.getD i 0 := by
    refine List.ext_getElem (by simp) fun i h1 h2 => ?_
    simp [List.getD_eq_getElem?_getD, h1]
  unfold shoelace
  conv_lhs => rw [e, sides_map, List.map_map]
  rw [hl]
  congr 1
  refine List.map_congr_left fun s hsm => ?_
  obtain ⟨m1, m2⟩ := mem_sides hsm
  have p1 := hm.stands.pos (List.mem_range.1 m1)
  have p2 := hm.stands.pos (List.mem_range.1 m2)
  simp only [Function.comp, Prod.map_fst, Prod.map_snd]
  rw [p1.1, p1.2, p2.1, p2.2]

/-- An L-shaped contour and a square that fits into its corner. -/
def exampleContours : ContourSet :=
  ⟨[⟨[(⟨0, 0, 0⟩, 0), (⟨0, 0, 8⟩, 0), (⟨4, 0, 8⟩, 0), (⟨4, 0, 4⟩, 0), (⟨8, 0, 4⟩, 0), (⟨8, 0, 0⟩, 0)], [], 1, 63⟩,
    ⟨[(⟨4, 0, 4⟩, 0), (⟨4, 0, 8⟩, 0), (⟨8, 0, 8⟩, 0), (⟨8, 0, 4⟩, 0)], [], 2, 63⟩], 8, 8, 0⟩

/-- The hypotheses of `c46_mesh` are met by an L-shaped contour and a square beside it. -/
example : exampleContours.NoBorderVertices ∧ (exampleContours.intoPolygonMesh 0 4).map (fun o => (o.polys, o.areas, o.regions.take 3)) =
    .ok ([[1, 2, 3, 0], [5, 0, 3, 4], [3, 2, 6, 4]], [63, 63, 63], [1, 1, 2]) := by
  refine ⟨?_, by decide +kernel⟩
  unfold ContourSet.NoBorderVertices; decide

/-! ### C47 -/

/-- **C47 (partial).** In a mesh with at most 65535 polygon sides, of contours without vertices to remove or with fewer than
65535 vertices, a polygon that lists another as
its neighbour across a side is listed by it across the same side in reverse.  (If `border_size > 0`, values from `0x8000` on are
portals.)  Missing: meshes with more sides, for which edge numbers are truncated to `u16`. -/
theorem c47_mutual_partial (cset : ContourSet) (fuel nvp : Nat) (h3 : 3 ≤ nvp) (hn : nvp ≤ 65535) (hb : cset.NoBorderVertices ∨ cset.FewVertices)
    (out : PolygonNavmesh) (hr : cset.intoPolygonMesh fuel nvp = .ok out) (hfew : (out.polys.map List.length).sum ≤ 65535)
    (i j k : Nat) (hi : i < out.polygonCount) (hj : j < nvp) (hk : out.neighbor i j = some k)
    (hreal : k < 0x8000 ∨ (cset.borderSize = 0 ∧ k ≠ 0xFFFF)) :
    k ≠ i ∧ ∃ l a b, out.side i j = some (a, b) ∧ out.side k l = some (b, a) ∧ l < nvp ∧ out.neighbor k l = some i := by
  have h := (intoPolygonMesh_made h3 hn hb out hr).tables
  obtain ⟨nei, hadj, hnei⟩ := h.nei
  obtain ⟨u, hu, hku⟩ := (hnei i j k hi hj).1 hk
  have huk : u = k ∧ k ≠ NO_INDEX := by
    split at hku
    · rename_i hc
      exfalso
      rcases hreal with hlt | ⟨h0, _⟩
      · cases hs : out.side i j with
        | none => rw [hs] at hku; simp [NO_INDEX] at hku; omega
        | some e =>
          rw [hs] at hku
          simp only [Option.map_some, Option.getD_some] at hku
          have := openValue_spec (w := cset.width) (h := cset.height) (verts := out.vertices) (e := e)
          rw [← hku] at this
          rcases this with ⟨l, _, _, hl⟩ | ⟨_, hl⟩ <;> omega
      · omega
    · refine ⟨hku.symm, ?_⟩
      unfold NO_INDEX
      omega
  obtain ⟨rfl, hno⟩ := huk
  obtain ⟨hne, l, ⟨a, b⟩, f, hl, he, hf, hrev⟩ := hadj.mutual_ i j u hu hno
  have hlt := dart_lt h.fits hf
  have hcnt : out.polys.length = out.polygonCount := by unfold PolygonNavmesh.polys; simp
  refine ⟨hne, l, a, b, he, ?_, hlt.2, ?_⟩
  · rw [hrev hfew] at hf; exact hf
  · refine (hnei u l i (by rw [← hcnt]; exact hlt.1) hlt.2).2 ⟨i, hl, ?_⟩
    rw [if_neg]
    rintro ⟨_, hi'⟩
    have := h.fits.n_le
    unfold NO_INDEX at hi'
    omega

/-- **C47 (completeness, same guards).** A side that two polygons use in opposite directions, and that is used nowhere else, makes them
neighbours. -/
theorem c47_complete_partial (cset : ContourSet) (fuel nvp : Nat) (h3 : 3 ≤ nvp) (hn : nvp ≤ 65535) (hb : cset.NoBorderVertices ∨ cset.FewVertices)
    (out : PolygonNavmesh) (hr : cset.intoPolygonMesh fuel nvp = .ok out) (hfew : (out.polys.map List.length).sum ≤ 65535)
    (i j k l a b : Nat) (hij : out.side i j = some (a, b)) (hkl : out.side k l = some (b, a)) (hne : i ≠ k) (hab : a ≠ b)
    (h1 : ∀ i' j', out.side i' j' = some (a, b) → (i', j') = (i, j)) (h2 : ∀ k' l', out.side k' l' = some (b, a) → (k', l') = (k, l)) :
    out.neighbor i j = some k ∧ out.neighbor k l = some i := by
  have h := (intoPolygonMesh_made h3 hn hb out hr).tables
  obtain ⟨nei, hadj, hnei⟩ := h.nei
  have hcnt : out.polys.length = out.polygonCount := by unfold PolygonNavmesh.polys; simp
  obtain ⟨c1, c2⟩ := hadj.complete hfew i j k l a b hij hkl hne hab (fun x hx => h1 x.1 x.2 hx) (fun x hx => h2 x.1 x.2 hx)
  have l1 := dart_lt h.fits (d := (i, j)) hij
  have l2 := dart_lt h.fits (d := (k, l)) hkl
  have hle := h.fits.n_le
  refine ⟨(hnei i j k (by rw [← hcnt]; exact l1.1) l1.2).2 ⟨k, c1, ?_⟩, (hnei k l i (by rw [← hcnt]; exact l2.1) l2.2).2 ⟨i, c2, ?_⟩⟩
  · rw [if_neg]; rintro ⟨_, hh⟩; dsimp only at l2; unfold NO_INDEX at hh; omega
  · rw [if_neg]; rintro ⟨_, hh⟩; dsimp only at l1; unfold NO_INDEX at hh; omega

/-- **C47 (open sides, same guards).** A side that no polygon uses in reverse has no neighbour: its entry is `0xFFFF`, or, if `border_size > 0` and
it runs along border `k` of the tile, `0x8000 + k`.  Entries without a side are `0xFFFF`. -/
theorem c47_open_partial (cset : ContourSet) (fuel nvp : Nat) (h3 : 3 ≤ nvp) (hn : nvp ≤ 65535) (hb : cset.NoBorderVertices ∨ cset.FewVertices)
    (out : PolygonNavmesh) (hr : cset.intoPolygonMesh fuel nvp = .ok out) (hfew : (out.polys.map List.length).sum ≤ 65535)
    (i j : Nat) (hi : i < out.polygonCount) (hj : j < nvp) :
    (∀ a b, out.side i j = some (a, b) → (∀ k l, out.side k l ≠ some (b, a)) → ∃ v, out.neighbor i j = some v ∧
      (cset.borderSize = 0 → v = 0xFFFF) ∧
      (0 < cset.borderSize → OpenSide cset.width cset.height (pos out.vertices a) (pos out.vertices b) v)) ∧
    (out.side i j = none → out.neighbor i j = some 0xFFFF) := by
  have h := (intoPolygonMesh_made h3 hn hb out hr).tables
  obtain ⟨nei, hadj, hnei⟩ := h.nei
  obtain ⟨v, hv⟩ := h.nei_some i j hi hj
  obtain ⟨u, hu, hvu⟩ := (hnei i j v hi hj).1 hv
  refine ⟨?_, ?_⟩
  · intro a b hs hrev
    have hun : u = NO_INDEX := by
      by_contra hne
      obtain ⟨_, l, e, f, _, he, hf, hh⟩ := hadj.mutual_ i j u hu hne
      have he' : out.side i j = some e := he
      rw [hs] at he'
      cases he'
      rw [hh hfew] at hf
      exact hrev u l hf
    subst hun
    refine ⟨v, hv, ?_, ?_⟩
    · intro h0
      rw [if_neg (by omega)] at hvu
      exact hvu
    · intro h0
      rw [if_pos ⟨h0, rfl⟩, hs] at hvu
      simp only [Option.map_some, Option.getD_some] at hvu
      rw [hvu]
      exact openValue_spec (e := (a, b))
  · intro hs
    have hun := hadj.off hu hs
    subst hun
    rw [hv, hvu, hs]
    simp [NO_INDEX]

/-- The hypotheses of the C47 theorems are met, with neighbours across three sides. -/
example : (exampleContours.intoPolygonMesh 0 4).map (fun o => ((o.polys.map List.length).sum, o.polygonNeighbors)) =
    .ok (12, [65535, 2, 1, 65535, 65535, 0, 2, 65535, 0, 65535, 65535, 1]) := by decide +kernel

/-! ### C48 -/

/-- **C48 (partial).** Without vertices to remove, and with coordinates up to 32767, `into_polygon_mesh` returns a mesh or an error: it
neither panics nor runs forever.  Missing: contours with vertices to remove, for which it does not hold, see `c48_violated`. -/
theorem c48_outcomes_partial (cset : ContourSet) (fuel nvp : Nat) (h3 : 3 ≤ nvp) (hn : nvp ≤ 65535) (hb : cset.NoBorderVertices)
    (hs : cset.Small) : (∃ out, cset.intoPolygonMesh fuel nvp = .ok out) ∨ cset.intoPolygonMesh fuel nvp = .error .err := by
  rcases intoPolygonMesh_out (A := fun e => e = .err) (fuel := fuel) rfl h3 hn (Or.inl hs) hb with ⟨o, h, _⟩ | ⟨e, h, rfl⟩
  · exact Or.inl ⟨o, h⟩
  · exact Or.inr h

/-- A pentagon with one vertex marked for removal. -/
def hangingContours : ContourSet :=
  ⟨[⟨[(⟨0, 0, 0⟩, 0), (⟨0, 0, 4⟩, 0), (⟨2, 0, 6⟩, BORDER_VERTEX), (⟨4, 0, 4⟩, 0), (⟨4, 0, 0⟩, 0)], [], 1, 63⟩], 20, 20, 3⟩

private def hangMesh : Mesh :=
  ⟨[⟨0, 0, 0⟩, ⟨0, 0, 4⟩, ⟨2, 0, 6⟩, ⟨4, 0, 4⟩, ⟨4, 0, 0⟩],
    [⟨[1, 2, 3, 4, 0, 65535], [65535, 65535, 65535, 65535, 65535, 65535]⟩], 1, [1, 0, 0], [63, 0, 0]⟩

private theorem hang_remove (fuel : Nat) : removeVertex fuel 5 6 3 hangMesh 2 = .error .diverge := by
  have h1 : removeVertex fuel 5 6 3 hangMesh 2 = fillHole fuel 5 6 3 6
      ⟨[⟨0, 0, 0⟩, ⟨0, 0, 4⟩, ⟨4, 0, 4⟩, ⟨4, 0, 0⟩], hangMesh.slots, 0, [1, 0, 0], [63, 0, 0]⟩
      [⟨0, 1, 1, 63⟩, ⟨65534, 2, 1, 63⟩, ⟨65534, 3, 1, 63⟩, ⟨65534, 0, 1, 63⟩] := by
    unfold removeVertex
    have e1 : collectHole 6 2 (((hangMesh.slots.take hangMesh.npolys).map fun s => (s.poly 6).count 2).sum * 6) (hangMesh.npolys + 1) 0 hangMesh [] =
        .ok ({ hangMesh with npolys := 0 }, [⟨0, 1, 1, 63⟩, ⟨65535, 3, 1, 63⟩, ⟨65535, 4, 1, 63⟩, ⟨65535, 0, 1, 63⟩]) := by decide +kernel
    have e2 : dropVertex 6 2 { hangMesh with npolys := 0 } =
        .ok ⟨[⟨0, 0, 0⟩, ⟨0, 0, 4⟩, ⟨4, 0, 4⟩, ⟨4, 0, 0⟩], hangMesh.slots, 0, [1, 0, 0], [63, 0, 0]⟩ := by decide +kernel
    dsimp only
    rw [e1, bind_ok]
    dsimp only
    rw [e2, bind_ok]
    rfl
  rw [h1]
  unfold fillHole
  dsimp only
  rw [if_neg (by decide)]
  have h2 : ∀ f : Nat, holeLoop 6 f 5 ⟨[⟨0, 1, 1, 63⟩, ⟨65534, 2, 1, 63⟩, ⟨65534, 3, 1, 63⟩, ⟨65534, 0, 1, 63⟩, ⟨0, 0, 0, 0⟩, ⟨0, 0, 0, 0⟩], 4,
      [(0, 1, 63)], false⟩ = .error .diverge := by
    intro f
    match f with
    | 0 => decide +kernel
    | 1 => decide +kernel
    | f + 2 =>
      unfold holeLoop
      rw [if_pos (by decide)]
      have e : holeScan 6 (f + 2) ⟨[⟨0, 1, 1, 63⟩, ⟨65534, 2, 1, 63⟩, ⟨65534, 3, 1, 63⟩, ⟨65534, 0, 1, 63⟩, ⟨0, 0, 0, 0⟩, ⟨0, 0, 0, 0⟩], 4,
          [(0, 1, 63)], false⟩ 0 = holeScan 6 f ⟨[⟨0, 1, 1, 63⟩, ⟨65534, 0, 1, 63⟩, ⟨65534, 3, 1, 63⟩, ⟨65534, 0, 1, 63⟩, ⟨0, 0, 0, 0⟩, ⟨0, 0, 0, 0⟩], 2,
          [(65534, 1, 63), (0, 1, 63), (1, 1, 63)], true⟩ 2 := rfl
      rw [e]
      have e' : holeScan 6 f ⟨[⟨0, 1, 1, 63⟩, ⟨65534, 0, 1, 63⟩, ⟨65534, 3, 1, 63⟩, ⟨65534, 0, 1, 63⟩, ⟨0, 0, 0, 0⟩, ⟨0, 0, 0, 0⟩], 2,
          [(65534, 1, 63), (0, 1, 63), (1, 1, 63)], true⟩ 2 = .ok ⟨[⟨0, 1, 1, 63⟩, ⟨65534, 0, 1, 63⟩, ⟨65534, 3, 1, 63⟩, ⟨65534, 0, 1, 63⟩, ⟨0, 0, 0, 0⟩, ⟨0, 0, 0, 0⟩], 2,
          [(65534, 1, 63), (0, 1, 63), (1, 1, 63)], true⟩ := by cases f <;> rfl
      rw [e', bind_ok, if_pos rfl]
      unfold holeLoop
      rw [if_pos (by decide), stuck (by decide) (by decide +kernel)]
      rfl
  exact (congrArg (· >>= _) (h2 fuel)).trans rfl

/-- **C48 is violated.** Removing one vertex of a pentagon never ends: the loop that strings the edges of the hole together only
moves on to the next edge after a match. -/
theorem c48_violated (fuel : Nat) : hangingContours.intoPolygonMesh fuel 6 = .error .diverge := by
  unfold ContourSet.intoPolygonMesh
  have hb : (hangingContours.buildMesh 6).map (fun b => (b.vflags, ({ b.mesh with verts := b.table.verts, slots := b.mesh.slots.take b.mesh.npolys } : Mesh))) =
      .ok ([false, false, true, false, false], hangMesh) := by decide +kernel
  cases hbm : hangingContours.buildMesh 6 with
  | error e => rw [hbm] at hb; cases hb
  | ok b =>
    rw [hbm] at hb
    have hb' : (b.vflags, ({ b.mesh with verts := b.table.verts, slots := b.mesh.slots.take b.mesh.npolys } : Mesh)) =
      ([false, false, true, false, false], hangMesh) := Except.ok.inj hb
    obtain ⟨h1, h2⟩ := Prod.mk.inj hb'
    rw [bind_ok]
    dsimp only
    have h3 : b.table.verts.length = hangMesh.verts.length := by rw [← h2]
    rw [h1, h2, h3]
    have e : removeBorder fuel hangingContours.maxVertices 6 hangingContours.maxTris hangMesh.verts.length 0 [false, false, true, false, false] hangMesh = .error .diverge := by
      show removeBorder fuel 5 6 3 5 0 [false, false, true, false, false] hangMesh = .error .diverge
      have e0 : removeBorder fuel 5 6 3 5 0 [false, false, true, false, false] hangMesh =
        removeBorder fuel 5 6 3 3 2 [false, false, true, false, false] hangMesh := rfl
      rw [e0]
      unfold removeBorder
      rw [if_pos (by decide)]
      have e1 : canRemoveVertex 6 (hangMesh.slots.take hangMesh.npolys) 2 = .ok true := by decide +kernel
      have e2 : idx [false, false, true, false, false] 2 = .ok true := rfl
      rw [e2, bind_ok, if_pos rfl, e1, bind_ok, if_neg (by decide), hang_remove]
      rfl
    rw [e]
    rfl

/-- **C48 fails for every removal.** If a mesh is returned, no vertex has been removed: every vertex of every contour of at least 3
vertices, marked for removal or not, is still among the vertices of the mesh.  So whenever `can_remove_vertex` finds that a marked
vertex can go, the call panics or runs forever, as in `c48_violated`. -/
theorem c48_removal_never_succeeds (cset : ContourSet) (fuel nvp : Nat) (h3 : 3 ≤ nvp) (hn : nvp ≤ 65535) (hb : cset.FewVertices)
    (out : PolygonNavmesh) (hr : cset.intoPolygonMesh fuel nvp = .ok out) (c : Contour) (hc : c ∈ cset.contours) (hl : 3 ≤ c.vertices.length)
    (v : U16Vec3) (hv : v ∈ c.points) : ∃ w ∈ out.vertices, Near w v := by
  obtain ⟨blocks, h⟩ := (intoPolygonMesh_made h3 hn (Or.inr hb) out hr).block
  have hm : c ∈ blocks.map (·.contour) := by rw [h.contours]; exact List.mem_filter.2 ⟨hc, by simpa using hl⟩
  obtain ⟨b, hb, rfl⟩ := List.mem_map.1 hm
  exact standsFor_mem (h.makes b hb).stands hv

/-- A vertex marked for removal that is kept, because two squares meet there. -/
def keptContours : ContourSet :=
  ⟨[⟨[(⟨0, 0, 0⟩, 0), (⟨0, 0, 4⟩, BORDER_VERTEX), (⟨4, 0, 4⟩, 0), (⟨4, 0, 0⟩, 0)], [], 1, 63⟩,
    ⟨[(⟨0, 0, 4⟩, BORDER_VERTEX), (⟨0, 0, 8⟩, 0), (⟨4, 0, 8⟩, 0), (⟨4, 0, 4⟩, 0)], [], 2, 63⟩], 20, 20, 3⟩

/-- Its contours meet the hypotheses of C46, C47, C49 and of `c48_removal_never_succeeds`. -/
example : keptContours.FewVertices ∧ (keptContours.intoPolygonMesh 0 6).map (fun o => (o.polys, o.polygonNeighbors.take 4)) =
    .ok ([[0, 1, 2, 3], [1, 4, 5, 2]], [32768, 1, 65535, 32771]) := by
  refine ⟨?_, by decide +kernel⟩
  unfold ContourSet.FewVertices; decide

/-- The example of C46 meets the hypotheses of `c48_outcomes_partial`. -/
example : exampleContours.NoBorderVertices ∧ exampleContours.Small := by
  constructor
  · unfold ContourSet.NoBorderVertices; decide
  · unfold ContourSet.Small; decide

/-! ### C49 -/

/-- **C49 (partial).** In a mesh of contours without vertices to remove, or with fewer than 65535 vertices, `polygons` and `polygon_neighbors` have one row of `nvp`
entries per polygon, `flags` and `areas` one entry per polygon, and every polygon has between 3 and `nvp` vertices, all of which
exist.  `regions` is longer: see `c49_regions_violated`. -/
theorem c49_tables_partial (cset : ContourSet) (fuel nvp : Nat) (h3 : 3 ≤ nvp) (hn : nvp ≤ 65535) (hb : cset.NoBorderVertices ∨ cset.FewVertices)
    (out : PolygonNavmesh) (hr : cset.intoPolygonMesh fuel nvp = .ok out) :
    out.nvp = nvp ∧ out.polygons.length = out.polygonCount * nvp ∧ out.polygonNeighbors.length = out.polygonCount * nvp ∧
    out.flags = List.replicate out.polygonCount 0 ∧ out.areas.length = out.polygonCount ∧ out.polygonCount ≤ out.regions.length ∧
    ∀ p ∈ out.polys, 3 ≤ p.length ∧ p.length ≤ nvp ∧ ∀ v ∈ p, v < out.vertices.length := by
  have hm := intoPolygonMesh_made h3 hn hb out hr
  have h := hm.tables
  refine ⟨h.nvp_eq, h.polygons, h.neighbors, h.flags, h.areas, ?_, ?_⟩
  · obtain ⟨blocks, hm⟩ := hm.block
    have h1 := congrArg List.length hm.regions
    have h2 := congrArg List.length hm.polys
    have h3 : (blocks.flatMap fun b => b.polys.map fun _ => b.contour.region).length = (blocks.flatMap (·.polys)).length := by
      simp [List.length_flatMap]
    rw [h3, ← h2, List.length_take] at h1
    have hcnt : out.polys.length = out.polygonCount := by unfold PolygonNavmesh.polys; simp
    omega
  · intro p hp
    have := h.fits.len p hp
    exact ⟨this.1, this.2, h.fits.lt p hp⟩

/-- **C49 fails for `regions`.** A square yields one polygon, but two region entries: the table keeps the size it was allocated with. -/
theorem c49_regions_violated :
    (ContourSet.intoPolygonMesh 0 ⟨[⟨[(⟨0, 0, 0⟩, 0), (⟨0, 0, 8⟩, 0), (⟨8, 0, 8⟩, 0), (⟨8, 0, 0⟩, 0)], [], 1, 63⟩], 8, 8, 0⟩ 6).map
      (fun o => (o.polygonCount, o.regions)) = .ok (1, [1, 0]) := by decide +kernel

end Rerecast
