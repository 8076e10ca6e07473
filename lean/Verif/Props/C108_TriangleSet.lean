import Verif.Lemmas.TriangleSet
import Verif.Props.C105_SceneList
/-! C108: in a level without steep triangles, the order of the triangles and how often each occurs do not matter. -/
namespace Rerecast

theorem input_soup {F : Type} {env : BuildEnv F} {b : ConfigBuilder} {cfg : Config} (hcfg : b.build = .ok cfg) {s : List Affector}
    (hg : GoodScene env.lo env.hi s) (hn : NoSteep env b s) {m : TriMesh ℚ} {fr : Frame} (h : buildInput env cfg s = .ok (m, fr)) :
    m.soup = (sceneTriangles s).map fun t => (some t, some 255) := by
  obtain ⟨m0, hm, hw, hvm, hs⟩ := collect_soup hg
  obtain ⟨o, g1, g2, g3⟩ := mark_soup (env.up cfg.walkableSlopeAngle) hw hs
  unfold buildInput at h
  rw [hm, bind_ok] at h
  split at h
  · cases h
  · rw [g1, bind_ok] at h
    cases h
    rw [g3]
    apply List.map_congr_left
    intro t ht
    have := hn t ht
    rw [← (config_fields hcfg).2.2] at this
    rw [this]
    rfl

theorem triangleSet_build {F : Type} {env : BuildEnv F} {b : ConfigBuilder} {flags : ContourFlags} {s s' : List Affector}
    (hg : GoodBuild env b s) (hg' : GoodScene env.lo env.hi s') (hn : NoSteep env b s)
    (ht : ∀ t, t ∈ sceneTriangles s ↔ t ∈ sceneTriangles s') (hv : SameBox s s')
    {r : PolygonNavmesh × DetailNavmesh F} (hok : buildNavmesh env b flags s = .ok r) : buildNavmesh env b flags s' = .ok r := by
  have hn' : NoSteep env b s' := fun t h => hn t ((ht t).2 h)
  obtain ⟨poly, detail⟩ := r
  obtain ⟨cfg, m, fr, hf, chf, set, st, -⟩ := build_stages hok
  have hsm := hg.spans cfg m fr hf st.config st.input st.solid
  obtain ⟨w, h, hw, hh, -, hI, hs, hnew⟩ := stages_input hg.settings hg.proper hg.fits st.toStages hsm
  -- the same frame
  obtain ⟨m', hin'⟩ : ∃ m', buildInput env cfg s' = .ok (m', fr) := by
    have hin := st.input
    obtain ⟨m0, hm, hw0, hvm, -⟩ := collect_soup hg.proper
    obtain ⟨m1, hm1, hw1, hvm1, hs1⟩ := collect_soup hg'
    have hbox : m0.computeAabb env.lo env.hi = m1.computeAabb env.lo env.hi :=
      computeAabb_congr (fun box => by simp only [hvm, hvm1]; exact hv box) fun v h => hg.proper.finite v ((hvm v).1 h)
    obtain ⟨o1, g1, -⟩ := mark_soup (env.up cfg.walkableSlopeAngle) hw1 hs1
    unfold buildInput at hin ⊢
    rw [hm, bind_ok, hbox] at hin
    rw [hm1, bind_ok, g1]
    cases e : m1.computeAabb env.lo env.hi with
    | none => rw [e] at hin; cases hin
    | some box =>
      rw [e] at hin
      obtain ⟨o, _, hin⟩ := bind_inv hin
      cases hin
      exact ⟨o1, rfl⟩
  have e1 := input_soup st.config hg.proper hn st.input
  have e2 := input_soup st.config hg' hn' hin'
  obtain ⟨a0, a0', r0, r0', same⟩ := soup_same hs hw hh 255 cfg.walkableClimb ht
  rw [← e1, ← rasterizeTriangles_soup] at r0
  rw [← e2, ← rasterizeTriangles_soup] at r0'
  obtain ⟨a1, a1', r1, r1', same⟩ := same.lowHanging cfg.walkableClimb
  obtain ⟨a2, a2', r2, r2', same⟩ := same.ledge cfg.walkableHeight cfg.walkableClimb
  obtain ⟨a3, a3', r3, r3', same⟩ := same.lowHeight cfg.walkableHeight
  have s1 : buildSolid cfg m fr = .ok a3 := by
    unfold buildSolid
    rw [hnew, bind_ok, r0, bind_ok, r1, bind_ok, r2, bind_ok, r3]
  have s2 : buildSolid cfg m' fr = .ok a3' := by
    unfold buildSolid
    rw [hnew, bind_ok, r0', bind_ok, r1', bind_ok, r2', bind_ok, r3']
  have hhf : a3 = hf := Except.ok.inj (s1.symm.trans st.solid)
  subst hhf
  have hc : buildCompact cfg a3' = buildCompact cfg a3 := by
    unfold buildCompact
    rw [same.intoCompact hsm]
  unfold buildNavmesh at hok ⊢
  rw [st.config, bind_ok, st.input, bind_ok] at hok
  rw [st.config, bind_ok, hin', bind_ok]
  dsimp only at hok ⊢
  rw [s1, bind_ok] at hok
  rw [s2, bind_ok, hc]
  exact hok

/-- **C108 (partial).** Two scenes without steep triangles, with the same triangles in whatever order and each however often, and with the same bounding
box: a result of one, polygons and detail, is the result of the other.  Missing: scenes with steep triangles, for which it is false
(`c108_violated`). -/
theorem c108_triangle_set_partial {F : Type} (env : BuildEnv F) (b : ConfigBuilder) (flags : ContourFlags) {s s' : List Affector}
    (hg : GoodBuild env b s) (hg' : GoodBuild env b s') (hn : NoSteep env b s) (ht : ∀ t, t ∈ sceneTriangles s ↔ t ∈ sceneTriangles s')
    (hv : SameBox s s') (r : PolygonNavmesh × DetailNavmesh F) :
    buildNavmesh env b flags s = .ok r ↔ buildNavmesh env b flags s' = .ok r :=
  ⟨triangleSet_build hg hg'.proper hn ht hv,
    triangleSet_build hg' hg.proper (fun t h => hn t ((ht t).2 h)) (fun t => (ht t).symm) fun box => (hv box).symm⟩

theorem sceneTriangles_mem_perm {s s' : List Affector} (h : s.Perm s') (t : Triangle) : t ∈ sceneTriangles s ↔ t ∈ sceneTriangles s' := by
  unfold sceneTriangles
  simp only [List.mem_flatMap, h.mem_iff]

theorem sceneVertex_perm {s s' : List Affector} (h : s.Perm s') (v : V3 ℚ) : SceneVertex s v ↔ SceneVertex s' v := by
  unfold SceneVertex
  simp only [h.mem_iff]

/-- **C108 (order of the objects, partial).** Without steep triangles, the objects of a scene can be given in any order. -/
theorem c108_object_order_partial {F : Type} (env : BuildEnv F) (b : ConfigBuilder) (flags : ContourFlags) {s s' : List Affector} (hp : s.Perm s')
    (hg : GoodBuild env b s) (hn : NoSteep env b s) {r : PolygonNavmesh × DetailNavmesh F} (hok : buildNavmesh env b flags s = .ok r) :
    buildNavmesh env b flags s' = .ok r := by
  refine triangleSet_build hg ⟨?_, ?_, ?_⟩ hn (sceneTriangles_mem_perm hp) (sameBox_of_vertices (sceneVertex_perm hp)) hok
  · intro a ha
    exact hg.proper.indices a (hp.mem_iff.2 ha)
  · intro v hv
    exact hg.proper.finite v ((sceneVertex_perm hp v).2 hv)
  · rw [← (hp.map Affector.vertexCount).sum_eq]
    exact hg.proper.count

/-! ### With steep triangles -/

/-- A floor of 8 by 8 cells. -/
def fenceFloor : Affector := ⟨some ⟨true, some [⟨0, 0, 0⟩, ⟨0, 0, 8⟩, ⟨8, 0, 8⟩, ⟨8, 0, 0⟩], some [0, 1, 2, 0, 2, 3]⟩, id⟩

/-- Eight parallel walls on it, three units high, one through the middle of every row of cells. -/
def fenceWalls : Affector :=
  ⟨some ⟨true, some ((List.range 8).flatMap fun k => [⟨0, 0, k + 1 / 2⟩, ⟨0, 3, k + 1 / 2⟩, ⟨8, 3, k + 1 / 2⟩, ⟨8, 0, k + 1 / 2⟩]),
    some ((List.range 8).flatMap fun k => [4 * k, 4 * k + 1, 4 * k + 2, 4 * k, 4 * k + 2, 4 * k + 3])⟩, id⟩

/-- The polygons of a result and the heights of its vertices. -/
def polysAndHeights (r : PolygonNavmesh × DetailNavmesh ℚ) : List (List Nat) × List Nat := (r.1.polys, r.1.vertices.map (·.y))

set_option maxRecDepth 100000 in
/-- **C108 (violated).** The order of the objects matters if there are walls: if the floor is given after the walls, the tops of the walls count as
walkable and the navmesh is a polygon at their height; if it is given before them, nothing is walkable and the build panics (see C32). -/
theorem c108_violated :
    (buildNavmesh exEnv exBuilder ⟨true, false⟩ [fenceWalls, fenceFloor]).map polysAndHeights = .ok ([[0, 1, 2, 3]], [3, 3, 3, 3]) ∧
    (buildNavmesh exEnv exBuilder ⟨true, false⟩ [fenceFloor, fenceWalls]).map polysAndHeights = .error .panic :=
  ⟨by decide +kernel, by decide +kernel⟩

/-! ### Witnesses -/

theorem exScene_noSteep : NoSteep exEnv exBuilder exScene := by unfold NoSteep; decide +kernel

theorem exScene_reverse_good : exScene ≠ exScene.reverse ∧ sceneTriangles exScene ≠ sceneTriangles exScene.reverse := by
  have h : sceneTriangles exScene ≠ sceneTriangles exScene.reverse := by decide +kernel
  exact ⟨fun e => h (congrArg sceneTriangles e), h⟩

/-- The four strips in the opposite order give the same navmesh. -/
example : buildNavmesh exEnv exBuilder ⟨true, false⟩ exScene.reverse = .ok (exPoly, exDetail) :=
  c108_object_order_partial exEnv exBuilder ⟨true, false⟩ (List.reverse_perm exScene).symm exBuild_good exScene_noSteep ex_build

/-- The four strips given twice. -/
example : buildNavmesh exEnv exBuilder ⟨true, false⟩ (exScene ++ exScene) = .ok (exPoly, exDetail) := by
  have hm : ∀ a, a ∈ exScene ++ exScene ↔ a ∈ exScene := fun a => by rw [List.mem_append, or_self]
  have hv : ∀ v, SceneVertex exScene v ↔ SceneVertex (exScene ++ exScene) v := fun v => by simp only [SceneVertex, hm]
  refine triangleSet_build exBuild_good ⟨fun a ha => exBuild_good.proper.indices a ((hm a).1 ha), fun v h => exBuild_good.proper.finite v ((hv v).2 h), ?_⟩
    exScene_noSteep (fun t => by simp only [sceneTriangles, List.mem_flatMap, hm]) (sameBox_of_vertices hv) ex_build
  decide +kernel

end Rerecast
