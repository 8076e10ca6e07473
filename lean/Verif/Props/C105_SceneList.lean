import Verif.Lemmas.SceneList
import Verif.Props.C75_C79_Pipeline
/-! C105: only the triangles of a scene count, not how they are stored. -/
namespace Rerecast

/-- **C105 (same box).** Two scenes with the same triangles in the same order and with the same bounding box give the same result: vertices that belong
to no triangle count only as far as they enlarge the box. -/
theorem c105_same_box {F : Type} (env : BuildEnv F) (b : ConfigBuilder) (flags : ContourFlags) {s s' : List Affector}
    (hg : GoodScene env.lo env.hi s) (hg' : GoodScene env.lo env.hi s') (ht : sceneTriangles s = sceneTriangles s') (hv : SameBox s s') :
    buildNavmesh env b flags s = buildNavmesh env b flags s' := by
  unfold buildNavmesh
  cases b.build with
  | error e => rw [bind_error, bind_error]
  | ok cfg =>
    rw [bind_ok, bind_ok]
    rcases buildInput_congr env cfg hg hg' ht hv with ⟨e, h1, h2⟩ | ⟨m, m', fr, h1, h2, h3⟩
    · rw [h1, h2]
    · rw [h1, h2, bind_ok, bind_ok]
      dsimp only
      rw [h3]

/-- **C105.** Two scenes with the same triangles in the same order and with the same vertex positions give the same result, polygons and detail, or
the same failure: it does not matter over how many objects the triangles are spread, which triangles share vertices by index, how vertices
are numbered or repeated, or which part of a position is in the mesh and which in the transform. -/
theorem c105_same_triangles {F : Type} (env : BuildEnv F) (b : ConfigBuilder) (flags : ContourFlags) {s s' : List Affector}
    (hg : GoodScene env.lo env.hi s) (hg' : GoodScene env.lo env.hi s') (ht : sceneTriangles s = sceneTriangles s')
    (hv : ∀ v, SceneVertex s v ↔ SceneVertex s' v) : buildNavmesh env b flags s = buildNavmesh env b flags s' :=
  c105_same_box env b flags hg hg' ht (sameBox_of_vertices hv)

/-- The corners of the triangles are vertices of the scene. -/
theorem corner_sceneVertex {s : List Affector} {t : Triangle} (h : t ∈ sceneTriangles s) : SceneVertex s t.1 ∧ SceneVertex s t.2.1 ∧ SceneVertex s t.2.2 := by
  obtain ⟨a, ha, h⟩ := List.mem_flatMap.1 h
  cases hr : a.read with
  | none => rw [triangles_of_unreadable hr] at h; cases h
  | some m =>
    obtain ⟨vs, is, hrd, -⟩ := read_iff.1 hr
    rw [triangles_of_readable hrd] at h
    obtain ⟨n, -, h⟩ := List.mem_filterMap.1 h
    obtain ⟨i, j, k, p, q, r, -, -, -, f1, f2, f3, rfl⟩ := nthTriangle_iff.1 h
    exact ⟨⟨a, ha, vs, is, hrd, p, List.mem_of_getElem? f1, rfl⟩, ⟨a, ha, vs, is, hrd, q, List.mem_of_getElem? f2, rfl⟩,
      ⟨a, ha, vs, is, hrd, r, List.mem_of_getElem? f3, rfl⟩⟩

/-- **C105 (no stray vertices).** If in both scenes every vertex belongs to a triangle, the triangles alone decide. -/
theorem c105_no_stray {F : Type} (env : BuildEnv F) (b : ConfigBuilder) (flags : ContourFlags) {s s' : List Affector}
    (hg : GoodScene env.lo env.hi s) (hg' : GoodScene env.lo env.hi s') (hn : NoStrayVertex s) (hn' : NoStrayVertex s')
    (ht : sceneTriangles s = sceneTriangles s') : buildNavmesh env b flags s = buildNavmesh env b flags s' := by
  refine c105_same_triangles env b flags hg hg' ht fun v => ⟨fun h => ?_, fun h => ?_⟩
  · obtain ⟨t, h, e⟩ := hn v h
    rw [ht] at h
    obtain ⟨c1, c2, c3⟩ := corner_sceneVertex h
    rcases e with rfl | rfl | rfl <;> assumption
  · obtain ⟨t, h, e⟩ := hn' v h
    rw [← ht] at h
    obtain ⟨c1, c2, c3⟩ := corner_sceneVertex h
    rcases e with rfl | rfl | rfl <;> assumption

/-- **C105 (unreadable objects).** An object without a mesh that can be read changes nothing, wherever it is in the scene. -/
theorem c105_unreadable {F : Type} (env : BuildEnv F) (b : ConfigBuilder) (flags : ContourFlags) (s s' : List Affector) {a : Affector}
    (ha : ∀ vertices indices, ¬ a.Readable vertices indices) : buildNavmesh env b flags (s ++ a :: s') = buildNavmesh env b flags (s ++ s') := by
  have hr : a.read = none := by
    cases h : a.read with
    | none => rfl
    | some m =>
      obtain ⟨vs, is, hrd, -⟩ := read_iff.1 h
      exact absurd hrd (ha vs is)
  have hc : collectAffectors (s ++ a :: s') = collectAffectors (s ++ s') := by
    unfold collectAffectors
    rw [collect_foldl, collect_foldl, List.filterMap_append, List.filterMap_cons_none hr, List.filterMap_append]
  unfold buildNavmesh buildInput
  rw [hc]

/-! ### Witnesses -/

/-- The triangles of the four strips as one object, every triangle with three vertices of its own, part of x in the transform. -/
def exSoup : List Affector :=
  [⟨some ⟨true, some ((List.range 4).flatMap fun k => [0, 1, 2, 0, 2, 3].filterMap fun i => (exStrip k)[i]?.map fun v => ⟨v.x - 5, v.y, v.z⟩),
    some (List.range 24)⟩, fun v => ⟨v.x + 5, v.y, v.z⟩⟩]

theorem exSoup_triangles : sceneTriangles exScene = sceneTriangles exSoup := by decide +kernel

theorem exSoup_positions : ∀ v ∈ ((List.range 4).flatMap fun k => [0, 1, 2, 0, 2, 3].filterMap fun i => (exStrip k)[i]?.map fun v => (⟨v.x - 5, v.y, v.z⟩ : V3 ℚ)),
    0 ≤ v.x + 5 ∧ v.x + 5 ≤ 8 ∧ v.y = 0 ∧ 0 ≤ v.z ∧ v.z ≤ 7 ∧
      ∃ t ∈ sceneTriangles exSoup, (⟨v.x + 5, v.y, v.z⟩ : V3 ℚ) = t.1 ∨ (⟨v.x + 5, v.y, v.z⟩ : V3 ℚ) = t.2.1 ∨ (⟨v.x + 5, v.y, v.z⟩ : V3 ℚ) = t.2.2 := by
  decide +kernel

theorem exSoup_good : GoodScene exEnv.lo exEnv.hi exSoup := by
  refine ⟨?_, ?_, by decide +kernel⟩
  · rintro a ha vs is ⟨mesh, h1, _, h3, h4, _⟩
    rw [exSoup, List.mem_singleton] at ha
    subst ha
    cases h1; cases h3; cases h4
    decide +kernel
  · rintro v ⟨a, ha, vs, is, ⟨mesh, h1, _, h3, h4, _⟩, p, hp, rfl⟩
    rw [exSoup, List.mem_singleton] at ha
    subst ha
    cases h1; cases h3; cases h4
    obtain ⟨h1, h2, h3, h4, h5, -⟩ := exSoup_positions p hp
    simp only [exEnv]
    refine ⟨?_, ?_, ?_, ?_, ?_, ?_⟩ <;> linarith

theorem exSoup_noStray : NoStrayVertex exSoup := by
  rintro v ⟨a, ha, vs, is, ⟨mesh, h1, _, h3, h4, _⟩, p, hp, rfl⟩
  rw [exSoup, List.mem_singleton] at ha
  subst ha
  cases h1; cases h3; cases h4
  exact (exSoup_positions p hp).2.2.2.2.2

theorem exScene_noStray : NoStrayVertex exScene := by
  intro v hv
  obtain ⟨k, hk, hv⟩ := exScene_vertex hv
  have : ∀ k < 4, ∀ v ∈ exStrip k, ∃ t ∈ sceneTriangles exScene, v = t.1 ∨ v = t.2.1 ∨ v = t.2.2 := by decide +kernel
  exact this k hk v hv

/-- The four strips and the one object give the same navmesh. -/
example : buildNavmesh exEnv exBuilder ⟨true, false⟩ exSoup = .ok (exPoly, exDetail) := by
  rw [← c105_no_stray exEnv exBuilder ⟨true, false⟩ exScene_good exSoup_good exScene_noStray exSoup_noStray exSoup_triangles]
  exact ex_build

example : exScene.length = 4 ∧ exSoup.length = 1 ∧ (sceneTriangles exScene).length = 8 := by decide +kernel

example : buildNavmesh exEnv exBuilder ⟨true, false⟩ (⟨some ⟨true, some [⟨0, 0, 99⟩], some [0, 0]⟩, id⟩ :: exScene) = .ok (exPoly, exDetail) := by
  rw [← ex_build]
  refine c105_unreadable exEnv exBuilder ⟨true, false⟩ [] exScene ?_
  rintro vs is ⟨mesh, h1, _, h3, h4, h5⟩
  cases h1; cases h4
  revert h5; decide

/-- The four strips with a point in the middle that belongs to no triangle. -/
def exStray : List Affector := exScene ++ [⟨some ⟨true, some [⟨4, 0, 3⟩], some []⟩, id⟩]

theorem exStray_vertex {v : V3 ℚ} (h : SceneVertex exStray v) : SceneVertex exScene v ∨ v = ⟨4, 0, 3⟩ := by
  obtain ⟨a, ha, vs, is, hr, p, hp, rfl⟩ := h
  rcases List.mem_append.1 ha with ha | ha
  · exact Or.inl ⟨a, ha, vs, is, hr, p, hp, rfl⟩
  · rw [List.mem_singleton] at ha
    subst ha
    obtain ⟨mesh, h1, _, h3, _⟩ := hr
    cases h1; cases h3
    rw [List.mem_singleton] at hp
    exact Or.inr hp

theorem exStray_good : GoodScene exEnv.lo exEnv.hi exStray := by
  refine ⟨?_, fun v hv => ?_, by decide +kernel⟩
  · intro a ha vs is hr
    rcases List.mem_append.1 ha with ha | ha
    · exact exScene_good.indices a ha vs is hr
    · rw [List.mem_singleton] at ha
      subst ha
      obtain ⟨mesh, h1, _, _, h4, _⟩ := hr
      cases h1; cases h4
      simp
  · rcases exStray_vertex hv with h | rfl
    · exact exScene_good.finite v h
    · simp only [exEnv]; norm_num

theorem exStray_box : SameBox exScene exStray := by
  have hsub : ∀ v, SceneVertex exScene v → SceneVertex exStray v := by
    rintro v ⟨a, ha, h⟩
    exact ⟨a, List.mem_append_left _ ha, h⟩
  intro box
  refine ⟨fun h v hv => ?_, fun h v hv => h v (hsub v hv)⟩
  rcases exStray_vertex hv with hv | rfl
  · exact h v hv
  · have corner : ∀ k < 4, ∀ v ∈ exStrip k, SceneVertex exScene v := by
      intro k hk v hv
      exact ⟨_, List.mem_map.2 ⟨k, List.mem_range.2 hk, rfl⟩, exStrip k, [0, 1, 2, 0, 2, 3], ⟨_, rfl, rfl, rfl, rfl, rfl⟩, v, hv, rfl⟩
    have c1 := h _ (corner 0 (by omega) ⟨0, 0, 0⟩ (by decide +kernel))
    have c2 := h _ (corner 3 (by omega) ⟨8, 0, 7⟩ (by decide +kernel))
    obtain ⟨a1, a2, a3, a4, a5, a6⟩ := c1
    obtain ⟨b1, b2, b3, b4, b5, b6⟩ := c2
    simp only at *
    refine ⟨?_, ?_, ?_, ?_, ?_, ?_⟩ <;> simp only <;> linarith

example : buildNavmesh exEnv exBuilder ⟨true, false⟩ exStray = .ok (exPoly, exDetail) := by
  rw [← c105_same_box exEnv exBuilder ⟨true, false⟩ exScene_good exStray_good (by decide +kernel) exStray_box]
  exact ex_build

end Rerecast
