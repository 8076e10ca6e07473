import Verif.Lemmas.TriMesh
/-! C05-C08: mesh concatenation, bounding box, slope marking, compound colliders. -/
namespace Rerecast
variable {K : Type}

/-- A sample mesh: one triangle. -/
def triA : TriMesh Int := ⟨[⟨0, 0, 0⟩, ⟨1, 0, 0⟩, ⟨0, 0, 1⟩], [(0, 1, 2)], [7]⟩
/-- A sample mesh: two triangles on four vertices, one of the vertices unused by the first. -/
def triB : TriMesh Int :=
  ⟨[⟨5, 1, 0⟩, ⟨6, 2, 0⟩, ⟨5, 3, 1⟩, ⟨9, -4, 9⟩], [(2, 1, 0), (3, 1, 2)], [0, 3]⟩

theorem triA_wf : triA.WF := ⟨by decide, by decide⟩
theorem triB_wf : triB.WF := ⟨by decide, by decide⟩

/-- **C05.** Extending a well-formed mesh by a well-formed mesh (fitting `u32` indices) succeeds; the result
is well-formed, keeps `a`'s vertices first and followed by `b`'s, and its triangles, as corner coordinates
with areas, are `a`'s followed by `b`'s. -/
theorem c05_extend (a b : TriMesh K) (ha : a.WF) (hb : b.WF)
    (hfit : a.vertices.length + b.vertices.length ≤ 4294967295) :
    ∃ out, a.extend b = .ok out ∧ out.WF ∧ out.vertices = a.vertices ++ b.vertices ∧
      out.soup = a.soup ++ b.soup ∧
      (∀ t < a.indices.length, out.indices[t]? = a.indices[t]?) ∧
      out.indices.length = a.indices.length + b.indices.length := by
  refine ⟨_, TriMesh.extend_eq a b hb (by omega) (by omega), TriMesh.wf_append a b ha hb, rfl,
    TriMesh.soup_append a b ha hb, fun t ht => ?_, by simp⟩
  simp [List.getElem?_append_left ht]

example : triA.extend triB = .ok
    ⟨[⟨0, 0, 0⟩, ⟨1, 0, 0⟩, ⟨0, 0, 1⟩, ⟨5, 1, 0⟩, ⟨6, 2, 0⟩, ⟨5, 3, 1⟩, ⟨9, -4, 9⟩],
     [(0, 1, 2), (5, 4, 3), (6, 4, 5)], [7, 0, 3]⟩ := by decide

example : triA.WF ∧ triB.WF ∧ triA.vertices.length + triB.vertices.length ≤ 4294967295 :=
  ⟨triA_wf, triB_wf, by decide⟩

/-- **C05 (sequences).** Extending by any sequence of well-formed meshes gives the concatenation of all of
them. -/
theorem c05_extend_sequence (a : TriMesh K) (l : List (TriMesh K)) (ha : a.WF) (hl : ∀ m ∈ l, m.WF)
    (hfit : a.vertices.length + (l.map fun m => m.vertices.length).sum ≤ 4294967295) :
    ∃ out, l.foldlM TriMesh.extend a = .ok out ∧ out.WF ∧
      out.vertices = a.vertices ++ l.flatMap TriMesh.vertices ∧
      out.soup = a.soup ++ l.flatMap TriMesh.soup :=
  TriMesh.extendAll l a ha hl hfit

example : ∃ (l : List (TriMesh Int)), l = [triB, triA, triB] ∧ (∀ m ∈ l, m.WF) ∧
    triA.vertices.length + (l.map fun m => m.vertices.length).sum ≤ 4294967295 :=
  ⟨_, rfl, by simp [triA_wf, triB_wf], by decide⟩

/-- **C06.** There is no box exactly for a mesh without vertices; otherwise the box contains every vertex
and each of its six faces is touched by a vertex.  `lo` and `hi` are the least and greatest finite
coordinates (`f32::MIN`, `f32::MAX`). -/
theorem c06_aabb_exact [LinearOrder K] (lo hi : K) (m : TriMesh K)
    (hr : ∀ v ∈ m.vertices, lo ≤ v.x ∧ v.x ≤ hi ∧ lo ≤ v.y ∧ v.y ≤ hi ∧ lo ≤ v.z ∧ v.z ≤ hi) :
    (m.computeAabb lo hi = none ↔ m.vertices = []) ∧
    ∀ b, m.computeAabb lo hi = some b →
      (∀ v ∈ m.vertices, b.Contains v) ∧
      (∃ v ∈ m.vertices, v.x = b.min.x) ∧ (∃ v ∈ m.vertices, v.x = b.max.x) ∧
      (∃ v ∈ m.vertices, v.y = b.min.y) ∧ (∃ v ∈ m.vertices, v.y = b.max.y) ∧
      (∃ v ∈ m.vertices, v.z = b.min.z) ∧ (∃ v ∈ m.vertices, v.z = b.max.z) := by
  unfold TriMesh.computeAabb Aabb3.fromVerts
  refine ⟨?_, ?_⟩
  · split
    · rename_i h; simp_all
    · rename_i h; simp_all
  · intro b hb
    split at hb
    · cases hb
    rename_i hne
    have hne : m.vertices ≠ [] := by simpa using hne
    cases hb
    simp only [foldl_v3min, foldl_v3max]
    have hmap : ∀ f : V3 K → K, m.vertices.map f ≠ [] := by simpa using fun _ => hne
    have att : ∀ f : V3 K → K, (∀ v ∈ m.vertices, lo ≤ f v ∧ f v ≤ hi) →
        (∃ v ∈ m.vertices, f v = (m.vertices.map f).foldl min hi) ∧
        (∃ v ∈ m.vertices, f v = (m.vertices.map f).foldl max lo) := by
      intro f hf
      have h1 := foldl_min_attained (m.vertices.map f) hi (by simpa using hne)
        (by simpa using fun v hv => (hf v hv).2)
      have h2 := foldl_max_attained (m.vertices.map f) lo (by simpa using hne)
        (by simpa using fun v hv => (hf v hv).1)
      rw [List.mem_map] at h1 h2
      exact ⟨h1, h2⟩
    have hx := att V3.x fun v hv => ⟨(hr v hv).1, (hr v hv).2.1⟩
    have hy := att V3.y fun v hv => ⟨(hr v hv).2.2.1, (hr v hv).2.2.2.1⟩
    have hz := att V3.z fun v hv => ⟨(hr v hv).2.2.2.2.1, (hr v hv).2.2.2.2.2⟩
    refine ⟨fun v hv => ?_, hx.1, hx.2, hy.1, hy.2, hz.1, hz.2⟩
    have lo' : ∀ f : V3 K → K, (m.vertices.map f).foldl min hi ≤ f v := fun f =>
      (foldl_min_le _ _).2 _ (List.mem_map.2 ⟨v, hv, rfl⟩)
    have hi' : ∀ f : V3 K → K, f v ≤ (m.vertices.map f).foldl max lo := fun f =>
      (le_foldl_max _ _).2 _ (List.mem_map.2 ⟨v, hv, rfl⟩)
    exact ⟨lo' _, hi' _, lo' _, hi' _, lo' _, hi' _⟩

example : triB.computeAabb (-1000) 1000 = some ⟨⟨5, -4, 0⟩, ⟨9, 3, 9⟩⟩ ∧
    ∀ v ∈ triB.vertices, -1000 ≤ v.x ∧ v.x ≤ 1000 ∧ -1000 ≤ v.y ∧ v.y ≤ 1000 ∧ -1000 ≤ v.z ∧
      v.z ≤ 1000 := by decide

/-- **C07.** Slope marking succeeds on every well-formed mesh, changes neither vertices nor triangles, gives
the default walkable area to exactly the triangles that pass the slope test and keeps every other area. -/
theorem c07_mark_walkable (up : V3 K → V3 K → V3 K → Bool) (m : TriMesh K) (h : m.WF) :
    ∃ out, m.markWalkableTriangles up = .ok out ∧ out.vertices = m.vertices ∧
      out.indices = m.indices ∧ out.areaTypes.length = m.areaTypes.length ∧
      ∀ t a b c, m.corners t = some (a, b, c) →
        (up a b c = true → out.areaTypes[t]? = some 255) ∧
        (up a b c = false → out.areaTypes[t]? = m.areaTypes[t]?) := by
  obtain ⟨out, h1, h2, h3, h4, h5⟩ := TriMesh.mark_spec up m h
  refine ⟨out, h1, h2, h3, h4, fun t a b c hc => ⟨fun hu => ?_, fun hu => ?_⟩⟩
  · rw [h5 t, TriMesh.markedArea, hc]; simp [hu, DEFAULT_WALKABLE]
  · rw [h5 t, TriMesh.markedArea, hc]; simp [hu]

/-- **C07 (idempotence).** Marking twice is the same as marking once. -/
theorem c07_idempotent (up : V3 K → V3 K → V3 K → Bool) (m out : TriMesh K) (h : m.WF)
    (h1 : m.markWalkableTriangles up = .ok out) : out.markWalkableTriangles up = .ok out := by
  obtain ⟨o, g1, g2, g3, g4, g5⟩ := TriMesh.mark_spec up m h
  rw [h1] at g1; cases g1
  have hwf : out.WF := ⟨by rw [g2, g3]; exact h.inRange, by rw [g4, g3]; exact h.areas⟩
  obtain ⟨o', k1, k2, k3, k4, k5⟩ := TriMesh.mark_spec up out hwf
  rw [k1]
  have hcor : ∀ t, out.corners t = m.corners t := by
    intro t; unfold TriMesh.corners; rw [g2, g3]
  have : o'.areaTypes = out.areaTypes := by
    apply List.ext_getElem?
    intro t
    rw [k5 t]
    unfold TriMesh.markedArea
    rw [hcor t]
    have := g5 t
    unfold TriMesh.markedArea at this
    cases hc : m.corners t with
    | none => rfl
    | some p =>
      obtain ⟨a, b, c⟩ := p
      rw [hc] at this
      simp only at this ⊢
      split
      · rw [this]; simp_all
      · rfl
  congr 1
  cases o'; cases out
  simp_all

example : (triB.markWalkableTriangles fun a _ _ => decide (a.y < 0)) =
    .ok { triB with areaTypes := [0, 255] } := by decide

/-- What C08 asks for: the triangles of every supported child, each moved by that child's own pose. -/
def ownPoseSoup (shapes : List ((V3 K → V3 K) × Option (TriMesh K))) :
    List (Option (V3 K × V3 K × V3 K) × Option Area) :=
  shapes.flatMap fun c =>
    match c.2 with
    | none => []
    | some m => (m.moved c.1).soup

/-- The vertices of all supported children together. -/
def totalVertices (shapes : List ((V3 K → V3 K) × Option (TriMesh K))) : Nat :=
  (shapes.map fun c => match c.2 with | none => 0 | some m => m.vertices.length).sum

/-- Every child mesh is well-formed and all of them together fit `u32` indices. -/
def GoodChildren (shapes : List ((V3 K → V3 K) × Option (TriMesh K))) : Prop :=
  (∀ c ∈ shapes, ∀ m, c.2 = some m → m.WF) ∧ totalVertices shapes ≤ 4294967295

/-- **C08 is violated.** A compound with a single child ignores the child's pose. -/
theorem c08_violated : ∃ shapes : List ((V3 Int → V3 Int) × Option (TriMesh Int)),
    GoodChildren shapes ∧
    ∃ out, TriMesh.compoundTrimesh shapes = .ok out ∧ out.soup ≠ ownPoseSoup shapes :=
  ⟨[(fun v => ⟨v.x + 10, v.y, v.z⟩, some triA)],
    ⟨by intro c hc m hm
        simp only [List.mem_singleton] at hc
        subst hc
        cases hm
        exact triA_wf, by decide⟩, triA, by decide, by decide⟩

/-- **C08 (what happens instead).** Conversion succeeds and yields the children's triangles in order, but
child `i` is moved by the poses of the supported children after it, not by its own. -/
theorem c08_later_poses (shapes : List ((V3 K → V3 K) × Option (TriMesh K))) (h : GoodChildren shapes) :
    ∃ out, TriMesh.compoundTrimesh shapes = .ok out ∧ out.WF ∧
      out.soup = TriMesh.compoundSoup shapes := by
  obtain ⟨out, h1, h2, h3⟩ := TriMesh.compound_fold shapes .empty TriMesh.wf_empty h.1
    (by
      simp only [TriMesh.empty, List.length_nil, Nat.zero_add]
      exact h.2)
  exact ⟨out, h1, h2, by rw [h3]; simp [TriMesh.soup, TriMesh.moved, TriMesh.empty]⟩

/-- **C08 (own pose ignored).** For a compound of one child, any two poses give the same mesh: the child
itself, unmoved. -/
theorem c08_single_child_pose_ignored (m : TriMesh K) (f g : V3 K → V3 K) :
    TriMesh.compoundTrimesh [(f, some m)] = TriMesh.compoundTrimesh [(g, some m)] := rfl

/-- **C08, the part that holds.** If every supported child's pose is the identity, the result is the
concatenation of the children.  Missing: poses other than the identity (see `c08_violated`). -/
theorem c08_compound_partial (shapes : List ((V3 K → V3 K) × Option (TriMesh K))) (h : GoodChildren shapes)
    (hid : ∀ c ∈ shapes, c.1 = id) :
    ∃ out, TriMesh.compoundTrimesh shapes = .ok out ∧ out.WF ∧ out.soup = ownPoseSoup shapes := by
  obtain ⟨out, h1, h2, h3⟩ := c08_later_poses shapes h
  refine ⟨out, h1, h2, ?_⟩
  rw [h3]
  clear h1 h2 h3 h
  have hl : ∀ l : List ((V3 K → V3 K) × Option (TriMesh K)), (∀ c ∈ l, c.1 = id) →
      TriMesh.laterPose l = id := by
    intro l
    induction l with
    | nil => intro _; rfl
    | cons c l ih =>
      intro hc
      obtain ⟨f, o⟩ := c
      have h1 := hc _ (List.mem_cons_self ..)
      have h2 := ih fun c h => hc c (by simp [h])
      cases o <;> simp_all [TriMesh.laterPose]
  induction shapes with
  | nil => rfl
  | cons c l ih =>
    obtain ⟨f, o⟩ := c
    have h1 : f = id := hid _ (List.mem_cons_self ..)
    have hrest : ∀ c ∈ l, c.1 = id := fun c h => hid c (by simp [h])
    have h2 := ih hrest
    cases o with
    | none => simpa [TriMesh.compoundSoup, ownPoseSoup] using h2
    | some m =>
      simp only [TriMesh.compoundSoup, hl l hrest]
      rw [h2, h1]
      simp [ownPoseSoup]

example : GoodChildren [(id, some triA), (id, none), (id, some triB)] ∧
    TriMesh.compoundTrimesh [(id, some triA), (id, none), (id, some triB)] = triA.extend triB :=
  ⟨⟨by
    intro c hc m hm
    simp only [List.mem_cons, List.not_mem_nil, or_false] at hc
    rcases hc with rfl | rfl | rfl
    · cases hm; exact triA_wf
    · cases hm
    · cases hm; exact triB_wf, by decide⟩, by decide⟩

end Rerecast
