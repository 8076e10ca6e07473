import Verif.Spec.SceneList
import Verif.Lemmas.PipelineScene
/-! The build sees a scene only as its list of triangles and its set of vertices. -/
namespace Rerecast

theorem nthTriangle_iff {tr : V3 ℚ → V3 ℚ} {vs : List (V3 ℚ)} {is : List Nat} {n : Nat} {t : Triangle} : nthTriangle tr vs is n = some t ↔
    ∃ i j k p q r, is[3 * n]? = some i ∧ is[3 * n + 1]? = some j ∧ is[3 * n + 2]? = some k ∧
      vs[i]? = some p ∧ vs[j]? = some q ∧ vs[k]? = some r ∧ t = (tr p, tr q, tr r) := by
  unfold nthTriangle
  constructor
  · intro h
    split at h
    · rename_i i j k e1 e2 e3
      split at h
      · rename_i p q r f1 f2 f3
        cases h
        exact ⟨i, j, k, p, q, r, e1, e2, e3, f1, f2, f3, rfl⟩
      · cases h
    · cases h
  · rintro ⟨i, j, k, p, q, r, e1, e2, e3, f1, f2, f3, rfl⟩
    simp only [e1, e2, e3, f1, f2, f3]

theorem corners_read (tr : V3 ℚ → V3 ℚ) (vs : List (V3 ℚ)) (is : List Nat) (ar : List Area) (n : Nat) :
    (⟨vs.map tr, chunks3 is, ar⟩ : TriMesh ℚ).corners n = nthTriangle tr vs is n := by
  apply Option.ext
  intro t
  rw [corners_iff, nthTriangle_iff]
  simp only [chunks3_get, List.getElem?_map, Option.map_eq_some_iff]
  constructor
  · rintro ⟨i, j, k, ⟨e1, e2, e3⟩, ⟨p, hp, g1⟩, ⟨q, hq, g2⟩, ⟨r, hr, g3⟩⟩
    exact ⟨i, j, k, p, q, r, e1, e2, e3, hp, hq, hr, by rw [g1, g2, g3]⟩
  · rintro ⟨i, j, k, p, q, r, e1, e2, e3, hp, hq, hr, rfl⟩
    exact ⟨i, j, k, ⟨e1, e2, e3⟩, ⟨p, hp, rfl⟩, ⟨q, hq, rfl⟩, ⟨r, hr, rfl⟩⟩

theorem chunks3_length (l : List Nat) : (chunks3 l).length = l.length / 3 := by
  induction l using chunks3.induct with
  | case1 a b c l ih =>
    simp only [chunks3, List.length_cons, ih]
    omega
  | case2 l h =>
    exact match l, h with
    | [], _ => by simp [chunks3]
    | [_], _ => by simp [chunks3]
    | [_, _], _ => by simp [chunks3]
    | a :: b :: c :: l, h => absurd rfl (h a b c l)

theorem filterMap_all_some {α β : Type} (f : α → Option β) : ∀ (l : List α), (∀ a ∈ l, (f a).isSome) → (l.filterMap f).map some = l.map f := by
  intro l
  induction l with
  | nil => intro _; rfl
  | cons a l ih =>
    intro h
    have ha := h a List.mem_cons_self
    obtain ⟨b, hb⟩ := Option.isSome_iff_exists.1 ha
    rw [List.filterMap_cons_some hb, List.map_cons, List.map_cons, ih fun x hx => h x (List.mem_cons_of_mem _ hx), hb]

theorem triangles_of_readable {a : Affector} {vs : List (V3 ℚ)} {is : List Nat} (h : a.Readable vs is) :
    a.triangles = (List.range (is.length / 3)).filterMap (nthTriangle a.transform vs is) := by
  obtain ⟨mesh, h1, h2, h3, h4, h5⟩ := h
  unfold Affector.triangles
  rw [h1]
  simp only [h2, h3, h4, h5, if_true]

theorem triangles_of_unreadable {a : Affector} (h : a.read = none) : a.triangles = [] := by
  have hno : ∀ vs is, ¬ a.Readable vs is := by
    intro vs is hr
    rw [read_iff.2 ⟨vs, is, hr, rfl⟩] at h
    cases h
  unfold Affector.triangles
  cases e : a.mesh with
  | none => rfl
  | some mesh =>
    simp only
    split
    · rename_i vs is h2 h3 h4
      split
      · rename_i h5
        exact absurd ⟨mesh, e, h2, h3, h4, h5⟩ (hno vs is)
      · rfl
    · rfl

theorem soup_read {a : Affector} {m : TriMesh ℚ} (h : a.read = some m)
    (hin : ∀ vertices indices, a.Readable vertices indices → ∀ i ∈ indices, i < vertices.length) :
    m.soup = a.triangles.map fun t => (some t, some 0) := by
  obtain ⟨vs, is, hrd, rfl⟩ := read_iff.1 h
  rw [triangles_of_readable hrd]
  have key : ((List.range (is.length / 3)).filterMap (nthTriangle a.transform vs is)).map some =
      (List.range (is.length / 3)).map (nthTriangle a.transform vs is) := by
    apply filterMap_all_some
    intro n hn
    have hn := List.mem_range.1 hn
    have hb := hin vs is hrd
    have l0 : 3 * n < is.length := by omega
    have l1 : 3 * n + 1 < is.length := by omega
    have l2 : 3 * n + 2 < is.length := by omega
    have := nthTriangle_iff (tr := a.transform) (vs := vs) (is := is) (n := n).2 ⟨_, _, _, _, _, _, List.getElem?_eq_getElem l0, List.getElem?_eq_getElem l1,
      List.getElem?_eq_getElem l2, List.getElem?_eq_getElem (hb _ (List.getElem_mem l0)), List.getElem?_eq_getElem (hb _ (List.getElem_mem l1)),
      List.getElem?_eq_getElem (hb _ (List.getElem_mem l2)), rfl⟩
    rw [this]
    rfl
  have : (List.filterMap (nthTriangle a.transform vs is) (List.range (is.length / 3))).map (fun t => (some t, some (0 : Area))) =
      (((List.range (is.length / 3)).filterMap (nthTriangle a.transform vs is)).map some).map fun o => (o, some (0 : Area)) := by
    rw [List.map_map]; rfl
  rw [this, key, List.map_map]
  unfold TriMesh.soup
  simp only [chunks3_length]
  apply List.map_congr_left
  intro n hn
  rw [corners_read, List.getElem?_replicate, if_pos (List.mem_range.1 hn)]
  rfl

theorem collect_soup {lo hi : ℚ} {scene : List Affector} (hg : GoodScene lo hi scene) :
    ∃ m, collectAffectors scene = .ok m ∧ m.WF ∧ (∀ v, v ∈ m.vertices ↔ SceneVertex scene v) ∧
      m.soup = (sceneTriangles scene).map fun t => (some t, some 0) := by
  obtain ⟨m, hm, hc⟩ := collect_spec hg
  refine ⟨m, hm, hc.wf, hc.vertices, ?_⟩
  have hwf : ∀ m ∈ scene.filterMap Affector.read, m.WF := by
    intro m hm
    obtain ⟨a, ha, hr⟩ := List.mem_filterMap.1 hm
    obtain ⟨vs, is, hrd, rfl⟩ := read_iff.1 hr
    have hin := hg.indices a ha vs is hrd
    refine ⟨?_, by simp⟩
    intro t ht
    obtain ⟨h1, h2, h3⟩ := chunks3_mem ht
    simp only [List.length_map]
    exact ⟨hin _ h1, hin _ h2, hin _ h3⟩
  obtain ⟨m', h1, h2, h3, h4⟩ := c05_extend_sequence TriMesh.empty (scene.filterMap Affector.read)
    ⟨by simp [TriMesh.empty], by simp [TriMesh.empty]⟩ hwf (by
      have := sum_read_le scene
      have := hg.count
      simp only [TriMesh.empty, List.length_nil]
      omega)
  have e : m' = m := by
    have : collectAffectors scene = .ok m' := by rw [collectAffectors, collect_foldl]; exact h1
    rw [hm] at this
    cases this
    rfl
  subst e
  rw [h4]
  show [] ++ _ = _
  rw [List.nil_append]
  have hin := hg.indices
  clear * - hin
  induction scene with
  | nil => rfl
  | cons a l ih =>
    have ih := ih fun a ha => hin a (List.mem_cons_of_mem _ ha)
    unfold sceneTriangles at ih ⊢
    rw [List.flatMap_cons, List.map_append, ← ih]
    cases hr : a.read with
    | none => rw [List.filterMap_cons_none hr, triangles_of_unreadable hr]; rfl
    | some m => rw [List.filterMap_cons_some hr, List.flatMap_cons, soup_read hr (hin a List.mem_cons_self)]

theorem computeAabb_congr {lo hi : ℚ} {m m' : TriMesh ℚ}
    (hv : ∀ box : Aabb3 ℚ, (∀ v ∈ m.vertices, box.Contains v) ↔ ∀ v ∈ m'.vertices, box.Contains v)
    (h1 : ∀ v ∈ m.vertices, lo ≤ v.x ∧ v.x ≤ hi ∧ lo ≤ v.y ∧ v.y ≤ hi ∧ lo ≤ v.z ∧ v.z ≤ hi) :
    m.computeAabb lo hi = m'.computeAabb lo hi := by
  obtain ⟨n1, s1⟩ := c06_aabb_exact lo hi m h1
  obtain ⟨n2, s2⟩ := c06_aabb_exact lo hi m' ((hv ⟨⟨lo, lo, lo⟩, ⟨hi, hi, hi⟩⟩).1 h1)
  have hnil : m.vertices = [] ↔ m'.vertices = [] := by
    have hno : ∀ v : V3 ℚ, ¬ (⟨⟨1, 0, 0⟩, ⟨0, 0, 0⟩⟩ : Aabb3 ℚ).Contains v := by
      rintro v ⟨c1, c2, -⟩
      simp only at c1 c2
      linarith
    have := hv ⟨⟨1, 0, 0⟩, ⟨0, 0, 0⟩⟩
    simp only [hno, imp_false] at this
    rw [List.eq_nil_iff_forall_not_mem, List.eq_nil_iff_forall_not_mem]
    exact this
  cases e1 : m.computeAabb lo hi with
  | none => exact (n2.2 (hnil.1 (n1.1 e1))).symm
  | some b =>
    cases e2 : m'.computeAabb lo hi with
    | none =>
      rw [n1.2 (hnil.2 (n2.1 e2))] at e1
      cases e1
    | some b' =>
      obtain ⟨c, ⟨x0, hx0, ex0⟩, ⟨x1, hx1, ex1⟩, ⟨y0, hy0, ey0⟩, ⟨y1, hy1, ey1⟩, ⟨z0, hz0, ez0⟩, ⟨z1, hz1, ez1⟩⟩ := s1 b e1
      obtain ⟨c', ⟨u0, hu0, eu0⟩, ⟨u1, hu1, eu1⟩, ⟨v0, hv0, ev0⟩, ⟨v1, hv1, ev1⟩, ⟨w0, hw0, ew0⟩, ⟨w1, hw1, ew1⟩⟩ := s2 b' e2
      have d := (hv b).1 c
      have d' := (hv b').2 c'
      have q1 := (d' _ hx0).1
      have q2 := (d' _ hx1).2.1
      have q3 := (d' _ hy0).2.2.1
      have q4 := (d' _ hy1).2.2.2.1
      have q5 := (d' _ hz0).2.2.2.2.1
      have q6 := (d' _ hz1).2.2.2.2.2
      have r1 := (d _ hu0).1
      have r2 := (d _ hu1).2.1
      have r3 := (d _ hv0).2.2.1
      have r4 := (d _ hv1).2.2.2.1
      have r5 := (d _ hw0).2.2.2.2.1
      have r6 := (d _ hw1).2.2.2.2.2
      obtain ⟨⟨a1, a2, a3⟩, ⟨a4, a5, a6⟩⟩ := b
      obtain ⟨⟨b1, b2, b3⟩, ⟨b4, b5, b6⟩⟩ := b'
      simp only at *
      simp only [Option.some.injEq, Aabb3.mk.injEq, V3.mk.injEq]
      refine ⟨⟨?_, ?_, ?_⟩, ?_, ?_, ?_⟩ <;> linarith

theorem sameBox_of_vertices {s s' : List Affector} (h : ∀ v, SceneVertex s v ↔ SceneVertex s' v) : SameBox s s' := by
  intro box
  simp only [h]

/-- One triangle of a list of triangles with areas. -/
def soupStep (fr : Frame) (thr : Nat) (hf : Heightfield) : Option Triangle × Option Area → Res Heightfield
  | (some t, some a) => rasterizeTriangle fr hf t a thr
  | _ => .error .panic

theorem rasterizeMeshStep_soup (fr : Frame) (m : TriMesh ℚ) (thr : Nat) (hf : Heightfield) (i : Nat) :
    rasterizeMeshStep fr m thr hf i = soupStep fr thr hf (m.corners i, m.areaTypes[i]?) := by
  unfold rasterizeMeshStep TriMesh.corners idx
  cases m.indices[i]? with
  | none => rfl
  | some t =>
    simp only [bind_ok]
    cases m.vertices[t.1]? with
    | none => rfl
    | some a =>
      cases m.vertices[t.2.1]? with
      | none => rfl
      | some b =>
        cases m.vertices[t.2.2]? with
        | none => rfl
        | some c =>
          cases m.areaTypes[i]? with
          | none => rfl
          | some ar => rfl

theorem rasterizeTriangles_soup (fr : Frame) (hf : Heightfield) (m : TriMesh ℚ) (thr : Nat) :
    rasterizeTriangles fr hf m thr = m.soup.foldlM (soupStep fr thr) hf := by
  unfold rasterizeTriangles TriMesh.soup
  rw [List.foldlM_map]
  congr 1
  funext hf i
  exact rasterizeMeshStep_soup fr m thr hf i

theorem mark_soup (up : V3 ℚ → V3 ℚ → V3 ℚ → Bool) {m : TriMesh ℚ} (h : m.WF) {T : List Triangle} (hs : m.soup = T.map fun t => (some t, some 0)) :
    ∃ out, m.markWalkableTriangles up = .ok out ∧ out.vertices = m.vertices ∧
      out.soup = T.map fun t => (some t, some (if up t.1 t.2.1 t.2.2 then 255 else 0)) := by
  obtain ⟨out, g1, g2, g3, g4, g5⟩ := c07_mark_walkable up m h
  refine ⟨out, g1, g2, ?_⟩
  have hl : m.indices.length = T.length := by
    have := congrArg List.length hs
    simpa [TriMesh.soup] using this
  apply List.ext_getElem?
  intro k
  by_cases hk : k < T.length
  · have hm : m.soup[k]? = some (some T[k], some 0) := by
      rw [hs, List.getElem?_map, List.getElem?_eq_getElem hk]; rfl
    have hcor : out.corners k = m.corners k := by simp only [TriMesh.corners, g2, g3]
    unfold TriMesh.soup at hm ⊢
    rw [List.getElem?_map, List.getElem?_range (by omega)] at hm
    rw [List.getElem?_map, List.getElem?_range (by rw [g3]; omega), List.getElem?_map, List.getElem?_eq_getElem hk]
    simp only [Option.map_some, Option.some.injEq, Prod.mk.injEq] at hm ⊢
    obtain ⟨p1, p2⟩ := hm
    refine ⟨by rw [hcor, p1], ?_⟩
    obtain ⟨q1, q2⟩ := g5 k T[k].1 T[k].2.1 T[k].2.2 p1
    cases e : up T[k].1 T[k].2.1 T[k].2.2 with
    | true => rw [q1 e]; rfl
    | false => rw [q2 e, p2]; rfl
  · rw [List.getElem?_eq_none (by simp [TriMesh.soup, g3]; omega), List.getElem?_eq_none (by simp; omega)]

/-- Equal lists of triangles and equal boxes give the same frame, and meshes from which the same heightfield is built. -/
theorem buildInput_congr {F : Type} (env : BuildEnv F) (cfg : Config) {s s' : List Affector} (hg : GoodScene env.lo env.hi s)
    (hg' : GoodScene env.lo env.hi s') (ht : sceneTriangles s = sceneTriangles s') (hv : SameBox s s') :
    (∃ e, buildInput env cfg s = .error e ∧ buildInput env cfg s' = .error e) ∨
    ∃ m m' fr, buildInput env cfg s = .ok (m, fr) ∧ buildInput env cfg s' = .ok (m', fr) ∧ buildSolid cfg m fr = buildSolid cfg m' fr := by
  obtain ⟨m, hm, hw, hvm, hs⟩ := collect_soup hg
  obtain ⟨m', hm', hw', hvm', hs'⟩ := collect_soup hg'
  have hbox : m.computeAabb env.lo env.hi = m'.computeAabb env.lo env.hi :=
    computeAabb_congr (fun box => by simp only [hvm, hvm']; exact hv box) fun v h => hg.finite v ((hvm v).1 h)
  obtain ⟨o, g1, g2, g3⟩ := mark_soup (env.up cfg.walkableSlopeAngle) hw hs
  obtain ⟨o', g1', g2', g3'⟩ := mark_soup (env.up cfg.walkableSlopeAngle) hw' hs'
  unfold buildInput
  rw [hm, hm', bind_ok, bind_ok, ← hbox, g1, g1']
  cases m.computeAabb env.lo env.hi with
  | none => exact Or.inl ⟨.err, rfl, rfl⟩
  | some box =>
    refine Or.inr ⟨o, o', ⟨box, cfg.cellSize, cfg.cellHeight⟩, rfl, rfl, ?_⟩
    have : o.soup = o'.soup := by rw [g3, g3', ht]
    unfold buildSolid
    simp only [rasterizeTriangles_soup, this]

end Rerecast
