import Verif.Lemmas.MovedRows
import Verif.Lemmas.PipelineScene
/-! The stages of a build with a moved scene. -/
namespace Rerecast

theorem foldlM_map_of {σ α β : Type} (g : σ → σ) (h : α → β) (f : σ → α → Res σ) (f' : σ → β → Res σ)
    (hs : ∀ s a, f' (g s) (h a) = (f s a).map g) : ∀ (l : List α) (s : σ), (l.map h).foldlM f' (g s) = (l.foldlM f s).map g := by
  intro l
  induction l with
  | nil => intro s; rfl
  | cons a l ih =>
    intro s
    rw [List.map_cons, List.foldlM_cons, List.foldlM_cons, hs]
    cases f s a with
    | error e => rfl
    | ok s1 => exact ih s1

theorem idx_map {α β : Type} (f : α → β) (l : List α) (i : Nat) : idx (l.map f) i = (idx l i).map f := by
  unfold idx
  rw [List.getElem?_map]
  cases l[i]? <;> rfl

theorem addAffector_move (d : V3 ℚ) (m : TriMesh ℚ) (a : Affector) :
    addAffector (m.moved (V3.moveBy d)) (a.moveBy d) = (addAffector m a).map (TriMesh.moved (V3.moveBy d)) := by
  unfold addAffector
  show (match a.mesh.bind TriMesh.fromMesh with | none => _ | some current => _) = _
  cases a.mesh.bind TriMesh.fromMesh with
  | none => rfl
  | some t =>
    dsimp only
    unfold TriMesh.extend
    have hl : (m.moved (V3.moveBy d)).vertices.length = m.vertices.length := by simp [TriMesh.moved]
    rw [hl]
    split
    · rfl
    · dsimp only
      cases t.indices.mapM (offsetTriangle m.vertices.length) with
      | error e => rfl
      | ok sh =>
        rw [bind_ok, bind_ok]
        show _ = Except.ok _
        congr 1
        simp only [TriMesh.moved, List.map_append, List.map_map, Affector.moveBy]
        rfl

theorem collectAffectors_move (d : V3 ℚ) (scene : List Affector) :
    collectAffectors (movedScene d scene) = (collectAffectors scene).map (TriMesh.moved (V3.moveBy d)) :=
  foldlM_map_of (TriMesh.moved (V3.moveBy d)) (Affector.moveBy d) addAffector addAffector (addAffector_move d) scene TriMesh.empty

theorem markStep_move {up : V3 ℚ → V3 ℚ → V3 ℚ → Bool} (hup : PlaceBlind up) (d : V3 ℚ) (m : TriMesh ℚ) (i : Nat) :
    TriMesh.markStep up (m.moved (V3.moveBy d)) i = (TriMesh.markStep up m i).map (TriMesh.moved (V3.moveBy d)) := by
  unfold TriMesh.markStep
  have hv : ∀ k, idx (m.moved (V3.moveBy d)).vertices k = (idx m.vertices k).map (V3.moveBy d) := idx_map _ _
  simp only [hv]
  show (idx m.indices i >>= _) = _
  cases idx m.indices i with
  | error e => rfl
  | ok t =>
    rw [bind_ok, bind_ok]
    cases idx m.vertices t.1 with
    | error e => rfl
    | ok a =>
      cases idx m.vertices t.2.1 with
      | error e => rfl
      | ok b =>
        cases idx m.vertices t.2.2 with
        | error e => rfl
        | ok c =>
          simp only [Except.map, bind_ok, hup d a b c]
          cases up a b c with
          | false => rfl
          | true =>
            show ((setIdx m.areaTypes i DEFAULT_WALKABLE) >>= _) = _
            simp only [if_true]
            cases setIdx m.areaTypes i DEFAULT_WALKABLE <;> rfl

theorem mark_move {up : V3 ℚ → V3 ℚ → V3 ℚ → Bool} (hup : PlaceBlind up) (d : V3 ℚ) (m : TriMesh ℚ) :
    (m.moved (V3.moveBy d)).markWalkableTriangles up = (m.markWalkableTriangles up).map (TriMesh.moved (V3.moveBy d)) := by
  have := foldlM_map_of (TriMesh.moved (V3.moveBy d)) id (TriMesh.markStep up) (TriMesh.markStep up) (markStep_move hup d) (List.range m.indices.length) m
  rw [List.map_id] at this
  exact this

theorem computeAabb_move (d : V3 ℚ) {lo hi : ℚ} {m : TriMesh ℚ}
    (h1 : ∀ v ∈ m.vertices, lo ≤ v.x ∧ v.x ≤ hi ∧ lo ≤ v.y ∧ v.y ≤ hi ∧ lo ≤ v.z ∧ v.z ≤ hi)
    (h2 : ∀ v ∈ (m.moved (V3.moveBy d)).vertices, lo ≤ v.x ∧ v.x ≤ hi ∧ lo ≤ v.y ∧ v.y ≤ hi ∧ lo ≤ v.z ∧ v.z ≤ hi) :
    (m.moved (V3.moveBy d)).computeAabb lo hi = (m.computeAabb lo hi).map fun b => ⟨V3.moveBy d b.min, V3.moveBy d b.max⟩ := by
  obtain ⟨n1, s1⟩ := c06_aabb_exact lo hi m h1
  obtain ⟨n2, s2⟩ := c06_aabb_exact lo hi _ h2
  have hv : (m.moved (V3.moveBy d)).vertices = m.vertices.map (V3.moveBy d) := rfl
  cases e1 : m.computeAabb lo hi with
  | none =>
    rw [n2.2 (by rw [hv, n1.1 e1]; rfl)]
    rfl
  | some b =>
    cases e2 : (m.moved (V3.moveBy d)).computeAabb lo hi with
    | none =>
      have h := n2.1 e2
      rw [hv, List.map_eq_nil_iff] at h
      rw [n1.2 h] at e1
      cases e1
    | some b' =>
      obtain ⟨c, ⟨x0, hx0, ex0⟩, ⟨x1, hx1, ex1⟩, ⟨y0, hy0, ey0⟩, ⟨y1, hy1, ey1⟩, ⟨z0, hz0, ez0⟩, ⟨z1, hz1, ez1⟩⟩ := s1 b e1
      obtain ⟨c', X0, X1, Y0, Y1, Z0, Z1⟩ := s2 b' e2
      have cm : ∀ v ∈ m.vertices, b'.Contains (V3.moveBy d v) := fun v hv' => c' _ (by rw [hv]; exact List.mem_map_of_mem hv')
      have back : ∀ {P : V3 ℚ → Prop}, (∃ v ∈ (m.moved (V3.moveBy d)).vertices, P v) → ∃ v ∈ m.vertices, P (V3.moveBy d v) := by
        rintro P ⟨v, hv', hp⟩
        rw [hv] at hv'
        obtain ⟨u, hu, rfl⟩ := List.mem_map.1 hv'
        exact ⟨u, hu, hp⟩
      obtain ⟨u0, hu0, eu0⟩ := back X0
      obtain ⟨u1, hu1, eu1⟩ := back X1
      obtain ⟨v0, hv0, ev0⟩ := back Y0
      obtain ⟨v1, hv1, ev1⟩ := back Y1
      obtain ⟨w0, hw0, ew0⟩ := back Z0
      obtain ⟨w1, hw1, ew1⟩ := back Z1
      have q1 := (cm _ hx0).1
      have q2 := (cm _ hx1).2.1
      have q3 := (cm _ hy0).2.2.1
      have q4 := (cm _ hy1).2.2.2.1
      have q5 := (cm _ hz0).2.2.2.2.1
      have q6 := (cm _ hz1).2.2.2.2.2
      have r1 := (c _ hu0).1
      have r2 := (c _ hu1).2.1
      have r3 := (c _ hv0).2.2.1
      have r4 := (c _ hv1).2.2.2.1
      have r5 := (c _ hw0).2.2.2.2.1
      have r6 := (c _ hw1).2.2.2.2.2
      obtain ⟨⟨a1, a2, a3⟩, ⟨a4, a5, a6⟩⟩ := b
      obtain ⟨⟨b1, b2, b3⟩, ⟨b4, b5, b6⟩⟩ := b'
      simp only [V3.moveBy] at *
      simp only [Option.map_some, Option.some.injEq, Aabb3.mk.injEq, V3.mk.injEq]
      refine ⟨⟨?_, ?_, ?_⟩, ?_, ?_, ?_⟩ <;> linarith

theorem sceneVertex_collect {lo hi : ℚ} {scene : List Affector} (hg : GoodScene lo hi scene) {m : TriMesh ℚ} (hm : collectAffectors scene = .ok m) :
    ∀ v ∈ m.vertices, lo ≤ v.x ∧ v.x ≤ hi ∧ lo ≤ v.y ∧ v.y ≤ hi ∧ lo ≤ v.z ∧ v.z ≤ hi := by
  obtain ⟨m', hm', hc⟩ := collect_spec hg
  rw [hm] at hm'
  cases hm'
  exact fun v hv => hg.finite v ((hc.vertices v).1 hv)

theorem buildInput_move {F : Type} {env : BuildEnv F} {cfg : Config} {scene : List Affector} {d : V3 ℚ} (hg : GoodScene env.lo env.hi scene)
    (hg' : GoodScene env.lo env.hi (movedScene d scene)) (hup : PlaceBlind (env.up cfg.walkableSlopeAngle)) :
    buildInput env cfg (movedScene d scene) = (buildInput env cfg scene).map fun p => (p.1.moved (V3.moveBy d), p.2.moveBy d) := by
  obtain ⟨m, hm, hc⟩ := collect_spec hg
  have hm' : collectAffectors (movedScene d scene) = .ok (m.moved (V3.moveBy d)) := by rw [collectAffectors_move, hm]; rfl
  unfold buildInput
  rw [hm, hm', bind_ok, bind_ok, computeAabb_move d (sceneVertex_collect hg hm) (sceneVertex_collect hg' hm'), mark_move hup]
  cases m.computeAabb env.lo env.hi with
  | none => rfl
  | some box =>
    simp only [Option.map_some]
    cases m.markWalkableTriangles (env.up cfg.walkableSlopeAngle) <;> rfl

theorem buildSolid_move {fr : Frame} (hcs : 0 < fr.cellSize) (d : V3 ℚ) (cfg : Config) (m : TriMesh ℚ)
    (hin : ∀ v ∈ m.vertices, fr.aabb.min.x ≤ v.x ∧ fr.aabb.min.z ≤ v.z) :
    buildSolid cfg (m.moved (V3.moveBy d)) (fr.moveBy d) = buildSolid cfg m fr := by
  have e : (fr.moveBy d).buildHeightfield = fr.buildHeightfield := by
    unfold Frame.buildHeightfield
    simp only [Frame.moveBy, V3.moveBy, add_sub_add_right_eq_sub]
  unfold buildSolid
  rw [e]
  simp only [rasterizeTriangles_move hcs d m cfg.walkableClimb hin]

theorem movedScene_back (d : V3 ℚ) (scene : List Affector) : movedScene ⟨-d.x, -d.y, -d.z⟩ (movedScene d scene) = scene := by
  unfold movedScene
  rw [List.map_map]
  conv_rhs => rw [← List.map_id scene]
  congr 1
  funext a
  obtain ⟨mesh, tr⟩ := a
  simp only [Function.comp, Affector.moveBy, V3.moveBy, id, Affector.mk.injEq, true_and, add_neg_cancel_right]

end Rerecast
