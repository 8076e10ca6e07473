import Verif.Lemmas.Scaled
import Verif.Lemmas.MovedBuild
/-! The stages of a build with an enlarged scene and enlarged settings. -/
namespace Rerecast

theorem addAffector_scale (κ : ℚ) (m : TriMesh ℚ) (a : Affector) :
    addAffector (m.moved (V3.scaleBy κ)) (a.scaleBy κ) = (addAffector m a).map (TriMesh.moved (V3.scaleBy κ)) := by
  unfold addAffector
  show (match a.mesh.bind TriMesh.fromMesh with | none => _ | some current => _) = _
  cases a.mesh.bind TriMesh.fromMesh with
  | none => rfl
  | some t =>
    dsimp only
    unfold TriMesh.extend
    have hl : (m.moved (V3.scaleBy κ)).vertices.length = m.vertices.length := by simp [TriMesh.moved]
    rw [hl]
    split
    · rfl
    · dsimp only
      cases t.indices.mapM (offsetTriangle m.vertices.length) with
      | error e => rfl
      | ok sh =>
        rw [bind_ok, bind_ok]
        show _ = Except.ok _
        congr 1
        simp only [TriMesh.moved, List.map_append, List.map_map, Affector.scaleBy]
        rfl

theorem collectAffectors_scale (κ : ℚ) (scene : List Affector) :
    collectAffectors (scaledScene κ scene) = (collectAffectors scene).map (TriMesh.moved (V3.scaleBy κ)) :=
  foldlM_map_of (TriMesh.moved (V3.scaleBy κ)) (Affector.scaleBy κ) addAffector addAffector (addAffector_scale κ) scene TriMesh.empty

theorem markStep_scale {up : V3 ℚ → V3 ℚ → V3 ℚ → Bool} (hup : SizeBlind up) {κ : ℚ} (hκ : 0 < κ) (m : TriMesh ℚ) (i : Nat) :
    TriMesh.markStep up (m.moved (V3.scaleBy κ)) i = (TriMesh.markStep up m i).map (TriMesh.moved (V3.scaleBy κ)) := by
  unfold TriMesh.markStep
  have hv : ∀ k, idx (m.moved (V3.scaleBy κ)).vertices k = (idx m.vertices k).map (V3.scaleBy κ) := idx_map _ _
  simp only [hv]
  show (idx m.indices i >>= _) = _
  cases idx m.indices i with
  | error e => rfl
  | ok t =>
    rw [bind_ok, bind_ok]
    cases idx m.vertices t.1 with
    | error e => rfl
    | ok a =>
      cases idx m.vertices t.2.1 with
      | error e => rfl
      | ok b =>
        cases idx m.vertices t.2.2 with
        | error e => rfl
        | ok c =>
          simp only [Except.map, bind_ok, hup κ hκ a b c]
          cases up a b c with
          | false => rfl
          | true =>
            show ((setIdx m.areaTypes i DEFAULT_WALKABLE) >>= _) = _
            simp only [if_true]
            cases setIdx m.areaTypes i DEFAULT_WALKABLE <;> rfl

theorem mark_scale {up : V3 ℚ → V3 ℚ → V3 ℚ → Bool} (hup : SizeBlind up) {κ : ℚ} (hκ : 0 < κ) (m : TriMesh ℚ) :
    (m.moved (V3.scaleBy κ)).markWalkableTriangles up = (m.markWalkableTriangles up).map (TriMesh.moved (V3.scaleBy κ)) := by
  have := foldlM_map_of (TriMesh.moved (V3.scaleBy κ)) id (TriMesh.markStep up) (TriMesh.markStep up) (markStep_scale hup hκ) (List.range m.indices.length) m
  rw [List.map_id] at this
  exact this

theorem computeAabb_scale {κ : ℚ} (hκ : 0 < κ) {lo hi : ℚ} {m : TriMesh ℚ}
    (h1 : ∀ v ∈ m.vertices, lo ≤ v.x ∧ v.x ≤ hi ∧ lo ≤ v.y ∧ v.y ≤ hi ∧ lo ≤ v.z ∧ v.z ≤ hi)
    (h2 : ∀ v ∈ (m.moved (V3.scaleBy κ)).vertices, lo ≤ v.x ∧ v.x ≤ hi ∧ lo ≤ v.y ∧ v.y ≤ hi ∧ lo ≤ v.z ∧ v.z ≤ hi) :
    (m.moved (V3.scaleBy κ)).computeAabb lo hi = (m.computeAabb lo hi).map (Aabb3.scaleBy κ) := by
  obtain ⟨n1, s1⟩ := c06_aabb_exact lo hi m h1
  obtain ⟨n2, s2⟩ := c06_aabb_exact lo hi _ h2
  have hv : (m.moved (V3.scaleBy κ)).vertices = m.vertices.map (V3.scaleBy κ) := rfl
  cases e1 : m.computeAabb lo hi with
  | none =>
    rw [n2.2 (by rw [hv, n1.1 e1]; rfl)]
    rfl
  | some b =>
    cases e2 : (m.moved (V3.scaleBy κ)).computeAabb lo hi with
    | none =>
      have h := n2.1 e2
      rw [hv, List.map_eq_nil_iff] at h
      rw [n1.2 h] at e1
      cases e1
    | some b' =>
      obtain ⟨c, ⟨x0, hx0, ex0⟩, ⟨x1, hx1, ex1⟩, ⟨y0, hy0, ey0⟩, ⟨y1, hy1, ey1⟩, ⟨z0, hz0, ez0⟩, ⟨z1, hz1, ez1⟩⟩ := s1 b e1
      obtain ⟨c', X0, X1, Y0, Y1, Z0, Z1⟩ := s2 b' e2
      have cm : ∀ v ∈ m.vertices, b'.Contains (V3.scaleBy κ v) := fun v hv' => c' _ (by rw [hv]; exact List.mem_map_of_mem hv')
      have back : ∀ {P : V3 ℚ → Prop}, (∃ v ∈ (m.moved (V3.scaleBy κ)).vertices, P v) → ∃ v ∈ m.vertices, P (V3.scaleBy κ v) := by
        rintro P ⟨v, hv', hp⟩
        rw [hv] at hv'
        obtain ⟨u, hu, rfl⟩ := List.mem_map.1 hv'
        exact ⟨u, hu, hp⟩
      obtain ⟨u0, hu0, eu0⟩ := back X0
      obtain ⟨u1, hu1, eu1⟩ := back X1
      obtain ⟨v0, hv0, ev0⟩ := back Y0
      obtain ⟨v1, hv1, ev1⟩ := back Y1
      obtain ⟨w0, hw0, ew0⟩ := back Z0
      obtain ⟨w1, hw1, ew1⟩ := back Z1
      have q1 := (cm _ hx0).1
      have q2 := (cm _ hx1).2.1
      have q3 := (cm _ hy0).2.2.1
      have q4 := (cm _ hy1).2.2.2.1
      have q5 := (cm _ hz0).2.2.2.2.1
      have q6 := (cm _ hz1).2.2.2.2.2
      have r1 := (le_scale hκ).2 (c _ hu0).1
      have r2 := (le_scale hκ).2 (c _ hu1).2.1
      have r3 := (le_scale hκ).2 (c _ hv0).2.2.1
      have r4 := (le_scale hκ).2 (c _ hv1).2.2.2.1
      have r5 := (le_scale hκ).2 (c _ hw0).2.2.2.2.1
      have r6 := (le_scale hκ).2 (c _ hw1).2.2.2.2.2
      obtain ⟨⟨a1, a2, a3⟩, ⟨a4, a5, a6⟩⟩ := b
      obtain ⟨⟨b1, b2, b3⟩, ⟨b4, b5, b6⟩⟩ := b'
      simp only at ex0 ex1 ey0 ey1 ez0 ez1
      subst ex0 ex1 ey0 ey1 ez0 ez1
      simp only [V3.scaleBy] at *
      simp only [Option.map_some, Option.some.injEq, Aabb3.scaleBy, V3.scaleBy, Aabb3.mk.injEq, V3.mk.injEq]
      refine ⟨⟨?_, ?_, ?_⟩, ?_, ?_, ?_⟩ <;> linarith

theorem buildInput_scale {F : Type} {env : BuildEnv F} {cfg : Config} {scene : List Affector} {κ : ℚ} (hκ : 0 < κ) (hg : GoodScene env.lo env.hi scene)
    (hg' : GoodScene env.lo env.hi (scaledScene κ scene)) (hup : SizeBlind (env.up cfg.walkableSlopeAngle)) :
    buildInput env (cfg.scaleBy κ) (scaledScene κ scene) = (buildInput env cfg scene).map fun p => (p.1.moved (V3.scaleBy κ), p.2.scaleBy κ) := by
  obtain ⟨m, hm, hc⟩ := collect_spec hg
  have hm' : collectAffectors (scaledScene κ scene) = .ok (m.moved (V3.scaleBy κ)) := by rw [collectAffectors_scale, hm]; rfl
  unfold buildInput
  have ea : (cfg.scaleBy κ).walkableSlopeAngle = cfg.walkableSlopeAngle := rfl
  rw [hm, hm', bind_ok, bind_ok, computeAabb_scale hκ (sceneVertex_collect hg hm) (sceneVertex_collect hg' hm'), ea, mark_scale hup hκ]
  cases m.computeAabb env.lo env.hi with
  | none => rfl
  | some box =>
    simp only [Option.map_some]
    cases m.markWalkableTriangles (env.up cfg.walkableSlopeAngle) <;> rfl

theorem buildSolid_scale {fr : Frame} (hcs : 0 < fr.cellSize) {κ : ℚ} (hκ : 0 < κ) (cfg : Config) (m : TriMesh ℚ)
    (hin : ∀ v ∈ m.vertices, fr.aabb.min.x ≤ v.x ∧ fr.aabb.min.z ≤ v.z) :
    buildSolid (cfg.scaleBy κ) (m.moved (V3.scaleBy κ)) (fr.scaleBy κ) = buildSolid cfg m fr := by
  have e : (fr.scaleBy κ).buildHeightfield = fr.buildHeightfield := by
    unfold Frame.buildHeightfield
    simp only [Frame.scaleBy, Aabb3.scaleBy, V3.scaleBy, ← mul_sub, mul_div_mul_left _ _ hκ.ne']
  unfold buildSolid
  rw [e]
  simp only [rasterizeTriangles_scale hcs hκ m _ hin]
  rfl

theorem config_scale {κ : ℚ} (hκ : 0 < κ) (b : ConfigBuilder) : (b.scaleBy κ).build = b.build.map (Config.scaleBy κ) := by
  have hs : ∀ (n : Nat) (lo hi : ℚ), (b.scaleBy κ).side n (κ * lo) (κ * hi) = b.side n lo hi := by
    intro n lo hi
    unfold ConfigBuilder.side
    simp only [ConfigBuilder.scaleBy, ← mul_sub, mul_div_mul_left _ _ hκ.ne']
  have hx : (b.scaleBy κ).aabb.min.x = κ * b.aabb.min.x := rfl
  have hX : (b.scaleBy κ).aabb.max.x = κ * b.aabb.max.x := rfl
  have hz : (b.scaleBy κ).aabb.min.z = κ * b.aabb.min.z := rfl
  have hZ : (b.scaleBy κ).aabb.max.z = κ * b.aabb.max.z := rfl
  unfold ConfigBuilder.build
  rw [hx, hX, hz, hZ]
  simp only [hs]
  have hr : (b.scaleBy κ).agentRadius / (b.scaleBy κ).cellSize = b.agentRadius / b.cellSize := mul_div_mul_left _ _ hκ.ne'
  have hh : (b.scaleBy κ).agentHeight / (b.scaleBy κ).cellHeight = b.agentHeight / b.cellHeight := mul_div_mul_left _ _ hκ.ne'
  have hc : (b.scaleBy κ).agentMaxClimb / (b.scaleBy κ).cellHeight = b.agentMaxClimb / b.cellHeight := mul_div_mul_left _ _ hκ.ne'
  have he : (b.scaleBy κ).edgeMaxLen / (b.scaleBy κ).cellSize = b.edgeMaxLen / b.cellSize := mul_div_mul_left _ _ hκ.ne'
  rw [hr, hh, hc, he]
  cases addU16 (satU16 ⌈b.agentRadius / b.cellSize⌉) 3 with
  | error e => rfl
  | ok border =>
    rw [bind_ok, bind_ok]
    cases b.side border b.aabb.min.x b.aabb.max.x with
    | error e => rfl
    | ok w =>
      rw [bind_ok, bind_ok]
      cases b.side border b.aabb.min.z b.aabb.max.z with
      | error e => rfl
      | ok h =>
        rw [bind_ok, bind_ok]
        show Except.ok _ = Except.ok _
        congr 1
        simp only [ConfigBuilder.scaleBy, Config.scaleBy, Config.mk.injEq, true_and, mul_assoc, and_true]
        split
        · rw [mul_zero]
        · rfl

theorem scaledScene_back {κ : ℚ} (hκ : 0 < κ) (scene : List Affector) : scaledScene κ⁻¹ (scaledScene κ scene) = scene := by
  unfold scaledScene
  rw [List.map_map]
  conv_rhs => rw [← List.map_id scene]
  congr 1
  funext a
  obtain ⟨mesh, tr⟩ := a
  simp only [Function.comp, Affector.scaleBy, V3.scaleBy, id, Affector.mk.injEq, true_and, inv_mul_cancel_left₀ hκ.ne']

theorem scaledBuilder_back {κ : ℚ} (hκ : 0 < κ) (b : ConfigBuilder) : ConfigBuilder.scaleBy κ⁻¹ (b.scaleBy κ) = b := by
  simp only [ConfigBuilder.scaleBy, Aabb3.scaleBy, V3.scaleBy, inv_mul_cancel_left₀ hκ.ne']

end Rerecast
