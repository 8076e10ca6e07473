import Verif.Spec.Pipeline
import Verif.Lemmas.TriMesh
import Verif.Lemmas.Res
import Verif.Props.C05_C08_TriMesh
/-! The triangles collected from the affectors. -/
namespace Rerecast

/-- The mesh an affector adds. -/
def Affector.read (a : Affector) : Option (TriMesh ℚ) := (a.mesh.bind TriMesh.fromMesh).map (TriMesh.moved a.transform)

theorem collect_foldl (l : List Affector) (m : TriMesh ℚ) :
    l.foldlM addAffector m = (l.filterMap Affector.read).foldlM TriMesh.extend m := by
  induction l generalizing m with
  | nil => rfl
  | cons a l ih =>
    rw [List.foldlM_cons, List.filterMap_cons]
    cases h : a.mesh.bind TriMesh.fromMesh with
    | none =>
      have h2 : a.read = none := by rw [Affector.read, h]; rfl
      have h1 : addAffector m a = .ok m := by simp only [addAffector, h]
      rw [h1, h2, bind_ok]
      exact ih m
    | some c =>
      have h2 : a.read = some (c.moved a.transform) := by rw [Affector.read, h]; rfl
      have h1 : addAffector m a = m.extend (c.moved a.transform) := by simp only [addAffector, h]; rfl
      rw [h1, h2]
      simp only [List.foldlM_cons]
      cases m.extend (c.moved a.transform) with
      | error e => rfl
      | ok m' => rw [bind_ok, bind_ok]; exact ih m'

theorem read_iff {a : Affector} {m : TriMesh ℚ} : a.read = some m ↔ ∃ vertices indices, a.Readable vertices indices ∧
    m = ⟨vertices.map a.transform, chunks3 indices, List.replicate (chunks3 indices).length 0⟩ := by
  unfold Affector.read Affector.Readable
  rcases a with ⟨_ | ⟨tl, pos, ind⟩, f⟩
  · simp
  · cases tl <;> cases pos <;> cases ind <;> simp [TriMesh.fromMesh, TriMesh.moved, NOT_WALKABLE]
    intro _
    exact eq_comm

theorem chunks3_get (l : List Nat) : ∀ (n i j k : Nat), (chunks3 l)[n]? = some (i, j, k) ↔
    l[3 * n]? = some i ∧ l[3 * n + 1]? = some j ∧ l[3 * n + 2]? = some k := by
  induction l using chunks3.induct with
  | case1 a b c l ih =>
    intro n i j k
    cases n with
    | zero => simp [chunks3]
    | succ n =>
      have e1 : 3 * (n + 1) = 3 * n + 3 := by omega
      have e2 : 3 * (n + 1) + 1 = 3 * n + 1 + 3 := by omega
      have e3 : 3 * (n + 1) + 2 = 3 * n + 2 + 3 := by omega
      rw [e2, e3, e1]
      simp only [chunks3, List.getElem?_cons_succ]
      exact ih n i j k
  | case2 l h =>
    intro n i j k
    have h1 : chunks3 l = [] := by
      match l, h with
      | [], _ => rfl
      | [_], _ => rfl
      | [_, _], _ => rfl
      | a :: b :: c :: l, h => exact absurd rfl (h a b c l)
    have h2 : l.length < 3 := by
      match l, h with
      | [], _ => simp
      | [_], _ => simp
      | [_, _], _ => simp
      | a :: b :: c :: l, h => exact absurd rfl (h a b c l)
    rw [h1]
    simp only [List.getElem?_nil, reduceCtorEq, false_iff]
    rintro ⟨_, _, h3⟩
    have := (List.getElem?_eq_some_iff.1 h3).1
    omega

theorem chunks3_mem {l : List Nat} {t : Nat × Nat × Nat} (h : t ∈ chunks3 l) : t.1 ∈ l ∧ t.2.1 ∈ l ∧ t.2.2 ∈ l := by
  obtain ⟨n, hn⟩ := List.getElem?_of_mem h
  obtain ⟨h1, h2, h3⟩ := (chunks3_get l n t.1 t.2.1 t.2.2).1 hn
  exact ⟨List.mem_of_getElem? h1, List.mem_of_getElem? h2, List.mem_of_getElem? h3⟩

theorem corners_iff {m : TriMesh ℚ} {n : Nat} {t : Triangle} : m.corners n = some t ↔
    ∃ i j k, m.indices[n]? = some (i, j, k) ∧ m.vertices[i]? = some t.1 ∧ m.vertices[j]? = some t.2.1 ∧ m.vertices[k]? = some t.2.2 := by
  unfold TriMesh.corners
  constructor
  · intro h
    split at h
    · cases h
    · rename_i i hi
      split at h
      · rename_i a b c ha hb hc
        cases h
        exact ⟨i.1, i.2.1, i.2.2, hi, ha, hb, hc⟩
      · cases h
  · rintro ⟨i, j, k, h, h1, h2, h3⟩
    simp only [h, h1, h2, h3]

theorem mem_soup {m : TriMesh ℚ} {t : Triangle} : (∃ k, m.corners k = some t) ↔ ∃ a, (some t, a) ∈ m.soup := by
  simp only [TriMesh.soup, List.mem_map, List.mem_range, Prod.mk.injEq]
  constructor
  · rintro ⟨k, hk⟩
    obtain ⟨_, _, _, h, _⟩ := corners_iff.1 hk
    exact ⟨_, k, (List.getElem?_eq_some_iff.1 h).1, hk, rfl⟩
  · rintro ⟨a, k, _, h, _⟩
    exact ⟨k, h⟩

/-- What the collected mesh holds. -/
structure SceneCollected (scene : List Affector) (m : TriMesh ℚ) : Prop where
  wf : m.WF
  triangles : ∀ t, (∃ k, m.corners k = some t) ↔ SceneTriangle scene t
  vertices : ∀ v, v ∈ m.vertices ↔ SceneVertex scene v
  areas : ∀ k < m.indices.length, m.areaTypes[k]? = some 0

theorem vertexCount_read {a : Affector} {m : TriMesh ℚ} (h : a.read = some m) : m.vertices.length = a.vertexCount := by
  obtain ⟨vs, is, ⟨mesh, h1, _, h3, _⟩, rfl⟩ := read_iff.1 h
  simp [Affector.vertexCount, h1, h3]

theorem sum_read_le (l : List Affector) : ((l.filterMap Affector.read).map fun m => m.vertices.length).sum ≤ (l.map Affector.vertexCount).sum := by
  induction l with
  | nil => simp
  | cons a l ih =>
    rw [List.filterMap_cons]
    cases h : a.read with
    | none => simp only [List.map_cons, List.sum_cons]; omega
    | some m =>
      simp only [List.map_cons, List.sum_cons, vertexCount_read h]
      omega

theorem collect_spec {lo hi : ℚ} {scene : List Affector} (hg : GoodScene lo hi scene) :
    ∃ m, collectAffectors scene = .ok m ∧ SceneCollected scene m := by
  have hwf : ∀ m ∈ scene.filterMap Affector.read, m.WF := by
    intro m hm
    obtain ⟨a, ha, hr⟩ := List.mem_filterMap.1 hm
    obtain ⟨vs, is, hrd, rfl⟩ := read_iff.1 hr
    have hin := hg.indices a ha vs is hrd
    refine ⟨?_, by simp⟩
    intro t ht
    obtain ⟨h1, h2, h3⟩ := chunks3_mem ht
    simp only [List.length_map]
    exact ⟨hin _ h1, hin _ h2, hin _ h3⟩
  have hempty : (TriMesh.empty : TriMesh ℚ).WF := ⟨by simp [TriMesh.empty], by simp [TriMesh.empty]⟩
  obtain ⟨m, h1, h2, h3, h4⟩ := c05_extend_sequence TriMesh.empty (scene.filterMap Affector.read) hempty hwf (by
    have := sum_read_le scene
    have := hg.count
    simp only [TriMesh.empty, List.length_nil]
    omega)
  have hs0 : (TriMesh.empty : TriMesh ℚ).soup = [] := rfl
  rw [hs0, List.nil_append] at h4
  have hv0 : (TriMesh.empty : TriMesh ℚ).vertices = [] := rfl
  rw [hv0, List.nil_append] at h3
  refine ⟨m, by rw [collectAffectors, collect_foldl]; exact h1, h2, ?_, ?_, ?_⟩
  · intro t
    rw [mem_soup, h4]
    simp only [List.mem_flatMap, List.mem_filterMap]
    constructor
    · rintro ⟨ar, b, ⟨a, ha, hr⟩, hb⟩
      obtain ⟨k, hk⟩ := mem_soup.2 ⟨ar, hb⟩
      obtain ⟨vs, is, hrd, rfl⟩ := read_iff.1 hr
      obtain ⟨i, j, l, hi, e1, e2, e3⟩ := corners_iff.1 hk
      obtain ⟨g1, g2, g3⟩ := (chunks3_get is k i j l).1 hi
      simp only [List.getElem?_map, Option.map_eq_some_iff] at e1 e2 e3
      obtain ⟨p, hp, e1⟩ := e1
      obtain ⟨q, hq, e2⟩ := e2
      obtain ⟨r, hr', e3⟩ := e3
      exact ⟨a, ha, vs, is, hrd, k, i, j, l, p, q, r, g1, g2, g3, hp, hq, hr', by rw [e1, e2, e3]⟩
    · rintro ⟨a, ha, vs, is, hrd, n, i, j, k, p, q, r, g1, g2, g3, hp, hq, hr, rfl⟩
      have hread := read_iff.2 ⟨vs, is, hrd, rfl⟩
      have hc : (⟨vs.map a.transform, chunks3 is, List.replicate (chunks3 is).length 0⟩ : TriMesh ℚ).corners n =
          some (a.transform p, a.transform q, a.transform r) := by
        refine corners_iff.2 ⟨i, j, k, (chunks3_get is n i j k).2 ⟨g1, g2, g3⟩, ?_, ?_, ?_⟩ <;> simp [hp, hq, hr]
      obtain ⟨ar, har⟩ := mem_soup.1 ⟨n, hc⟩
      exact ⟨ar, _, ⟨a, ha, hread⟩, har⟩
  · intro v
    rw [h3]
    simp only [List.mem_flatMap, List.mem_filterMap]
    constructor
    · rintro ⟨b, ⟨a, ha, hr⟩, hb⟩
      obtain ⟨vs, is, hrd, rfl⟩ := read_iff.1 hr
      obtain ⟨p, hp, rfl⟩ := List.mem_map.1 hb
      exact ⟨a, ha, vs, is, hrd, p, hp, rfl⟩
    · rintro ⟨a, ha, vs, is, hrd, p, hp, rfl⟩
      exact ⟨_, ⟨a, ha, read_iff.2 ⟨vs, is, hrd, rfl⟩⟩, List.mem_map.2 ⟨p, hp, rfl⟩⟩
  · intro k hk
    have hmem : (m.corners k, m.areaTypes[k]?) ∈ m.soup := List.mem_map.2 ⟨k, List.mem_range.2 hk, rfl⟩
    rw [h4] at hmem
    obtain ⟨b, hb, hin⟩ := List.mem_flatMap.1 hmem
    obtain ⟨a, ha, hr⟩ := List.mem_filterMap.1 hb
    obtain ⟨vs, is, hrd, rfl⟩ := read_iff.1 hr
    obtain ⟨n, hn, e⟩ := List.mem_map.1 hin
    have e2 := congrArg Prod.snd e
    simp only at e2
    rw [← e2, List.getElem?_replicate, if_pos (List.mem_range.1 hn)]

theorem buildInput_spec {F : Type} (env : BuildEnv F) (cfg : Config) {scene : List Affector} (hg : GoodScene env.lo env.hi scene) :
    ((¬ ∃ v, SceneVertex scene v) → buildInput env cfg scene = .error .err) ∧
    ((∃ v, SceneVertex scene v) → ∃ m fr, buildInput env cfg scene = .ok (m, fr) ∧ InputOf env cfg scene m fr) := by
  obtain ⟨m, hm, hc⟩ := collect_spec hg
  obtain ⟨hnone, hsome⟩ := c06_aabb_exact env.lo env.hi m (fun v hv => hg.finite v ((hc.vertices v).1 hv))
  constructor
  · intro hno
    have : m.vertices = [] := by
      by_contra hne
      obtain ⟨v, hv⟩ := List.exists_mem_of_ne_nil _ hne
      exact hno ⟨v, (hc.vertices v).1 hv⟩
    rw [buildInput, hm, bind_ok, hnone.2 this]
  · rintro ⟨v, hv⟩
    have hne : m.computeAabb env.lo env.hi ≠ none := by
      intro h
      have := hnone.1 h
      have h2 := (hc.vertices v).2 hv
      rw [this] at h2
      cases h2
    obtain ⟨box, hbox⟩ := Option.ne_none_iff_exists'.1 hne
    obtain ⟨b0, b1, b2, b3, b4, b5, b6⟩ := hsome box hbox
    obtain ⟨out, g1, g2, g3, g4, g5⟩ := c07_mark_walkable (env.up cfg.walkableSlopeAngle) m hc.wf
    have hcor : ∀ k, out.corners k = m.corners k := by
      intro k; simp only [TriMesh.corners, g2, g3]
    refine ⟨out, ⟨box, cfg.cellSize, cfg.cellHeight⟩, ?_, ?_, ?_, ?_, ?_, rfl, rfl, ?_, ?_⟩
    · rw [buildInput, hm, bind_ok, hbox]
      simp only
      rw [g1, bind_ok]
    · exact ⟨by rw [g3, g2]; exact hc.wf.inRange, by rw [g4, g3]; exact hc.wf.areas⟩
    · intro t; simp only [hcor]; exact hc.triangles t
    · intro v; rw [g2]; exact hc.vertices v
    · intro k t hk
      rw [hcor] at hk
      obtain ⟨h1, h2⟩ := g5 k t.1 t.2.1 t.2.2 hk
      cases hup : env.up cfg.walkableSlopeAngle t.1 t.2.1 t.2.2 with
      | true => rw [h1 hup]; rfl
      | false =>
        rw [h2 hup]
        obtain ⟨_, _, _, h, _⟩ := corners_iff.1 hk
        rw [hc.areas k (List.getElem?_eq_some_iff.1 h).1]
        rfl
    · intro v hv; exact b0 v ((hc.vertices v).2 hv)
    · have conv : ∀ {P : V3 ℚ → Prop}, (∃ v ∈ m.vertices, P v) → ∃ v, SceneVertex scene v ∧ P v := by
        rintro P ⟨v, hv, hp⟩
        exact ⟨v, (hc.vertices v).1 hv, hp⟩
      exact ⟨conv b1, conv b2, conv b3, conv b4, conv b5, conv b6⟩

end Rerecast
