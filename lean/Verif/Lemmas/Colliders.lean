import Verif.Spec.Colliders
import Verif.Props.C05_C08_TriMesh
import Verif.Props.C54_C74_Editor
/-! Lemmas for C96: what the collider backend gives and what the editor makes of it. -/
namespace Rerecast.Backend
open Transmission
variable {F V T P : Type}

/-- The triangles of a mesh. -/
abbrev meshTris (m : TriMesh F) : List (Tri F) := Raw.triangles (m.vertices, m.indices)

theorem simpleToTrimesh_eq (par : Parry F P) (s : Simple F P) :
    simpleToTrimesh par 10 s =
      (s.surface par).map fun r => ⟨r.1, r.2, List.replicate r.2.length NOT_WALKABLE⟩ := by
  cases s <;> rfl

theorem soup_corners {m : TriMesh F} (h : m.WF) : m.soup.map Prod.fst = (meshTris m).map some := by
  have e : m.soup.map Prod.fst = m.indices.map fun (t : Nat × Nat × Nat) =>
      (match m.vertices[t.1]?, m.vertices[t.2.1]?, m.vertices[t.2.2]? with
      | some a, some b, some c => some (a, b, c)
      | _, _, _ => none : Option (Tri F)) := by
    apply List.ext_getElem?
    intro i
    simp only [TriMesh.soup, List.map_map, List.getElem?_map, Function.comp_def, TriMesh.corners]
    by_cases hi : i < m.indices.length
    · rw [List.getElem?_range hi]
      simp only [List.getElem?_eq_getElem hi, Option.map_some]
      rfl
    · simp [Nat.le_of_not_lt hi]
  rw [e]
  unfold meshTris Raw.triangles
  have hr := h.inRange
  revert hr
  generalize m.indices = l
  intro hr
  induction l with
  | nil => rfl
  | cons t l ih =>
    obtain ⟨h1, h2, h3⟩ := hr t (List.mem_cons_self ..)
    rw [List.map_cons, List.filterMap_cons, ih fun t ht => hr t (List.mem_cons_of_mem _ ht)]
    simp [List.getElem?_eq_getElem h1, List.getElem?_eq_getElem h2, List.getElem?_eq_getElem h3]

theorem wf_unmarked {m : TriMesh F} (h : m.WF) : m.unmarked.WF := ⟨h.inRange, by simp [TriMesh.unmarked]⟩

theorem soup_unmarked {m : TriMesh F} (h : m.WF) :
    m.unmarked.soup = (meshTris m).map fun t => (some t, some NOT_WALKABLE) := by
  have h1 := soup_corners (wf_unmarked h)
  have h2 : ∀ x ∈ m.unmarked.soup, x.2 = some NOT_WALKABLE := by
    intro x hx
    unfold TriMesh.soup at hx
    obtain ⟨i, hi, rfl⟩ := List.mem_map.1 hx
    rw [List.mem_range] at hi
    show (List.replicate m.indices.length NOT_WALKABLE)[i]? = _
    have hi' : i < m.indices.length := hi
    rw [List.getElem?_replicate]
    simp [hi']
  have h3 : m.unmarked.soup = (m.unmarked.soup.map Prod.fst).map fun c => (c, some NOT_WALKABLE) := by
    rw [List.map_map]
    refine (List.map_id _).symm.trans (List.map_congr_left fun x hx => ?_)
    rw [Function.comp_apply, ← h2 x hx]
    rfl
  rw [h3, h1, List.map_map]
  rfl

theorem meshTris_moved (m : TriMesh F) (f : V3 F → V3 F) : meshTris (m.moved f) = (meshTris m).map (moveTriangle f) := by
  unfold meshTris Raw.triangles
  rw [List.map_filterMap]
  refine List.filterMap_congr fun t _ => ?_
  simp only [TriMesh.moved, List.getElem?_map]
  cases m.vertices[t.1]? <;> cases m.vertices[t.2.1]? <;> cases m.vertices[t.2.2]? <;> rfl

theorem moveTriangle_id (l : List (Tri F)) : l.map (moveTriangle id) = l := by
  refine (List.map_congr_left fun t _ => ?_).trans (List.map_id _)
  rfl

theorem map_some_inj {α : Type} {l l' : List α} (h : l.map some = l'.map some) : l = l' :=
  List.map_injective_iff.2 (fun _ _ h => Option.some.inj h) h

theorem compound_length (l : List ((V3 F → V3 F) × Option (TriMesh F))) :
    ∀ acc out : TriMesh F, l.foldlM TriMesh.compoundStep acc = .ok out →
      out.vertices.length = acc.vertices.length + totalVertices l := by
  induction l with
  | nil => intro acc out h; cases h; simp [totalVertices]
  | cons c l ih =>
    intro acc out h
    rw [List.foldlM_cons] at h
    obtain ⟨acc', h1, h2⟩ := bind_inv h
    rw [ih _ _ h2]
    obtain ⟨f, o⟩ := c
    cases o with
    | none => cases h1; simp [totalVertices]
    | some m =>
      simp only [TriMesh.compoundStep, TriMesh.extend] at h1
      split at h1
      · cases h1
      · obtain ⟨x, -, h3⟩ := bind_inv h1
        cases h3
        simp [totalVertices, TriMesh.applyIsometry, Nat.add_assoc]

/-- What the conversion of a collider gives. -/
structure Converts (par : Parry F P) (s : Shape F P) (o : Option (TriMesh F)) : Prop where
  wf : ∀ m, o = some m → m.WF
  triangles : (match o with | none => [] | some m => meshTris m) = s.triangles par
  vertices : (match o with | none => 0 | some m => m.vertices.length) = s.vertexCount par

theorem converts_simple (par : Parry F P) (s : Simple F P) (hv : (Shape.simple s).Valid par) :
    Converts par (.simple s) (simpleToTrimesh par 10 s) := by
  rw [simpleToTrimesh_eq]
  have h := hv (id, s) (by simp [Shape.parts])
  dsimp only at h
  cases e : s.surface par with
  | none => exact ⟨by simp, by simp [Shape.triangles, Shape.parts, e], by simp [Shape.vertexCount, Shape.parts, e]⟩
  | some r =>
    refine ⟨fun m hm => ?_, ?_, ?_⟩
    · cases hm
      exact ⟨h r e, by simp⟩
    · simp [Shape.triangles, Shape.parts, e, moveTriangle_id]
    · simp [Shape.vertexCount, Shape.parts, e]

theorem converts_compound (par : Parry F P) (l : List ((V3 F → V3 F) × Simple F P)) (hv : (Shape.compound l).Valid par)
    (hid : ∀ c ∈ l, c.1 = id) (hn : (Shape.compound l).vertexCount par ≤ 4294967295) :
    ∃ o, shapeToTrimesh par 10 (.compound l) = .ok o ∧ Converts par (.compound l) o := by
  have hc : (l.map fun (c : (V3 F → V3 F) × Simple F P) => (c.1, simpleToTrimesh par 10 c.2)) =
      l.map fun c => (c.1, (c.2.surface par).map fun r => (⟨r.1, r.2, List.replicate r.2.length NOT_WALKABLE⟩ : TriMesh F)) :=
    List.map_congr_left fun c _ => by rw [simpleToTrimesh_eq]
  have ht : totalVertices (l.map fun c => (c.1, (c.2.surface par).map fun r =>
      (⟨r.1, r.2, List.replicate r.2.length NOT_WALKABLE⟩ : TriMesh F))) = (Shape.compound l).vertexCount par := by
    unfold totalVertices Shape.vertexCount Shape.parts
    rw [List.map_map]
    congr 1
    refine List.map_congr_left fun c _ => ?_
    rw [Function.comp_apply]
    cases c.2.surface par <;> rfl
  have hg : GoodChildren (l.map fun c => (c.1, (c.2.surface par).map fun r =>
      (⟨r.1, r.2, List.replicate r.2.length NOT_WALKABLE⟩ : TriMesh F))) := by
    refine ⟨fun c hc m hm => ?_, by rw [ht]; exact hn⟩
    obtain ⟨x, hx, rfl⟩ := List.mem_map.1 hc
    obtain ⟨r, hr, rfl⟩ := Option.map_eq_some_iff.1 hm
    exact ⟨hv x hx r hr, by simp⟩
  obtain ⟨out, h1, h2, h3⟩ := c08_compound_partial _ hg (fun c hc => by
    obtain ⟨x, hx, rfl⟩ := List.mem_map.1 hc
    exact hid x hx)
  have hl := compound_length _ _ _ h1
  refine ⟨some out, ?_, fun m hm => by cases hm; exact h2, map_some_inj ?_, ?_⟩
  · show (TriMesh.compoundTrimesh (l.map fun (c : (V3 F → V3 F) × Simple F P) => (c.1, simpleToTrimesh par 10 c.2)) >>= _) = _
    rw [hc, h1]
    rfl
  · dsimp only
    rw [← soup_corners h2, h3]
    unfold ownPoseSoup Shape.triangles Shape.parts
    rw [List.flatMap_map, List.map_flatMap, List.map_flatMap]
    have : ∀ c ∈ l, (List.map Prod.fst (match (c.2.surface par).map fun r =>
          (⟨r.1, r.2, List.replicate r.2.length NOT_WALKABLE⟩ : TriMesh F) with
        | none => []
        | some m => (m.moved c.1).soup)) = List.map some (match c.2.surface par with
        | none => []
        | some r => r.triangles.map (moveTriangle c.1)) := by
      intro c hc
      cases e : c.2.surface par with
      | none => rfl
      | some r =>
        have hw : (⟨r.1, r.2, List.replicate r.2.length NOT_WALKABLE⟩ : TriMesh F).WF := ⟨hv c hc r e, by simp⟩
        simp only [Option.map_some]
        rw [soup_corners (TriMesh.wf_moved hw _), meshTris_moved]
    rw [List.flatMap_def, List.flatMap_def]
    congr 1
    exact List.map_congr_left this
  · dsimp only
    rw [hl, ht]
    simp [TriMesh.empty]

/-- The parts of a compound are not moved. -/
def Shape.Unposed (s : Shape F P) : Prop := ∀ c ∈ s.parts, c.1 = id

theorem converts (par : Parry F P) (s : Shape F P) (hv : s.Valid par) (hid : s.Unposed)
    (hn : s.vertexCount par ≤ 4294967295) : ∃ o, shapeToTrimesh par 10 s = .ok o ∧ Converts par s o := by
  cases s with
  | simple s => exact ⟨_, rfl, converts_simple par s hv⟩
  | compound l => exact converts_compound par l hv hid hn

/-- The backend gives, for each collider of a static body with a supported shape, its transform and its mesh. -/
theorem backend_eq (par : Parry F P) (w : World F V T P) :
    colliderBackend par w = (do
      let l ← w.statics.mapM fun c => shapeToTrimesh par 10 c.shape >>= fun o => .ok (o.map fun m => (c.transform, m))
      .ok l.reduceOption) := by
  unfold colliderBackend World.statics
  generalize w.colliders = l
  induction l with
  | nil => rfl
  | cons c l ih =>
    rw [List.mapM_cons, List.filter_cons]
    by_cases hs : w.IsStatic c
    · have hs' : w.bodies c.body = some .static := hs
      simp only [hs, decide_true, if_true, List.mapM_cons]
      have e1 : colliderAffector par w.bodies c =
          (shapeToTrimesh par 10 c.shape >>= fun o => .ok (o.map fun m => (c.transform, m))) := by
        simp only [colliderAffector, hs']; rfl
      rw [e1]
      cases shapeToTrimesh par 10 c.shape with
      | error e => rfl
      | ok o =>
        simp only [bind_ok]
        revert ih
        generalize List.mapM (colliderAffector par w.bodies) l = A
        generalize List.mapM (fun c => shapeToTrimesh par 10 c.shape >>= fun o =>
          Except.ok (o.map fun m => (c.transform, m))) (List.filter (fun c => decide (w.IsStatic c)) l) = B
        intro ih
        cases A <;> cases B <;> try (first | cases ih | rfl)
        all_goals
          cases o <;> simp_all [Except.bind, bind, pure, Except.pure, List.reduceOption]
    · have e1 : colliderAffector par w.bodies c = .ok none := by
        unfold colliderAffector
        have hs' : w.bodies c.body ≠ some .static := hs
        cases hb : w.bodies c.body with
        | none => rfl
        | some b => simp_all
      rw [e1]
      simp only [hs, decide_false, bind_ok]
      show _ = ((List.mapM _ (List.filter (fun c => decide (w.IsStatic c)) l)) >>= _)
      rw [← ih]
      cases List.mapM (colliderAffector par w.bodies) l with
      | error e => rfl
      | ok x => rfl

/-- The affectors of a backend and the colliders they come from. -/
theorem backend_ok (par : Parry F P) (l : List (Collider F T P)) (hv : ∀ c ∈ l, c.shape.Valid par)
    (hid : ∀ c ∈ l, c.shape.Unposed) (hn : (l.map fun c => c.shape.vertexCount par).sum ≤ 4294967295) :
    ∃ os : List (Option (T × TriMesh F)),
      (l.mapM fun c => shapeToTrimesh par 10 c.shape >>= fun o => (.ok (o.map fun m => (c.transform, m)) : Res _)) = .ok os ∧
      List.Forall₂ (fun (c : Collider F T P) (x : Option (T × TriMesh F)) =>
        Converts par c.shape (x.map Prod.snd) ∧ ∀ a, x = some a → a.1 = c.transform) l os := by
  induction l with
  | nil => exact ⟨[], rfl, .nil⟩
  | cons c l ih =>
    rw [List.map_cons, List.sum_cons] at hn
    obtain ⟨os, h1, h2⟩ := ih (fun c hc => hv c (List.mem_cons_of_mem _ hc)) (fun c hc => hid c (List.mem_cons_of_mem _ hc))
      (by omega)
    obtain ⟨o, h3, h4⟩ := converts par c.shape (hv c (List.mem_cons_self ..)) (hid c (List.mem_cons_self ..)) (by omega)
    refine ⟨o.map (fun m => (c.transform, m)) :: os, ?_, .cons ⟨?_, ?_⟩ h2⟩
    · rw [List.mapM_cons, h3, h1]; rfl
    · rw [Option.map_map]
      have : (Prod.snd ∘ fun m : TriMesh F => (c.transform, m)) = id := rfl
      rw [this, Option.map_id]
      exact h4
    · intro a ha
      obtain ⟨m, -, rfl⟩ := Option.map_eq_some_iff.1 ha
      rfl

/-- The affectors of the editor as the build sees them. -/
theorem forall₂_map {α β γ : Type} {R : α → β → Prop} {l : List α} {l' : List β} {f : α → γ} {g : β → γ}
    (h : List.Forall₂ R l l') (hfg : ∀ a b, R a b → f a = g b) : l.map f = l'.map g := by
  induction h with
  | nil => rfl
  | cons h _ ih => rw [List.map_cons, List.map_cons, hfg _ _ h, ih]

theorem app_backend (l : List (AppEvent F V T P)) : (l.foldl appStep (none, [])).1 = lastBackend l := by
  induction l using List.reverseRecOn with
  | nil => rfl
  | append_singleton l e ih =>
    rw [List.foldl_append, List.foldl_cons, List.foldl_nil]
    unfold lastBackend
    rw [List.filterMap_append]
    cases e with
    | setBackend b => simp [appStep]
    | request p w =>
      simp only [appStep, List.filterMap_cons, List.filterMap_nil, List.append_nil]
      exact ih

theorem answers_request (l : List (AppEvent F V T P)) (params : Bool) (w : World F V T P) :
    answers (l ++ [.request params w]) = answers l ++ [remoteMethod (lastBackend l) params w] := by
  unfold answers
  rw [List.foldl_append, List.foldl_cons, List.foldl_nil, ← app_backend]
  rfl

end Rerecast.Backend
