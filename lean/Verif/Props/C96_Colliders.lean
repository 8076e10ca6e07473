import Verif.Lemmas.Colliders
import Mathlib.Data.List.ReduceOption
/-! C96: navmeshes of the editor are built from the colliders of the game's static bodies. -/
namespace Rerecast.Backend
open Transmission
variable {F V T P : Type}

/-- **C96 (shapes).** Shapes are converted as documented: rounding is ignored, the four unsupported kinds give nothing, and any
other shape gives exactly its surface with no triangle walkable. -/
theorem c96_shape (par : Parry F P) (s : Simple F P) :
    shapeToTrimesh par 10 (.simple s) = shapeToTrimesh par 10 (.simple s.unrounded) ∧
    (s.Unsupported → shapeToTrimesh par 10 (.simple s) = .ok none) ∧
    (¬ s.Unsupported → ∃ m, shapeToTrimesh par 10 (.simple s) = .ok (some m) ∧
      (m.vertices, m.indices) = s.unrounded.plainSurface par ∧ m.areaTypes = List.replicate m.indices.length NOT_WALKABLE) := by
  refine ⟨by cases s <;> rfl, by cases s <;> simp [Simple.Unsupported, shapeToTrimesh, simpleToTrimesh], ?_⟩
  cases s <;> intro h <;> first | exact absurd trivial h | exact ⟨_, rfl, rfl, rfl⟩

/-- **C96 (partial).** A game with the collider backend answers the request of the editor; fetching the answer succeeds; and
the triangles a build of the editor starts from are those of the colliders of static bodies, collider by collider, each moved
by the transform of its collider.  None is marked walkable yet.  Missing: compounds with moved parts, see `c96_violated`. -/
theorem c96_editor_partial (par : Parry F P) (w : World F V T P) (before : List (AppEvent F V T P)) (tf : T → T)
    (point : T → V3 F → V3 F) (white : StandardMaterial V Nat) (assets : EditorAssets F V)
    (hbackend : lastBackend before = some (colliderBackend par))
    (hl : 15 * w.scene.entities.length ≤ 4294967296) (hok : ∀ h m, w.scene.meshes h = some m → m.Ok)
    (hv : ∀ c ∈ w.statics, c.shape.Valid par) (hid : ∀ c ∈ w.statics, c.shape.Unposed)
    (hn : (w.statics.map fun c => c.shape.vertexCount par).sum ≤ 4294967295) :
    ∃ p affs visuals assets' out,
      (answers (before ++ [.request false w])).getLast? = some (.ok (.ok p)) ∧
      fetchNavmeshInput tf white assets p = .ok (affs, visuals, assets') ∧
      editorTrimesh point affs assets' = .ok out ∧ out.WF ∧
      out.soup = w.statics.flatMap fun c =>
        (c.shape.triangles par).map fun t => (some (moveTriangle (point (tf c.transform)) t), some NOT_WALKABLE) := by
  obtain ⟨os, h1, h2⟩ := backend_ok par w.statics hv hid hn
  have hb : colliderBackend par w = .ok os.reduceOption := by rw [backend_eq, h1]; rfl
  have hr : remoteMethod (lastBackend before) false w = .ok (.ok (getNavmeshInput w.scene os.reduceOption)) := by
    rw [hbackend]
    show (colliderBackend par w >>= _) = _
    rw [hb]
    rfl
  obtain ⟨_, _, _, affs, visuals, assets', e1, -, -, -, -, e2, -⟩ :=
    c55_editor tf white w.scene os.reduceOption assets hl hok
  have e3 : (affs.map fun (x : EditorEntity T) => (x.transform, assets'.meshes[x.mesh]?)) =
      os.reduceOption.map fun (a : T × TriMesh F) => (tf a.1, some (affectorMesh a.2)) :=
    (forall₂_map e2 fun a b h => by rw [h.1, h.2.2]).symm
  have hwf : ∀ a ∈ os.reduceOption, a.2.WF := by
    intro a ha
    rw [List.reduceOption_mem_iff] at ha
    clear h1 hb hr e1 e2 e3
    generalize w.statics = l at h2
    induction h2 with
    | nil => cases ha
    | cons h _ ih =>
      rcases List.mem_cons.1 ha with rfl | ha
      · exact h.1.wf _ rfl
      · exact ih ha
  obtain ⟨out, g1, g2, g3⟩ := c73_gather point
    (os.reduceOption.map fun (a : T × TriMesh F) => (tf a.1, some (affectorMesh a.2)))
    (by
      intro a ha m hm t ht
      obtain ⟨x, hx, rfl⟩ := List.mem_map.1 ha
      cases hm
      rw [c74_affector_partial] at ht
      cases ht
      exact wf_unmarked (hwf x hx))
    (by
      rw [List.map_map]
      refine le_trans (le_of_eq ?_) hn
      simp only [Function.comp_def, Option.bind_some, c74_affector_partial, Option.map_some, Option.getD_some,
        TriMesh.unmarked]
      clear h1 hb hr e1 e2 e3 hwf hn hv hid
      generalize w.statics = l at h2
      induction h2 with
      | nil => rfl
      | @cons c x l os h _ ih =>
        rw [List.map_cons, List.sum_cons, ← ih, ← h.1.vertices]
        cases x <;> simp [List.reduceOption])
  refine ⟨_, affs, visuals, assets', out, by rw [answers_request, List.getLast?_concat, hr], e1, ?_, g2, ?_⟩
  · unfold editorTrimesh; rw [e3]; exact g1
  · rw [g3, List.flatMap_map]
    clear h1 hb hr e1 e2 e3 hn hv hid g3 g1
    generalize w.statics = l at h2
    induction h2 with
    | nil => rfl
    | @cons c x l os h _ ih =>
      rw [List.flatMap_cons, ← ih ?_, ← h.1.triangles]
      · cases x with
        | none => simp [List.reduceOption]
        | some a =>
          rw [List.reduceOption_cons_of_some, List.flatMap_cons]
          congr 1
          simp only [Option.bind_some, c74_affector_partial, Option.map_some]
          rw [TriMesh.soup_moved, soup_unmarked (h.1.wf _ rfl), List.map_map, h.2 a rfl]
          rfl
      · intro a ha
        exact hwf a (by cases x <;> simp_all [List.reduceOption])

/-- **C96 (other bodies).** Only colliders of static bodies count: if two worlds agree on these, the backend gives the same, no
matter what other colliders and bodies there are. -/
theorem c96_static_only (par : Parry F P) (w w' : World F V T P) (h : w.statics = w'.statics) :
    colliderBackend par w = colliderBackend par w' := by
  rw [backend_eq, backend_eq, h]

/-- **C96 (backends).** In any history of an app, a request is answered with what the backend set last gives for the world at
that time; with an error if no backend has been set; and with another error if parameters are passed.  Answers are given in the
order of the requests. -/
theorem c96_backend (before : List (AppEvent F V T P)) (params : Bool) (w : World F V T P) :
    ∃ answer, answers (before ++ [.request params w]) = answers before ++ [answer] ∧
      (params = true → answer = .ok (.error .invalidParams)) ∧
      (params = false → lastBackend before = none → answer = .ok (.error .noBackend)) ∧
      (params = false → ∀ b, lastBackend before = some b → ∀ l, b w = .ok l → answer = .ok (.ok (getNavmeshInput w.scene l))) := by
  refine ⟨_, answers_request before params w, ?_, ?_, ?_⟩
  · rintro rfl; rfl
  · rintro rfl e; rw [e]; rfl
  · rintro rfl b e l hl
    rw [e]
    show (b w >>= _) = _
    rw [hl]
    rfl

/-! ## A game -/

/-- A conversion: a cuboid `p` is two triangles at height `p`; a ball with `n` and `m` subdivisions is one triangle. -/
def sampleParry : Parry Int Int where
  cuboid p := ([⟨0, p, 0⟩, ⟨4, p, 0⟩, ⟨4, p, 4⟩, ⟨0, p, 4⟩], [(0, 2, 1), (0, 3, 2)])
  convexPolyhedron _ := ([], [])
  heightField _ := ([], [])
  ball p n m := ([⟨0, p, 0⟩, ⟨n, p, 0⟩, ⟨0, p, m⟩], [(0, 2, 1)])
  capsule p n m := ([⟨0, p, 0⟩, ⟨n, p, 0⟩, ⟨0, p, m⟩], [(0, 2, 1)])
  cylinder _ _ := ([], [])
  cone _ _ := ([], [])

/-- A floor with rounded edges, a ball that moves, a wall of which the body is gone, a segment, a ball, and a compound, the
last three on static bodies. -/
def sampleWorld : World Int Nat Int Int where
  colliders := [⟨0, .simple (.roundCuboid 1), 0⟩, ⟨1, .simple (.ball 2), 1⟩, ⟨2, .simple (.cuboid 3), 2⟩,
    ⟨3, .simple (.segment 4), 0⟩, ⟨100, .simple (.ball 5), 0⟩,
    ⟨1000, .compound [(id, .triangle ⟨0, 0, 0⟩ ⟨0, 0, 1⟩ ⟨1, 0, 0⟩), (id, .custom 0), (id, .ball 6)], 3⟩]
  bodies b := if b = 0 ∨ b = 3 then some .static else if b = 1 then some .dynamic else none
  scene := { entities := [], meshes := fun _ => none, materials := fun _ => none, images := fun _ => none }

/-- The plugin of the crate replaces a backend set before; requests have been made. -/
def sampleBefore : List (AppEvent Int Nat Int Int) :=
  [.request false sampleWorld, .setBackend (fun _ => .ok []), .request true sampleWorld,
    .setBackend (colliderBackend sampleParry)]

theorem sampleWorld_statics : sampleWorld.statics = [⟨0, .simple (.roundCuboid 1), 0⟩, ⟨3, .simple (.segment 4), 0⟩,
    ⟨100, .simple (.ball 5), 0⟩,
    ⟨1000, .compound [(id, .triangle ⟨0, 0, 0⟩ ⟨0, 0, 1⟩ ⟨1, 0, 0⟩), (id, .custom 0), (id, .ball 6)], 3⟩] := by
  simp [World.statics, sampleWorld, World.IsStatic]

example : lastBackend sampleBefore = some (colliderBackend sampleParry) ∧
    15 * sampleWorld.scene.entities.length ≤ 4294967296 ∧ (∀ h m, sampleWorld.scene.meshes h = some m → m.Ok) ∧
    (∀ c ∈ sampleWorld.statics, c.shape.Valid sampleParry) ∧ (∀ c ∈ sampleWorld.statics, c.shape.Unposed) ∧
    (sampleWorld.statics.map fun c => c.shape.vertexCount sampleParry).sum ≤ 4294967295 := by
  refine ⟨rfl, by decide, (fun h m hm => nomatch hm), ?_, ?_, ?_⟩ <;> rw [sampleWorld_statics]
  · simp only [List.forall_mem_cons, List.not_mem_nil, false_imp_iff, implies_true, and_true, Shape.Valid, Shape.parts,
      Simple.surface, Simple.Unsupported, Simple.unrounded, Simple.plainSurface, sampleParry, Raw.Valid]
    refine ⟨?_, ?_, ?_, ?_, ?_, ?_⟩ <;> intro r hr <;> cases hr <;> decide
  · simp only [List.forall_mem_cons, List.not_mem_nil, false_imp_iff, implies_true, and_true, Shape.Unposed, Shape.parts]
  · decide

/-- What the editor builds from in this game: the floor, the ball at 100 and the two parts at 1000. -/
example : (sampleWorld.statics.flatMap fun c =>
      (c.shape.triangles sampleParry).map (moveTriangle fun (v : V3 Int) => ⟨v.x + c.transform, v.y, v.z⟩)) =
    [(⟨0, 1, 0⟩, ⟨4, 1, 4⟩, ⟨4, 1, 0⟩), (⟨0, 1, 0⟩, ⟨0, 1, 4⟩, ⟨4, 1, 4⟩), (⟨100, 5, 0⟩, ⟨100, 5, 10⟩, ⟨110, 5, 0⟩),
      (⟨1000, 0, 0⟩, ⟨1000, 0, 1⟩, ⟨1001, 0, 0⟩), (⟨1000, 6, 0⟩, ⟨1000, 6, 10⟩, ⟨1010, 6, 0⟩)] := by
  rw [sampleWorld_statics]
  decide

/-- A wall one part of which is moved up by 9. -/
def posedWorld : World Int Nat Int Int :=
  { sampleWorld with
    colliders := [⟨0, .compound [(fun v => ⟨v.x, v.y + 9, v.z⟩, .triangle ⟨0, 0, 0⟩ ⟨0, 0, 1⟩ ⟨1, 0, 0⟩)], 0⟩] }

/-- **C96 (violated).** The poses of the parts of a compound are lost: the triangle of a part moved up by 9 is at height 0. -/
theorem c96_violated :
    (posedWorld.statics.flatMap fun c => c.shape.triangles sampleParry) = [(⟨0, 9, 0⟩, ⟨0, 9, 1⟩, ⟨1, 9, 0⟩)] ∧
    colliderBackend sampleParry posedWorld =
      .ok [(0, ⟨[⟨0, 0, 0⟩, ⟨0, 0, 1⟩, ⟨1, 0, 0⟩], [(0, 1, 2)], [NOT_WALKABLE]⟩)] :=
  ⟨by decide, by decide⟩

end Rerecast.Backend
