import Verif.Lemmas.EditorScene
import Verif.Lemmas.TriMesh
/-! C54-C56, C72-C74: the exchange with the editor, the queue of requests, triangle meshes from Bevy meshes. -/
namespace Rerecast.Transmission
variable {F V T : Type}

/-! ## C54: serialised meshes -/

/-- A sample mesh: positions, a colour, and a custom attribute. -/
def sampleMesh : Mesh Int :=
  { topology := .triangleList
    attributes := [(POSITION, .float32x3 [(0, 0, 0), (4, 0, 0), (0, 0, 4)]),
      (COLOR, .float32x4 [(1, 0, 0, 1), (0, 1, 0, 1), (0, 0, 1, 1)]), (77, .uint32 [5, 6, 7])]
    indices := some (.u16 [0, 2, 1]) }

/-- Triangle strip without indices. -/
def sampleStrip : Mesh Int :=
  { topology := .triangleStrip
    attributes := [(POSITION, .float32x3 [(0, 0, 0), (4, 0, 0), (0, 0, 4)])]
    indices := none }

theorem sampleMesh_ok : sampleMesh.Ok := ⟨by decide, by decide⟩
theorem sampleStrip_ok : sampleStrip.Ok := ⟨by decide, by decide⟩

theorem lookup_filter_builtin {α : Type} (l : List (Nat × α)) (id : Nat) (h : IsBuiltin id) :
    (l.filter fun a => IsBuiltin a.1).lookup id = l.lookup id := by
  induction l with
  | nil => rfl
  | cons a l ih =>
    obtain ⟨k, v⟩ := a
    by_cases hk : IsBuiltin k
    · rw [List.filter_cons_of_pos (by simpa using hk), List.lookup_cons, List.lookup_cons, ih]
    · rw [List.filter_cons_of_neg (by simpa using hk), ih, List.lookup_cons]
      have hne : (id == k) = false := by
        rw [beq_eq_false_iff_ne]; rintro rfl; exact hk h
      rw [hne]

/-- **C54.** A serialised mesh is deserialised without panic; topology, indices and the values of all built-in attributes are
as before, other attributes are gone. -/
theorem c54_mesh (m : Mesh F) (h : m.Ok) :
    ∃ m', (SerializedMesh.fromMesh m).intoMesh = .ok m' ∧ m'.topology = m.topology ∧ m'.indices = m.indices ∧
      (∀ id, IsBuiltin id → m'.attribute id = m.attribute id) ∧ ∀ id, ¬ IsBuiltin id → m'.attribute id = none := by
  refine ⟨m.stripped, intoMesh_fromMesh m h, rfl, rfl, fun id hb => lookup_filter_builtin _ _ hb, fun id hb => ?_⟩
  unfold Mesh.attribute
  rw [List.lookup_eq_none_iff]
  intro a ha
  have := (List.mem_filter.1 ha).2
  simp only [decide_eq_true_eq] at this
  rw [bne_iff_ne]
  rintro rfl; exact hb this

example : sampleMesh.Ok ∧ sampleStrip.Ok ∧ (SerializedMesh.fromMesh sampleMesh).intoMesh = .ok
    { sampleMesh with attributes := sampleMesh.attributes.take 2 } := ⟨sampleMesh_ok, sampleStrip_ok, by decide⟩

/-- Bevy does not stop a custom attribute from using the id of a built-in one with another format.  Such a mesh is serialised
without complaint; the editor panics when it deserialises it. -/
theorem c54_mesh_panics : ∃ m : Mesh Int, (m.attributes.Pairwise fun a b => a.1 < b.1) ∧
    (SerializedMesh.fromMesh m).intoMesh = .error .panic :=
  ⟨⟨.triangleList, [(POSITION, .float32x2 [(0, 0)])], none⟩, by decide, by decide⟩

/-- **C54 (images).** Everything but labels, view formats and asset usage is kept. -/
theorem c54_image (i : Image V) :
    (SerializedImage.fromImage i).intoImage =
      { i with label := none, viewFormats := [], assetUsage := none
               view := i.view.map fun d => { d with label := none } } := intoImage_fromImage i

example : (SerializedImage.fromImage
      (⟨some 1, some 2, 3, 4, 5, 6, 7, 8, [9], 10, some ⟨some 11, 12, 13, 14, 15, 16, 17, 18, 19⟩, some 20⟩ : Image Nat)).intoImage =
    ⟨some 1, none, 3, 4, 5, 6, 7, 8, [], 10, some ⟨none, 12, 13, 14, 15, 16, 17, 18, 19⟩, none⟩ := by decide

/-! ## C55: whole scenes -/

theorem SerMatches.textures_of_mem {R : Nat → Nat → Prop} {m : StandardMaterial V Nat} {s : SerializedMaterial V}
    (h : SerMatches R m s) {t : Nat} (ht : t ∈ s.textures) : ∃ a, R a t := by
  have o : ∀ {a b : Option Nat}, Option.Rel R a b → some t = b → ∃ a, R a t := by
    intro a b h e
    subst e
    cases h with
    | some h => exact ⟨_, h⟩
  simp only [SerializedMaterial.textures, List.mem_filterMap, id_eq, exists_eq_right, List.mem_cons, List.not_mem_nil,
    or_false] at ht
  rcases ht with e | e | e | e | e | e | e | e | e | e | e | e | e | e | e
  · exact o h.baseColorTexture e
  · exact o h.emissiveTexture e
  · exact o h.metallicRoughnessTexture e
  · exact o h.diffuseTransmissionTexture e
  · exact o h.specularTransmissionTexture e
  · exact o h.thicknessTexture e
  · exact o h.normalMapTexture e
  · exact o h.occlusionTexture e
  · exact o h.specularTexture e
  · exact o h.specularTintTexture e
  · exact o h.clearcoatTexture e
  · exact o h.clearcoatRoughnessTexture e
  · exact o h.clearcoatNormalTexture e
  · exact o h.anisotropyTexture e
  · exact o h.depthMap e

theorem sentAs_idx {k : List Nat} {h i : Nat} (hk : k.Nodup) (hs : SentAs k h i) : i = k.idxOf h := by
  unfold SentAs at hs
  obtain ⟨hi, e⟩ := List.getElem?_eq_some_iff.1 hs
  rw [← e, hk.idxOf_getElem]

theorem sentAs_lt {k : List Nat} {h i : Nat} (hs : SentAs k h i) : i < k.length :=
  (List.getElem?_eq_some_iff.1 hs).1

/-- Every visible entity with a mesh, and no other, gets an entry; all indices are in range; the assets of a kind are numbered:
equal handles have equal indices, different handles different ones, and every mesh and material of the response belongs to an
entity, so each is sent once. -/
theorem c55_payload (scene : Scene F V T) (affectors : List (T × TriMesh F))
    (hl : 15 * scene.entities.length ≤ 4294967296) :
    ∃ meshIdx matIdx : Nat → Nat,
      List.Forall₂ (Lists scene (getNavmeshInput scene affectors) meshIdx matIdx)
        (scene.entities.filter fun e => scene.Shown e) (getNavmeshInput scene affectors).visuals ∧
      (∀ e ∈ scene.entities, ∀ e' ∈ scene.entities, scene.Shown e → scene.Shown e' →
        meshIdx e.mesh = meshIdx e'.mesh → e.mesh = e'.mesh) ∧
      (∀ e ∈ scene.entities, ∀ e' ∈ scene.entities, scene.Shown e → scene.Shown e' →
        ∀ h h', e.material = some h → e'.material = some h' → scene.HasMaterial h → scene.HasMaterial h' →
          matIdx h = matIdx h' → h = h') ∧
      (∀ i < (getNavmeshInput scene affectors).meshes.length, ∃ e ∈ scene.entities, scene.Shown e ∧ meshIdx e.mesh = i) ∧
      (∀ i < (getNavmeshInput scene affectors).materials.length, ∃ e ∈ scene.entities, scene.Shown e ∧
        ∃ h, e.material = some h ∧ scene.HasMaterial h ∧ matIdx h = i) ∧
      (∀ m ∈ (getNavmeshInput scene affectors).materials, ∀ t ∈ m.textures,
        t < (getNavmeshInput scene affectors).images.length) ∧
      (getNavmeshInput scene affectors).affectors.map (fun a => (a.transform, a.mesh)) = affectors := by
  obtain ⟨ik, mk, tk, hs, -, -, -, hu, hu', hv⟩ := send_ok scene scene.entities hl
  have hmem : ∀ e ∈ scene.entities, scene.Shown e → ∃ v, VisOk scene mk tk e v := by
    intro e he hsh
    have : e ∈ scene.entities.filter fun e => scene.Shown e := List.mem_filter.2 ⟨he, by simpa using hsh⟩
    obtain ⟨i, hi, e1⟩ := List.getElem_of_mem this
    have h2 := List.forall₂_iff_get.1 hv
    have := h2.2 i hi (h2.1 ▸ hi)
    simp only [List.get_eq_getElem, e1] at this
    exact ⟨_, this⟩
  have hk1 := hs.meshMap.nodup
  have hk2 := hs.matMap.nodup
  have inj : ∀ {k : List Nat}, k.Nodup → ∀ {a b : Nat}, a ∈ k → b ∈ k → k.idxOf a = k.idxOf b → a = b := by
    intro k _ a b ha hb e
    have h1 := List.getElem_idxOf (List.idxOf_lt_length_of_mem ha)
    have h2 := List.getElem_idxOf (List.idxOf_lt_length_of_mem hb)
    rw [← h1, ← h2]; congr 1
  refine ⟨fun h => mk.idxOf h, fun h => tk.idxOf h, ?_, ?_, ?_, ?_, ?_, ?_, ?_⟩
  · refine hv.imp fun e v h => ⟨h.transform, sentAs_idx hk1 h.mesh, hs.meshes _ _ h.mesh, ?_, h.noMaterial⟩
    intro x hx hm
    obtain ⟨i, hi, hti⟩ := h.material x hx hm
    have := sentAs_idx hk2 hti
    subst this
    exact ⟨hi, (lt_of_lt_of_eq (sentAs_lt hti) hs.matLen.symm)⟩
  · intro e he e' he' h1 h2 heq
    obtain ⟨v, hv⟩ := hmem e he h1
    obtain ⟨v', hv'⟩ := hmem e' he' h2
    exact inj hk1 (List.mem_of_getElem? hv.mesh) (List.mem_of_getElem? hv'.mesh) heq
  · intro e he e' he' h1 h2 h h' hm hm' hh hh' heq
    obtain ⟨v, hv⟩ := hmem e he h1
    obtain ⟨v', hv'⟩ := hmem e' he' h2
    obtain ⟨i, _, hi⟩ := hv.material h hm hh
    obtain ⟨i', _, hi'⟩ := hv'.material h' hm' hh'
    exact inj hk2 (List.mem_of_getElem? hi) (List.mem_of_getElem? hi') heq
  · intro i hi
    have hi' : i < mk.length := hs.meshLen ▸ hi
    obtain ⟨e, he, hsh, hx⟩ := hu _ (List.getElem_mem hi')
    exact ⟨e, he, hsh, by rw [hx]; exact hk1.idxOf_getElem _ _⟩
  · intro i hi
    have hi' : i < tk.length := hs.matLen ▸ hi
    obtain ⟨e, he, hsh, hx, hm⟩ := hu' _ (List.getElem_mem hi')
    exact ⟨e, he, hsh, _, hx, hm, hk2.idxOf_getElem _ _⟩
  · intro m hm t ht
    obtain ⟨i, hi, e1⟩ := List.getElem_of_mem hm
    have hi' : i < tk.length := hs.matLen ▸ hi
    obtain ⟨m0, sm, -, -, e2, h⟩ := hs.materials i _ (List.getElem?_eq_getElem hi')
    have : sm = m := by
      have e3 : (getNavmeshInput scene affectors).materials[i]? = some m := by rw [List.getElem?_eq_getElem hi, e1]
      exact Option.some.inj (e2.symm.trans e3)
    subst this
    obtain ⟨a, ha⟩ := h.textures_of_mem ht
    exact lt_of_lt_of_eq (sentAs_lt ha) hs.images.len.symm
  · unfold getNavmeshInput
    simp [Function.comp_def]

/-- **C55.** The editor shows the scene: fetching the game's response succeeds, adds one entity per visible entity with a mesh,
in the same order, with its transform, its mesh without custom attributes, and its material with all textures (or the
fallback material if the material or one of its images does not exist).  Handles of the game correspond one to one to handles
of the editor, and existing assets stay as they are. -/
theorem c55_editor (tf : T → T) (white : StandardMaterial V Nat) (scene : Scene F V T) (affectors : List (T × TriMesh F))
    (assets : EditorAssets F V) (hl : 15 * scene.entities.length ≤ 4294967296)
    (hok : ∀ h m, scene.meshes h = some m → m.Ok) :
    ∃ meshOf matOf imgOf : Nat → Nat, ∃ affs visuals assets',
      fetchNavmeshInput tf white assets (getNavmeshInput scene affectors) = .ok (affs, visuals, assets') ∧
      assets.images <+: assets'.images ∧ assets.meshes <+: assets'.meshes ∧
      (assets.materials ++ [white]) <+: assets'.materials ∧
      List.Forall₂ (Shows scene tf assets' assets.materials.length meshOf matOf imgOf)
        (scene.entities.filter fun e => scene.Shown e) visuals ∧
      List.Forall₂ (fun (a : T × TriMesh F) (x : EditorEntity T) => x.transform = tf a.1 ∧ x.material = none ∧
        assets'.meshes[x.mesh]? = some (affectorMesh a.2)) affectors affs ∧
      (∀ e ∈ scene.entities, ∀ e' ∈ scene.entities, scene.Shown e → scene.Shown e' →
        (meshOf e.mesh = meshOf e'.mesh → e.mesh = e'.mesh) ∧
        ∀ h h', e.material = some h → e'.material = some h' → scene.HasMaterial h → scene.HasMaterial h' →
          (matOf h = matOf h' → h = h') ∧
          ∀ m m', scene.materials h = some m → scene.materials h' = some m' → ∀ t ∈ m.textures, ∀ t' ∈ m'.textures,
            imgOf t = imgOf t' → t = t') := by
  obtain ⟨ik, mk, tk, hs, -, -, -, -, -, hv⟩ := send_ok scene scene.entities hl
  let p := getNavmeshInput scene affectors
  have hp : Sent scene p ik mk tk := by
    refine ⟨hs.images.len, hs.images.content, hs.meshes, ?_, hok⟩
    intro i h hi
    obtain ⟨m, sm, a1, -, a2, a3⟩ := hs.materials i h hi
    exact ⟨m, sm, a1, a2, a3⟩
  let assets1 : EditorAssets F V :=
    { assets with meshes := assets.meshes ++ (p.affectors.map fun m => affectorMesh m.mesh)
                  materials := assets.materials ++ [white] }
  obtain ⟨xs, s', ks, ms, ts, e1, hr, hx⟩ := receive_ok hp tf assets.materials.length (old := assets1) hv
    ([], ⟨[], [], [], assets1⟩) [] [] [] []
    ⟨⟨KeysOf.nil _, by simp, List.prefix_rfl, by simp⟩, KeysOf.nil _, by simp, List.prefix_rfl, by simp, KeysOf.nil _, by simp,
      List.prefix_rfl, by simp⟩ .nil
  rw [List.nil_append] at hx
  have hmem : ∀ e ∈ scene.entities, scene.Shown e →
      ∃ x, EntOk scene tf mk tk assets1 assets.materials.length ms ts e x := by
    intro e he hsh
    have : e ∈ scene.entities.filter fun e => scene.Shown e := List.mem_filter.2 ⟨he, by simpa using hsh⟩
    obtain ⟨i, hi, e1⟩ := List.getElem_of_mem this
    have h2 := List.forall₂_iff_get.1 hx
    have := h2.2 i hi (h2.1 ▸ hi)
    simp only [List.get_eq_getElem, e1] at this
    exact ⟨_, this⟩
  have k1 := hs.meshMap.nodup
  have k2 := hs.matMap.nodup
  have k3 := hs.images.map.nodup
  have k4 := hr.meshMap.nodup
  have k5 := hr.matMap.nodup
  have k6 := hr.images.map.nodup
  -- what the editor has for a material
  have hmat : ∀ h y, TexAs tk assets1.materials.length ts h y → ∃ m m', scene.materials h = some m ∧
      s'.assets.materials[y]? = some m' ∧ m.Matches (TexAs ik assets1.images.length ks) m' := by
    rintro h y ⟨i, h1, j, h2, rfl⟩
    obtain ⟨h', m, m', a1, a2, a3, a4⟩ := hr.materials j i h2
    have : h' = h := Option.some.inj (a1.symm.trans h1)
    subst this
    exact ⟨m, m', a2, a3, a4⟩
  refine ⟨fun h => assets1.meshes.length + ms.idxOf (mk.idxOf h), fun h => assets1.materials.length + ts.idxOf (tk.idxOf h),
    fun h => assets1.images.length + ks.idxOf (ik.idxOf h),
    p.affectors.mapIdx fun i m => { transform := tf m.transform, mesh := assets.meshes.length + i, material := none },
    xs, s'.assets, ?_, hr.images.kept,
    (List.prefix_append _ _).trans hr.meshKept, hr.matKept, ?_, ?_, ?_⟩
  · unfold fetchNavmeshInput
    have e2 := receiveAffectors_eq (V := V) tf p.affectors [] assets
    dsimp only
    rw [show (getNavmeshInput scene affectors).affectors = p.affectors from rfl, e2]
    dsimp only
    rw [List.nil_append]
    rw [show (getNavmeshInput scene affectors) = p from rfl]
    have e1' : List.foldlM (receiveVisual p tf assets.materials.length) ([], ⟨[], [], [], assets1⟩) p.visuals = .ok (xs, s') := e1
    show (List.foldlM (receiveVisual p tf assets.materials.length) ([], ⟨[], [], [], assets1⟩) p.visuals >>= _) = _
    rw [e1']
    rfl
  · refine hx.imp fun e x h => ⟨h.transform, h.mesh.eq_idx k1 k4, ?_, ?_, h.noMaterial⟩
    · obtain ⟨i, h1, j, h2, e⟩ := h.mesh
      obtain ⟨h', m, a1, a2, a3⟩ := hr.meshes j i h2
      have : h' = _ := Option.some.inj (a1.symm.trans h1)
      subst this
      exact ⟨m, a2, by rw [e]; exact a3⟩
    · intro a ha hm
      obtain ⟨y, hy, ht⟩ := h.material a ha hm
      have ey := ht.eq_idx k2 k5
      obtain ⟨m, m', b1, b2, b3⟩ := hmat a y ht
      subst ey
      refine ⟨hy, m, m', b1, b2, b3.mono ?_⟩
      intro t t' htt
      refine ⟨htt.eq_idx k3 k6, ?_⟩
      obtain ⟨i, c1, j, c2, rfl⟩ := htt
      obtain ⟨img, d1, d2⟩ := hp.images i t c1
      obtain ⟨si, d3, d4⟩ := hr.images.content j i c2
      rw [d2] at d3; cases d3
      exact ⟨img, d1, by rw [← intoImage_fromImage]; exact d4⟩
  · rw [List.forall₂_iff_get]
    have hal : p.affectors = affectors.map fun (a : T × TriMesh F) => { transform := a.1, mesh := a.2 } := rfl
    refine ⟨by rw [List.length_mapIdx, hal, List.length_map], ?_⟩
    intro i h1 h2
    have h3 : i < p.affectors.length := by rw [hal, List.length_map]; exact h1
    have e3 : p.affectors[i] = { transform := affectors[i].1, mesh := affectors[i].2 } := by simp [hal]
    simp only [List.get_eq_getElem, List.getElem_mapIdx, e3, true_and]
    refine getElem?_prefix hr.meshKept ?_
    show (assets.meshes ++ _)[assets.meshes.length + i]? = _
    rw [List.getElem?_append_right (by omega), Nat.add_sub_cancel_left, List.getElem?_map, List.getElem?_eq_getElem h3, e3]
    rfl
  · intro e he e' he' h1 h2
    obtain ⟨x, hx⟩ := hmem e he h1
    obtain ⟨x', hx'⟩ := hmem e' he' h2
    refine ⟨fun heq => ?_, fun h h' hm hm' hh hh' => ?_⟩
    · have a1 := hx.mesh.eq_idx k1 k4
      have a2 := hx'.mesh.eq_idx k1 k4
      have : x.mesh = x'.mesh := by rw [a1, a2]; exact heq
      exact hx.mesh.inj k4 (this ▸ hx'.mesh)
    · obtain ⟨y, -, hy⟩ := hx.material h hm hh
      obtain ⟨y', -, hy'⟩ := hx'.material h' hm' hh'
      refine ⟨fun heq => ?_, fun m m' hs1 hs2 t ht t' ht' heq => ?_⟩
      · have a1 := hy.eq_idx k2 k5
        have a2 := hy'.eq_idx k2 k5
        have : y = y' := by rw [a1, a2]; exact heq
        exact hy.inj k5 (this ▸ hy')
      · obtain ⟨m1, m1', b1, -, b3⟩ := hmat h y hy
        obtain ⟨m2, m2', c1, -, c3⟩ := hmat h' y' hy'
        rw [hs1] at b1; cases b1
        rw [hs2] at c1; cases c1
        obtain ⟨u, hu⟩ := b3.exists_of_mem ht
        obtain ⟨u', hu'⟩ := c3.exists_of_mem ht'
        have a1 := hu.eq_idx k3 k6
        have a2 := hu'.eq_idx k3 k6
        have : u = u' := by rw [a1, a2]; exact heq
        exact hu.inj k6 (this ▸ hu')

/-- A material of numbers, with two textures. -/
def sampleMaterial (v : Nat) (a b : Option Nat) : StandardMaterial Nat Nat :=
  ⟨v, .uv0, a, v + 1, v + 2, .uv1, none, v + 3, v + 4, .uv0, none, v + 5, v + 6, v + 7, .uv0, none, v + 8, .uv0, none, v + 9,
    .uv0, none, v + 10, v + 11, v + 12, .uv1, b, true, .uv0, none, .uv0, none, .uv0, none, v + 13, .uv0, none, v + 14, .uv0,
    none, .uv0, none, v + 15, v + 16, .uv0, none, false, v + 17, true, false, .mask v, v + 18, none, v + 19, .relief v, v + 20,
    v + 21, .auto, v + 22, v + 23⟩

/-- An image of numbers. -/
def sampleImage (v : Nat) : Image Nat := ⟨some v, some 1, v + 1, 1, 1, 2, v, 4, [3], v + 2, none, none⟩

/-- A scene: two entities share a mesh and a material, one is hidden, one has a mesh that does not exist, one a material with a
missing image, one no material. -/
def sampleScene : Scene Int Nat Nat :=
  { entities := [⟨100, 7, true, some 3⟩, ⟨101, 7, true, some 3⟩, ⟨102, 7, false, some 3⟩, ⟨103, 99, true, some 3⟩,
      ⟨104, 8, true, some 4⟩, ⟨105, 8, true, none⟩, ⟨106, 7, true, some 5⟩]
    meshes := fun h => if h = 7 then some sampleMesh else if h = 8 then some sampleStrip else none
    materials := fun h => if h = 3 then some (sampleMaterial 50 (some 11) (some 12))
      else if h = 4 then some (sampleMaterial 60 (some 11) (some 13))
      else if h = 5 then some (sampleMaterial 70 (some 12) none) else none
    images := fun h => if h = 11 ∨ h = 12 then some (sampleImage h) else none }

example : 15 * sampleScene.entities.length ≤ 4294967296 ∧ (∀ h m, sampleScene.meshes h = some m → m.Ok) := by
  refine ⟨by decide, fun h m hm => ?_⟩
  simp only [sampleScene] at hm
  split at hm
  · cases hm; exact sampleMesh_ok
  · split at hm
    · cases hm; exact sampleStrip_ok
    · cases hm

example : (getNavmeshInput sampleScene ([] : List (Nat × TriMesh Int))).visuals =
    [⟨100, 0, some 0⟩, ⟨101, 0, some 0⟩, ⟨104, 1, none⟩, ⟨105, 1, none⟩, ⟨106, 0, some 1⟩] := by decide +kernel

example : ((getNavmeshInput sampleScene ([] : List (Nat × TriMesh Int))).materials.map fun m =>
    (m.baseColor, m.baseColorTexture, m.normalMapTexture)) = [(50, some 0, some 1), (70, some 1, none)] := by decide +kernel

/-! ## C72: triangle meshes from Bevy meshes -/

theorem chunks3_flat (l : List (Nat × Nat × Nat)) : chunks3 (flatIndices l) = l := by
  induction l with
  | nil => rfl
  | cons t l ih =>
    show chunks3 (t.1 :: t.2.1 :: t.2.2 :: flatIndices l) = t :: l
    rw [chunks3, ih]

theorem flat_chunks3 : ∀ (l : List Nat), l.length % 3 = 0 → flatIndices (chunks3 l) = l
  | [], _ => rfl
  | [_], h => by simp at h
  | [_, _], h => by simp at h
  | a :: b :: c :: l, h => by
    have ih := flat_chunks3 l (by simp at h; omega)
    show a :: b :: c :: flatIndices (chunks3 l) = _
    rw [ih]

theorem length_flat (l : List (Nat × Nat × Nat)) : (flatIndices l).length = 3 * l.length := by
  induction l with
  | nil => rfl
  | cons t l ih =>
    show (flatIndices l).length + 1 + 1 + 1 = _
    rw [ih, List.length_cons]; omega

/-- **C72.** A Bevy mesh gives a triangle mesh exactly if it is a triangle list with positions of three floats and with indices
whose number is divisible by three; then the vertices are the positions, the triangles are the indices in groups of three, in
order, and no triangle is marked walkable. -/
theorem c72_from_mesh (m : Mesh F) (t : TriMesh F) :
    triMeshFromMesh m = some t ↔
      m.topology = .triangleList ∧ m.attribute POSITION = some (.float32x3 (t.vertices.map fun v => (v.x, v.y, v.z))) ∧
      (∃ i, m.indices = some i ∧ i.toList = flatIndices t.indices) ∧
      t.areaTypes = List.replicate t.indices.length NOT_WALKABLE := by
  unfold triMeshFromMesh
  by_cases ht : m.topology = .triangleList
  swap
  · rw [if_pos ht]; simp [ht]
  rw [if_neg (by simpa using ht)]
  constructor
  · intro h
    cases ha : m.attribute POSITION with
    | none => rw [ha] at h; cases h
    | some a =>
      cases hi : m.indices with
      | none =>
        rw [ha, hi] at h
        simp only [Option.map_none, Option.bind_eq_bind, Option.bind_some, Option.bind_none, Option.bind_fun_none] at h
        cases h
      | some i =>
        cases hf : a.asFloat3 with
        | none => rw [ha] at h; simp only [Option.bind_eq_bind, Option.bind_some, hf, Option.bind_none] at h; cases h
        | some f =>
          have hfa : a = .float32x3 f := by
            cases a <;> simp only [VertexValues.asFloat3, Option.some.injEq, reduceCtorEq] at hf
            subst hf; rfl
          rw [ha, hi] at h
          simp only [Option.bind_eq_bind, Option.bind_some, hf, Option.map_some] at h
          by_cases h3 : i.toList.length % 3 = 0
          · rw [if_neg (by simpa using h3)] at h
            cases h
            refine ⟨ht, ?_, ⟨i, rfl, (flat_chunks3 _ h3).symm⟩, rfl⟩
            rw [hfa, List.map_map]; simp [Function.comp_def]
          · rw [if_pos h3] at h; cases h
  · rintro ⟨-, ha, ⟨i, hi, hl⟩, hr⟩
    rw [ha, hi]
    simp only [Option.bind_eq_bind, Option.bind_some, VertexValues.asFloat3, Option.map_some]
    rw [if_neg (by rw [hl, length_flat]; simp), hl, chunks3_flat, ← hr, List.map_map]
    simp [Function.comp_def]

example : triMeshFromMesh sampleMesh = some ⟨[⟨0, 0, 0⟩, ⟨4, 0, 0⟩, ⟨0, 0, 4⟩], [(0, 2, 1)], [NOT_WALKABLE]⟩ := by decide
example : triMeshFromMesh sampleStrip = none := by decide

/-- **C72 (panics).** Indices are not compared with the number of vertices: a mesh that is accepted can make the marking of
walkable triangles panic. -/
theorem c72_out_of_range : ∃ (m : Mesh Int) (t : TriMesh Int), m.Ok ∧ triMeshFromMesh m = some t ∧
    ∀ up, t.markWalkableTriangles up = .error .panic :=
  ⟨⟨.triangleList, [(POSITION, .float32x3 [(0, 0, 0)])], some (.u32 [0, 1, 0])⟩, ⟨[⟨0, 0, 0⟩], [(0, 1, 0)], [NOT_WALKABLE]⟩,
    ⟨by decide, by decide⟩, by decide, fun _ => rfl⟩

/-- **C72 (transfer).** What the game builds its navmesh from survives the transfer to the editor: the deserialised mesh gives
the same triangle mesh. -/
theorem c72_transfer (m : Mesh F) (h : m.Ok) :
    ∃ m', (SerializedMesh.fromMesh m).intoMesh = .ok m' ∧ triMeshFromMesh m' = triMeshFromMesh m := by
  obtain ⟨m', e, h1, h2, h3, -⟩ := c54_mesh m h
  refine ⟨m', e, ?_⟩
  unfold triMeshFromMesh
  rw [h1, h2, h3 POSITION (by decide)]

/-- **C74 (partial).** The editor rebuilds the triangles of an affector exactly, but all marks are gone. -/
theorem c74_affector_partial (t : TriMesh F) : triMeshFromMesh (affectorMesh t) = some t.unmarked := by
  rw [c72_from_mesh]
  exact ⟨rfl, rfl, ⟨_, rfl, rfl⟩, rfl⟩

/-- **C74 (violated).** Areas given by the game's backend are lost in the editor. -/
theorem c74_violated : ∃ t : TriMesh Int, t.WF ∧ triMeshFromMesh (affectorMesh t) ≠ some t :=
  ⟨⟨[⟨0, 0, 0⟩, ⟨4, 0, 0⟩, ⟨0, 0, 4⟩], [(0, 2, 1)], [7]⟩, ⟨by decide, by decide⟩, by decide⟩

/-! ## C73: the input of a build -/

theorem gather_eq (tf : T → V3 F → V3 F) (l : List (T × Option (Mesh F))) (acc : TriMesh F) :
    l.foldlM (gatherAffector tf) acc =
      (l.filterMap fun (a : T × Option (Mesh F)) => (a.2.bind triMeshFromMesh).map (TriMesh.moved (tf a.1))).foldlM
        TriMesh.extend acc := by
  induction l generalizing acc with
  | nil => rfl
  | cons a l ih =>
    rw [List.foldlM_cons, List.filterMap_cons]
    unfold gatherAffector
    cases ha : a.2 with
    | none => simp only [bind_ok, Option.bind_none, Option.map_none]; exact ih acc
    | some m =>
      cases hm : triMeshFromMesh m with
      | none => simp only [bind_ok, Option.bind_some, hm, Option.map_none]; exact ih acc
      | some t =>
        simp only [Option.bind_some, hm, Option.map_some, List.foldlM_cons]
        show (acc.extend (t.moved (tf a.1)) >>= _) = _
        congr 1
        funext acc'
        exact ih acc'

/-- **C73.** If all indices of the accepted meshes are in range, the triangles a navmesh is built from are those of the
affectors, in order, each moved by the transform of its entity; an affector whose mesh is missing or not accepted adds
nothing. -/
theorem c73_gather (tf : T → V3 F → V3 F) (l : List (T × Option (Mesh F)))
    (hr : ∀ a ∈ l, ∀ m, a.2 = some m → ∀ t, triMeshFromMesh m = some t → t.WF)
    (hn : (l.map fun a => ((a.2.bind triMeshFromMesh).map fun t => t.vertices.length).getD 0).sum ≤ 4294967295) :
    ∃ out, gatherAffectors tf l = .ok out ∧ out.WF ∧
      out.soup = l.flatMap fun a => match a.2.bind triMeshFromMesh with
        | none => []
        | some t => (t.moved (tf a.1)).soup := by
  have hsum : ((l.filterMap fun (a : T × Option (Mesh F)) => (a.2.bind triMeshFromMesh).map (TriMesh.moved (tf a.1))).map
      fun m => m.vertices.length).sum =
      (l.map fun a => ((a.2.bind triMeshFromMesh).map fun t => t.vertices.length).getD 0).sum := by
    clear hr hn
    induction l with
    | nil => rfl
    | cons a l ih =>
      rw [List.filterMap_cons]
      cases hb : a.2.bind triMeshFromMesh with
      | none => simp only [Option.map_none, List.map_cons, List.sum_cons, hb, Option.getD_none, ih]; omega
      | some t => simp only [Option.map_some, List.map_cons, List.sum_cons, hb, Option.getD_some, ih, TriMesh.moved, List.length_map]
  obtain ⟨out, h1, h2, -, h4⟩ := TriMesh.extendAll
    (l.filterMap fun (a : T × Option (Mesh F)) => (a.2.bind triMeshFromMesh).map (TriMesh.moved (tf a.1))) TriMesh.empty
    TriMesh.wf_empty (by
      intro m hm
      obtain ⟨a, ha, e⟩ := List.mem_filterMap.1 hm
      obtain ⟨t, ht, rfl⟩ := Option.map_eq_some_iff.1 e
      obtain ⟨x, hx, hxt⟩ := Option.bind_eq_some_iff.1 ht
      exact TriMesh.wf_moved (hr a ha x hx t hxt) _) (by rw [hsum]; simpa [TriMesh.empty] using hn)
  refine ⟨out, by unfold gatherAffectors; rw [gather_eq]; exact h1, h2, ?_⟩
  rw [h4]
  have : (TriMesh.empty : TriMesh F).soup = [] := rfl
  rw [this, List.nil_append]
  clear h1 h4 hr hn hsum
  induction l with
  | nil => rfl
  | cons a l ih =>
    rw [List.filterMap_cons, List.flatMap_cons]
    cases hb : a.2.bind triMeshFromMesh with
    | none => exact ih
    | some t => simp only [Option.map_some, List.flatMap_cons, ih]

/-- Two affectors, one moved; between them an affector without mesh and one that is not a triangle list. -/
def sampleAffectors : List (Int × Option (Mesh Int)) :=
  [(0, some sampleMesh), (5, none), (5, some sampleStrip), (10, some sampleMesh)]

example : (∀ a ∈ sampleAffectors, ∀ m, a.2 = some m → ∀ t, triMeshFromMesh m = some t → t.WF) ∧
    (sampleAffectors.map fun a => ((a.2.bind triMeshFromMesh).map fun t => t.vertices.length).getD 0).sum ≤ 4294967295 := by
  refine ⟨?_, by decide⟩
  have h : ∀ t, triMeshFromMesh sampleMesh = some t → t.WF := by
    intro t ht
    rw [show triMeshFromMesh sampleMesh = some ⟨[⟨0, 0, 0⟩, ⟨4, 0, 0⟩, ⟨0, 0, 4⟩], [(0, 2, 1)], [NOT_WALKABLE]⟩ by decide] at ht
    cases ht
    exact ⟨by decide, by decide⟩
  have h' : ∀ t, triMeshFromMesh sampleStrip = some t → t.WF := by
    intro t ht
    rw [show triMeshFromMesh sampleStrip = none by decide] at ht
    cases ht
  intro a ha m hm
  simp only [sampleAffectors, List.mem_cons, List.not_mem_nil, or_false] at ha
  rcases ha with rfl | rfl | rfl | rfl <;> cases hm <;> assumption

example : gatherAffectors (fun d (v : V3 Int) => ⟨v.x + d, v.y, v.z⟩) sampleAffectors = .ok
    ⟨[⟨0, 0, 0⟩, ⟨4, 0, 0⟩, ⟨0, 0, 4⟩, ⟨10, 0, 0⟩, ⟨14, 0, 0⟩, ⟨10, 0, 4⟩], [(0, 2, 1), (3, 5, 4)],
      [NOT_WALKABLE, NOT_WALKABLE]⟩ := by decide

/-- **C73 (backend).** The affectors of the mesh backend are those of the entities whose mesh exists and is accepted, in order. -/
theorem c73_backend (meshes : Nat → Option (Mesh F)) (l : List (T × Nat)) :
    mesh3dBackend meshes l = l.flatMap fun a =>
      match (meshes a.2).bind triMeshFromMesh with
      | none => []
      | some t => [(a.1, t)] := by
  unfold mesh3dBackend
  induction l with
  | nil => rfl
  | cons a l ih =>
    rw [List.filterMap_cons, List.flatMap_cons, ih]
    cases hm : meshes a.2 with
    | none => simp
    | some m =>
      cases ht : triMeshFromMesh m with
      | none => simp [ht]
      | some t => simp [ht]

example : mesh3dBackend (fun h => if h = 0 then some sampleMesh else none) [(5, 1), (6, 0)] =
    [(6, ⟨[⟨0, 0, 0⟩, ⟨4, 0, 0⟩, ⟨0, 0, 4⟩], [(0, 2, 1)], [NOT_WALKABLE]⟩)] := by decide

end Rerecast.Transmission

/-! ## C56: the queue -/
namespace Rerecast.Generator
variable {C : Type}

/-- The configurations of the requests of a history, in order. -/
def requests : List (Event C) → List C
  | [] => []
  | .generate c :: l => c :: requests l
  | .update :: l => requests l

theorem foldl_step (l : List (Event C)) (s : State C) :
    l.foldl step s = ⟨s.queue ++ (requests l).mapIdx fun i c => (s.reserved + i, c), s.reserved + (requests l).length, s.done⟩ := by
  induction l generalizing s with
  | nil => simp [requests]
  | cons e l ih =>
    rw [List.foldl_cons, ih]
    cases e with
    | update => rfl
    | generate c => simp [step, requests, List.mapIdx_cons, Nat.add_comm, Nat.add_left_comm, Nat.add_assoc]

/-- **C56 (partial).** After any history the queue holds all requests, in the order they were made, none lost or duplicated, and
each with its own handle.  Missing: the requests are never started, see `c56_violated`. -/
theorem c56_queue_partial (l : List (Event C)) :
    (run l).queue.map Prod.snd = requests l ∧ ((run l).queue.map Prod.fst).Nodup := by
  unfold run
  rw [foldl_step]
  constructor
  · simp only [State.init, List.nil_append]
    apply List.ext_getElem?
    intro i
    simp only [List.getElem?_map, List.getElem?_mapIdx, Option.map_map, Function.comp_def, Option.map_id']
  · simp only [State.init, List.nil_append, Nat.zero_add]
    have : List.map Prod.fst (List.mapIdx (fun i c => (i, c)) (requests l)) = List.range (requests l).length := by
      apply List.ext_getElem?
      intro i
      by_cases h : i < (requests l).length
      · simp [h]
      · simp [h]
    rw [this]
    exact List.nodup_range

example : run [.generate 5, .update, .generate 5, .generate 6] = (⟨[(0, 5), (1, 5), (2, 6)], 3, []⟩ : State Nat) := by decide

/-- **C56 (violated).** No request is ever served: whatever happens after it, its handle never gets a navmesh, and it stays in
the queue. -/
theorem c56_violated (before after : List (Event C)) (c : C) :
    ∃ h, (h, c) ∈ (run (before ++ .generate c :: after)).queue ∧ h ∉ (run (before ++ .generate c :: after)).done := by
  unfold run
  refine ⟨(requests before).length, ?_, ?_⟩
  · rw [List.foldl_append, foldl_step before, List.foldl_cons, foldl_step after]
    simp [step, State.init]
  · rw [foldl_step]; simp [State.init]

end Rerecast.Generator
