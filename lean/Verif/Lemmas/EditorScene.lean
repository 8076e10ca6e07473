import Verif.Lemmas.EditorMaterial
import Mathlib.Data.List.Induction
/-! The exchange between the game and the editor: whole scenes. -/
namespace Rerecast.Transmission
variable {F V T : Type}

/-! ### Sending -/

/-- The images, meshes and materials sent so far are those with the handles `ik`, `mk`, `tk`. -/
structure SendOk (scene : Scene F V T) (s : SendState F V) (ik mk tk : List Nat) : Prop where
  images : CacheOk scene.images s.imageCache ik
  meshMap : KeysOf 0 s.meshIndices mk
  meshLen : s.meshes.length = mk.length
  meshes : ∀ (i h : Nat), mk[i]? = some h → ∃ m, scene.meshes h = some m ∧ s.meshes[i]? = some (SerializedMesh.fromMesh m)
  matMap : KeysOf 0 s.materialIndices tk
  matLen : s.materials.length = tk.length
  materials : ∀ (i h : Nat), tk[i]? = some h → ∃ m sm, scene.materials h = some m ∧
    (∀ t ∈ m.textures, (scene.images t).isSome = true) ∧ s.materials[i]? = some sm ∧ SerMatches (SentAs ik) m sm

/-- What is sent for an entity. -/
structure VisOk (scene : Scene F V T) (mk tk : List Nat) (e : VisualEntity T) (v : VisualMesh T) : Prop where
  transform : v.transform = e.transform
  mesh : SentAs mk e.mesh v.mesh
  material : ∀ h, e.material = some h → scene.HasMaterial h → ∃ i, v.material = some i ∧ SentAs tk h i
  noMaterial : (∀ h, e.material = some h → ¬ scene.HasMaterial h) → v.material = none

theorem VisOk.mono {scene : Scene F V T} {mk tk mk' tk' : List Nat} {e : VisualEntity T} {v : VisualMesh T}
    (h1 : mk <+: mk') (h2 : tk <+: tk') (h : VisOk scene mk tk e v) : VisOk scene mk' tk' e v :=
  { h with
    mesh := SentAs.mono h1 _ _ h.mesh
    material := fun x hx hm => by
      obtain ⟨i, hi, hs⟩ := h.material x hx hm
      exact ⟨i, hi, SentAs.mono h2 _ _ hs⟩ }

theorem sentAs_append {k : List Nat} {h h' i : Nat} (hs : SentAs (k ++ [h]) h' i) :
    SentAs k h' i ∨ (i = k.length ∧ h' = h) := by
  unfold SentAs at *
  by_cases hlt : i < k.length
  · rw [List.getElem?_append_left hlt] at hs; exact Or.inl hs
  · by_cases he : i = k.length
    · subst he; simp at hs; exact Or.inr ⟨rfl, hs.symm⟩
    · rw [List.getElem?_eq_none (by simp; omega)] at hs; cases hs

theorem sendMesh_ok (scene : Scene F V T) (h : Nat) (s : SendState F V) (ik mk tk : List Nat)
    (hs : SendOk scene s ik mk tk) (hlen : mk.length < 4294967296) :
    (scene.meshes h = none ∧ sendMesh scene h s = none) ∨
    ∃ i s' mk', (scene.meshes h).isSome = true ∧ sendMesh scene h s = some (i, s') ∧ SendOk scene s' ik mk' tk ∧ mk <+: mk' ∧
      mk'.length ≤ mk.length + 1 ∧ SentAs mk' h i ∧ ∀ x ∈ mk', x ∈ mk ∨ x = h := by
  unfold sendMesh
  cases hl : s.meshIndices.lookup h with
  | some i =>
    obtain ⟨j, hj, e⟩ := (hs.meshMap.lookup h i).1 hl
    obtain ⟨m, hm, -⟩ := hs.meshes j h hj
    refine Or.inr ⟨i, s, mk, by rw [hm]; rfl, rfl, hs, List.prefix_rfl, by omega, ?_, fun x hx => Or.inl hx⟩
    rw [Nat.zero_add] at e; subst e; exact hj
  | none =>
    have hnk := (hs.meshMap.none_iff h).1 hl
    cases hm : scene.meshes h with
    | none => exact Or.inl ⟨rfl, rfl⟩
    | some m =>
      have hlen' : lenU32 s.meshes = mk.length := by
        unfold lenU32; rw [hs.meshLen]; exact Nat.mod_eq_of_lt (by omega)
      refine Or.inr ⟨_, _, mk ++ [h], rfl, rfl, ?_, List.prefix_append _ _, by simp, ?_, by simp⟩
      · refine { hs with meshMap := ?_, meshLen := by simp [hs.meshLen], meshes := ?_ }
        · have := hs.meshMap.insert h hnk
          rw [hlen']; simpa using this
        · intro i h' hi
          rcases sentAs_append hi with hi | ⟨rfl, rfl⟩
          · obtain ⟨m', h1, h2⟩ := hs.meshes i h' hi
            exact ⟨m', h1, getElem?_prefix (List.prefix_append _ _) h2⟩
          · refine ⟨m, hm, ?_⟩
            rw [← hs.meshLen]; simp
      · unfold SentAs; rw [hlen']; simp

theorem sendMaterial_ok (scene : Scene F V T) (h : Option Nat) (s : SendState F V) (ik mk tk : List Nat)
    (hs : SendOk scene s ik mk tk) (hlen : tk.length < 4294967296) (hi : ik.length + 15 ≤ 4294967296) :
    ∃ i s' ik' tk', sendMaterial scene h s = (i, s') ∧ SendOk scene s' ik' mk tk' ∧ ik <+: ik' ∧ tk <+: tk' ∧
      ik'.length ≤ ik.length + 15 ∧ tk'.length ≤ tk.length + 1 ∧
      (∀ x, h = some x → scene.HasMaterial x → ∃ j, i = some j ∧ SentAs tk' x j) ∧
      ((∀ x, h = some x → ¬ scene.HasMaterial x) → i = none) ∧
      ∀ x ∈ tk', x ∈ tk ∨ (h = some x ∧ scene.HasMaterial x) := by
  cases h with
  | none =>
    exact ⟨none, s, ik, tk, rfl, hs, List.prefix_rfl, List.prefix_rfl, by omega, by omega, by simp, fun _ => rfl,
      fun x hx => Or.inl hx⟩
  | some h =>
    cases hl : s.materialIndices.lookup h with
    | some i =>
      obtain ⟨j, hj, e⟩ := (hs.matMap.lookup h i).1 hl
      rw [Nat.zero_add] at e; subst e
      obtain ⟨m, sm, hm, htx, -⟩ := hs.materials i h hj
      refine ⟨some i, s, ik, tk, ?_, hs, List.prefix_rfl, List.prefix_rfl, by omega, by omega, ?_, ?_,
        fun x hx => Or.inl hx⟩
      · unfold sendMaterial; dsimp only; rw [hl]
      · intro x hx _; cases hx; exact ⟨i, rfl, hj⟩
      · intro hn; exact absurd ⟨m, hm, htx⟩ (hn h rfl)
    | none =>
      have hnk := (hs.matMap.none_iff h).1 hl
      have e0 : sendMaterial scene (some h) s = sendNewMaterial scene h s := by
        unfold sendMaterial; dsimp only; rw [hl]
      rw [e0]
      cases hm : scene.materials h with
      | none =>
        refine ⟨none, s, ik, tk, ?_, hs, List.prefix_rfl, List.prefix_rfl, by omega, by omega, ?_, fun _ => rfl,
          fun x hx => Or.inl hx⟩
        · unfold sendNewMaterial; rw [hm]
        · intro x hx ⟨m, hm', _⟩; cases hx; rw [hm] at hm'; cases hm'
      | some m =>
        have hlen' : lenU32 s.materials = tk.length := by
          unfold lenU32; rw [hs.matLen]; exact Nat.mod_eq_of_lt (by omega)
        obtain ⟨r, c', ik', e, hc', hik, hikl, h1, h2⟩ :=
          tryFromMaterial_sends scene.images ik m s.imageCache ik List.prefix_rfl hs.images hi
        have hmono : ∀ (i h : Nat), tk[i]? = some h → ∃ m sm, scene.materials h = some m ∧
            (∀ t ∈ m.textures, (scene.images t).isSome = true) ∧ s.materials[i]? = some sm ∧
            SerMatches (SentAs ik') m sm := by
          intro i h' hi'
          obtain ⟨m', sm, a1, a2, a3, a4⟩ := hs.materials i h' hi'
          exact ⟨m', sm, a1, a2, a3, a4.mono (SentAs.mono hik)⟩
        by_cases hP : ∀ t ∈ m.textures, (scene.images t).isSome = true
        · obtain ⟨sm, rfl, hsm⟩ := h1 hP
          unfold sendNewMaterial
          rw [hm]; dsimp only; rw [e]; dsimp only
          refine ⟨some (lenU32 s.materials), _, ik', tk ++ [h], rfl, ?_, hik, List.prefix_append _ _, hikl, by simp, ?_, ?_, ?_⟩
          · refine { hs with images := hc', matMap := ?_, matLen := by simp [hs.matLen], materials := ?_ }
            · have := hs.matMap.insert h hnk
              rw [hlen']; simpa using this
            · intro i h' hi'
              rcases sentAs_append hi' with hi' | ⟨rfl, rfl⟩
              · obtain ⟨m', sm', a1, a2, a3, a4⟩ := hmono i h' hi'
                exact ⟨m', sm', a1, a2, getElem?_prefix (List.prefix_append _ _) a3, a4⟩
              · refine ⟨m, sm, hm, hP, ?_, hsm⟩
                rw [← hs.matLen]; simp
          · intro x hx _
            cases hx
            refine ⟨_, rfl, ?_⟩
            unfold SentAs; rw [hlen']; simp
          · intro hn; exact absurd ⟨m, hm, hP⟩ (hn h rfl)
          · intro x hx
            rcases List.mem_append.1 hx with hx | hx
            · exact Or.inl hx
            · simp only [List.mem_singleton] at hx; subst hx; exact Or.inr ⟨rfl, m, hm, hP⟩
        · have := h2 hP
          subst this
          unfold sendNewMaterial
          rw [hm]; dsimp only; rw [e]; dsimp only
          refine ⟨none, _, ik', tk, rfl, ?_, hik, List.prefix_rfl, hikl, by omega, ?_, fun _ => rfl, fun x hx => Or.inl hx⟩
          · exact { hs with images := hc', materials := hmono }
          · intro x hx ⟨m', hm', hP'⟩
            cases hx; rw [hm] at hm'; cases hm'; exact absurd hP' hP

theorem sendStep_ok (scene : Scene F V T) (acc : List (VisualMesh T) × SendState F V) (e : VisualEntity T) (ik mk tk : List Nat)
    (hs : SendOk scene acc.2 ik mk tk) (hm : mk.length < 4294967296) (ht : tk.length < 4294967296)
    (hi : ik.length + 15 ≤ 4294967296) :
    ∃ ik' mk' tk', SendOk scene (sendStep scene acc e).2 ik' mk' tk' ∧ ik <+: ik' ∧ mk <+: mk' ∧ tk <+: tk' ∧
      ik'.length ≤ ik.length + 15 ∧ mk'.length ≤ mk.length + 1 ∧ tk'.length ≤ tk.length + 1 ∧
      ((¬ scene.Shown e ∧ (sendStep scene acc e).1 = acc.1 ∧ mk' = mk ∧ tk' = tk) ∨
        (scene.Shown e ∧ (∃ v, (sendStep scene acc e).1 = acc.1 ++ [v] ∧ VisOk scene mk' tk' e v) ∧
          (∀ x ∈ mk', x ∈ mk ∨ x = e.mesh) ∧ ∀ x ∈ tk', x ∈ tk ∨ (e.material = some x ∧ scene.HasMaterial x))) := by
  have skip : ∀ s, sendEntity scene acc.2 e = (none, s) → s = acc.2 → ¬ scene.Shown e →
      ∃ ik' mk' tk', SendOk scene (sendStep scene acc e).2 ik' mk' tk' ∧ ik <+: ik' ∧ mk <+: mk' ∧ tk <+: tk' ∧
      ik'.length ≤ ik.length + 15 ∧ mk'.length ≤ mk.length + 1 ∧ tk'.length ≤ tk.length + 1 ∧
      ((¬ scene.Shown e ∧ (sendStep scene acc e).1 = acc.1 ∧ mk' = mk ∧ tk' = tk) ∨
        (scene.Shown e ∧ (∃ v, (sendStep scene acc e).1 = acc.1 ++ [v] ∧ VisOk scene mk' tk' e v) ∧
          (∀ x ∈ mk', x ∈ mk ∨ x = e.mesh) ∧ ∀ x ∈ tk', x ∈ tk ∨ (e.material = some x ∧ scene.HasMaterial x))) := by
    intro s h hse hns
    subst hse
    have e1 : sendStep scene acc e = (acc.1, acc.2) := by unfold sendStep; rw [h]; simp
    rw [e1]
    exact ⟨ik, mk, tk, hs, List.prefix_rfl, List.prefix_rfl, List.prefix_rfl, by omega, by omega, by omega, Or.inl ⟨hns, rfl, rfl, rfl⟩⟩
  by_cases hv : e.visible = false
  · refine skip acc.2 ?_ rfl ?_
    · unfold sendEntity; rw [if_pos hv]
    · intro h; exact absurd h.1 (by rw [hv]; simp)
  · have hv' : e.visible = true := by simpa using hv
    rcases sendMesh_ok scene e.mesh acc.2 ik mk tk hs hm with ⟨h1, h2⟩ | ⟨i, s1, mk', h1, h2, hs1, hmk, hmkl, hsent, hsub⟩
    · refine skip acc.2 ?_ rfl ?_
      · unfold sendEntity; rw [if_neg hv, h2]
      · intro h; exact absurd h.2 (by rw [h1]; simp)
    · obtain ⟨mi, s2, ik', tk', e2, hs2, hik, htk, hikl, htkl, hmat, hno, hsub'⟩ :=
        sendMaterial_ok scene e.material s1 ik mk' tk hs1 ht hi
      have e1 : sendStep scene acc e = (acc.1 ++ [{ transform := e.transform, mesh := i, material := mi }], s2) := by
        unfold sendStep sendEntity; rw [if_neg hv, h2]; dsimp only; rw [e2]; simp
      rw [e1]
      exact ⟨ik', mk', tk', hs2, hik, hmk, htk, hikl, hmkl, htkl,
        Or.inr ⟨⟨hv', h1⟩, ⟨_, rfl, ⟨rfl, hsent, hmat, hno⟩⟩, hsub, hsub'⟩⟩

theorem send_ok (scene : Scene F V T) (l : List (VisualEntity T)) (hl : 15 * l.length ≤ 4294967296) :
    ∃ ik mk tk, SendOk scene (l.foldl (sendStep scene) ([], SendState.empty)).2 ik mk tk ∧
      ik.length ≤ 15 * l.length ∧ mk.length ≤ l.length ∧ tk.length ≤ l.length ∧
      (∀ x ∈ mk, ∃ e ∈ l, scene.Shown e ∧ e.mesh = x) ∧
      (∀ x ∈ tk, ∃ e ∈ l, scene.Shown e ∧ e.material = some x ∧ scene.HasMaterial x) ∧
      List.Forall₂ (VisOk scene mk tk) (l.filter fun e => scene.Shown e)
        (l.foldl (sendStep scene) ([], SendState.empty)).1 := by
  induction l using List.reverseRecOn with
  | nil =>
    refine ⟨[], [], [], ⟨⟨KeysOf.nil 0, rfl, by simp⟩, KeysOf.nil 0, rfl, by simp, KeysOf.nil 0, rfl, by simp⟩, by simp, by simp,
      by simp, by simp, by simp, .nil⟩
  | append_singleton l e ih =>
    have hl' : 15 * l.length + 15 ≤ 4294967296 := by simp at hl; omega
    obtain ⟨ik, mk, tk, hs, h1, h2, h3, hu, hu', h4⟩ := ih (by omega)
    rw [List.foldl_append, List.foldl_cons, List.foldl_nil]
    obtain ⟨ik', mk', tk', hs', p1, p2, p3, l1, l2, l3, hc⟩ :=
      sendStep_ok scene _ e ik mk tk hs (by omega) (by omega) (by omega)
    have h4' := h4.imp fun a b h => VisOk.mono p2 p3 h
    rw [List.filter_append]
    have w : ∀ x ∈ mk, ∃ e' ∈ l ++ [e], scene.Shown e' ∧ e'.mesh = x := fun x hx => by
      obtain ⟨e', he', h⟩ := hu x hx
      exact ⟨e', List.mem_append_left _ he', h⟩
    have w' : ∀ x ∈ tk, ∃ e' ∈ l ++ [e], scene.Shown e' ∧ e'.material = some x ∧ scene.HasMaterial x := fun x hx => by
      obtain ⟨e', he', h⟩ := hu' x hx
      exact ⟨e', List.mem_append_left _ he', h⟩
    rcases hc with ⟨hn, e1, rfl, rfl⟩ | ⟨hsh, ⟨v, e1, hv⟩, c1, c2⟩
    · refine ⟨ik', mk', tk', hs', by simp; omega, by simp; omega, by simp; omega, w, w', ?_⟩
      rw [e1]; simpa [hn] using h4'
    · refine ⟨ik', mk', tk', hs', by simp; omega, by simp; omega, by simp; omega, ?_, ?_, ?_⟩
      · intro x hx
        rcases c1 x hx with hx | rfl
        · exact w x hx
        · exact ⟨e, by simp, hsh, rfl⟩
      · intro x hx
        rcases c2 x hx with hx | ⟨hx, hm⟩
        · exact w' x hx
        · exact ⟨e, by simp, hsh, hx, hm⟩
      · rw [e1]
        have : ([e].filter fun e => scene.Shown e) = [e] := by simp [hsh]
        rw [this]
        exact List.rel_append h4' (.cons hv .nil)

/-! ### Receiving -/

/-- `h` of the game became `x` of the editor, through the index sent. -/
theorem TexAs.mono {k : List Nat} {base : Nat} {ks ks' : List Nat} (h : ks <+: ks') {a b : Nat} (hs : TexAs k base ks a b) :
    TexAs k base ks' a b := by
  obtain ⟨i, h1, h2⟩ := hs
  exact ⟨i, h1, StoredAs.mono h _ _ h2⟩

theorem TexAs.eq_idx {k : List Nat} {base : Nat} {ks : List Nat} {a b : Nat} (hk : k.Nodup) (hks : ks.Nodup)
    (h : TexAs k base ks a b) : b = base + ks.idxOf (k.idxOf a) := by
  obtain ⟨i, h1, j, h2, rfl⟩ := h
  unfold SentAs at h1
  obtain ⟨hi, e1⟩ := List.getElem?_eq_some_iff.1 h1
  obtain ⟨hj, e2⟩ := List.getElem?_eq_some_iff.1 h2
  rw [← e1, hk.idxOf_getElem, ← e2, hks.idxOf_getElem]

theorem TexAs.inj {k : List Nat} {base : Nat} {ks : List Nat} {a a' b : Nat} (hks : ks.Nodup)
    (h : TexAs k base ks a b) (h' : TexAs k base ks a' b) : a = a' := by
  obtain ⟨i, h1, j, h2, rfl⟩ := h
  obtain ⟨i', h1', j', h2', e⟩ := h'
  have : j = j' := by omega
  subst this
  rw [h2] at h2'; cases h2'
  unfold SentAs at *
  rw [h1] at h1'; cases h1'; rfl

/-- The images, meshes and materials received so far are those with the indices `ks`, `ms`, `ts`. -/
structure RecvOk (scene : Scene F V T) (p : Payload F V T) (ik mk tk : List Nat) (old : EditorAssets F V)
    (s : ReceiveState F V) (ks ms ts : List Nat) : Prop where
  images : StoreOk p.images old.images ⟨s.imageIndices, s.assets.images⟩ ks
  meshMap : KeysOf old.meshes.length s.meshIndices ms
  meshLen : s.assets.meshes.length = old.meshes.length + ms.length
  meshKept : old.meshes <+: s.assets.meshes
  meshes : ∀ (j i : Nat), ms[j]? = some i → ∃ h m, SentAs mk h i ∧ scene.meshes h = some m ∧
    s.assets.meshes[old.meshes.length + j]? = some m.stripped
  matMap : KeysOf old.materials.length s.materialIndices ts
  matLen : s.assets.materials.length = old.materials.length + ts.length
  matKept : old.materials <+: s.assets.materials
  materials : ∀ (j i : Nat), ts[j]? = some i → ∃ h m m', SentAs tk h i ∧ scene.materials h = some m ∧
    s.assets.materials[old.materials.length + j]? = some m' ∧ m.Matches (TexAs ik old.images.length ks) m'

theorem StandardMaterial.Matches.exists_of_mem {T' : Type} {R : T → T' → Prop}
    {m : StandardMaterial V T} {m' : StandardMaterial V T'} (h : m.Matches R m') {t : T} (ht : t ∈ m.textures) :
    ∃ t', R t t' := by
  have o : ∀ {a : Option T} {b : Option T'}, Option.Rel R a b → some t = a → ∃ t', R t t' := by
    intro a b h e
    subst e
    cases h with
    | some h => exact ⟨_, h⟩
  simp only [StandardMaterial.textures, List.mem_filterMap, id_eq, exists_eq_right, List.mem_cons, List.not_mem_nil, or_false] at ht
  rcases ht with e | e | e | e | e | e | e | e | e | e | e | e | e | e | e
  · exact o h.baseColorTexture e
  · exact o h.emissiveTexture e
  · exact o h.metallicRoughnessTexture e
  · exact o h.diffuseTransmissionTexture e
  · exact o h.specularTransmissionTexture e
  · exact o h.thicknessTexture e
  · exact o h.normalMapTexture e
  · exact o h.occlusionTexture e
  · exact o h.specularTexture e
  · exact o h.specularTintTexture e
  · exact o h.clearcoatTexture e
  · exact o h.clearcoatRoughnessTexture e
  · exact o h.clearcoatNormalTexture e
  · exact o h.anisotropyTexture e
  · exact o h.depthMap e

/-- What the response must satisfy: it was made by the game. -/
structure Sent (scene : Scene F V T) (p : Payload F V T) (ik mk tk : List Nat) : Prop where
  imgLen : p.images.length = ik.length
  images : ∀ (i h : Nat), SentAs ik h i → ∃ img, scene.images h = some img ∧ p.images[i]? = some (SerializedImage.fromImage img)
  meshes : ∀ (i h : Nat), SentAs mk h i → ∃ m, scene.meshes h = some m ∧ p.meshes[i]? = some (SerializedMesh.fromMesh m)
  materials : ∀ (i h : Nat), SentAs tk h i → ∃ m sm, scene.materials h = some m ∧ p.materials[i]? = some sm ∧
    SerMatches (SentAs ik) m sm
  meshOk : ∀ h m, scene.meshes h = some m → m.Ok

theorem receiveMesh_ok {scene : Scene F V T} {p : Payload F V T} {ik mk tk : List Nat} (hp : Sent scene p ik mk tk)
    {old : EditorAssets F V} {s : ReceiveState F V} {ks ms ts : List Nat} (hs : RecvOk scene p ik mk tk old s ks ms ts)
    {h i : Nat} (hi : SentAs mk h i) :
    ∃ x s' ms', receiveMesh p i s = .ok (x, s') ∧ RecvOk scene p ik mk tk old s' ks ms' ts ∧ ms <+: ms' ∧
      StoredAs old.meshes.length ms' i x := by
  unfold receiveMesh
  cases hl : s.meshIndices.lookup i with
  | some x => exact ⟨x, s, ms, rfl, hs, List.prefix_rfl, (hs.meshMap.lookup i x).1 hl⟩
  | none =>
    have hn := (hs.meshMap.none_iff i).1 hl
    obtain ⟨m, hm, hpm⟩ := hp.meshes i h hi
    have e1 : idx p.meshes i = .ok (SerializedMesh.fromMesh m) := idx_some hpm
    dsimp only
    rw [e1, bind_ok, intoMesh_fromMesh m (hp.meshOk h m hm), bind_ok]
    refine ⟨_, _, ms ++ [i], rfl, ?_, List.prefix_append _ _, ms.length, by simp, hs.meshLen⟩
    refine { hs with meshMap := ?_, meshLen := ?_, meshKept := ?_, meshes := ?_ }
    · have := hs.meshMap.insert i hn
      dsimp only; rw [hs.meshLen]; exact this
    · simp [hs.meshLen]; omega
    · exact hs.meshKept.trans (List.prefix_append _ _)
    · intro j i' hj
      rcases sentAs_append hj with hj | ⟨rfl, rfl⟩
      · obtain ⟨h', m', a1, a2, a3⟩ := hs.meshes j i' hj
        exact ⟨h', m', a1, a2, getElem?_prefix (List.prefix_append _ _) a3⟩
      · refine ⟨h, m, hi, hm, ?_⟩
        dsimp only
        rw [← hs.meshLen]; simp

theorem receiveMaterial_ok {scene : Scene F V T} {p : Payload F V T} {ik mk tk : List Nat} (hp : Sent scene p ik mk tk)
    {old : EditorAssets F V} {s : ReceiveState F V} {ks ms ts : List Nat} (hs : RecvOk scene p ik mk tk old s ks ms ts)
    (fallback : Nat) {h i : Nat} (hi : SentAs tk h i) :
    ∃ x s' ks' ts', receiveMaterial p fallback (some i) s = .ok (x, s') ∧ RecvOk scene p ik mk tk old s' ks' ms ts' ∧
      ks <+: ks' ∧ ts <+: ts' ∧ StoredAs old.materials.length ts' i x := by
  unfold receiveMaterial
  dsimp only
  cases hl : s.materialIndices.lookup i with
  | some x => exact ⟨x, s, ks, ts, rfl, hs, List.prefix_rfl, List.prefix_rfl, (hs.matMap.lookup i x).1 hl⟩
  | none =>
    have hn := (hs.matMap.none_iff i).1 hl
    obtain ⟨m, sm, hm, hpm, hsm⟩ := hp.materials i h hi
    have e1 : idx p.materials i = .ok sm := idx_some hpm
    dsimp only
    rw [e1, bind_ok]
    obtain ⟨m', st', ks', e2, hst, hks, -, hmm⟩ :=
      intoMaterial_receives p.images old.images ks ik m sm hsm hp.imgLen.symm _ ks List.prefix_rfl hs.images
    rw [e2]
    dsimp only
    refine ⟨_, _, ks', ts ++ [i], rfl, ?_, hks, List.prefix_append _ _, ts.length, by simp, hs.matLen⟩
    refine { hs with images := hst, matMap := ?_, matLen := ?_, matKept := ?_, materials := ?_ }
    · have := hs.matMap.insert i hn
      dsimp only; rw [hs.matLen]; exact this
    · simp [hs.matLen]; omega
    · exact hs.matKept.trans (List.prefix_append _ _)
    · intro j i' hj
      rcases sentAs_append hj with hj | ⟨rfl, rfl⟩
      · obtain ⟨h', m1, m1', a1, a2, a3, a4⟩ := hs.materials j i' hj
        exact ⟨h', m1, m1', a1, a2, getElem?_prefix (List.prefix_append _ _) a3, a4.mono fun _ _ hr => hr.mono hks⟩
      · refine ⟨h, m, m', hi, hm, ?_, hmm⟩
        dsimp only
        rw [← hs.matLen]; simp

/-- How an entity was received. -/
structure EntOk (scene : Scene F V T) (tf : T → T) (mk tk : List Nat) (old : EditorAssets F V) (fallback : Nat)
    (ms ts : List Nat) (e : VisualEntity T) (x : EditorEntity T) : Prop where
  transform : x.transform = tf e.transform
  mesh : TexAs mk old.meshes.length ms e.mesh x.mesh
  material : ∀ h, e.material = some h → scene.HasMaterial h → ∃ y, x.material = some y ∧ TexAs tk old.materials.length ts h y
  noMaterial : (∀ h, e.material = some h → ¬ scene.HasMaterial h) → x.material = some fallback

theorem EntOk.mono {scene : Scene F V T} {tf : T → T} {mk tk : List Nat} {old : EditorAssets F V} {fallback : Nat}
    {ms ts ms' ts' : List Nat} {e : VisualEntity T} {x : EditorEntity T} (h1 : ms <+: ms') (h2 : ts <+: ts')
    (h : EntOk scene tf mk tk old fallback ms ts e x) : EntOk scene tf mk tk old fallback ms' ts' e x :=
  { h with
    mesh := h.mesh.mono h1
    material := fun a ha hb => by
      obtain ⟨y, hy, ht⟩ := h.material a ha hb
      exact ⟨y, hy, ht.mono h2⟩ }

theorem receiveVisual_ok {scene : Scene F V T} {p : Payload F V T} {ik mk tk : List Nat} (hp : Sent scene p ik mk tk)
    (tf : T → T) (fallback : Nat) {old : EditorAssets F V} (acc : List (EditorEntity T) × ReceiveState F V)
    {ks ms ts : List Nat} (hs : RecvOk scene p ik mk tk old acc.2 ks ms ts)
    {e : VisualEntity T} {v : VisualMesh T} (hv : VisOk scene mk tk e v) :
    ∃ x s' ks' ms' ts', receiveVisual p tf fallback acc v = .ok (acc.1 ++ [x], s') ∧
      RecvOk scene p ik mk tk old s' ks' ms' ts' ∧ ks <+: ks' ∧ ms <+: ms' ∧ ts <+: ts' ∧
      EntOk scene tf mk tk old fallback ms' ts' e x := by
  unfold receiveVisual
  obtain ⟨x, s1, ms', e1, hs1, hms, hx⟩ := receiveMesh_ok hp hs hv.mesh
  rw [e1, bind_ok]
  dsimp only
  by_cases hh : ∃ h, e.material = some h ∧ scene.HasMaterial h
  · obtain ⟨h, hm, hhas⟩ := hh
    obtain ⟨i, hvi, hti⟩ := hv.material h hm hhas
    obtain ⟨y, s2, ks', ts', e2, hs2, hks, hts, hy⟩ := receiveMaterial_ok hp hs1 fallback hti
    rw [hvi, e2, bind_ok]
    refine ⟨_, _, ks', ms', ts', rfl, hs2, hks, hms, hts, ⟨by simp [hv.transform], ⟨v.mesh, hv.mesh, hx⟩, ?_, ?_⟩⟩
    · intro h' hm' _
      rw [hm] at hm'; cases hm'
      exact ⟨y, rfl, i, hti, hy⟩
    · intro hn; exact absurd hhas (hn h hm)
  · have hno : ∀ h, e.material = some h → ¬ scene.HasMaterial h := fun h h1 h2 => hh ⟨h, h1, h2⟩
    rw [hv.noMaterial hno]
    unfold receiveMaterial
    dsimp only
    rw [bind_ok]
    refine ⟨_, _, ks, ms', ts, rfl, hs1, List.prefix_rfl, hms, List.prefix_rfl,
      ⟨by simp [hv.transform], ⟨v.mesh, hv.mesh, hx⟩, ?_, fun _ => rfl⟩⟩
    intro h' hm' hhas
    exact absurd hhas (hno h' hm')

theorem receive_ok {scene : Scene F V T} {p : Payload F V T} {ik mk tk : List Nat} (hp : Sent scene p ik mk tk)
    (tf : T → T) (fallback : Nat) {old : EditorAssets F V} {es : List (VisualEntity T)} {vs : List (VisualMesh T)}
    (hv : List.Forall₂ (VisOk scene mk tk) es vs) :
    ∀ (acc : List (EditorEntity T) × ReceiveState F V) (es0 : List (VisualEntity T)) (ks ms ts : List Nat),
      RecvOk scene p ik mk tk old acc.2 ks ms ts →
      List.Forall₂ (EntOk scene tf mk tk old fallback ms ts) es0 acc.1 →
      ∃ xs s' ks' ms' ts', vs.foldlM (receiveVisual p tf fallback) acc = .ok (xs, s') ∧
        RecvOk scene p ik mk tk old s' ks' ms' ts' ∧
        List.Forall₂ (EntOk scene tf mk tk old fallback ms' ts') (es0 ++ es) xs := by
  induction hv with
  | nil =>
    intro acc es0 ks ms ts hs h0
    exact ⟨acc.1, acc.2, ks, ms, ts, rfl, hs, by simpa using h0⟩
  | @cons e v es vs he _ ih =>
    intro acc es0 ks ms ts hs h0
    obtain ⟨x, s1, ks1, ms1, ts1, e1, hs1, -, hms, hts, hx⟩ := receiveVisual_ok hp tf fallback acc hs he
    rw [List.foldlM_cons, e1, bind_ok]
    have h0' := List.rel_append (h0.imp fun a b h => EntOk.mono hms hts h) (.cons hx .nil)
    obtain ⟨xs, s', ks', ms', ts', e2, hs2, h2⟩ := ih (acc.1 ++ [x], s1) (es0 ++ [e]) ks1 ms1 ts1 hs1 h0'
    exact ⟨xs, s', ks', ms', ts', e2, hs2, by simpa using h2⟩

theorem receiveAffectors_eq (tf : T → T) (l : List (AffectorMesh F T)) :
    ∀ (acc : List (EditorEntity T)) (a : EditorAssets F V),
    l.foldl (receiveAffector tf) (acc, a) =
      (acc ++ l.mapIdx fun i m => { transform := tf m.transform, mesh := a.meshes.length + i, material := none },
        { a with meshes := a.meshes ++ l.map fun m => affectorMesh m.mesh }) := by
  induction l with
  | nil => intro acc a; simp
  | cons m l ih =>
    intro acc a
    rw [List.foldl_cons, receiveAffector, ih]
    simp only [List.mapIdx_cons, List.append_assoc, List.map_cons, List.length_append, List.length_singleton]
    simp [Nat.add_comm, Nat.add_assoc]

end Rerecast.Transmission
