import Verif.Lemmas.EditorSend
/-! The exchange between the game and the editor: materials and received images. -/
namespace Rerecast.Transmission
variable {F V T : Type}

theorem Sends.congr {images : Nat → Option (Image V)} {n : Nat} {k0 : List Nat} {α : Type}
    {x : StateRes (ImageCache V) Unit α} {P P' : Prop} {R : List Nat → α → Prop} (hx : Sends images n k0 x P R)
    (h : P ↔ P') : Sends images n k0 x P' R := by
  rw [propext h] at hx; exact hx

theorem SentAs.mono {k k' : List Nat} (h : k <+: k') (a b : Nat) (hs : SentAs k a b) : SentAs k' a b := getElem?_prefix h hs

theorem tryFromMaterial_sends (images : Nat → Option (Image V)) (k0 : List Nat) (m : StandardMaterial V Nat) :
    Sends images 15 k0 (SerializedMaterial.tryFromMaterial images m) (∀ t ∈ m.textures, (images t).isSome = true)
      (fun k s => SerMatches (SentAs k) m s) := by
  refine Sends.congr (P :=
      (∀ t, m.baseColorTexture = some t → (images t).isSome = true) ∧
      (∀ t, m.emissiveTexture = some t → (images t).isSome = true) ∧
      (∀ t, m.metallicRoughnessTexture = some t → (images t).isSome = true) ∧
      (∀ t, m.diffuseTransmissionTexture = some t → (images t).isSome = true) ∧
      (∀ t, m.specularTransmissionTexture = some t → (images t).isSome = true) ∧
      (∀ t, m.thicknessTexture = some t → (images t).isSome = true) ∧
      (∀ t, m.normalMapTexture = some t → (images t).isSome = true) ∧
      (∀ t, m.occlusionTexture = some t → (images t).isSome = true) ∧
      (∀ t, m.specularTexture = some t → (images t).isSome = true) ∧
      (∀ t, m.specularTintTexture = some t → (images t).isSome = true) ∧
      (∀ t, m.clearcoatTexture = some t → (images t).isSome = true) ∧
      (∀ t, m.clearcoatRoughnessTexture = some t → (images t).isSome = true) ∧
      (∀ t, m.clearcoatNormalTexture = some t → (images t).isSome = true) ∧
      (∀ t, m.anisotropyTexture = some t → (images t).isSome = true) ∧
      (∀ t, m.depthMap = some t → (images t).isSome = true) ∧ True) ?h ?c
  case h =>
    unfold SerializedMaterial.tryFromMaterial
    refine Sends.bind (n := 1) (n' := 14) (serializeImage_sends images _ m.baseColorTexture) fun k1 hk1 a1 r1 => ?_
    refine Sends.bind (n := 1) (n' := 13) (serializeImage_sends images _ m.emissiveTexture) fun k2 hk2 a2 r2 => ?_
    refine Sends.bind (n := 1) (n' := 12) (serializeImage_sends images _ m.metallicRoughnessTexture) fun k3 hk3 a3 r3 => ?_
    refine Sends.bind (n := 1) (n' := 11) (serializeImage_sends images _ m.diffuseTransmissionTexture) fun k4 hk4 a4 r4 => ?_
    refine Sends.bind (n := 1) (n' := 10) (serializeImage_sends images _ m.specularTransmissionTexture) fun k5 hk5 a5 r5 => ?_
    refine Sends.bind (n := 1) (n' := 9) (serializeImage_sends images _ m.thicknessTexture) fun k6 hk6 a6 r6 => ?_
    refine Sends.bind (n := 1) (n' := 8) (serializeImage_sends images _ m.normalMapTexture) fun k7 hk7 a7 r7 => ?_
    refine Sends.bind (n := 1) (n' := 7) (serializeImage_sends images _ m.occlusionTexture) fun k8 hk8 a8 r8 => ?_
    refine Sends.bind (n := 1) (n' := 6) (serializeImage_sends images _ m.specularTexture) fun k9 hk9 a9 r9 => ?_
    refine Sends.bind (n := 1) (n' := 5) (serializeImage_sends images _ m.specularTintTexture) fun k10 hk10 a10 r10 => ?_
    refine Sends.bind (n := 1) (n' := 4) (serializeImage_sends images _ m.clearcoatTexture) fun k11 hk11 a11 r11 => ?_
    refine Sends.bind (n := 1) (n' := 3) (serializeImage_sends images _ m.clearcoatRoughnessTexture) fun k12 hk12 a12 r12 => ?_
    refine Sends.bind (n := 1) (n' := 2) (serializeImage_sends images _ m.clearcoatNormalTexture) fun k13 hk13 a13 r13 => ?_
    refine Sends.bind (n := 1) (n' := 1) (serializeImage_sends images _ m.anisotropyTexture) fun k14 hk14 a14 r14 => ?_
    refine Sends.bind (n := 1) (n' := 0) (serializeImage_sends images _ m.depthMap) fun k15 hk15 a15 r15 => ?_
    refine Sends.pure _ fun k hk => ?_
    have p15 := hk
    have p14 := hk15.trans p15
    have p13 := hk14.trans p14
    have p12 := hk13.trans p13
    have p11 := hk12.trans p12
    have p10 := hk11.trans p11
    have p9 := hk10.trans p10
    have p8 := hk9.trans p9
    have p7 := hk8.trans p8
    have p6 := hk7.trans p7
    have p5 := hk6.trans p6
    have p4 := hk5.trans p5
    have p3 := hk4.trans p4
    have p2 := hk3.trans p3
    have p1 := hk2.trans p2
    exact
      { baseColor := rfl
        baseColorChannel := rfl
        baseColorTexture := optRel_mono (SentAs.mono p1) r1
        emissive := rfl
        emissiveExposureWeight := rfl
        emissiveChannel := rfl
        emissiveTexture := optRel_mono (SentAs.mono p2) r2
        perceptualRoughness := rfl
        metallic := rfl
        metallicRoughnessChannel := rfl
        metallicRoughnessTexture := optRel_mono (SentAs.mono p3) r3
        reflectance := rfl
        specularTint := rfl
        diffuseTransmission := rfl
        diffuseTransmissionChannel := rfl
        diffuseTransmissionTexture := optRel_mono (SentAs.mono p4) r4
        specularTransmission := rfl
        specularTransmissionChannel := rfl
        specularTransmissionTexture := optRel_mono (SentAs.mono p5) r5
        thickness := rfl
        thicknessChannel := rfl
        thicknessTexture := optRel_mono (SentAs.mono p6) r6
        ior := rfl
        attenuationDistance := rfl
        attenuationColor := rfl
        normalMapChannel := rfl
        normalMapTexture := optRel_mono (SentAs.mono p7) r7
        flipNormalMapY := rfl
        occlusionChannel := rfl
        occlusionTexture := optRel_mono (SentAs.mono p8) r8
        specularChannel := rfl
        specularTexture := optRel_mono (SentAs.mono p9) r9
        specularTintChannel := rfl
        specularTintTexture := optRel_mono (SentAs.mono p10) r10
        clearcoat := rfl
        clearcoatChannel := rfl
        clearcoatTexture := optRel_mono (SentAs.mono p11) r11
        clearcoatPerceptualRoughness := rfl
        clearcoatRoughnessChannel := rfl
        clearcoatRoughnessTexture := optRel_mono (SentAs.mono p12) r12
        clearcoatNormalChannel := rfl
        clearcoatNormalTexture := optRel_mono (SentAs.mono p13) r13
        anisotropyStrength := rfl
        anisotropyRotation := rfl
        anisotropyChannel := rfl
        anisotropyTexture := optRel_mono (SentAs.mono p14) r14
        doubleSided := rfl
        cullMode := rfl
        unlit := rfl
        fogEnabled := rfl
        alphaMode := rfl
        depthBias := rfl
        depthMap := optRel_mono (SentAs.mono p15) r15
        parallaxDepthScale := rfl
        parallaxMappingMethod := rfl
        maxParallaxLayerCount := rfl
        lightmapExposure := rfl
        opaqueRenderMethod := rfl
        deferredLightingPassId := rfl
        uvTransform := rfl }
  case c =>
    unfold StandardMaterial.textures
    simp only [List.mem_filterMap, List.mem_cons, List.not_mem_nil, or_false, id_eq]
    constructor
    · rintro ⟨h1, h2, h3, h4, h5, h6, h7, h8, h9, h10, h11, h12, h13, h14, h15, -⟩ t ⟨a, ha, rfl⟩
      rcases ha with ha | ha | ha | ha | ha | ha | ha | ha | ha | ha | ha | ha | ha | ha | ha
      · exact h1 t ha.symm
      · exact h2 t ha.symm
      · exact h3 t ha.symm
      · exact h4 t ha.symm
      · exact h5 t ha.symm
      · exact h6 t ha.symm
      · exact h7 t ha.symm
      · exact h8 t ha.symm
      · exact h9 t ha.symm
      · exact h10 t ha.symm
      · exact h11 t ha.symm
      · exact h12 t ha.symm
      · exact h13 t ha.symm
      · exact h14 t ha.symm
      · exact h15 t ha.symm
    · intro h
      refine ⟨?_, ?_, ?_, ?_, ?_, ?_, ?_, ?_, ?_, ?_, ?_, ?_, ?_, ?_, ?_, trivial⟩ <;> intro t ht <;> refine h t ⟨some t, ?_, rfl⟩ <;> simp only [ht, true_or, or_true]

/-! ### Receiving images and materials -/

/-- The images received so far are those with the indices `ks`; they were added to the images `old`. -/
structure StoreOk (received : List (SerializedImage V)) (old : List (Image V)) (s : ImageStore V) (ks : List Nat) : Prop where
  map : KeysOf old.length s.indices ks
  len : s.images.length = old.length + ks.length
  kept : old <+: s.images
  content : ∀ (j i : Nat), ks[j]? = some i → ∃ si, received[i]? = some si ∧
    s.images[old.length + j]? = some (SerializedImage.intoImage si)

/-- `x` succeeds, with a result satisfying `R`. -/
def Receives (received : List (SerializedImage V)) (old : List (Image V)) (k0 : List Nat) {α : Type}
    (x : StateRes (ImageStore V) Fault α) (R : List Nat → α → Prop) : Prop :=
  ∀ s ks, k0 <+: ks → StoreOk received old s ks →
    ∃ a s' ks', x.run.run s = (.ok a, s') ∧ StoreOk received old s' ks' ∧ ks <+: ks' ∧ s.images <+: s'.images ∧ R ks' a

theorem Receives.pure {received : List (SerializedImage V)} {old : List (Image V)} {k0 : List Nat} {α : Type} (a : α)
    {R : List Nat → α → Prop} (h : ∀ k, k0 <+: k → R k a) : Receives received old k0 (pure a) R := by
  intro s k hk hs
  exact ⟨a, s, k, rfl, hs, List.prefix_rfl, List.prefix_rfl, h k hk⟩

theorem Receives.bind {received : List (SerializedImage V)} {old : List (Image V)} {k0 : List Nat} {α β : Type}
    {x : StateRes (ImageStore V) Fault α} {f : α → StateRes (ImageStore V) Fault β} {R : List Nat → α → Prop}
    {R' : List Nat → β → Prop} (hx : Receives received old k0 x R)
    (hf : ∀ k1, k0 <+: k1 → ∀ a, R k1 a → Receives received old k1 (f a) R') :
    Receives received old k0 (x >>= f) R' := by
  intro s k hk hs
  obtain ⟨a, s1, k1, e, hs1, hk1, hi1, h1⟩ := hx s k hk hs
  obtain ⟨b, s2, k2, e', hs2, hk2, hi2, h2⟩ := hf k1 (hk.trans hk1) a h1 s1 k1 List.prefix_rfl hs1
  refine ⟨b, s2, k2, ?_, hs2, hk1.trans hk2, hi1.trans hi2, h2⟩
  rw [run_bind, e]; exact e'

/-- The index received and the handle of the image. -/
def StoredAs (base : Nat) (ks : List Nat) (i h : Nat) : Prop := ∃ j, ks[j]? = some i ∧ h = base + j

theorem StoredAs.mono {base : Nat} {k k' : List Nat} (h : k <+: k') (a b : Nat) (hs : StoredAs base k a b) :
    StoredAs base k' a b := by
  obtain ⟨j, hj, e⟩ := hs
  exact ⟨j, getElem?_prefix h hj, e⟩

theorem deserializeImage_receives (received : List (SerializedImage V)) (old : List (Image V)) (k0 : List Nat)
    (i : Option Nat) (hi : ∀ t, i = some t → t < received.length) :
    Receives received old k0 (deserializeImage received i) (fun ks r => Option.Rel (StoredAs old.length ks) i r) := by
  intro s k hk hs
  cases i with
  | none => exact ⟨none, s, k, rfl, hs, List.prefix_rfl, List.prefix_rfl, .none⟩
  | some i =>
    cases hlk : s.indices.lookup i with
    | some h =>
      refine ⟨some h, s, k, ?_, hs, List.prefix_rfl, List.prefix_rfl, .some ((hs.map.lookup i h).1 hlk)⟩
      unfold deserializeImage
      change (match s.indices.lookup i with | some index => _ | none => _ : StateRes (ImageStore V) Fault (Option Nat)).run.run s = _
      rw [hlk]; rfl
    | none =>
      have hlt := hi i rfl
      have hr : received[i]? = some received[i] := List.getElem?_eq_getElem hlt
      have hnk := (hs.map.none_iff i).1 hlk
      refine ⟨some s.images.length, ⟨(i, s.images.length) :: s.indices, s.images ++ [received[i].intoImage]⟩, k ++ [i], ?_,
        ⟨?_, ?_, hs.kept.trans (List.prefix_append _ _), ?_⟩, List.prefix_append _ _, List.prefix_append _ _, .some ?_⟩
      · unfold deserializeImage
        change (match s.indices.lookup i with | some index => _ | none => _ : StateRes (ImageStore V) Fault (Option Nat)).run.run s = _
        rw [hlk]
        dsimp only
        rw [hr]; rfl
      · have := hs.map.insert i hnk
        rw [hs.len]; exact this
      · simp [hs.len]; omega
      · intro j i' hj
        dsimp only
        by_cases hlt' : j < k.length
        · rw [List.getElem?_append_left hlt'] at hj
          obtain ⟨si, h1, h2⟩ := hs.content j i' hj
          exact ⟨si, h1, getElem?_prefix (List.prefix_append _ _) h2⟩
        · have hj' : j = k.length := by
            by_contra hne
            rw [List.getElem?_eq_none (by simp; omega)] at hj; cases hj
          subst hj'
          simp at hj
          subst hj
          refine ⟨_, hr, ?_⟩
          rw [← hs.len]; simp
      · exact ⟨k.length, by simp, hs.len⟩

/-- The handle of a texture in the scene and in the editor. -/
def TexAs (k : List Nat) (base : Nat) (ks : List Nat) (t t' : Nat) : Prop := ∃ i, SentAs k t i ∧ StoredAs base ks i t'

theorem optRel_texAs {k : List Nat} {base : Nat} {ks ks' : List Nat} (h : ks <+: ks') {a b c : Option Nat}
    (h1 : Option.Rel (SentAs k) a b) (h2 : Option.Rel (StoredAs base ks) b c) : Option.Rel (TexAs k base ks') a c := by
  cases h1 with
  | none => cases h2; exact .none
  | some h1 =>
    cases h2 with
    | some h2 => exact .some ⟨_, h1, StoredAs.mono h _ _ h2⟩

theorem optRel_sentAs_lt {k : List Nat} {a b : Option Nat} (h : Option.Rel (SentAs k) a b) (t : Nat) (ht : b = some t) :
    t < k.length := by
  cases h with
  | none => cases ht
  | some h =>
    cases ht
    by_contra hge
    unfold SentAs at h
    rw [List.getElem?_eq_none (by omega)] at h; cases h

theorem intoMaterial_receives (received : List (SerializedImage V)) (old : List (Image V)) (k0 : List Nat) (k : List Nat)
    (m : StandardMaterial V Nat) (s : SerializedMaterial V) (hm : SerMatches (SentAs k) m s)
    (hk : k.length = received.length) :
    Receives received old k0 (s.intoMaterial received) (fun ks m' => m.Matches (TexAs k old.length ks) m') := by
  have lt : ∀ {a b : Option Nat}, Option.Rel (SentAs k) a b → ∀ t, b = some t → t < received.length :=
    fun h t ht => hk ▸ optRel_sentAs_lt h t ht
  unfold SerializedMaterial.intoMaterial
  refine Receives.bind (deserializeImage_receives received old _ s.baseColorTexture (lt hm.baseColorTexture)) fun k1 hk1 a1 r1 => ?_
  refine Receives.bind (deserializeImage_receives received old _ s.emissiveTexture (lt hm.emissiveTexture)) fun k2 hk2 a2 r2 => ?_
  refine Receives.bind (deserializeImage_receives received old _ s.metallicRoughnessTexture (lt hm.metallicRoughnessTexture)) fun k3 hk3 a3 r3 => ?_
  refine Receives.bind (deserializeImage_receives received old _ s.diffuseTransmissionTexture (lt hm.diffuseTransmissionTexture)) fun k4 hk4 a4 r4 => ?_
  refine Receives.bind (deserializeImage_receives received old _ s.specularTransmissionTexture (lt hm.specularTransmissionTexture)) fun k5 hk5 a5 r5 => ?_
  refine Receives.bind (deserializeImage_receives received old _ s.thicknessTexture (lt hm.thicknessTexture)) fun k6 hk6 a6 r6 => ?_
  refine Receives.bind (deserializeImage_receives received old _ s.normalMapTexture (lt hm.normalMapTexture)) fun k7 hk7 a7 r7 => ?_
  refine Receives.bind (deserializeImage_receives received old _ s.occlusionTexture (lt hm.occlusionTexture)) fun k8 hk8 a8 r8 => ?_
  refine Receives.bind (deserializeImage_receives received old _ s.specularTexture (lt hm.specularTexture)) fun k9 hk9 a9 r9 => ?_
  refine Receives.bind (deserializeImage_receives received old _ s.specularTintTexture (lt hm.specularTintTexture)) fun k10 hk10 a10 r10 => ?_
  refine Receives.bind (deserializeImage_receives received old _ s.clearcoatTexture (lt hm.clearcoatTexture)) fun k11 hk11 a11 r11 => ?_
  refine Receives.bind (deserializeImage_receives received old _ s.clearcoatRoughnessTexture (lt hm.clearcoatRoughnessTexture)) fun k12 hk12 a12 r12 => ?_
  refine Receives.bind (deserializeImage_receives received old _ s.clearcoatNormalTexture (lt hm.clearcoatNormalTexture)) fun k13 hk13 a13 r13 => ?_
  refine Receives.bind (deserializeImage_receives received old _ s.anisotropyTexture (lt hm.anisotropyTexture)) fun k14 hk14 a14 r14 => ?_
  refine Receives.bind (deserializeImage_receives received old _ s.depthMap (lt hm.depthMap)) fun k15 hk15 a15 r15 => ?_
  refine Receives.pure _ fun kf hkf => ?_
  have p15 := hkf
  have p14 := hk15.trans p15
  have p13 := hk14.trans p14
  have p12 := hk13.trans p13
  have p11 := hk12.trans p12
  have p10 := hk11.trans p11
  have p9 := hk10.trans p10
  have p8 := hk9.trans p9
  have p7 := hk8.trans p8
  have p6 := hk7.trans p7
  have p5 := hk6.trans p6
  have p4 := hk5.trans p5
  have p3 := hk4.trans p4
  have p2 := hk3.trans p3
  have p1 := hk2.trans p2
  exact
    { baseColor := hm.baseColor
      baseColorChannel := by dsimp only; rw [hm.baseColorChannel, toChannel_ofChannel]
      baseColorTexture := optRel_texAs p1 hm.baseColorTexture r1
      emissive := hm.emissive
      emissiveExposureWeight := hm.emissiveExposureWeight
      emissiveChannel := by dsimp only; rw [hm.emissiveChannel, toChannel_ofChannel]
      emissiveTexture := optRel_texAs p2 hm.emissiveTexture r2
      perceptualRoughness := hm.perceptualRoughness
      metallic := hm.metallic
      metallicRoughnessChannel := by dsimp only; rw [hm.metallicRoughnessChannel, toChannel_ofChannel]
      metallicRoughnessTexture := optRel_texAs p3 hm.metallicRoughnessTexture r3
      reflectance := hm.reflectance
      specularTint := hm.specularTint
      diffuseTransmission := hm.diffuseTransmission
      diffuseTransmissionChannel := by dsimp only; rw [hm.diffuseTransmissionChannel, toChannel_ofChannel]
      diffuseTransmissionTexture := optRel_texAs p4 hm.diffuseTransmissionTexture r4
      specularTransmission := hm.specularTransmission
      specularTransmissionChannel := by dsimp only; rw [hm.specularTransmissionChannel, toChannel_ofChannel]
      specularTransmissionTexture := optRel_texAs p5 hm.specularTransmissionTexture r5
      thickness := hm.thickness
      thicknessChannel := by dsimp only; rw [hm.thicknessChannel, toChannel_ofChannel]
      thicknessTexture := optRel_texAs p6 hm.thicknessTexture r6
      ior := hm.ior
      attenuationDistance := hm.attenuationDistance
      attenuationColor := hm.attenuationColor
      normalMapChannel := by dsimp only; rw [hm.normalMapChannel, toChannel_ofChannel]
      normalMapTexture := optRel_texAs p7 hm.normalMapTexture r7
      flipNormalMapY := hm.flipNormalMapY
      occlusionChannel := by dsimp only; rw [hm.occlusionChannel, toChannel_ofChannel]
      occlusionTexture := optRel_texAs p8 hm.occlusionTexture r8
      specularChannel := by dsimp only; rw [hm.specularChannel, toChannel_ofChannel]
      specularTexture := optRel_texAs p9 hm.specularTexture r9
      specularTintChannel := by dsimp only; rw [hm.specularTintChannel, toChannel_ofChannel]
      specularTintTexture := optRel_texAs p10 hm.specularTintTexture r10
      clearcoat := hm.clearcoat
      clearcoatChannel := by dsimp only; rw [hm.clearcoatChannel, toChannel_ofChannel]
      clearcoatTexture := optRel_texAs p11 hm.clearcoatTexture r11
      clearcoatPerceptualRoughness := hm.clearcoatPerceptualRoughness
      clearcoatRoughnessChannel := by dsimp only; rw [hm.clearcoatRoughnessChannel, toChannel_ofChannel]
      clearcoatRoughnessTexture := optRel_texAs p12 hm.clearcoatRoughnessTexture r12
      clearcoatNormalChannel := by dsimp only; rw [hm.clearcoatNormalChannel, toChannel_ofChannel]
      clearcoatNormalTexture := optRel_texAs p13 hm.clearcoatNormalTexture r13
      anisotropyStrength := hm.anisotropyStrength
      anisotropyRotation := hm.anisotropyRotation
      anisotropyChannel := by dsimp only; rw [hm.anisotropyChannel, toChannel_ofChannel]
      anisotropyTexture := optRel_texAs p14 hm.anisotropyTexture r14
      doubleSided := hm.doubleSided
      cullMode := hm.cullMode
      unlit := hm.unlit
      fogEnabled := hm.fogEnabled
      alphaMode := by dsimp only; rw [hm.alphaMode, toMode_ofMode]
      depthBias := hm.depthBias
      depthMap := optRel_texAs p15 hm.depthMap r15
      parallaxDepthScale := hm.parallaxDepthScale
      parallaxMappingMethod := by dsimp only; rw [hm.parallaxMappingMethod, toPMethod_ofPMethod]
      maxParallaxLayerCount := hm.maxParallaxLayerCount
      lightmapExposure := hm.lightmapExposure
      opaqueRenderMethod := by dsimp only; rw [hm.opaqueRenderMethod, toOMethod_ofOMethod]
      deferredLightingPassId := hm.deferredLightingPassId
      uvTransform := hm.uvTransform }

end Rerecast.Transmission
