import Verif.Spec.Editor
import Verif.Lemmas.Outs
import Mathlib.Data.List.Basic
/-! The exchange between the game and the editor. -/
namespace Rerecast.Transmission
variable {F V T : Type}

/-! ### Single values -/

theorem toValues_ofValues (v : VertexValues F) : (SerializedValues.ofValues v).toValues = v := by
  cases v <;> rfl

theorem toIndices_ofIndices (i : Indices) : (SerializedIndices.ofIndices i).toIndices = i := by
  cases i <;> rfl

theorem toTopology_ofTopology (t : Topology) : (SerializedTopology.ofTopology t).toTopology = t := by
  cases t <;> rfl

theorem toChannel_ofChannel (t : UvChannel) : (SerializedUvChannel.ofChannel t).toChannel = t := by
  cases t <;> rfl

theorem toMode_ofMode (t : AlphaMode V) : (SerializedAlphaMode.ofMode t).toMode = t := by
  cases t <;> rfl

theorem toPMethod_ofPMethod (t : ParallaxMappingMethod V) : (SerializedParallaxMappingMethod.ofMethod t).toMethod = t := by
  cases t <;> rfl

theorem toOMethod_ofOMethod (t : OpaqueRendererMethod V) : (SerializedOpaqueRendererMethod.ofMethod t).toMethod = t := by
  cases t <;> rfl

theorem intoImage_fromImage (i : Image V) : (SerializedImage.fromImage i).intoImage = i.stripped := by
  cases i with | mk d l a b c e f g vf s v au =>
  cases v <;> rfl

/-- A serialised material belongs to a material. -/
structure SerMatches (R : T → Nat → Prop) (m : StandardMaterial V T) (s : SerializedMaterial V) : Prop where
  baseColor : s.baseColor = m.baseColor
  baseColorChannel : s.baseColorChannel = .ofChannel m.baseColorChannel
  baseColorTexture : Option.Rel R m.baseColorTexture s.baseColorTexture
  emissive : s.emissive = m.emissive
  emissiveExposureWeight : s.emissiveExposureWeight = m.emissiveExposureWeight
  emissiveChannel : s.emissiveChannel = .ofChannel m.emissiveChannel
  emissiveTexture : Option.Rel R m.emissiveTexture s.emissiveTexture
  perceptualRoughness : s.perceptualRoughness = m.perceptualRoughness
  metallic : s.metallic = m.metallic
  metallicRoughnessChannel : s.metallicRoughnessChannel = .ofChannel m.metallicRoughnessChannel
  metallicRoughnessTexture : Option.Rel R m.metallicRoughnessTexture s.metallicRoughnessTexture
  reflectance : s.reflectance = m.reflectance
  specularTint : s.specularTint = m.specularTint
  diffuseTransmission : s.diffuseTransmission = m.diffuseTransmission
  diffuseTransmissionChannel : s.diffuseTransmissionChannel = .ofChannel m.diffuseTransmissionChannel
  diffuseTransmissionTexture : Option.Rel R m.diffuseTransmissionTexture s.diffuseTransmissionTexture
  specularTransmission : s.specularTransmission = m.specularTransmission
  specularTransmissionChannel : s.specularTransmissionChannel = .ofChannel m.specularTransmissionChannel
  specularTransmissionTexture : Option.Rel R m.specularTransmissionTexture s.specularTransmissionTexture
  thickness : s.thickness = m.thickness
  thicknessChannel : s.thicknessChannel = .ofChannel m.thicknessChannel
  thicknessTexture : Option.Rel R m.thicknessTexture s.thicknessTexture
  ior : s.ior = m.ior
  attenuationDistance : s.attenuationDistance = m.attenuationDistance
  attenuationColor : s.attenuationColor = m.attenuationColor
  normalMapChannel : s.normalMapChannel = .ofChannel m.normalMapChannel
  normalMapTexture : Option.Rel R m.normalMapTexture s.normalMapTexture
  flipNormalMapY : s.flipNormalMapY = m.flipNormalMapY
  occlusionChannel : s.occlusionChannel = .ofChannel m.occlusionChannel
  occlusionTexture : Option.Rel R m.occlusionTexture s.occlusionTexture
  specularChannel : s.specularChannel = .ofChannel m.specularChannel
  specularTexture : Option.Rel R m.specularTexture s.specularTexture
  specularTintChannel : s.specularTintChannel = .ofChannel m.specularTintChannel
  specularTintTexture : Option.Rel R m.specularTintTexture s.specularTintTexture
  clearcoat : s.clearcoat = m.clearcoat
  clearcoatChannel : s.clearcoatChannel = .ofChannel m.clearcoatChannel
  clearcoatTexture : Option.Rel R m.clearcoatTexture s.clearcoatTexture
  clearcoatPerceptualRoughness : s.clearcoatPerceptualRoughness = m.clearcoatPerceptualRoughness
  clearcoatRoughnessChannel : s.clearcoatRoughnessChannel = .ofChannel m.clearcoatRoughnessChannel
  clearcoatRoughnessTexture : Option.Rel R m.clearcoatRoughnessTexture s.clearcoatRoughnessTexture
  clearcoatNormalChannel : s.clearcoatNormalChannel = .ofChannel m.clearcoatNormalChannel
  clearcoatNormalTexture : Option.Rel R m.clearcoatNormalTexture s.clearcoatNormalTexture
  anisotropyStrength : s.anisotropyStrength = m.anisotropyStrength
  anisotropyRotation : s.anisotropyRotation = m.anisotropyRotation
  anisotropyChannel : s.anisotropyChannel = .ofChannel m.anisotropyChannel
  anisotropyTexture : Option.Rel R m.anisotropyTexture s.anisotropyTexture
  doubleSided : s.doubleSided = m.doubleSided
  cullMode : s.cullMode = m.cullMode
  unlit : s.unlit = m.unlit
  fogEnabled : s.fogEnabled = m.fogEnabled
  alphaMode : s.alphaMode = .ofMode m.alphaMode
  depthBias : s.depthBias = m.depthBias
  depthMap : Option.Rel R m.depthMap s.depthMap
  parallaxDepthScale : s.parallaxDepthScale = m.parallaxDepthScale
  parallaxMappingMethod : s.parallaxMappingMethod = .ofMethod m.parallaxMappingMethod
  maxParallaxLayerCount : s.maxParallaxLayerCount = m.maxParallaxLayerCount
  lightmapExposure : s.lightmapExposure = m.lightmapExposure
  opaqueRenderMethod : s.opaqueRenderMethod = .ofMethod m.opaqueRenderMethod
  deferredLightingPassId : s.deferredLightingPassId = m.deferredLightingPassId
  uvTransform : s.uvTransform = m.uvTransform

theorem optRel_mono {α β : Type} {R R' : α → β → Prop} (h : ∀ a b, R a b → R' a b) {a : Option α} {b : Option β}
    (hr : Option.Rel R a b) : Option.Rel R' a b := by
  cases hr with
  | some hab => exact .some (h _ _ hab)
  | none => exact .none

theorem SerMatches.mono {R R' : T → Nat → Prop} {m : StandardMaterial V T} {s : SerializedMaterial V}
    (h : ∀ a b, R a b → R' a b) (hm : SerMatches R m s) : SerMatches R' m s :=
  { hm with
    baseColorTexture := optRel_mono h hm.baseColorTexture
    emissiveTexture := optRel_mono h hm.emissiveTexture
    metallicRoughnessTexture := optRel_mono h hm.metallicRoughnessTexture
    diffuseTransmissionTexture := optRel_mono h hm.diffuseTransmissionTexture
    specularTransmissionTexture := optRel_mono h hm.specularTransmissionTexture
    thicknessTexture := optRel_mono h hm.thicknessTexture
    normalMapTexture := optRel_mono h hm.normalMapTexture
    occlusionTexture := optRel_mono h hm.occlusionTexture
    specularTexture := optRel_mono h hm.specularTexture
    specularTintTexture := optRel_mono h hm.specularTintTexture
    clearcoatTexture := optRel_mono h hm.clearcoatTexture
    clearcoatRoughnessTexture := optRel_mono h hm.clearcoatRoughnessTexture
    clearcoatNormalTexture := optRel_mono h hm.clearcoatNormalTexture
    anisotropyTexture := optRel_mono h hm.anisotropyTexture
    depthMap := optRel_mono h hm.depthMap }

theorem _root_.Rerecast.Transmission.StandardMaterial.Matches.mono {T' : Type} {R R' : T → T' → Prop} {m : StandardMaterial V T}
    {s : StandardMaterial V T'} (h : ∀ a b, R a b → R' a b) (hm : m.Matches R s) : m.Matches R' s :=
  { hm with
    baseColorTexture := optRel_mono h hm.baseColorTexture
    emissiveTexture := optRel_mono h hm.emissiveTexture
    metallicRoughnessTexture := optRel_mono h hm.metallicRoughnessTexture
    diffuseTransmissionTexture := optRel_mono h hm.diffuseTransmissionTexture
    specularTransmissionTexture := optRel_mono h hm.specularTransmissionTexture
    thicknessTexture := optRel_mono h hm.thicknessTexture
    normalMapTexture := optRel_mono h hm.normalMapTexture
    occlusionTexture := optRel_mono h hm.occlusionTexture
    specularTexture := optRel_mono h hm.specularTexture
    specularTintTexture := optRel_mono h hm.specularTintTexture
    clearcoatTexture := optRel_mono h hm.clearcoatTexture
    clearcoatRoughnessTexture := optRel_mono h hm.clearcoatRoughnessTexture
    clearcoatNormalTexture := optRel_mono h hm.clearcoatNormalTexture
    anisotropyTexture := optRel_mono h hm.anisotropyTexture
    depthMap := optRel_mono h hm.depthMap }

end Rerecast.Transmission
