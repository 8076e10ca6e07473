import Verif.Model.Editor
import Verif.Spec.TriMesh
/-! What a scene should look like in the editor. -/
namespace Rerecast.Transmission
variable {F V T : Type}

/-- What is left of an image after the transfer: the labels (used for debugging), the view formats and the asset usage are
reset. -/
def Image.stripped (i : Image V) : Image V :=
  { i with label := none, viewFormats := [], assetUsage := none
           view := i.view.map fun d => { d with label := none } }

/-- The attributes of Bevy: `position`, `normal`, `uv_0`, `uv_1`, `tangent`, `color`, `joint_weight`, `joint_index`. -/
def IsBuiltin (id : Nat) : Prop := id < 8

instance : DecidablePred IsBuiltin := fun id => inferInstanceAs (Decidable (id < 8))

/-- What is left of a mesh after the transfer: custom attributes are dropped. -/
def Mesh.stripped (m : Mesh F) : Mesh F :=
  { m with attributes := m.attributes.filter fun a => IsBuiltin a.1 }

/-- A mesh built with the functions of Bevy: one entry per attribute id, in the order of the ids, and built-in attributes have
the format that belongs to them. -/
structure Mesh.Ok (m : Mesh F) : Prop where
  sorted : m.attributes.Pairwise fun a b => a.1 < b.1
  formats : ∀ a ∈ m.attributes, ∀ b ∈ builtin, a.1 = b.1 → a.2.format = b.2

/-- The textures of a material. -/
def StandardMaterial.textures (m : StandardMaterial V T) : List T :=
  ([m.baseColorTexture, m.emissiveTexture, m.metallicRoughnessTexture, m.diffuseTransmissionTexture, m.specularTransmissionTexture, m.thicknessTexture, m.normalMapTexture, m.occlusionTexture, m.specularTexture, m.specularTintTexture, m.clearcoatTexture, m.clearcoatRoughnessTexture, m.clearcoatNormalTexture, m.anisotropyTexture, m.depthMap]).filterMap id

/-- The image indices of a serialised material. -/
def SerializedMaterial.textures (m : SerializedMaterial V) : List Nat :=
  ([m.baseColorTexture, m.emissiveTexture, m.metallicRoughnessTexture, m.diffuseTransmissionTexture, m.specularTransmissionTexture, m.thicknessTexture, m.normalMapTexture, m.occlusionTexture, m.specularTexture, m.specularTintTexture, m.clearcoatTexture, m.clearcoatRoughnessTexture, m.clearcoatNormalTexture, m.anisotropyTexture, m.depthMap]).filterMap id

/-- Two materials agree, up to a relation between their textures. -/
structure StandardMaterial.Matches {T' : Type} (R : T → T' → Prop) (m : StandardMaterial V T) (m' : StandardMaterial V T') :
    Prop where
  baseColor : m'.baseColor = m.baseColor
  baseColorChannel : m'.baseColorChannel = m.baseColorChannel
  baseColorTexture : Option.Rel R m.baseColorTexture m'.baseColorTexture
  emissive : m'.emissive = m.emissive
  emissiveExposureWeight : m'.emissiveExposureWeight = m.emissiveExposureWeight
  emissiveChannel : m'.emissiveChannel = m.emissiveChannel
  emissiveTexture : Option.Rel R m.emissiveTexture m'.emissiveTexture
  perceptualRoughness : m'.perceptualRoughness = m.perceptualRoughness
  metallic : m'.metallic = m.metallic
  metallicRoughnessChannel : m'.metallicRoughnessChannel = m.metallicRoughnessChannel
  metallicRoughnessTexture : Option.Rel R m.metallicRoughnessTexture m'.metallicRoughnessTexture
  reflectance : m'.reflectance = m.reflectance
  specularTint : m'.specularTint = m.specularTint
  diffuseTransmission : m'.diffuseTransmission = m.diffuseTransmission
  diffuseTransmissionChannel : m'.diffuseTransmissionChannel = m.diffuseTransmissionChannel
  diffuseTransmissionTexture : Option.Rel R m.diffuseTransmissionTexture m'.diffuseTransmissionTexture
  specularTransmission : m'.specularTransmission = m.specularTransmission
  specularTransmissionChannel : m'.specularTransmissionChannel = m.specularTransmissionChannel
  specularTransmissionTexture : Option.Rel R m.specularTransmissionTexture m'.specularTransmissionTexture
  thickness : m'.thickness = m.thickness
  thicknessChannel : m'.thicknessChannel = m.thicknessChannel
  thicknessTexture : Option.Rel R m.thicknessTexture m'.thicknessTexture
  ior : m'.ior = m.ior
  attenuationDistance : m'.attenuationDistance = m.attenuationDistance
  attenuationColor : m'.attenuationColor = m.attenuationColor
  normalMapChannel : m'.normalMapChannel = m.normalMapChannel
  normalMapTexture : Option.Rel R m.normalMapTexture m'.normalMapTexture
  flipNormalMapY : m'.flipNormalMapY = m.flipNormalMapY
  occlusionChannel : m'.occlusionChannel = m.occlusionChannel
  occlusionTexture : Option.Rel R m.occlusionTexture m'.occlusionTexture
  specularChannel : m'.specularChannel = m.specularChannel
  specularTexture : Option.Rel R m.specularTexture m'.specularTexture
  specularTintChannel : m'.specularTintChannel = m.specularTintChannel
  specularTintTexture : Option.Rel R m.specularTintTexture m'.specularTintTexture
  clearcoat : m'.clearcoat = m.clearcoat
  clearcoatChannel : m'.clearcoatChannel = m.clearcoatChannel
  clearcoatTexture : Option.Rel R m.clearcoatTexture m'.clearcoatTexture
  clearcoatPerceptualRoughness : m'.clearcoatPerceptualRoughness = m.clearcoatPerceptualRoughness
  clearcoatRoughnessChannel : m'.clearcoatRoughnessChannel = m.clearcoatRoughnessChannel
  clearcoatRoughnessTexture : Option.Rel R m.clearcoatRoughnessTexture m'.clearcoatRoughnessTexture
  clearcoatNormalChannel : m'.clearcoatNormalChannel = m.clearcoatNormalChannel
  clearcoatNormalTexture : Option.Rel R m.clearcoatNormalTexture m'.clearcoatNormalTexture
  anisotropyStrength : m'.anisotropyStrength = m.anisotropyStrength
  anisotropyRotation : m'.anisotropyRotation = m.anisotropyRotation
  anisotropyChannel : m'.anisotropyChannel = m.anisotropyChannel
  anisotropyTexture : Option.Rel R m.anisotropyTexture m'.anisotropyTexture
  doubleSided : m'.doubleSided = m.doubleSided
  cullMode : m'.cullMode = m.cullMode
  unlit : m'.unlit = m.unlit
  fogEnabled : m'.fogEnabled = m.fogEnabled
  alphaMode : m'.alphaMode = m.alphaMode
  depthBias : m'.depthBias = m.depthBias
  depthMap : Option.Rel R m.depthMap m'.depthMap
  parallaxDepthScale : m'.parallaxDepthScale = m.parallaxDepthScale
  parallaxMappingMethod : m'.parallaxMappingMethod = m.parallaxMappingMethod
  maxParallaxLayerCount : m'.maxParallaxLayerCount = m.maxParallaxLayerCount
  lightmapExposure : m'.lightmapExposure = m.lightmapExposure
  opaqueRenderMethod : m'.opaqueRenderMethod = m.opaqueRenderMethod
  deferredLightingPassId : m'.deferredLightingPassId = m.deferredLightingPassId
  uvTransform : m'.uvTransform = m.uvTransform

/-- Is the entity sent to the editor? It must be visible and its mesh must exist. -/
def Scene.Shown (scene : Scene F V T) (e : VisualEntity T) : Prop :=
  e.visible = true ∧ (scene.meshes e.mesh).isSome = true

instance (scene : Scene F V T) : DecidablePred scene.Shown := fun e =>
  inferInstanceAs (Decidable (e.visible = true ∧ (scene.meshes e.mesh).isSome = true))

/-- The material `h` can be sent: it exists and so do all its images. -/
def Scene.HasMaterial (scene : Scene F V T) (h : Nat) : Prop :=
  ∃ m, scene.materials h = some m ∧ ∀ t ∈ m.textures, (scene.images t).isSome = true

/-- The editor entity `x` shows the entity `e`.  `meshOf`, `matOf`, `imgOf` give the handles of the editor for those of the
scene. -/
structure Shows (scene : Scene F V T) (tf : T → T) (assets : EditorAssets F V) (fallback : Nat)
    (meshOf matOf imgOf : Nat → Nat) (e : VisualEntity T) (x : EditorEntity T) : Prop where
  transform : x.transform = tf e.transform
  meshHandle : x.mesh = meshOf e.mesh
  mesh : ∃ m, scene.meshes e.mesh = some m ∧ assets.meshes[x.mesh]? = some m.stripped
  material : ∀ h, e.material = some h → scene.HasMaterial h → x.material = some (matOf h) ∧
    ∃ m m', scene.materials h = some m ∧ assets.materials[matOf h]? = some m' ∧
      m.Matches (fun t t' => t' = imgOf t ∧
        ∃ i, scene.images t = some i ∧ assets.images[t']? = some i.stripped) m'
  noMaterial : (∀ h, e.material = some h → ¬ scene.HasMaterial h) → x.material = some fallback

/-- The response has the entry `v` for the entity `e`.  `meshIdx` and `matIdx` give the indices for the handles of the scene. -/
structure Lists (scene : Scene F V T) (p : Payload F V T) (meshIdx matIdx : Nat → Nat) (e : VisualEntity T) (v : VisualMesh T) :
    Prop where
  transform : v.transform = e.transform
  meshIndex : v.mesh = meshIdx e.mesh
  mesh : ∃ m, scene.meshes e.mesh = some m ∧ p.meshes[v.mesh]? = some (SerializedMesh.fromMesh m)
  material : ∀ h, e.material = some h → scene.HasMaterial h → v.material = some (matIdx h) ∧ matIdx h < p.materials.length
  noMaterial : (∀ h, e.material = some h → ¬ scene.HasMaterial h) → v.material = none

/-- A triangle mesh without marks: no triangle is walkable. -/
def _root_.Rerecast.TriMesh.unmarked (m : TriMesh F) : TriMesh F :=
  { m with areaTypes := List.replicate m.indices.length NOT_WALKABLE }

/-- The indices of triangles, in a row. -/
def flatIndices (l : List (Nat × Nat × Nat)) : List Nat := l.flatMap fun (t : Nat × Nat × Nat) => [t.1, t.2.1, t.2.2]

end Rerecast.Transmission
