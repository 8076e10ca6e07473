import Verif.Model.TriMesh
/-!
Model of the transmission types of the editor integration
(`bevy_rerecast_editor_integration/src/transmission/serialized_mesh.rs`, `serialized_image.rs`,
`serialized_standard_material.rs`).

The Bevy types are modelled as far as this code looks into them.  `F` is the type of `f32`s, `V` an arbitrary type of values
that are only copied (colours, `f32`s, sizes, formats, ...); nothing is computed with either.  The derived serde
implementations, bincode, gzip and base64 (`serialization.rs`) are not modelled: a payload is taken to arrive as it was sent.
All texture features (`pbr_transmission_textures`, ...) are taken to be enabled.
-/
namespace Rerecast.Transmission

/-! ## Meshes -/

/-- bevy `VertexAttributeValues` -/
inductive VertexValues (F : Type)
  | float32 (v : List (F))
  | sint32 (v : List (Int))
  | uint32 (v : List (Nat))
  | float32x2 (v : List (F × F))
  | sint32x2 (v : List (Int × Int))
  | uint32x2 (v : List (Nat × Nat))
  | float32x3 (v : List (F × F × F))
  | sint32x3 (v : List (Int × Int × Int))
  | uint32x3 (v : List (Nat × Nat × Nat))
  | float32x4 (v : List (F × F × F × F))
  | sint32x4 (v : List (Int × Int × Int × Int))
  | uint32x4 (v : List (Nat × Nat × Nat × Nat))
  | sint16x2 (v : List (Int × Int))
  | snorm16x2 (v : List (Int × Int))
  | uint16x2 (v : List (Nat × Nat))
  | unorm16x2 (v : List (Nat × Nat))
  | sint16x4 (v : List (Int × Int × Int × Int))
  | snorm16x4 (v : List (Int × Int × Int × Int))
  | uint16x4 (v : List (Nat × Nat × Nat × Nat))
  | unorm16x4 (v : List (Nat × Nat × Nat × Nat))
  | sint8x2 (v : List (Int × Int))
  | snorm8x2 (v : List (Int × Int))
  | uint8x2 (v : List (Nat × Nat))
  | unorm8x2 (v : List (Nat × Nat))
  | sint8x4 (v : List (Int × Int × Int × Int))
  | snorm8x4 (v : List (Int × Int × Int × Int))
  | uint8x4 (v : List (Nat × Nat × Nat × Nat))
  | unorm8x4 (v : List (Nat × Nat × Nat × Nat))
  deriving DecidableEq, Repr

/-- serialized_mesh.rs:146-175 `SerializedVertexAttributeValues` -/
inductive SerializedValues (F : Type)
  | float32 (v : List (F))
  | sint32 (v : List (Int))
  | uint32 (v : List (Nat))
  | float32x2 (v : List (F × F))
  | sint32x2 (v : List (Int × Int))
  | uint32x2 (v : List (Nat × Nat))
  | float32x3 (v : List (F × F × F))
  | sint32x3 (v : List (Int × Int × Int))
  | uint32x3 (v : List (Nat × Nat × Nat))
  | float32x4 (v : List (F × F × F × F))
  | sint32x4 (v : List (Int × Int × Int × Int))
  | uint32x4 (v : List (Nat × Nat × Nat × Nat))
  | sint16x2 (v : List (Int × Int))
  | snorm16x2 (v : List (Int × Int))
  | uint16x2 (v : List (Nat × Nat))
  | unorm16x2 (v : List (Nat × Nat))
  | sint16x4 (v : List (Int × Int × Int × Int))
  | snorm16x4 (v : List (Int × Int × Int × Int))
  | uint16x4 (v : List (Nat × Nat × Nat × Nat))
  | unorm16x4 (v : List (Nat × Nat × Nat × Nat))
  | sint8x2 (v : List (Int × Int))
  | snorm8x2 (v : List (Int × Int))
  | uint8x2 (v : List (Nat × Nat))
  | unorm8x2 (v : List (Nat × Nat))
  | sint8x4 (v : List (Int × Int × Int × Int))
  | snorm8x4 (v : List (Int × Int × Int × Int))
  | uint8x4 (v : List (Nat × Nat × Nat × Nat))
  | unorm8x4 (v : List (Nat × Nat × Nat × Nat))
  deriving DecidableEq, Repr

/-- serialized_mesh.rs:177-210 `From<VertexAttributeValues>` -/
def SerializedValues.ofValues {F : Type} : VertexValues F → SerializedValues F
  | .float32 v => .float32 v
  | .sint32 v => .sint32 v
  | .uint32 v => .uint32 v
  | .float32x2 v => .float32x2 v
  | .sint32x2 v => .sint32x2 v
  | .uint32x2 v => .uint32x2 v
  | .float32x3 v => .float32x3 v
  | .sint32x3 v => .sint32x3 v
  | .uint32x3 v => .uint32x3 v
  | .float32x4 v => .float32x4 v
  | .sint32x4 v => .sint32x4 v
  | .uint32x4 v => .uint32x4 v
  | .sint16x2 v => .sint16x2 v
  | .snorm16x2 v => .snorm16x2 v
  | .uint16x2 v => .uint16x2 v
  | .unorm16x2 v => .unorm16x2 v
  | .sint16x4 v => .sint16x4 v
  | .snorm16x4 v => .snorm16x4 v
  | .uint16x4 v => .uint16x4 v
  | .unorm16x4 v => .unorm16x4 v
  | .sint8x2 v => .sint8x2 v
  | .snorm8x2 v => .snorm8x2 v
  | .uint8x2 v => .uint8x2 v
  | .unorm8x2 v => .unorm8x2 v
  | .sint8x4 v => .sint8x4 v
  | .snorm8x4 v => .snorm8x4 v
  | .uint8x4 v => .uint8x4 v
  | .unorm8x4 v => .unorm8x4 v

/-- serialized_mesh.rs:212-245 `From<SerializedVertexAttributeValues>` -/
def SerializedValues.toValues {F : Type} : SerializedValues F → VertexValues F
  | .float32 v => .float32 v
  | .sint32 v => .sint32 v
  | .uint32 v => .uint32 v
  | .float32x2 v => .float32x2 v
  | .sint32x2 v => .sint32x2 v
  | .uint32x2 v => .uint32x2 v
  | .float32x3 v => .float32x3 v
  | .sint32x3 v => .sint32x3 v
  | .uint32x3 v => .uint32x3 v
  | .float32x4 v => .float32x4 v
  | .sint32x4 v => .sint32x4 v
  | .uint32x4 v => .uint32x4 v
  | .sint16x2 v => .sint16x2 v
  | .snorm16x2 v => .snorm16x2 v
  | .uint16x2 v => .uint16x2 v
  | .unorm16x2 v => .unorm16x2 v
  | .sint16x4 v => .sint16x4 v
  | .snorm16x4 v => .snorm16x4 v
  | .uint16x4 v => .uint16x4 v
  | .unorm16x4 v => .unorm16x4 v
  | .sint8x2 v => .sint8x2 v
  | .snorm8x2 v => .snorm8x2 v
  | .uint8x2 v => .uint8x2 v
  | .unorm8x2 v => .unorm8x2 v
  | .sint8x4 v => .sint8x4 v
  | .snorm8x4 v => .snorm8x4 v
  | .uint8x4 v => .uint8x4 v
  | .unorm8x4 v => .unorm8x4 v

/-- wgpu `VertexFormat`, as far as it occurs in `VertexAttributeValues`. -/
inductive VertexFormat
  | float32
  | sint32
  | uint32
  | float32x2
  | sint32x2
  | uint32x2
  | float32x3
  | sint32x3
  | uint32x3
  | float32x4
  | sint32x4
  | uint32x4
  | sint16x2
  | snorm16x2
  | uint16x2
  | unorm16x2
  | sint16x4
  | snorm16x4
  | uint16x4
  | unorm16x4
  | sint8x2
  | snorm8x2
  | uint8x2
  | unorm8x2
  | sint8x4
  | snorm8x4
  | uint8x4
  | unorm8x4
  deriving DecidableEq, Repr

/-- bevy `VertexFormat::from(&VertexAttributeValues)` -/
def VertexValues.format {F : Type} : VertexValues F → VertexFormat
  | .float32 _ => .float32
  | .sint32 _ => .sint32
  | .uint32 _ => .uint32
  | .float32x2 _ => .float32x2
  | .sint32x2 _ => .sint32x2
  | .uint32x2 _ => .uint32x2
  | .float32x3 _ => .float32x3
  | .sint32x3 _ => .sint32x3
  | .uint32x3 _ => .uint32x3
  | .float32x4 _ => .float32x4
  | .sint32x4 _ => .sint32x4
  | .uint32x4 _ => .uint32x4
  | .sint16x2 _ => .sint16x2
  | .snorm16x2 _ => .snorm16x2
  | .uint16x2 _ => .uint16x2
  | .unorm16x2 _ => .unorm16x2
  | .sint16x4 _ => .sint16x4
  | .snorm16x4 _ => .snorm16x4
  | .uint16x4 _ => .uint16x4
  | .unorm16x4 _ => .unorm16x4
  | .sint8x2 _ => .sint8x2
  | .snorm8x2 _ => .snorm8x2
  | .uint8x2 _ => .uint8x2
  | .unorm8x2 _ => .unorm8x2
  | .sint8x4 _ => .sint8x4
  | .snorm8x4 _ => .snorm8x4
  | .uint8x4 _ => .uint8x4
  | .unorm8x4 _ => .unorm8x4

/-- bevy `Indices` -/
inductive Indices
  | u16 (l : List Nat)
  | u32 (l : List Nat)
  deriving DecidableEq, Repr

/-- serialized_mesh.rs:250-253 `SerializedIndices` -/
inductive SerializedIndices
  | u16 (l : List Nat)
  | u32 (l : List Nat)
  deriving DecidableEq, Repr

/-- serialized_mesh.rs:255-262 `From<Indices>` -/
def SerializedIndices.ofIndices : Indices → SerializedIndices
  | .u16 l => .u16 l
  | .u32 l => .u32 l

/-- serialized_mesh.rs:264-271 `From<SerializedIndices>` -/
def SerializedIndices.toIndices : SerializedIndices → Indices
  | .u16 l => .u16 l
  | .u32 l => .u32 l

/-- wgpu `PrimitiveTopology` -/
inductive Topology
  | pointList | lineList | lineStrip | triangleList | triangleStrip
  deriving DecidableEq, Repr

/-- serialized_mesh.rs:275-282 `SerializedPrimitiveTopology` -/
inductive SerializedTopology
  | pointList | lineList | lineStrip | triangleList | triangleStrip
  deriving DecidableEq, Repr

/-- serialized_mesh.rs:284-294 `From<PrimitiveTopology>` -/
def SerializedTopology.ofTopology : Topology → SerializedTopology
  | .pointList => .pointList
  | .lineList => .lineList
  | .lineStrip => .lineStrip
  | .triangleList => .triangleList
  | .triangleStrip => .triangleStrip

/-- serialized_mesh.rs:296-306 `From<SerializedPrimitiveTopology>` -/
def SerializedTopology.toTopology : SerializedTopology → Topology
  | .pointList => .pointList
  | .lineList => .lineList
  | .lineStrip => .lineStrip
  | .triangleList => .triangleList
  | .triangleStrip => .triangleStrip

/-- bevy `Mesh`: the topology, the attributes in the order of their ids (a `BTreeMap`) and the indices.  Morph targets and
the asset usage are left out; `into_mesh` loses the former and resets the latter. -/
structure Mesh (F : Type) where
  topology : Topology
  attributes : List (Nat × VertexValues F)
  indices : Option Indices
  deriving DecidableEq, Repr

/-- bevy `Mesh::attribute` -/
def Mesh.attribute {F : Type} (m : Mesh F) (id : Nat) : Option (VertexValues F) := m.attributes.lookup id

/-- `BTreeMap::insert` -/
def insertSorted {α : Type} (k : Nat) (v : α) : List (Nat × α) → List (Nat × α)
  | [] => [(k, v)]
  | (k', v') :: l =>
    if k < k' then (k, v) :: (k', v') :: l
    else if k = k' then (k, v) :: l
    else (k', v') :: insertSorted k v l

/-- bevy `Mesh::ATTRIBUTE_POSITION.id`, `ATTRIBUTE_NORMAL`, `ATTRIBUTE_UV_0`, `ATTRIBUTE_UV_1`, `ATTRIBUTE_TANGENT`,
`ATTRIBUTE_COLOR`, `ATTRIBUTE_JOINT_WEIGHT`, `ATTRIBUTE_JOINT_INDEX` (constants of bevy_mesh, not part of the repository). -/
def POSITION : Nat := 0
@[inherit_doc POSITION] def NORMAL : Nat := 1
@[inherit_doc POSITION] def UV_0 : Nat := 2
@[inherit_doc POSITION] def UV_1 : Nat := 3
@[inherit_doc POSITION] def TANGENT : Nat := 4
@[inherit_doc POSITION] def COLOR : Nat := 5
@[inherit_doc POSITION] def JOINT_WEIGHT : Nat := 6
@[inherit_doc POSITION] def JOINT_INDEX : Nat := 7

/-- serialized_mesh.rs:98-123 `TryFrom<MeshVertexAttributeId>`; `none` is `Err(())`. -/
def serializeId (id : Nat) : Option Nat :=
  if id = POSITION then some 0
  else if id = NORMAL then some 1
  else if id = UV_0 then some 2
  else if id = UV_1 then some 3
  else if id = TANGENT then some 4
  else if id = COLOR then some 5
  else if id = JOINT_WEIGHT then some 6
  else if id = JOINT_INDEX then some 7
  else none

/-- serialized_mesh.rs:49-58: the attributes known to `into_mesh`, with their formats in bevy_mesh. -/
def builtin : List (Nat × VertexFormat) :=
  [(POSITION, .float32x3), (NORMAL, .float32x3), (UV_0, .float32x2), (UV_1, .float32x2), (TANGENT, .float32x4),
    (COLOR, .float32x4), (JOINT_WEIGHT, .float32x4), (JOINT_INDEX, .uint16x4)]

/-- serialized_mesh.rs:15-22 `SerializedMesh` -/
structure SerializedMesh (F : Type) where
  topology : SerializedTopology
  attributes : List (Nat × SerializedValues F)
  indices : Option SerializedIndices
  deriving DecidableEq, Repr

/-- serialized_mesh.rs:26-44 `from_mesh` -/
def SerializedMesh.fromMesh {F : Type} (m : Mesh F) : SerializedMesh F :=
  { topology := .ofTopology m.topology
    attributes := m.attributes.filterMap fun (a : Nat × VertexValues F) =>
      (serializeId a.1).map fun id => (id, .ofValues a.2)
    indices := m.indices.map .ofIndices }

/-- serialized_mesh.rs:59-72: one attribute.  The transmuted id is the number itself.  `Mesh::insert_attribute` panics if the
values do not have the format of the attribute. -/
def insertAttribute {F : Type} (m : Mesh F) (a : Nat × SerializedValues F) : Res (Mesh F) :=
  match builtin.find? fun (b : Nat × VertexFormat) => b.1 == a.1 with
  | none => .ok m
  | some b =>
    if a.2.toValues.format = b.2 then
      .ok { m with attributes := insertSorted b.1 a.2.toValues m.attributes }
    else .error .panic

/-- serialized_mesh.rs:47-77 `into_mesh` -/
def SerializedMesh.intoMesh {F : Type} (s : SerializedMesh F) : Res (Mesh F) := do
  let m ← s.attributes.foldlM insertAttribute { topology := s.topology.toTopology, attributes := [], indices := none }
  .ok { m with indices := s.indices.map SerializedIndices.toIndices }

/-! ## Images -/

/-- wgpu `TextureViewDescriptor` -/
structure ViewDescriptor (V : Type) where
  label : Option V
  format : V
  dimension : V
  usage : V
  aspect : V
  baseMipLevel : V
  mipLevelCount : V
  baseArrayLayer : V
  arrayLayerCount : V
  deriving DecidableEq, Repr

/-- serialized_image.rs:34-43 `SerializedTextureViewDescriptor` -/
structure SerializedViewDescriptor (V : Type) where
  format : V
  dimension : V
  usage : V
  aspect : V
  baseMipLevel : V
  mipLevelCount : V
  baseArrayLayer : V
  arrayLayerCount : V
  deriving DecidableEq, Repr

/-- serialized_image.rs:46-59 `from_texture_view_descriptor` -/
def SerializedViewDescriptor.ofView {V : Type} (d : ViewDescriptor V) : SerializedViewDescriptor V :=
  { format := d.format
    dimension := d.dimension
    usage := d.usage
    aspect := d.aspect
    baseMipLevel := d.baseMipLevel
    mipLevelCount := d.mipLevelCount
    baseArrayLayer := d.baseArrayLayer
    arrayLayerCount := d.arrayLayerCount }

/-- serialized_image.rs:61-74 `into_texture_view_descriptor` -/
def SerializedViewDescriptor.toView {V : Type} (d : SerializedViewDescriptor V) : ViewDescriptor V :=
  { label := none
    format := d.format
    dimension := d.dimension
    usage := d.usage
    aspect := d.aspect
    baseMipLevel := d.baseMipLevel
    mipLevelCount := d.mipLevelCount
    baseArrayLayer := d.baseArrayLayer
    arrayLayerCount := d.arrayLayerCount }

/-- bevy `Image`, with the fields of its texture descriptor. -/
structure Image (V : Type) where
  data : Option V
  label : Option V
  size : V
  mipLevelCount : V
  sampleCount : V
  dimension : V
  format : V
  usage : V
  viewFormats : List V
  sampler : V
  view : Option (ViewDescriptor V)
  assetUsage : Option V
  deriving DecidableEq, Repr

/-- serialized_image.rs:26-31 `SerializedImage`, with the fields of its texture descriptor. -/
structure SerializedImage (V : Type) where
  data : Option V
  size : V
  mipLevelCount : V
  sampleCount : V
  dimension : V
  format : V
  usage : V
  sampler : V
  view : Option (SerializedViewDescriptor V)
  deriving DecidableEq, Repr

/-- serialized_image.rs:79-97 `from_image` -/
def SerializedImage.fromImage {V : Type} (i : Image V) : SerializedImage V :=
  { data := i.data
    size := i.size
    mipLevelCount := i.mipLevelCount
    sampleCount := i.sampleCount
    dimension := i.dimension
    format := i.format
    usage := i.usage
    sampler := i.sampler
    view := i.view.map .ofView }

/-- serialized_image.rs:100-121 `into_image`; an asset usage of `none` stands for `RenderAssetUsages::all()`. -/
def SerializedImage.intoImage {V : Type} (i : SerializedImage V) : Image V :=
  { data := i.data
    label := none
    size := i.size
    mipLevelCount := i.mipLevelCount
    sampleCount := i.sampleCount
    dimension := i.dimension
    format := i.format
    usage := i.usage
    viewFormats := []
    sampler := i.sampler
    view := i.view.map SerializedViewDescriptor.toView
    assetUsage := none }

/-! ## Materials -/

/-- bevy `UvChannel` -/
inductive UvChannel | uv0 | uv1
  deriving DecidableEq, Repr

/-- serialized_standard_material.rs:369-373 `SerializedUvChannel` -/
inductive SerializedUvChannel | uv0 | uv1
  deriving DecidableEq, Repr

/-- serialized_standard_material.rs:376-381 `from_uv_channel` -/
def SerializedUvChannel.ofChannel : UvChannel → SerializedUvChannel
  | .uv0 => .uv0
  | .uv1 => .uv1

/-- serialized_standard_material.rs:382-387 `into_uv_channel` -/
def SerializedUvChannel.toChannel : SerializedUvChannel → UvChannel
  | .uv0 => .uv0
  | .uv1 => .uv1

/-- bevy `AlphaMode` -/
inductive AlphaMode (V : Type)
  | opaque | mask (v : V) | blend | premultiplied | alphaToCoverage | add | multiply
  deriving DecidableEq, Repr

/-- serialized_standard_material.rs:391-399 `SerializedAlphaMode` -/
inductive SerializedAlphaMode (V : Type)
  | opaque | mask (v : V) | blend | premultiplied | alphaToCoverage | add | multiply
  deriving DecidableEq, Repr

/-- serialized_standard_material.rs:402-412 `from_alpha_mode` -/
def SerializedAlphaMode.ofMode {V : Type} : AlphaMode V → SerializedAlphaMode V
  | .opaque => .opaque
  | .mask v => .mask v
  | .blend => .blend
  | .premultiplied => .premultiplied
  | .alphaToCoverage => .alphaToCoverage
  | .add => .add
  | .multiply => .multiply

/-- serialized_standard_material.rs:413-423 `into_alpha_mode` -/
def SerializedAlphaMode.toMode {V : Type} : SerializedAlphaMode V → AlphaMode V
  | .opaque => .opaque
  | .mask v => .mask v
  | .blend => .blend
  | .premultiplied => .premultiplied
  | .alphaToCoverage => .alphaToCoverage
  | .add => .add
  | .multiply => .multiply

/-- bevy `ParallaxMappingMethod` -/
inductive ParallaxMappingMethod (V : Type)
  | occlusion | relief (v : V)
  deriving DecidableEq, Repr

/-- serialized_standard_material.rs:427-430 `SerializedParallaxMappingMethod` -/
inductive SerializedParallaxMappingMethod (V : Type)
  | occlusion | relief (v : V)
  deriving DecidableEq, Repr

/-- serialized_standard_material.rs:433-440 `from_parallax_mapping_method` -/
def SerializedParallaxMappingMethod.ofMethod {V : Type} : ParallaxMappingMethod V → SerializedParallaxMappingMethod V
  | .occlusion => .occlusion
  | .relief v => .relief v

/-- serialized_standard_material.rs:441-448 `into_parallax_mapping_method` -/
def SerializedParallaxMappingMethod.toMethod {V : Type} : SerializedParallaxMappingMethod V → ParallaxMappingMethod V
  | .occlusion => .occlusion
  | .relief v => .relief v

/-- bevy `OpaqueRendererMethod` -/
inductive OpaqueRendererMethod (V : Type)
  | forward | deferred | auto
  deriving DecidableEq, Repr

/-- serialized_standard_material.rs:452-456 `SerializedOpaqueRendererMethod` -/
inductive SerializedOpaqueRendererMethod (V : Type)
  | forward | deferred | auto
  deriving DecidableEq, Repr

/-- serialized_standard_material.rs:459-465 `from_opaque_renderer_method` -/
def SerializedOpaqueRendererMethod.ofMethod {V : Type} : OpaqueRendererMethod V → SerializedOpaqueRendererMethod V
  | .forward => .forward
  | .deferred => .deferred
  | .auto => .auto

/-- serialized_standard_material.rs:466-472 `into_opaque_renderer_method` -/
def SerializedOpaqueRendererMethod.toMethod {V : Type} : SerializedOpaqueRendererMethod V → OpaqueRendererMethod V
  | .forward => .forward
  | .deferred => .deferred
  | .auto => .auto

/-- bevy `StandardMaterial`, with textures of type `T` (image handles). -/
structure StandardMaterial (V T : Type) where
  baseColor : V
  baseColorChannel : UvChannel
  baseColorTexture : Option T
  emissive : V
  emissiveExposureWeight : V
  emissiveChannel : UvChannel
  emissiveTexture : Option T
  perceptualRoughness : V
  metallic : V
  metallicRoughnessChannel : UvChannel
  metallicRoughnessTexture : Option T
  reflectance : V
  specularTint : V
  diffuseTransmission : V
  diffuseTransmissionChannel : UvChannel
  diffuseTransmissionTexture : Option T
  specularTransmission : V
  specularTransmissionChannel : UvChannel
  specularTransmissionTexture : Option T
  thickness : V
  thicknessChannel : UvChannel
  thicknessTexture : Option T
  ior : V
  attenuationDistance : V
  attenuationColor : V
  normalMapChannel : UvChannel
  normalMapTexture : Option T
  flipNormalMapY : Bool
  occlusionChannel : UvChannel
  occlusionTexture : Option T
  specularChannel : UvChannel
  specularTexture : Option T
  specularTintChannel : UvChannel
  specularTintTexture : Option T
  clearcoat : V
  clearcoatChannel : UvChannel
  clearcoatTexture : Option T
  clearcoatPerceptualRoughness : V
  clearcoatRoughnessChannel : UvChannel
  clearcoatRoughnessTexture : Option T
  clearcoatNormalChannel : UvChannel
  clearcoatNormalTexture : Option T
  anisotropyStrength : V
  anisotropyRotation : V
  anisotropyChannel : UvChannel
  anisotropyTexture : Option T
  doubleSided : Bool
  cullMode : V
  unlit : Bool
  fogEnabled : Bool
  alphaMode : AlphaMode V
  depthBias : V
  depthMap : Option T
  parallaxDepthScale : V
  parallaxMappingMethod : ParallaxMappingMethod V
  maxParallaxLayerCount : V
  lightmapExposure : V
  opaqueRenderMethod : OpaqueRendererMethod V
  deferredLightingPassId : V
  uvTransform : V
  deriving DecidableEq, Repr

/-- serialized_standard_material.rs:16-113 `SerializedStandardMaterial` -/
structure SerializedMaterial (V : Type) where
  baseColor : V
  baseColorChannel : SerializedUvChannel
  baseColorTexture : Option Nat
  emissive : V
  emissiveExposureWeight : V
  emissiveChannel : SerializedUvChannel
  emissiveTexture : Option Nat
  perceptualRoughness : V
  metallic : V
  metallicRoughnessChannel : SerializedUvChannel
  metallicRoughnessTexture : Option Nat
  reflectance : V
  specularTint : V
  diffuseTransmission : V
  diffuseTransmissionChannel : SerializedUvChannel
  diffuseTransmissionTexture : Option Nat
  specularTransmission : V
  specularTransmissionChannel : SerializedUvChannel
  specularTransmissionTexture : Option Nat
  thickness : V
  thicknessChannel : SerializedUvChannel
  thicknessTexture : Option Nat
  ior : V
  attenuationDistance : V
  attenuationColor : V
  normalMapChannel : SerializedUvChannel
  normalMapTexture : Option Nat
  flipNormalMapY : Bool
  occlusionChannel : SerializedUvChannel
  occlusionTexture : Option Nat
  specularChannel : SerializedUvChannel
  specularTexture : Option Nat
  specularTintChannel : SerializedUvChannel
  specularTintTexture : Option Nat
  clearcoat : V
  clearcoatChannel : SerializedUvChannel
  clearcoatTexture : Option Nat
  clearcoatPerceptualRoughness : V
  clearcoatRoughnessChannel : SerializedUvChannel
  clearcoatRoughnessTexture : Option Nat
  clearcoatNormalChannel : SerializedUvChannel
  clearcoatNormalTexture : Option Nat
  anisotropyStrength : V
  anisotropyRotation : V
  anisotropyChannel : SerializedUvChannel
  anisotropyTexture : Option Nat
  doubleSided : Bool
  cullMode : V
  unlit : Bool
  fogEnabled : Bool
  alphaMode : SerializedAlphaMode V
  depthBias : V
  depthMap : Option Nat
  parallaxDepthScale : V
  parallaxMappingMethod : SerializedParallaxMappingMethod V
  maxParallaxLayerCount : V
  lightmapExposure : V
  opaqueRenderMethod : SerializedOpaqueRendererMethod V
  deferredLightingPassId : V
  uvTransform : V
  deriving DecidableEq, Repr

/-- A computation with a mutable state that may end with an error; the state is kept in that case. -/
abbrev StateRes (σ ε α : Type) := ExceptT ε (StateM σ) α

/-- serialized_standard_material.rs:127, 129: the indices of the images sent so far (a `HashMap`, most recent entry first) and
the images. -/
structure ImageCache (V : Type) where
  indices : List (Nat × Nat)
  cache : List (SerializedImage V)
  deriving DecidableEq, Repr

/-- `l.len() as u32` -/
def lenU32 {α : Type} (l : List α) : Nat := l.length % 4294967296

/-- serialized_standard_material.rs:131-149 `serialize_image`; `images` are the assets by handle. -/
def serializeImage {V : Type} (images : Nat → Option (Image V)) (handle : Option Nat) :
    StateRes (ImageCache V) Unit (Option Nat) :=
  match handle with
  | none => pure none
  | some h => do
    let s ← get
    match s.indices.lookup h with
    | some index => pure (some index)
    | none =>
      match images h with
      | none => throw ()
      | some image => do
        let index := lenU32 s.cache
        set { indices := (h, index) :: s.indices, cache := s.cache ++ [SerializedImage.fromImage image] : ImageCache V }
        pure (some index)

/-- serialized_standard_material.rs:125-264 `try_from_standard_material` -/
def SerializedMaterial.tryFromMaterial {V : Type} (images : Nat → Option (Image V)) (m : StandardMaterial V Nat) :
    StateRes (ImageCache V) Unit (SerializedMaterial V) := do
  let baseColorTexture ← serializeImage images m.baseColorTexture
  let emissiveTexture ← serializeImage images m.emissiveTexture
  let metallicRoughnessTexture ← serializeImage images m.metallicRoughnessTexture
  let diffuseTransmissionTexture ← serializeImage images m.diffuseTransmissionTexture
  let specularTransmissionTexture ← serializeImage images m.specularTransmissionTexture
  let thicknessTexture ← serializeImage images m.thicknessTexture
  let normalMapTexture ← serializeImage images m.normalMapTexture
  let occlusionTexture ← serializeImage images m.occlusionTexture
  let specularTexture ← serializeImage images m.specularTexture
  let specularTintTexture ← serializeImage images m.specularTintTexture
  let clearcoatTexture ← serializeImage images m.clearcoatTexture
  let clearcoatRoughnessTexture ← serializeImage images m.clearcoatRoughnessTexture
  let clearcoatNormalTexture ← serializeImage images m.clearcoatNormalTexture
  let anisotropyTexture ← serializeImage images m.anisotropyTexture
  let depthMap ← serializeImage images m.depthMap
  pure
    { baseColor := m.baseColor
      baseColorChannel := .ofChannel m.baseColorChannel
      baseColorTexture
      emissive := m.emissive
      emissiveExposureWeight := m.emissiveExposureWeight
      emissiveChannel := .ofChannel m.emissiveChannel
      emissiveTexture
      perceptualRoughness := m.perceptualRoughness
      metallic := m.metallic
      metallicRoughnessChannel := .ofChannel m.metallicRoughnessChannel
      metallicRoughnessTexture
      reflectance := m.reflectance
      specularTint := m.specularTint
      diffuseTransmission := m.diffuseTransmission
      diffuseTransmissionChannel := .ofChannel m.diffuseTransmissionChannel
      diffuseTransmissionTexture
      specularTransmission := m.specularTransmission
      specularTransmissionChannel := .ofChannel m.specularTransmissionChannel
      specularTransmissionTexture
      thickness := m.thickness
      thicknessChannel := .ofChannel m.thicknessChannel
      thicknessTexture
      ior := m.ior
      attenuationDistance := m.attenuationDistance
      attenuationColor := m.attenuationColor
      normalMapChannel := .ofChannel m.normalMapChannel
      normalMapTexture
      flipNormalMapY := m.flipNormalMapY
      occlusionChannel := .ofChannel m.occlusionChannel
      occlusionTexture
      specularChannel := .ofChannel m.specularChannel
      specularTexture
      specularTintChannel := .ofChannel m.specularTintChannel
      specularTintTexture
      clearcoat := m.clearcoat
      clearcoatChannel := .ofChannel m.clearcoatChannel
      clearcoatTexture
      clearcoatPerceptualRoughness := m.clearcoatPerceptualRoughness
      clearcoatRoughnessChannel := .ofChannel m.clearcoatRoughnessChannel
      clearcoatRoughnessTexture
      clearcoatNormalChannel := .ofChannel m.clearcoatNormalChannel
      clearcoatNormalTexture
      anisotropyStrength := m.anisotropyStrength
      anisotropyRotation := m.anisotropyRotation
      anisotropyChannel := .ofChannel m.anisotropyChannel
      anisotropyTexture
      doubleSided := m.doubleSided
      cullMode := m.cullMode
      unlit := m.unlit
      fogEnabled := m.fogEnabled
      alphaMode := .ofMode m.alphaMode
      depthBias := m.depthBias
      depthMap
      parallaxDepthScale := m.parallaxDepthScale
      parallaxMappingMethod := .ofMethod m.parallaxMappingMethod
      maxParallaxLayerCount := m.maxParallaxLayerCount
      lightmapExposure := m.lightmapExposure
      opaqueRenderMethod := .ofMethod m.opaqueRenderMethod
      deferredLightingPassId := m.deferredLightingPassId
      uvTransform := m.uvTransform }

/-- serialized_standard_material.rs:269-270: the handles of the images received so far by index (a `HashMap`), and the image
assets; the handle of an asset is its position in the list. -/
structure ImageStore (V : Type) where
  indices : List (Nat × Nat)
  images : List (Image V)
  deriving DecidableEq, Repr

/-- serialized_standard_material.rs:273-284 `deserialize_image` -/
def deserializeImage {V : Type} (received : List (SerializedImage V)) (index : Option Nat) :
    StateRes (ImageStore V) Fault (Option Nat) :=
  match index with
  | none => pure none
  | some index => do
    let s ← get
    match s.indices.lookup index with
    | some handle => pure (some handle)
    | none =>
      match received[index]? with
      | none => throw Fault.panic
      | some image => do
        let handle := s.images.length
        set { indices := (index, handle) :: s.indices, images := s.images ++ [image.intoImage] : ImageStore V }
        pure (some handle)

/-- serialized_standard_material.rs:267-365 `into_standard_material` -/
def SerializedMaterial.intoMaterial {V : Type} (m : SerializedMaterial V) (received : List (SerializedImage V)) :
    StateRes (ImageStore V) Fault (StandardMaterial V Nat) := do
  let baseColorTexture ← deserializeImage received m.baseColorTexture
  let emissiveTexture ← deserializeImage received m.emissiveTexture
  let metallicRoughnessTexture ← deserializeImage received m.metallicRoughnessTexture
  let diffuseTransmissionTexture ← deserializeImage received m.diffuseTransmissionTexture
  let specularTransmissionTexture ← deserializeImage received m.specularTransmissionTexture
  let thicknessTexture ← deserializeImage received m.thicknessTexture
  let normalMapTexture ← deserializeImage received m.normalMapTexture
  let occlusionTexture ← deserializeImage received m.occlusionTexture
  let specularTexture ← deserializeImage received m.specularTexture
  let specularTintTexture ← deserializeImage received m.specularTintTexture
  let clearcoatTexture ← deserializeImage received m.clearcoatTexture
  let clearcoatRoughnessTexture ← deserializeImage received m.clearcoatRoughnessTexture
  let clearcoatNormalTexture ← deserializeImage received m.clearcoatNormalTexture
  let anisotropyTexture ← deserializeImage received m.anisotropyTexture
  let depthMap ← deserializeImage received m.depthMap
  pure
    { baseColor := m.baseColor
      baseColorChannel := m.baseColorChannel.toChannel
      baseColorTexture
      emissive := m.emissive
      emissiveExposureWeight := m.emissiveExposureWeight
      emissiveChannel := m.emissiveChannel.toChannel
      emissiveTexture
      perceptualRoughness := m.perceptualRoughness
      metallic := m.metallic
      metallicRoughnessChannel := m.metallicRoughnessChannel.toChannel
      metallicRoughnessTexture
      reflectance := m.reflectance
      specularTint := m.specularTint
      diffuseTransmission := m.diffuseTransmission
      diffuseTransmissionChannel := m.diffuseTransmissionChannel.toChannel
      diffuseTransmissionTexture
      specularTransmission := m.specularTransmission
      specularTransmissionChannel := m.specularTransmissionChannel.toChannel
      specularTransmissionTexture
      thickness := m.thickness
      thicknessChannel := m.thicknessChannel.toChannel
      thicknessTexture
      ior := m.ior
      attenuationDistance := m.attenuationDistance
      attenuationColor := m.attenuationColor
      normalMapChannel := m.normalMapChannel.toChannel
      normalMapTexture
      flipNormalMapY := m.flipNormalMapY
      occlusionChannel := m.occlusionChannel.toChannel
      occlusionTexture
      specularChannel := m.specularChannel.toChannel
      specularTexture
      specularTintChannel := m.specularTintChannel.toChannel
      specularTintTexture
      clearcoat := m.clearcoat
      clearcoatChannel := m.clearcoatChannel.toChannel
      clearcoatTexture
      clearcoatPerceptualRoughness := m.clearcoatPerceptualRoughness
      clearcoatRoughnessChannel := m.clearcoatRoughnessChannel.toChannel
      clearcoatRoughnessTexture
      clearcoatNormalChannel := m.clearcoatNormalChannel.toChannel
      clearcoatNormalTexture
      anisotropyStrength := m.anisotropyStrength
      anisotropyRotation := m.anisotropyRotation
      anisotropyChannel := m.anisotropyChannel.toChannel
      anisotropyTexture
      doubleSided := m.doubleSided
      cullMode := m.cullMode
      unlit := m.unlit
      fogEnabled := m.fogEnabled
      alphaMode := m.alphaMode.toMode
      depthBias := m.depthBias
      depthMap
      parallaxDepthScale := m.parallaxDepthScale
      parallaxMappingMethod := m.parallaxMappingMethod.toMethod
      maxParallaxLayerCount := m.maxParallaxLayerCount
      lightmapExposure := m.lightmapExposure
      opaqueRenderMethod := m.opaqueRenderMethod.toMethod
      deferredLightingPassId := m.deferredLightingPassId
      uvTransform := m.uvTransform }

end Rerecast.Transmission
