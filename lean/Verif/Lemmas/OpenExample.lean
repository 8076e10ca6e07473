import Verif.Lemmas.PipelineExample
/-! Another small build, stage by stage: a flat square of nine by nine cells, with a border of three cells, so that the mesh is over three by three
cells in the middle. -/
namespace Rerecast

def ogBuilder : ConfigBuilder := { exBuilder with edgeMaxError := 1 / 5 }

def ogSquare : List (V3 ℚ) := [⟨0, 0, 0⟩, ⟨0, 0, 9⟩, ⟨9, 0, 9⟩, ⟨9, 0, 0⟩]

/-- One square, in one mesh. -/
def ogScene : List Affector := [⟨some ⟨true, some ogSquare, some [0, 1, 2, 0, 2, 3]⟩, id⟩]

def ogCfg : Config := { exCfg with maxSimplificationError := 1 / 5 }

def ogFr : Frame := ⟨⟨⟨0, 0, 0⟩, ⟨9, 0, 9⟩⟩, 1, 1⟩

def ogM : TriMesh ℚ := ⟨ogSquare, [(0, 1, 2), (0, 2, 3)], [255, 255]⟩

/-- A field of flat spans, as in `exHf`. -/
def ogHf (s a : List Nat) : Heightfield := { exHf s a with width := 9, height := 9 }

def ogHf1 : Heightfield := ogHf [1, 0, 0, 0, 0, 0, 0, 0, 0, 2, 3, 0, 0, 0, 0, 0, 0, 0, 4, 5, 6, 0, 0, 0, 0, 0, 0, 7, 8, 9, 10, 0, 0, 0, 0, 0, 11,
    12, 13, 14, 15, 0, 0, 0, 0, 16, 17, 18, 19, 20, 21, 0, 0, 0, 22, 23, 24, 25, 26, 27, 28, 0, 0, 29, 30, 31, 32, 33, 34, 35, 36, 0, 37, 38, 39,
    40, 41, 42, 43, 44, 45] [2, 2, 2, 2, 2, 2, 2, 2, 2, 2, 2, 2, 2, 2, 2, 2, 2, 2, 2, 2, 2, 2, 2, 2, 2, 2, 2, 2, 2, 2, 2, 2, 2, 2, 2, 2, 2, 2, 2,
    2, 2, 2, 2, 2, 2]

def ogHf2 : Heightfield := ogHf [46, 47, 48, 49, 50, 51, 52, 53, 54, 2, 55, 56, 57, 58, 59, 60, 61, 62, 4, 5, 63, 64, 65, 66, 67, 68, 69, 7, 8, 9,
    70, 71, 72, 73, 74, 75, 11, 12, 13, 14, 76, 77, 78, 79, 80, 16, 17, 18, 19, 20, 81, 82, 83, 84, 22, 23, 24, 25, 26, 27, 85, 86, 87, 29, 30,
    31, 32, 33, 34, 35, 88, 89, 37, 38, 39, 40, 41, 42, 43, 44, 90] [0, 2, 0, 2, 2, 0, 2, 2, 2, 0, 2, 2, 2, 2, 0, 2, 2, 2, 2, 2, 0, 2, 2, 2, 2, 2,
    2, 0, 2, 2, 2, 2, 2, 2, 2, 0, 2, 2, 2, 2, 2, 2, 2, 2, 0, 2, 2, 2, 2, 2, 2, 2, 2, 2, 2, 2, 2, 2, 2, 2, 2, 2, 2, 2, 2, 2, 2, 2, 2, 2, 2, 2, 2,
    2, 2, 2, 2, 2, 2, 2, 2, 2, 2, 2, 2, 2, 2, 2, 2, 2]

def ogHf3 : Heightfield := ogHf [46, 47, 48, 49, 50, 51, 52, 53, 54, 2, 55, 56, 57, 58, 59, 60, 61, 62, 4, 5, 63, 64, 65, 66, 67, 68, 69, 7, 8, 9,
    70, 71, 72, 73, 74, 75, 11, 12, 13, 14, 76, 77, 78, 79, 80, 16, 17, 18, 19, 20, 81, 82, 83, 84, 22, 23, 24, 25, 26, 27, 85, 86, 87, 29, 30,
    31, 32, 33, 34, 35, 88, 89, 37, 38, 39, 40, 41, 42, 43, 44, 90] [0, 1, 0, 1, 2, 0, 1, 2, 2, 0, 1, 2, 2, 2, 0, 1, 2, 2, 2, 2, 0, 1, 2, 2, 2, 2,
    2, 0, 1, 2, 2, 2, 2, 2, 2, 0, 1, 1, 1, 1, 1, 1, 1, 1, 0, 1, 1, 1, 1, 1, 1, 1, 1, 1, 2, 2, 2, 2, 2, 2, 2, 1, 2, 2, 2, 2, 2, 2, 1, 2, 2, 2, 2,
    2, 1, 2, 2, 2, 2, 1, 2, 2, 2, 1, 2, 2, 1, 2, 1, 1]

def ogChf : CompactHeightfield where
  width := 9
  height := 9
  walkableHeight := 2
  walkableClimb := 1
  borderSize := 3
  maxDistance := 6
  maxRegion := 6
  cells := [⟨0, 0⟩, ⟨0, 0⟩, ⟨0, 0⟩, ⟨0, 0⟩, ⟨0, 0⟩, ⟨0, 0⟩, ⟨0, 0⟩, ⟨0, 0⟩, ⟨0, 0⟩, ⟨0, 0⟩, ⟨0, 1⟩, ⟨1, 1⟩, ⟨2, 1⟩, ⟨3, 1⟩, ⟨4, 1⟩, ⟨5, 1⟩, ⟨6,
    1⟩, ⟨7, 0⟩, ⟨7, 0⟩, ⟨7, 1⟩, ⟨8, 1⟩, ⟨9, 1⟩, ⟨10, 1⟩, ⟨11, 1⟩, ⟨12, 1⟩, ⟨13, 1⟩, ⟨14, 0⟩, ⟨14, 0⟩, ⟨14, 1⟩, ⟨15, 1⟩, ⟨16, 1⟩, ⟨17, 1⟩, ⟨18, 1⟩,
    ⟨19, 1⟩, ⟨20, 1⟩, ⟨21, 0⟩, ⟨21, 0⟩, ⟨21, 1⟩, ⟨22, 1⟩, ⟨23, 1⟩, ⟨24, 1⟩, ⟨25, 1⟩, ⟨26, 1⟩, ⟨27, 1⟩, ⟨28, 0⟩, ⟨28, 0⟩, ⟨28, 1⟩, ⟨29, 1⟩, ⟨30,
    1⟩, ⟨31, 1⟩, ⟨32, 1⟩, ⟨33, 1⟩, ⟨34, 1⟩, ⟨35, 0⟩, ⟨35, 0⟩, ⟨35, 1⟩, ⟨36, 1⟩, ⟨37, 1⟩, ⟨38, 1⟩, ⟨39, 1⟩, ⟨40, 1⟩, ⟨41, 1⟩, ⟨42, 0⟩, ⟨42, 0⟩,
    ⟨42, 1⟩, ⟨43, 1⟩, ⟨44, 1⟩, ⟨45, 1⟩, ⟨46, 1⟩, ⟨47, 1⟩, ⟨48, 1⟩, ⟨49, 0⟩, ⟨49, 0⟩, ⟨49, 0⟩, ⟨49, 0⟩, ⟨49, 0⟩, ⟨49, 0⟩, ⟨49, 0⟩, ⟨49, 0⟩, ⟨49,
    0⟩, ⟨49, 0⟩]
  spans := [⟨1, 32771, 0xfffc003f⟩, ⟨1, 32771, 0xfffc0000⟩, ⟨1, 32771, 0xfffc0000⟩, ⟨1, 32771, 0xfffc0000⟩, ⟨1, 32771, 0xfffc0000⟩, ⟨1, 32771,
    0xfffc0000⟩, ⟨1, 32771, 0xfffff000⟩, ⟨1, 32771, 0xff00003f⟩, ⟨1, 32771, 0xff000000⟩, ⟨1, 32771, 0xff000000⟩, ⟨1, 32771, 0xff000000⟩, ⟨1,
    32771, 0xff000000⟩, ⟨1, 32771, 0xff000000⟩, ⟨1, 32771, 0xff03f000⟩, ⟨1, 32769, 0xff00003f⟩, ⟨1, 32769, 0xff000000⟩, ⟨1, 5, 0xff000000⟩, ⟨1, 5,
    0xff000000⟩, ⟨1, 5, 0xff000000⟩, ⟨1, 32770, 0xff000000⟩, ⟨1, 32770, 0xff03f000⟩, ⟨1, 32769, 0xff00003f⟩, ⟨1, 32769, 0xff000000⟩, ⟨1, 5,
    0xff000000⟩, ⟨1, 5, 0xff000000⟩, ⟨1, 5, 0xff000000⟩, ⟨1, 32770, 0xff000000⟩, ⟨1, 32770, 0xff03f000⟩, ⟨1, 32769, 0xff00003f⟩, ⟨1, 32769,
    0xff000000⟩, ⟨1, 5, 0xff000000⟩, ⟨1, 5, 0xff000000⟩, ⟨1, 5, 0xff000000⟩, ⟨1, 32770, 0xff000000⟩, ⟨1, 32770, 0xff03f000⟩, ⟨1, 32772,
    0xff00003f⟩, ⟨1, 32772, 0xff000000⟩, ⟨1, 32772, 0xff000000⟩, ⟨1, 32772, 0xff000000⟩, ⟨1, 32772, 0xff000000⟩, ⟨1, 32772, 0xff000000⟩, ⟨1,
    32772, 0xff03f000⟩, ⟨1, 32772, 0xff000fff⟩, ⟨1, 32772, 0xff000fc0⟩, ⟨1, 32772, 0xff000fc0⟩, ⟨1, 32772, 0xff000fc0⟩, ⟨1, 32772, 0xff000fc0⟩,
    ⟨1, 32772, 0xff000fc0⟩, ⟨1, 32772, 0xff03ffc0⟩]
  dist := [0, 0, 0, 0, 0, 0, 0, 0, 2, 2, 2, 2, 2, 0, 0, 2, 3, 4, 3, 2, 0, 0, 2, 4, 4, 4, 2, 0, 0, 2, 3, 4, 3, 2, 0, 0, 2, 2, 2, 2, 2, 0, 0, 0, 0,
    0, 0, 0, 0]
  areas := [255, 255, 255, 255, 255, 255, 255, 255, 255, 255, 255, 255, 255, 255, 255, 255, 255, 255, 255, 255, 255, 255, 255, 255, 255, 255, 255,
    255, 255, 255, 255, 255, 255, 255, 255, 255, 255, 255, 255, 255, 255, 255, 255, 255, 255, 255, 255, 255, 255]

def ogSet : ContourSet :=
  ⟨[⟨[(⟨0, 1, 3⟩, 32772), (⟨3, 1, 3⟩, 32770), (⟨3, 1, 0⟩, 32771), (⟨0, 1, 0⟩, 32769)], [(⟨0, 1, 1⟩, 98305), (⟨0, 1, 2⟩, 98305), (⟨0, 1, 3⟩,
    32769), (⟨1, 1, 3⟩, 98308), (⟨2, 1, 3⟩, 98308), (⟨3, 1, 3⟩, 32772), (⟨3, 1, 2⟩, 98306), (⟨3, 1, 1⟩, 98306), (⟨3, 1, 0⟩, 32770), (⟨2, 1, 0⟩,
    98307), (⟨1, 1, 0⟩, 98307), (⟨0, 1, 0⟩, 32771)], 5, 255⟩], 3, 3, 3⟩

def ogPoly : PolygonNavmesh where
  vertices := [⟨0, 1, 3⟩, ⟨3, 1, 3⟩, ⟨3, 1, 0⟩, ⟨0, 1, 0⟩]
  polygons := [0, 1, 2, 3, 65535, 65535]
  polygonNeighbors := [32769, 32770, 32771, 32768, 65535, 65535]
  flags := [0]
  regions := [5, 0]
  areas := [255]
  nvp := 6

set_option maxRecDepth 100000

theorem og_config : ogBuilder.build = .ok ogCfg := by decide +kernel
theorem og_input : buildInput exEnv ogCfg ogScene = .ok (ogM, ogFr) := by decide +kernel
theorem og_step0 : rasterizeMeshStep ogFr ogM 1 (Heightfield.new 9 9) 0 = .ok ogHf1 := by decide +kernel
theorem og_step1 : rasterizeMeshStep ogFr ogM 1 ogHf1 1 = .ok ogHf2 := by decide +kernel
theorem og_filters : (do
    let hf ← ogHf2.filterLowHangingWalkableObstacles 1
    let hf ← hf.filterLedgeSpans 2 1
    hf.filterWalkableLowHeightSpans 2) = .ok ogHf3 := by decide +kernel

theorem og_solid : buildSolid ogCfg ogM ogFr = .ok ogHf3 := by
  have hnew : ogFr.buildHeightfield = .ok (Heightfield.new 9 9) := by decide +kernel
  have hr : rasterizeTriangles ogFr (Heightfield.new 9 9) ogM 1 = .ok ogHf2 := by
    unfold rasterizeTriangles
    rw [show List.range ogM.indices.length = [0, 1] by decide +kernel]
    simp only [List.foldlM_cons, List.foldlM_nil, og_step0, og_step1, bind_ok]
    rfl
  unfold buildSolid
  rw [hnew, bind_ok, show ogCfg.walkableClimb = 1 from rfl, show ogCfg.walkableHeight = 2 from rfl, hr, bind_ok]
  exact og_filters

theorem og_compact : buildCompact ogCfg ogHf3 = .ok ogChf := by decide +kernel

theorem og_contours : ogChf.buildContours (exEnv.tests ogCfg.maxSimplificationError) ogCfg.maxEdgeLen ⟨true, false⟩ = .ok ogSet := by
  decide +kernel

theorem og_mesh : ogSet.intoPolygonMesh exEnv.fuel ogCfg.maxVerticesPerPolygon = .ok ogPoly := by decide +kernel

theorem og_stages : MeshStages exEnv ogBuilder ⟨true, false⟩ ogScene ogCfg ogM ogFr ogHf3 ogChf ogSet ogPoly :=
  ⟨⟨og_config, og_input, og_solid, og_compact⟩, og_contours, og_mesh⟩

end Rerecast
