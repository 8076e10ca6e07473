import Verif.Lemmas.PipelineDetail
/-! A small build, stage by stage: a flat square of 8 times 7 cells made from four strips, with a border of three cells. -/
namespace Rerecast

/-- Exact arithmetic; triangles facing up are walkable. -/
def exEnv : BuildEnv ℚ where
  lo := -1000000
  hi := 1000000
  up := fun _ a b c => decide (0 < (b.z - a.z) * (c.x - a.x) - (b.x - a.x) * (c.z - a.z))
  tests := Tests.exact
  ops := exactOps
  toF := id
  alloc := fun capacity len more => max capacity (len + more)
  fuel := 1000

/-- Cells of size 1 and an agent of height 2 and radius 0. -/
def exBuilder : ConfigBuilder :=
  { cellSize := 1, cellHeight := 1, agentHeight := 2, agentRadius := 0, agentMaxClimb := 1, agentMaxSlope := 1, regionMinSize := 0
    regionMergeSize := 0, edgeMaxLen := 12, edgeMaxError := 13 / 10, vertsPerPoly := 6, detailSampleDist := 6, detailSampleMaxError := 1
    tileSize := 0, aabb := ⟨⟨0, 0, 0⟩, ⟨0, 0, 0⟩⟩, tiling := false }

def exStrip (k : Nat) : List (V3 ℚ) := [⟨2 * k, 0, 0⟩, ⟨2 * k, 0, 7⟩, ⟨2 * k + 2, 0, 7⟩, ⟨2 * k + 2, 0, 0⟩]

/-- Four strips, each a mesh of its own. -/
def exScene : List Affector := (List.range 4).map fun k => ⟨some ⟨true, some (exStrip k), some [0, 1, 2, 0, 2, 3]⟩, id⟩

def exCfg : Config :=
  { width := 0, height := 0, tileSize := 0, borderSize := 3, cellSize := 1, cellHeight := 1, aabb := ⟨⟨0, 0, 0⟩, ⟨0, 0, 0⟩⟩
    walkableSlopeAngle := 1, walkableHeight := 2, walkableClimb := 1, walkableRadius := 0, maxEdgeLen := 12
    maxSimplificationError := 13 / 10, minRegionArea := 0, mergeRegionArea := 0, maxVerticesPerPolygon := 6, detailSampleDist := 6
    detailSampleMaxError := 1 }

def exFr : Frame := ⟨⟨⟨0, 0, 0⟩, ⟨8, 0, 7⟩⟩, 1, 1⟩

def exM : TriMesh ℚ :=
  ⟨(List.range 4).flatMap exStrip, (List.range 4).flatMap fun k => [(4 * k, 4 * k + 1, 4 * k + 2), (4 * k, 4 * k + 2, 4 * k + 3)],
    List.replicate 8 255⟩

/-- A field of flat spans, from the numbers of the spans of the cells and their kinds (0: removed, 1: not walkable, 2: walkable). -/
def exHf (s a : List Nat) : Heightfield :=
  { width := 8, height := 7, spans := s.map fun k => if k = 0 then none else some (k - 1)
    allocated := a.map fun k => if k = 0 then none else some ⟨0, 1, if k = 1 then 0 else 255, none⟩ }

def exHf1 : Heightfield :=
  exHf [1, 0, 0, 0, 0, 0, 0, 0, 2, 0, 0, 0, 0, 0, 0, 0, 3, 0, 0, 0, 0, 0, 0, 0, 4, 5, 0, 0, 0, 0, 0, 0, 6, 7, 0, 0, 0, 0, 0, 0, 8, 9, 0, 0, 0,
    0, 0, 0, 10, 11, 0, 0, 0, 0, 0, 0]
    [2, 2, 2, 2, 2, 2, 2, 2, 2, 2, 2]

def exHf2 : Heightfield :=
  exHf [12, 13, 0, 0, 0, 0, 0, 0, 14, 15, 0, 0, 0, 0, 0, 0, 16, 17, 0, 0, 0, 0, 0, 0, 18, 19, 0, 0, 0, 0, 0, 0, 6, 20, 0, 0, 0, 0, 0, 0, 8,
    21, 0, 0, 0, 0, 0, 0, 10, 22, 0, 0, 0, 0, 0, 0]
    [0, 0, 0, 0, 0, 2, 0, 2, 0, 2, 0, 2, 2, 2, 2, 2, 2, 2, 2, 2, 2, 2]

def exHf3 : Heightfield :=
  exHf [12, 13, 23, 0, 0, 0, 0, 0, 14, 15, 24, 0, 0, 0, 0, 0, 16, 17, 25, 0, 0, 0, 0, 0, 18, 19, 26, 27, 0, 0, 0, 0, 6, 20, 28, 29, 0, 0, 0,
    0, 8, 21, 30, 31, 0, 0, 0, 0, 10, 22, 32, 33, 0, 0, 0, 0]
    [0, 0, 0, 0, 0, 2, 0, 2, 0, 2, 0, 2, 2, 2, 2, 2, 2, 2, 2, 2, 2, 2, 2, 2, 2, 2, 2, 2, 2, 2, 2, 2, 2]

def exHf4 : Heightfield :=
  exHf [12, 13, 34, 35, 0, 0, 0, 0, 14, 15, 36, 37, 0, 0, 0, 0, 16, 17, 38, 39, 0, 0, 0, 0, 18, 19, 40, 41, 0, 0, 0, 0, 6, 20, 28, 42, 0, 0,
    0, 0, 8, 21, 30, 43, 0, 0, 0, 0, 10, 22, 32, 44, 0, 0, 0, 0]
    [0, 0, 0, 0, 0, 2, 0, 2, 0, 2, 0, 2, 2, 2, 2, 2, 2, 2, 2, 2, 2, 2, 0, 0, 0, 0, 0, 2, 0, 2, 0, 2, 0, 2, 2, 2, 2, 2, 2, 2, 2, 2, 2, 2]

def exHf5 : Heightfield :=
  exHf [12, 13, 34, 35, 45, 0, 0, 0, 14, 15, 36, 37, 46, 0, 0, 0, 16, 17, 38, 39, 47, 0, 0, 0, 18, 19, 40, 41, 48, 49, 0, 0, 6, 20, 28, 42,
    50, 51, 0, 0, 8, 21, 30, 43, 52, 53, 0, 0, 10, 22, 32, 44, 54, 55, 0, 0]
    [0, 0, 0, 0, 0, 2, 0, 2, 0, 2, 0, 2, 2, 2, 2, 2, 2, 2, 2, 2, 2, 2, 0, 0, 0, 0, 0, 2, 0, 2, 0, 2, 0, 2, 2, 2, 2, 2, 2, 2, 2, 2, 2, 2, 2,
    2, 2, 2, 2, 2, 2, 2, 2, 2, 2]

def exHf6 : Heightfield :=
  exHf [12, 13, 34, 35, 56, 57, 0, 0, 14, 15, 36, 37, 58, 59, 0, 0, 16, 17, 38, 39, 60, 61, 0, 0, 18, 19, 40, 41, 62, 63, 0, 0, 6, 20, 28, 42,
    50, 64, 0, 0, 8, 21, 30, 43, 52, 65, 0, 0, 10, 22, 32, 44, 54, 66, 0, 0]
    [0, 0, 0, 0, 0, 2, 0, 2, 0, 2, 0, 2, 2, 2, 2, 2, 2, 2, 2, 2, 2, 2, 0, 0, 0, 0, 0, 2, 0, 2, 0, 2, 0, 2, 2, 2, 2, 2, 2, 2, 2, 2, 2, 2, 0,
    0, 0, 0, 0, 2, 0, 2, 0, 2, 0, 2, 2, 2, 2, 2, 2, 2, 2, 2, 2, 2]

def exHf7 : Heightfield :=
  exHf [12, 13, 34, 35, 56, 57, 67, 0, 14, 15, 36, 37, 58, 59, 68, 0, 16, 17, 38, 39, 60, 61, 69, 0, 18, 19, 40, 41, 62, 63, 70, 71, 6, 20,
    28, 42, 50, 64, 72, 73, 8, 21, 30, 43, 52, 65, 74, 75, 10, 22, 32, 44, 54, 66, 76, 77]
    [0, 0, 0, 0, 0, 2, 0, 2, 0, 2, 0, 2, 2, 2, 2, 2, 2, 2, 2, 2, 2, 2, 0, 0, 0, 0, 0, 2, 0, 2, 0, 2, 0, 2, 2, 2, 2, 2, 2, 2, 2, 2, 2, 2, 0,
    0, 0, 0, 0, 2, 0, 2, 0, 2, 0, 2, 2, 2, 2, 2, 2, 2, 2, 2, 2, 2, 2, 2, 2, 2, 2, 2, 2, 2, 2, 2, 2]

def exHf8 : Heightfield :=
  exHf [12, 13, 34, 35, 56, 57, 78, 79, 14, 15, 36, 37, 58, 59, 80, 81, 16, 17, 38, 39, 60, 61, 82, 83, 18, 19, 40, 41, 62, 63, 84, 85, 6, 20,
    28, 42, 50, 64, 72, 86, 8, 21, 30, 43, 52, 65, 74, 87, 10, 22, 32, 44, 54, 66, 76, 88]
    [0, 0, 0, 0, 0, 2, 0, 2, 0, 2, 0, 2, 2, 2, 2, 2, 2, 2, 2, 2, 2, 2, 0, 0, 0, 0, 0, 2, 0, 2, 0, 2, 0, 2, 2, 2, 2, 2, 2, 2, 2, 2, 2, 2, 0,
    0, 0, 0, 0, 2, 0, 2, 0, 2, 0, 2, 2, 2, 2, 2, 2, 2, 2, 2, 2, 2, 0, 0, 0, 0, 0, 2, 0, 2, 0, 2, 0, 2, 2, 2, 2, 2, 2, 2, 2, 2, 2, 2]

def exHf9 : Heightfield :=
  exHf [12, 13, 34, 35, 56, 57, 78, 79, 14, 15, 36, 37, 58, 59, 80, 81, 16, 17, 38, 39, 60, 61, 82, 83, 18, 19, 40, 41, 62, 63, 84, 85, 6, 20,
    28, 42, 50, 64, 72, 86, 8, 21, 30, 43, 52, 65, 74, 87, 10, 22, 32, 44, 54, 66, 76, 88]
    [0, 0, 0, 0, 0, 2, 0, 2, 0, 2, 0, 2, 2, 2, 2, 2, 2, 2, 2, 2, 2, 2, 0, 0, 0, 0, 0, 2, 0, 2, 0, 2, 0, 2, 2, 2, 2, 2, 2, 2, 2, 2, 2, 2, 0,
    0, 0, 0, 0, 2, 0, 2, 0, 2, 0, 2, 2, 2, 2, 2, 2, 2, 2, 2, 2, 2, 0, 0, 0, 0, 0, 2, 0, 2, 0, 2, 0, 2, 2, 2, 2, 2, 2, 2, 2, 2, 2, 2]

def exHf10 : Heightfield :=
  exHf [12, 13, 34, 35, 56, 57, 78, 79, 14, 15, 36, 37, 58, 59, 80, 81, 16, 17, 38, 39, 60, 61, 82, 83, 18, 19, 40, 41, 62, 63, 84, 85, 6, 20,
    28, 42, 50, 64, 72, 86, 8, 21, 30, 43, 52, 65, 74, 87, 10, 22, 32, 44, 54, 66, 76, 88]
    [0, 0, 0, 0, 0, 1, 0, 1, 0, 1, 0, 1, 1, 1, 2, 1, 2, 1, 2, 2, 2, 1, 0, 0, 0, 0, 0, 2, 0, 2, 0, 1, 0, 1, 1, 2, 2, 2, 2, 2, 2, 2, 2, 1, 0,
    0, 0, 0, 0, 2, 0, 2, 0, 1, 0, 1, 1, 2, 2, 2, 2, 2, 2, 2, 2, 1, 0, 0, 0, 0, 0, 2, 0, 2, 0, 1, 0, 1, 1, 2, 1, 2, 1, 2, 1, 1, 1, 1]

def exHf11 : Heightfield :=
  exHf [12, 13, 34, 35, 56, 57, 78, 79, 14, 15, 36, 37, 58, 59, 80, 81, 16, 17, 38, 39, 60, 61, 82, 83, 18, 19, 40, 41, 62, 63, 84, 85, 6, 20,
    28, 42, 50, 64, 72, 86, 8, 21, 30, 43, 52, 65, 74, 87, 10, 22, 32, 44, 54, 66, 76, 88]
    [0, 0, 0, 0, 0, 1, 0, 1, 0, 1, 0, 1, 1, 1, 2, 1, 2, 1, 2, 2, 2, 1, 0, 0, 0, 0, 0, 2, 0, 2, 0, 1, 0, 1, 1, 2, 2, 2, 2, 2, 2, 2, 2, 1, 0,
    0, 0, 0, 0, 2, 0, 2, 0, 1, 0, 1, 1, 2, 2, 2, 2, 2, 2, 2, 2, 1, 0, 0, 0, 0, 0, 2, 0, 2, 0, 1, 0, 1, 1, 2, 1, 2, 1, 2, 1, 1, 1, 1]

def exChf : CompactHeightfield where
  width := 8
  height := 7
  walkableHeight := 2
  walkableClimb := 1
  borderSize := 3
  maxDistance := 4
  maxRegion := 6
  cells := [⟨0, 0⟩, ⟨0, 0⟩, ⟨0, 0⟩, ⟨0, 0⟩, ⟨0, 0⟩, ⟨0, 0⟩, ⟨0, 0⟩, ⟨0, 0⟩, ⟨0, 0⟩, ⟨0, 1⟩, ⟨1, 1⟩, ⟨2, 1⟩, ⟨3, 1⟩, ⟨4, 1⟩, ⟨5, 1⟩, ⟨6, 0⟩,
    ⟨6, 0⟩, ⟨6, 1⟩, ⟨7, 1⟩, ⟨8, 1⟩, ⟨9, 1⟩, ⟨10, 1⟩, ⟨11, 1⟩, ⟨12, 0⟩, ⟨12, 0⟩, ⟨12, 1⟩, ⟨13, 1⟩, ⟨14, 1⟩, ⟨15, 1⟩, ⟨16, 1⟩, ⟨17, 1⟩,
    ⟨18, 0⟩, ⟨18, 0⟩, ⟨18, 1⟩, ⟨19, 1⟩, ⟨20, 1⟩, ⟨21, 1⟩, ⟨22, 1⟩, ⟨23, 1⟩, ⟨24, 0⟩, ⟨24, 0⟩, ⟨24, 1⟩, ⟨25, 1⟩, ⟨26, 1⟩, ⟨27, 1⟩, ⟨28, 1⟩,
    ⟨29, 1⟩, ⟨30, 0⟩, ⟨30, 0⟩, ⟨30, 0⟩, ⟨30, 0⟩, ⟨30, 0⟩, ⟨30, 0⟩, ⟨30, 0⟩, ⟨30, 0⟩, ⟨30, 0⟩]
  spans := [⟨1, 32771, 0xfffc003f⟩, ⟨1, 32771, 0xfffc0000⟩, ⟨1, 32771, 0xfffc0000⟩, ⟨1, 32771, 0xfffc0000⟩, ⟨1, 32771, 0xfffc0000⟩,
    ⟨1, 32771, 0xfffff000⟩, ⟨1, 32771, 0xff00003f⟩, ⟨1, 32771, 0xff000000⟩, ⟨1, 32771, 0xff000000⟩, ⟨1, 32771, 0xff000000⟩,
    ⟨1, 32771, 0xff000000⟩, ⟨1, 32771, 0xff03f000⟩, ⟨1, 32769, 0xff00003f⟩, ⟨1, 32769, 0xff000000⟩, ⟨1, 5, 0xff000000⟩, ⟨1, 5, 0xff000000⟩,
    ⟨1, 32770, 0xff000000⟩, ⟨1, 32770, 0xff03f000⟩, ⟨1, 32772, 0xff00003f⟩, ⟨1, 32772, 0xff000000⟩, ⟨1, 32772, 0xff000000⟩,
    ⟨1, 32772, 0xff000000⟩, ⟨1, 32772, 0xff000000⟩, ⟨1, 32772, 0xff03f000⟩, ⟨1, 32772, 0xff000fff⟩, ⟨1, 32772, 0xff000fc0⟩,
    ⟨1, 32772, 0xff000fc0⟩, ⟨1, 32772, 0xff000fc0⟩, ⟨1, 32772, 0xff000fc0⟩, ⟨1, 32772, 0xff03ffc0⟩]
  dist := [0, 0, 0, 0, 0, 0, 0, 2, 2, 2, 2, 0, 0, 2, 3, 3, 2, 0, 0, 2, 2, 2, 2, 0, 0, 0, 0, 0, 0, 0]
  areas := [255, 255, 255, 255, 255, 255, 255, 255, 255, 255, 255, 255, 255, 255, 255, 255, 255, 255, 255, 255, 255, 255, 255, 255, 255, 255, 255,
    255, 255, 255]

def exSet : ContourSet :=
  ⟨[⟨[(⟨0, 1, 1⟩, 32772), (⟨2, 1, 1⟩, 32770), (⟨2, 1, 0⟩, 32771), (⟨0, 1, 0⟩, 32769)],
    [(⟨0, 1, 1⟩, 32769), (⟨1, 1, 1⟩, 98308), (⟨2, 1, 1⟩, 32772), (⟨2, 1, 0⟩, 32770), (⟨1, 1, 0⟩, 98307), (⟨0, 1, 0⟩, 32771)], 5, 255⟩], 2, 1, 3⟩

def exPoly : PolygonNavmesh where
  vertices := [⟨0, 1, 1⟩, ⟨2, 1, 1⟩, ⟨2, 1, 0⟩, ⟨0, 1, 0⟩]
  polygons := [0, 1, 2, 3, 65535, 65535]
  polygonNeighbors := [32769, 32770, 32771, 32768, 65535, 65535]
  flags := [0]
  regions := [5, 0]
  areas := [255]
  nvp := 6

def exDetail : DetailNavmesh ℚ :=
  ⟨[⟨0, 4, 0, 2⟩], [⟨3, 2, 4⟩, ⟨5, 2, 4⟩, ⟨5, 2, 3⟩, ⟨3, 2, 3⟩], [(3, 0, 2), (0, 1, 2)], [17, 5]⟩

set_option maxRecDepth 100000

theorem ex_config : exBuilder.build = .ok exCfg := by decide +kernel

theorem ex_input : buildInput exEnv exCfg exScene = .ok (exM, exFr) := by decide +kernel

theorem ex_step0 : rasterizeMeshStep exFr exM 1 (Heightfield.new 8 7) 0 = .ok exHf1 := by decide +kernel
theorem ex_step1 : rasterizeMeshStep exFr exM 1 exHf1 1 = .ok exHf2 := by decide +kernel
theorem ex_step2 : rasterizeMeshStep exFr exM 1 exHf2 2 = .ok exHf3 := by decide +kernel
theorem ex_step3 : rasterizeMeshStep exFr exM 1 exHf3 3 = .ok exHf4 := by decide +kernel
theorem ex_step4 : rasterizeMeshStep exFr exM 1 exHf4 4 = .ok exHf5 := by decide +kernel
theorem ex_step5 : rasterizeMeshStep exFr exM 1 exHf5 5 = .ok exHf6 := by decide +kernel
theorem ex_step6 : rasterizeMeshStep exFr exM 1 exHf6 6 = .ok exHf7 := by decide +kernel
theorem ex_step7 : rasterizeMeshStep exFr exM 1 exHf7 7 = .ok exHf8 := by decide +kernel
theorem ex_filters : (do
    let hf ← exHf8.filterLowHangingWalkableObstacles 1
    let hf ← hf.filterLedgeSpans 2 1
    hf.filterWalkableLowHeightSpans 2) = .ok exHf11 := by decide +kernel

theorem ex_solid : buildSolid exCfg exM exFr = .ok exHf11 := by
  have hnew : exFr.buildHeightfield = .ok (Heightfield.new 8 7) := by decide +kernel
  have hr : rasterizeTriangles exFr (Heightfield.new 8 7) exM 1 = .ok exHf8 := by
    unfold rasterizeTriangles
    rw [show List.range exM.indices.length = [0, 1, 2, 3, 4, 5, 6, 7] by decide +kernel]
    simp only [List.foldlM_cons, List.foldlM_nil, ex_step0, ex_step1, ex_step2, ex_step3, ex_step4, ex_step5, ex_step6, ex_step7, bind_ok]
    rfl
  unfold buildSolid
  rw [hnew, bind_ok, show exCfg.walkableClimb = 1 from rfl, show exCfg.walkableHeight = 2 from rfl, hr, bind_ok]
  exact ex_filters

theorem ex_compact : buildCompact exCfg exHf11 = .ok exChf := by decide +kernel

theorem ex_contours : exChf.buildContours (exEnv.tests exCfg.maxSimplificationError) exCfg.maxEdgeLen ⟨true, false⟩ = .ok exSet := by
  decide +kernel

theorem ex_mesh : exSet.intoPolygonMesh exEnv.fuel exCfg.maxVerticesPerPolygon = .ok exPoly := by decide +kernel

theorem ex_detail : detailNavmesh exEnv.ops exEnv.alloc (detailConfig exEnv exCfg exFr exSet.borderSize) exPoly exChf = .ok exDetail := by
  decide +kernel

theorem ex_stages : MeshStages exEnv exBuilder ⟨true, false⟩ exScene exCfg exM exFr exHf11 exChf exSet exPoly :=
  ⟨⟨ex_config, ex_input, ex_solid, ex_compact⟩, ex_contours, ex_mesh⟩

theorem ex_build : buildNavmesh exEnv exBuilder ⟨true, false⟩ exScene = .ok (exPoly, exDetail) := by
  unfold buildNavmesh buildMeshes
  rw [ex_config, bind_ok, ex_input, bind_ok]
  simp only
  rw [ex_solid, bind_ok, ex_compact, bind_ok, ex_contours, bind_ok, ex_mesh, bind_ok, ex_detail, bind_ok]

end Rerecast
