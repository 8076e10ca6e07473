import Verif.Lemmas.PipelineExample
import Verif.Lemmas.RemoveVertex
/-! A build that never ends, stage by stage: an L-shaped floor made of three tiles on a grid of 10 times 9 cells. -/
namespace Rerecast

/-- Two tiles of 5 times 5 cells side by side, and one of 5 times 4 cells below the second. -/
def lTile (k : Nat) : List (V3 ℚ) :=
  if k = 0 then [⟨0, 0, 0⟩, ⟨0, 0, 5⟩, ⟨5, 0, 5⟩, ⟨5, 0, 0⟩]
  else if k = 1 then [⟨5, 0, 0⟩, ⟨5, 0, 5⟩, ⟨10, 0, 5⟩, ⟨10, 0, 0⟩]
  else [⟨5, 0, 5⟩, ⟨5, 0, 9⟩, ⟨10, 0, 9⟩, ⟨10, 0, 5⟩]

/-- Three tiles, each a mesh of its own. -/
def lScene : List Affector := (List.range 3).map fun k => ⟨some ⟨true, some (lTile k), some [0, 1, 2, 0, 2, 3]⟩, id⟩

def lFr : Frame := ⟨⟨⟨0, 0, 0⟩, ⟨10, 0, 9⟩⟩, 1, 1⟩

def lM : TriMesh ℚ :=
  ⟨(List.range 3).flatMap lTile, (List.range 3).flatMap fun k => [(4 * k, 4 * k + 1, 4 * k + 2), (4 * k, 4 * k + 2, 4 * k + 3)],
    List.replicate 6 255⟩

/-- A field of flat spans, from the numbers of the spans of the cells and their kinds (0: removed, 1: not walkable, 2: walkable). -/
def lHf (s a : List Nat) : Heightfield :=
  { width := 10, height := 9, spans := s.map fun k => if k = 0 then none else some (k - 1)
    allocated := a.map fun k => if k = 0 then none else some ⟨0, 1, if k = 1 then 0 else 255, none⟩ }

def lHf1 : Heightfield :=
  lHf [1, 0, 0, 0, 0, 0, 0, 0, 0, 0, 2, 3, 0, 0, 0, 0, 0, 0, 0, 0, 4, 5, 6, 0, 0, 0, 0, 0, 0, 0, 7, 8, 9, 10, 0, 0, 0, 0, 0, 0, 11, 12, 13,
    14, 15, 0, 0, 0, 0, 0, 0, 0, 0, 0, 0, 0, 0, 0, 0, 0, 0, 0, 0, 0, 0, 0, 0, 0, 0, 0, 0, 0, 0, 0, 0, 0, 0, 0, 0, 0, 0, 0, 0, 0, 0, 0, 0,
    0, 0, 0]
    [2, 2, 2, 2, 2, 2, 2, 2, 2, 2, 2, 2, 2, 2, 2]

def lHf2 : Heightfield :=
  lHf [16, 17, 18, 19, 20, 0, 0, 0, 0, 0, 2, 21, 22, 23, 24, 0, 0, 0, 0, 0, 4, 5, 25, 26, 27, 0, 0, 0, 0, 0, 7, 8, 9, 28, 29, 0, 0, 0, 0, 0,
    11, 12, 13, 14, 30, 0, 0, 0, 0, 0, 0, 0, 0, 0, 0, 0, 0, 0, 0, 0, 0, 0, 0, 0, 0, 0, 0, 0, 0, 0, 0, 0, 0, 0, 0, 0, 0, 0, 0, 0, 0, 0, 0,
    0, 0, 0, 0, 0, 0, 0]
    [0, 2, 0, 2, 2, 0, 2, 2, 2, 0, 2, 2, 2, 2, 0, 2, 2, 2, 2, 2, 2, 2, 2, 2, 2, 2, 2, 2, 2, 2]

def lHf3 : Heightfield :=
  lHf [16, 17, 18, 19, 20, 31, 0, 0, 0, 0, 2, 21, 22, 23, 24, 32, 33, 0, 0, 0, 4, 5, 25, 26, 27, 34, 35, 36, 0, 0, 7, 8, 9, 28, 29, 37, 38,
    39, 40, 0, 11, 12, 13, 14, 30, 41, 42, 43, 44, 45, 0, 0, 0, 0, 0, 0, 0, 0, 0, 0, 0, 0, 0, 0, 0, 0, 0, 0, 0, 0, 0, 0, 0, 0, 0, 0, 0, 0,
    0, 0, 0, 0, 0, 0, 0, 0, 0, 0, 0, 0]
    [0, 2, 0, 2, 2, 0, 2, 2, 2, 0, 2, 2, 2, 2, 0, 2, 2, 2, 2, 2, 2, 2, 2, 2, 2, 2, 2, 2, 2, 2, 2, 2, 2, 2, 2, 2, 2, 2, 2, 2, 2, 2, 2, 2, 2]

def lHf4 : Heightfield :=
  lHf [16, 17, 18, 19, 20, 46, 47, 48, 49, 50, 2, 21, 22, 23, 24, 32, 51, 52, 53, 54, 4, 5, 25, 26, 27, 34, 35, 55, 56, 57, 7, 8, 9, 28, 29,
    37, 38, 39, 58, 59, 11, 12, 13, 14, 30, 41, 42, 43, 44, 60, 0, 0, 0, 0, 0, 0, 0, 0, 0, 0, 0, 0, 0, 0, 0, 0, 0, 0, 0, 0, 0, 0, 0, 0, 0,
    0, 0, 0, 0, 0, 0, 0, 0, 0, 0, 0, 0, 0, 0, 0]
    [0, 2, 0, 2, 2, 0, 2, 2, 2, 0, 2, 2, 2, 2, 0, 2, 2, 2, 2, 2, 2, 2, 2, 2, 2, 2, 2, 2, 2, 2, 0, 2, 0, 2, 2, 0, 2, 2, 2, 0, 2, 2, 2, 2, 0,
    2, 2, 2, 2, 2, 2, 2, 2, 2, 2, 2, 2, 2, 2, 2]

def lHf5 : Heightfield :=
  lHf [16, 17, 18, 19, 20, 46, 47, 48, 49, 50, 2, 21, 22, 23, 24, 32, 51, 52, 53, 54, 4, 5, 25, 26, 27, 34, 35, 55, 56, 57, 7, 8, 9, 28, 29,
    37, 38, 39, 58, 59, 11, 12, 13, 14, 30, 41, 42, 43, 44, 60, 0, 0, 0, 0, 0, 61, 62, 0, 0, 0, 0, 0, 0, 0, 0, 63, 64, 65, 0, 0, 0, 0, 0,
    0, 0, 66, 67, 68, 69, 0, 0, 0, 0, 0, 0, 70, 71, 72, 73, 74]
    [0, 2, 0, 2, 2, 0, 2, 2, 2, 0, 2, 2, 2, 2, 0, 2, 2, 2, 2, 2, 2, 2, 2, 2, 2, 2, 2, 2, 2, 2, 0, 2, 0, 2, 2, 0, 2, 2, 2, 0, 2, 2, 2, 2, 0,
    2, 2, 2, 2, 2, 2, 2, 2, 2, 2, 2, 2, 2, 2, 2, 2, 2, 2, 2, 2, 2, 2, 2, 2, 2, 2, 2, 2, 2]

def lHf6 : Heightfield :=
  lHf [16, 17, 18, 19, 20, 46, 47, 48, 49, 50, 2, 21, 22, 23, 24, 32, 51, 52, 53, 54, 4, 5, 25, 26, 27, 34, 35, 55, 56, 57, 7, 8, 9, 28, 29,
    37, 38, 39, 58, 59, 11, 12, 13, 14, 30, 41, 42, 43, 44, 60, 0, 0, 0, 0, 0, 75, 76, 77, 78, 79, 0, 0, 0, 0, 0, 63, 80, 81, 82, 83, 0, 0,
    0, 0, 0, 66, 67, 84, 85, 86, 0, 0, 0, 0, 0, 70, 71, 72, 87, 88]
    [0, 2, 0, 2, 2, 0, 2, 2, 2, 0, 2, 2, 2, 2, 0, 2, 2, 2, 2, 2, 2, 2, 2, 2, 2, 2, 2, 2, 2, 2, 0, 2, 0, 2, 2, 0, 2, 2, 2, 0, 2, 2, 2, 2, 0,
    2, 2, 2, 2, 2, 2, 2, 2, 2, 2, 2, 2, 2, 2, 2, 0, 0, 2, 0, 0, 2, 2, 0, 0, 2, 2, 2, 0, 0, 2, 2, 2, 2, 2, 2, 2, 2, 2, 2, 2, 2, 2, 2]

def lHf7 : Heightfield :=
  lHf [16, 17, 18, 19, 20, 46, 47, 48, 49, 50, 2, 21, 22, 23, 24, 32, 51, 52, 53, 54, 4, 5, 25, 26, 27, 34, 35, 55, 56, 57, 7, 8, 9, 28, 29,
    37, 38, 39, 58, 59, 11, 12, 13, 14, 30, 41, 42, 43, 44, 60, 0, 0, 0, 0, 0, 75, 76, 77, 78, 79, 0, 0, 0, 0, 0, 63, 80, 81, 82, 83, 0, 0,
    0, 0, 0, 66, 67, 84, 85, 86, 0, 0, 0, 0, 0, 70, 71, 72, 87, 88]
    [0, 1, 0, 1, 2, 0, 1, 2, 2, 0, 1, 1, 1, 1, 0, 1, 1, 1, 1, 1, 2, 2, 2, 2, 2, 2, 2, 2, 2, 1, 0, 2, 0, 2, 2, 0, 2, 2, 2, 0, 2, 2, 2, 2, 0,
    1, 1, 1, 1, 1, 2, 2, 2, 1, 2, 2, 1, 2, 1, 1, 0, 0, 1, 0, 0, 1, 2, 0, 0, 1, 1, 1, 0, 0, 1, 2, 2, 2, 1, 2, 2, 2, 1, 2, 2, 1, 1, 1]

def lChf : CompactHeightfield where
  width := 10
  height := 9
  walkableHeight := 2
  walkableClimb := 1
  borderSize := 3
  maxDistance := 3
  maxRegion := 8
  cells := [⟨0, 0⟩, ⟨0, 0⟩, ⟨0, 0⟩, ⟨0, 0⟩, ⟨0, 0⟩, ⟨0, 0⟩, ⟨0, 0⟩, ⟨0, 0⟩, ⟨0, 0⟩, ⟨0, 0⟩, ⟨0, 0⟩, ⟨0, 1⟩, ⟨1, 1⟩, ⟨2, 1⟩, ⟨3, 1⟩, ⟨4, 1⟩,
    ⟨5, 1⟩, ⟨6, 1⟩, ⟨7, 1⟩, ⟨8, 0⟩, ⟨8, 0⟩, ⟨8, 1⟩, ⟨9, 1⟩, ⟨10, 1⟩, ⟨11, 1⟩, ⟨12, 1⟩, ⟨13, 1⟩, ⟨14, 1⟩, ⟨15, 1⟩, ⟨16, 0⟩, ⟨16, 0⟩,
    ⟨16, 1⟩, ⟨17, 1⟩, ⟨18, 1⟩, ⟨19, 1⟩, ⟨20, 1⟩, ⟨21, 1⟩, ⟨22, 1⟩, ⟨23, 1⟩, ⟨24, 0⟩, ⟨24, 0⟩, ⟨24, 0⟩, ⟨24, 0⟩, ⟨24, 0⟩, ⟨24, 0⟩, ⟨24, 1⟩,
    ⟨25, 1⟩, ⟨26, 1⟩, ⟨27, 1⟩, ⟨28, 0⟩, ⟨0, 0⟩, ⟨0, 0⟩, ⟨0, 0⟩, ⟨0, 0⟩, ⟨0, 0⟩, ⟨28, 0⟩, ⟨28, 1⟩, ⟨29, 1⟩, ⟨30, 1⟩, ⟨31, 0⟩, ⟨0, 0⟩,
    ⟨0, 0⟩, ⟨0, 0⟩, ⟨0, 0⟩, ⟨0, 0⟩, ⟨31, 0⟩, ⟨31, 1⟩, ⟨32, 1⟩, ⟨33, 1⟩, ⟨34, 0⟩, ⟨0, 0⟩, ⟨0, 0⟩, ⟨0, 0⟩, ⟨0, 0⟩, ⟨0, 0⟩, ⟨34, 0⟩, ⟨34, 1⟩,
    ⟨35, 1⟩, ⟨36, 1⟩, ⟨37, 0⟩, ⟨0, 0⟩, ⟨0, 0⟩, ⟨0, 0⟩, ⟨0, 0⟩, ⟨0, 0⟩, ⟨37, 0⟩, ⟨37, 0⟩, ⟨37, 0⟩, ⟨37, 0⟩, ⟨37, 0⟩]
  spans := [⟨1, 32771, 0xfffc003f⟩, ⟨1, 32771, 0xfffc0000⟩, ⟨1, 32771, 0xfffc0000⟩, ⟨1, 32771, 0xfffc0000⟩, ⟨1, 32771, 0xfffc0000⟩,
    ⟨1, 32771, 0xfffc0000⟩, ⟨1, 32771, 0xfffc0000⟩, ⟨1, 32771, 0xfffff000⟩, ⟨1, 32771, 0xff00003f⟩, ⟨1, 32771, 0xff000000⟩,
    ⟨1, 32771, 0xff000000⟩, ⟨1, 32771, 0xff000000⟩, ⟨1, 32771, 0xff000000⟩, ⟨1, 32771, 0xff000000⟩, ⟨1, 32771, 0xff000000⟩,
    ⟨1, 32771, 0xff03f000⟩, ⟨1, 32769, 0xff000fff⟩, ⟨1, 32769, 0xff000fc0⟩, ⟨1, 5, 0xff000fc0⟩, ⟨1, 5, 0xff000fc0⟩, ⟨1, 6, 0xff000000⟩,
    ⟨1, 6, 0xff000000⟩, ⟨1, 32770, 0xff000000⟩, ⟨1, 32770, 0xff03f000⟩, ⟨1, 6, 0xff000fff⟩, ⟨1, 6, 0xff000000⟩, ⟨1, 32770, 0xff000000⟩,
    ⟨1, 32770, 0xff03f000⟩, ⟨1, 7, 0xff00003f⟩, ⟨1, 32770, 0xff000000⟩, ⟨1, 32770, 0xff03f000⟩, ⟨1, 32772, 0xff00003f⟩,
    ⟨1, 32772, 0xff000000⟩, ⟨1, 32772, 0xff03f000⟩, ⟨1, 32772, 0xff000fff⟩, ⟨1, 32772, 0xff000fc0⟩, ⟨1, 32772, 0xff03ffc0⟩]
  dist := [0, 0, 0, 0, 0, 0, 0, 0, 0, 2, 2, 2, 2, 2, 2, 0, 0, 0, 0, 0, 2, 2, 2, 0, 0, 2, 2, 0, 0, 2, 0, 0, 2, 0, 0, 0, 0]
  areas := [255, 255, 255, 255, 255, 255, 255, 255, 255, 255, 255, 255, 255, 255, 255, 255, 255, 255, 255, 255, 255, 255, 255, 255, 255, 255, 255,
    255, 255, 255, 255, 255, 255, 255, 255, 255, 255]

def lSet : ContourSet :=
  ⟨[⟨[(⟨0, 1, 1⟩, 0), (⟨2, 1, 1⟩, 6), (⟨2, 1, 0⟩, 98307), (⟨0, 1, 0⟩, 32769)],
    [(⟨0, 1, 1⟩, 32769), (⟨1, 1, 1⟩, 0), (⟨2, 1, 1⟩, 0), (⟨2, 1, 0⟩, 65542), (⟨1, 1, 0⟩, 98307), (⟨0, 1, 0⟩, 32771)], 5, 255⟩,
    ⟨[(⟨2, 1, 1⟩, 0), (⟨3, 1, 2⟩, 7), (⟨4, 1, 2⟩, 98306), (⟨4, 1, 0⟩, 32771), (⟨2, 1, 0⟩, 65541)],
    [(⟨2, 1, 1⟩, 5), (⟨2, 1, 2⟩, 0), (⟨3, 1, 2⟩, 0), (⟨4, 1, 2⟩, 65543), (⟨4, 1, 1⟩, 98306), (⟨4, 1, 0⟩, 32770), (⟨3, 1, 0⟩, 98307),
      (⟨2, 1, 0⟩, 98307)], 6, 255⟩], 4, 3, 3⟩

def lMesh : Mesh :=
  ⟨[⟨0, 1, 1⟩, ⟨2, 1, 1⟩, ⟨2, 1, 0⟩, ⟨0, 1, 0⟩, ⟨3, 1, 2⟩, ⟨4, 1, 2⟩, ⟨4, 1, 0⟩],
    [⟨[0, 1, 2, 3, 65535, 65535], [65535, 65535, 65535, 65535, 65535, 65535]⟩,
      ⟨[1, 4, 5, 6, 2, 65535], [65535, 65535, 65535, 65535, 65535, 65535]⟩], 2, [5, 6, 0, 0, 0], [255, 255, 0, 0, 0]⟩

set_option maxRecDepth 100000

theorem l_input : buildInput exEnv exCfg lScene = .ok (lM, lFr) := by decide +kernel

theorem l_step0 : rasterizeMeshStep lFr lM 1 (Heightfield.new 10 9) 0 = .ok lHf1 := by decide +kernel
theorem l_step1 : rasterizeMeshStep lFr lM 1 lHf1 1 = .ok lHf2 := by decide +kernel
theorem l_step2 : rasterizeMeshStep lFr lM 1 lHf2 2 = .ok lHf3 := by decide +kernel
theorem l_step3 : rasterizeMeshStep lFr lM 1 lHf3 3 = .ok lHf4 := by decide +kernel
theorem l_step4 : rasterizeMeshStep lFr lM 1 lHf4 4 = .ok lHf5 := by decide +kernel
theorem l_step5 : rasterizeMeshStep lFr lM 1 lHf5 5 = .ok lHf6 := by decide +kernel
theorem l_filters : (do
    let hf ← lHf6.filterLowHangingWalkableObstacles 1
    let hf ← hf.filterLedgeSpans 2 1
    hf.filterWalkableLowHeightSpans 2) = .ok lHf7 := by decide +kernel

theorem l_solid : buildSolid exCfg lM lFr = .ok lHf7 := by
  have hnew : lFr.buildHeightfield = .ok (Heightfield.new 10 9) := by decide +kernel
  have hr : rasterizeTriangles lFr (Heightfield.new 10 9) lM 1 = .ok lHf6 := by
    unfold rasterizeTriangles
    rw [show List.range lM.indices.length = [0, 1, 2, 3, 4, 5] by decide +kernel]
    simp only [List.foldlM_cons, List.foldlM_nil, l_step0, l_step1, l_step2, l_step3, l_step4, l_step5, bind_ok]
    rfl
  unfold buildSolid
  rw [hnew, bind_ok, show exCfg.walkableClimb = 1 from rfl, show exCfg.walkableHeight = 2 from rfl, hr, bind_ok]
  exact l_filters

theorem l_compact : buildCompact exCfg lHf7 = .ok lChf := by decide +kernel

theorem l_contours : lChf.buildContours (exEnv.tests exCfg.maxSimplificationError) exCfg.maxEdgeLen ⟨true, false⟩ = .ok lSet := by
  decide +kernel

theorem l_remove (fuel : Nat) : removeVertex fuel 9 6 5 lMesh 5 = .error .diverge := by
  have h1 : removeVertex fuel 9 6 5 lMesh 5 = fillHole fuel 9 6 5 6
      ⟨[⟨0, 1, 1⟩, ⟨2, 1, 1⟩, ⟨2, 1, 0⟩, ⟨0, 1, 0⟩, ⟨3, 1, 2⟩, ⟨4, 1, 0⟩], lMesh.slots, 1, [5, 6, 0, 0, 0], [255, 255, 0, 0, 0]⟩
      [⟨2, 1, 6, 255⟩, ⟨65534, 4, 6, 255⟩, ⟨65534, 5, 6, 255⟩, ⟨65534, 2, 6, 255⟩] := by
    unfold removeVertex
    have e1 : collectHole 6 5 (((lMesh.slots.take lMesh.npolys).map fun s => (s.poly 6).count 5).sum * 6) (lMesh.npolys + 1) 0 lMesh [] =
        .ok ({ lMesh with npolys := 1 }, [⟨2, 1, 6, 255⟩, ⟨65535, 4, 6, 255⟩, ⟨65535, 6, 6, 255⟩, ⟨65535, 2, 6, 255⟩]) := by decide +kernel
    have e2 : dropVertex 6 5 { lMesh with npolys := 1 } =
        .ok ⟨[⟨0, 1, 1⟩, ⟨2, 1, 1⟩, ⟨2, 1, 0⟩, ⟨0, 1, 0⟩, ⟨3, 1, 2⟩, ⟨4, 1, 0⟩], lMesh.slots, 1, [5, 6, 0, 0, 0], [255, 255, 0, 0, 0]⟩ := by
      decide +kernel
    dsimp only
    rw [e1, bind_ok]
    dsimp only
    rw [e2, bind_ok]
    rfl
  rw [h1]
  unfold fillHole
  dsimp only
  rw [if_neg (by decide)]
  have h2 : ∀ f : Nat, holeLoop 6 f 5 ⟨[⟨2, 1, 6, 255⟩, ⟨65534, 4, 6, 255⟩, ⟨65534, 5, 6, 255⟩, ⟨65534, 2, 6, 255⟩, ⟨0, 0, 0, 0⟩, ⟨0, 0, 0, 0⟩], 4,
      [(2, 6, 255)], false⟩ = .error .diverge := by
    intro f
    match f with
    | 0 => decide +kernel
    | 1 => decide +kernel
    | f + 2 =>
      unfold holeLoop
      rw [if_pos (by decide)]
      have e : holeScan 6 (f + 2) ⟨[⟨2, 1, 6, 255⟩, ⟨65534, 4, 6, 255⟩, ⟨65534, 5, 6, 255⟩, ⟨65534, 2, 6, 255⟩, ⟨0, 0, 0, 0⟩, ⟨0, 0, 0, 0⟩], 4,
          [(2, 6, 255)], false⟩ 0 = holeScan 6 f ⟨[⟨2, 1, 6, 255⟩, ⟨65534, 2, 6, 255⟩, ⟨65534, 5, 6, 255⟩, ⟨65534, 2, 6, 255⟩, ⟨0, 0, 0, 0⟩, ⟨0, 0, 0, 0⟩], 2,
          [(65534, 6, 255), (2, 6, 255), (1, 6, 255)], true⟩ 2 := rfl
      rw [e]
      have e' : holeScan 6 f ⟨[⟨2, 1, 6, 255⟩, ⟨65534, 2, 6, 255⟩, ⟨65534, 5, 6, 255⟩, ⟨65534, 2, 6, 255⟩, ⟨0, 0, 0, 0⟩, ⟨0, 0, 0, 0⟩], 2,
          [(65534, 6, 255), (2, 6, 255), (1, 6, 255)], true⟩ 2 = .ok ⟨[⟨2, 1, 6, 255⟩, ⟨65534, 2, 6, 255⟩, ⟨65534, 5, 6, 255⟩, ⟨65534, 2, 6, 255⟩, ⟨0, 0, 0, 0⟩, ⟨0, 0, 0, 0⟩], 2,
          [(65534, 6, 255), (2, 6, 255), (1, 6, 255)], true⟩ := by cases f <;> rfl
      rw [e', bind_ok, if_pos rfl]
      unfold holeLoop
      rw [if_pos (by decide), stuck (by decide) (by decide +kernel)]
      rfl
  exact (congrArg (· >>= _) (h2 fuel)).trans rfl

theorem l_mesh (fuel : Nat) : lSet.intoPolygonMesh fuel 6 = .error .diverge := by
  unfold ContourSet.intoPolygonMesh
  have hb : (lSet.buildMesh 6).map (fun b => (b.vflags, ({ b.mesh with verts := b.table.verts, slots := b.mesh.slots.take b.mesh.npolys } : Mesh))) =
      .ok ([false, false, true, false, false, true, false, false, false], lMesh) := by decide +kernel
  cases hbm : lSet.buildMesh 6 with
  | error e => rw [hbm] at hb; cases hb
  | ok b =>
    rw [hbm] at hb
    have hb' : (b.vflags, ({ b.mesh with verts := b.table.verts, slots := b.mesh.slots.take b.mesh.npolys } : Mesh)) =
      ([false, false, true, false, false, true, false, false, false], lMesh) := Except.ok.inj hb
    obtain ⟨h1, h2⟩ := Prod.mk.inj hb'
    rw [bind_ok]
    dsimp only
    have h3 : b.table.verts.length = lMesh.verts.length := by rw [← h2]
    rw [h1, h2, h3]
    have e : removeBorder fuel lSet.maxVertices 6 lSet.maxTris lMesh.verts.length 0 [false, false, true, false, false, true, false, false, false] lMesh =
        .error .diverge := by
      show removeBorder fuel 9 6 5 7 0 [false, false, true, false, false, true, false, false, false] lMesh = .error .diverge
      have e0 : removeBorder fuel 9 6 5 7 0 [false, false, true, false, false, true, false, false, false] lMesh =
        removeBorder fuel 9 6 5 5 2 [false, false, true, false, false, true, false, false, false] lMesh := rfl
      rw [e0]
      unfold removeBorder
      rw [if_pos (by decide)]
      have e1 : canRemoveVertex 6 (lMesh.slots.take lMesh.npolys) 2 = .ok false := by decide +kernel
      have e2 : idx [false, false, true, false, false, true, false, false, false] 2 = .ok true := rfl
      rw [e2, bind_ok, if_pos rfl, e1, bind_ok, if_pos (by decide)]
      have e3 : removeBorder fuel 9 6 5 4 (2 + 1) [false, false, true, false, false, true, false, false, false] lMesh =
        removeBorder fuel 9 6 5 2 5 [false, false, true, false, false, true, false, false, false] lMesh := rfl
      rw [e3]
      unfold removeBorder
      rw [if_pos (by decide)]
      have e4 : canRemoveVertex 6 (lMesh.slots.take lMesh.npolys) 5 = .ok true := by decide +kernel
      have e5 : idx [false, false, true, false, false, true, false, false, false] 5 = .ok true := rfl
      rw [e5, bind_ok, if_pos rfl, e4, bind_ok, if_neg (by decide), l_remove]
      rfl
    rw [e]
    rfl

end Rerecast
