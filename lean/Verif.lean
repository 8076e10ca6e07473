import Verif.Props.C01_C04_Encoding
import Verif.Props.C05_C08_TriMesh
import Verif.Props.C09_C13_Heightfield
import Verif.Props.C14_C59_Rasterize
import Verif.Props.C15_C18_Filters
import Verif.Props.C19_C24_Compact
import Verif.Props.C25_C28_Erosion
import Verif.Props.C29_C32_Distance
import Verif.Props.C40_C43_Contours
import Verif.Props.C33_MarkArea
import Verif.Props.C34_C39_Regions
import Verif.Props.C44_C49_PolyMesh
import Verif.Props.C50_C69_DetailMesh
import Verif.Props.C70_C71_DetailError
import Verif.Props.C53_Config
import Verif.Props.C54_C74_Editor
import Verif.Props.C61_Outlines
import Verif.Props.C64_C65_Merging
import Verif.Props.C75_C79_Pipeline
import Verif.Props.C80_EdgeLength
import Verif.Props.C81_World
import Verif.Props.C82_Boundary
import Verif.Props.C83_Settings
import Verif.Props.C77_Coverage
import Verif.Props.C79_Success
import Verif.Props.C84_C85_SinglePrecision
import Verif.Props.C86_Cover
import Verif.Props.C87_ContourPrecision
import Verif.Props.C88_ConfigPrecision
import Verif.Props.C89_MergeSize
import Verif.Props.C90_NoGaps
import Verif.Props.C91_Joined
import Verif.Props.C92_OpenGround
import Verif.Props.C93_Drawing
import Verif.Props.C94_EditorView
import Verif.Props.C95_Joining
import Verif.Props.C96_Colliders
import Verif.Props.C97_Camera
import Verif.Props.C98_SimpleContours
import Verif.Props.C99_Ears
import Verif.Props.C100_Filling
import Verif.Props.C101_Seams
import Verif.Props.C102_MarkPrecision
import Verif.Props.C103_Slope
import Verif.Props.C104_Moved
import Verif.Props.C105_SceneList
import Verif.Props.C106_Scaled
import Verif.Props.C107_Unused
import Verif.Props.C108_TriangleSet
