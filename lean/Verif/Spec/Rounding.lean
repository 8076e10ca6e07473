import Verif.Spec.Contour
/-! Tolerances in single precision. -/
namespace Rerecast

/-- The tolerance `e` with the rounding errors of single precision on a grid of `n` cells: more by a 4194304th of `e` and a 2097152nd of
`n` cells (a 2000th of a cell for `n = 1000`, a 32nd for the largest grids). -/
def withRounding (e : Rat) (n : Nat) : Rat := e * (1 + 1 / 2 ^ 22) + n * (1 / 2 ^ 21)

/-- The larger extent of the grid. -/
def CompactHeightfield.extent (chf : CompactHeightfield) : Nat := max chf.width chf.height

end Rerecast
