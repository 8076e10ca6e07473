import Verif.Model.Contour
import Verif.Model.Float32
/-!
The tests of `simplify_contour` (contours.rs) with rounding after every operation.

`rnd` is the rounding.  With `roundF32` these are the operations of `f32` on finite numbers (Model/Float32.lean); without
rounding they are `Tests.exact` (`tests_rounded_id`).  The conversion from `u16` is exact.  `Vec2::length_squared` and `Vec2::dot`
of glam are `x * x + y * y`, every operation rounded.  Overflow of `max_error * max_error` to infinity is not modelled.
-/
namespace Rerecast
variable (rnd : Rat → Rat)

/-- math.rs:182-197 `distance_squared_between_point_and_line_vec2`, called by math.rs:175-180. -/
def segDistSqR (pt p q : Nat × Nat) : Rat :=
  let pqx := rnd ((q.1 : Rat) - p.1)
  let pqz := rnd ((q.2 : Rat) - p.2)
  let dtx := rnd ((pt.1 : Rat) - p.1)
  let dtz := rnd ((pt.2 : Rat) - p.2)
  let d := rnd (rnd (pqx * pqx) + rnd (pqz * pqz))
  let t := rnd (rnd (pqx * dtx) + rnd (pqz * dtz))
  let t := clamp01 (if d > 0 then rnd (t / d) else t)
  let dx := rnd (rnd ((p.1 : Rat) + rnd (t * pqx)) - pt.1)
  let dz := rnd (rnd ((p.2 : Rat) + rnd (t * pqz)) - pt.2)
  rnd (rnd (dx * dx) + rnd (dz * dz))

/-- contours.rs:395 and 408: the deviation and its comparison with the tolerance. -/
def Tests.rounded (maxError : Rat) : Tests := ⟨segDistSqR rnd, fun d => decide (d > rnd (maxError * maxError))⟩

/-- The tests of `simplify_contour` in single precision. -/
def Tests.f32 : Rat → Tests := Tests.rounded roundF32

end Rerecast
