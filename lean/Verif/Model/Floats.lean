import Verif.Model.Math
/-!
The `f32` operations used by `detail_mesh.rs`, left uninterpreted.  Nothing at all is assumed about them, so what is proved about
the functions using them holds for IEEE floats with their rounding, infinities and NaNs.
-/
namespace Rerecast

/-- Operations on `f32`. -/
structure FloatOps (F : Type) where
  /-- A literal of the source, given by its value. -/
  lit : Rat → F
  /-- `f32::MAX` -/
  maxVal : F
  add : F → F → F
  sub : F → F → F
  mul : F → F → F
  div : F → F → F
  neg : F → F
  abs : F → F
  sqrt : F → F
  floor : F → F
  ceil : F → F
  min : F → F → F
  max : F → F → F
  clamp : F → F → F → F
  lt : F → F → Bool
  le : F → F → Bool
  beq : F → F → Bool
  /-- `as f32` -/
  ofInt : Int → F
  /-- `as i32` (saturating) -/
  toI32 : F → Int
  /-- `as u32` (saturating) -/
  toU32 : F → Nat
  /-- `as usize` (saturating) -/
  toUsize : F → Nat

/-- glam `Vec3A`/`Vec3` -/
structure Vec3 (F : Type) where
  x : F
  y : F
  z : F
  deriving DecidableEq, Repr

namespace Vec3
variable {F : Type}
/-- `a + b` -/
def add (o : FloatOps F) (a b : Vec3 F) : Vec3 F := ⟨o.add a.x b.x, o.add a.y b.y, o.add a.z b.z⟩
/-- `a - b` -/
def sub (o : FloatOps F) (a b : Vec3 F) : Vec3 F := ⟨o.sub a.x b.x, o.sub a.y b.y, o.sub a.z b.z⟩
/-- `a * s` -/
def scale (o : FloatOps F) (a : Vec3 F) (s : F) : Vec3 F := ⟨o.mul a.x s, o.mul a.y s, o.mul a.z s⟩
/-- `a.dot(b)` -/
def dot (o : FloatOps F) (a b : Vec3 F) : F := o.add (o.add (o.mul a.x b.x) (o.mul a.y b.y)) (o.mul a.z b.z)
/-- `a.xz().dot(b.xz())` -/
def dotXZ (o : FloatOps F) (a b : Vec3 F) : F := o.add (o.mul a.x b.x) (o.mul a.z b.z)
/-- `a.xz().distance_squared(b.xz())` -/
def distSqXZ (o : FloatOps F) (a b : Vec3 F) : F := dotXZ o (sub o a b) (sub o a b)
/-- `a.xz().distance(b.xz())` -/
def distXZ (o : FloatOps F) (a b : Vec3 F) : F := o.sqrt (distSqXZ o a b)
/-- The default vector. -/
def zero (o : FloatOps F) : Vec3 F := ⟨o.lit 0, o.lit 0, o.lit 0⟩
end Vec3

section
variable {F : Type} (o : FloatOps F)

/-- math.rs:182-197 `distance_squared_between_point_and_line_vec2`, on the xz components. -/
def distPtSeg2 (pt p q : Vec3 F) : F :=
  let pq := Vec3.sub o q p
  let d := Vec3.dotXZ o pq pq
  let t := Vec3.dotXZ o pq (Vec3.sub o pt p)
  let t := if o.lt (o.lit 0) d then o.div t d else t
  let t := o.clamp t (o.lit 0) (o.lit 1)
  let dt := Vec3.sub o (Vec3.add o p (Vec3.scale o pq t)) pt
  Vec3.dotXZ o dt dt

/-- math.rs:199-217 `distance_squared_between_point_and_line_vec3` -/
def distPtSeg3 (pt p q : Vec3 F) : F :=
  let pq := Vec3.sub o q p
  let d := Vec3.dot o pq pq
  let t := Vec3.dot o pq (Vec3.sub o pt p)
  let t := if o.lt (o.lit 0) d then o.div t d else t
  let t := o.clamp t (o.lit 0) (o.lit 1)
  let dt := Vec3.sub o (Vec3.add o p (Vec3.scale o pq t)) pt
  Vec3.dot o dt dt

/-- detail_mesh.rs:840-844 `cross2` on xz components. -/
def cross2 (p1 p2 p3 : Vec3 F) : F :=
  let a := Vec3.sub o p2 p1
  let b := Vec3.sub o p3 p1
  o.sub (o.mul a.x b.z) (o.mul a.z b.x)
end

end Rerecast
