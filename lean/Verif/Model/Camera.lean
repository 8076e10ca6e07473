import Verif.Model.TriMesh
import Mathlib.Algebra.Order.Ring.Rat
/-!
Model of the camera of the editor (`bevy_rerecast_editor/src/camera/camera_controller.rs`).

Numbers are exact rationals.  Rotations are values of a type `R`; the functions of glam on rotations, and `Vec3::normalize`, are
left uninterpreted.  The app has one camera (`camera/mod.rs:12-25`).
-/
namespace Rerecast.Camera
variable {R : Type}

/-- The functions of glam called in camera_controller.rs, and `PI / 2`. -/
structure Glam (R : Type) where
  /-- `to_euler(EulerRot::YXZ)`: yaw and pitch -/
  toEuler : R → ℚ × ℚ
  /-- `Quat::from_euler(EulerRot::ZYX, 0.0, yaw, pitch)` -/
  fromEuler : ℚ → ℚ → R
  forward : R → V3 ℚ
  right : R → V3 ℚ
  normalize : V3 ℚ → V3 ℚ
  halfPi : ℚ

/-- camera_controller.rs:32-77 `CameraController` without the key bindings, and the `Transform` of the camera. -/
structure Controller (R : Type) where
  translation : V3 ℚ
  rotation : R
  enabled : Bool
  initialized : Bool
  sensitivity : ℚ
  walkSpeed : ℚ
  runSpeed : ℚ
  scrollFactor : ℚ
  friction : ℚ
  pitch : ℚ
  yaw : ℚ
  velocity : V3 ℚ
  deriving DecidableEq, Repr

/-- `Vec3::ZERO` -/
def zero3 : V3 ℚ := ⟨0, 0, 0⟩

/-- camera_controller.rs:79-103 `CameraController::default` at a place. -/
def Controller.default (translation : V3 ℚ) (rotation : R) : Controller R :=
  { translation, rotation, enabled := true, initialized := false, sensitivity := 1 / 2, walkSpeed := 15, runSpeed := 45
    scrollFactor := 1 / 10, friction := 1 / 2, pitch := 0, yaw := 0, velocity := zero3 }

/-- The cursor of a window (`window.cursor_options`). -/
structure Cursor where
  locked : Bool
  visible : Bool
  deriving DecidableEq, Repr

/-- What the system reads and writes: the controller, its two `Local`s and the cursors of the windows. -/
structure State (R : Type) where
  camera : Controller R
  toggle : Bool
  mouse : Bool
  cursors : Nat → Cursor

/-- The input of a frame: which keys are pressed, which buttons changed, how the mouse moved, and which windows are focused. -/
structure Frame where
  dt : ℚ
  motion : ℚ × ℚ
  /-- whether the scroll is given in lines (else in pixels), and the amount -/
  scrollLines : Bool
  scroll : ℚ
  forward : Bool
  back : Bool
  right : Bool
  left : Bool
  up : Bool
  down : Bool
  run : Bool
  toggleJustPressed : Bool
  mouseJustPressed : Bool
  mouseJustReleased : Bool
  focused : Nat → Bool

/-- camera_controller.rs:151-155 -/
def scrollAmount (f : Frame) : ℚ := if f.scrollLines then f.scroll else f.scroll / 16

/-- camera_controller.rs:160-178: one axis, from its two keys. -/
def axis (plus minus : Bool) : ℚ := (if plus then 1 else 0) - (if minus then 1 else 0)

/-- camera_controller.rs:159-178: the input of the keys. -/
def axisInput (f : Frame) : V3 ℚ := ⟨axis f.right f.left, axis f.up f.down, axis f.forward f.back⟩

/-- `v * s` -/
def smul3 (s : ℚ) (v : V3 ℚ) : V3 ℚ := ⟨s * v.x, s * v.y, s * v.z⟩

/-- `a + b` -/
def add3 (a b : V3 ℚ) : V3 ℚ := ⟨a.x + b.x, a.y + b.y, a.z + b.z⟩

/-- `length_squared` -/
def lengthSq (v : V3 ℚ) : ℚ := v.x * v.x + v.y * v.y + v.z * v.z

/-- camera_controller.rs:139-145: the first frame. -/
def firstFrame (g : Glam R) (c : Controller R) : Controller R :=
  if c.initialized then c
  else { c with yaw := (g.toEuler c.rotation).1, pitch := (g.toEuler c.rotation).2, initialized := true }

/-- camera_controller.rs:156-157: the speeds. -/
def changeSpeed (f : Frame) (c : Controller R) : Controller R :=
  let walk := c.walkSpeed + scrollAmount f * c.scrollFactor * c.walkSpeed
  { c with walkSpeed := walk, runSpeed := walk * 3 }

/-- camera_controller.rs:199-213: the velocity; `input` is the input of the keys, or zero if the cursor is not grabbed. -/
def changeVelocity (g : Glam R) (f : Frame) (input : V3 ℚ) (c : Controller R) : Controller R :=
  if input ≠ zero3 then
    { c with velocity := smul3 (if f.run then c.runSpeed else c.walkSpeed) (g.normalize input) }
  else
    let v := smul3 (1 - max 0 (min c.friction 1)) c.velocity
    { c with velocity := if lengthSq v < 1 / 1000000 then zero3 else v }

/-- camera_controller.rs:216-222: the movement. -/
def move (g : Glam R) (f : Frame) (c : Controller R) : Controller R :=
  if c.velocity ≠ zero3 then
    { c with translation := add3 c.translation (add3 (add3 (smul3 (c.velocity.x * f.dt) (g.right c.rotation))
        (smul3 (c.velocity.y * f.dt) ⟨0, 1, 0⟩)) (smul3 (c.velocity.z * f.dt) (g.forward c.rotation))) }
  else c

/-- camera_controller.rs:28 `RADIANS_PER_DOT` -/
def radiansPerDot : ℚ := 1 / 180

/-- camera_controller.rs:245-253: the look. -/
def look (g : Glam R) (f : Frame) (grab : Bool) (c : Controller R) : Controller R :=
  if f.motion ≠ (0, 0) ∧ grab then
    let pitch := max (-g.halfPi) (min (c.pitch - f.motion.2 * radiansPerDot * c.sensitivity) g.halfPi)
    let yaw := c.yaw - f.motion.1 * radiansPerDot * c.sensitivity
    { c with pitch, yaw, rotation := g.fromEuler yaw pitch }
  else c

/-- camera_controller.rs:225-242: the cursors. -/
def changeCursors (f : Frame) (change grab : Bool) (cursors : Nat → Cursor) : Nat → Cursor :=
  if change then
    if grab then fun i => if f.focused i then ⟨true, false⟩ else cursors i
    else fun _ => ⟨false, true⟩
  else cursors

/-- camera_controller.rs:126-254 `run_camera_controller` -/
def frame (g : Glam R) (s : State R) (f : Frame) : State R :=
  let c := firstFrame g s.camera
  if c.enabled = false then { s with camera := c }
  else
    let c := changeSpeed f c
    let toggle := if f.toggleJustPressed then !s.toggle else s.toggle
    let mouse := if f.mouseJustPressed then true else s.mouse
    let mouse := if f.mouseJustReleased then false else mouse
    let change := f.toggleJustPressed || f.mouseJustPressed || f.mouseJustReleased
    let grab := mouse || toggle
    let input := if grab then axisInput f else zero3
    let c := move g f (changeVelocity g f input c)
    { camera := look g f grab c, toggle, mouse, cursors := changeCursors f change grab s.cursors }

/-- The state when the editor starts: the `Local`s are `false`. -/
def State.start (c : Controller R) (cursors : Nat → Cursor) : State R := ⟨c, false, false, cursors⟩

/-- The state after frames. -/
def play (g : Glam R) (s : State R) (l : List Frame) : State R := l.foldl (frame g) s

end Rerecast.Camera
