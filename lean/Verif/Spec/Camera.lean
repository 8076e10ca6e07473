import Verif.Model.Camera
/-! What the user of the editor expects from the camera. -/
namespace Rerecast.Camera
variable {R : Type}

/-- The cursor was toggled an odd number of times. -/
def Toggled (l : List Frame) : Prop := (l.filter fun f => f.toggleJustPressed).length % 2 = 1

/-- The mouse button is held: it was pressed in a frame and has not been released in this frame or later. -/
def Held (l : List Frame) : Prop :=
  ∃ a f b, l = a ++ f :: b ∧ f.mouseJustPressed = true ∧ ∀ h ∈ f :: b, h.mouseJustReleased = false

/-- The cursor is grabbed. -/
def Grabbed (l : List Frame) : Prop := Toggled l ∨ Held l

/-- The cursor is changed in the frame. -/
def Frame.Changes (f : Frame) : Prop := f.toggleJustPressed = true ∨ f.mouseJustPressed = true ∨ f.mouseJustReleased = true

/-- No key for moving is pressed in the frame, or the opposite key is pressed, too. -/
def Frame.Still (f : Frame) : Prop := f.forward = f.back ∧ f.right = f.left ∧ f.up = f.down

/-- The relative change of speed in the frame: lines, or sixteenths of pixels. -/
def Frame.speedUp (f : Frame) (factor : ℚ) : ℚ := 1 + (if f.scrollLines then f.scroll else f.scroll / 16) * factor

end Rerecast.Camera
