import Verif.Spec.Camera
import Mathlib.Tactic.Linarith
import Mathlib.Data.List.Induction
import Mathlib.Tactic.Ring
import Mathlib.Tactic.FieldSimp
import Mathlib.Algebra.Order.Archimedean.Basic
import Mathlib.Algebra.Order.Field.Rat
import Mathlib.Data.Rat.Floor
/-! Lemmas for C97: one frame of the camera, and invariants over frames. -/
namespace Rerecast.Camera
variable {R : Type} {g : Glam R} {s : State R} {f : Frame} {l : List Frame}

theorem play_snoc : play g s (l ++ [f]) = frame g (play g s l) f := by
  unfold play
  rw [List.foldl_append]
  rfl

theorem play_append (l l' : List Frame) : play g s (l ++ l') = play g (play g s l) l' := by
  unfold play
  rw [List.foldl_append]

/-- An invariant of frames holds after all frames. -/
theorem play_inv (P : State R → Prop) (h0 : P s) (hs : ∀ s, P s → ∀ f ∈ l, P (frame g s f)) : P (play g s l) := by
  unfold play
  induction l generalizing s with
  | nil => exact h0
  | cons f l ih =>
    exact ih (hs s h0 f (List.mem_cons_self ..)) fun s h f hf => hs s h f (List.mem_cons_of_mem _ hf)

/-! ### The fields after a frame -/

@[simp] theorem firstFrame_enabled (c : Controller R) : (firstFrame g c).enabled = c.enabled := by
  unfold firstFrame; split <;> rfl
@[simp] theorem firstFrame_walk (c : Controller R) : (firstFrame g c).walkSpeed = c.walkSpeed := by
  unfold firstFrame; split <;> rfl
@[simp] theorem firstFrame_factor (c : Controller R) : (firstFrame g c).scrollFactor = c.scrollFactor := by
  unfold firstFrame; split <;> rfl
@[simp] theorem firstFrame_friction (c : Controller R) : (firstFrame g c).friction = c.friction := by
  unfold firstFrame; split <;> rfl
@[simp] theorem firstFrame_velocity (c : Controller R) : (firstFrame g c).velocity = c.velocity := by
  unfold firstFrame; split <;> rfl
@[simp] theorem firstFrame_translation (c : Controller R) : (firstFrame g c).translation = c.translation := by
  unfold firstFrame; split <;> rfl
@[simp] theorem firstFrame_rotation (c : Controller R) : (firstFrame g c).rotation = c.rotation := by
  unfold firstFrame; split <;> rfl
@[simp] theorem firstFrame_initialized (c : Controller R) : (firstFrame g c).initialized = true := by
  unfold firstFrame; split <;> simp_all

/-- The cursor is grabbed after the frame. -/
def State.grab (s : State R) : Bool := s.mouse || s.toggle

/-- The controller before the look is changed. -/
def moved (g : Glam R) (s : State R) (f : Frame) : Controller R :=
  move g f (changeVelocity g f (if (frame g s f).grab then axisInput f else zero3) (changeSpeed f (firstFrame g s.camera)))

theorem frame_camera (he : s.camera.enabled = true) :
    (frame g s f).camera = look g f (frame g s f).grab (moved g s f) := by
  unfold moved frame State.grab
  simp [he]

theorem frame_toggle (he : s.camera.enabled = true) :
    (frame g s f).toggle = if f.toggleJustPressed then !s.toggle else s.toggle := by
  unfold frame; simp [he]

theorem frame_mouse (he : s.camera.enabled = true) :
    (frame g s f).mouse = if f.mouseJustReleased then false else if f.mouseJustPressed then true else s.mouse := by
  unfold frame; simp [he]

theorem frame_cursors (he : s.camera.enabled = true) :
    (frame g s f).cursors = changeCursors f (f.toggleJustPressed || f.mouseJustPressed || f.mouseJustReleased)
      (frame g s f).grab s.cursors := by
  unfold frame State.grab; simp [he]

theorem move_keep (c : Controller R) : (move g f c).enabled = c.enabled ∧ (move g f c).walkSpeed = c.walkSpeed ∧
    (move g f c).scrollFactor = c.scrollFactor ∧ (move g f c).friction = c.friction ∧ (move g f c).velocity = c.velocity ∧
    (move g f c).rotation = c.rotation ∧ (move g f c).pitch = c.pitch ∧ (move g f c).yaw = c.yaw ∧
    (move g f c).runSpeed = c.runSpeed ∧ (move g f c).sensitivity = c.sensitivity ∧ (move g f c).initialized = c.initialized := by
  unfold move; split <;> simp

theorem changeVelocity_keep (i : V3 ℚ) (c : Controller R) : (changeVelocity g f i c).enabled = c.enabled ∧
    (changeVelocity g f i c).walkSpeed = c.walkSpeed ∧
    (changeVelocity g f i c).scrollFactor = c.scrollFactor ∧ (changeVelocity g f i c).friction = c.friction ∧
    (changeVelocity g f i c).rotation = c.rotation ∧ (changeVelocity g f i c).pitch = c.pitch ∧
    (changeVelocity g f i c).yaw = c.yaw ∧ (changeVelocity g f i c).translation = c.translation ∧
    (changeVelocity g f i c).sensitivity = c.sensitivity ∧ (changeVelocity g f i c).initialized = c.initialized := by
  unfold changeVelocity; split <;> simp

theorem look_keep (b : Bool) (c : Controller R) : (look g f b c).enabled = c.enabled ∧
    (look g f b c).walkSpeed = c.walkSpeed ∧ (look g f b c).scrollFactor = c.scrollFactor ∧
    (look g f b c).friction = c.friction ∧ (look g f b c).velocity = c.velocity ∧
    (look g f b c).translation = c.translation ∧ (look g f b c).sensitivity = c.sensitivity ∧
    (look g f b c).initialized = c.initialized := by
  unfold look; split <;> simp

theorem frame_enabled : (frame g s f).camera.enabled = s.camera.enabled := by
  by_cases he : s.camera.enabled = true
  · rw [frame_camera he, (look_keep _ _).1, moved, (move_keep _).1, (changeVelocity_keep _ _).1]
    simp [changeSpeed]
  · unfold frame; simp [he]

theorem play_enabled : (play g s l).camera.enabled = s.camera.enabled :=
  play_inv (fun t => t.camera.enabled = s.camera.enabled) rfl fun t h f _ => by rw [frame_enabled, h]

theorem frame_friction (he : s.camera.enabled = true) : (frame g s f).camera.friction = s.camera.friction := by
  rw [frame_camera he, (look_keep _ _).2.2.2.1, moved, (move_keep _).2.2.2.1, (changeVelocity_keep _ _).2.2.2.1]
  simp [changeSpeed]

theorem frame_factor (he : s.camera.enabled = true) : (frame g s f).camera.scrollFactor = s.camera.scrollFactor := by
  rw [frame_camera he, (look_keep _ _).2.2.1, moved, (move_keep _).2.2.1, (changeVelocity_keep _ _).2.2.1]
  simp [changeSpeed]

theorem frame_walk (he : s.camera.enabled = true) :
    (frame g s f).camera.walkSpeed = f.speedUp s.camera.scrollFactor * s.camera.walkSpeed := by
  rw [frame_camera he, (look_keep _ _).2.1, moved, (move_keep _).2.1, (changeVelocity_keep _ _).2.1]
  simp only [changeSpeed, firstFrame_walk, firstFrame_factor, scrollAmount, Frame.speedUp]
  ring

theorem frame_initialized (he : s.camera.enabled = true) : (frame g s f).camera.initialized = true := by
  rw [frame_camera he, (look_keep _ _).2.2.2.2.2.2.2, moved, (move_keep _).2.2.2.2.2.2.2.2.2.2,
    (changeVelocity_keep _ _).2.2.2.2.2.2.2.2.2]
  simp [changeSpeed]

/-- Without input the velocity decays. -/
theorem frame_velocity_still (he : s.camera.enabled = true) (hi : (frame g s f).grab = true → axisInput f = zero3) :
    (frame g s f).camera.velocity =
      (if lengthSq (smul3 (1 - max 0 (min s.camera.friction 1)) s.camera.velocity) < 1 / 1000000 then zero3
        else smul3 (1 - max 0 (min s.camera.friction 1)) s.camera.velocity) := by
  rw [frame_camera he, (look_keep _ _).2.2.2.2.1, moved, (move_keep _).2.2.2.2.1]
  have h0 : (if (frame g s f).grab then axisInput f else zero3) = zero3 := by
    cases h : (frame g s f).grab with
    | false => rfl
    | true => exact hi h
  rw [h0]
  simp [changeVelocity, changeSpeed]

/-- A camera without velocity stays where it is. -/
theorem frame_translation (he : s.camera.enabled = true) (hv : (frame g s f).camera.velocity = zero3) :
    (frame g s f).camera.translation = s.camera.translation := by
  rw [frame_camera he] at hv ⊢
  rw [(look_keep _ _).2.2.2.2.1] at hv
  rw [(look_keep _ _).2.2.2.2.2.1]
  unfold moved at hv ⊢
  rw [(move_keep _).2.2.2.2.1] at hv
  unfold move
  rw [if_neg (by simpa using hv), (changeVelocity_keep _ _).2.2.2.2.2.2.2.1]
  simp [changeSpeed]

theorem lengthSq_smul (a : ℚ) (v : V3 ℚ) : lengthSq (smul3 a v) = a ^ 2 * lengthSq v := by
  unfold lengthSq smul3; ring

theorem lengthSq_zero : lengthSq zero3 = 0 := by simp [lengthSq, zero3]

theorem lengthSq_nonneg (v : V3 ℚ) : 0 ≤ lengthSq v := by
  unfold lengthSq; nlinarith [mul_self_nonneg v.x, mul_self_nonneg v.y, mul_self_nonneg v.z]

theorem smul3_zero (a : ℚ) : smul3 a zero3 = zero3 := by simp [smul3, zero3]

/-- The length of the velocity after a frame without input. -/
theorem frame_decay (he : s.camera.enabled = true) (hi : (frame g s f).grab = true → axisInput f = zero3) :
    lengthSq (frame g s f).camera.velocity ≤ (1 - max 0 (min s.camera.friction 1)) ^ 2 * lengthSq s.camera.velocity ∧
    ((frame g s f).camera.velocity = zero3 ∨ 1 / 1000000 ≤ lengthSq (frame g s f).camera.velocity) := by
  rw [frame_velocity_still he hi]
  split
  · rw [lengthSq_zero]
    exact ⟨mul_nonneg (sq_nonneg _) (lengthSq_nonneg _), .inl rfl⟩
  · next h => exact ⟨by rw [lengthSq_smul], .inr (not_lt.1 h)⟩

theorem axisInput_still : axisInput f = zero3 ↔ f.Still := by
  unfold axisInput zero3 axis Frame.Still
  simp only [V3.mk.injEq]
  constructor
  · rintro ⟨h1, h2, h3⟩
    refine ⟨?_, ?_, ?_⟩
    · revert h3; cases f.forward <;> cases f.back <;> simp
    · revert h1; cases f.right <;> cases f.left <;> simp
    · revert h2; cases f.up <;> cases f.down <;> simp
  · rintro ⟨h1, h2, h3⟩
    rw [h1, h2, h3]
    simp

/-! ### Grabbing -/

theorem held_snoc : Held (l ++ [f]) ↔ f.mouseJustReleased = false ∧ (f.mouseJustPressed = true ∨ Held l) := by
  constructor
  · rintro ⟨a, h, b, e, h1, h2⟩
    rcases List.eq_nil_or_concat b with rfl | ⟨b', x, rfl⟩
    · obtain ⟨rfl, e2⟩ := List.append_inj' e rfl
      cases e2
      exact ⟨h2 _ (List.mem_cons_self ..), .inl h1⟩
    · rw [List.concat_eq_append, ← List.cons_append, ← List.append_assoc] at e
      obtain ⟨rfl, e2⟩ := List.append_inj' e rfl
      cases e2
      exact ⟨h2 _ (by simp), .inr ⟨a, h, b', rfl, h1, fun y hy => h2 y (by
        rw [List.concat_eq_append]; simp only [List.mem_cons, List.mem_append] at hy ⊢; tauto)⟩⟩
  · rintro ⟨h1, h2 | ⟨a, h, b, rfl, h3, h4⟩⟩
    · exact ⟨l, f, [], rfl, h2, by simpa using h1⟩
    · refine ⟨a, h, b ++ [f], by simp, h3, fun y hy => ?_⟩
      rw [← List.cons_append, List.mem_append] at hy
      rcases hy with hy | hy
      · exact h4 y hy
      · rw [List.mem_singleton] at hy; rw [hy]; exact h1

theorem toggled_snoc : Toggled (l ++ [f]) ↔ (f.toggleJustPressed = true ↔ ¬ Toggled l) := by
  unfold Toggled
  rw [List.filter_append, List.length_append]
  cases h : f.toggleJustPressed <;> simp [List.filter_cons, h] <;> omega

theorem grab_spec (he : s.camera.enabled = true) (ht : s.toggle = false) (hm : s.mouse = false) :
    ((play g s l).toggle = true ↔ Toggled l) ∧ ((play g s l).mouse = true ↔ Held l) := by
  induction l using List.reverseRecOn with
  | nil =>
    refine ⟨?_, ?_⟩
    · simp [play, Toggled, ht]
    · simp [play, Held, hm]
  | append_singleton l f ih =>
    have he' : (play g s l).camera.enabled = true := by rw [play_enabled, he]
    rw [play_snoc, frame_toggle he', frame_mouse he', held_snoc, toggled_snoc, ← ih.1, ← ih.2]
    constructor
    · cases f.toggleJustPressed <;> cases (play g s l).toggle <;> simp
    · cases f.mouseJustReleased <;> cases f.mouseJustPressed <;> cases (play g s l).mouse <;> simp

theorem grab_iff (he : s.camera.enabled = true) (ht : s.toggle = false) (hm : s.mouse = false) :
    (play g s l).grab = true ↔ Grabbed l := by
  have := grab_spec (g := g) (l := l) he ht hm
  unfold State.grab Grabbed
  rw [Bool.or_eq_true, this.1, this.2]
  tauto

end Rerecast.Camera
