import Verif.Lemmas.Camera
/-! C97: the camera of the editor. -/
namespace Rerecast.Camera
variable {R : Type}

/-- **C97 (cursor).** After any frames the cursor of no window is locked or hidden unless it is grabbed; and if it is grabbed, it
is locked and hidden in every window that was focused when the grab last changed.  A frame that grabs it leaves the cursors of
the other windows alone. -/
theorem c97_cursor (g : Glam R) (c : Controller R) (he : c.enabled = true) (cursors : Nat → Cursor)
    (hc : ∀ i, cursors i = ⟨false, true⟩) (l : List Frame) :
    (¬ Grabbed l → ∀ i, (play g (.start c cursors) l).cursors i = ⟨false, true⟩) ∧
    (Grabbed l → ∀ a f b, l = a ++ f :: b → f.Changes → (∀ h ∈ b, ¬ h.Changes) → ∀ i, f.focused i = true →
      (play g (.start c cursors) l).cursors i = ⟨true, false⟩) ∧
    (∀ f, Grabbed (l ++ [f]) → ∀ i, f.focused i = false →
      (play g (.start c cursors) (l ++ [f])).cursors i = (play g (.start c cursors) l).cursors i) := by
  have key : ∀ l : List Frame, (play g (.start c cursors) l).camera.enabled = true := fun l => by rw [play_enabled]; exact he
  have hg : ∀ l : List Frame, (play g (.start c cursors) l).grab = true ↔ Grabbed l := fun l => grab_iff he rfl rfl
  have hgf : ∀ (l : List Frame) f, (frame g (play g (.start c cursors) l) f).grab = true ↔ Grabbed (l ++ [f]) := fun l f => by
    rw [← hg, play_snoc]
  have hsame : ∀ (l : List Frame) f, ¬ f.Changes → (Grabbed (l ++ [f]) ↔ Grabbed l) := by
    intro l f hf
    unfold Frame.Changes at hf
    unfold Grabbed
    rw [held_snoc, toggled_snoc]
    simp only [not_or, Bool.not_eq_true] at hf
    rw [hf.1, hf.2.1, hf.2.2]
    simp
  have hch : ∀ f : Frame, ((f.toggleJustPressed || f.mouseJustPressed || f.mouseJustReleased) = true ↔ f.Changes) := by
    intro f
    unfold Frame.Changes
    cases f.toggleJustPressed <;> cases f.mouseJustPressed <;> cases f.mouseJustReleased <;> simp
  refine and_assoc.1 ⟨?_, fun f hgr i hi => ?_⟩
  swap
  · rw [play_snoc, frame_cursors (key l), (hgf l f).2 hgr]
    unfold changeCursors
    split
    · simp [hi]
    · rfl
  induction l using List.reverseRecOn with
  | nil =>
    refine ⟨fun _ i => hc i, ?_⟩
    intro _ a f b e
    cases a <;> cases e
  | append_singleton l f ih =>
    rw [play_snoc, frame_cursors (key l)]
    unfold changeCursors
    by_cases hf : f.Changes
    · rw [if_pos ((hch f).2 hf)]
      constructor
      · intro hng i
        rw [if_neg (by rw [hgf]; exact hng)]
      · intro hgr a f' b e hf' hb i hi
        rw [if_pos ((hgf l f).2 hgr)]
        rcases List.eq_nil_or_concat b with rfl | ⟨b', x, rfl⟩
        · obtain ⟨-, e2⟩ := List.append_inj' e rfl
          cases e2
          simp [hi]
        · rw [List.concat_eq_append, ← List.cons_append, ← List.append_assoc] at e
          obtain ⟨-, e2⟩ := List.append_inj' e rfl
          cases e2
          exact absurd hf (hb f (by simp))
    · rw [if_neg (by rw [hch]; exact hf)]
      rw [hsame l f hf]
      refine ⟨ih.1, ?_⟩
      intro hgr a f' b e hf' hb i hi
      rcases List.eq_nil_or_concat b with rfl | ⟨b', x, rfl⟩
      · obtain ⟨-, e2⟩ := List.append_inj' e rfl
        cases e2
        exact absurd hf' hf
      · rw [List.concat_eq_append, ← List.cons_append, ← List.append_assoc] at e
        obtain ⟨e1, -⟩ := List.append_inj' e rfl
        exact ih.2 hgr a f' b' e1 hf' (fun h hh => hb h (by rw [List.concat_eq_append]; simp [hh])) i hi

/-- **C97 (pitch).** If the camera starts between straight down and straight up, it stays there after any frames: it never turns
over. -/
theorem c97_pitch (g : Glam R) (c : Controller R) (cursors : Nat → Cursor) (hpi : 0 ≤ g.halfPi) (hi : c.initialized = false)
    (hstart : -g.halfPi ≤ (g.toEuler c.rotation).2 ∧ (g.toEuler c.rotation).2 ≤ g.halfPi) (l : List Frame) (hl : l ≠ []) :
    -g.halfPi ≤ (play g (.start c cursors) l).camera.pitch ∧ (play g (.start c cursors) l).camera.pitch ≤ g.halfPi := by
  have hff : ∀ (t : Controller R), (t.initialized = true → -g.halfPi ≤ t.pitch ∧ t.pitch ≤ g.halfPi) →
      (t.initialized = false → -g.halfPi ≤ (g.toEuler t.rotation).2 ∧ (g.toEuler t.rotation).2 ≤ g.halfPi) →
      -g.halfPi ≤ (firstFrame g t).pitch ∧ (firstFrame g t).pitch ≤ g.halfPi := by
    intro t h1 h2
    unfold firstFrame
    split
    · next h => exact h1 h
    · next h => exact h2 (by simpa using h)
  have hstep : ∀ (s : State R) f, (s.camera.initialized = true → -g.halfPi ≤ s.camera.pitch ∧ s.camera.pitch ≤ g.halfPi) →
      (s.camera.initialized = false → -g.halfPi ≤ (g.toEuler s.camera.rotation).2 ∧
        (g.toEuler s.camera.rotation).2 ≤ g.halfPi) →
      (frame g s f).camera.initialized = true ∧ -g.halfPi ≤ (frame g s f).camera.pitch ∧
        (frame g s f).camera.pitch ≤ g.halfPi := by
    intro s f h1 h2
    have h3 := hff s.camera h1 h2
    by_cases he : s.camera.enabled = true
    · refine ⟨frame_initialized he, ?_⟩
      rw [frame_camera he]
      have h4 : (moved g s f).pitch = (firstFrame g s.camera).pitch := by
        rw [moved, (move_keep _).2.2.2.2.2.2.1, (changeVelocity_keep _ _).2.2.2.2.2.1]
        rfl
      unfold look
      split
      · exact ⟨le_max_left _ _, max_le (by linarith) (min_le_right _ _)⟩
      · rw [h4]; exact h3
    · have e : frame g s f = { s with camera := firstFrame g s.camera } := by unfold frame; simp [he]
      rw [e]
      exact ⟨firstFrame_initialized _, h3⟩
  cases l with
  | nil => exact absurd rfl hl
  | cons f l =>
    have h1 := hstep (.start c cursors) f (fun h => by rw [show (State.start c cursors).camera = c from rfl, hi] at h; cases h)
      (fun _ => hstart)
    show _ ≤ (play g (frame g (.start c cursors) f) l).camera.pitch ∧ _
    have h2 := play_inv (g := g) (l := l) (s := frame g (.start c cursors) f)
      (fun t => t.camera.initialized = true ∧ -g.halfPi ≤ t.camera.pitch ∧ t.camera.pitch ≤ g.halfPi) h1
      fun t ht f _ => hstep t f (fun _ => ht.2) (fun h => by rw [ht.1] at h; cases h)
    exact h2.2

/-- **C97 (mouse and keys without grab).** In a frame after which the cursor is not grabbed, the camera does not turn, the keys
have no effect: the frame is the same with any other keys, and a camera at rest stays where it is. -/
theorem c97_free (g : Glam R) (c : Controller R) (he : c.enabled = true) (cursors : Nat → Cursor) (l : List Frame) (f : Frame)
    (hg : ¬ Grabbed (l ++ [f])) :
    (play g (.start c cursors) (l ++ [f])).camera.rotation = (play g (.start c cursors) l).camera.rotation ∧
    ((play g (.start c cursors) l).camera.velocity = zero3 →
      (play g (.start c cursors) (l ++ [f])).camera.translation = (play g (.start c cursors) l).camera.translation) ∧
    ∀ w s a d e q r : Bool, ∀ m,
      (play g (.start c cursors) (l ++ [{ f with forward := w, back := s, left := a, right := d, up := e, down := q
                                                 run := r, motion := m }])).camera =
      (play g (.start c cursors) (l ++ [f])).camera := by
  have he' : (play g (.start c cursors) l).camera.enabled = true := by rw [play_enabled]; exact he
  have hgf : (frame g (play g (.start c cursors) l) f).grab = false := by
    rw [← play_snoc, ← Bool.not_eq_true, grab_iff he rfl rfl]; exact hg
  simp only [play_snoc]
  generalize play g (.start c cursors) l = t at he' hgf
  refine ⟨?_, ?_, ?_⟩
  · rw [frame_camera he', hgf, look, if_neg (by simp), moved, (move_keep _).2.2.2.2.2.1, (changeVelocity_keep _ _).2.2.2.2.1]
    simp [changeSpeed]
  · intro hv
    refine frame_translation he' ?_
    rw [frame_velocity_still he' (by rw [hgf]; simp), hv, smul3_zero]
    simp
  · intro w s a d e q r m
    have hgf' : (frame g t { f with forward := w, back := s, left := a, right := d, up := e, down := q, run := r
                                    motion := m }).grab = false := by
      rw [← hgf]
      unfold State.grab
      rw [frame_toggle he', frame_toggle he', frame_mouse he', frame_mouse he']
    rw [frame_camera he', frame_camera he', hgf, hgf', look, if_neg (by simp), look, if_neg (by simp), moved, moved, hgf, hgf']
    simp only [changeVelocity, ne_eq, not_true_eq_false, if_false, Bool.false_eq_true]
    rfl

/-- **C97 (rest).** With positive friction the camera comes to rest: there is a number of frames after which, if no key for
moving was effective in the meantime, it has no velocity and no longer changes its place. -/
theorem c97_rest (g : Glam R) (s : State R) (he : s.camera.enabled = true) (hf : 0 < s.camera.friction) :
    ∃ n, ∀ l : List Frame, n ≤ l.length → (∀ f ∈ l, f.Still) →
      (play g s l).camera.velocity = zero3 ∧
      ∀ l' : List Frame, (∀ f ∈ l', f.Still) → (play g s (l ++ l')).camera.translation = (play g s l).camera.translation := by
  -- the factor of a frame
  let k := 1 - max 0 (min s.camera.friction 1)
  have hk0 : 0 ≤ k := by
    have : max 0 (min s.camera.friction 1) ≤ 1 := max_le (by norm_num) (min_le_right _ _)
    simp only [k]; linarith
  have hk1 : k < 1 := by
    have : 0 < max 0 (min s.camera.friction 1) := lt_max_of_lt_right (lt_min hf (by norm_num))
    simp only [k]; linarith
  have hk2 : k ^ 2 < 1 := by nlinarith
  have hk3 : 0 ≤ k ^ 2 := sq_nonneg k
  -- frames keep friction, and velocity decays
  have hinv : ∀ l : List Frame, (∀ f ∈ l, f.Still) → (play g s l).camera.friction = s.camera.friction ∧
      lengthSq (play g s l).camera.velocity ≤ (k ^ 2) ^ l.length * lengthSq s.camera.velocity ∧
      (l ≠ [] → (play g s l).camera.velocity = zero3 ∨ 1 / 1000000 ≤ lengthSq (play g s l).camera.velocity) := by
    intro l
    induction l using List.reverseRecOn with
    | nil => intro _; exact ⟨rfl, by simp [play], fun h => absurd rfl h⟩
    | append_singleton l f ih =>
      intro hl
      obtain ⟨h1, h2, -⟩ := ih fun f hf => hl f (by simp [hf])
      have he' : (play g s l).camera.enabled = true := by rw [play_enabled, he]
      obtain ⟨h3, h4⟩ := frame_decay (g := g) (f := f) he' (fun _ => axisInput_still.2 (hl f (by simp)))
      rw [play_snoc]
      refine ⟨by rw [frame_friction he', h1], ?_, fun _ => h4⟩
      rw [h1] at h3
      refine h3.trans ?_
      have hp : (k ^ 2) ^ (l ++ [f]).length = (k ^ 2) ^ l.length * k ^ 2 := by
        rw [List.length_append, List.length_singleton, pow_succ]
      rw [hp]
      calc k ^ 2 * lengthSq (play g s l).camera.velocity
          ≤ k ^ 2 * ((k ^ 2) ^ l.length * lengthSq s.camera.velocity) := mul_le_mul_of_nonneg_left h2 hk3
        _ = _ := by ring
  obtain ⟨n, hn⟩ : ∃ n : Nat, (k ^ 2) ^ n * lengthSq s.camera.velocity < 1 / 1000000 := by
    by_cases hv : lengthSq s.camera.velocity = 0
    · exact ⟨0, by rw [hv]; norm_num⟩
    · have hv' : 0 < lengthSq s.camera.velocity := lt_of_le_of_ne (lengthSq_nonneg _) (Ne.symm hv)
      obtain ⟨n, hn⟩ := exists_pow_lt_of_lt_one (show (0 : ℚ) < 1 / 1000000 / lengthSq s.camera.velocity by positivity) hk2
      exact ⟨n, by rwa [lt_div_iff₀ hv'] at hn⟩
  have hrest : ∀ l : List Frame, n + 1 ≤ l.length → (∀ f ∈ l, f.Still) → (play g s l).camera.velocity = zero3 := by
    intro l hl hs
    obtain ⟨-, h2, h3⟩ := hinv l hs
    rcases h3 (by rintro rfl; simp at hl) with h | h
    · exact h
    · exfalso
      have h4 : (k ^ 2) ^ l.length ≤ (k ^ 2) ^ n := pow_le_pow_of_le_one hk3 hk2.le (by omega)
      have h5 := mul_le_mul_of_nonneg_right h4 (lengthSq_nonneg s.camera.velocity)
      linarith
  refine ⟨n + 1, fun l hl hs => ⟨hrest l hl hs, fun l' => ?_⟩⟩
  induction l' using List.reverseRecOn with
  | nil => intro _; rw [List.append_nil]
  | append_singleton l' f ih =>
    intro hs'
    have h1 := hrest (l ++ (l' ++ [f])) (by simp; omega) fun x hx => by
      rcases List.mem_append.1 hx with hx | hx
      · exact hs x hx
      · exact hs' x hx
    rw [← ih fun x hx => hs' x (by simp [hx])]
    rw [← List.append_assoc, play_snoc] at h1 ⊢
    exact frame_translation (by rw [play_enabled, he]) h1

/-- **C97 (speed).** While keys are pressed and the cursor is grabbed, the camera moves with the walking speed, three times as
fast with the key for running; and the walking speed has been changed by all scrolling so far. -/
theorem c97_speed (g : Glam R) (c : Controller R) (he : c.enabled = true) (cursors : Nat → Cursor)
    (hnorm : ∀ v, v ≠ zero3 → lengthSq (g.normalize v) = 1) (l : List Frame) (f : Frame)
    (hg : Grabbed (l ++ [f])) (hk : ¬ f.Still) :
    (play g (.start c cursors) (l ++ [f])).camera.walkSpeed =
      ((l ++ [f]).map fun h => h.speedUp c.scrollFactor).prod * c.walkSpeed ∧
    lengthSq (play g (.start c cursors) (l ++ [f])).camera.velocity =
      ((if f.run then 3 else 1) * (play g (.start c cursors) (l ++ [f])).camera.walkSpeed) ^ 2 := by
  have hw : ∀ l : List Frame, (play g (.start c cursors) l).camera.scrollFactor = c.scrollFactor ∧
      (play g (.start c cursors) l).camera.walkSpeed = (l.map fun h => h.speedUp c.scrollFactor).prod * c.walkSpeed := by
    intro l
    induction l using List.reverseRecOn with
    | nil => exact ⟨rfl, by simp [play, State.start]⟩
    | append_singleton l f ih =>
      have he' : (play g (.start c cursors) l).camera.enabled = true := by rw [play_enabled]; exact he
      rw [play_snoc, frame_factor he', frame_walk he', ih.1, ih.2]
      refine ⟨rfl, ?_⟩
      rw [List.map_append, List.prod_append, List.map_singleton, List.prod_singleton]
      ring
  refine ⟨(hw _).2, ?_⟩
  have he' : (play g (.start c cursors) l).camera.enabled = true := by rw [play_enabled]; exact he
  have hgf : (frame g (play g (.start c cursors) l) f).grab = true := by rw [← play_snoc, grab_iff he rfl rfl]; exact hg
  have hz : axisInput f ≠ zero3 := fun h => hk (axisInput_still.1 h)
  rw [play_snoc, frame_camera he', (look_keep _ _).2.2.2.2.1, (look_keep _ _).2.1, moved, (move_keep _).2.2.2.2.1,
    (move_keep _).2.1, hgf, if_pos rfl, (changeVelocity_keep _ _).2.1]
  unfold changeVelocity
  rw [if_pos hz]
  dsimp only
  rw [lengthSq_smul, hnorm _ hz]
  simp only [changeSpeed]
  split <;> ring

/-- **C97 (movement).** With the cursor grabbed and a key effective, the camera moves along the normalised direction of the keys:
to its right, up, and forward, as far as its speed and the time of the frame give. -/
theorem c97_move (g : Glam R) (c : Controller R) (he : c.enabled = true) (cursors : Nat → Cursor)
    (hnorm : ∀ v, v ≠ zero3 → lengthSq (g.normalize v) = 1) (l : List Frame) (f : Frame)
    (hg : Grabbed (l ++ [f])) (hk : ¬ f.Still) (n : V3 ℚ) (d : ℚ)
    (hn : n = g.normalize ⟨(if f.right then 1 else 0) - (if f.left then 1 else 0),
      (if f.up then 1 else 0) - (if f.down then 1 else 0), (if f.forward then 1 else 0) - (if f.back then 1 else 0)⟩)
    (hd : d = f.dt * ((if f.run then 3 else 1) * (play g (.start c cursors) (l ++ [f])).camera.walkSpeed))
    (r w p : V3 ℚ) (hr : r = g.right (play g (.start c cursors) l).camera.rotation)
    (hw : w = g.forward (play g (.start c cursors) l).camera.rotation)
    (hp : p = (play g (.start c cursors) l).camera.translation) :
    (play g (.start c cursors) (l ++ [f])).camera.translation =
      ⟨p.x + d * (n.x * r.x + n.z * w.x), p.y + d * (n.x * r.y + n.y + n.z * w.y), p.z + d * (n.x * r.z + n.z * w.z)⟩ := by
  have he' : (play g (.start c cursors) l).camera.enabled = true := by rw [play_enabled]; exact he
  have hgf : (frame g (play g (.start c cursors) l) f).grab = true := by rw [← play_snoc, grab_iff he rfl rfl]; exact hg
  have hz : axisInput f ≠ zero3 := fun h => hk (axisInput_still.1 h)
  have hn' : n = g.normalize (axisInput f) := hn
  have h1 := hnorm _ hz
  rw [← hn'] at h1
  rw [play_snoc, frame_walk he'] at hd
  rw [play_snoc, frame_camera he', (look_keep _ _).2.2.2.2.2.1, moved, hgf, if_pos rfl]
  generalize play g (.start c cursors) l = t at *
  have hcv : changeVelocity g f (axisInput f) (changeSpeed f (firstFrame g t.camera)) =
      { changeSpeed f (firstFrame g t.camera) with
        velocity := smul3 ((if f.run then 3 else 1) * (f.speedUp t.camera.scrollFactor * t.camera.walkSpeed)) n } := by
    unfold changeVelocity
    rw [if_pos hz, ← hn']
    congr 2
    simp only [changeSpeed, firstFrame_walk, firstFrame_factor, scrollAmount, Frame.speedUp]
    split <;> ring
  rw [hcv]
  generalize (if f.run then (3 : ℚ) else 1) * (f.speedUp t.camera.scrollFactor * t.camera.walkSpeed) = k at hd
  unfold move
  simp only [changeSpeed, firstFrame_rotation, firstFrame_translation]
  rw [← hr, ← hw, ← hp]
  by_cases hv : smul3 k n = zero3
  · rw [if_neg (not_not.2 hv)]
    have h2 : lengthSq (smul3 k n) = 0 := by rw [hv, lengthSq_zero]
    rw [lengthSq_smul, h1, mul_one] at h2
    have h3 : k = 0 := by simpa using h2
    rw [h3, mul_zero] at hd
    rw [hd]
    simp
  · rw [if_pos hv]
    simp only [add3, smul3, V3.mk.injEq]
    rw [hd]
    refine ⟨?_, ?_, ?_⟩ <;> ring

/-- **C97 (look).** With the cursor grabbed, the mouse turns the camera: in proportion to the motion, up to straight up and
straight down; the rotation of the camera is the one with this yaw and pitch and without roll. -/
theorem c97_look (g : Glam R) (c : Controller R) (he : c.enabled = true) (cursors : Nat → Cursor) (l : List Frame) (f : Frame)
    (hg : Grabbed (l ++ [f])) (hm : f.motion ≠ (0, 0)) (hi : (play g (.start c cursors) l).camera.initialized = true) :
    (play g (.start c cursors) (l ++ [f])).camera.yaw = (play g (.start c cursors) l).camera.yaw -
      f.motion.1 / 180 * c.sensitivity ∧
    (play g (.start c cursors) (l ++ [f])).camera.pitch =
      max (-g.halfPi) (min g.halfPi ((play g (.start c cursors) l).camera.pitch - f.motion.2 / 180 * c.sensitivity)) ∧
    (play g (.start c cursors) (l ++ [f])).camera.rotation = g.fromEuler
      (play g (.start c cursors) (l ++ [f])).camera.yaw (play g (.start c cursors) (l ++ [f])).camera.pitch := by
  have he' : (play g (.start c cursors) l).camera.enabled = true := by rw [play_enabled]; exact he
  have hs : (play g (.start c cursors) l).camera.sensitivity = c.sensitivity :=
    (play_inv (g := g) (s := State.start c cursors) (l := l)
      (fun t => t.camera.enabled = true ∧ t.camera.sensitivity = c.sensitivity) ⟨he, rfl⟩ fun t ht f _ =>
        ⟨by rw [frame_enabled, ht.1], by
          rw [frame_camera ht.1, (look_keep _ _).2.2.2.2.2.2.1, moved, (move_keep _).2.2.2.2.2.2.2.2.2.1,
            (changeVelocity_keep _ _).2.2.2.2.2.2.2.2.1, ← ht.2]
          simp only [changeSpeed, firstFrame]
          split <;> rfl⟩).2
  have hgf : (frame g (play g (.start c cursors) l) f).grab = true := by rw [← play_snoc, grab_iff he rfl rfl]; exact hg
  rw [play_snoc, frame_camera he', hgf]
  generalize play g (.start c cursors) l = t at *
  have hf : firstFrame g t.camera = t.camera := by unfold firstFrame; rw [if_pos hi]
  have k1 : (moved g t f).yaw = t.camera.yaw := by
    rw [moved, (move_keep _).2.2.2.2.2.2.2.1, (changeVelocity_keep _ _).2.2.2.2.2.2.1, hf]; rfl
  have k2 : (moved g t f).pitch = t.camera.pitch := by
    rw [moved, (move_keep _).2.2.2.2.2.2.1, (changeVelocity_keep _ _).2.2.2.2.2.1, hf]; rfl
  have k3 : (moved g t f).sensitivity = c.sensitivity := by
    rw [moved, (move_keep _).2.2.2.2.2.2.2.2.2.1, (changeVelocity_keep _ _).2.2.2.2.2.2.2.2.1, hf]; exact hs
  unfold look
  rw [if_pos ⟨hm, rfl⟩]
  refine ⟨?_, ?_, rfl⟩
  · dsimp only; rw [k1, k3, radiansPerDot]; ring
  · dsimp only
    rw [k2, k3, radiansPerDot, min_comm]
    congr 2
    ring

/-- **C97 (no input).** Without an effective key the camera never gets faster, whatever the friction. -/
theorem c97_slows (g : Glam R) (s : State R) (he : s.camera.enabled = true) (f : Frame) (hf : f.Still) :
    lengthSq (frame g s f).camera.velocity ≤ lengthSq s.camera.velocity := by
  have h := (frame_decay (g := g) (f := f) he fun _ => axisInput_still.2 hf).1
  have h0 : 0 ≤ max 0 (min s.camera.friction 1) := le_max_left _ _
  have h1 : max 0 (min s.camera.friction 1) ≤ 1 := max_le (by norm_num) (min_le_right _ _)
  generalize max 0 (min s.camera.friction 1) = k at *
  have h2 : (1 - k) ^ 2 ≤ 1 := by nlinarith
  have h3 := mul_le_mul_of_nonneg_right h2 (lengthSq_nonneg s.camera.velocity)
  linarith

/-- **C97 (partial).** If no frame scrolls down by as much as all the speed, the camera can always move.  Missing: scrolling further
down, see `c97_violated`. -/
theorem c97_moves_partial (g : Glam R) (c : Controller R) (he : c.enabled = true) (cursors : Nat → Cursor)
    (hw : 0 < c.walkSpeed) (l : List Frame) (hs : ∀ f ∈ l, 0 < f.speedUp c.scrollFactor) :
    0 < (play g (.start c cursors) l).camera.walkSpeed := by
  refine (play_inv (g := g) (s := State.start c cursors) (l := l)
    (fun t => t.camera.enabled = true ∧ t.camera.scrollFactor = c.scrollFactor ∧ 0 < t.camera.walkSpeed) ⟨he, rfl, hw⟩ ?_).2.2
  intro t ht f hf
  refine ⟨by rw [frame_enabled, ht.1], by rw [frame_factor ht.1, ht.2.1], ?_⟩
  rw [frame_walk ht.1, ht.2.1]
  exact mul_pos (hs f hf) ht.2.2

/-- A frame without input. -/
def idle : Frame := ⟨1 / 60, (0, 0), true, 0, false, false, false, false, false, false, false, false, false, false, fun _ => true⟩

/-- **C97 (violated).** With the settings of the editor, scrolling down ten lines in a frame stops the camera for good: its speed is
zero after all further frames, however the user scrolls. -/
theorem c97_violated (g : Glam R) (p : V3 ℚ) (r : R) (cursors : Nat → Cursor) (l : List Frame) :
    (play g (.start (.default p r) cursors) ({ idle with scroll := -10 } :: l)).camera.walkSpeed = 0 := by
  refine (play_inv (g := g) (s := frame g (.start (.default p r) cursors) { idle with scroll := -10 }) (l := l)
    (fun t => t.camera.enabled = true ∧ t.camera.walkSpeed = 0) ⟨by rw [frame_enabled]; rfl, ?_⟩ ?_).2
  · rw [frame_walk rfl]
    simp [State.start, Controller.default, Frame.speedUp, idle]
  · intro t ht f _
    exact ⟨by rw [frame_enabled, ht.1], by rw [frame_walk ht.1, ht.2, mul_zero]⟩

/-! ## A session -/

/-- Rotations as pairs of yaw and pitch. -/
def sampleGlam : Glam (ℚ × ℚ) where
  toEuler r := r
  fromEuler y p := (y, p)
  forward _ := ⟨0, 0, -1⟩
  right _ := ⟨1, 0, 0⟩
  normalize v := if v.x ≠ 0 then ⟨1, 0, 0⟩ else if v.y ≠ 0 then ⟨0, 1, 0⟩ else ⟨0, 0, 1⟩
  halfPi := 157 / 100

/-- The user holds the mouse button, looks down, flies forward, scrolls, runs, and lets go. -/
def sampleSession : List Frame :=
  [idle, { idle with mouseJustPressed := true, motion := (10, 2000) }, { idle with forward := true, scroll := 2 },
    { idle with forward := true, run := true }, { idle with mouseJustReleased := true }, { idle with motion := (10, 10) }]

example : (play sampleGlam (.start (.default ⟨0, 0, 0⟩ (0, -1 / 2)) fun _ => ⟨false, true⟩) (sampleSession.take 4)).camera =
    { translation := ⟨0, 0, -(18 + 54) / 60⟩, rotation := (-1 / 36, -157 / 100), enabled := true, initialized := true
      sensitivity := 1 / 2, walkSpeed := 18, runSpeed := 54, scrollFactor := 1 / 10, friction := 1 / 2
      pitch := -157 / 100, yaw := -1 / 36, velocity := ⟨0, 0, 54⟩ } := by decide +kernel

theorem session_held : Grabbed (sampleSession.take 4) ∧ ¬ Grabbed sampleSession := by
  constructor
  · exact .inr ⟨[idle], _, _, rfl, rfl, by decide⟩
  · rintro (h | h)
    · revert h; unfold Toggled; decide
    · have e : sampleSession = sampleSession.take 4 ++ [{ idle with mouseJustReleased := true }] ++
        [{ idle with motion := (10, 10) }] := rfl
      rw [e, held_snoc, held_snoc] at h
      rcases h.2 with h | h
      · cases h
      · cases h.1

example : (∀ v, v ≠ zero3 → lengthSq (sampleGlam.normalize v) = 1) ∧ Grabbed (sampleSession.take 3 ++ [{ idle with
    forward := true, run := true }]) ∧ ¬ Frame.Still { idle with forward := true, run := true } ∧
    ¬ Grabbed (sampleSession.take 5 ++ [{ idle with motion := (10, 10) }]) ∧
    (∀ f ∈ sampleSession, 0 < f.speedUp (1 / 10)) := by
  refine ⟨?_, session_held.1, by unfold Frame.Still; decide, session_held.2, ?_⟩
  · rintro ⟨x, y, z⟩ h
    simp only [sampleGlam, lengthSq]
    split
    · norm_num
    · split <;> norm_num
  · simp only [sampleSession, List.forall_mem_cons, Frame.speedUp, idle]
    norm_num

/-- The hypotheses of `c97_pitch` and `c97_rest` hold for the camera of the editor. -/
example : 0 ≤ sampleGlam.halfPi ∧ -sampleGlam.halfPi ≤ (sampleGlam.toEuler (0, -1 / 2)).2 ∧
    (sampleGlam.toEuler (0, -1 / 2)).2 ≤ sampleGlam.halfPi ∧
    (Controller.default (R := ℚ × ℚ) ⟨0, 0, 0⟩ (0, -1 / 2)).enabled = true ∧
    0 < (Controller.default (R := ℚ × ℚ) ⟨0, 0, 0⟩ (0, -1 / 2)).friction ∧
    (Controller.default (R := ℚ × ℚ) ⟨0, 0, 0⟩ (0, -1 / 2)).initialized = false := by decide +kernel

end Rerecast.Camera
