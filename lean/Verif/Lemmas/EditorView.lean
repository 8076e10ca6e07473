import Verif.Spec.EditorView
import Mathlib.Data.List.Induction
/-! Invariants of what the editor shows. -/
namespace Rerecast.EditorView
variable {N : Type}

/-- The gizmos of the navmesh. -/
def Gizmo.OfNavmesh (g : Gizmo) : Prop := g = .polyMesh ∨ g = .detailMesh

/-- Only the clock and the times of the conditions differ. -/
structure Quiet (s s' : View N) : Prop where
  enabled : s'.enabled = s.enabled
  enabledAt : s'.enabledAt = s.enabledAt
  navmesh : s'.navmesh = s.navmesh
  navmeshAt : s'.navmeshAt = s.navmeshAt
  shown : s'.shown = s.shown
  lines : s'.lines = s.lines
  fill : s'.fill = s.fill
  affectors : s'.affectors = s.affectors
  visuals : s'.visuals = s.visuals

theorem Quiet.refl (s : View N) : Quiet s s := ⟨rfl, rfl, rfl, rfl, rfl, rfl, rfl, rfl, rfl⟩
theorem Quiet.ran (s : View N) (c : Cond) : Quiet s (s.ran c) := ⟨rfl, rfl, rfl, rfl, rfl, rfl, rfl, rfl, rfl⟩
theorem Quiet.trans {s t u : View N} (h : Quiet s t) (h' : Quiet t u) : Quiet s u :=
  ⟨h'.enabled.trans h.enabled, h'.enabledAt.trans h.enabledAt, h'.navmesh.trans h.navmesh, h'.navmeshAt.trans h.navmeshAt, h'.shown.trans h.shown,
    h'.lines.trans h.lines, h'.fill.trans h.fill, h'.affectors.trans h.affectors, h'.visuals.trans h.visuals⟩

theorem quiet_draw (s : View N) (g : Gizmo) : Quiet s (s.drawCondition g).2 := by
  unfold View.drawCondition
  split
  · exact .refl s
  split
  · exact .refl s
  dsimp only
  split
  · exact .ran s _
  · exact (Quiet.ran s _).trans (Quiet.ran _ _)

theorem quiet_condition (s : View N) (y : System) : Quiet s (s.condition y).2 := by
  rcases y with g | g <;> cases g <;> first | exact quiet_draw s _ | exact .ran s _

/-- The conditions a system looks at. -/
def System.uses : System → Cond → Prop
  | .draw g, c => c = .navmeshChanged g ∨ c = .toggledOn g
  | .hide g, c => c = .toggledOff g

theorem last_ran {s : View N} {c c' : Cond} (h : c' ≠ c) : (s.ran c).lastRun c' = s.lastRun c' := by
  simp [View.ran, Function.update_of_ne h]

theorem last_draw {s : View N} {g : Gizmo} {c : Cond} (h : ¬ (c = .navmeshChanged g ∨ c = .toggledOn g)) : (s.drawCondition g).2.lastRun c = s.lastRun c := by
  have h1 : c ≠ .navmeshChanged g := fun e => h (Or.inl e)
  have h2 : c ≠ .toggledOn g := fun e => h (Or.inr e)
  unfold View.drawCondition
  split
  · rfl
  split
  · rfl
  dsimp only
  split
  · exact last_ran h1
  · exact (last_ran h2).trans (last_ran h1)

theorem last_condition {s : View N} {y : System} {c : Cond} (h : ¬ y.uses c) : (s.condition y).2.lastRun c = s.lastRun c := by
  rcases y with g | g
  · cases g
    · exact last_ran fun e => h (Or.inr e)
    · exact last_ran fun e => h (Or.inr e)
    · exact last_draw h
    · exact last_draw h
  · exact last_ran h

theorem last_body (s : View N) (y : System) : (s.body y).lastRun = s.lastRun := by
  rcases y with g | g <;> cases g <;> rfl

theorem last_system {s : View N} {y : System} {c : Cond} (h : ¬ y.uses c) : (s.system y).lastRun c = s.lastRun c := by
  unfold View.system
  dsimp only
  split
  · rw [last_body, last_condition h]
  · rw [last_condition h]

theorem system_enabled (s : View N) (y : System) : (s.system y).enabled = s.enabled ∧ (s.system y).enabledAt = s.enabledAt ∧
    (s.system y).navmesh = s.navmesh ∧ (s.system y).navmeshAt = s.navmeshAt := by
  have hq := quiet_condition s y
  unfold View.system
  dsimp only
  split
  · have : ∀ t : View N, (t.body y).enabled = t.enabled ∧ (t.body y).enabledAt = t.enabledAt ∧ (t.body y).navmesh = t.navmesh ∧
        (t.body y).navmeshAt = t.navmeshAt := by
      intro t; rcases y with g | g <;> cases g <;> exact ⟨rfl, rfl, rfl, rfl⟩
    obtain ⟨h1, h2, h3, h4⟩ := this (s.condition y).2
    exact ⟨h1.trans hq.enabled, h2.trans hq.enabledAt, h3.trans hq.navmesh, h4.trans hq.navmeshAt⟩
  · exact ⟨hq.enabled, hq.enabledAt, hq.navmesh, hq.navmeshAt⟩

/-- The clock is never behind. -/
structure Ticks (s : View N) : Prop where
  last : ∀ c, s.lastRun c ≤ s.clock
  enabled : s.enabledAt ≤ s.clock
  navmesh : s.navmeshAt ≤ s.clock

theorem Ticks.ran {s : View N} (h : Ticks s) (c : Cond) : Ticks (s.ran c) := by
  refine ⟨fun c' => ?_, ?_, ?_⟩
  · have := h.last c'
    simp only [View.ran, Function.update_apply]
    split <;> omega
  · have := h.enabled; simp only [View.ran]; omega
  · have := h.navmesh; simp only [View.ran]; omega

theorem Ticks.body {s : View N} (h : Ticks s) (y : System) : Ticks (s.body y) := by
  rcases y with g | g <;> cases g <;> exact ⟨h.last, h.enabled, h.navmesh⟩

theorem Ticks.condition {s : View N} (h : Ticks s) (y : System) : Ticks (s.condition y).2 := by
  have hd : ∀ g, Ticks (s.drawCondition g).2 := by
    intro g
    unfold View.drawCondition
    split
    · exact h
    split
    · exact h
    dsimp only
    split
    · exact h.ran _
    · exact (h.ran _).ran _
  rcases y with g | g <;> cases g <;> first | exact hd _ | exact h.ran _

theorem Ticks.step {s : View N} (h : Ticks s) (e : Event N) : Ticks (s.step e) := by
  have hl := h.last; have he := h.enabled; have hn := h.navmesh
  cases e with
  | toggle g => exact ⟨fun c => by have := hl c; simp only [View.step, View.toggle]; omega, by simp [View.step, View.toggle], by
      simp only [View.step, View.toggle]; omega⟩
  | build n => exact ⟨fun c => by have := hl c; simp only [View.step, View.build]; omega, by simp only [View.step, View.build]; omega, by
      simp [View.step, View.build]⟩
  | load a v => exact ⟨fun c => by have := hl c; simp only [View.step, View.load]; omega, by simp only [View.step, View.load]; omega, by
      simp only [View.step, View.load]; omega⟩
  | system y =>
    show Ticks (s.system y)
    unfold View.system
    dsimp only
    split
    · exact (h.condition y).body y
    · exact h.condition y

theorem ticks_run (h : List (Event N)) : Ticks (View.run h) := by
  induction h using List.reverseRecOn with
  | nil => exact ⟨fun _ => by simp [View.run, View.init], by simp [View.run, View.init], by simp [View.run, View.init]⟩
  | append_singleton h e ih => simp only [View.run, List.foldl_append, List.foldl_cons, List.foldl_nil] at ih ⊢; exact ih.step e

theorem run_append (h : List (Event N)) (e : Event N) : View.run (h ++ [e]) = (View.run h).step e := by
  simp [View.run]

/-- A change of the boxes that the condition has not seen yet. -/
def View.PendingOn (s : View N) (g : Gizmo) : Prop := s.lastRun (.toggledOn g) < s.enabledAt
def View.PendingOff (s : View N) (g : Gizmo) : Prop := s.lastRun (.toggledOff g) < s.enabledAt
def View.PendingNavmesh (s : View N) (g : Gizmo) : Prop := s.lastRun (.navmeshChanged g) < s.navmeshAt

/-- The triangles are up to date. -/
def View.FillDone (s : View N) (g : Gizmo) : Prop := s.enabled g = true → ∀ n, s.navmesh = some n → s.shown g = true ∧ s.fill g = some n
/-- The lines are up to date. -/
def View.LinesDone (s : View N) (g : Gizmo) : Prop := s.enabled g = true → ∀ n, s.navmesh = some n → s.lines g = some n
/-- Nothing is shown of what is not checked. -/
def View.HideDone (s : View N) (g : Gizmo) : Prop := s.enabled g = false → s.shown g = false ∧ s.lines g = none
/-- Nothing is shown without a navmesh. -/
def View.NoneDone (s : View N) (g : Gizmo) : Prop := s.navmesh = none → s.shown g = false ∧ s.lines g = none

theorem draw_value {s : View N} {g : Gizmo} : (s.drawCondition g).1 = true ↔ s.enabled g = true ∧ s.navmesh.isSome = true ∧ (s.PendingNavmesh g ∨ s.PendingOn g) := by
  unfold View.drawCondition View.PendingNavmesh View.PendingOn
  cases hn : s.navmesh with
  | none => simp
  | some n =>
    cases he : s.enabled g with
    | false => simp
    | true =>
      simp only [Option.isNone_some, Bool.false_eq_true, if_false, Bool.not_true, View.navmeshChanged, View.toggledOn, Option.isSome_some, true_and]
      by_cases hc : s.lastRun (.navmeshChanged g) < s.navmeshAt
      · simp [hc]
      · simp [View.ran, he, hc]

theorem off_value {s : View N} {g : Gizmo} : (s.toggledOff g).1 = true ↔ s.enabled g = false ∧ s.PendingOff g := by
  simp [View.toggledOff, View.PendingOff, and_comm]

theorem on_value {s : View N} {g : Gizmo} : (s.toggledOn g).1 = true ↔ s.enabled g = true ∧ s.PendingOn g := by
  simp [View.toggledOn, View.PendingOn, and_comm]

/-- A system that does not concern gizmo `g` leaves it alone. -/
theorem system_other {s : View N} {y : System} {g : Gizmo} (h1 : y ≠ .draw g) (h2 : y ≠ .hide g) :
    (s.system y).shown g = s.shown g ∧ (s.system y).lines g = s.lines g ∧ (s.system y).fill g = s.fill g := by
  have hq := quiet_condition s y
  unfold View.system
  dsimp only
  split
  · have : ∀ t : View N, (t.body y).shown g = t.shown g ∧ (t.body y).lines g = t.lines g ∧ (t.body y).fill g = t.fill g := by
      intro t
      have hd : ∀ g', g ≠ g' → (t.drawNavmesh g').shown g = t.shown g ∧ (t.drawNavmesh g').lines g = t.lines g ∧ (t.drawNavmesh g').fill g = t.fill g := by
        intro g' hne; simp [View.drawNavmesh, Function.update_of_ne hne]
      have hh : ∀ g', g ≠ g' → (t.hideNavmesh g').shown g = t.shown g ∧ (t.hideNavmesh g').lines g = t.lines g ∧ (t.hideNavmesh g').fill g = t.fill g := by
        intro g' hne; simp [View.hideNavmesh, Function.update_of_ne hne]
      rcases y with g' | g' <;> cases g' <;> first | exact ⟨rfl, rfl, rfl⟩ | exact hd _ (fun e => h1 (by rw [e])) | exact hh _ (fun e => h2 (by rw [e]))
    obtain ⟨e1, e2, e3⟩ := this (s.condition y).2
    rw [e1, e2, e3, hq.shown, hq.lines, hq.fill]
    exact ⟨rfl, rfl, rfl⟩
  · rw [hq.shown, hq.lines, hq.fill]; exact ⟨rfl, rfl, rfl⟩

/-- The run of a system that draws a navmesh. -/
theorem draw_cases {s : View N} {g : Gizmo} (hg : g.OfNavmesh) :
    (s.enabled g = true ∧ s.navmesh.isSome = true ∧ (s.system (.draw g)).shown g = true ∧ (s.system (.draw g)).lines g = s.navmesh ∧
      (s.system (.draw g)).fill g = s.navmesh) ∨
    (¬ (s.enabled g = true ∧ s.navmesh.isSome = true ∧ (s.PendingNavmesh g ∨ s.PendingOn g)) ∧ (s.system (.draw g)).shown g = s.shown g ∧
      (s.system (.draw g)).lines g = s.lines g ∧ (s.system (.draw g)).fill g = s.fill g) := by
  have hc : s.condition (.draw g) = s.drawCondition g := by rcases hg with rfl | rfl <;> rfl
  have hb : ∀ t : View N, t.body (.draw g) = t.drawNavmesh g := by intro t; rcases hg with rfl | rfl <;> rfl
  have hq := quiet_draw s g
  unfold View.system
  dsimp only
  rw [hc]
  split
  · rename_i h
    obtain ⟨h1, h2, _⟩ := draw_value.1 h
    refine Or.inl ⟨h1, h2, ?_⟩
    rw [hb]
    simp [View.drawNavmesh, hq.navmesh]
  · rename_i h
    refine Or.inr ⟨fun hh => h (draw_value.2 hh), ?_⟩
    rw [hq.shown, hq.lines, hq.fill]; exact ⟨rfl, rfl, rfl⟩

theorem draw_idle {s : View N} {g : Gizmo} (hg : g.OfNavmesh) (h : ¬ (s.PendingNavmesh g ∨ s.PendingOn g)) :
    (s.system (.draw g)).shown g = s.shown g ∧ (s.system (.draw g)).lines g = s.lines g := by
  have hc : s.condition (.draw g) = s.drawCondition g := by rcases hg with rfl | rfl <;> rfl
  have hq := quiet_draw s g
  unfold View.system
  dsimp only
  rw [hc, if_neg fun hh => h (draw_value.1 hh).2.2, hq.shown, hq.lines]
  exact ⟨rfl, rfl⟩

theorem last_ran_le {s : View N} (ht : Ticks s) (c c' : Cond) : s.lastRun c ≤ (s.ran c').lastRun c := by
  have := ht.last c
  by_cases h : c = c'
  · subst h; simp [View.ran]; omega
  · rw [last_ran h]; exact Nat.le_refl _

theorem last_le {s : View N} (ht : Ticks s) (y : System) (c : Cond) : s.lastRun c ≤ (s.system y).lastRun c := by
  have hd : ∀ g, s.lastRun c ≤ (s.drawCondition g).2.lastRun c := by
    intro g
    unfold View.drawCondition
    split
    · exact Nat.le_refl _
    split
    · exact Nat.le_refl _
    dsimp only
    split
    · exact last_ran_le ht _ _
    · exact Nat.le_trans (last_ran_le ht _ _) (last_ran_le (ht.ran _) _ _)
  have hc : s.lastRun c ≤ (s.condition y).2.lastRun c := by
    rcases y with g | g <;> cases g <;> first | exact hd _ | exact last_ran_le ht _ _
  unfold View.system
  dsimp only
  split
  · rw [last_body]; exact hc
  · exact hc

/-- The run of a system that hides a navmesh. -/
theorem hide_cases {s : View N} {g : Gizmo} (hg : g.OfNavmesh) :
    (s.enabled g = false ∧ (s.system (.hide g)).shown g = false ∧ (s.system (.hide g)).lines g = none) ∨
    (¬ (s.enabled g = false ∧ s.PendingOff g) ∧ (s.system (.hide g)).shown g = s.shown g ∧
      (s.system (.hide g)).lines g = s.lines g ∧ (s.system (.hide g)).fill g = s.fill g) := by
  have hc : s.condition (.hide g) = s.toggledOff g := by rcases hg with rfl | rfl <;> rfl
  have hb : ∀ t : View N, t.body (.hide g) = t.hideNavmesh g := by intro t; rcases hg with rfl | rfl <;> rfl
  unfold View.system
  dsimp only
  rw [hc]
  split
  · rename_i h
    refine Or.inl ⟨(off_value.1 h).1, ?_⟩
    rw [hb]
    simp [View.hideNavmesh]
  · rename_i h
    exact Or.inr ⟨fun hh => h (off_value.2 hh), rfl, rfl, rfl⟩

/-! ### The navmesh -/

/-- What holds at all times. -/
structure NavInv (s : View N) (g : Gizmo) : Prop where
  fill : s.PendingNavmesh g ∨ s.PendingOn g ∨ s.FillDone g
  hide : s.PendingOff g ∨ s.HideDone g
  none : s.NoneDone g

theorem pending_system {s : View N} {y : System} {g : Gizmo} (h : y ≠ .draw g) :
    ((s.system y).PendingNavmesh g ↔ s.PendingNavmesh g) ∧ ((s.system y).PendingOn g ↔ s.PendingOn g) := by
  obtain ⟨_, e1, _, e2⟩ := system_enabled s y
  have u1 : ¬ y.uses (.navmeshChanged g) := by
    rcases y with g' | g' <;> simp [System.uses]
    rintro rfl; exact h rfl
  have u2 : ¬ y.uses (.toggledOn g) := by
    rcases y with g' | g' <;> simp [System.uses]
    rintro rfl; exact h rfl
  unfold View.PendingNavmesh View.PendingOn
  rw [last_system u1, last_system u2, e1, e2]
  exact ⟨Iff.rfl, Iff.rfl⟩

theorem pendingOff_system {s : View N} {y : System} {g : Gizmo} (h : y ≠ .hide g) : (s.system y).PendingOff g ↔ s.PendingOff g := by
  obtain ⟨_, e1, _, e2⟩ := system_enabled s y
  have u1 : ¬ y.uses (.toggledOff g) := by
    rcases y with g' | g' <;> simp [System.uses]
    rintro rfl; exact h rfl
  unfold View.PendingOff
  rw [last_system u1, e1]

/-- What is up to date stays so while systems run. -/
theorem FillDone.system {s : View N} {g : Gizmo} (hg : g.OfNavmesh) (h : s.FillDone g) (y : System) : (s.system y).FillDone g := by
  obtain ⟨e1, _, e2, _⟩ := system_enabled s y
  unfold View.FillDone
  rw [e1, e2]
  intro he n hn
  obtain ⟨h1, h2⟩ := h he n hn
  by_cases hd : y = .draw g
  · subst hd
    rcases draw_cases (s := s) hg with ⟨_, _, k1, _, k3⟩ | ⟨_, k1, _, k3⟩
    · exact ⟨k1, k3.trans hn⟩
    · exact ⟨k1.trans h1, k3.trans h2⟩
  by_cases hh : y = .hide g
  · subst hh
    rcases hide_cases (s := s) hg with ⟨k, _⟩ | ⟨_, k1, _, k3⟩
    · rw [k] at he; cases he
    · exact ⟨k1.trans h1, k3.trans h2⟩
  obtain ⟨k1, _, k3⟩ := system_other (s := s) hd hh
  exact ⟨k1.trans h1, k3.trans h2⟩

theorem LinesDone.system {s : View N} {g : Gizmo} (hg : g.OfNavmesh) (h : s.LinesDone g) (y : System) : (s.system y).LinesDone g := by
  obtain ⟨e1, _, e2, _⟩ := system_enabled s y
  unfold View.LinesDone
  rw [e1, e2]
  intro he n hn
  have h1 := h he n hn
  by_cases hd : y = .draw g
  · subst hd
    rcases draw_cases (s := s) hg with ⟨_, _, _, k, _⟩ | ⟨_, _, k, _⟩
    · exact k.trans hn
    · exact k.trans h1
  by_cases hh : y = .hide g
  · subst hh
    rcases hide_cases (s := s) hg with ⟨k, _⟩ | ⟨_, _, k, _⟩
    · rw [k] at he; cases he
    · exact k.trans h1
  exact (system_other (s := s) hd hh).2.1.trans h1

theorem HideDone.system {s : View N} {g : Gizmo} (hg : g.OfNavmesh) (h : s.HideDone g) (y : System) : (s.system y).HideDone g := by
  obtain ⟨e1, _, e2, _⟩ := system_enabled s y
  unfold View.HideDone
  rw [e1]
  intro he
  obtain ⟨h1, h2⟩ := h he
  by_cases hd : y = .draw g
  · subst hd
    rcases draw_cases (s := s) hg with ⟨k, _⟩ | ⟨_, k1, k2, _⟩
    · rw [k] at he; cases he
    · exact ⟨k1.trans h1, k2.trans h2⟩
  by_cases hh : y = .hide g
  · subst hh
    rcases hide_cases (s := s) hg with ⟨_, k⟩ | ⟨_, k1, k2, _⟩
    · exact k
    · exact ⟨k1.trans h1, k2.trans h2⟩
  obtain ⟨k1, k2, _⟩ := system_other (s := s) hd hh
  exact ⟨k1.trans h1, k2.trans h2⟩

theorem NoneDone.system {s : View N} {g : Gizmo} (hg : g.OfNavmesh) (h : s.NoneDone g) (y : System) : (s.system y).NoneDone g := by
  obtain ⟨e1, _, e2, _⟩ := system_enabled s y
  unfold View.NoneDone
  rw [e2]
  intro he
  obtain ⟨h1, h2⟩ := h he
  by_cases hd : y = .draw g
  · subst hd
    rcases draw_cases (s := s) hg with ⟨_, k, _⟩ | ⟨_, k1, k2, _⟩
    · rw [he] at k; cases k
    · exact ⟨k1.trans h1, k2.trans h2⟩
  by_cases hh : y = .hide g
  · subst hh
    rcases hide_cases (s := s) hg with ⟨_, k⟩ | ⟨_, k1, k2, _⟩
    · exact k
    · exact ⟨k1.trans h1, k2.trans h2⟩
  obtain ⟨k1, k2, _⟩ := system_other (s := s) hd hh
  exact ⟨k1.trans h1, k2.trans h2⟩

/-- After the drawing system has run, the triangles are up to date. -/
theorem fill_drawn {s : View N} {g : Gizmo} (hg : g.OfNavmesh) (h : s.PendingNavmesh g ∨ s.PendingOn g ∨ s.FillDone g) : (s.system (.draw g)).FillDone g := by
  rcases h with h | h | h
  · intro he n hn
    obtain ⟨e1, _, e2, _⟩ := system_enabled s (.draw g)
    rw [e1] at he; rw [e2] at hn
    rcases draw_cases (s := s) hg with ⟨_, _, k1, _, k3⟩ | ⟨k, _⟩
    · exact ⟨k1, k3.trans hn⟩
    · exact absurd ⟨he, by rw [hn]; rfl, Or.inl h⟩ k
  · intro he n hn
    obtain ⟨e1, _, e2, _⟩ := system_enabled s (.draw g)
    rw [e1] at he; rw [e2] at hn
    rcases draw_cases (s := s) hg with ⟨_, _, k1, _, k3⟩ | ⟨k, _⟩
    · exact ⟨k1, k3.trans hn⟩
    · exact absurd ⟨he, by rw [hn]; rfl, Or.inr h⟩ k
  · exact FillDone.system hg h _

theorem lines_drawn {s : View N} {g : Gizmo} (hg : g.OfNavmesh) (h : s.PendingNavmesh g ∨ s.PendingOn g ∨ s.LinesDone g) : (s.system (.draw g)).LinesDone g := by
  have main : (s.PendingNavmesh g ∨ s.PendingOn g) → (s.system (.draw g)).LinesDone g := by
    intro h he n hn
    obtain ⟨e1, _, e2, _⟩ := system_enabled s (.draw g)
    rw [e1] at he; rw [e2] at hn
    rcases draw_cases (s := s) hg with ⟨_, _, _, k, _⟩ | ⟨k, _⟩
    · exact k.trans hn
    · exact absurd ⟨he, by rw [hn]; rfl, h⟩ k
  rcases h with h | h | h
  · exact main (Or.inl h)
  · exact main (Or.inr h)
  · exact LinesDone.system hg h _

theorem hide_hidden {s : View N} {g : Gizmo} (hg : g.OfNavmesh) (h : s.PendingOff g ∨ s.HideDone g) : (s.system (.hide g)).HideDone g := by
  rcases h with h | h
  · intro he
    obtain ⟨e1, _, e2, _⟩ := system_enabled s (.hide g)
    rw [e1] at he
    rcases hide_cases (s := s) hg with ⟨_, k⟩ | ⟨k, _⟩
    · exact k
    · exact absurd ⟨he, h⟩ k
  · exact HideDone.system hg h _

theorem lines_system {s : View N} {g : Gizmo} (hg : g.OfNavmesh) (h : s.PendingNavmesh g ∨ s.PendingOn g ∨ s.LinesDone g) (y : System) :
    (s.system y).PendingNavmesh g ∨ (s.system y).PendingOn g ∨ (s.system y).LinesDone g := by
  by_cases hd : y = .draw g
  · subst hd; exact Or.inr (Or.inr (lines_drawn hg h))
  · obtain ⟨p1, p2⟩ := pending_system (s := s) hd
    rw [p1, p2]
    exact h.imp_right (Or.imp_right fun h => LinesDone.system hg h y)

theorem NavInv.system {s : View N} {g : Gizmo} (hg : g.OfNavmesh) (h : NavInv s g) (y : System) : NavInv (s.system y) g := by
  refine ⟨?_, ?_, NoneDone.system hg h.none y⟩
  · by_cases hd : y = .draw g
    · subst hd; exact Or.inr (Or.inr (fill_drawn hg h.fill))
    · obtain ⟨p1, p2⟩ := pending_system (s := s) hd
      rw [p1, p2]
      exact h.fill.imp_right (Or.imp_right fun h => FillDone.system hg h y)
  · by_cases hd : y = .hide g
    · subst hd; exact Or.inr (hide_hidden hg h.hide)
    · rw [pendingOff_system hd]
      exact h.hide.imp_right fun h => HideDone.system hg h y

theorem toggle_pending {s : View N} (h : Ticks s) (g g' : Gizmo) : (s.toggle g').PendingOn g ∧ (s.toggle g').PendingOff g := by
  have h1 := h.last (.toggledOn g); have h2 := h.last (.toggledOff g)
  unfold View.PendingOn View.PendingOff View.toggle
  dsimp only
  omega

theorem build_pending {s : View N} (h : Ticks s) (g : Gizmo) (n : N) : (s.build n).PendingNavmesh g := by
  have h1 := h.last (.navmeshChanged g)
  unfold View.PendingNavmesh View.build
  dsimp only
  omega

theorem NavInv.step {s : View N} {g : Gizmo} (hg : g.OfNavmesh) (ht : Ticks s) (h : NavInv s g) (e : Event N) : NavInv (s.step e) g := by
  cases e with
  | toggle g' =>
    obtain ⟨h1, h2⟩ := toggle_pending ht g g'
    exact ⟨Or.inr (Or.inl h1), Or.inl h2, h.none⟩
  | build n =>
    exact ⟨Or.inl (build_pending ht g n), h.hide, fun hn => by cases hn⟩
  | load a v =>
    refine ⟨h.fill, h.hide.imp_right fun h he => ⟨(h he).1, rfl⟩, fun hn => ⟨(h.none hn).1, rfl⟩⟩
  | system y => exact h.system hg y

theorem navInv_run {g : Gizmo} (hg : g.OfNavmesh) (h : List (Event N)) : NavInv (View.run h) g := by
  induction h using List.reverseRecOn with
  | nil =>
    refine ⟨Or.inr (Or.inl ?_), Or.inl ?_, fun _ => ⟨rfl, rfl⟩⟩
    · simp [View.run, View.init, View.PendingOn]
    · simp [View.run, View.init, View.PendingOff]
  | append_singleton h e ih => rw [run_append]; exact ih.step hg (ticks_run h) e

/-- A frame brings about what one of its systems brings about and the others keep. -/
theorem frame {p : List (Event N)} (hp : ∀ e ∈ p, ∃ y, e = .system y) {I D : View N → Prop} (hI : ∀ s y, I s → I (s.system y)) (hD : ∀ s y, D s → D (s.system y))
    {y₀ : System} (hy : ∀ s, I s → D (s.system y₀)) : ∀ (s : View N), I s → (D s ∨ .system y₀ ∈ p) → D (p.foldl View.step s) := by
  induction p with
  | nil => intro s _ h; exact h.resolve_right (by simp)
  | cons e p ih =>
    intro s hs h
    obtain ⟨y, rfl⟩ := hp e (by simp)
    refine ih (fun e he => hp e (by simp [he])) _ (hI s y hs) ?_
    rcases h with h | h
    · exact Or.inl (hD s y h)
    · rcases List.mem_cons.1 h with h | h
      · cases h; exact Or.inl (hy s hs)
      · exact Or.inr h

theorem keep {p : List (Event N)} (hp : ∀ e ∈ p, ∃ y, e = .system y) {D : View N → Prop} (hD : ∀ s y, D s → D (s.system y)) : ∀ (s : View N), D s →
    D (p.foldl View.step s) := by
  induction p with
  | nil => exact fun _ h => h
  | cons e p ih =>
    intro s hs
    obtain ⟨y, rfl⟩ := hp e (by simp)
    exact ih (fun e he => hp e (by simp [he])) _ (hD s y hs)

/-! ### The scene -/

theorem scene_other {s : View N} {y : System} : (y ≠ .draw .visual → y ≠ .hide .visual → (s.system y).visuals = s.visuals) ∧
    (y ≠ .draw .affector → y ≠ .hide .affector → (s.system y).affectors = s.affectors) := by
  have hq := quiet_condition s y
  unfold View.system
  dsimp only
  split
  · have h1 : y ≠ .draw .visual → y ≠ .hide .visual → ∀ t : View N, (t.body y).visuals = t.visuals := by
      intro h1 h2 t; rcases y with g | g <;> cases g <;> first | rfl | exact absurd rfl h1 | exact absurd rfl h2
    have h2 : y ≠ .draw .affector → y ≠ .hide .affector → ∀ t : View N, (t.body y).affectors = t.affectors := by
      intro h1 h2 t; rcases y with g | g <;> cases g <;> first | rfl | exact absurd rfl h1 | exact absurd rfl h2
    exact ⟨fun a b => (h1 a b _).trans hq.visuals, fun a b => (h2 a b _).trans hq.affectors⟩
  · exact ⟨fun _ _ => hq.visuals, fun _ _ => hq.affectors⟩

/-- The scene part of the view for one of the two boxes. -/
def View.part (s : View N) (g : Gizmo) : List Bool := if g = .visual then s.visuals else s.affectors

/-- The gizmos of the scene. -/
def Gizmo.OfScene (g : Gizmo) : Prop := g = .visual ∨ g = .affector

theorem part_other {s : View N} {y : System} {g : Gizmo} (hg : g.OfScene) (h1 : y ≠ .draw g) (h2 : y ≠ .hide g) : (s.system y).part g = s.part g := by
  rcases hg with rfl | rfl
  · simpa [View.part] using (scene_other (s := s)).1 h1 h2
  · simpa [View.part] using (scene_other (s := s)).2 h1 h2

theorem part_draw {s : View N} {g : Gizmo} (hg : g.OfScene) :
    (s.enabled g = true ∧ (s.system (.draw g)).part g = (s.part g).map fun _ => true) ∨
    (¬ (s.enabled g = true ∧ s.PendingOn g) ∧ (s.system (.draw g)).part g = s.part g) := by
  have hc : s.condition (.draw g) = s.toggledOn g := by rcases hg with rfl | rfl <;> rfl
  unfold View.system
  dsimp only
  rw [hc]
  split
  · rename_i h
    refine Or.inl ⟨(on_value.1 h).1, ?_⟩
    rcases hg with rfl | rfl <;> rfl
  · rename_i h
    refine Or.inr ⟨fun hh => h (on_value.2 hh), ?_⟩
    rcases hg with rfl | rfl <;> rfl

theorem part_hide {s : View N} {g : Gizmo} (hg : g.OfScene) :
    (s.enabled g = false ∧ (s.system (.hide g)).part g = (s.part g).map fun _ => false) ∨
    (¬ (s.enabled g = false ∧ s.PendingOff g) ∧ (s.system (.hide g)).part g = s.part g) := by
  have hc : s.condition (.hide g) = s.toggledOff g := by rcases hg with rfl | rfl <;> rfl
  unfold View.system
  dsimp only
  rw [hc]
  split
  · rename_i h
    refine Or.inl ⟨(off_value.1 h).1, ?_⟩
    rcases hg with rfl | rfl <;> rfl
  · rename_i h
    refine Or.inr ⟨fun hh => h (off_value.2 hh), ?_⟩
    rcases hg with rfl | rfl <;> rfl

/-- All entities of the scene are as the box says. -/
def View.SceneDone (s : View N) (g : Gizmo) (b : Bool) : Prop := s.enabled g = b → ∀ v ∈ s.part g, v = b

theorem SceneDone.system {s : View N} {g : Gizmo} (hg : g.OfScene) {b : Bool} (h : s.SceneDone g b) (y : System) : (s.system y).SceneDone g b := by
  obtain ⟨e1, _, _, _⟩ := system_enabled s y
  unfold View.SceneDone
  rw [e1]
  intro he
  have h1 := h he
  by_cases hd : y = .draw g
  · subst hd
    rcases part_draw (s := s) hg with ⟨k, k1⟩ | ⟨_, k⟩
    · rw [k1]; rw [k] at he; subst he
      intro v hv; obtain ⟨_, _, rfl⟩ := List.mem_map.1 hv; rfl
    · rw [k]; exact h1
  by_cases hh : y = .hide g
  · subst hh
    rcases part_hide (s := s) hg with ⟨k, k1⟩ | ⟨_, k⟩
    · rw [k1]; rw [k] at he; subst he
      intro v hv; obtain ⟨_, _, rfl⟩ := List.mem_map.1 hv; rfl
    · rw [k]; exact h1
  rw [part_other hg hd hh]; exact h1

/-- What holds unless a scene was loaded at the wrong time. -/
structure SceneInv (s : View N) (g : Gizmo) : Prop where
  on : s.PendingOn g ∨ s.SceneDone g true
  off : s.PendingOff g ∨ s.SceneDone g false

theorem scene_drawn {s : View N} {g : Gizmo} (hg : g.OfScene) (h : s.PendingOn g ∨ s.SceneDone g true) : (s.system (.draw g)).SceneDone g true := by
  rcases h with h | h
  · intro he
    rw [(system_enabled s _).1] at he
    rcases part_draw (s := s) hg with ⟨_, k⟩ | ⟨k, _⟩
    · rw [k]; intro v hv; obtain ⟨_, _, rfl⟩ := List.mem_map.1 hv; rfl
    · exact absurd ⟨he, h⟩ k
  · exact SceneDone.system hg h _

theorem scene_hidden {s : View N} {g : Gizmo} (hg : g.OfScene) (h : s.PendingOff g ∨ s.SceneDone g false) : (s.system (.hide g)).SceneDone g false := by
  rcases h with h | h
  · intro he
    rw [(system_enabled s _).1] at he
    rcases part_hide (s := s) hg with ⟨_, k⟩ | ⟨k, _⟩
    · rw [k]; intro v hv; obtain ⟨_, _, rfl⟩ := List.mem_map.1 hv; rfl
    · exact absurd ⟨he, h⟩ k
  · exact SceneDone.system hg h _

theorem SceneInv.system {s : View N} {g : Gizmo} (hg : g.OfScene) (h : SceneInv s g) (y : System) : SceneInv (s.system y) g := by
  refine ⟨?_, ?_⟩
  · by_cases hd : y = .draw g
    · subst hd; exact Or.inr (scene_drawn hg h.on)
    · rw [(pending_system hd).2]
      exact h.on.imp_right fun h => SceneDone.system hg h y
  · by_cases hd : y = .hide g
    · subst hd; exact Or.inr (scene_hidden hg h.off)
    · rw [pendingOff_system hd]
      exact h.off.imp_right fun h => SceneDone.system hg h y

theorem part_length_system {s : View N} {g : Gizmo} (hg : g.OfScene) (y : System) : ((s.system y).part g).length = (s.part g).length := by
  by_cases hd : y = .draw g
  · subst hd
    rcases part_draw (s := s) hg with ⟨_, k⟩ | ⟨_, k⟩ <;> rw [k]; simp
  by_cases hh : y = .hide g
  · subst hh
    rcases part_hide (s := s) hg with ⟨_, k⟩ | ⟨_, k⟩ <;> rw [k]; simp
  rw [part_other hg hd hh]

end Rerecast.EditorView
