import Verif.Lemmas.EditorView
/-! C94: the editor shows what is checked. -/
namespace Rerecast.EditorView
variable {N : Type}

section
variable [DecidableEq N]

theorem checked_append (h : List (Event N)) (e : Event N) (g : Gizmo) :
    checked (h ++ [e]) g = xor (checked h g) (decide (e = .toggle g)) := by
  unfold checked
  rw [List.count_append]
  by_cases he : e = .toggle g
  · subst he
    have : decide ((h.count (.toggle g) + 1) % 2 = 1) = !decide (h.count (Event.toggle (N := N) g) % 2 = 1) := by
      rcases Nat.mod_two_eq_zero_or_one (h.count (Event.toggle (N := N) g)) with h0 | h0
      · rw [Nat.add_mod, h0]; decide
      · rw [Nat.add_mod, h0]; decide
    simp only [List.count_singleton_self, this]
    cases checkedAtStart g <;> simp
  · have : List.count (Event.toggle g) [e] = 0 := List.count_eq_zero.2 (by simpa using fun hh => he hh.symm)
    simp [this, he]

theorem latest_append (h : List (Event N)) (e : Event N) : latest (h ++ [e]) = (latest [e]).or (latest h) := by
  induction h with
  | nil => simp [latest]
  | cons a h ih =>
    cases a <;> simp only [List.cons_append, latest, ih]
    rw [Option.or_assoc]

theorem scene_append (h : List (Event N)) (e : Event N) : scene (h ++ [e]) = (scene [e]).or (scene h) := by
  induction h with
  | nil => simp [scene]
  | cons a h ih =>
    cases a <;> simp only [List.cons_append, scene, ih]
    rw [Option.or_assoc]

/-- **C94 (boxes).** After any history a box is checked exactly if it was clicked an odd number of times since start-up (an even number of times for
the two boxes that are checked at start-up), and the navmesh is that of the last build. -/
theorem c94_boxes (h : List (Event N)) : (∀ g, (View.run h).enabled g = checked h g) ∧ (View.run h).navmesh = latest h := by
  induction h using List.reverseRecOn with
  | nil => exact ⟨fun g => by cases g <;> rfl, rfl⟩
  | append_singleton h e ih =>
    obtain ⟨i1, i2⟩ := ih
    rw [run_append, latest_append]
    cases e with
    | toggle g' =>
      refine ⟨fun g => ?_, by simpa [latest, View.step, View.toggle] using i2⟩
      rw [checked_append, ← i1 g]
      simp only [View.step, View.toggle]
      by_cases hg : g = g'
      · subst hg
        cases hh : (View.run h).enabled g <;> simp
      · have : ¬ (Event.toggle g' : Event N) = .toggle g := fun e => hg (by cases e; rfl)
        rw [decide_eq_false this, Bool.xor_false]
        split <;> rw [Function.update_of_ne hg]
    | build n => exact ⟨fun g => by rw [checked_append, ← i1 g]; simp [View.step, View.build], by simp [latest, View.step, View.build]⟩
    | load a v => exact ⟨fun g => by rw [checked_append, ← i1 g]; simp [View.step, View.load], by simpa [latest, View.step, View.load] using i2⟩
    | system y =>
      obtain ⟨e1, _, e2, _⟩ := system_enabled (View.run h) y
      exact ⟨fun g => by rw [checked_append, ← i1 g]; simp [View.step, e1], by simpa [latest, View.step, e2] using i2⟩

theorem frame_same {p : List (Event N)} (hp : ∀ e ∈ p, ∃ y, e = .system y) (s : View N) :
    (p.foldl View.step s).enabled = s.enabled ∧ (p.foldl View.step s).navmesh = s.navmesh := by
  induction p generalizing s with
  | nil => exact ⟨rfl, rfl⟩
  | cons e p ih =>
    obtain ⟨y, rfl⟩ := hp e (by simp)
    obtain ⟨h1, h2⟩ := ih (fun e he => hp e (by simp [he])) (s.system y)
    obtain ⟨e1, _, e2, _⟩ := system_enabled s y
    exact ⟨h1.trans e1, h2.trans e2⟩

/-- **C94 (navmesh).** After any history and a frame in which nothing else happens, the polygon mesh (the detail mesh) is shown if and only if its box
is checked and a navmesh was built; its triangles are those of the last navmesh; and its lines are gone if it is not shown. -/
theorem c94_navmesh (h p : List (Event N)) (hp : IsFrame p) (g : Gizmo) (hg : g = .polyMesh ∨ g = .detailMesh) :
    (View.run (h ++ p)).shown g = (checked h g && (latest h).isSome) ∧
    ((View.run (h ++ p)).shown g = true → (View.run (h ++ p)).fill g = latest h) ∧
    ((View.run (h ++ p)).shown g = false → (View.run (h ++ p)).lines g = none) := by
  obtain ⟨b1, b2⟩ := c94_boxes h
  have hinv := navInv_run hg h
  have hrun : View.run (h ++ p) = p.foldl View.step (View.run h) := by simp [View.run]
  rw [hrun]
  obtain ⟨f1, f2⟩ := frame_same hp.1 (View.run h)
  have d1 := frame hp.1 (I := fun s => NavInv s g) (D := fun s => s.FillDone g) (fun s y hs => hs.system hg y) (fun s y hs => FillDone.system hg hs y)
    (y₀ := .draw g) (fun s hs => fill_drawn hg hs.fill) (View.run h) hinv (Or.inr (hp.2 _))
  have d2 := frame hp.1 (I := fun s => NavInv s g) (D := fun s => s.HideDone g) (fun s y hs => hs.system hg y) (fun s y hs => HideDone.system hg hs y)
    (y₀ := .hide g) (fun s hs => hide_hidden hg hs.hide) (View.run h) hinv (Or.inr (hp.2 _))
  have d3 := keep hp.1 (D := fun s => s.NoneDone g) (fun s y hs => NoneDone.system hg hs y) (View.run h) hinv.none
  generalize hs : p.foldl View.step (View.run h) = s at *
  unfold View.FillDone at d1; unfold View.HideDone at d2; unfold View.NoneDone at d3
  rw [f1, f2, b1 g, b2] at d1
  rw [f1, b1 g] at d2
  rw [f2, b2] at d3
  cases hn : latest h with
  | none =>
    obtain ⟨k1, k2⟩ := d3 hn
    simp [k1, k2]
  | some n =>
    cases hc : checked h g with
    | false =>
      obtain ⟨k1, k2⟩ := d2 hc
      simp [k1, k2]
    | true =>
      obtain ⟨k1, k2⟩ := d1 hc n hn
      simp [k1, k2]

theorem lines_ready (h : List (Event N)) (g : Gizmo) (hg : g.OfNavmesh) :
    ((View.run h).PendingNavmesh g ∨ (View.run h).PendingOn g ∨ (View.run h).LinesDone g) ∨
    ∃ h₁ a v h₂, h = h₁ ++ .load a v :: h₂ ∧ ∀ e ∈ h₂, ¬ (e.IsToggle ∨ e.IsBuild) := by
  induction h using List.reverseRecOn with
  | nil => refine Or.inl (Or.inr (Or.inl ?_)); simp [View.run, View.init, View.PendingOn]
  | append_singleton h e ih =>
    rw [run_append]
    have ht := ticks_run h
    cases e with
    | toggle g' => exact Or.inl (Or.inr (Or.inl (toggle_pending ht g g').1))
    | build n => exact Or.inl (Or.inl (build_pending ht g n))
    | load a v => exact Or.inr ⟨h, a, v, [], rfl, by simp⟩
    | system y =>
      rcases ih with ih | ⟨h₁, a, v, h₂, rfl, ih⟩
      · exact Or.inl (lines_system hg ih y)
      · refine Or.inr ⟨h₁, a, v, h₂ ++ [.system y], by simp, ?_⟩
        intro e he
        rcases List.mem_append.1 he with he | he
        · exact ih e he
        · simp only [List.mem_singleton] at he
          subst he
          rintro (⟨_, h⟩ | ⟨_, h⟩) <;> cases h

/-- **C94 (lines, partial).** If after every load of a scene a box was clicked or a navmesh built, then after a frame the lines of the polygon mesh
(the detail mesh) are those of the last navmesh if its box is checked, and there are none otherwise.  Missing: the frames after a load, in which the
lines are gone although the box is checked (`c94_violated_lines`). -/
theorem c94_lines_partial (h p : List (Event N)) (hp : IsFrame p) (hload : RefreshedAfterLoad h) (g : Gizmo) (hg : g = .polyMesh ∨ g = .detailMesh) :
    (View.run (h ++ p)).lines g = if checked h g then latest h else none := by
  obtain ⟨b1, b2⟩ := c94_boxes h
  obtain ⟨n1, _, n3⟩ := c94_navmesh h p hp g hg
  have hrun : View.run (h ++ p) = p.foldl View.step (View.run h) := by simp [View.run]
  have hl : (View.run h).PendingNavmesh g ∨ (View.run h).PendingOn g ∨ (View.run h).LinesDone g := by
    refine (lines_ready h g hg).resolve_right ?_
    rintro ⟨h₁, a, v, h₂, he, hno⟩
    obtain ⟨e, hm, ht⟩ := hload h₁ a v h₂ he
    exact hno e hm ht
  have d := frame hp.1 (I := fun s : View N => s.PendingNavmesh g ∨ s.PendingOn g ∨ s.LinesDone g) (D := fun s => s.LinesDone g)
    (fun s y hs => lines_system hg hs y) (fun s y hs => LinesDone.system hg hs y) (y₀ := .draw g) (fun s hs => lines_drawn hg hs) (View.run h) hl (Or.inr (hp.2 _))
  obtain ⟨f1, f2⟩ := frame_same hp.1 (View.run h)
  rw [← hrun] at d f1 f2
  unfold View.LinesDone at d
  rw [f1, f2, b1 g, b2] at d
  cases hc : checked h g with
  | false => rw [hc] at n1; exact n3 (by simpa using n1)
  | true =>
    cases hn : latest h with
    | none => rw [hc, hn] at n1; exact n3 (by simpa using n1)
    | some n => exact d hc n hn

theorem scene_ready (h : List (Event N)) (g : Gizmo) (hg : g.OfScene) :
    SceneInv (View.run h) g ∨ ∃ h₁ a v h₂, h = h₁ ++ .load a v :: h₂ ∧ checked h₁ g = decide (g = .affector) ∧ ∀ e ∈ h₂, ¬ e.IsToggle := by
  induction h using List.reverseRecOn with
  | nil => refine Or.inl ⟨Or.inl ?_, Or.inl ?_⟩ <;> simp [View.run, View.init, View.PendingOn, View.PendingOff]
  | append_singleton h e ih =>
    have hb := (c94_boxes h).1 g
    rw [run_append]
    have ht := ticks_run h
    have later : ∀ e : Event N, ¬ e.IsToggle → (∃ h₁ a v h₂, h = h₁ ++ .load a v :: h₂ ∧ checked h₁ g = decide (g = .affector) ∧ ∀ e ∈ h₂, ¬ e.IsToggle) →
        ∃ h₁ a v h₂, h ++ [e] = h₁ ++ .load a v :: h₂ ∧ checked h₁ g = decide (g = .affector) ∧ ∀ e ∈ h₂, ¬ e.IsToggle := by
      rintro e he ⟨h₁, a, v, h₂, hh, hc, hno⟩
      refine ⟨h₁, a, v, h₂ ++ [e], by rw [hh]; simp, hc, ?_⟩
      intro e' he'
      rcases List.mem_append.1 he' with he' | he'
      · exact hno e' he'
      · simp only [List.mem_singleton] at he'
        rw [he']; exact he
    cases e with
    | toggle g' =>
      obtain ⟨h1, h2⟩ := toggle_pending ht g g'
      exact Or.inl ⟨Or.inl h1, Or.inl h2⟩
    | build n =>
      rcases ih with ih | ih
      · exact Or.inl ⟨ih.on, ih.off⟩
      · exact Or.inr (later _ (by rintro ⟨_, h⟩; cases h) ih)
    | load a v =>
      by_cases hc : checked h g = decide (g = .affector)
      · exact Or.inr ⟨h, a, v, [], rfl, hc, by simp⟩
      · left
        rw [← hb] at hc
        rcases hg with rfl | rfl
        · have hen : (View.run h).enabled .visual = true := by simpa using hc
          refine ⟨Or.inr fun _ w hw => ?_, Or.inr fun hf => ?_⟩
          · simp only [View.part, if_true, View.step, View.load] at hw
            exact List.eq_of_mem_replicate hw
          · have : (View.run h).enabled .visual = false := hf
            rw [hen] at this; cases this
        · have hen : (View.run h).enabled .affector = false := by simpa using hc
          refine ⟨Or.inr fun hf => ?_, Or.inr fun _ w hw => ?_⟩
          · have : (View.run h).enabled .affector = true := hf
            rw [hen] at this; cases this
          · simp only [View.part, if_neg (show ¬ Gizmo.affector = .visual by decide), View.step, View.load] at hw
            exact List.eq_of_mem_replicate hw
    | system y =>
      rcases ih with ih | ih
      · exact Or.inl (ih.system hg y)
      · exact Or.inr (later _ (by rintro ⟨_, h⟩; cases h) ih)

theorem part_length (h : List (Event N)) : ((View.run h).part .visual).length = ((scene h).map Prod.snd).getD 0 ∧
    ((View.run h).part .affector).length = ((scene h).map Prod.fst).getD 0 := by
  induction h using List.reverseRecOn with
  | nil => exact ⟨rfl, rfl⟩
  | append_singleton h e ih =>
    rw [run_append, scene_append]
    cases e with
    | toggle g => simpa [scene, View.step, View.toggle, View.part] using ih
    | build n => simpa [scene, View.step, View.build, View.part] using ih
    | load a v => simp [scene, View.step, View.load, View.part]
    | system y =>
      have h1 := part_length_system (s := View.run h) (g := .visual) (Or.inl rfl) y
      have h2 := part_length_system (s := View.run h) (g := .affector) (Or.inr rfl) y
      simp only [View.step, h1, h2, scene, Option.none_or]
      exact ih

theorem scene_done {h p : List (Event N)} (hp : IsFrame p) {g : Gizmo} (hg : g.OfScene) (hinv : SceneInv (View.run h) g) :
    ∀ v ∈ (View.run (h ++ p)).part g, v = checked h g := by
  have hb := (c94_boxes h).1 g
  have hrun : View.run (h ++ p) = p.foldl View.step (View.run h) := by simp [View.run]
  have d1 := frame hp.1 (I := fun s : View N => SceneInv s g) (D := fun s => s.SceneDone g true) (fun s y hs => hs.system hg y)
    (fun s y hs => SceneDone.system hg hs y) (y₀ := .draw g) (fun s hs => scene_drawn hg hs.on) (View.run h) hinv (Or.inr (hp.2 _))
  have d2 := frame hp.1 (I := fun s : View N => SceneInv s g) (D := fun s => s.SceneDone g false) (fun s y hs => hs.system hg y)
    (fun s y hs => SceneDone.system hg hs y) (y₀ := .hide g) (fun s hs => scene_hidden hg hs.off) (View.run h) hinv (Or.inr (hp.2 _))
  obtain ⟨f1, _⟩ := frame_same hp.1 (View.run h)
  rw [← hrun] at d1 d2 f1
  unfold View.SceneDone at d1 d2
  rw [f1, hb] at d1 d2
  cases hc : checked h g with
  | true => exact d1 hc
  | false => exact d2 hc

theorem scene_append_frame {p : List (Event N)} (hp : ∀ e ∈ p, ∃ y, e = .system y) : ∀ h : List (Event N), scene (h ++ p) = scene h := by
  induction p with
  | nil => simp
  | cons e p ih =>
    intro h
    obtain ⟨y, rfl⟩ := hp e (by simp)
    rw [show h ++ Event.system y :: p = (h ++ [.system y]) ++ p by simp, ih (fun e he => hp e (by simp [he])), scene_append]
    rfl

/-- **C94 (visual meshes, partial).** If every scene was loaded while the visual meshes were checked, or a box was clicked afterwards, then after a frame all
visual meshes of the last scene are visible if their box is checked, and none otherwise.  Missing: scenes loaded while the box is not checked, which are
visible nevertheless (`c94_violated_visuals`). -/
theorem c94_visuals_partial (h p : List (Event N)) (hp : IsFrame p) (hload : LoadedWhile .visual true h) :
    (View.run (h ++ p)).visuals = List.replicate (((scene h).map Prod.snd).getD 0) (checked h .visual) := by
  rw [List.eq_replicate_iff]
  refine ⟨?_, ?_⟩
  · have := (part_length (h ++ p)).1
    rw [scene_append_frame hp.1] at this
    exact this
  · refine scene_done hp (Or.inl rfl) ((scene_ready h _ (Or.inl rfl)).resolve_right ?_)
    rintro ⟨h₁, a, v, h₂, he, hc, hno⟩
    rcases hload h₁ a v h₂ he with h1 | ⟨e, hm, ht⟩
    · rw [hc] at h1; cases h1
    · exact hno e hm ht

/-- **C94 (affectors, partial).** If every scene was loaded while the affectors were not checked, or a box was clicked afterwards, then after a frame the lines
of all affectors of the last scene are drawn if their box is checked, and of none otherwise.  Missing: scenes loaded while the box is checked, whose
affectors are not drawn (`c94_violated_affectors`). -/
theorem c94_affectors_partial (h p : List (Event N)) (hp : IsFrame p) (hload : LoadedWhile .affector false h) :
    (View.run (h ++ p)).affectors = List.replicate (((scene h).map Prod.fst).getD 0) (checked h .affector) := by
  rw [List.eq_replicate_iff]
  refine ⟨?_, ?_⟩
  · have := (part_length (h ++ p)).2
    rw [scene_append_frame hp.1] at this
    exact this
  · refine scene_done hp (Or.inr rfl) ((scene_ready h _ (Or.inr rfl)).resolve_right ?_)
    rintro ⟨h₁, a, v, h₂, he, hc, hno⟩
    rcases hload h₁ a v h₂ he with h1 | ⟨e, hm, ht⟩
    · rw [hc] at h1; cases h1
    · exact hno e hm ht

end

/-- The systems in the order of the source. -/
def oneFrame : List (Event Nat) :=
  [.draw .polyMesh, .draw .detailMesh, .draw .affector, .draw .visual, .hide .polyMesh, .hide .detailMesh, .hide .affector, .hide .visual].map .system

theorem oneFrame_isFrame : IsFrame oneFrame := by
  refine ⟨fun e he => ?_, fun y => ?_⟩
  · obtain ⟨y, _, rfl⟩ := List.mem_map.1 he; exact ⟨y, rfl⟩
  · rcases y with g | g <;> cases g <;> decide

/-- A session: the scene is loaded, the polygon mesh checked and a navmesh built, with frames in between. -/
def session : List (Event Nat) := [.load 2 3] ++ oneFrame ++ [.toggle .polyMesh] ++ oneFrame ++ [.build 7] ++ oneFrame

theorem session_lines : RefreshedAfterLoad session := by
  intro h₁ a v h₂ he
  refine ⟨.build 7, ?_, Or.inr ⟨7, rfl⟩⟩
  have hm : (Event.build 7 : Event Nat) ∈ session.drop (h₁.length + 1) := by
    have hlen : h₁.length = 0 := by
      by_contra hne
      have h0 : session[h₁.length]? = some (.load a v) := by rw [he]; simp
      have : ∀ i < session.length, i ≠ 0 → ∀ a v, session[i]? ≠ some (.load a v) := by
        intro i hi hi0 a v hh
        have hd : ∀ i < 27, i ≠ 0 → (match session[i]? with | some (.load _ _) => false | _ => true) = true := by decide
        have hl : session.length = 27 := rfl
        have := hd i (by omega) hi0
        rw [hh] at this
        cases this
      exact this _ (List.getElem?_eq_some_iff.1 h0).1 hne a v h0
    rw [hlen]; decide
  rw [he] at hm
  simpa using hm

example : (View.run (session ++ oneFrame)).shown .polyMesh = true ∧ (View.run (session ++ oneFrame)).lines .polyMesh = some 7 := by
  have h1 := c94_navmesh session oneFrame oneFrame_isFrame .polyMesh (Or.inl rfl)
  have h2 := c94_lines_partial session oneFrame oneFrame_isFrame session_lines .polyMesh (Or.inl rfl)
  exact ⟨h1.1.trans (by decide), h2.trans (by decide)⟩

theorem loaded_first {g : Gizmo} {b : Bool} {a v : Nat} {h : List (Event Nat)} (hb : checked ([] : List (Event Nat)) g = b)
    (hno : ∀ e ∈ h, ∀ a v, e ≠ .load a v) : LoadedWhile g b (.load a v :: h) := by
  intro h₁ a' v' h₂ he
  cases h₁ with
  | nil => exact Or.inl hb
  | cons e h₁ =>
    exfalso
    simp only [List.cons_append, List.cons.injEq] at he
    exact hno (.load a' v') (by rw [he.2]; simp) a' v' rfl

theorem session_noLoad : ∀ e ∈ session.tail, ∀ a v, e ≠ .load a v := by
  intro e he a v hh
  subst hh
  have : ∀ e ∈ session.tail, (match e with | .load _ _ => false | _ => true) = true := by decide
  exact Bool.noConfusion (this _ he)

example : LoadedWhile .visual true session ∧ LoadedWhile .affector false session ∧ (View.run (session ++ oneFrame)).visuals = [true, true, true] ∧
    (View.run (session ++ oneFrame)).affectors = [false, false] := by
  have h1 : LoadedWhile .visual true session := loaded_first (a := 2) (v := 3) rfl session_noLoad
  have h2 : LoadedWhile .affector false session := loaded_first (a := 2) (v := 3) rfl session_noLoad
  exact ⟨h1, h2, (c94_visuals_partial _ _ oneFrame_isFrame h1).trans (by decide), (c94_affectors_partial _ _ oneFrame_isFrame h2).trans (by decide)⟩

/-- **C94 is violated (lines).** Loading a scene clears the lines of the navmesh that is still shown, and no later frame brings them back. -/
theorem c94_violated_lines : ∃ h : List (Event Nat), checked h .detailMesh = true ∧ latest h = some 7 ∧ ∀ k : Nat,
    (View.run (h ++ (List.replicate k oneFrame).flatten)).shown .detailMesh = true ∧
    (View.run (h ++ (List.replicate k oneFrame).flatten)).lines .detailMesh = none := by
  refine ⟨[.build 7] ++ oneFrame ++ oneFrame ++ [.load 1 1], by decide, by decide, fun k => ?_⟩
  rw [show View.run (([.build 7] ++ oneFrame ++ oneFrame ++ [.load 1 1]) ++ (List.replicate k oneFrame).flatten) =
    (List.replicate k oneFrame).flatten.foldl View.step (View.run ([.build 7] ++ oneFrame ++ oneFrame ++ [.load 1 1])) by simp [View.run]]
  have hp : ∀ e ∈ (List.replicate k oneFrame).flatten, ∃ y, e = .system y := by
    intro e he
    obtain ⟨l, hl, he⟩ := List.mem_flatten.1 he
    rw [List.eq_of_mem_replicate hl] at he
    exact oneFrame_isFrame.1 e he
  have key := keep hp (D := fun s : View Nat => Ticks s ∧ s.shown .detailMesh = true ∧ s.lines .detailMesh = none ∧
      s.enabled .detailMesh = true ∧ ¬ (s.PendingNavmesh .detailMesh ∨ s.PendingOn .detailMesh)) ?_
    (View.run ([.build 7] ++ oneFrame ++ oneFrame ++ [.load 1 1])) ⟨ticks_run _, by decide, by decide, by decide, by unfold View.PendingNavmesh View.PendingOn; decide⟩
  · exact ⟨key.2.1, key.2.2.1⟩
  · rintro s y ⟨st, s2, s3, s1, s4⟩
    obtain ⟨e1, e2, _, e4⟩ := system_enabled s y
    have hg : Gizmo.detailMesh.OfNavmesh := Or.inr rfl
    have hpend : ¬ ((s.system y).PendingNavmesh .detailMesh ∨ (s.system y).PendingOn .detailMesh) := by
      unfold View.PendingNavmesh View.PendingOn at s4 ⊢
      rw [e2, e4]
      have l1 := last_le st y (.navmeshChanged .detailMesh)
      have l2 := last_le st y (.toggledOn .detailMesh)
      omega
    have h2 : (s.system y).shown .detailMesh = s.shown .detailMesh ∧ (s.system y).lines .detailMesh = s.lines .detailMesh := by
      by_cases hd : y = .draw .detailMesh
      · subst hd; exact draw_idle hg s4
      by_cases hh : y = .hide .detailMesh
      · subst hh
        rcases hide_cases (s := s) hg with ⟨k, _⟩ | ⟨_, k1, k2, _⟩
        · rw [s1] at k; cases k
        · exact ⟨k1, k2⟩
      obtain ⟨k1, k2, _⟩ := system_other (s := s) hd hh
      exact ⟨k1, k2⟩
    exact ⟨st.step (.system y), h2.1.trans s2, h2.2.trans s3, by rw [e1]; exact s1, hpend⟩

/-- **C94 is violated (visual meshes).** Visual meshes are unchecked, a scene is loaded: its visual meshes are visible. -/
theorem c94_violated_visuals : checked ([.toggle .visual] ++ oneFrame ++ [.load 1 2]) .visual = false ∧
    (View.run (([.toggle .visual] ++ oneFrame ++ [.load 1 2]) ++ oneFrame)).visuals = [true, true] := by decide

/-- **C94 is violated (affectors).** Affectors are checked, a scene is loaded: its affectors are not drawn. -/
theorem c94_violated_affectors : checked ([.toggle .affector] ++ oneFrame ++ [.load 2 1]) .affector = true ∧
    (View.run (([.toggle .affector] ++ oneFrame ++ [.load 2 1]) ++ oneFrame)).affectors = [false, false] := by decide

end Rerecast.EditorView
