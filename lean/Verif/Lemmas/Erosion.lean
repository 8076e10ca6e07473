import Verif.Lemmas.Chamfer
/-! Boundary marking and the final pass of the erosion. -/
set_option linter.unusedVariables false
namespace Rerecast
namespace CompactHeightfield
open Classical

section
variable {chf : CompactHeightfield} (hwf : chf.WellFormed)
include hwf

theorem area_get {i : Nat} (hi : i < chf.spans.length) : ∃ a, chf.areas[i]? = some a :=
  ⟨_, List.getElem?_eq_getElem (by rw [hwf.areas_len]; exact hi)⟩

theorem walkableNeighbours_spec {i : Nat} {s : CompactSpan} (hs : chf.spans[i]? = some s) : ∀ (ds : List Nat) (n : Nat),
    (∀ d ∈ ds, d < 4) → Total (chf.walkableNeighbours (chf.xOf i) (chf.zOf i) s ds n) fun c =>
      c ≤ n + ds.length ∧ (c = n + ds.length ↔ ∀ d ∈ ds, ∃ k, chf.Link i d k ∧ chf.WalkableAt k)
  | [], n, _ => Total.ok (by simp)
  | d :: ds, n, hd => by
    have hd4 := hd d (by simp)
    unfold walkableNeighbours
    cases hc : s.con d with
    | none =>
      refine Total.ok ⟨by simp, ?_⟩
      simp only [List.length_cons]
      constructor
      · intro h; omega
      · intro h
        obtain ⟨k, hk, _⟩ := h d (by simp)
        obtain ⟨s', con, hs', hc', _⟩ := nbr_con hwf ((nbr_iff_link hwf hd4).2 hk) hd4
        rw [hs] at hs'; cases hs'; rw [hc] at hc'; cases hc'
    | some con =>
      obtain ⟨k, hk, hkl, _, hn⟩ := nbr_of_con hwf hs hd4 hc
      obtain ⟨a, ha⟩ := area_get hwf hkl
      simp only [hn, bind_ok, idx_some ha]
      by_cases hw : isWalkable a = true
      · simp only [hw, Bool.not_true, Bool.false_eq_true, if_false]
        refine Total.mono (walkableNeighbours_spec hs ds (n + 1) fun d hd' => hd d (by simp [hd'])) ?_
        rintro c ⟨h1, h2⟩
        simp only [List.length_cons]
        refine ⟨by omega, ?_⟩
        rw [show n + (ds.length + 1) = n + 1 + ds.length by omega, h2]
        constructor
        · intro h d' hd'
          rcases List.mem_cons.1 hd' with rfl | hd'
          · exact ⟨k, (nbr_iff_link hwf hd4).1 hk, a, ha, hw⟩
          · exact h d' hd'
        · intro h d' hd'; exact h d' (by simp [hd'])
      · simp only [Bool.not_eq_true] at hw
        simp only [hw, Bool.not_false, if_true]
        refine Total.ok ⟨by simp, ?_⟩
        simp only [List.length_cons]
        constructor
        · intro h; omega
        · intro h
          obtain ⟨k', hk', a', ha', hw'⟩ := h d (by simp)
          have e := (nbr_iff_link hwf hd4).2 hk'
          rw [hk] at e; cases e
          rw [ha] at ha'; cases ha'
          rw [hw] at hw'; cases hw'

noncomputable def edge0 (chf : CompactHeightfield) (i : Nat) : Nat := if chf.WalkableEdge i then 0 else 255

theorem erosionBoundary_spec : Total chf.erosionBoundary fun dist => Tab chf.spans.length dist chf.edge0 := by
  unfold erosionBoundary
  rw [forSpans_eq hwf]
  refine Total.mono (foldlM_range_total (P := fun n dist => Tab chf.spans.length dist
    (fun i => if i < n ∧ chf.WalkableEdge i then 0 else 255)) _ _ ?_ ?_) ?_
  · exact ⟨by simp, fun i hi => by simp [hi]⟩
  · intro i hi dist ht
    obtain ⟨a, ha⟩ := area_get hwf hi
    have hs := List.getElem?_eq_getElem hi
    have hset : chf.WalkableEdge i → Total (setIdx dist i 0) fun d => Tab chf.spans.length d
        (fun j => if j < i + 1 ∧ chf.WalkableEdge j then 0 else 255) := by
      intro he
      obtain ⟨h1, h2⟩ := ht.set hi 0
      refine ⟨_, h1, h2.congr ?_⟩
      intro j hj
      by_cases e : j = i
      · subst e; rw [Function.update_self, if_pos ⟨by omega, he⟩]
      · rw [Function.update_of_ne e]
        have : j < i ↔ j < i + 1 := by omega
        simp only [this]
    simp only [idx_some ha, bind_ok]
    by_cases hw : isWalkable a = true
    · simp only [hw, Bool.not_true, Bool.false_eq_true, if_false, idx_some hs, bind_ok]
      refine Total.bind (walkableNeighbours_spec hwf hs [0, 1, 2, 3] 0 (by decide)) ?_
      rintro c ⟨h1, h2⟩
      simp only [List.length_cons, List.length_nil] at h1 h2
      by_cases hc : c = 4
      · simp only [hc, ne_eq, not_true_eq_false, if_false]
        refine Total.ok (ht.congr ?_)
        intro j hj
        by_cases e : j = i
        · subst e
          have hne : ¬ chf.WalkableEdge j := by
            rintro ⟨_, h | ⟨d, hd, h⟩⟩
            · exact h ⟨a, ha, hw⟩
            · refine h (h2.1 (by omega) d ?_)
              simp; omega
          simp [hne]
        · have : j < i ↔ j < i + 1 := by omega
          simp only [this]
      · simp only [ne_eq, hc, not_false_eq_true, if_true]
        apply hset
        refine ⟨hi, Or.inr ?_⟩
        by_contra hcon
        push Not at hcon
        refine hc (h2.2 fun d hd => ?_)
        obtain ⟨k, h3⟩ := hcon d (by simp at hd; omega)
        exact ⟨k, h3⟩
    · simp only [Bool.not_eq_true] at hw
      simp only [hw, Bool.not_false, if_true]
      apply hset
      refine ⟨hi, Or.inl ?_⟩
      rintro ⟨a', ha', hw'⟩
      rw [ha] at ha'; cases ha'
      rw [hw] at hw'; cases hw'
  · intro dist ht
    refine ht.congr ?_
    intro i hi
    simp [edge0, hi]

theorem edge0_le (i) : chf.edge0 i ≤ 255 := by unfold edge0; split <;> omega

theorem addOK_sat {m a c : Nat} (hm : m ≤ 255) : AddOK satAddU8 m a c := ⟨_, rfl, by omega⟩

theorem swept_le {preds f0 f} {done : Nat → Prop} {b : Nat} (h : Swept preds f0 done f) (h0 : ∀ i, f0 i ≤ b) (i : Nat) : f i ≤ b := by
  by_cases hd : done i
  · exact Nat.le_trans (h.le i hd) (h0 i)
  · rw [h.todo i hd]; exact h0 i

theorem erode_spec : ∃ f1 f2, chf.Chamfer chf.edge0 f1 f2 ∧ ∀ r,
    (65535 < r * 2 → chf.erodeWalkableArea r = .error .panic) ∧
    (r * 2 ≤ 65535 → ∃ areas, chf.erodeWalkableArea r = .ok { chf with areas } ∧ areas.length = chf.areas.length ∧
      ∀ i < chf.spans.length, areas[i]? = if f2 i < r * 2 % 256 then some NOT_WALKABLE else chf.areas[i]?) := by
  obtain ⟨d0, e0, t0⟩ := erosionBoundary_spec hwf
  obtain ⟨d1, e1, f1, t1, s1⟩ := sweep1_spec hwf (add := satAddU8) t0
    (fun pre i post f he hs p hp => addOK_sat (chf := chf) hwf (swept_le (chf := chf) hwf hs (edge0_le hwf) i))
  obtain ⟨d2, e2, f2, t2, s2⟩ := sweep2_spec hwf (add := satAddU8) t1
    (fun pre i post f he hs p hp => addOK_sat (chf := chf) hwf (swept_le (chf := chf) hwf hs
      (fun j => swept_le (chf := chf) hwf s1 (edge0_le hwf) j) i))
  refine ⟨f1, f2, ⟨s1, s2⟩, fun r => ⟨?_, ?_⟩⟩
  · intro hr
    unfold erodeWalkableArea
    rw [e0, bind_ok, e1, bind_ok, e2, bind_ok, mulU16, if_neg (by omega)]; rfl
  · intro hr
    unfold erodeWalkableArea
    rw [e0, bind_ok, e1, bind_ok, e2, bind_ok, mulU16, if_pos (by omega), bind_ok]
    have key := foldlM_range_total (f := fun areas i => do
        let d ← idx d2 i
        if d < r * 2 % 256 then setIdx areas i NOT_WALKABLE else .ok areas)
      (P := fun n (areas : List Area) => areas.length = chf.areas.length ∧
        ∀ i < chf.spans.length, areas[i]? = if i < n ∧ f2 i < r * 2 % 256 then some NOT_WALKABLE else chf.areas[i]?)
      chf.spans.length chf.areas ⟨rfl, by simp⟩ ?_
    · obtain ⟨areas, ea, hl, hg⟩ := key
      refine ⟨areas, ?_, hl, ?_⟩
      · simp only [ea, bind_ok]
      · intro i hi
        rw [hg i hi]; simp [hi]
    · rintro i hi areas ⟨hl, hg⟩
      simp only [t2.idx hi, bind_ok]
      split
      · rename_i hlt
        refine ⟨_, setIdx_ok (by rw [hl, hwf.areas_len]; exact hi), by rw [List.length_set]; exact hl, ?_⟩
        intro j hj
        by_cases e : j = i
        · subst e
          rw [List.getElem?_set_self (by rw [hl, hwf.areas_len]; exact hi), if_pos ⟨by omega, hlt⟩]
        · rw [List.getElem?_set_ne (fun h => e h.symm), hg j hj]
          have : j < i ↔ j < i + 1 := by omega
          simp only [this]
      · rename_i hlt
        refine Total.ok ⟨hl, ?_⟩
        intro j hj
        rw [hg j hj]
        by_cases e : j = i
        · subst e; simp [hlt]
        · have : j < i ↔ j < i + 1 := by omega
          simp only [this]

/-- From a span with a large final value, every up-then-down route of at most that cost can be followed over `G` spans. -/
theorem clear_route {f0 f1 f2} (hc : chf.Chamfer f0 f1 f2) {G : Nat → Prop}
    (inner : ∀ {i : Nat}, i < chf.spans.length → G i → 0 < f0 i → ∀ d < 4, ∃ j, chf.Link i d j ∧ G j) :
    ∀ (us ds : List (List Nat × Nat)), (∀ m ∈ us, m ∈ upMoves) → (∀ m ∈ ds, m ∈ downMoves) →
    ∀ {i : Nat}, i < chf.spans.length → G i → cost us + cost ds ≤ f2 i →
      ∃ k, chf.PathThrough G i (dirs us ++ dirs ds) k := by
  have inner : ∀ {i : Nat}, i < chf.spans.length → G i → 0 < f1 i → ∀ d < 4, ∃ j, chf.Link i d j ∧ G j :=
    fun hi hg h => inner hi hg (Nat.lt_of_lt_of_le h (hc.le01 _))
  have lk : ∀ {i d j : Nat}, d < 4 → chf.Link i d j → j < chf.spans.length := fun hd h =>
    (nbr_lt hwf hd ((nbr_iff_link hwf hd).2 h)).2
  have cpos : ∀ (L : List (List Nat × Nat)) (m), cost (m :: L) = m.2 + cost L := by intro L m; simp [cost]
  have dcons : ∀ (L : List (List Nat × Nat)) (m), dirs (m :: L) = m.1 ++ dirs L := by intro L m; simp [dirs]
  have pdown : ∀ (ds : List (List Nat × Nat)), (∀ m ∈ ds, m ∈ downMoves) → ∀ {i : Nat}, i < chf.spans.length →
      G i → cost ds ≤ f1 i → ∃ k, chf.PathThrough G i (dirs ds) k := by
    intro ds
    induction ds with
    | nil => intro _ i hi hw _; exact ⟨i, rfl, hw⟩
    | cons m ds ih =>
      intro hd i hi hw hcost
      rw [cpos] at hcost
      have hm := hd m (by simp)
      have hd' : ∀ m ∈ ds, m ∈ downMoves := fun m hm => hd m (by simp [hm])
      -- one step and, for diagonal moves, a second one
      have step : ∃ j, chf.PathThrough G i m.1 j ∧ j < chf.spans.length ∧ G j ∧ cost ds ≤ f1 j := by
        have hpath : ∀ j, chf.PathThrough G i m.1 j → chf.Path i m.1 j := by
          intro j hj
          have : ∀ (ds : List Nat) (i : Nat), chf.PathThrough G i ds j → chf.Path i ds j := by
            intro ds
            induction ds with
            | nil => intro i h; exact h.1
            | cons d ds ih => rintro i ⟨_, a, h1, h2⟩; exact ⟨a, h1, ih a h2⟩
          exact this _ _ hj
        have hm' := hm
        simp only [downMoves, List.mem_cons, List.not_mem_nil, or_false] at hm
        have axis : ∀ d < 4, m = ([d], 2) → ∃ j, chf.PathThrough G i m.1 j ∧ j < chf.spans.length ∧ G j ∧ cost ds ≤ f1 j := by
          rintro d hd4 rfl
          obtain ⟨j, h1, h2⟩ := inner hi hw (by simp at hcost; omega) d hd4
          have hp : chf.PathThrough G i [d] j := ⟨hw, j, h1, rfl, h2⟩
          have := hc.down hwf hm' (hpath j hp)
          exact ⟨j, hp, lk hd4 h1, h2, by simp at *; omega⟩
        have diag : ∀ d < 4, ∀ d' < 4, m = ([d, d'], 3) → ([d], 2) ∈ downMoves →
            ∃ j, chf.PathThrough G i m.1 j ∧ j < chf.spans.length ∧ G j ∧ cost ds ≤ f1 j := by
          rintro d hd4 d' hd4' rfl hax
          obtain ⟨j, h1, h2⟩ := inner hi hw (by simp at hcost; omega) d hd4
          have h3 := hc.down hwf hax (k := j) ⟨j, h1, rfl⟩
          obtain ⟨b, h4, h5⟩ := inner (lk hd4 h1) h2 (by simp at hcost h3; omega) d' hd4'
          have hp : chf.PathThrough G i [d, d'] b := ⟨hw, j, h1, h2, b, h4, rfl, h5⟩
          have := hc.down hwf hm' (hpath b hp)
          exact ⟨b, hp, lk hd4' h4, h5, by simp at *; omega⟩
        rcases hm with rfl | rfl | rfl | rfl
        · exact axis 0 (by omega) rfl
        · exact axis 3 (by omega) rfl
        · exact diag 0 (by omega) 3 (by omega) rfl (by decide)
        · exact diag 3 (by omega) 2 (by omega) rfl (by decide)
      obtain ⟨j, h1, h2, h3, h4⟩ := step
      obtain ⟨k, hk⟩ := ih hd' h2 h3 h4
      exact ⟨k, by rw [dcons]; exact walkablePath_append h1 hk⟩
  intro us
  induction us with
  | nil =>
    intro ds _ hd i hi hw hcost
    have := hc.le12 i
    obtain ⟨k, hk⟩ := pdown ds hd hi hw (by simp [cost] at *; omega)
    exact ⟨k, by simpa [dirs] using hk⟩
  | cons m us ih =>
    intro ds hu hd i hi hw hcost
    rw [cpos] at hcost
    have hm := hu m (by simp)
    have hu' : ∀ m ∈ us, m ∈ upMoves := fun m hm => hu m (by simp [hm])
    have step : ∃ j, chf.PathThrough G i m.1 j ∧ j < chf.spans.length ∧ G j ∧ cost us + cost ds ≤ f2 j := by
      have hpath : ∀ j, chf.PathThrough G i m.1 j → chf.Path i m.1 j := by
        intro j hj
        have : ∀ (ds : List Nat) (i : Nat), chf.PathThrough G i ds j → chf.Path i ds j := by
          intro ds
          induction ds with
          | nil => intro i h; exact h.1
          | cons d ds ih => rintro i ⟨_, a, h1, h2⟩; exact ⟨a, h1, ih a h2⟩
        exact this _ _ hj
      have hm' := hm
      simp only [upMoves, List.mem_cons, List.not_mem_nil, or_false] at hm
      have l12 := hc.le12 i
      have axis : ∀ d < 4, m = ([d], 2) → ∃ j, chf.PathThrough G i m.1 j ∧ j < chf.spans.length ∧ G j ∧ cost us + cost ds ≤ f2 j := by
        rintro d hd4 rfl
        obtain ⟨j, h1, h2⟩ := inner hi hw (by simp at hcost; omega) d hd4
        have hp : chf.PathThrough G i [d] j := ⟨hw, j, h1, rfl, h2⟩
        have := hc.up hwf hm' (hpath j hp)
        exact ⟨j, hp, lk hd4 h1, h2, by simp at *; omega⟩
      have diag : ∀ d < 4, ∀ d' < 4, m = ([d, d'], 3) → ([d], 2) ∈ upMoves →
          ∃ j, chf.PathThrough G i m.1 j ∧ j < chf.spans.length ∧ G j ∧ cost us + cost ds ≤ f2 j := by
        rintro d hd4 d' hd4' rfl hax
        obtain ⟨j, h1, h2⟩ := inner hi hw (by simp at hcost; omega) d hd4
        have h3 := hc.up hwf hax (k := j) ⟨j, h1, rfl⟩
        have := hc.le12 j
        obtain ⟨b, h4, h5⟩ := inner (lk hd4 h1) h2 (by simp at hcost h3; omega) d' hd4'
        have hp : chf.PathThrough G i [d, d'] b := ⟨hw, j, h1, h2, b, h4, rfl, h5⟩
        have := hc.up hwf hm' (hpath b hp)
        exact ⟨b, hp, lk hd4' h4, h5, by simp at *; omega⟩
      rcases hm with rfl | rfl | rfl | rfl
      · exact axis 2 (by omega) rfl
      · exact axis 1 (by omega) rfl
      · exact diag 2 (by omega) 1 (by omega) rfl (by decide)
      · exact diag 1 (by omega) 0 (by omega) rfl (by decide)
    obtain ⟨j, h1, h2, h3, h4⟩ := step
    obtain ⟨k, hk⟩ := ih ds hu' hd h2 h3 h4
    exact ⟨k, by rw [dcons, List.append_assoc]; exact walkablePath_append h1 hk⟩

theorem walkable_path {G : Nat → Prop} {i k : Nat} : ∀ (ds : List Nat), chf.PathThrough G i ds k → chf.Path i ds k := by
  intro ds
  induction ds generalizing i with
  | nil => intro h; exact h.1
  | cons d ds ih => rintro ⟨_, a, h1, h2⟩; exact ⟨a, h1, ih h2⟩

/-- From a span with a large final value, every cell within that chamfer cost can be reached over `G` spans. -/
theorem clear_octile {f0 f1 f2} (hc : chf.Chamfer f0 f1 f2) {G : Nat → Prop}
    (inner : ∀ {i : Nat}, i < chf.spans.length → G i → 0 < f0 i → ∀ d < 4, ∃ j, chf.Link i d j ∧ G j)
    (hG : ∀ {k : Nat}, G k → k < chf.spans.length) {i x z : Nat} {s : CompactSpan} (hat : chf.At x z i s) (hg : G i)
    (dx dz : Int) (hd : octile dx dz ≤ f2 i) : ∃ ds k, (∀ d ∈ ds, d < 4) ∧ chf.PathThrough G i ds k ∧ chf.InCell k (x + dx) (z + dz) := by
  have hi : i < chf.spans.length := (List.getElem?_eq_some_iff.1 hat.2.2.1).1
  obtain ⟨us, ds, hu, hdn, hcost, ex, ez⟩ := moves_to dx dz
  obtain ⟨k, hk⟩ := clear_route hwf hc inner us ds hu hdn hi hg (by omega)
  have hds : ∀ d ∈ dirs us ++ dirs ds, d < 4 := by
    intro d hd
    simp only [dirs, List.mem_append, List.mem_flatMap] at hd
    have hup : ∀ m ∈ upMoves, ∀ d ∈ m.1, d < 4 := by decide
    have hdo : ∀ m ∈ downMoves, ∀ d ∈ m.1, d < 4 := by decide
    rcases hd with ⟨m, hm, hd⟩ | ⟨m, hm, hd⟩
    · exact hup m (hu m hm) d hd
    · exact hdo m (hdn m hm) d hd
  refine ⟨_, k, hds, hk, ?_⟩
  obtain ⟨e1, e2⟩ := path_offset hwf hds (walkable_path hwf _ hk)
  obtain ⟨rfl, rfl⟩ := at_unique hwf hat
  have hkl : k < chf.spans.length := by
    have last : ∀ (ds : List Nat) (i : Nat), chf.PathThrough G i ds k → G k := by
      intro ds
      induction ds with
      | nil => rintro i ⟨rfl, h⟩; exact h
      | cons d ds ih => rintro i ⟨_, a, _, h⟩; exact ih a h
    exact hG (last _ _ hk)
  exact ⟨_, _, _, by rw [e1, ex], by rw [e2, ez], at_spec hwf (List.getElem?_eq_getElem hkl)⟩

end
end CompactHeightfield
end Rerecast
