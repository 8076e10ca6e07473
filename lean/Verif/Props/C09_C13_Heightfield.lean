import Verif.Lemmas.HeightfieldHistory
/-!
C09-C13: the voxel columns of a heightfield under arbitrary insertion histories.

Vocabulary (`Verif/Spec/Heightfield.lean`): `visit` / `column` iterate a column exactly as the API
documentation does, `Separated`, `Occupied`, `geom`, `Touches` are plain list predicates.
-/
namespace Rerecast
open Heightfield

/-- A history used to show that the hypotheses below are satisfiable: three columns, merging, touching. -/
def sampleOps : List Insertion :=
  [⟨0, 0, 1, 2, 4, 2⟩, ⟨0, 0, 1, 7, 10, 0⟩, ⟨1, 1, 0, 3, 5, 255⟩, ⟨0, 0, 1, 4, 6, 9⟩, ⟨0, 0, 1, 12, 14, 3⟩]

theorem sampleOps_valid : ValidOps 2 2 sampleOps := by unfold ValidOps; decide

/-- **C09.** After any valid history, iterating any column terminates and yields non-inverted spans,
strictly ascending and separated by gaps. -/
theorem c09_columns_sorted (w h : Nat) (ops : List Insertion) (hv : ValidOps w h ops) :
    ∃ hf, (Heightfield.new w h).insertAll ops = .ok hf ∧
      ∀ x < w, ∀ z < h, ∃ l, hf.column (x + z * w) = .ok l ∧ Separated l ∧ ∀ s ∈ l, s.min ≤ s.max := by
  obtain ⟨hf, cols, h1, hr⟩ := reached_of_valid ops hv
  refine ⟨hf, h1, fun x hx z hz => ⟨_, hr.rep.column (by rw [hr.len]; exact col_lt hx hz), ?_, ?_⟩⟩
  · exact hr.sep _ (col_lt hx hz)
  · exact hr.proper _ (col_lt hx hz)

/-- **C09 (links).** After any valid history, every live slot is visited by exactly one column, exactly
once: no leak, no sharing, no dangling link, no cycle. -/
theorem c09_no_leak_no_sharing (w h : Nat) (ops : List Insertion) (hv : ValidOps w h ops) :
    ∃ hf, (Heightfield.new w h).insertAll ops = .ok hf ∧
      ∃ vis : Nat → List (SpanKey × Span),
        (∀ c < w * h, hf.visit c = .ok (vis c)) ∧
        (∀ c < w * h, ((vis c).map Prod.fst).Nodup) ∧
        (∀ c < w * h, ∀ p ∈ vis c, hf.span p.1 = .ok p.2) ∧
        (∀ c < w * h, ∀ c' < w * h, c ≠ c' → ∀ k ∈ (vis c).map Prod.fst, k ∉ (vis c').map Prod.fst) ∧
        (∀ k, hf.Live k → ∃ c < w * h, k ∈ (vis c).map Prod.fst) := by
  obtain ⟨hf, cols, h1, hr⟩ := reached_of_valid ops hv
  have hlen := hr.len
  have hvis : ∀ c, ∃ l, c < w * h → hf.visit c = .ok l ∧ l.map (fun p => (p.1, p.2.solid)) = cols c := by
    intro c
    by_cases hc : c < w * h
    · obtain ⟨l, hl⟩ := hr.rep.visit (c := c) (by omega)
      exact ⟨l, fun _ => hl⟩
    · exact ⟨[], fun h => absurd h hc⟩
  obtain ⟨vis, hvis⟩ := Classical.axiomOfChoice hvis
  have hkeys : ∀ c, c < w * h → (vis c).map Prod.fst = keys (cols c) := by
    intro c hc
    rw [← (hvis c hc).2]; simp [keys]
  refine ⟨hf, h1, vis, fun c hc => (hvis c hc).1, ?_, ?_, ?_, ?_⟩
  · intro c hc; rw [hkeys c hc]; exact hr.rep.nodup c (by omega)
  · intro c hc p hp
    have hv := (hvis c hc).1
    have : ∀ fuel a l, hf.visitFrom fuel a = .ok l → ∀ p ∈ l, hf.span p.1 = .ok p.2 := by
      intro fuel
      induction fuel with
      | zero =>
        intro a l hl p hp
        cases a with
        | none => simp [visitFrom] at hl; subst hl; simp at hp
        | some k => simp [visitFrom] at hl
      | succ fuel ih =>
        intro a l hl p hp
        cases a with
        | none => simp [visitFrom] at hl; subst hl; simp at hp
        | some k =>
          simp only [visitFrom] at hl
          cases hs : hf.span k with
          | error e => simp [hs] at hl
          | ok s =>
            simp only [hs, bind_ok] at hl
            cases hr : hf.visitFrom fuel s.next with
            | error e => simp [hr] at hl
            | ok rest =>
              simp only [hr, bind_ok] at hl
              cases hl
              simp at hp; rcases hp with rfl | hp
              · exact hs
              · exact ih _ _ hr p hp
    have hc' : c < hf.spans.length := by omega
    simp only [Heightfield.visit, idx_ok hc', bind_ok] at hv
    exact this _ _ _ hv p hp
  · intro c hc c' hc' hne k hk
    rw [hkeys c hc] at hk; rw [hkeys c' hc']
    exact hr.rep.disj c (by omega) c' (by omega) hne k hk
  · rintro k ⟨s, hs⟩
    obtain ⟨c, hc, hk⟩ := hr.rep.noleak k s (span_eq_ok.1 hs)
    exact ⟨c, by omega, by rw [hkeys c (by omega)]; exact hk⟩

example : ∃ hf, (Heightfield.new 2 2).insertAll sampleOps = .ok hf ∧
    hf.column 0 = .ok [⟨2, 6, 9⟩, ⟨7, 10, 0⟩, ⟨12, 14, 3⟩] ∧ hf.column 3 = .ok [⟨3, 5, 255⟩] :=
  ⟨_, rfl, by decide, by decide⟩

/-- **C10.** A voxel of a column is solid exactly when some request for that column contained it. -/
theorem c10_occupied_iff_inserted (w h : Nat) (ops : List Insertion) (hv : ValidOps w h ops) :
    ∃ hf, (Heightfield.new w h).insertAll ops = .ok hf ∧
      ∀ x < w, ∀ z < h, ∃ l, hf.column (x + z * w) = .ok l ∧
        ∀ v, Occupied l v ↔ ∃ i ∈ ops, i.x = x ∧ i.z = z ∧ i.min ≤ v ∧ v < i.max := by
  obtain ⟨hf, cols, h1, hr⟩ := reached_of_valid ops hv
  refine ⟨hf, h1, fun x hx z hz => ⟨_, hr.rep.column (by rw [hr.len]; exact col_lt hx hz), fun v => ?_⟩⟩
  rw [hr.occ _ (col_lt hx hz) v]
  constructor
  · rintro ⟨i, hi, hc, h2, h3⟩
    have hix := (hv i hi).1
    have e1 : i.x = x := by
      have := congrArg (· % w) hc
      simp only [Nat.add_mul_mod_self_right, Nat.mod_eq_of_lt hix, Nat.mod_eq_of_lt hx] at this
      exact this
    have e2 : i.z = z := by
      rw [e1] at hc
      have : i.z * w = z * w := by omega
      exact Nat.eq_of_mul_eq_mul_right (by omega) this
    exact ⟨i, hi, e1, e2, h2, h3⟩
  · rintro ⟨i, hi, rfl, rfl, h2, h3⟩; exact ⟨i, hi, rfl, h2, h3⟩

/-- **C11.** Two histories that request the same blocks in a different order (with whatever areas and merge
thresholds) produce the same `(min, max)` geometry in every column. -/
theorem c11_order_independent (w h : Nat) (ops ops' : List Insertion)
    (hv : ValidOps w h ops) (hv' : ValidOps w h ops') (hne : ∀ i ∈ ops, i.min < i.max)
    (hperm : (ops.map fun i => (i.x, i.z, i.min, i.max)).Perm (ops'.map fun i => (i.x, i.z, i.min, i.max))) :
    ∃ hf hf', (Heightfield.new w h).insertAll ops = .ok hf ∧
      (Heightfield.new w h).insertAll ops' = .ok hf' ∧
      ∀ x < w, ∀ z < h, ∃ l l', hf.column (x + z * w) = .ok l ∧ hf'.column (x + z * w) = .ok l' ∧
        geom l = geom l' := by
  obtain ⟨hf, cols, h1, hr⟩ := reached_of_valid ops hv
  obtain ⟨hf', cols', h1', hr'⟩ := reached_of_valid ops' hv'
  have tr : ∀ {a b : List Insertion},
      (a.map fun i => (i.x, i.z, i.min, i.max)).Perm (b.map fun i => (i.x, i.z, i.min, i.max)) →
      ∀ i ∈ a, ∃ j ∈ b, j.x = i.x ∧ j.z = i.z ∧ j.min = i.min ∧ j.max = i.max := by
    intro a b hp i hi
    have : (i.x, i.z, i.min, i.max) ∈ b.map fun i => (i.x, i.z, i.min, i.max) :=
      hp.subset (List.mem_map_of_mem hi)
    rw [List.mem_map] at this
    obtain ⟨j, hj, he⟩ := this
    simp at he
    exact ⟨j, hj, he.1, he.2.1, he.2.2.1, he.2.2.2⟩
  have hne' : ∀ i ∈ ops', i.min < i.max := by
    intro i hi
    obtain ⟨j, hj, _, _, e1, e2⟩ := tr hperm.symm i hi
    have := hne j hj; omega
  refine ⟨hf, hf', h1, h1', fun x hx z hz => ?_⟩
  have hlt := col_lt hx hz
  refine ⟨_, _, hr.rep.column (by rw [hr.len]; exact hlt), hr'.rep.column (by rw [hr'.len]; exact hlt), ?_⟩
  refine geom_canonical _ _ (hr.sep _ hlt) (hr'.sep _ hlt) (hr.strict hne _ hlt) (hr'.strict hne' _ hlt) ?_
  intro v
  rw [hr.occ _ hlt v, hr'.occ _ hlt v]
  constructor
  · rintro ⟨i, hi, hc, h2, h3⟩
    obtain ⟨j, hj, e1, e2, e3, e4⟩ := tr hperm i hi
    exact ⟨j, hj, by rw [e1, e2]; exact hc, by omega, by omega⟩
  · rintro ⟨i, hi, hc, h2, h3⟩
    obtain ⟨j, hj, e1, e2, e3, e4⟩ := tr hperm.symm i hi
    exact ⟨j, hj, by rw [e1, e2]; exact hc, by omega, by omega⟩

example : (∀ i ∈ sampleOps, i.min < i.max) ∧ ValidOps 2 2 sampleOps.reverse ∧
    (sampleOps.map fun i => (i.x, i.z, i.min, i.max)).Perm
      (sampleOps.reverse.map fun i => (i.x, i.z, i.min, i.max)) :=
  ⟨by decide, by unfold ValidOps; decide, (List.reverse_perm sampleOps).symm.map _⟩

/-- Areas, unlike geometry, do depend on the insertion order: the same three blocks in two orders give
the merged span different areas (threshold 0). -/
theorem c11_areas_do_depend_on_order :
    ∃ ops ops' : List Insertion, ops.Perm ops' ∧ ValidOps 1 1 ops ∧
      ((Heightfield.new 1 1).insertAll ops >>= fun hf => hf.column 0) = .ok [⟨0, 5, 7⟩] ∧
      ((Heightfield.new 1 1).insertAll ops' >>= fun hf => hf.column 0) = .ok [⟨0, 5, 3⟩] :=
  ⟨[⟨0, 0, 0, 0, 5, 3⟩, ⟨0, 0, 0, 0, 2, 7⟩], [⟨0, 0, 0, 0, 2, 7⟩, ⟨0, 0, 0, 0, 5, 3⟩],
    List.Perm.swap _ _ _, by unfold ValidOps; decide, by decide, by decide⟩

/-- **C12.** From any reachable heightfield, an insertion at an in-grid position changes only that column;
an insertion with `x` in the grid and `z` outside is rejected with an error (and, being a rejected call,
returns no modified heightfield). -/
theorem c12_frame (w h : Nat) (ops : List Insertion) (hv : ValidOps w h ops) :
    ∃ hf, (Heightfield.new w h).insertAll ops = .ok hf ∧
      (∀ i : Insertion, i.x < w → i.z < h → i.min ≤ i.max → ∃ hf', hf.insert i = .ok hf' ∧
        ∀ x < w, ∀ z < h, (x, z) ≠ (i.x, i.z) → hf'.column (x + z * w) = hf.column (x + z * w)) ∧
      (∀ i : Insertion, h ≤ i.z → hf.insert i = .error .err) := by
  obtain ⟨hf, cols, h1, hr⟩ := reached_of_valid ops hv
  refine ⟨hf, h1, fun i hx hz hm => ?_, fun i hz => ?_⟩
  · obtain ⟨hf', cols', g1, g2, g3, g4⟩ := hr.step i hx hz hm
    refine ⟨hf', g1, fun x hx' z hz' hne => ?_⟩
    have hlt := col_lt hx' hz'
    rw [g2.rep.column (by rw [g2.len]; exact hlt), hr.rep.column (by rw [hr.len]; exact hlt), g4]
    intro heq
    apply hne
    have e1 : x = i.x := by
      have := congrArg (· % w) heq
      simp only [Nat.add_mul_mod_self_right, Nat.mod_eq_of_lt hx, Nat.mod_eq_of_lt hx'] at this
      exact this
    have e2 : z = i.z := by
      rw [e1] at heq
      have : z * w = i.z * w := by omega
      exact Nat.eq_of_mul_eq_mul_right (by omega) this
    rw [e1, e2]
  · have hge : hf.columnIndex i.x i.z ≥ hf.spans.length := by
      simp only [columnIndex, hr.len, hr.width, ge_iff_le]
      calc w * h = h * w := Nat.mul_comm _ _
        _ ≤ i.z * w := Nat.mul_le_mul_right _ hz
        _ ≤ i.x + i.z * w := by omega
    simp [Heightfield.insert, addSpan, hge]

example : ∃ i : Insertion, i.x < 2 ∧ i.z < 2 ∧ i.min ≤ i.max ∧ (1, 1) ≠ (i.x, i.z) :=
  ⟨⟨0, 1, 1, 2, 4, 2⟩, by decide⟩

/-- **C13.** Exact effect of one insertion on its column, from any reachable heightfield: the blocks that
neither overlap nor touch the request stay as they are below and above; all others are replaced by one block
with the smallest `min` and the largest `max`; its area is the largest among the requested area and the areas of
those absorbed blocks whose top is no more than the threshold below the requested top. -/
theorem c13_merge_rule (w h : Nat) (ops : List Insertion) (hv : ValidOps w h ops) (i : Insertion)
    (hx : i.x < w) (hz : i.z < h) (hm : i.min ≤ i.max) :
    ∃ hf hf' l m, (Heightfield.new w h).insertAll ops = .ok hf ∧ hf.insert i = .ok hf' ∧
      hf.column (i.x + i.z * w) = .ok l ∧
      hf'.column (i.x + i.z * w) = .ok
        (l.filter (fun c => decide (c.max < i.min)) ++ m :: l.filter (fun c => decide (i.max < c.min))) ∧
      -- extent
      (m.min ≤ i.min ∧ (∀ c ∈ l, Touches i.solid c → m.min ≤ c.min) ∧
        (m.min = i.min ∨ ∃ c ∈ l, Touches i.solid c ∧ m.min = c.min)) ∧
      (i.max ≤ m.max ∧ (∀ c ∈ l, Touches i.solid c → c.max ≤ m.max) ∧
        (m.max = i.max ∨ ∃ c ∈ l, Touches i.solid c ∧ m.max = c.max)) ∧
      -- area
      (i.area ≤ m.area ∧ (∀ c ∈ l, Touches i.solid c → i.max ≤ c.max + i.thr → c.area ≤ m.area) ∧
        (m.area = i.area ∨ ∃ c ∈ l, Touches i.solid c ∧ i.max ≤ c.max + i.thr ∧ m.area = c.area)) := by
  obtain ⟨hf, cols, h1, hr⟩ := reached_of_valid ops hv
  obtain ⟨hf', cols', g1, g2, g3, g4⟩ := hr.step i hx hz hm
  have hlt := col_lt hx hz
  have hcl := insertCol_closed i.thr i.solid (solids (cols (i.x + i.z * w))) i.solid (Nat.le_refl _)
    (Nat.le_refl _) hm (hr.proper _ hlt) (hr.sep _ hlt) (Or.inl rfl) (Or.inl rfl)
  obtain ⟨a1, a2, a3⟩ := absorb_foldl_min i.thr i.solid.max
    ((solids (cols (i.x + i.z * w))).filter (fun c => decide (Touches i.solid c))) i.solid _ rfl
  obtain ⟨b1, b2, b3⟩ := absorb_foldl_max i.thr i.solid.max
    ((solids (cols (i.x + i.z * w))).filter (fun c => decide (Touches i.solid c))) i.solid _ rfl
  obtain ⟨d1, d2, d3⟩ := absorb_foldl_area i.thr i.solid.max
    ((solids (cols (i.x + i.z * w))).filter (fun c => decide (Touches i.solid c))) i.solid _ rfl
  simp only [List.mem_filter, decide_eq_true_eq] at a2 a3 b2 b3 d2 d3
  refine ⟨hf, hf', _, _, h1, g1, hr.rep.column (by rw [hr.len]; exact hlt), ?_,
    ⟨a1, fun c hc ht => a2 c ⟨hc, ht⟩, ?_⟩, ⟨b1, fun c hc ht => b2 c ⟨hc, ht⟩, ?_⟩,
    ⟨d1, fun c hc ht hk => d2 c ⟨hc, ht⟩ hk, ?_⟩⟩
  · rw [g2.rep.column (by rw [g2.len]; exact hlt), g3, hcl]; rfl
  · rcases a3 with h | ⟨c, hc, h⟩
    · exact Or.inl h
    · exact Or.inr ⟨c, hc.1, hc.2, h⟩
  · rcases b3 with h | ⟨c, hc, h⟩
    · exact Or.inl h
    · exact Or.inr ⟨c, hc.1, hc.2, h⟩
  · rcases d3 with h | ⟨c, hc, h⟩
    · exact Or.inl h
    · exact Or.inr ⟨c, hc.1, hc.2, h⟩

example : ∃ i : Insertion, i.x < 2 ∧ i.z < 2 ∧ i.min ≤ i.max ∧
    ((Heightfield.new 2 2).insertAll (sampleOps ++ [i]) >>= fun hf => hf.column 0) =
      .ok [⟨2, 6, 9⟩, ⟨7, 14, 5⟩] :=
  ⟨⟨0, 0, 2, 9, 12, 5⟩, by decide⟩

/-- **C13 (history).** After any history, the area of every block was requested for that column, by an insertion that lies inside the
block. -/
theorem c13_area_requested (w h : Nat) (ops : List Insertion) (hv : ValidOps w h ops) :
    ∃ hf, (Heightfield.new w h).insertAll ops = .ok hf ∧
      ∀ x < w, ∀ z < h, ∃ l, hf.column (x + z * w) = .ok l ∧
        ∀ s ∈ l, ∃ i ∈ ops, i.x = x ∧ i.z = z ∧ s.min ≤ i.min ∧ i.max ≤ s.max ∧ i.area = s.area := by
  obtain ⟨hf, cols, h1, hr⟩ := reached_of_valid ops hv
  refine ⟨hf, h1, fun x hx z hz => ⟨_, hr.rep.column (by rw [hr.len]; exact col_lt hx hz), fun s hs => ?_⟩⟩
  obtain ⟨i, hi, hc, h2⟩ := hr.source _ (col_lt hx hz) s hs
  obtain ⟨e1, e2⟩ := col_inj (hv i hi).1 hx hc
  exact ⟨i, hi, e1, e2, h2⟩

/-- In the sample history, two blocks of different areas are merged; the area of the result is one of them. -/
example : ((Heightfield.new 2 2).insertAll (sampleOps ++ [⟨0, 0, 2, 9, 12, 5⟩]) >>= fun hf => hf.column 0) =
    .ok [⟨2, 6, 9⟩, ⟨7, 14, 5⟩] := by decide

end Rerecast
