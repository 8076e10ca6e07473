import Verif.Lemmas.Simplify
import Mathlib.Tactic.Ring
import Mathlib.Data.List.Rotate
/-! Contour simplification, continued: initial vertices, edge splitting, the whole function. -/
set_option linter.unusedVariables false
namespace Rerecast

/-- The word changes after raw vertex `i`. -/
def changed (points : RawContour) (i : Nat) : Bool :=
  decide (wordAt points i &&& REGION_MASK ≠ wordAt points (i + 1) &&& REGION_MASK ∨
    wordAt points i &&& AREA_BORDER ≠ wordAt points (i + 1) &&& AREA_BORDER)

theorem portalVertices_eq {points : RawContour} (hn : 0 < points.length) :
    portalVertices points = .ok (((List.range points.length).filter (changed points)).map (chosenAt points)) := by
  unfold portalVertices
  have h := foldlM_total (f := fun (acc : Chosen) (i : Nat) => do
      let p ← idx points i
      let q ← idx points ((i + 1) % points.length)
      if p.2 &&& REGION_MASK ≠ q.2 &&& REGION_MASK ∨ p.2 &&& AREA_BORDER ≠ q.2 &&& AREA_BORDER then
        .ok (acc ++ [(p.1, i)])
      else .ok acc) (fun pre s => s = (pre.filter (changed points)).map (chosenAt points))
    (List.range points.length) [] rfl ?_
  · obtain ⟨a, h1, h2⟩ := h
    rw [h1, h2]
  · rintro pre i post s hl rfl
    have hi : i < points.length := List.mem_range.1 (by rw [hl]; simp)
    have e1 : idx points i = .ok (posAt points i, wordAt points i) := by
      have := idx_at hn i; rwa [Nat.mod_eq_of_lt hi] at this
    simp only [e1, bind_ok, idx_at hn, List.filter_append, List.map_append]
    by_cases hc : changed points i = true
    · rw [if_pos (of_decide_eq_true hc)]
      refine Total.ok ?_
      simp [hc, chosenAt, Nat.mod_eq_of_lt hi]
    · rw [if_neg (fun h => hc (decide_eq_true h))]
      refine Total.ok ?_
      simp [hc]

/-- Lexicographic order on x and z. -/
def LexLe (a b : U16Vec3) : Prop := a.x < b.x ∨ (a.x = b.x ∧ a.z ≤ b.z)

theorem extremeVertices_spec {points : RawContour} (hn : 0 < points.length) : ∃ l u, l < points.length ∧ u < points.length ∧
    extremeVertices points = .ok [chosenAt points l, chosenAt points u] ∧
    ∀ i < points.length, LexLe (posAt points l) (posAt points i) ∧ LexLe (posAt points i) (posAt points u) := by
  unfold extremeVertices
  have e0 : idx points 0 = .ok (posAt points 0, wordAt points 0) := by
    have := idx_at hn 0; simpa using this
  rw [e0, bind_ok]
  have h := foldlM_total (f := fun (st : (U16Vec3 × Nat) × (U16Vec3 × Nat)) (i : Nat) => do
      let p ← idx points i
      let ll := st.1
      let ur := st.2
      let ll' := if p.1.x < ll.1.x ∨ (p.1.x = ll.1.x ∧ p.1.z < ll.1.z) then (p.1, i) else ll
      let ur' := if p.1.x > ur.1.x ∨ (p.1.x = ur.1.x ∧ p.1.z > ur.1.z) then (p.1, i) else ur
      .ok (ll', ur')) (fun pre s => ∃ l u, l < points.length ∧ u < points.length ∧ s = (chosenAt points l, chosenAt points u) ∧
        ∀ i ∈ pre, LexLe (posAt points l) (posAt points i) ∧ LexLe (posAt points i) (posAt points u))
    (List.range points.length) ((posAt points 0, 0), (posAt points 0, 0)) ?_ ?_
  · obtain ⟨a, h1, l, u, hl, hu, rfl, h2⟩ := h
    refine ⟨l, u, hl, hu, ?_, fun i hi => h2 i (List.mem_range.2 hi)⟩
    have h1' := h1
    dsimp only at h1' ⊢
    rw [h1', bind_ok]
  · exact ⟨0, 0, hn, hn, by simp [chosenAt], by simp⟩
  · rintro pre i post s hl ⟨l, u, hl1, hu1, rfl, h2⟩
    have hi : i < points.length := List.mem_range.1 (by rw [hl]; simp)
    have e1 : idx points i = .ok (posAt points i, wordAt points i) := by
      have := idx_at hn i; rwa [Nat.mod_eq_of_lt hi] at this
    simp only [e1, bind_ok]
    have ei : (posAt points i, i) = chosenAt points i := by simp [chosenAt, Nat.mod_eq_of_lt hi]
    refine Total.ok ⟨if (posAt points i).x < (posAt points l).x ∨ ((posAt points i).x = (posAt points l).x ∧ (posAt points i).z < (posAt points l).z) then i else l,
      if (posAt points i).x > (posAt points u).x ∨ ((posAt points i).x = (posAt points u).x ∧ (posAt points i).z > (posAt points u).z) then i else u, ?_, ?_, ?_, ?_⟩
    · split <;> assumption
    · split <;> assumption
    · rw [ei]
      congr 1
      · rw [apply_ite (chosenAt points)]; rfl
      · rw [apply_ite (chosenAt points)]; rfl
    · intro j hj
      have hcase : j ∈ pre ∨ j = i := by simpa using hj
      constructor
      · rcases hcase with hj | rfl
        · have := (h2 j hj).1
          unfold LexLe at *
          split <;> omega
        · unfold LexLe; split <;> omega
      · rcases hcase with hj | rfl
        · have := (h2 j hj).2
          unfold LexLe at *
          split <;> omega
        · unfold LexLe; split <;> omega

/-- All raw vertices have the same x and z. -/
def AllSame (points : RawContour) : Prop := ∀ p ∈ points, ∀ q ∈ points, p.1.xz = q.1.xz

theorem posAt_mem {points : RawContour} {i : Nat} (hi : i < points.length) : ∃ p ∈ points, p.1 = posAt points i := by
  refine ⟨points[i], List.getElem_mem hi, ?_⟩
  simp [posAt, Nat.mod_eq_of_lt hi, List.getD_eq_getElem?_getD, List.getElem?_eq_getElem hi]

theorem mem_posAt {points : RawContour} {p : U16Vec3 × Nat} (hp : p ∈ points) : ∃ i < points.length, p.1 = posAt points i ∧ p.2 = wordAt points i := by
  obtain ⟨i, hi, rfl⟩ := List.mem_iff_getElem.1 hp
  refine ⟨i, hi, ?_⟩
  simp [posAt, wordAt, Nat.mod_eq_of_lt hi, List.getD_eq_getElem?_getD, List.getElem?_eq_getElem hi]

theorem initialVertices_spec {points : RawContour} (hn : 0 < points.length) : ∃ u W, Wind points.length W u ∧
    initialVertices points = .ok (u.map (chosenAt points)) ∧ (W = 1 ∨ (W = 2 ∧ AllSame points)) ∧
    ((points.any fun p => intersects p.2 REGION_MASK) = true → ∀ i < points.length, changed points i = true → i ∈ u) := by
  have hext : ∃ u W, Wind points.length W u ∧ extremeVertices points = .ok (u.map (chosenAt points)) ∧
      (W = 1 ∨ (W = 2 ∧ AllSame points)) := by
    obtain ⟨l, u, hl, hu, he, hb⟩ := extremeVertices_spec hn
    rcases Nat.lt_trichotomy l u with h | h | h
    · exact ⟨[l, u], 1, ⟨l, [u], rfl, hl, ⟨h, by omega⟩, by omega, by omega⟩, by simpa using he, Or.inl rfl⟩
    · subst h
      refine ⟨[l, l + points.length], 2, ⟨l, [l + points.length], rfl, hl, ⟨by omega, by omega⟩, by omega, by omega⟩, ?_, Or.inr ⟨rfl, ?_⟩⟩
      · have : chosenAt points (l + points.length) = chosenAt points l := chosenAt_congr (by simp)
        simpa [this] using he
      · intro p hp q hq
        obtain ⟨i, hi, ep, _⟩ := mem_posAt hp
        obtain ⟨j, hj, eq, _⟩ := mem_posAt hq
        have h1 := hb i hi
        have h2 := hb j hj
        rw [ep, eq]
        unfold LexLe at h1 h2
        simp only [U16Vec3.xz, Prod.mk.injEq]
        omega
    · refine ⟨[l, u + points.length], 1, ⟨l, [u + points.length], rfl, hl, ⟨by omega, by omega⟩, by omega, by omega⟩, ?_, Or.inl rfl⟩
      have : chosenAt points (u + points.length) = chosenAt points u := chosenAt_congr (by simp)
      simpa [this] using he
  unfold initialVertices
  by_cases hc : (points.any fun p => intersects p.2 REGION_MASK) = true
  · simp only [hc, if_true, portalVertices_eq hn, bind_ok]
    by_cases hemp : (List.range points.length).filter (changed points) = []
    · obtain ⟨u, W, h1, h2, h3⟩ := hext
      refine ⟨u, W, h1, by simp [hemp, h2], h3, ?_⟩
      intro _ i hi hci
      exfalso
      have : i ∈ (List.range points.length).filter (changed points) := List.mem_filter.2 ⟨List.mem_range.2 hi, hci⟩
      rw [hemp] at this; cases this
    · refine ⟨(List.range points.length).filter (changed points), 1, ?_, ?_, Or.inl rfl, fun _ i hi hci => List.mem_filter.2 ⟨List.mem_range.2 hi, hci⟩⟩
      · obtain ⟨h, l, he⟩ := List.exists_cons_of_ne_nil hemp
        have hpw : ((List.range points.length).filter (changed points)).Pairwise (· < ·) :=
          List.Pairwise.filter _ List.pairwise_lt_range
        have hlt : ∀ x ∈ (List.range points.length).filter (changed points), x < points.length := by
          intro x hx; exact List.mem_range.1 (List.mem_filter.1 hx).1
        rw [he] at hpw hlt ⊢
        refine ⟨h, l, rfl, hlt h (by simp), ?_⟩
        have key : ∀ (l : List Nat) (x : Nat), (x :: l).Pairwise (· < ·) → (∀ y ∈ x :: l, y < points.length) → h ≤ x →
            Arcs points.length x l (h + 1 * points.length) := by
          intro l
          induction l with
          | nil => intro x _ hb hx; have := hb x (by simp); exact ⟨by omega, by omega⟩
          | cons y l ih =>
            intro x hp hb hx
            rw [List.pairwise_cons] at hp
            have h1 := hp.1 y (by simp)
            have h2 := hb y (by simp)
            exact ⟨⟨h1, by omega⟩, ih y hp.2 (fun z hz => hb z (by simp [hz])) (by omega)⟩
        exact key l h hpw hlt (Nat.le_refl _)
      · obtain ⟨h, l, he⟩ := List.exists_cons_of_ne_nil hemp
        rw [he]; simp
  · obtain ⟨u, W, h1, h2, h3⟩ := hext
    refine ⟨u, W, h1, ?_, h3, fun h => absurd h hc⟩
    simp [hc, h2]

/-- Some arithmetic of edge splitting overflows: the square of the edge length limit does not fit in a `u16`, or two raw
vertices are too far apart for `i32` squares. -/
def SplitOverflow (points : RawContour) (maxEdgeLen : Nat) : Prop :=
  255 < maxEdgeLen ∨ ∃ p ∈ points, ∃ q ∈ points,
    (2147483647 : Int) < ((q.1.x : Int) - p.1.x) ^ 2 + ((q.1.z : Int) - p.1.z) ^ 2

theorem refinePick_spec (t : Tests) (points : RawContour) {bad : Prop} : ∀ a b, a < b → b ≤ a + points.length →
    TotalOr bad (refinePick t points (chosenAt points a) (chosenAt points b))
      fun o => ∀ m, o = some m → ∃ k, a < k ∧ k < b ∧ m = k % points.length := by
  intro a b h1 h2
  obtain ⟨r, hr, hk, _⟩ := segmentDeviation_spec t (points := points) h1 h2
  rw [refinePick, hr, bind_ok]
  refine TotalOr.ok ?_
  intro m hm
  split at hm
  · exact hk m hm
  · cases hm

theorem arc_mod {a b n : Nat} (h1 : a < b) (h2 : b < a + n) :
    (if b % n < a % n then b % n + n - a % n else b % n - a % n) = b - a := by
  have hn : 0 < n := by omega
  have ha := Nat.mod_lt a hn
  have hb := Nat.mod_lt b hn
  have ea := Nat.div_add_mod a n
  have eb := Nat.div_add_mod b n
  generalize hqa : a / n = qa at *
  generalize hqb : b / n = qb at *
  generalize a % n = ra at *
  generalize b % n = rb at *
  have hq : qb = qa ∨ qb = qa + 1 := by
    have h3 : qa ≤ qb := by rw [← hqa, ← hqb]; exact Nat.div_le_div_right (by omega)
    have h4 : qb ≤ qa + 1 := by
      have : b / n ≤ (a + n) / n := Nat.div_le_div_right (by omega)
      rw [Nat.add_div_right _ hn, hqa, hqb] at this; exact this
    omega
  rcases hq with h | h
  · subst h
    split <;> omega
  · subst h
    have : n * (qa + 1) = n * qa + n := by ring
    split <;> omega

theorem splitPoint_spec (points : RawContour) (maxEdgeLen : Nat) (flags : ContourFlags) : ∀ a b, a < b → b ≤ a + points.length →
    TotalOr (SplitOverflow points maxEdgeLen) (splitPoint points maxEdgeLen flags (chosenAt points a) (chosenAt points b))
      fun o => ∀ m, o = some m → ∃ k, a < k ∧ k < b ∧ m = k % points.length := by
  intro a b h1 h2
  have hn : 0 < points.length := by omega
  unfold splitPoint
  simp only [chosenAt, Nat.mod_add_mod, idx_at hn, bind_ok]
  split
  · unfold lenSqI32 mulU16
    split
    · rw [bind_ok]
      split
      · rw [bind_ok]
        split
        · by_cases hfull : b = a + points.length
          · subst hfull
            simp only [Nat.add_mod_right, Nat.lt_irrefl, if_false, Nat.sub_self]
            exact TotalOr.ok (by intro m hm; cases hm)
          · erw [arc_mod (n := points.length) h1 (by omega)]
            split
            · split
              · refine TotalOr.ok ?_
                intro m hm; cases hm
                exact ⟨a + (b - a) / 2, by omega, by omega, rfl⟩
              · refine TotalOr.ok ?_
                intro m hm; cases hm
                exact ⟨a + (b - a + 1) / 2, by omega, by omega, rfl⟩
            · exact TotalOr.ok (by intro m hm; cases hm)
        · exact TotalOr.ok (by intro m hm; cases hm)
      · rename_i hb
        refine Or.inr ⟨Or.inl ?_, rfl⟩
        by_contra hc
        exact hb (Nat.le_trans (Nat.mul_le_mul (show maxEdgeLen ≤ 255 by omega) (show maxEdgeLen ≤ 255 by omega)) (by decide))
    · rename_i hb
      obtain ⟨p, hp, ep⟩ := posAt_mem (points := points) (Nat.mod_lt a hn)
      obtain ⟨q, hq, eq⟩ := posAt_mem (points := points) (Nat.mod_lt b hn)
      rw [posAt_mod] at ep eq
      refine Or.inr ⟨Or.inr ⟨p, hp, q, hq, ?_⟩, rfl⟩
      rw [ep, eq, pow_two, pow_two]
      omega
  · exact TotalOr.ok (by intro m hm; cases hm)

/-- The word of the simplified vertex at unwrapped position `k`. -/
def finalWordAt (points : RawContour) (k : Nat) : Nat :=
  (wordAt points (k + 1) &&& (REGION_MASK ||| AREA_BORDER)) ||| (wordAt points k &&& BORDER_VERTEX)

theorem finalWord_at {points : RawContour} (hn : 0 < points.length) (k : Nat) :
    finalWord points (k % points.length) = .ok (finalWordAt points k) := by
  simp only [finalWord, Nat.mod_add_mod, idx_at hn, bind_ok, finalWordAt]

theorem simplify_stages (t : Tests) (points : RawContour) (hne : points ≠ []) (maxEdgeLen : Nat) (flags : ContourFlags) :
    TotalOr (SplitOverflow points maxEdgeLen) (simplifyContour t points maxEdgeLen flags) fun out =>
      ∃ u1 u W, Wind points.length W u1 ∧ Wind points.length W u ∧ u.headD 0 = u1.headD 0 ∧ u1.Sublist u ∧ (W = 1 ∨ (W = 2 ∧ AllSame points)) ∧
        out = u.map (fun k => (posAt points k, finalWordAt points k)) ∧
        ((points.any fun p => intersects p.2 REGION_MASK) = true → ∀ i < points.length, changed points i = true → i ∈ u1) ∧
        (∀ pre x y post, u1 ++ [u1.headD 0 + W * points.length] = pre ++ x :: y :: post →
            refinePick t points (chosenAt points x) (chosenAt points y) = .ok none) ∧
        (¬ (maxEdgeLen > 0 ∧ (flags.wallEdges || flags.areaEdges) = true) → u = u1) ∧
        (maxEdgeLen > 0 ∧ (flags.wallEdges || flags.areaEdges) = true →
          ∀ pre x y post, u ++ [u.headD 0 + W * points.length] = pre ++ x :: y :: post →
            splitPoint points maxEdgeLen flags (chosenAt points x) (chosenAt points y) = .ok none) := by
  have hn : 0 < points.length := List.length_pos_iff.2 hne
  obtain ⟨u, W, hw, hi, hW, hch⟩ := initialVertices_spec hn
  have hW2 : W * points.length ≤ 2 * points.length := Nat.mul_le_mul_right _ (by omega)
  unfold simplifyContour
  simp only [hi, bind_ok, refine_eq, splitLong_eq]
  refine TotalOr.bind (insertLoop_spec (bad := SplitOverflow points maxEdgeLen) (W := W) (refinePick_spec t points) (u.headD 0)
    (4 * points.length + 4) 0 u hw rfl (Nat.zero_le _) (by omega) (by intros; omega)) ?_
  rintro s ⟨u1, rfl, hw1, hh1, hs1, hset1⟩
  have hfin : ∀ u2 : List Nat, (u2.map (chosenAt points)).mapM (fun v => do
      let w ← finalWord points v.2
      .ok (v.1, w)) = (.ok (u2.map (fun k => (posAt points k, finalWordAt points k))) : Res RawContour) := by
    intro u2
    induction u2 with
    | nil => rfl
    | cons k u2 ih =>
      rw [List.map_cons, List.mapM_cons, ih]
      simp only [chosenAt, finalWord_at hn, bind_ok, List.map_cons]
      rfl
  by_cases hc : maxEdgeLen > 0 ∧ (flags.wallEdges || flags.areaEdges) = true
  · rw [if_pos hc]
    refine TotalOr.bind (insertLoop_spec (W := W) (splitPoint_spec points maxEdgeLen flags) (u1.headD 0)
      (4 * points.length + 4) 0 u1 hw1 rfl (Nat.zero_le _) (by omega) (by intros; omega)) ?_
    rintro s ⟨u2, rfl, hw2, hh2, hs2, hset2⟩
    rw [hfin]
    refine TotalOr.ok ⟨u1, u2, W, hw1, hw2, hh2, hs2, hW, rfl, fun h i hi' hc' => hs1.subset (hch h i hi' hc'), ?_, fun h => absurd hc h, fun _ => ?_⟩
    · rw [hh1]; exact hset1
    · rw [hh2]; exact hset2
  · rw [if_neg hc, hfin]
    refine TotalOr.ok ⟨u1, u1, W, hw1, hw1, rfl, List.Sublist.refl _, hW, rfl, fun h i hi' hc' => hs1.subset (hch h i hi' hc'), ?_, fun _ => rfl,
      fun h => absurd h hc⟩
    rw [hh1]; exact hset1

theorem simplify_spec (t : Tests) (points : RawContour) (hne : points ≠ []) (maxEdgeLen : Nat) (flags : ContourFlags) :
    TotalOr (SplitOverflow points maxEdgeLen) (simplifyContour t points maxEdgeLen flags) fun out =>
      ∃ u W, Wind points.length W u ∧ (W = 1 ∨ (W = 2 ∧ AllSame points)) ∧
        out = u.map (fun k => (posAt points k, finalWordAt points k)) ∧
        ((points.any fun p => intersects p.2 REGION_MASK) = true → ∀ i < points.length, changed points i = true → i ∈ u) ∧
        (¬ (maxEdgeLen > 0 ∧ (flags.wallEdges || flags.areaEdges) = true) →
          ∀ pre x y post, u ++ [u.headD 0 + W * points.length] = pre ++ x :: y :: post →
            refinePick t points (chosenAt points x) (chosenAt points y) = .ok none) := by
  refine TotalOr.mono (simplify_stages t points hne maxEdgeLen flags) ?_
  rintro out ⟨u1, u, W, hw1, hw, hh, hsub, hW, hout, hch, hset, hno, _⟩
  refine ⟨u, W, hw, hW, hout, fun h i hi hc => hsub.subset (hch h i hi hc), fun h => ?_⟩
  rw [hno h]; exact hset

/-- A chain that goes around once is a rotation of an ascending list. -/
theorem wind_one_rotate {n : Nat} {u : List Nat} (hw : Wind n 1 u) :
    ∃ k, ((u.map (· % n)).rotate k).Pairwise (· < ·) := by
  obtain ⟨h, l, rfl, hh, ha⟩ := hw
  have hp := ha.pairwise
  have hb : ∀ x ∈ h :: l, h ≤ x ∧ x < h + n := by
    intro x hx
    rcases List.mem_cons.1 hx with rfl | hx
    · omega
    · have := ha.mem x hx; omega
  generalize h :: l = u at hp hb
  have key : ∃ p q, u = p ++ q ∧ (∀ x ∈ p, x < n) ∧ ∀ x ∈ q, n ≤ x := by
    clear hb ha
    induction u with
    | nil => exact ⟨[], [], rfl, by simp, by simp⟩
    | cons x u ih =>
      rw [List.pairwise_cons] at hp
      by_cases hx : x < n
      · obtain ⟨p, q, rfl, h1, h2⟩ := ih hp.2
        exact ⟨x :: p, q, rfl, by simp; exact ⟨hx, h1⟩, h2⟩
      · refine ⟨[], x :: u, rfl, by simp, ?_⟩
        intro y hy
        rcases List.mem_cons.1 hy with rfl | hy
        · omega
        · have := hp.1 y hy; omega
  obtain ⟨p, q, rfl, h1, h2⟩ := key
  refine ⟨p.length, ?_⟩
  have ep : p.map (· % n) = p := by
    conv_rhs => rw [← List.map_id p]
    apply List.map_congr_left
    intro x hx; exact Nat.mod_eq_of_lt (h1 x hx)
  have eq : q.map (· % n) = q.map (· - n) := by
    apply List.map_congr_left
    intro x hx
    have g1 := h2 x hx
    have g2 := hb x (by simp [hx])
    show x % n = x - n
    rw [Nat.mod_eq_sub_mod g1, Nat.mod_eq_of_lt (by omega)]
  rw [List.map_append, ep, eq, List.rotate_append_length_eq]
  rw [List.pairwise_append] at hp ⊢
  refine ⟨?_, hp.1, ?_⟩
  · rw [List.pairwise_map]
    refine List.Pairwise.imp_of_mem ?_ hp.2.1
    intro a b ha' hb' hab
    have := h2 a ha'; have := h2 b hb'; omega
  · intro x hx y hy
    obtain ⟨z, hz, rfl⟩ := List.mem_map.1 hx
    have g1 := h2 z hz
    have g2 := hb z (by simp [hz])
    have g3 := hb y (by simp [hy])
    omega

end Rerecast
