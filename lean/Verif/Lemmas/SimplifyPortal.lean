import Verif.Lemmas.WindingSimplify
/-! Simplification adds no vertices to the sections of an outline along portals. -/
namespace Rerecast

theorem insertLoop_gen {bad : Prop} {C Q : Nat → Prop} {pick : U16Vec3 × Nat → U16Vec3 × Nat → Res (Option Nat)} {points : RawContour}
    {W : Nat}
    (hpick : ∀ a b, a < b → b ≤ a + points.length → (∀ i, a < i → i < b → C i) → TotalOr bad (pick (chosenAt points a) (chosenAt points b))
      fun o => ∀ m, o = some m → ∃ k, a < k ∧ k < b ∧ m = k % points.length ∧ Q k) (h0 : Nat) :
    ∀ (fuel i : Nat) (u : List Nat), Wind points.length W u → u.headD 0 = h0 → i ≤ u.length → 2 * (W * points.length) ≤ fuel + u.length + i →
      (∀ pre x y post, u ++ [h0 + W * points.length] = pre ++ x :: y :: post → pre.length < i →
        pick (chosenAt points x) (chosenAt points y) = .ok none) →
      (∀ i, h0 ≤ i → i < h0 + W * points.length → i ∉ u → C i) →
      TotalOr bad (insertLoop pick points fuel i (u.map (chosenAt points))) fun s => ∃ u', s = u'.map (chosenAt points) ∧
        Wind points.length W u' ∧ u'.headD 0 = h0 ∧ u.Sublist u' ∧ (∀ k ∈ u', k ∈ u ∨ Q k) ∧
        ∀ pre x y post, u' ++ [h0 + W * points.length] = pre ++ x :: y :: post →
          pick (chosenAt points x) (chosenAt points y) = .ok none := by
  intro fuel
  induction fuel with
  | zero =>
    intro i u hw hh hi hf hset hgap
    have := hw.length
    have hi' : i = u.length := by omega
    rw [insertLoop, if_neg (by simp; omega)]
    refine TotalOr.ok ⟨u, rfl, hw, hh, List.Sublist.refl _, fun k hk => Or.inl hk, ?_⟩
    intro pre x y post he
    refine hset pre x y post he ?_
    have := congrArg List.length he
    simp at this; omega
  | succ fuel ih =>
    intro i u hw hh hi hf hset hgap
    rw [insertLoop]
    by_cases hlt : i < u.length
    · rw [if_pos (by simpa using hlt)]
      obtain ⟨pre, x, post, rfl, rfl⟩ : ∃ pre x post, u = pre ++ x :: post ∧ pre.length = i :=
        ⟨u.take i, u[i], u.drop (i + 1), by simp, by simp; omega⟩
      have hn : 0 < points.length := by obtain ⟨h, l, _, hl, _⟩ := hw; omega
      have ha : idx ((pre ++ x :: post).map (chosenAt points)) pre.length = .ok (chosenAt points x) := by
        apply idx_some; simp
      obtain ⟨y, hy⟩ : ∃ y, ((post ++ [(pre ++ x :: post).headD 0 + W * points.length]).headD 0) = y := ⟨_, rfl⟩
      have harc := hw.arc hy
      have hb : idx ((pre ++ x :: post).map (chosenAt points)) ((pre.length + 1) % ((pre ++ x :: post).map (chosenAt points)).length) =
          .ok (chosenAt points y) := by
        cases post with
        | nil =>
          simp only [List.length_map, List.length_append, List.length_cons, List.length_nil, Nat.zero_add, Nat.mod_self]
          simp only [List.nil_append, List.headD_cons] at hy
          have : chosenAt points y = chosenAt points ((pre ++ [x]).headD 0) := by
            apply chosenAt_congr; rw [← hy]; simp
          rw [this]
          apply idx_some
          cases pre <;> simp
        | cons z post =>
          have : pre.length + 1 < ((pre ++ x :: z :: post).map (chosenAt points)).length := by simp
          rw [Nat.mod_eq_of_lt this]
          simp at hy; subst hy
          apply idx_some
          simp
      rw [ha, bind_ok, hb, bind_ok]
      have hC : ∀ i, x < i → i < y → C i := by
        intro i h1 h2
        obtain ⟨h, l, hl, hhl, ha'⟩ := hw
        rw [hl, List.headD_cons] at hh
        subst hh
        have hl' := hl
        rw [hl, List.headD_cons] at hy
        obtain ⟨post', he'⟩ : ∃ post', post ++ [h + W * points.length] = y :: post' := by
          cases hp : post ++ [h + W * points.length] with
          | nil => simp at hp
          | cons z post' => rw [hp] at hy; simp at hy; exact ⟨post', by rw [hy]⟩
        have he : (h :: l) ++ [h + W * points.length] = pre ++ x :: y :: post' := by
          rw [← hl', List.append_assoc, List.cons_append, he']
        have hs := arcs_sorted ha'
        rw [he] at hs
        have hx0 : h ≤ x := by
          have : x ∈ (h :: l) ++ [h + W * points.length] := by rw [he]; simp
          rcases List.mem_append.1 this with g | g
          · rcases List.mem_cons.1 g with rfl | g
            · omega
            · have := (ha'.mem x g).1; omega
          · simp at g; omega
        have hy0 : y ≤ h + W * points.length := by
          have : y ∈ (h :: l) ++ [h + W * points.length] := by rw [he]; simp
          rcases List.mem_append.1 this with g | g
          · rcases List.mem_cons.1 g with rfl | g
            · omega
            · have := (ha'.mem y g).2; omega
          · simp at g; omega
        refine hgap i (by omega) (by omega) ?_
        rw [hl']
        exact arcs_gap ha' he h1 h2
      rcases hpick x y harc.1 harc.2 hC with ⟨o, ho, hk⟩ | ⟨hbad, he⟩
      · rw [ho, bind_ok]
        cases o with
        | none =>
          simp only
          refine ih (pre.length + 1) _ hw hh (by simp) (by omega) ?_ hgap
          intro pre' x' y' post' he hlen
          by_cases h : pre'.length < pre.length
          · exact hset pre' x' y' post' he h
          · have hl : pre'.length = pre.length := by omega
            rw [List.append_assoc] at he
            obtain ⟨e1, e2⟩ := List.append_inj he hl.symm
            have e3 : x = x' ∧ post ++ [h0 + W * points.length] = y' :: post' := by simpa using e2
            obtain ⟨rfl, e3⟩ := e3
            rw [hh, e3] at hy
            simp at hy; subst hy
            exact ho
        | some m =>
          obtain ⟨k, hk1, hk2, rfl, hQ⟩ := hk m rfl
          simp only [insertAfter, idx_at hn, bind_ok]
          have e1 : ((pre ++ x :: post).map (chosenAt points)).take (pre.length + 1) ++
              (posAt points k, k % points.length) :: ((pre ++ x :: post).map (chosenAt points)).drop (pre.length + 1) =
              (pre ++ x :: k :: post).map (chosenAt points) := by
            have e0 : (pre ++ x :: post).map (chosenAt points) = (pre ++ [x]).map (chosenAt points) ++ post.map (chosenAt points) := by simp
            rw [e0, List.take_left' (by simp), List.drop_left' (by simp)]
            simp [chosenAt]
          rw [e1]
          have hhead : (pre ++ x :: k :: post).headD 0 = (pre ++ x :: post).headD 0 := by cases pre <;> rfl
          refine TotalOr.mono (ih pre.length _ (hw.insert hy hk1 hk2) (by rw [hhead]; exact hh) (by simp) (by simp at hf ⊢; omega) ?_ ?_) ?_
          · intro pre' x' y' post' he hlen
            -- the first `pre.length + 1` positions are unchanged
            have hpre : ∃ pre2, pre' ++ x' :: y' :: pre2 = pre ++ [x] ∧ post' = pre2 ++ k :: (post ++ [h0 + W * points.length]) := by
              have he' : (pre ++ [x]) ++ (k :: (post ++ [h0 + W * points.length])) = (pre' ++ [x', y']) ++ post' := by
                simpa using he
              rcases List.append_eq_append_iff.1 he' with ⟨c, hc1, hc2⟩ | ⟨c, hc1, hc2⟩
              · have hl := congrArg List.length hc1
                simp at hl
                have : c = [] := List.length_eq_zero_iff.1 (by omega)
                subst this
                refine ⟨[], by simpa using hc1, by simpa using hc2.symm⟩
              · exact ⟨c, by simpa using hc1.symm, hc2⟩
            obtain ⟨pre2, e2, e3⟩ := hpre
            refine hset pre' x' y' (pre2 ++ (post ++ [h0 + W * points.length])) ?_ hlen
            have : (pre ++ x :: post) ++ [h0 + W * points.length] = (pre ++ [x]) ++ (post ++ [h0 + W * points.length]) := by simp
            rw [this, ← e2]; simp
          · intro i h1 h2 h3
            refine hgap i h1 h2 fun h => h3 ?_
            rcases List.mem_append.1 h with h | h
            · simp [h]
            · rcases List.mem_cons.1 h with h | h
              · simp [h]
              · simp [h]
          · rintro s ⟨u', h1, h2, h3, h4, h6, h5⟩
            refine ⟨u', h1, h2, h3, List.Sublist.trans ?_ h4, ?_, h5⟩
            swap
            · intro j hj
              rcases h6 j hj with g | g
              · by_cases hjk : j = k
                · right; rw [hjk]; exact hQ
                · left
                  rcases List.mem_append.1 g with g | g
                  · simp [g]
                  · rcases List.mem_cons.1 g with g | g
                    · simp [g]
                    · rcases List.mem_cons.1 g with g | g
                      · exact absurd g hjk
                      · simp [g]
              · exact Or.inr g
            exact List.Sublist.append (List.Sublist.refl _) (List.Sublist.cons_cons _ (List.sublist_cons_self _ _))
      · rw [he]; exact Or.inr ⟨hbad, rfl⟩
    · rw [if_neg (by simpa using hlt)]
      refine TotalOr.ok ⟨u, rfl, hw, hh, List.Sublist.refl _, fun k hk => Or.inl hk, ?_⟩
      intro pre x y post he
      refine hset pre x y post he ?_
      have := congrArg List.length he
      simp at this; omega

/-- A split vertex is in a section of walls or of borders between areas. -/
theorem splitPoint_tolerated {points : RawContour} {maxEdgeLen : Nat} {flags : ContourFlags} {a b m : Nat} (hn : 0 < points.length)
    (h : splitPoint points maxEdgeLen flags (chosenAt points a) (chosenAt points b) = .ok (some m)) : tolerated points (a + 1) = true := by
  unfold splitPoint at h
  simp only [chosenAt, Nat.mod_add_mod, idx_at hn, bind_ok] at h
  split at h
  · rename_i hc
    unfold tolerated
    simp only [Bool.or_eq_true, Bool.and_eq_true] at hc ⊢
    rcases hc with hc | hc
    · left; exact hc.2
    · right; exact hc.2
  · cases h

theorem refinePick_tolerated {t : Tests} {points : RawContour} {a b m : Nat} (hab : a < b)
    (h : refinePick t points (chosenAt points a) (chosenAt points b) = .ok (some m)) (hn : 0 < points.length) :
    tolerated points (if lexLt (posAt points a) (posAt points b) then a + 1 else b - 1) = true := by
  unfold refinePick at h
  obtain ⟨r, hr, h⟩ := bind_inv h
  have hm : r.2 = some m := by
    split at h
    · injection h
    · cases h
  unfold segmentDeviation at hr
  have hf : (decide ((chosenAt points b).1.x > (chosenAt points a).1.x) ||
      (decide ((chosenAt points b).1.x = (chosenAt points a).1.x) &&
      decide ((chosenAt points b).1.z > (chosenAt points a).1.z))) =
      lexLt (posAt points a) (posAt points b) := rfl
  simp only [hf] at hr
  cases hl : lexLt (posAt points a) (posAt points b) with
  | true =>
    simp only [hl, if_true, chosenAt, Nat.mod_add_mod, idx_at hn, bind_ok] at hr ⊢
    split at hr
    · rename_i hc; exact hc
    · cases hr; cases hm
  | false =>
    simp only [hl, Bool.false_eq_true, if_false, chosenAt, Nat.mod_add_mod] at hr ⊢
    rw [show b + (points.length - 1) = b - 1 + points.length by omega, Nat.add_mod_right, idx_at hn, bind_ok] at hr
    split at hr
    · rename_i hc; exact hc
    · cases hr; cases hm

/-- The words of a stretch without changes agree. -/
theorem unchanged_words {points : RawContour} {a b : Nat} (hno : ∀ i, a < i → i < b → changed points i = false) :
    ∀ i, a < i → i ≤ b → wordAt points (a + 1) &&& REGION_MASK = wordAt points i &&& REGION_MASK ∧
      wordAt points (a + 1) &&& AREA_BORDER = wordAt points i &&& AREA_BORDER := by
  have hwords : ∀ d, a + 1 + d ≤ b → wordAt points (a + 1) &&& REGION_MASK = wordAt points (a + 1 + d) &&& REGION_MASK ∧
      wordAt points (a + 1) &&& AREA_BORDER = wordAt points (a + 1 + d) &&& AREA_BORDER := by
    intro d
    induction d with
    | zero => intro _; exact ⟨rfl, rfl⟩
    | succ d ih =>
      intro hd
      obtain ⟨g1, g2⟩ := ih (by omega)
      obtain ⟨g3, g4⟩ := changed_false (hno (a + 1 + d) (by omega) (by omega))
      exact ⟨g1.trans g3, g2.trans g4⟩
  intro i h1 h2
  have := hwords (i - (a + 1)) (by omega)
  rwa [show a + 1 + (i - (a + 1)) = i by omega] at this

theorem unchanged_tolerated {points : RawContour} {a b : Nat} (hno : ∀ i, a < i → i < b → changed points i = false) {i j : Nat}
    (hi : a < i ∧ i ≤ b) (hj : a < j ∧ j ≤ b) (h : tolerated points i = true) : tolerated points j = true := by
  have h1 := unchanged_words hno i hi.1 hi.2
  have h2 := unchanged_words hno j hj.1 hj.2
  rw [← tolerated_congr (h1.1.symm.trans h2.1) (h1.2.symm.trans h2.2)]
  exact h

/-- The initial vertices are those where the region or area across changes, or two, if nothing changes. -/
theorem initial_kind {points : RawContour} (hn : 0 < points.length) (hconn : (points.any fun p => intersects p.2 REGION_MASK) = true) {s : Chosen}
    (h : initialVertices points = .ok s) : (∀ v ∈ s, changed points v.2 = true) ∨ ((∀ i, changed points i = false) ∧ s.length ≤ 2) := by
  unfold initialVertices at h
  simp only [hconn, if_true, portalVertices_eq hn, bind_ok] at h
  by_cases hemp : (List.range points.length).filter (changed points) = []
  · right
    refine ⟨?_, ?_⟩
    · intro i
      rw [← changed_mod]
      cases hc : changed points (i % points.length) with
      | false => rfl
      | true =>
        have : i % points.length ∈ (List.range points.length).filter (changed points) :=
          List.mem_filter.2 ⟨List.mem_range.2 (Nat.mod_lt _ hn), hc⟩
        rw [hemp] at this; cases this
    · obtain ⟨l, u, _, _, he, _⟩ := extremeVertices_spec hn
      simp [hemp, he] at h
      rw [← h]; simp
  · left
    have : s = ((List.range points.length).filter (changed points)).map (chosenAt points) := by
      have hne : (((List.range points.length).filter (changed points)).map (chosenAt points)).isEmpty = false := by
        cases hx : (List.range points.length).filter (changed points) with
        | nil => exact absurd hx hemp
        | cons => rfl
      simp only [hne] at h
      injection h with h
      exact h.symm
    rw [this]
    intro v hv
    obtain ⟨k, hk, rfl⟩ := List.mem_map.1 hv
    have := (List.mem_filter.1 hk).2
    simp only [chosenAt, changed_mod]
    exact this

theorem refinePick_gap {bad : Prop} (t : Tests) {points : RawContour} (hc : Prop) : ∀ a b, a < b → b ≤ a + points.length →
    (∀ i, a < i → i < b → hc → changed points i = false) →
    TotalOr bad (refinePick t points (chosenAt points a) (chosenAt points b))
      fun o => ∀ m, o = some m → ∃ k, a < k ∧ k < b ∧ m = k % points.length ∧ (hc → tolerated points k = true) := by
  intro a b h1 h2 hno
  have hn : 0 < points.length := by omega
  rcases refinePick_spec (bad := bad) t points a b h1 h2 with ⟨o, ho, hk⟩ | h
  · refine Or.inl ⟨o, ho, ?_⟩
    rintro m rfl
    obtain ⟨k, k1, k2, k3⟩ := hk m rfl
    refine ⟨k, k1, k2, k3, fun hcc => ?_⟩
    have htol := refinePick_tolerated h1 ho hn
    have hno' : ∀ i, a < i → i < b → changed points i = false := fun i g1 g2 => hno i g1 g2 hcc
    refine unchanged_tolerated hno' ?_ ⟨k1, Nat.le_of_lt k2⟩ htol
    split <;> omega
  · exact Or.inr h

theorem splitPoint_gap {points : RawContour} {maxEdgeLen : Nat} {flags : ContourFlags} (hc : Prop) : ∀ a b, a < b → b ≤ a + points.length →
    (∀ i, a < i → i < b → hc → changed points i = false) →
    TotalOr (SplitOverflow points maxEdgeLen) (splitPoint points maxEdgeLen flags (chosenAt points a) (chosenAt points b))
      fun o => ∀ m, o = some m → ∃ k, a < k ∧ k < b ∧ m = k % points.length ∧ (hc → tolerated points k = true) := by
  intro a b h1 h2 hno
  have hn : 0 < points.length := by omega
  rcases splitPoint_spec points maxEdgeLen flags a b h1 h2 with ⟨o, ho, hk⟩ | h
  · refine Or.inl ⟨o, ho, ?_⟩
    rintro m rfl
    obtain ⟨k, k1, k2, k3⟩ := hk m rfl
    refine ⟨k, k1, k2, k3, fun hcc => ?_⟩
    have htol := splitPoint_tolerated hn ho
    have hno' : ∀ i, a < i → i < b → changed points i = false := fun i g1 g2 => hno i g1 g2 hcc
    exact unchanged_tolerated hno' ⟨by omega, by omega⟩ ⟨k1, Nat.le_of_lt k2⟩ htol
  · exact Or.inr h

/-- What simplification does to an outline along which a region is across: its vertices are those where the region or area across changes,
and others only where there is a wall or another area across. -/
theorem simplify_portals (t : Tests) (points : RawContour) (hne : points ≠ []) (hsame : ¬ AllSame points)
    (hconn : (points.any fun p => intersects p.2 REGION_MASK) = true) (maxEdgeLen : Nat) (flags : ContourFlags) :
    TotalOr (SplitOverflow points maxEdgeLen) (simplifyContour t points maxEdgeLen flags) fun out =>
      ∃ h l1 l, h < points.length ∧ Arcs points.length h l1 (h + 1 * points.length) ∧ Arcs points.length h l (h + 1 * points.length) ∧ l1.Sublist l ∧
        out = (h :: l).map (fun k => (posAt points k, finalWordAt points k)) ∧
        (∀ i < points.length, changed points i = true → i ∈ h :: l1) ∧
        (∀ pre x y post, h :: l1 ++ [h + 1 * points.length] = pre ++ x :: y :: post →
            refinePick t points (chosenAt points x) (chosenAt points y) = .ok none) ∧
        ((∀ k ∈ h :: l, changed points k = true ∨ tolerated points k = true) ∨
          ((∀ i, changed points i = false) ∧ ((∀ i, tolerated points i = false) → out.length ≤ 2))) := by
  have hn : 0 < points.length := List.length_pos_iff.2 hne
  obtain ⟨u, W, hw, hi, hW, hch⟩ := initialVertices_spec hn
  rcases hW with rfl | ⟨_, hs⟩
  swap
  · exact absurd hs hsame
  have hch := hch hconn
  have hkind := initial_kind hn hconn hi
  have hgap : ∀ v : List Nat, Wind points.length 1 v → v.headD 0 = u.headD 0 → u.Sublist v → ∀ i, u.headD 0 ≤ i → i < u.headD 0 + 1 * points.length →
      i ∉ v → (True → changed points i = false) := by
    intro v hv hvh hsub i h1 h2 h3 _
    cases hc : changed points i with
    | false => rfl
    | true =>
      exfalso
      obtain ⟨h, l, rfl, hh, ha⟩ := hw
      simp only [List.headD_cons] at h1 h2
      have hmem := hch (i % points.length) (Nat.mod_lt _ hn) (by rw [changed_mod]; exact hc)
      apply h3
      apply hsub.subset
      by_cases hlt : i < points.length
      · rwa [Nat.mod_eq_of_lt hlt] at hmem
      · have : i % points.length = i - points.length := by
          rw [Nat.mod_eq_sub_mod (by omega), Nat.mod_eq_of_lt (by omega)]
        rw [this] at hmem
        rcases List.mem_cons.1 hmem with g | g
        · omega
        · have := (ha.mem _ g).1; omega
  unfold simplifyContour
  simp only [hi, bind_ok, refine_eq, splitLong_eq]
  refine TotalOr.bind (insertLoop_gen (bad := SplitOverflow points maxEdgeLen) (W := 1) (refinePick_gap t True) (u.headD 0)
    (4 * points.length + 4) 0 u hw rfl (Nat.zero_le _) (by omega) (by intros; omega) (hgap u hw rfl (List.Sublist.refl _))) ?_
  rintro s ⟨u1, rfl, hw1, hh1, hs1, hq1, hset1⟩
  have hfin : ∀ u2 : List Nat, (u2.map (chosenAt points)).mapM (fun v => do
      let w ← finalWord points v.2
      .ok (v.1, w)) = (.ok (u2.map (fun k => (posAt points k, finalWordAt points k))) : Res RawContour) := by
    intro u2
    induction u2 with
    | nil => rfl
    | cons k u2 ih =>
      rw [List.map_cons, List.mapM_cons, ih]
      simp only [chosenAt, finalWord_at hn, bind_ok, List.map_cons]
      rfl
  have hend : ∀ u2 : List Nat, Wind points.length 1 u2 → u2.headD 0 = u.headD 0 → u1.Sublist u2 →
      (∀ k ∈ u2, k ∈ u ∨ tolerated points k = true) → ∃ h l1 l, h < points.length ∧ Arcs points.length h l1 (h + 1 * points.length) ∧
        Arcs points.length h l (h + 1 * points.length) ∧ l1.Sublist l ∧
        u2.map (fun k => (posAt points k, finalWordAt points k)) = (h :: l).map (fun k => (posAt points k, finalWordAt points k)) ∧
        (∀ i < points.length, changed points i = true → i ∈ h :: l1) ∧
        (∀ pre x y post, h :: l1 ++ [h + 1 * points.length] = pre ++ x :: y :: post →
            refinePick t points (chosenAt points x) (chosenAt points y) = .ok none) ∧
        ((∀ k ∈ h :: l, changed points k = true ∨ tolerated points k = true) ∨
          ((∀ i, changed points i = false) ∧ ((∀ i, tolerated points i = false) →
            (u2.map (fun k => (posAt points k, finalWordAt points k))).length ≤ 2))) := by
    intro u2 hw2 hh2 hs2 hq2
    have hw2' := hw2
    obtain ⟨h, l1, rfl, hh, ha1⟩ := hw1
    obtain ⟨h', l, rfl, hh', ha⟩ := hw2
    simp only [List.headD_cons] at hh1 hh2
    have : h' = h := by omega
    subst this
    have hsub' : l1.Sublist l := by
      rcases List.cons_sublist_cons'.1 hs2 with h | h
      · exact (List.sublist_cons_self _ _).trans h
      · exact h.2
    refine ⟨h', l1, l, hh, ha1, ha, hsub', rfl, fun i hi' hc' => hs1.subset (hch i hi' hc'), ?_, ?_⟩
    · rw [hh1]; rw [hh1] at hset1; exact hset1
    · rcases hkind with hk | ⟨hk, hlen⟩
      · left
        intro k hkm
        rcases hq2 k hkm with g | g
        · left
          have := hk (chosenAt points k) (List.mem_map.2 ⟨k, g, rfl⟩)
          simp only [chosenAt, changed_mod] at this
          exact this
        · exact Or.inr g
      · right
        refine ⟨hk, fun hno => ?_⟩
        have hsubset : (h' :: l) ⊆ u := by
          intro k hkm
          rcases hq2 k hkm with g | g
          · exact g
          · rw [hno k] at g; cases g
        have hnd : (h' :: l).Nodup := (List.pairwise_append.1 (arcs_sorted ha)).1.imp Nat.ne_of_lt
        have := (List.subperm_of_subset hnd hsubset).length_le
        simp only [List.length_map] at hlen ⊢
        omega
  by_cases hc : maxEdgeLen > 0 ∧ (flags.wallEdges || flags.areaEdges) = true
  · rw [if_pos hc]
    refine TotalOr.bind (insertLoop_gen (W := 1) (splitPoint_gap True) (u1.headD 0)
      (4 * points.length + 4) 0 u1 hw1 rfl (Nat.zero_le _) (by omega) (by intros; omega) (by rw [hh1]; exact hgap u1 hw1 hh1 hs1)) ?_
    rintro s ⟨u2, rfl, hw2, hh2, hs2, hq2, _⟩
    rw [hfin]
    refine TotalOr.ok (hend u2 hw2 (hh2.trans hh1) hs2 ?_)
    intro k hk
    rcases hq2 k hk with g | g
    · exact (hq1 k g).imp id (fun g => g trivial)
    · exact Or.inr (g trivial)
  · rw [if_neg hc, hfin]
    exact TotalOr.ok (hend u1 hw1 hh1 (List.Sublist.refl _) fun k hk => (hq1 k hk).imp id fun g => g trivial)

end Rerecast
