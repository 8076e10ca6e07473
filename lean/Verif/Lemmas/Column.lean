import Verif.Lemmas.HeightfieldRep
/-! List-level theory of span insertion. -/
set_option linter.unusedVariables false
namespace Rerecast

def Proper (l : List Solid) : Prop := ∀ s ∈ l, s.min ≤ s.max

theorem mergeSolid_min (thr) (n c : Solid) : (mergeSolid thr n c).min = min n.min c.min := by
  simp only [mergeSolid, Nat.min_def]; split <;> split <;> omega
theorem mergeSolid_max (thr) (n c : Solid) : (mergeSolid thr n c).max = max n.max c.max := by
  simp only [mergeSolid, Nat.max_def]; split <;> split <;> omega

theorem insertCol_lower (thr : Nat) (b : Nat) : ∀ (l : List Solid) (n : Solid), b < n.min →
    (∀ s ∈ l, b < s.min) → ∀ s ∈ insertCol thr n l, b < s.min
  | [], n, hn, _, s, hs => by simp [insertCol] at hs; subst hs; exact hn
  | c :: l, n, hn, hl, s, hs => by
    unfold insertCol at hs
    split at hs
    · simp at hs
      rcases hs with rfl | rfl | hs
      · exact hn
      · exact hl _ (by simp)
      · exact hl s (by simp [hs])
    · split at hs
      · simp at hs
        rcases hs with rfl | hs
        · exact hl _ (by simp)
        · exact insertCol_lower thr b l n hn (fun s h => hl s (by simp [h])) s hs
      · refine insertCol_lower thr b l _ ?_ (fun s h => hl s (by simp [h])) s hs
        rw [mergeSolid_min]
        have := hl c (by simp)
        exact Nat.lt_min.2 ⟨hn, this⟩

theorem insertCol_proper (thr : Nat) : ∀ (l : List Solid) (n : Solid), n.min ≤ n.max → Proper l →
    Proper (insertCol thr n l)
  | [], n, hn, _ => by intro s hs; simp [insertCol] at hs; subst hs; exact hn
  | c :: l, n, hn, hl => by
    have hl' : Proper l := fun s h => hl s (by simp [h])
    have hc := hl c (by simp)
    unfold insertCol
    split
    · intro s hs; simp at hs
      rcases hs with rfl | rfl | hs
      · exact hn
      · exact hc
      · exact hl' s hs
    · split
      · intro s hs; simp at hs
        rcases hs with rfl | hs
        · exact hc
        · exact insertCol_proper thr l n hn hl' s hs
      · refine insertCol_proper thr l _ ?_ hl'
        rw [mergeSolid_min, mergeSolid_max]
        exact Nat.le_trans (Nat.min_le_left _ _) (Nat.le_trans hn (Nat.le_max_left _ _))

theorem insertCol_strict (thr : Nat) : ∀ (l : List Solid) (n : Solid), n.min < n.max →
    (∀ s ∈ l, s.min < s.max) → ∀ s ∈ insertCol thr n l, s.min < s.max
  | [], n, hn, _ => by intro s hs; simp [insertCol] at hs; subst hs; exact hn
  | c :: l, n, hn, hl => by
    have hl' : ∀ s ∈ l, s.min < s.max := fun s h => hl s (by simp [h])
    have hc := hl c (by simp)
    unfold insertCol
    split
    · intro s hs; simp at hs
      rcases hs with rfl | rfl | hs
      · exact hn
      · exact hc
      · exact hl' s hs
    · split
      · intro s hs; simp at hs
        rcases hs with rfl | hs
        · exact hc
        · exact insertCol_strict thr l n hn hl' s hs
      · refine insertCol_strict thr l _ ?_ hl'
        rw [mergeSolid_min, mergeSolid_max]
        exact Nat.lt_of_le_of_lt (Nat.min_le_left _ _) (Nat.lt_of_lt_of_le hn (Nat.le_max_left _ _))

theorem insertCol_separated (thr : Nat) : ∀ (l : List Solid) (n : Solid), n.min ≤ n.max → Proper l →
    Separated l → Separated (insertCol thr n l)
  | [], n, hn, _, _ => by simp [insertCol, Separated]
  | c :: l, n, hn, hl, hs => by
    have hl' : Proper l := fun s h => hl s (by simp [h])
    have hc := hl c (by simp)
    have hs1 : ∀ s ∈ l, c.max < s.min := (List.pairwise_cons.1 hs).1
    have hs2 : Separated l := (List.pairwise_cons.1 hs).2
    unfold insertCol
    split
    · refine List.pairwise_cons.2 ⟨?_, hs⟩
      intro s h; simp at h
      rcases h with rfl | h
      · assumption
      · have := hs1 s h; omega
    · split
      · refine List.pairwise_cons.2 ⟨?_, insertCol_separated thr l n hn hl' hs2⟩
        exact insertCol_lower thr c.max l n (by assumption) hs1
      · refine insertCol_separated thr l _ ?_ hl' hs2
        rw [mergeSolid_min, mergeSolid_max]
        exact Nat.le_trans (Nat.min_le_left _ _) (Nat.le_trans hn (Nat.le_max_left _ _))

theorem insertCol_occupied (thr : Nat) (v : Nat) : ∀ (l : List Solid) (n : Solid),
    Occupied (insertCol thr n l) v ↔ (n.min ≤ v ∧ v < n.max) ∨ Occupied l v
  | [], n => by simp [insertCol, Occupied]
  | c :: l, n => by
    have hcons : ∀ (a : Solid) (l : List Solid),
        Occupied (a :: l) v ↔ (a.min ≤ v ∧ v < a.max) ∨ Occupied l v := by
      intro a l; simp [Occupied]
    unfold insertCol
    split
    · rw [hcons]
    · split
      · rw [hcons, insertCol_occupied thr v l n, hcons, or_left_comm]
      · rename_i h1 h2
        rw [insertCol_occupied thr v l, hcons, ← or_assoc, mergeSolid_min, mergeSolid_max]
        have : (min n.min c.min ≤ v ∧ v < max n.max c.max) ↔
            (n.min ≤ v ∧ v < n.max ∨ c.min ≤ v ∧ v < c.max) := by
          simp only [Nat.min_def, Nat.max_def]; split <;> split <;> omega
        rw [this]

/-- A separated column of non-empty solids is determined by the set of occupied voxels. -/
theorem geom_canonical : ∀ (l m : List Solid), Separated l → Separated m →
    (∀ s ∈ l, s.min < s.max) → (∀ s ∈ m, s.min < s.max) →
    (∀ v, Occupied l v ↔ Occupied m v) → geom l = geom m
  | [], [], _, _, _, _, _ => rfl
  | [], b :: m, _, _, _, hm, h => by
    have hb := hm b (by simp)
    obtain ⟨s, hs, _⟩ := (h b.min).2 ⟨b, by simp, Nat.le_refl _, hb⟩
    simp at hs
  | a :: l, [], _, _, hl, _, h => by
    have ha := hl a (by simp)
    obtain ⟨s, hs, _⟩ := (h a.min).1 ⟨a, by simp, Nat.le_refl _, ha⟩
    simp at hs
  | a :: l, b :: m, sl, sm, hl, hm, h => by
    have ha := hl a (by simp)
    have hb := hm b (by simp)
    have sl1 := (List.pairwise_cons.1 sl).1
    have sl2 := (List.pairwise_cons.1 sl).2
    have sm1 := (List.pairwise_cons.1 sm).1
    have sm2 := (List.pairwise_cons.1 sm).2
    have hmin : a.min = b.min := by
      obtain ⟨s, hs, h1, h2⟩ := (h a.min).1 ⟨a, by simp, Nat.le_refl _, ha⟩
      obtain ⟨t, ht, h3, h4⟩ := (h b.min).2 ⟨b, by simp, Nat.le_refl _, hb⟩
      have e1 : b.min ≤ a.min := by
        simp at hs; rcases hs with rfl | hs
        · exact h1
        · have := sm1 s hs; omega
      have e2 : a.min ≤ b.min := by
        simp at ht; rcases ht with rfl | ht
        · exact h3
        · have := sl1 t ht; omega
      omega
    have hmax : a.max = b.max := by
      have e1 : ¬ a.max < b.max := by
        intro hlt
        obtain ⟨t, ht, h3, h4⟩ := (h a.max).2 ⟨b, by simp, by omega, hlt⟩
        simp at ht; rcases ht with rfl | ht
        · omega
        · have := sl1 t ht; omega
      have e2 : ¬ b.max < a.max := by
        intro hlt
        obtain ⟨t, ht, h3, h4⟩ := (h b.max).1 ⟨a, by simp, by omega, hlt⟩
        simp at ht; rcases ht with rfl | ht
        · omega
        · have := sm1 t ht; omega
      omega
    have htail : ∀ v, Occupied l v ↔ Occupied m v := by
      intro v
      constructor
      · rintro ⟨s, hs, h1, h2⟩
        obtain ⟨t, ht, h3, h4⟩ := (h v).1 ⟨s, by simp [hs], h1, h2⟩
        simp at ht; rcases ht with rfl | ht
        · have := sl1 s hs; omega
        · exact ⟨t, ht, h3, h4⟩
      · rintro ⟨s, hs, h1, h2⟩
        obtain ⟨t, ht, h3, h4⟩ := (h v).2 ⟨s, by simp [hs], h1, h2⟩
        simp at ht; rcases ht with rfl | ht
        · have := sm1 s hs; omega
        · exact ⟨t, ht, h3, h4⟩
    have := geom_canonical l m sl2 sm2 (fun s hs => hl s (by simp [hs])) (fun s hs => hm s (by simp [hs])) htail
    simp only [geom, List.map_cons, hmin, hmax] at this ⊢
    rw [this]

/-- Fold description of the absorbed block: running minimum / maximum / area. -/
def absorb (thr : Nat) (top : Nat) (acc : Solid) (c : Solid) : Solid :=
  ⟨min acc.min c.min, max acc.max c.max,
   if top ≤ c.max + thr then max acc.area c.area else acc.area⟩

theorem filter_all_false {p : Solid → Bool} {l : List Solid} (h : ∀ s ∈ l, p s = false) : l.filter p = [] := by
  rw [List.filter_eq_nil_iff]; intro s hs; simp [h s hs]
theorem filter_all_true {p : Solid → Bool} {l : List Solid} (h : ∀ s ∈ l, p s = true) : l.filter p = l :=
  List.filter_eq_self.2 h

/-- Closed form of insertion into a separated column.  `n` is the running block, `n0` the original request;
everything already absorbed lies below the remaining list. -/
theorem insertCol_closed (thr : Nat) (n0 : Solid) : ∀ (l : List Solid) (n : Solid),
    n.min ≤ n0.min → n0.max ≤ n.max → n0.min ≤ n0.max → Proper l → Separated l →
    (n.min = n0.min ∨ ∀ s ∈ l, n0.min ≤ s.max) →
    (n.max = n0.max ∨ ∀ s ∈ l, n.max < s.min) →
    insertCol thr n l = l.filter (fun c => decide (c.max < n0.min)) ++
      (l.filter (fun c => decide (Touches n0 c))).foldl (absorb thr n0.max) n ::
      l.filter (fun c => decide (n0.max < c.min))
  | [], n, _, _, _, _, _, _, _ => by simp [insertCol]
  | c :: l, n, h1, h2, h0, hl, hs, hmn, hmx => by
    have hl' : Proper l := fun s h => hl s (by simp [h])
    have hc := hl c (by simp)
    have hs1 : ∀ s ∈ l, c.max < s.min := (List.pairwise_cons.1 hs).1
    have hs2 : Separated l := (List.pairwise_cons.1 hs).2
    unfold insertCol
    by_cases hb : c.min > n.max
    · simp only [hb, if_true]
      have g1 : ∀ s ∈ c :: l, decide (s.max < n0.min) = false := by
        intro s h; have := hl s h
        simp at h; rcases h with rfl | h
        · simp; omega
        · have := hs1 s h; simp; omega
      have g2 : ∀ s ∈ c :: l, decide (Touches n0 s) = false := by
        intro s h; have := hl s h
        refine decide_eq_false fun ht => ?_
        have := ht.1; have := ht.2
        simp at h; rcases h with rfl | h
        · omega
        · have := hs1 s h; omega
      have g3 : ∀ s ∈ c :: l, decide (n0.max < s.min) = true := by
        intro s h; have := hl s h
        simp at h; rcases h with rfl | h
        · simp; omega
        · have := hs1 s h; simp; omega
      rw [filter_all_false g1, filter_all_false g2, filter_all_true g3]; rfl
    · simp only [hb, if_false]
      -- so n.max = n0.max
      have hmax : n.max = n0.max := by
        rcases hmx with h | h
        · exact h
        · exact absurd (h c (by simp)) (by omega)
      by_cases hk : c.max < n.min
      · simp only [hk, if_true]
        have hmin : n.min = n0.min := by
          rcases hmn with h | h
          · exact h
          · have := h c (by simp); omega
        rw [insertCol_closed thr n0 l n h1 h2 h0 hl' hs2 (Or.inl hmin) (Or.inl hmax)]
        have g1 : decide (c.max < n0.min) = true := by simp; omega
        have g2 : decide (Touches n0 c) = false := decide_eq_false fun ht => by have := ht.1; have := ht.2; omega
        have g3 : decide (n0.max < c.min) = false := by simp; omega
        simp only [List.filter_cons, g1, g2, g3]; simp
      · simp only [hk, if_false]
        have ht : Touches n0 c := by
          refine ⟨by omega, ?_⟩
          rcases hmn with h | h
          · omega
          · exact h c (by simp)
        have hm : mergeSolid thr n c = absorb thr n0.max n c := by
          have e1 := mergeSolid_min thr n c
          have e2 := mergeSolid_max thr n c
          have e3 : (mergeSolid thr n c).area = (absorb thr n0.max n c).area := by
            simp only [mergeSolid, absorb]
            have : ((((if c.max > n.max then c.max else n.max : Nat) : Int) - (c.max : Int)).natAbs ≤ thr) ↔
                (n0.max ≤ c.max + thr) := by
              split <;> omega
            simp only [this]
          cases hh : mergeSolid thr n c with
          | mk a b d =>
            rw [hh] at e1 e2 e3
            simp only [absorb] at e1 e2 e3 ⊢
            rw [e1, e2, e3]
        rw [hm, insertCol_closed thr n0 l (absorb thr n0.max n c) ?_ ?_ h0 hl' hs2 ?_ ?_]
        · have g1 : decide (c.max < n0.min) = false := by simp; exact ht.2
          have g2 : decide (Touches n0 c) = true := by simp [ht]
          have g3 : decide (n0.max < c.min) = false := by simp; exact ht.1
          simp only [List.filter_cons, g1, g2, g3]; simp
        · exact Nat.le_trans (Nat.min_le_left _ _) h1
        · exact Nat.le_trans h2 (Nat.le_max_left _ _)
        · right; intro s h; have := hs1 s h; have := hl' s h; have := ht.2; omega
        · by_cases hcm : c.max ≤ n.max
          · left; simp only [absorb]; rw [Nat.max_eq_left hcm]; exact hmax
          · right; intro s h; simp only [absorb]
            rw [Nat.max_eq_right (by omega)]; exact hs1 s h

theorem insertCol_bound (thr B : Nat) : ∀ (l : List Solid) (n : Solid), n.max ≤ B →
    (∀ s ∈ l, s.max ≤ B) → ∀ s ∈ insertCol thr n l, s.max ≤ B
  | [], n, hn, _ => by simpa [insertCol] using hn
  | c :: l, n, hn, hl => by
    have hl' : ∀ s ∈ l, s.max ≤ B := fun s h => hl s (by simp [h])
    have hc := hl c (by simp)
    unfold insertCol
    split
    · intro s h; simp at h
      rcases h with rfl | rfl | h
      · exact hn
      · exact hc
      · exact hl' s h
    · split
      · intro s h; simp at h
        rcases h with rfl | h
        · exact hc
        · exact insertCol_bound thr B l n hn hl' s h
      · exact insertCol_bound thr B l _ (by rw [mergeSolid_max]; omega) hl'

theorem absorb_foldl_min (thr top : Nat) : ∀ (l : List Solid) (n m : Solid), m = l.foldl (absorb thr top) n →
    m.min ≤ n.min ∧ (∀ c ∈ l, m.min ≤ c.min) ∧ (m.min = n.min ∨ ∃ c ∈ l, m.min = c.min)
  | [], n, m, hm => by subst hm; simp
  | c :: l, n, m, hm => by
    obtain ⟨a1, a2, a3⟩ := absorb_foldl_min thr top l (absorb thr top n c) m hm
    have e1 : (absorb thr top n c).min = min n.min c.min := rfl
    rw [e1] at a1 a3
    refine ⟨by clear a3; omega, ?_, ?_⟩
    · clear a3
      intro s hs; simp at hs; rcases hs with rfl | hs
      · omega
      · exact a2 s hs
    · rcases a3 with h | ⟨s, hs, h⟩
      · by_cases h' : n.min ≤ c.min
        · left; omega
        · right; exact ⟨c, by simp, by omega⟩
      · right; exact ⟨s, by simp [hs], h⟩

theorem absorb_foldl_max (thr top : Nat) : ∀ (l : List Solid) (n m : Solid), m = l.foldl (absorb thr top) n →
    n.max ≤ m.max ∧ (∀ c ∈ l, c.max ≤ m.max) ∧ (m.max = n.max ∨ ∃ c ∈ l, m.max = c.max)
  | [], n, m, hm => by subst hm; simp
  | c :: l, n, m, hm => by
    obtain ⟨a1, a2, a3⟩ := absorb_foldl_max thr top l (absorb thr top n c) m hm
    have e1 : (absorb thr top n c).max = max n.max c.max := rfl
    rw [e1] at a1 a3
    refine ⟨by clear a3; omega, ?_, ?_⟩
    · clear a3
      intro s hs; simp at hs; rcases hs with rfl | hs
      · omega
      · exact a2 s hs
    · rcases a3 with h | ⟨s, hs, h⟩
      · by_cases h' : c.max ≤ n.max
        · left; omega
        · right; exact ⟨c, by simp, by omega⟩
      · right; exact ⟨s, by simp [hs], h⟩

theorem absorb_foldl_area (thr top : Nat) : ∀ (l : List Solid) (n m : Solid), m = l.foldl (absorb thr top) n →
    n.area ≤ m.area ∧ (∀ c ∈ l, top ≤ c.max + thr → c.area ≤ m.area) ∧
      (m.area = n.area ∨ ∃ c ∈ l, top ≤ c.max + thr ∧ m.area = c.area)
  | [], n, m, hm => by subst hm; simp
  | c :: l, n, m, hm => by
    obtain ⟨d1, d2, d3⟩ := absorb_foldl_area thr top l (absorb thr top n c) m hm
    have e3 : (absorb thr top n c).area = if top ≤ c.max + thr then max n.area c.area else n.area := rfl
    rw [e3] at d1 d3
    refine ⟨?_, ?_, ?_⟩
    · clear d3; split at d1 <;> omega
    · clear d3
      intro s hs ht; simp at hs; rcases hs with rfl | hs
      · rw [if_pos ht] at d1; omega
      · exact d2 s hs ht
    · rcases d3 with h | ⟨s, hs, h1, h2⟩
      · by_cases ht : top ≤ c.max + thr
        · rw [if_pos ht] at h
          by_cases h' : c.area ≤ n.area
          · left; omega
          · right; exact ⟨c, by simp, ht, by omega⟩
        · rw [if_neg ht] at h; exact Or.inl h
      · right; exact ⟨s, by simp [hs], h1, h2⟩

end Rerecast
