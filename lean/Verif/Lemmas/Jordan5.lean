import Verif.Lemmas.Jordan4
/-! Cutting a polygon that does not touch itself along a diagonal. -/
namespace Rerecast.Jordan
open List

theorem path_join (x : Point) (m : List Point) (b : Point) (n : List Point) : path (x :: m ++ b :: n) = path (x :: m ++ [b]) ++ path (b :: n) := by
  rw [path_append x m b n, path_append x m b [], path_single, List.append_assoc]; rfl

theorem sides_split (a b : Point) (l1 l2 : List Point) : sides (a :: (l1 ++ b :: l2)) = path (a :: l1 ++ [b]) ++ path (b :: l2 ++ [a]) := by
  rw [sides_path]
  have : a :: (l1 ++ b :: l2) ++ [a] = a :: l1 ++ b :: (l2 ++ [a]) := by simp
  rw [this, path_join]
  rfl

theorem sides_part (a b : Point) (l1 : List Point) : sides (a :: (l1 ++ [b])) = path (a :: l1 ++ [b]) ++ [(b, a)] := by
  rw [sides_path]
  have : a :: (l1 ++ [b]) ++ [a] = a :: l1 ++ b :: [a] := by simp
  rw [this, path_join]
  rfl

theorem path_ends {m : List Point} {e : Point × Point} : e ∈ path m → e.1 ∈ m.dropLast ∧ e.2 ∈ m.tail := by
  induction m with
  | nil => intro h; simp [path] at h
  | cons a m ih =>
    cases m with
    | nil => intro h; simp [path] at h
    | cons b m =>
      intro h
      rw [path_cons_cons] at h
      rcases List.mem_cons.1 h with rfl | h
      · simp
      · have := ih h
        refine ⟨?_, ?_⟩
        · rw [List.dropLast_cons_cons]; exact List.mem_cons_of_mem _ this.1
        · exact List.mem_of_mem_tail this.2

theorem path_ends' {a b : Point} {l1 : List Point} {e : Point × Point} (h : e ∈ path (a :: l1 ++ [b])) : e.1 ∈ a :: l1 ∧ e.2 ∈ l1 ++ [b] := by
  have := path_ends h
  rw [List.dropLast_append_of_ne_nil (by simp)] at this
  simpa using this

theorem winding_split (p a b : Point) (l1 l2 : List Point) : winding p (a :: (l1 ++ b :: l2)) = winding p (a :: (l1 ++ [b])) + winding p (b :: (l2 ++ [a])) := by
  unfold winding around
  rw [sides_split, sides_part, sides_part]
  have := crossing_antisymm p a b
  simp only [List.map_append, List.sum_append, List.map_cons, List.map_nil, List.sum_cons, List.sum_nil]
  omega

theorem split_rotated (a b : Point) (l1 l2 : List Point) : (a :: (l1 ++ b :: l2)) ~r (b :: (l2 ++ a :: l1)) := by
  have h1 : a :: (l1 ++ b :: l2) = (a :: l1) ++ (b :: l2) := by simp
  have h2 : b :: (l2 ++ a :: l1) = (b :: l2) ++ (a :: l1) := by simp
  rw [h1, h2]
  exact List.isRotated_append

theorem OnSeg.flip_iff {p u v : Point} : OnSeg p (u, v) ↔ OnSeg p (v, u) := ⟨OnSeg.flip, OnSeg.flip⟩

theorem Diagonal.symm {l : List Point} {a b : Point} (h : Diagonal l a b) : Diagonal l b a :=
  fun f hf p hp hq => ⟨(h f hf p (OnSeg.flip hp) hq).1.symm, (h f hf p (OnSeg.flip hp) hq).2⟩

theorem Diagonal.rotated {l m : List Point} {a b : Point} (h : Diagonal l a b) (hr : l ~r m) : Diagonal m a b :=
  fun f hf => h f ((sides_isRotated hr).mem_iff.2 hf)

/-- The part of the polygon before the diagonal does not touch itself. -/
theorem simple_part {a b : Point} {l1 l2 : List Point} (S : SimplePolygon (a :: (l1 ++ b :: l2))) (hl1 : l1 ≠ []) (hD : Diagonal (a :: (l1 ++ b :: l2)) a b) :
    SimplePolygon (a :: (l1 ++ [b])) := by
  have hn := S.corners
  have hnd : (a :: (l1 ++ [b])).Nodup := by
    refine hn.sublist ?_
    simp
  have hpath : ∀ e ∈ path (a :: l1 ++ [b]), e ∈ sides (a :: (l1 ++ b :: l2)) := by
    intro e he; rw [sides_split]; exact List.mem_append_left _ he
  have hmix : ∀ e ∈ path (a :: l1 ++ [b]), ∀ p, OnSeg p e → OnSeg p (b, a) → (p = e.2 ∧ p = b) ∨ (p = e.1 ∧ p = a) := by
    intro e he p h1 h2
    obtain ⟨hp, hpe⟩ := hD e (hpath e he) p (OnSeg.flip h2) h1
    obtain ⟨m1, m2⟩ := path_ends' he
    have hn' := hnd
    rw [List.nodup_cons] at hn'
    rcases hp with rfl | rfl
    · right
      refine ⟨hpe.resolve_right ?_, rfl⟩
      intro h; rw [← h] at m2; exact hn'.1 m2
    · left
      refine ⟨hpe.resolve_left ?_, rfl⟩
      intro h
      rw [← h] at m1
      have : (a :: l1 ++ [p]).Nodup := by simpa using hnd
      rw [List.nodup_append] at this
      exact this.2.2 p m1 p (by simp) rfl
  constructor
  · have := List.length_pos_iff.2 hl1
    simp; omega
  · exact hnd
  · intro e he f hf hne p hp hq
    rw [sides_part] at he hf
    rcases List.mem_append.1 he with he | he <;> rcases List.mem_append.1 hf with hf | hf
    · exact S.apart e (hpath e he) f (hpath f hf) hne p hp hq
    · simp only [List.mem_singleton] at hf; subst hf
      exact hmix e he p hp hq
    · simp only [List.mem_singleton] at he; subst he
      rcases hmix f hf p hq hp with h | h
      · exact Or.inr ⟨h.2, h.1⟩
      · exact Or.inl ⟨h.2, h.1⟩
    · simp only [List.mem_singleton] at he hf
      exact absurd (he.trans hf.symm) hne

theorem cone_right {d a a1 b : Point} (hc : turn d a a1 = 0 → ∃ s : Rat, 0 < s ∧ turn a a1 b = s * turn d a b) (h : InLeft d a a1 b) : InRight d a b a1 ∧ InRight b a a1 d := by
  have e1 : turn a b a1 = -turn a a1 b := by unfold turn; ring
  have e2 : turn b a a1 = turn a a1 b := by unfold turn; ring
  have e3 : turn b a d = -turn d a b := by unfold turn; ring
  have e4 : turn a a1 d = turn d a a1 := by unfold turn; ring
  unfold InLeft at h
  unfold InRight
  rw [e1, e2, e3, e4]
  generalize turn d a a1 = T at *
  generalize turn d a b = α at *
  generalize turn a a1 b = β at *
  have hT : T ≤ 0 → (0 < α ∨ 0 < β) → T < 0 ∨ (0 < α ∧ 0 < β) := by
    intro h1 h2
    rcases lt_or_eq_of_le h1 with h3 | h3
    · exact Or.inl h3
    · obtain ⟨s, hs, e⟩ := hc h3
      right
      rcases h2 with h2 | h2
      · exact ⟨h2, by rw [e]; exact mul_pos hs h2⟩
      · refine ⟨?_, h2⟩
        rw [e] at h2
        exact (pos_iff_pos_of_mul_pos h2).1 hs
  have key : (0 < α ∧ 0 < β) ∨ (T < 0 ∧ (0 < α ∨ 0 < β)) := by
    rcases h with ⟨_, h2, h3⟩ | ⟨h1, h2⟩
    · exact Or.inl ⟨h2, h3⟩
    · rcases hT h1 h2 with h3 | h3
      · exact Or.inr ⟨h3, h2⟩
      · exact Or.inl h3
  rcases key with ⟨h1, h2⟩ | ⟨h1, h2⟩
  · exact ⟨Or.inr ⟨h1.le, Or.inr (by linarith)⟩, Or.inr ⟨h2.le, Or.inl (by linarith)⟩⟩
  · constructor
    · rcases le_or_gt 0 α with h3 | h3
      · exact Or.inr ⟨h3, Or.inl h1⟩
      · exact Or.inl ⟨h3, h1, by rcases h2 with h2 | h2 <;> linarith⟩
    · rcases le_or_gt 0 β with h3 | h3
      · exact Or.inr ⟨h3, Or.inr h1⟩
      · exact Or.inl ⟨h3, by rcases h2 with h2 | h2 <;> linarith, h1⟩

theorem chain_all {R : Point → Prop} : ∀ (m : List Point), (∀ e ∈ path m, R e.1 ↔ R e.2) → ∀ q ∈ m, R q → ∀ q' ∈ m, R q'
  | [], _, q, hq, _ => by simp at hq
  | [a], _, q, hq, hR => by
    intro q' hq'
    simp only [List.mem_singleton] at hq hq'
    rw [hq', ← hq]; exact hR
  | a :: b :: m, h, q, hq, hR => by
    have ih := chain_all (b :: m) (fun e he => h e (by rw [path_cons_cons]; exact List.mem_cons_of_mem _ he))
    have hab : R a ↔ R b := h (a, b) (by simp [path_cons_cons])
    have hb : R b := by
      rcases List.mem_cons.1 hq with rfl | hq
      · exact hab.1 hR
      · exact ih q hq hR b (by simp)
    intro q' hq'
    rcases List.mem_cons.1 hq' with rfl | hq'
    · exact hab.2 hb
    · exact ih b (by simp) hb q' hq'

theorem path_mid_mem (b : Point) (m : List Point) (a : Point) {e : Point × Point} (h : e ∈ path m) : e ∈ path (b :: m ++ [a]) := by
  cases m with
  | nil => simp [path] at h
  | cons x m =>
    have : path (b :: (x :: m) ++ [a]) = (b, x) :: path (x :: m ++ [a]) := by simp [path_cons_cons]
    rw [this, path_append x m a []]
    simp [h]

/-- The rest of the polygon seen from one part: the part winds `k` times around all of it. -/
theorem part_rest {a b : Point} {l1 l2 : List Point} (S : SimplePolygon (a :: (l1 ++ b :: l2))) (SA : SimplePolygon (a :: (l1 ++ [b])))
    (hD : Diagonal (a :: (l1 ++ b :: l2)) a b) {w : Int} {q : Point} (hq : q ∈ l2) (h : winding q (a :: (l1 ++ [b])) = w) :
    ∀ q' ∈ l2, winding q' (a :: (l1 ++ [b])) = w := by
  refine chain_all (R := fun q => winding q (a :: (l1 ++ [b])) = w) l2 ?_ q hq h
  intro e he
  have hnd := S.corners
  have he' : e ∈ path (b :: l2 ++ [a]) := path_mid_mem b l2 a he
  have hes : e ∈ sides (a :: (l1 ++ b :: l2)) := by rw [sides_split]; exact List.mem_append_right _ he'
  have hm := mem_path_mem he
  have hdis : ∀ x ∈ l2, x ≠ a ∧ x ∉ l1 ∧ x ≠ b := by
    intro x hx
    rw [List.nodup_cons, List.nodup_append, List.nodup_cons] at hnd
    refine ⟨?_, ?_, ?_⟩
    · rintro rfl; exact hnd.1 (by simp [hx])
    · intro h; exact hnd.2.2.2 x h x (by simp [hx]) rfl
    · rintro rfl; exact hnd.2.2.1.1 hx
  have : winding e.1 (a :: (l1 ++ [b])) = winding e.2 (a :: (l1 ++ [b])) := by
    apply winding_same
    intro f hf
    apply apart_of_disjoint (side_ne SA hf)
    intro p hp hpf
    rw [sides_part] at hf
    rcases List.mem_append.1 hf with hf | hf
    · have hfs : f ∈ sides (a :: (l1 ++ b :: l2)) := by rw [sides_split]; exact List.mem_append_left _ hf
      have fm := path_ends' hf
      have h1 := hdis _ hm.1
      have h2 := hdis _ hm.2
      have hne : e ≠ f := by
        rintro rfl
        rcases List.mem_cons.1 fm.1 with h | h
        · exact h1.1 h
        · exact h1.2.1 h
      rcases S.apart e hes f hfs hne p hp hpf with ⟨e1, e2⟩ | ⟨e1, e2⟩
      · rw [← e2, e1] at fm
        rcases List.mem_cons.1 fm.1 with h | h
        · exact h2.1 h
        · exact h2.2.1 h
      · rw [← e2, e1] at fm
        rcases List.mem_append.1 fm.2 with h | h
        · exact h1.2.1 h
        · exact h1.2.2 (by simpa using h)
    · simp only [List.mem_singleton] at hf
      subst hf
      obtain ⟨h3, h4⟩ := hD e hes p (OnSeg.flip hpf) hp
      have h1 := hdis _ hm.1
      have h2 := hdis _ hm.2
      rcases h3 with rfl | rfl <;> rcases h4 with h4 | h4
      · exact h1.1 h4.symm
      · exact h2.1 h4.symm
      · exact h1.2.2 h4.symm
      · exact h2.2.2 h4.symm
  rw [this]

/-- Where the next corner of the rest is seen from the part: at the end `a` of the diagonal, whose neighbour in the rest is `d`. -/
theorem part_ray {a b : Point} {l1 l2 : List Point} (S : SimplePolygon (a :: (l1 ++ b :: l2))) (hD : Diagonal (a :: (l1 ++ b :: l2)) a b)
    {d : Point} (hd : d ∈ l2) (hda : (d, a) ∈ sides (a :: (l1 ++ b :: l2)) ∨ (a, d) ∈ sides (a :: (l1 ++ b :: l2))) :
    ∀ f ∈ sides (a :: (l1 ++ [b])), ∀ y, OnSeg y (a, d) → OnSeg y f → y = a := by
  intro f hf y hy hyf
  have hnd := S.corners
  rw [List.nodup_cons, List.nodup_append, List.nodup_cons] at hnd
  have d1 : d ≠ a := by rintro rfl; exact hnd.1 (by simp [hd])
  have d2 : d ∉ l1 := by intro h; exact hnd.2.2.2 d h d (by simp [hd]) rfl
  have d3 : d ≠ b := by rintro rfl; exact hnd.2.2.1.1 hd
  rw [sides_part] at hf
  rcases List.mem_append.1 hf with hf | hf
  · have hfs : f ∈ sides (a :: (l1 ++ b :: l2)) := by rw [sides_split]; exact List.mem_append_left _ hf
    have fm := path_ends' hf
    have hd1 : d ∉ a :: l1 := by simp [d1, d2]
    have hd2 : d ∉ l1 ++ [b] := by simp [d2, d3]
    rcases hda with hda | hda
    · have hne : (d, a) ≠ f := by rintro rfl; exact hd1 fm.1
      rcases S.apart _ hda f hfs hne y (OnSeg.flip hy) hyf with ⟨e1, e2⟩ | ⟨e1, e2⟩
      · exact e1
      · dsimp only at e1
        rw [← e2, e1] at fm
        exact absurd fm.2 hd2
    · have hne : (a, d) ≠ f := by rintro rfl; exact hd2 fm.2
      rcases S.apart _ hda f hfs hne y hy hyf with ⟨e1, e2⟩ | ⟨e1, e2⟩
      · dsimp only at e1
        rw [← e2, e1] at fm
        exact absurd fm.1 hd1
      · exact e1
  · simp only [List.mem_singleton] at hf
    subst hf
    rcases hda with hda | hda
    · obtain ⟨h3, h4⟩ := hD _ hda y (OnSeg.flip hyf) (OnSeg.flip hy)
      rcases h4 with h4 | h4
      · exfalso
        dsimp only at h4
        rcases h3 with h3 | h3
        · exact d1 (h4.symm.trans h3)
        · exact d3 (h4.symm.trans h3)
      · exact h4
    · obtain ⟨h3, h4⟩ := hD _ hda y (OnSeg.flip hyf) hy
      rcases h4 with h4 | h4
      · exact h4
      · exfalso
        dsimp only at h4
        rcases h3 with h3 | h3
        · exact d1 (h4.symm.trans h3)
        · exact d3 (h4.symm.trans h3)

/-- What cutting along a diagonal gives. -/
structure Cut (a b : Point) (l1 l2 : List Point) : Prop where
  whole : SimplePolygon (a :: (l1 ++ b :: l2))
  diag : Diagonal (a :: (l1 ++ b :: l2)) a b
  part1 : SimplePolygon (a :: (l1 ++ [b]))
  part2 : SimplePolygon (b :: (l2 ++ [a]))
  val1 : ValAll (a :: (l1 ++ [b])) 0
  val2 : ValAll (b :: (l2 ++ [a])) 0
  rest1 : ∀ q ∈ l2, winding q (a :: (l1 ++ [b])) = 0
  rest2 : ∀ q ∈ l1, winding q (b :: (l2 ++ [a])) = 0

theorem cut_diagonal {a b a1 d : Point} {l1 l2 : List Point} (S : SimplePolygon (a :: (a1 :: l1 ++ b :: (l2 ++ [d])))) (hk : ValAll (a :: (a1 :: l1 ++ b :: (l2 ++ [d]))) 0)
    (hD : Diagonal (a :: (a1 :: l1 ++ b :: (l2 ++ [d]))) a b) (hc : InLeft d a a1 b) : Cut a b (a1 :: l1) (l2 ++ [d]) := by
  have hrot := split_rotated a b (a1 :: l1) (l2 ++ [d])
  have S' := simple_rotated hrot S
  have hD' : Diagonal (b :: ((l2 ++ [d]) ++ a :: (a1 :: l1))) b a := hD.symm.rotated hrot
  have SA : SimplePolygon (a :: ((a1 :: l1) ++ [b])) := simple_part S (by simp) hD
  have SB : SimplePolygon (b :: ((l2 ++ [d]) ++ [a])) := simple_part S' (by simp) hD'
  have hSa1 : (a, a1) ∈ sides (a :: (a1 :: l1 ++ b :: (l2 ++ [d]))) := by simp [sides_cons]
  have hSd : (d, a) ∈ sides (a :: (a1 :: l1 ++ b :: (l2 ++ [d]))) := by
    rw [sides_split]
    have : b :: (l2 ++ [d]) ++ [a] = b :: l2 ++ d :: [a] := by simp
    rw [this, path_join b l2 d [a]]
    refine List.mem_append_right _ (List.mem_append_right _ ?_)
    simp [path_cons_cons]
  have hcone := cone_right (by
    intro h0
    obtain ⟨s, hs, e1, e2⟩ := straight S hSd hSa1 h0
    refine ⟨s, hs, ?_⟩
    unfold turn; rw [e1, e2]; ring) hc
  obtain ⟨kA, hkA⟩ := valAll_exists SA
  obtain ⟨kB, hkB⟩ := valAll_exists SB
  -- the part seen from the rest
  have hA1 : (b, a) ∈ sides (a :: ((a1 :: l1) ++ [b])) := by rw [sides_part]; simp
  have hA2 : (a, a1) ∈ sides (a :: ((a1 :: l1) ++ [b])) := by simp [sides_cons]
  have wA : winding d (a :: ((a1 :: l1) ++ [b])) = kA :=
    (corner_ray SA hkA hA1 hA2 (part_ray S hD (by simp) (Or.inl hSd))).2 hcone.2
  have hrB : (b :: ((l2 ++ [d]) ++ [a])) ~r (a :: (b :: (l2 ++ [d]))) := by
    have : (a :: (b :: (l2 ++ [d]))) = [a] ++ (b :: (l2 ++ [d])) := rfl
    rw [this]
    have : b :: ((l2 ++ [d]) ++ [a]) = (b :: (l2 ++ [d])) ++ [a] := by simp
    rw [this]
    exact List.isRotated_append
  have hB1 : (d, a) ∈ sides (b :: ((l2 ++ [d]) ++ [a])) := by
    rw [sides_part]
    have : b :: (l2 ++ [d]) ++ [a] = b :: l2 ++ d :: [a] := by simp
    rw [this, path_join]
    simp [path_cons_cons]
  have hB2 : (a, b) ∈ sides (b :: ((l2 ++ [d]) ++ [a])) := by rw [sides_part]; simp
  have rayB : ∀ f ∈ sides (b :: ((l2 ++ [d]) ++ [a])), ∀ y, OnSeg y (a, a1) → OnSeg y f → y = a := by
    -- the same as `part_ray` with the other end of the diagonal in front
    intro f hf y hy hyf
    have hnd := S.corners
    have n1 : a1 ∉ b :: (l2 ++ [d]) := by
      rw [List.nodup_cons, List.nodup_append] at hnd
      intro h
      exact hnd.2.2.2 a1 (by simp) a1 h rfl
    have n2 : a1 ≠ a := by
      rw [List.nodup_cons] at hnd
      rintro rfl; exact hnd.1 (by simp)
    have n3 : b ≠ a := by
      rw [List.nodup_cons] at hnd
      rintro rfl; exact hnd.1 (by simp)
    rw [sides_part] at hf
    rcases List.mem_append.1 hf with hf | hf
    · have hfs : f ∈ sides (a :: (a1 :: l1 ++ b :: (l2 ++ [d]))) := by
        rw [sides_split]; exact List.mem_append_right _ hf
      have fm := path_ends' hf
      have hne : (a, a1) ≠ f := by
        rintro rfl
        have : a1 ∈ (l2 ++ [d]) ++ [a] := fm.2
        rcases List.mem_append.1 this with h | h
        · exact n1 (List.mem_cons_of_mem _ h)
        · exact n2 (by simpa using h)
      rcases S.apart _ hSa1 f hfs hne y hy hyf with ⟨e1, e2⟩ | ⟨e1, e2⟩
      · dsimp only at e1
        rw [← e2, e1] at fm
        exact absurd fm.1 n1
      · exact e1
    · simp only [List.mem_singleton] at hf
      subst hf
      obtain ⟨h3, h4⟩ := hD _ hSa1 y hyf hy
      rcases h3 with h3 | h3
      · exact h3
      · exfalso
        rcases h4 with h4 | h4
        · exact n3 (h3.symm.trans h4)
        · apply n1
          rw [← (h3.symm.trans h4 : b = a1)]
          simp
  have wB : winding a1 (b :: ((l2 ++ [d]) ++ [a])) = kB := (corner_ray SB hkB hB1 hB2 rayB).2 hcone.1
  -- a point beside the first side
  have hsum : kA + kB = 0 := by
    obtain ⟨r1, hr1, v1⟩ := hk _ hSa1 (1 / 2) (by norm_num) (by norm_num)
    obtain ⟨r2, hr2, v2⟩ := hkA _ hA2 (1 / 2) (by norm_num) (by norm_num)
    dsimp only at v1 v2
    have haa1 : a ≠ a1 := side_ne S hSa1
    obtain ⟨r3, hr3, v3⟩ := box_all (p := off a a1 (1 / 2) 0) (q := a1) (sides (b :: ((l2 ++ [d]) ++ [a]))) (by
      intro f hf
      apply apart_of_disjoint (side_ne SB hf)
      intro y hy hyf
      have hy' : OnSeg y (a, a1) := by
        obtain ⟨t, t0, t1, e1, e2⟩ := hy
        refine ⟨1 / 2 + t / 2, by linarith, by linarith, ?_, ?_⟩
        · rw [e1]; unfold off; dsimp only; ring
        · rw [e2]; unfold off; dsimp only; ring
      have := rayB f hf y hy' hyf
      obtain ⟨t, t0, t1, e1, e2⟩ := hy
      have ey : y = off a a1 (1 / 2 + t / 2) 0 := by
        apply Prod.ext
        · rw [e1]; unfold off; dsimp only; ring
        · rw [e2]; unfold off; dsimp only; ring
      have hN := norm_pos haa1
      rw [ey] at this
      have g1 := congrArg Prod.fst this
      have g2 := congrArg Prod.snd this
      unfold off at g1 g2
      dsimp only at g1 g2
      have g3 : (1 / 2 + t / 2) * (a1.1 - a.1) = 0 := by linarith
      have g4 : (1 / 2 + t / 2) * (a1.2 - a.2) = 0 := by linarith
      have g0 : (1 / 2 + t / 2 : Rat) ≠ 0 := by intro h; linarith
      exact haa1 (Prod.ext (by linarith [(mul_eq_zero.1 g3).resolve_left g0]) (by linarith [(mul_eq_zero.1 g4).resolve_left g0])))
    obtain ⟨ε, hε, ⟨⟨n1, _⟩, n2, _⟩, n3, _⟩ := (((small_off a a1 (1 / 2) hr1).and (small_off a a1 (1 / 2) hr2)).and (small_off a a1 (1 / 2) hr3)).exists
    have ht : 0 < turn a a1 (off a a1 (1 / 2) ε) := by rw [turn_off]; exact mul_pos hε (norm_pos haa1)
    have w1 := (v1 _ n1).1 ht
    have w2 := (v2 _ n2).1 ht
    have w3 := winding_same (v3 _ _ n3 (near_self hr3.le a1))
    have w4 := winding_split (off a a1 (1 / 2) ε) a b (a1 :: l1) (l2 ++ [d])
    rw [wB] at w3
    rw [w3, w2] at w4
    have w5 : winding (off a a1 (1 / 2) ε) (a :: ((a1 :: l1) ++ b :: (l2 ++ [d]))) = 0 + 1 := w1
    omega
  have hA0 : kA = 0 := by
    rcases val_zero SA hkA with h | h <;> rcases val_zero SB hkB with h' | h' <;> omega
  have hB0 : kB = 0 := by omega
  subst hA0; subst hB0
  refine ⟨S, hD, SA, SB, hkA, hkB, part_rest S SA hD (q := d) (by simp) wA, part_rest S' SB hD' (q := a1) (by simp) wB⟩

/-- An ear of one part, not at the diagonal, is an ear of the polygon. -/
theorem Cut.ear {a b : Point} {l1 l2 : List Point} (C : Cut a b l1 l2) {x y z : Point} (E : Ear (a :: (l1 ++ [b])) x y z) (ha : y ≠ a) (hb : y ≠ b) :
    Ear (a :: (l1 ++ b :: l2)) x y z := by
  have hpath : ∀ e ∈ sides (a :: (l1 ++ [b])), e ≠ (b, a) → e ∈ sides (a :: (l1 ++ b :: l2)) := by
    intro e he hne
    rw [sides_part] at he
    rw [sides_split]
    rcases List.mem_append.1 he with h | h
    · exact List.mem_append_left _ h
    · simp only [List.mem_singleton] at h; exact absurd h hne
  have h1 : (x, y) ∈ sides (a :: (l1 ++ b :: l2)) := hpath _ E.first (by intro e; exact ha (congrArg Prod.snd e))
  have h2 : (y, z) ∈ sides (a :: (l1 ++ b :: l2)) := hpath _ E.second (by intro e; exact hb (congrArg Prod.fst e))
  refine ⟨h1, h2, E.pos, ?_⟩
  intro q hq n1 n2 n3 hin
  by_cases hqA : q ∈ a :: (l1 ++ [b])
  · exact E.free q hqA n1 n2 n3 hin
  have hql2 : q ∈ l2 := by
    simp only [List.mem_cons, List.mem_append, List.not_mem_nil, or_false, not_or] at hqA hq
    rcases hq with h | h | h | h
    · exact absurd h hqA.1
    · exact absurd h hqA.2.1
    · exact absurd h hqA.2.2
    · exact h
  have p1 : 0 < turn x y q := by
    rcases lt_or_eq_of_le hin.1 with h | h
    · exact h
    · exfalso
      rcases corner_on_side C.whole hq h1 (on_edge E.pos hin h.symm) with h | h
      · exact n1 h
      · exact n2 h
  have p2 : 0 < turn y z q := by
    rcases lt_or_eq_of_le hin.2.1 with h | h
    · exact h
    · exfalso
      rcases corner_on_side C.whole hq h2 (on_edge (by rw [turn_cyc]; exact E.pos) hin.cyc h.symm) with h | h
      · exact n2 h
      · exact n3 h
  have hy0 : 0 < turn z x y := by rw [turn_cyc, turn_cyc]; exact E.pos
  have ray := corner_ray C.part1 C.val1 E.first E.second (z := q) (by
    rintro f hf w hw hwf
    obtain ⟨t, t0, t1, e1, e2⟩ := hw
    have ew : w = off y q t 0 := by
      apply Prod.ext
      · rw [e1]; unfold off; dsimp only; ring
      · rw [e2]; unfold off; dsimp only; ring
    by_contra hwy
    have tpos : 0 < t := by
      rcases lt_or_eq_of_le t0 with h | h
      · exact h
      · exfalso; apply hwy; rw [ew, ← h]; unfold off; apply Prod.ext <;> dsimp only <;> ring
    have q1 : 0 < turn x y w := by rw [ew, turn_ray]; exact mul_pos tpos p1
    have q2 : 0 < turn y z w := by rw [ew, turn_ray']; exact mul_pos tpos p2
    have q3 : turn z x w = (1 - t) * turn z x y + t * turn z x q := by rw [ew, turn_mix]; ring
    have q4 : 0 ≤ turn z x w := by
      rw [q3]
      have := mul_nonneg (by linarith : 0 ≤ 1 - t) hy0.le
      have := mul_nonneg t0 hin.2.2
      linarith
    have m1 : f ≠ (x, y) := by
      rintro rfl
      obtain ⟨s, _, _, f1, f2⟩ := hwf
      have : turn x y w = 0 := by unfold turn; rw [f1, f2]; ring
      linarith
    have m2 : f ≠ (y, z) := by
      rintro rfl
      obtain ⟨s, _, _, f1, f2⟩ := hwf
      have : turn y z w = 0 := by unfold turn; rw [f1, f2]; ring
      linarith
    have := E.clear C.part1 hf m1 m2 hwf ⟨q1.le, q2.le, q4⟩
    have t1' : t = 1 := by
      rcases lt_or_eq_of_le t1 with h | h
      · exfalso
        have := mul_pos (by linarith : 0 < 1 - t) hy0
        have := mul_nonneg t0 hin.2.2
        linarith
      · exact h
    have hwq : w = q := by rw [ew, t1']; unfold off; apply Prod.ext <;> dsimp only <;> ring
    rw [hwq] at hwf
    by_cases hf' : f = (b, a)
    · subst hf'
      obtain ⟨g, hg⟩ := next_side hq
      have := (C.diag _ hg q (OnSeg.flip hwf) (onSeg_fst (q, g))).1
      rcases this with h | h
      · exact hqA (by simp [h])
      · exact hqA (by simp [h])
    · rcases corner_on_side C.whole hq (hpath f hf hf') hwf with h | h
      · exact hqA (h ▸ (mem_sides hf).1)
      · exact hqA (h ▸ (mem_sides hf).2))
  have e := ray.1 (Or.inl ⟨E.pos, p1, p2⟩)
  rw [C.rest1 q hql2] at e
  omega

theorem Cut.swap {a b : Point} {l1 l2 : List Point} (C : Cut a b l1 l2) : Cut b a l2 l1 where
  whole := simple_rotated (split_rotated a b l1 l2) C.whole
  diag := C.diag.symm.rotated (split_rotated a b l1 l2)
  part1 := C.part2
  part2 := C.part1
  val1 := C.val2
  val2 := C.val1
  rest1 := C.rest2
  rest2 := C.rest1

end Rerecast.Jordan
