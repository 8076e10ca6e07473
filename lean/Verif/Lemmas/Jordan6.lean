import Verif.Lemmas.Jordan5
/-! Every polygon that does not touch itself has a diagonal and, away from any side, an ear. -/
namespace Rerecast.Jordan
open List

theorem winding_rotated {l m : List Point} (h : l ~r m) (p : Point) : winding p l = winding p m := by
  unfold winding around
  exact ((sides_isRotated h).map _).sum_eq

theorem Val.rotated {l m : List Point} (h : l ~r m) {u v : Point} {k : Int} (hv : Val l u v k) : Val m u v k := by
  intro t t0 t1
  obtain ⟨r, hr, hp⟩ := hv t t0 t1
  refine ⟨r, hr, fun p hn => ?_⟩
  rw [← winding_rotated h p]
  exact hp p hn

theorem ValAll.rotated {l m : List Point} (h : l ~r m) {k : Int} (hv : ValAll l k) : ValAll m k :=
  fun e he => (hv e ((sides_isRotated h).mem_iff.2 he)).rotated h

theorem Ear.rotated {l m : List Point} (h : l ~r m) {a b c : Point} (E : Ear l a b c) : Ear m a b c :=
  ⟨(sides_isRotated h).mem_iff.1 E.first, (sides_isRotated h).mem_iff.1 E.second, E.pos, fun q hq => E.free q (h.mem_iff.2 hq)⟩

theorem cut_at {l : List Point} (S : SimplePolygon l) (hk : ValAll l 0) {d a a1 b : Point} (h1 : (d, a) ∈ sides l) (h2 : (a, a1) ∈ sides l) (hb : b ∈ l)
    (n1 : b ≠ d) (n2 : b ≠ a) (n3 : b ≠ a1) (hD : Diagonal l a b) (hc : InLeft d a a1 b) :
    ∃ l1 l2, (a :: (a1 :: l1 ++ b :: (l2 ++ [d]))) ~r l ∧ Cut a b (a1 :: l1) (l2 ++ [d]) := by
  obtain ⟨m, hm⟩ := corner_decomp S h1 h2
  have hbm : b ∈ m := by
    have := hm.mem_iff.2 hb
    simpa [n1, n2, n3] using this
  obtain ⟨l1, l2, rfl⟩ := List.append_of_mem hbm
  have hr : (a :: (a1 :: l1 ++ b :: (l2 ++ [d]))) ~r (d :: a :: a1 :: (l1 ++ b :: l2)) := by
    have e1 : a :: (a1 :: l1 ++ b :: (l2 ++ [d])) = (a :: a1 :: (l1 ++ b :: l2)) ++ [d] := by simp
    have e2 : d :: a :: a1 :: (l1 ++ b :: l2) = [d] ++ (a :: a1 :: (l1 ++ b :: l2)) := rfl
    rw [e1, e2]
    exact List.isRotated_append
  have hr' := hr.trans hm
  exact ⟨l1, l2, hr', cut_diagonal (simple_rotated hr'.symm S) (hk.rotated hr'.symm) (hD.rotated hr'.symm) hc⟩

theorem exists_max {P : Point → Prop} (g : Point → Rat) : ∀ (l : List Point), (∃ q ∈ l, P q) → ∃ q ∈ l, P q ∧ ∀ q' ∈ l, P q' → g q' ≤ g q
  | [], h => by obtain ⟨q, hq, _⟩ := h; simp at hq
  | a :: l, h => by
    classical
    by_cases hl : ∃ q ∈ l, P q
    · obtain ⟨q, hq, hP, hmax⟩ := exists_max g l hl
      by_cases ha : P a ∧ g q < g a
      · refine ⟨a, by simp, ha.1, ?_⟩
        intro q' hq' hP'
        rcases List.mem_cons.1 hq' with rfl | hq'
        · exact le_rfl
        · exact (hmax q' hq' hP').trans ha.2.le
      · refine ⟨q, by simp [hq], hP, ?_⟩
        intro q' hq' hP'
        rcases List.mem_cons.1 hq' with rfl | hq'
        · push Not at ha
          exact ha hP'
        · exact hmax q' hq' hP'
    · obtain ⟨q, hq, hP⟩ := h
      push Not at hl
      rcases List.mem_cons.1 hq with rfl | hq
      · refine ⟨q, by simp, hP, ?_⟩
        intro q' hq' hP'
        rcases List.mem_cons.1 hq' with rfl | hq'
        · exact le_rfl
        · exact absurd hP' (hl q' hq')
      · exact absurd hP (hl q hq)

/-- A polygon with four corners or more can be cut along a diagonal. -/
theorem exists_cut {l : List Point} (S : SimplePolygon l) (hk : ValAll l 0) (hl : 4 ≤ l.length) : ∃ a b l1 l2, (a :: (l1 ++ b :: l2)) ~r l ∧ Cut a b l1 l2 := by
  obtain ⟨b, hb, A, B, C, e, hout⟩ := farthest (l := l) (by rintro rfl; simp at hl)
  obtain ⟨a, h1⟩ := prev_side hb
  obtain ⟨c, h2⟩ := next_side hb
  have hT : 0 < turn a b c := by
    rcases outermost S hk h1 h2 e hout with h | h
    · exact h.1
    · omega
  have hac : a ≠ c := corner_ne S h1 h2
  have hal := (mem_sides h1).1
  have hcl := (mem_sides h2).2
  by_cases hex : ∃ q ∈ l, (q ≠ a ∧ q ≠ b ∧ q ≠ c ∧ InTri a b c q)
  · obtain ⟨z, hz, ⟨za, zb, zc, hin⟩, hmax⟩ := exists_max (fun q => turn c a q) l hex
    have p1 : 0 < turn a b z := by
      rcases lt_or_eq_of_le hin.1 with h | h
      · exact h
      · exfalso
        rcases corner_on_side S hz h1 (on_edge hT hin h.symm) with h | h
        · exact za h
        · exact zb h
    have p2 : 0 < turn b c z := by
      rcases lt_or_eq_of_le hin.2.1 with h | h
      · exact h
      · exfalso
        rcases corner_on_side S hz h2 (on_edge (by rw [turn_cyc]; exact hT) hin.cyc h.symm) with h | h
        · exact zb h
        · exact zc h
    have hs := turn_sum a b c z
    have htop : turn c a b = turn a b c := by rw [turn_cyc, turn_cyc]
    have hD : Diagonal l b z := by
      intro f hf p hp hpf
      by_cases hpb : p = b
      · exact ⟨Or.inl hpb, corner_on_side S (hpb ▸ hb) hf hpf⟩
      by_cases hpz : p = z
      · exact ⟨Or.inr hpz, corner_on_side S (hpz ▸ hz) hf hpf⟩
      exfalso
      obtain ⟨t, t0, t1, e1, e2⟩ := hp
      have ep : p = off b z t 0 := by
        apply Prod.ext
        · rw [e1]; unfold off; dsimp only; ring
        · rw [e2]; unfold off; dsimp only; ring
      have tp : 0 < t := by
        rcases lt_or_eq_of_le t0 with h | h
        · exact h
        · exfalso; apply hpb; rw [ep, ← h]; unfold off; apply Prod.ext <;> dsimp only <;> ring
      have tl : t < 1 := by
        rcases lt_or_eq_of_le t1 with h | h
        · exact h
        · exfalso; apply hpz; rw [ep, h]; unfold off; apply Prod.ext <;> dsimp only <;> ring
      have q1 : 0 < turn a b p := by rw [ep, turn_ray]; exact mul_pos tp p1
      have q2 : 0 < turn b c p := by rw [ep, turn_ray']; exact mul_pos tp p2
      have q3 : turn c a z < turn c a p := by
        have : turn c a p = turn c a z + (1 - t) * (turn c a b - turn c a z) := by rw [ep, turn_mix]; ring
        rw [this]
        have := mul_pos (by linarith : 0 < 1 - t) (by rw [htop]; linarith : 0 < turn c a b - turn c a z)
        linarith
      have q4 : 0 < turn c a p := lt_of_le_of_lt hin.2.2 q3
      have m1 : f ≠ (a, b) := by
        rintro rfl
        obtain ⟨s, _, _, f1, f2⟩ := hpf
        have : turn a b p = 0 := by unfold turn; rw [f1, f2]; ring
        linarith
      have m2 : f ≠ (b, c) := by
        rintro rfl
        obtain ⟨s, _, _, f1, f2⟩ := hpf
        have : turn b c p = 0 := by unfold turn; rw [f1, f2]; ring
        linarith
      obtain ⟨u, hu, uin, uh, ub⟩ := side_end S h1 h2 hT hf m1 m2 hpf ⟨q1.le, q2.le, q4.le⟩ q4
      have ul : u ∈ l := by
        rcases hu with rfl | rfl
        · exact (mem_sides hf).1
        · exact (mem_sides hf).2
      have ua : u ≠ a := by rintro rfl; rw [turn_snd] at uh; linarith
      have uc : u ≠ c := by rintro rfl; rw [turn_fst] at uh; linarith
      have := hmax u ul ⟨ua, ub, uc, uin⟩
      linarith
    obtain ⟨l1, l2, hr, C⟩ := cut_at S hk h1 h2 hz za zb zc hD (Or.inl ⟨hT, p1, p2⟩)
    exact ⟨_, _, _, _, hr, C⟩
  · have E : Ear l a b c := ⟨h1, h2, hT, fun q hq n1 n2 n3 hin => hex ⟨q, hq, n1, n2, n3, hin⟩⟩
    obtain ⟨d, hd⟩ := prev_side hal
    have hcd : c ≠ d := by
      rintro rfl
      have := three_closed S h1 h2 hd
      omega
    obtain ⟨l1, l2, hr, C⟩ := cut_at S hk hd h1 hcl hcd (Ne.symm hac) (Ne.symm (side_ne S h2)) (E.diagonal S hl) (E.cone S hl hd)
    exact ⟨_, _, _, _, hr, C⟩

theorem ear_three {x y b : Point} (S : SimplePolygon [x, y, b]) (hk : ValAll [x, y, b] 0) : Ear [x, y, b] y b x := by
  have s1 : (x, y) ∈ sides [x, y, b] := by simp [sides_cons]
  have s2 : (y, b) ∈ sides [x, y, b] := by simp [sides_cons]
  have s3 : (b, x) ∈ sides [x, y, b] := by simp [sides_cons]
  have hT : 0 < turn y b x := by
    obtain ⟨q, hq, A, B, C, e, hout⟩ := farthest (l := [x, y, b]) (by simp)
    simp only [List.mem_cons, List.not_mem_nil, or_false] at hq
    rcases hq with rfl | rfl | rfl
    · rcases outermost S hk s3 s1 e hout with h | h
      · rw [← turn_cyc]; exact h.1
      · omega
    · rcases outermost S hk s1 s2 e hout with h | h
      · rw [turn_cyc]; exact h.1
      · omega
    · rcases outermost S hk s2 s3 e hout with h | h
      · exact h.1
      · omega
  refine ⟨s2, s3, hT, ?_⟩
  intro q hq n1 n2 n3
  simp [n1, n2, n3] at hq

theorem ear_part {a b : Point} {l1 l2 : List Point} (C : Cut a b l1 l2) {x y : Point} (hxy : (x, y) ∈ path (a :: l1 ++ [b]))
    (ih : ∃ p q r, Ear (b :: (l2 ++ [a])) p q r ∧ q ≠ a ∧ q ≠ b) : ∃ p q r, Ear (a :: (l1 ++ b :: l2)) p q r ∧ q ≠ x ∧ q ≠ y := by
  obtain ⟨p, q, r, E, ha, hb⟩ := ih
  refine ⟨p, q, r, (C.swap.ear E hb ha).rotated (split_rotated a b l1 l2).symm, ?_⟩
  have hq : q ∈ l2 := by
    have := (mem_sides E.first).2
    simpa [ha, hb] using this
  have hm := path_ends' hxy
  dsimp only at hm
  have hnd := C.whole.corners
  rw [List.nodup_cons, List.nodup_append, List.nodup_cons] at hnd
  have d2 : q ∉ l1 := by intro h; exact hnd.2.2.2 q h q (by simp [hq]) rfl
  constructor
  · rintro rfl
    simp [ha, d2] at hm
  · rintro rfl
    simp [hb, d2] at hm

/-- A polygon has an ear whose tip is not at a given side. -/
theorem exists_ear_aux : ∀ (n : Nat) (l : List Point), l.length = n → SimplePolygon l → ValAll l 0 → ∀ x y, (x, y) ∈ sides l → ∃ a b c, Ear l a b c ∧ b ≠ x ∧ b ≠ y := by
  intro n
  induction n using Nat.strong_induction_on with
  | _ n ih =>
    intro l hn S hk x y hxy
    have h3 := S.three
    by_cases h4 : 4 ≤ l.length
    · obtain ⟨a, b, l1, l2, hr, C⟩ := exists_cut S hk h4
      have hlen := hr.perm.length_eq
      have t1 := C.part1.three
      have t2 := C.part2.three
      simp only [List.length_cons, List.length_append, List.length_nil] at hlen t1 t2
      have hxy' := (sides_isRotated hr).mem_iff.2 hxy
      rw [sides_split] at hxy'
      rcases List.mem_append.1 hxy' with h | h
      · obtain ⟨p, q, r, E, e1, e2⟩ := ear_part C h (ih (b :: (l2 ++ [a])).length (by simp; omega) _ rfl C.part2 C.val2 a b (by rw [sides_part]; simp))
        exact ⟨p, q, r, E.rotated hr, e1, e2⟩
      · obtain ⟨p, q, r, E, e1, e2⟩ := ear_part C.swap h (ih (a :: (l1 ++ [b])).length (by simp; omega) _ rfl C.part1 C.val1 b a (by rw [sides_part]; simp))
        exact ⟨p, q, r, E.rotated ((split_rotated b a l2 l1).trans hr), e1, e2⟩
    · obtain ⟨b, hb⟩ := next_side (mem_sides hxy).2
      obtain ⟨m, hm⟩ := corner_decomp S hxy hb
      have hlen := hm.perm.length_eq
      simp only [List.length_cons] at hlen
      have : m = [] := List.length_eq_zero_iff.1 (by omega)
      subst this
      have E := ear_three (simple_rotated hm.symm S) (hk.rotated hm.symm)
      exact ⟨y, b, x, E.rotated hm, Ne.symm (corner_ne S hxy hb), Ne.symm (side_ne S hb)⟩

theorem exists_ear {l : List Point} (S : SimplePolygon l) (hk : ValAll l 0) : ∃ a b c, Ear l a b c := by
  have h3 := S.three
  match l, h3 with
  | x :: y :: m, _ =>
    obtain ⟨a, b, c, E, _⟩ := exists_ear_aux _ _ rfl S hk x y (by simp [sides_cons])
    exact ⟨a, b, c, E⟩

/-- What the program tests: the base is in the angle at its first end, and no side without a common end meets it. -/
structure Accept (l : List Point) (a b c : Point) : Prop where
  first : (a, b) ∈ sides l
  second : (b, c) ∈ sides l
  cone : ∀ d, (d, a) ∈ sides l → InLeft d a b c
  free : ∀ f ∈ sides l, f.1 ≠ a → f.2 ≠ a → f.1 ≠ c → f.2 ≠ c → ∀ p, OnSeg p (a, c) → ¬ OnSeg p f

theorem Ear.accept {l : List Point} (S : SimplePolygon l) (hl : 4 ≤ l.length) {a b c : Point} (E : Ear l a b c) : Accept l a b c := by
  refine ⟨E.first, E.second, fun d hd => E.cone S hl hd, ?_⟩
  intro f hf n1 n2 n3 n4 p hp hpf
  obtain ⟨h1, h2⟩ := E.diagonal S hl f hf p hp hpf
  rcases h1 with rfl | rfl <;> rcases h2 with h2 | h2
  · exact n1 h2.symm
  · exact n2 h2.symm
  · exact n3 h2.symm
  · exact n4 h2.symm

/-- A chain of sides that starts in a triangle whose sides it does not touch stays there. -/
theorem chain_in {x y z : Point} (hT : 0 < turn x y z) (m : List Point) (h1 : ∀ e ∈ path m, ∀ p, OnSeg p e → ¬ OnSeg p (x, y)) (h2 : ∀ e ∈ path m, ∀ p, OnSeg p e → ¬ OnSeg p (y, z))
    (h3 : ∀ e ∈ path m, ∀ p, OnSeg p e → ¬ OnSeg p (z, x)) {q : Point} (hq : q ∈ m) (hin : InTri x y z q) : ∀ q' ∈ m, InTri x y z q' := by
  refine chain_all (R := fun q => InTri x y z q) m ?_ q hq hin
  have key : ∀ e ∈ path m, ∀ u v, (u = e.1 ∨ u = e.2) → (v = e.1 ∨ v = e.2) → InTri x y z u → InTri x y z v := by
    intro e he u v hu hv hin
    by_contra hn
    obtain ⟨t, t0, t1, hy, hc⟩ := tri_exit hin hn
    have hue : OnSeg u e := by
      rcases hu with rfl | rfl
      · exact onSeg_fst e
      · exact onSeg_snd e
    have hyf := onSeg_sub hue hv t0 t1
    rcases hc with ⟨hc, _⟩ | ⟨hc, _⟩ | ⟨hc, _⟩
    · exact h1 e he _ hyf (on_edge hT hy hc)
    · exact h2 e he _ hyf (on_edge (by rw [turn_cyc]; exact hT) hy.cyc hc)
    · exact h3 e he _ hyf (on_edge (by rw [turn_cyc, turn_cyc]; exact hT) hy.cyc.cyc hc)
  intro e he
  exact ⟨key e he e.1 e.2 (Or.inl rfl) (Or.inr rfl), key e he e.2 e.1 (Or.inr rfl) (Or.inl rfl)⟩

theorem Accept.ear {l : List Point} (S : SimplePolygon l) (hk : ValAll l 0) (hl : 4 ≤ l.length) {a b c : Point} (E : Accept l a b c) : Ear l a b c := by
  obtain ⟨h1, h2, hcone, hfree⟩ := E
  obtain ⟨m, hm⟩ := corner_decomp S h1 h2
  have hlen := hm.perm.length_eq
  simp only [List.length_cons] at hlen
  have hm0 : m ≠ [] := by rintro rfl; simp at hlen; omega
  obtain ⟨m', d, rfl⟩ : ∃ m' d, m = m' ++ [d] := ⟨_, _, (List.dropLast_append_getLast hm0).symm⟩
  have hnd := hm.perm.nodup_iff.2 S.corners
  have hd : (d, a) ∈ sides l := by
    rw [← (sides_isRotated hm).mem_iff]
    have : a :: b :: c :: (m' ++ [d]) = a :: ((b :: c :: m') ++ [d]) := by simp
    rw [this, sides_part]; simp
  have hcone := hcone d hd
  have hac : a ≠ c := corner_ne S h1 h2
  have hdm : d ∈ m' ++ [d] := by simp
  have hmem : ∀ q ∈ m' ++ [d], q ≠ a ∧ q ≠ b ∧ q ≠ c ∧ q ∈ l := by
    intro q hq
    rw [List.nodup_cons, List.nodup_cons, List.nodup_cons] at hnd
    refine ⟨?_, ?_, ?_, hm.mem_iff.1 (by simp only [List.mem_cons]; exact Or.inr (Or.inr (Or.inr hq)))⟩
    · rintro rfl; exact hnd.1 (List.mem_cons_of_mem _ (List.mem_cons_of_mem _ hq))
    · rintro rfl; exact hnd.2.1 (List.mem_cons_of_mem _ hq)
    · rintro rfl; exact hnd.2.2.1 hq
  have hside : ∀ e ∈ path (m' ++ [d]), e ∈ sides l := by
    intro e he
    rw [← (sides_isRotated hm).mem_iff, sides_path]
    have : a :: b :: c :: (m' ++ [d]) ++ [a] = a :: (b :: c :: (m' ++ [d])) ++ [a] := by simp
    rw [this]
    apply path_mid_mem
    have hne := hm0
    obtain ⟨w, n, hw⟩ := List.exists_cons_of_ne_nil hm0
    rw [hw] at he ⊢
    rw [path_cons_cons, path_cons_cons]
    exact List.mem_cons_of_mem _ (List.mem_cons_of_mem _ he)
  have ch1 : ∀ e ∈ path (m' ++ [d]), ∀ p, OnSeg p e → ¬ OnSeg p (a, b) := by
    intro e he p hp hq
    have hme := mem_path_mem he
    have k1 := hmem _ hme.1
    have k2 := hmem _ hme.2
    have hne : e ≠ (a, b) := by rintro rfl; exact k1.1 rfl
    rcases S.apart e (hside e he) _ h1 hne p hp hq with ⟨e1, e2⟩ | ⟨e1, e2⟩
    · exact k2.1 (e1.symm.trans e2)
    · exact k1.2.1 (e1.symm.trans e2)
  have ch2 : ∀ e ∈ path (m' ++ [d]), ∀ p, OnSeg p e → ¬ OnSeg p (b, c) := by
    intro e he p hp hq
    have hme := mem_path_mem he
    have k1 := hmem _ hme.1
    have k2 := hmem _ hme.2
    have hne : e ≠ (b, c) := by rintro rfl; exact k1.2.1 rfl
    rcases S.apart e (hside e he) _ h2 hne p hp hq with ⟨e1, e2⟩ | ⟨e1, e2⟩
    · exact k2.2.1 (e1.symm.trans e2)
    · exact k1.2.2.1 (e1.symm.trans e2)
  have ch3 : ∀ e ∈ path (m' ++ [d]), ∀ p, OnSeg p e → ¬ OnSeg p (a, c) := by
    intro e he p hp hq
    have hme := mem_path_mem he
    have k1 := hmem _ hme.1
    have k2 := hmem _ hme.2
    exact hfree e (hside e he) k1.1 k2.1 k1.2.2.1 k2.2.2.1 p hq hp
  have kd := hmem d hdm
  have hT0 : turn a b c ≠ 0 := by
    intro h0
    obtain ⟨s, hs, e1, e2⟩ := straight S h1 h2 h0
    have e3 : turn d a c = (1 + s) * turn d a b := by unfold turn; rw [e1, e2]; ring
    rcases hcone with ⟨_, _, h⟩ | ⟨h, h' | h'⟩
    · linarith
    · rw [e3] at h'
      have := mul_nonneg (by linarith : 0 ≤ 1 + s) (neg_nonneg.2 h)
      linarith
    · linarith
  rcases lt_or_gt_of_ne hT0 with hT | hT
  · exfalso
    have hT' : 0 < turn c b a := by
      have : turn c b a = - turn a b c := by unfold turn; ring
      linarith
    have hh : turn d a b ≤ 0 ∧ 0 < turn d a c := by
      rcases hcone with ⟨_, _, h⟩ | ⟨h, h' | h'⟩
      · linarith
      · exact ⟨h, h'⟩
      · linarith
    have f2 : 0 ≤ turn b a d := by
      have : turn b a d = - turn d a b := by unfold turn; ring
      linarith
    have f3 : 0 < turn a c d := by
      have : turn a c d = turn d a c := turn_cyc d a c
      linarith
    have f1 : 0 ≤ turn c b d := by
      by_contra hn
      have hx : InTri c b a a := ⟨hT'.le, by rw [turn_snd], by rw [turn_fst]⟩
      obtain ⟨t, t0, t1, hy, hcase⟩ := tri_exit (u := d) hx (fun hh => hn hh.1)
      have hyf := onSeg_sub (onSeg_snd (d, a)) (u := d) (Or.inl rfl) t0 t1
      dsimp only at hyf
      rcases hcase with ⟨hz, _⟩ | ⟨_, hz⟩ | ⟨_, hz⟩
      · have hne : (d, a) ≠ (b, c) := by
          intro e
          exact hac (congrArg Prod.snd e)
        rcases S.apart _ hd _ h2 hne _ hyf (OnSeg.flip (on_edge hT' hy hz)) with ⟨e3, e4⟩ | ⟨e3, e4⟩
        · exact side_ne S h1 (e3.symm.trans e4)
        · exact kd.2.2.1 (e3.symm.trans e4)
      · linarith
      · linarith
    have hall := chain_in hT' (m' ++ [d]) (fun e he p hp hq => ch2 e he p hp (OnSeg.flip hq)) (fun e he p hp hq => ch1 e he p hp (OnSeg.flip hq)) ch3 hdm ⟨f1, f2, f3.le⟩
    have hout : ∀ q ∈ l, q ≠ b → turn a c q < turn a c b := by
      intro q hq hqb
      have htop : turn a c b = turn c b a := by rw [← turn_cyc]
      have : q = a ∨ q = c ∨ q ∈ m' ++ [d] := by
        have := hm.mem_iff.2 hq
        simp only [List.mem_cons] at this
        tauto
      rcases this with rfl | rfl | hqm
      · rw [turn_fst, htop]; exact hT'
      · rw [turn_snd, htop]; exact hT'
      · have hin := hall q hqm
        have hs := turn_sum c b a q
        rw [htop]
        by_contra hge
        push Not at hge
        have z1 : turn b a q = 0 := by linarith [hin.1, hin.2.1]
        have := hmem q hqm
        rcases corner_on_side S hq h1 (OnSeg.flip (on_edge (by rw [turn_cyc]; exact hT') hin.cyc z1)) with h | h
        · exact this.1 h
        · exact hqb h
    have := outermost S hk h1 h2 (A := -(c.2 - a.2)) (B := c.1 - a.1) (C := (c.2 - a.2) * b.1 - (c.1 - a.1) * b.2) (by unfold aff; ring) (by
      intro q hq hqb
      have := hout q hq hqb
      unfold turn at this
      unfold aff
      linarith)
    rcases this with h | h
    · linarith [h.1]
    · omega
  · refine ⟨h1, h2, hT, ?_⟩
    intro q hq n1 n2 n3 hin
    have hqm : q ∈ m' ++ [d] := by
      have := hm.mem_iff.2 hq
      simp only [List.mem_cons] at this
      tauto
    have hdin := chain_in hT (m' ++ [d]) ch1 ch2 (fun e he p hp hq => ch3 e he p hp (OnSeg.flip hq)) hqm hin d hdm
    have g1 : turn a b d = turn d a b := turn_cyc d a b
    have g2 : turn c a d = - turn d a c := by unfold turn; ring
    rcases hcone with ⟨_, h, _⟩ | ⟨h, _⟩
    · linarith [hdin.2.2]
    · have : turn a b d = 0 := le_antisymm (by linarith) hdin.1
      rcases corner_on_side S kd.2.2.2 h1 (on_edge hT hdin this) with h | h
      · exact kd.1 h
      · exact kd.2.1 h

end Rerecast.Jordan
