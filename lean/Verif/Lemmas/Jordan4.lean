import Verif.Lemmas.Jordan3
/-! Triangles at the corners of a polygon that does not touch itself. -/
namespace Rerecast.Jordan
open List

/-- The point `q` is in the triangle `a b c`, which turns left. -/
def InTri (a b c q : Point) : Prop := 0 ≤ turn a b q ∧ 0 ≤ turn b c q ∧ 0 ≤ turn c a q

theorem turn_sum (a b c q : Point) : turn a b q + turn b c q + turn c a q = turn a b c := by unfold turn; ring

theorem bary (a b c q : Point) : turn a b c * q.1 = turn b c q * a.1 + turn c a q * b.1 + turn a b q * c.1 ∧
    turn a b c * q.2 = turn b c q * a.2 + turn c a q * b.2 + turn a b q * c.2 := by
  constructor <;> unfold turn <;> ring

theorem on_edge {a b c q : Point} (hT : 0 < turn a b c) (h : InTri a b c q) (h0 : turn a b q = 0) : OnSeg q (a, b) := by
  have hs := turn_sum a b c q
  have hb := bary a b c q
  obtain ⟨_, h2, h3⟩ := h
  refine ⟨turn c a q / turn a b c, div_nonneg h3 hT.le, by rw [div_le_one hT]; linarith, ?_, ?_⟩
  · have : turn b c q = turn a b c - turn c a q := by linarith
    rw [this, h0] at hb
    dsimp only
    field_simp
    linarith [hb.1]
  · have : turn b c q = turn a b c - turn c a q := by linarith
    rw [this, h0] at hb
    dsimp only
    field_simp
    linarith [hb.2]

theorem InTri.cyc {a b c q : Point} (h : InTri a b c q) : InTri b c a q := ⟨h.2.1, h.2.2, h.1⟩

/-- Where a quantity that decreases from `a` to `b < 0` becomes 0. -/
def cand (a b : Rat) : Rat := if b < 0 then a / (a - b) else 1

theorem cand_spec {a b : Rat} (ha : 0 ≤ a) : 0 ≤ cand a b ∧ cand a b ≤ 1 ∧ (b < 0 → cand a b < 1 ∧ a + cand a b * (b - a) = 0) ∧ (0 ≤ b → cand a b = 1) ∧
    ∀ t, 0 ≤ t → t ≤ cand a b → 0 ≤ a + t * (b - a) := by
  unfold cand
  by_cases hb : b < 0
  · have hd : 0 < a - b := by linarith
    rw [if_pos hb]
    refine ⟨div_nonneg ha hd.le, by rw [div_le_one hd]; linarith, fun _ => ⟨by rw [div_lt_one hd]; linarith, by field_simp; ring⟩, fun h => by linarith, ?_⟩
    intro t _ h1
    rw [le_div_iff₀ hd] at h1
    linarith
  · push Not at hb
    rw [if_neg (by linarith)]
    refine ⟨by norm_num, le_rfl, fun h => by linarith, fun _ => rfl, ?_⟩
    intro t h0 h1
    nlinarith [mul_nonneg (by linarith : 0 ≤ 1 - t) ha, mul_nonneg h0 hb]

theorem first_exit {a0 b0 c0 a1 b1 c1 : Rat} (ha : 0 ≤ a0) (hb : 0 ≤ b0) (hc : 0 ≤ c0) (h : a1 < 0 ∨ b1 < 0 ∨ c1 < 0) :
    ∃ t, 0 ≤ t ∧ t ≤ 1 ∧ 0 ≤ a0 + t * (a1 - a0) ∧ 0 ≤ b0 + t * (b1 - b0) ∧ 0 ≤ c0 + t * (c1 - c0) ∧
      ((a0 + t * (a1 - a0) = 0 ∧ a1 < 0) ∨ (b0 + t * (b1 - b0) = 0 ∧ b1 < 0) ∨ (c0 + t * (c1 - c0) = 0 ∧ c1 < 0)) := by
  obtain ⟨p1, p2, p3, p4, p5⟩ := cand_spec (b := a1) ha
  obtain ⟨q1, q2, q3, q4, q5⟩ := cand_spec (b := b1) hb
  obtain ⟨r1, r2, r3, r4, r5⟩ := cand_spec (b := c1) hc
  generalize cand a0 a1 = A at *
  generalize cand b0 b1 = B at *
  generalize cand c0 c1 = C at *
  have m1 := min_le_left A (min B C)
  have m2 := (min_le_right A (min B C)).trans (min_le_left B C)
  have m3 := (min_le_right A (min B C)).trans (min_le_right B C)
  have m0 : 0 ≤ min A (min B C) := le_min p1 (le_min q1 r1)
  have hlt : min A (min B C) < 1 := by
    rcases h with h | h | h
    · exact lt_of_le_of_lt m1 (p3 h).1
    · exact lt_of_le_of_lt m2 (q3 h).1
    · exact lt_of_le_of_lt m3 (r3 h).1
  refine ⟨min A (min B C), m0, hlt.le, p5 _ m0 m1, q5 _ m0 m2, r5 _ m0 m3, ?_⟩
  rcases min_choice A (min B C) with h1 | h1
  · rw [h1] at hlt ⊢
    have hn : a1 < 0 := by by_contra hn; push Not at hn; rw [p4 hn] at hlt; exact lt_irrefl _ hlt
    exact Or.inl ⟨(p3 hn).2, hn⟩
  · rw [h1] at hlt ⊢
    rcases min_choice B C with h2 | h2
    · rw [h2] at hlt ⊢
      have hn : b1 < 0 := by by_contra hn; push Not at hn; rw [q4 hn] at hlt; exact lt_irrefl _ hlt
      exact Or.inr (Or.inl ⟨(q3 hn).2, hn⟩)
    · rw [h2] at hlt ⊢
      have hn : c1 < 0 := by by_contra hn; push Not at hn; rw [r4 hn] at hlt; exact lt_irrefl _ hlt
      exact Or.inr (Or.inr ⟨(r3 hn).2, hn⟩)

theorem turn_mix (a b x u : Point) (t : Rat) : turn a b (off x u t 0) = turn a b x + t * (turn a b u - turn a b x) := by unfold turn off; ring

/-- A segment that leaves the triangle does so at a side. -/
theorem tri_exit {a b c x u : Point} (hx : InTri a b c x) (hu : ¬ InTri a b c u) :
    ∃ t, 0 ≤ t ∧ t ≤ 1 ∧ InTri a b c (off x u t 0) ∧ ((turn a b (off x u t 0) = 0 ∧ turn a b u < 0) ∨ (turn b c (off x u t 0) = 0 ∧ turn b c u < 0) ∨
      (turn c a (off x u t 0) = 0 ∧ turn c a u < 0)) := by
  unfold InTri
  simp only [turn_mix]
  have h : turn a b u < 0 ∨ turn b c u < 0 ∨ turn c a u < 0 := by
    by_contra hn
    push Not at hn
    exact hu hn
  obtain ⟨t, t0, t1, h1, h2, h3, h4⟩ := first_exit hx.1 hx.2.1 hx.2.2 h
  exact ⟨t, t0, t1, ⟨h1, h2, h3⟩, h4⟩

theorem onSeg_sub {x u : Point} {f : Point × Point} (hx : OnSeg x f) (hu : u = f.1 ∨ u = f.2) {t : Rat} (h0 : 0 ≤ t) (h1 : t ≤ 1) : OnSeg (off x u t 0) f := by
  obtain ⟨s, s0, s1, e1, e2⟩ := hx
  rcases hu with rfl | rfl
  · refine ⟨s * (1 - t), mul_nonneg s0 (by linarith), ?_, ?_, ?_⟩
    · have := mul_le_of_le_one_right s0 (by linarith : 1 - t ≤ 1); linarith
    · unfold off; dsimp only; rw [e1]; ring
    · unfold off; dsimp only; rw [e2]; ring
  · refine ⟨s + t * (1 - s), ?_, ?_, ?_, ?_⟩
    · have := mul_nonneg h0 (by linarith : 0 ≤ 1 - s); linarith
    · have := mul_le_of_le_one_left (by linarith : 0 ≤ 1 - s) h1; linarith
    · unfold off; dsimp only; rw [e1]; ring
    · unfold off; dsimp only; rw [e2]; ring

/-- One end of a segment is at least as high as a point of it. -/
theorem higher_end (c a : Point) {x : Point} {f : Point × Point} (hx : OnSeg x f) : ∃ u, (u = f.1 ∨ u = f.2) ∧ turn c a x ≤ turn c a u := by
  obtain ⟨s, s0, s1, e1, e2⟩ := hx
  have e : turn c a x = (1 - s) * turn c a f.1 + s * turn c a f.2 := by unfold turn; rw [e1, e2]; ring
  rcases le_total (turn c a f.1) (turn c a f.2) with h | h
  · exact ⟨f.2, Or.inr rfl, by rw [e]; nlinarith⟩
  · exact ⟨f.1, Or.inl rfl, by rw [e]; nlinarith⟩

section
variable {l : List Point} (S : SimplePolygon l) {a b c : Point} (h1 : (a, b) ∈ sides l) (h2 : (b, c) ∈ sides l) (hT : 0 < turn a b c)
include S h1 h2 hT

theorem not_b {f : Point × Point} (hf : f ∈ sides l) (n1 : f ≠ (a, b)) (n2 : f ≠ (b, c)) {u : Point} (hu : u = f.1 ∨ u = f.2) : u ≠ b := by
  rintro rfl
  obtain ⟨x, y⟩ := f
  rcases hu with h | h <;> dsimp only at h <;> subst h
  · exact n2 (by rw [sides_fst_inj S.corners hf h2])
  · exact n1 (by rw [sides_snd_inj' S.corners hf h1])

/-- A side that has a point in the triangle at a corner, above its base, has an end there. -/
theorem side_end {f : Point × Point} (hf : f ∈ sides l) (n1 : f ≠ (a, b)) (n2 : f ≠ (b, c)) {x : Point} (hx : OnSeg x f) (hin : InTri a b c x)
    (hh : 0 < turn c a x) : ∃ u, (u = f.1 ∨ u = f.2) ∧ InTri a b c u ∧ turn c a x ≤ turn c a u ∧ u ≠ b := by
  obtain ⟨u, hu, hle⟩ := higher_end c a hx
  refine ⟨u, hu, ?_, hle, not_b S h1 h2 hT hf n1 n2 hu⟩
  by_contra hn
  obtain ⟨t, t0, t1, hy, hc⟩ := tri_exit hin hn
  have hyf := onSeg_sub hx hu t0 t1
  have hyh : 0 < turn c a (off x u t 0) := by
    rw [turn_mix]
    have := mul_nonneg t0 (by linarith : 0 ≤ turn c a u - turn c a x)
    linarith
  rcases hc with ⟨hc, _⟩ | ⟨hc, _⟩ | ⟨hc, _⟩
  · rcases S.apart _ h1 _ hf (Ne.symm n1) _ (on_edge hT hy hc) hyf with ⟨e1, e2⟩ | ⟨e1, e2⟩
    · exact not_b S h1 h2 hT hf n1 n2 (Or.inl (e1.symm.trans e2)) rfl
    · dsimp only at e1
      rw [e1, turn_snd] at hyh
      exact lt_irrefl _ hyh
  · rcases S.apart _ h2 _ hf (Ne.symm n2) _ (on_edge (by rw [turn_cyc]; exact hT) hy.cyc hc) hyf with ⟨e1, e2⟩ | ⟨e1, e2⟩
    · dsimp only at e1
      rw [e1, turn_fst] at hyh
      exact lt_irrefl _ hyh
    · exact not_b S h1 h2 hT hf n1 n2 (Or.inr (e1.symm.trans e2)) rfl
  · linarith

end

/-- The corner `b` can be cut off: the triangle turns left and contains no other corner. -/
structure Ear (l : List Point) (a b c : Point) : Prop where
  first : (a, b) ∈ sides l
  second : (b, c) ∈ sides l
  pos : 0 < turn a b c
  free : ∀ q ∈ l, q ≠ a → q ≠ b → q ≠ c → ¬ InTri a b c q

/-- No other side has a point in the triangle of an ear above its base. -/
theorem Ear.clear {l : List Point} (S : SimplePolygon l) {a b c : Point} (E : Ear l a b c) {f : Point × Point} (hf : f ∈ sides l) (n1 : f ≠ (a, b)) (n2 : f ≠ (b, c))
    {x : Point} (hx : OnSeg x f) (hin : InTri a b c x) : turn c a x ≤ 0 := by
  by_contra hh
  push Not at hh
  obtain ⟨u, hu, hu2, hu3, hu4⟩ := side_end S E.first E.second E.pos hf n1 n2 hx hin hh
  refine E.free u ?_ ?_ hu4 ?_ hu2
  · rcases hu with rfl | rfl
    · exact (mem_sides hf).1
    · exact (mem_sides hf).2
  · rintro rfl; rw [turn_snd] at hu3; linarith
  · rintro rfl; rw [turn_fst] at hu3; linarith

theorem three_closed {l : List Point} (S : SimplePolygon l) {a b c : Point} (h1 : (a, b) ∈ sides l) (h2 : (b, c) ∈ sides l) (h3 : (c, a) ∈ sides l) : l.length = 3 := by
  obtain ⟨m, hm⟩ := corner_decomp S h1 h2
  match m, hm with
  | [], hm => rw [← hm.perm.length_eq]; rfl
  | d :: m, hm =>
    have h4 : (c, d) ∈ sides l := (sides_isRotated hm).mem_iff.1 (by simp [sides_cons])
    have := sides_fst_inj S.corners h3 h4
    subst this
    have := hm.perm.nodup_iff.2 S.corners
    simp at this

/-- Two segments from `a` with another common point, neither end strictly between the ends of the other. -/
theorem along {a c w x : Point} (hx1 : OnSeg x (a, w)) (hx2 : OnSeg x (a, c)) (hxa : x ≠ a) (k1 : OnSeg c (a, w) → c = w) (k2 : OnSeg w (a, c) → w = c) : w = c := by
  obtain ⟨t, t0, t1, e1, e2⟩ := hx1
  obtain ⟨s, s0, s1, e3, e4⟩ := hx2
  dsimp only at e1 e2 e3 e4
  have ht : 0 < t := by
    rcases lt_or_eq_of_le t0 with h | h
    · exact h
    · exfalso; apply hxa; rw [← h] at e1 e2; exact Prod.ext (by linarith) (by linarith)
  have hs : 0 < s := by
    rcases lt_or_eq_of_le s0 with h | h
    · exact h
    · exfalso; apply hxa; rw [← h] at e3 e4; exact Prod.ext (by linarith) (by linarith)
  rcases le_total s t with h | h
  · apply k2
    refine ⟨s / t, by positivity, by rw [div_le_one ht]; exact h, ?_, ?_⟩ <;> dsimp only <;> field_simp <;> linarith
  · symm
    apply k1
    refine ⟨t / s, by positivity, by rw [div_le_one hs]; exact h, ?_, ?_⟩ <;> dsimp only <;> field_simp <;> linarith

/-- The segment from `a` to `b` meets the polygon in corners only, which are `a` or `b`. -/
def Diagonal (l : List Point) (a b : Point) : Prop := ∀ f ∈ sides l, ∀ p, OnSeg p (a, b) → OnSeg p f → (p = a ∨ p = b) ∧ (p = f.1 ∨ p = f.2)

theorem base_in {a b c x : Point} (hT : 0 < turn a b c) (hx : OnSeg x (a, c)) : InTri a b c x ∧ turn c a x = 0 ∧ (x ≠ a → 0 < turn a b x) ∧ (x ≠ c → 0 < turn b c x) := by
  obtain ⟨t, t0, t1, e1, e2⟩ := hx
  dsimp only at e1 e2
  have f1 : turn a b x = t * turn a b c := by unfold turn; rw [e1, e2]; ring
  have f2 : turn b c x = (1 - t) * turn a b c := by unfold turn; rw [e1, e2]; ring
  have f3 : turn c a x = 0 := by unfold turn; rw [e1, e2]; ring
  refine ⟨⟨by rw [f1]; exact mul_nonneg t0 hT.le, by rw [f2]; exact mul_nonneg (by linarith) hT.le, by rw [f3]⟩, f3, ?_, ?_⟩
  · intro hx
    rw [f1]
    apply mul_pos _ hT
    rcases lt_or_eq_of_le t0 with h | h
    · exact h
    · exfalso; apply hx; rw [← h] at e1 e2; exact Prod.ext (by linarith) (by linarith)
  · intro hx
    rw [f2]
    apply mul_pos _ hT
    rcases lt_or_eq_of_le t1 with h | h
    · linarith
    · exfalso; apply hx; rw [h] at e1 e2; exact Prod.ext (by linarith) (by linarith)

theorem Ear.diagonal {l : List Point} (S : SimplePolygon l) (hl : 4 ≤ l.length) {a b c : Point} (E : Ear l a b c) : Diagonal l a c := by
  intro f hf x hx hxf
  have ha := (mem_sides E.first).1
  have hc := (mem_sides E.second).2
  by_cases hxa : x = a
  · exact ⟨Or.inl hxa, corner_on_side S (hxa ▸ ha) hf hxf⟩
  by_cases hxc : x = c
  · exact ⟨Or.inr hxc, corner_on_side S (hxc ▸ hc) hf hxf⟩
  exfalso
  obtain ⟨hin, hh, k1, k2⟩ := base_in E.pos hx
  have k1 := k1 hxa
  have k2 := k2 hxc
  have onab : ∀ x, OnSeg x (a, b) → turn a b x = 0 := by
    rintro x ⟨t, _, _, e1, e2⟩
    unfold turn; rw [e1, e2]; ring
  have onbc : ∀ x, OnSeg x (b, c) → turn b c x = 0 := by
    rintro x ⟨t, _, _, e1, e2⟩
    unfold turn; rw [e1, e2]; ring
  have n1 : f ≠ (a, b) := by rintro rfl; rw [onab x hxf] at k1; exact lt_irrefl _ k1
  have n2 : f ≠ (b, c) := by rintro rfl; rw [onbc x hxf] at k2; exact lt_irrefl _ k2
  -- `a` or `c` is an end of the side
  have hend : (a = f.1 ∨ a = f.2) ∨ (c = f.1 ∨ c = f.2) := by
    obtain ⟨u, hu, hle⟩ := higher_end c a hxf
    rw [hh] at hle
    have hub := not_b S E.first E.second E.pos hf n1 n2 hu
    have hul : u ∈ l := by
      rcases hu with rfl | rfl
      · exact (mem_sides hf).1
      · exact (mem_sides hf).2
    by_cases hin' : InTri a b c u
    · by_cases hua : u = a
      · subst hua; exact Or.inl hu
      by_cases huc : u = c
      · subst huc; exact Or.inr hu
      exact absurd hin' (E.free u hul hua hub huc)
    · obtain ⟨t, t0, t1, hy, hcase⟩ := tri_exit hin hin'
      have hyf := onSeg_sub hxf hu t0 t1
      rcases hcase with ⟨hz, _⟩ | ⟨hz, _⟩ | ⟨_, hz⟩
      · rcases S.apart _ E.first _ hf (Ne.symm n1) _ (on_edge E.pos hy hz) hyf with ⟨e1, e2⟩ | ⟨e1, e2⟩
        · exact absurd rfl (not_b S E.first E.second E.pos hf n1 n2 (Or.inl (e1.symm.trans e2)))
        · exact Or.inl (Or.inr (e1.symm.trans e2))
      · rcases S.apart _ E.second _ hf (Ne.symm n2) _ (on_edge (by rw [turn_cyc]; exact E.pos) hy.cyc hz) hyf with ⟨e1, e2⟩ | ⟨e1, e2⟩
        · exact Or.inr (Or.inl (e1.symm.trans e2))
        · exact absurd rfl (not_b S E.first E.second E.pos hf n1 n2 (Or.inr (e1.symm.trans e2)))
      · linarith
  have hac : a ≠ c := corner_ne S E.first E.second
  -- a corner on the base is one of its ends
  have hbase : ∀ w ∈ l, OnSeg w (a, c) → w = a ∨ w = c := by
    intro w hw hws
    have hb := base_in E.pos hws
    by_contra hn
    push Not at hn
    refine E.free w hw hn.1 ?_ hn.2 hb.1
    rintro rfl
    have := hb.2.1
    rw [turn_cyc, turn_cyc] at this
    have := E.pos
    linarith
  have hedge : (a, c) ∈ sides l ∨ (c, a) ∈ sides l := by
    obtain ⟨f1, f2⟩ := f
    dsimp only at hend
    rcases hend with (rfl | rfl) | (rfl | rfl)
    · left
      have : f2 = c := along hxf hx hxa (fun h => (corner_on_side S hc hf h).resolve_left (Ne.symm hac)) (fun h => (hbase f2 (mem_sides hf).2 h).resolve_left (Ne.symm (side_ne S hf)))
      rw [← this]; exact hf
    · right
      have : f1 = c := along (OnSeg.flip hxf) hx hxa (fun h => (corner_on_side S hc hf (OnSeg.flip h)).resolve_right (Ne.symm hac)) (fun h => (hbase f1 (mem_sides hf).1 h).resolve_left (side_ne S hf))
      rw [← this]; exact hf
    · right
      have : f2 = a := along hxf (OnSeg.flip hx) hxc (fun h => (corner_on_side S ha hf h).resolve_left hac) (fun h => (hbase f2 (mem_sides hf).2 (OnSeg.flip h)).resolve_right (Ne.symm (side_ne S hf)))
      rw [← this]; exact hf
    · left
      have : f1 = a := along (OnSeg.flip hxf) (OnSeg.flip hx) hxc (fun h => (corner_on_side S ha hf (OnSeg.flip h)).resolve_right hac) (fun h => (hbase f1 (mem_sides hf).1 (OnSeg.flip h)).resolve_right (side_ne S hf))
      rw [← this]; exact hf
  rcases hedge with h | h
  · exact side_ne S E.second (sides_fst_inj S.corners E.first h)
  · have := three_closed S E.first E.second h
    omega

/-- The base of an ear is in the angle at its first corner. -/
theorem Ear.cone {l : List Point} (S : SimplePolygon l) (hl : 4 ≤ l.length) {a b c d : Point} (E : Ear l a b c) (hd : (d, a) ∈ sides l) : InLeft d a b c := by
  have hdc : d ≠ c := by
    rintro rfl
    have := three_closed S E.first E.second hd
    omega
  unfold InLeft
  rcases le_or_gt (turn d a b) 0 with h | h
  · exact Or.inr ⟨h, Or.inr E.pos⟩
  refine Or.inl ⟨h, ?_, E.pos⟩
  by_contra hn
  push Not at hn
  have hT := E.pos
  have e1 : turn a b d = turn d a b := turn_cyc d a b
  have e2 : turn c a d = - turn d a c := by unfold turn; ring
  by_cases hin : 0 ≤ turn b c d
  · exact E.free d (mem_sides hd).1 (side_ne S hd) (corner_ne S hd E.first) hdc ⟨by rw [e1]; exact h.le, hin, by rw [e2]; linarith⟩
  · -- the side from `d` crosses the side from `b` to `c`
    have hx : InTri a b c a := ⟨by rw [turn_fst], by rw [turn_cyc]; exact hT.le, by rw [turn_snd]⟩
    obtain ⟨t, t0, t1, hy, hcase⟩ := tri_exit (u := d) hx (fun hh => hin hh.2.1)
    have hyf := onSeg_sub (onSeg_snd (d, a)) (u := d) (Or.inl rfl) t0 t1
    dsimp only at hyf
    rcases hcase with ⟨_, hz⟩ | ⟨hz, _⟩ | ⟨_, hz⟩
    · linarith
    · have hne : (d, a) ≠ (b, c) := by
        intro e
        exact corner_ne S E.first E.second (congrArg Prod.snd e)
      rcases S.apart _ hd _ E.second hne _ hyf (on_edge (by rw [turn_cyc]; exact hT) hy.cyc hz) with ⟨e3, e4⟩ | ⟨e3, e4⟩
      · exact side_ne S E.first (e3.symm.trans e4)
      · exact hdc (e3.symm.trans e4)
    · linarith

end Rerecast.Jordan
