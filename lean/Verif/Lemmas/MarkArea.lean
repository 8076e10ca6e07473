import Verif.Spec.MarkArea
import Verif.Lemmas.RasterArith
import Verif.Lemmas.Graph
import Mathlib.Tactic.FieldSimp
/-! `mark_convex_poly_area`. -/
set_option linter.unusedVariables false
set_option linter.unusedSectionVars false
namespace Rerecast

/-! ### The even-odd rule -/

theorem crosses_iff (p a b : V2) : crosses p b a = true ↔ RayHits p (a, b) := by
  unfold crosses RayHits
  rw [Bool.and_eq_true, bne_iff_ne, decide_eq_true_iff]
  have h1 : (decide (b.y > p.y) ≠ decide (a.y > p.y)) ↔ (a.y > p.y ↔ ¬ b.y > p.y) := by
    by_cases h : b.y > p.y <;> by_cases h' : a.y > p.y <;> simp [h, h']
  rw [h1]
  constructor
  · rintro ⟨h, hx⟩
    refine ⟨h, (p.y - b.y) / (a.y - b.y), ?_, ?_⟩
    · have hne : a.y - b.y ≠ 0 := by
        intro h0
        have : a.y = b.y := by linarith
        rw [this] at h
        exact iff_not_self h
      show b.y + (p.y - b.y) / (a.y - b.y) * (a.y - b.y) = p.y
      rw [div_mul_cancel₀ _ hne]; ring
    · show p.x < b.x + (p.y - b.y) / (a.y - b.y) * (a.x - b.x)
      rw [mul_div_assoc] at hx
      linarith
  · rintro ⟨h, l, hl, hx⟩
    refine ⟨h, ?_⟩
    have hne : a.y - b.y ≠ 0 := by
      intro h0
      have : a.y = b.y := by linarith
      simp only [this] at h
      exact iff_not_self h
    simp only at hl hx
    have : l = (p.y - b.y) / (a.y - b.y) := by
      rw [eq_div_iff hne]; linarith
    rw [this] at hx
    rw [mul_div_assoc]
    linarith

theorem foldPoly (p : V2) : ∀ (vs : List V2) (b : Bool) (prev : V2),
    (vs.foldl (fun (st : Bool × V2) v => ((if crosses p v st.2 then !st.1 else st.1), v)) (b, prev)).1 =
      (b ^^ decide (((sidesFrom prev vs).filter (fun s => crosses p s.2 s.1)).length % 2 = 1)) := by
  intro vs
  induction vs with
  | nil => intro b prev; simp [sidesFrom]
  | cons v vs ih =>
    intro b prev
    rw [List.foldl_cons, ih, sidesFrom, List.filter_cons]
    by_cases h : crosses p v prev = true
    · simp only [h, if_true, List.length_cons]
      generalize (List.filter _ _).length = m
      have : decide ((m + 1) % 2 = 1) = !decide (m % 2 = 1) := by
        by_cases hm : m % 2 = 1
        · rw [decide_eq_true hm, decide_eq_false (by omega)]; rfl
        · rw [decide_eq_false hm, decide_eq_true (by omega)]; rfl
      rw [this]; cases b <;> simp
    · simp [h]

open Classical in
theorem pointInPoly_spec (p : V2) {vs : List V2} (hne : vs ≠ []) : pointInPoly p vs = .ok (decide (InsidePoly p vs)) := by
  unfold pointInPoly InsidePoly polySides
  cases hl : vs.getLast? with
  | none => simp at hl; exact absurd hl hne
  | some last =>
    simp only
    rw [foldPoly]
    simp only [Bool.false_xor]
    congr 3
    have : (sidesFrom last vs).filter (fun s => crosses p s.2 s.1) = (sidesFrom last vs).filter (fun s => decide (RayHits p s)) := by
      apply List.filter_congr
      intro s _
      rw [Bool.eq_iff_iff, crosses_iff, decide_eq_true_iff]
    rw [this]

/-- A side that meets the ray contains a point level with `p`. -/
theorem mem_sidesFrom : ∀ {vs : List V2} {prev : V2} {s : V2 × V2}, s ∈ sidesFrom prev vs → (s.1 = prev ∨ s.1 ∈ vs) ∧ s.2 ∈ vs := by
  intro vs
  induction vs with
  | nil => intro prev s h; cases h
  | cons v vs ih =>
    intro prev s h
    rcases List.mem_cons.1 h with rfl | h
    · exact ⟨Or.inl rfl, by simp⟩
    · obtain ⟨h1, h2⟩ := ih h
      refine ⟨Or.inr ?_, List.mem_cons_of_mem _ h2⟩
      rcases h1 with h1 | h1
      · rw [h1]; simp
      · exact List.mem_cons_of_mem _ h1

theorem mem_polySides {vs : List V2} {s : V2 × V2} (h : s ∈ polySides vs) : s.1 ∈ vs ∧ s.2 ∈ vs := by
  unfold polySides at h
  cases hl : vs.getLast? with
  | none => rw [hl] at h; cases h
  | some last =>
    rw [hl] at h
    obtain ⟨h1, h2⟩ := mem_sidesFrom h
    refine ⟨?_, h2⟩
    rcases h1 with h1 | h1
    · rw [h1]; exact List.mem_of_getLast? hl
    · exact h1

theorem ray_level {p : V2} {s : V2 × V2} (h : (s.1.y > p.y ↔ ¬ s.2.y > p.y)) {l : Rat} (hl : s.2.y + l * (s.1.y - s.2.y) = p.y) :
    0 ≤ l ∧ l ≤ 1 := by
  rcases lt_or_ge p.y s.1.y with h1 | h1
  · have h2 : s.2.y ≤ p.y := not_lt.1 (h.1 h1)
    have hd : 0 < s.1.y - s.2.y := by linarith
    constructor
    · by_contra hc
      push Not at hc
      nlinarith
    · by_contra hc
      push Not at hc
      nlinarith
  · have h2 : p.y < s.2.y := by
      by_contra hc
      exact absurd (h.2 hc) (not_lt.2 h1)
    have hd : s.1.y - s.2.y < 0 := by linarith
    constructor
    · by_contra hc
      push Not at hc
      nlinarith
    · by_contra hc
      push Not at hc
      nlinarith

def straddle (p : V2) (s : V2 × V2) : Bool := decide (s.1.y > p.y) != decide (s.2.y > p.y)

theorem straddle_iff (p : V2) (s : V2 × V2) : straddle p s = true ↔ (s.1.y > p.y ↔ ¬ s.2.y > p.y) := by
  unfold straddle
  by_cases h : s.1.y > p.y <;> by_cases h' : s.2.y > p.y <;> simp [h, h']

theorem count_even (p : V2) : ∀ (vs : List V2) (prev : V2), (vs.foldl (fun _ v => v) prev) = prev →
    ((sidesFrom prev vs).filter (straddle p)).length % 2 = 0 := by
  have key : ∀ (vs : List V2) (prev : V2),
      ((sidesFrom prev vs).filter (straddle p)).length % 2 =
        if ((vs.foldl (fun _ v => v) prev).y > p.y ↔ prev.y > p.y) then 0 else 1 := by
    intro vs
    induction vs with
    | nil => intro prev; simp [sidesFrom]
    | cons v vs ih =>
      intro prev
      have ih := ih v
      rw [List.foldl_cons, sidesFrom, List.filter_cons]
      generalize List.filter (straddle p) (sidesFrom v vs) = fl at *
      generalize List.foldl (fun _ v => v) v vs = lst at *
      by_cases h1 : prev.y > p.y <;> by_cases h2 : v.y > p.y <;> by_cases h3 : lst.y > p.y <;>
        simp only [straddle, h1, h2, h3, decide_true, decide_false, if_true, if_false, iff_true, iff_false, not_true_eq_false, not_false_eq_true,
          bne_self_eq_false, Bool.false_eq_true, Bool.bne_true, Bool.bne_false, Bool.not_false, Bool.not_true, List.length_cons] at ih ⊢ <;> omega
  intro vs prev h
  rw [key, h]
  simp

/-- Points that are inside are within the bounding box. -/
theorem inside_bounds {p : V2} {vs : List V2} (h : InsidePoly p vs) {mnx mxx mny mxy : Rat}
    (hx : ∀ v ∈ vs, mnx ≤ v.x ∧ v.x ≤ mxx) (hy : ∀ v ∈ vs, mny ≤ v.y ∧ v.y ≤ mxy) :
    (mnx ≤ p.x ∧ p.x < mxx) ∧ mny ≤ p.y ∧ p.y < mxy := by
  classical
  have hex : ∃ s ∈ polySides vs, RayHits p s := by
    by_contra hcon
    push Not at hcon
    unfold InsidePoly at h
    have : (polySides vs).filter (fun s => decide (RayHits p s)) = [] := by
      rw [List.filter_eq_nil_iff]
      intro s hs
      simpa using hcon s hs
    rw [this] at h
    simp at h
  obtain ⟨s, hs, h1, l, hl, hlx⟩ := hex
  obtain ⟨hm1, hm2⟩ := mem_polySides hs
  obtain ⟨h0, h01⟩ := ray_level h1 hl
  have bx1 := hx _ hm1; have bx2 := hx _ hm2
  have by1 := hy _ hm1; have by2 := hy _ hm2
  refine ⟨⟨?_, ?_⟩, ?_, ?_⟩
  · by_contra hc
    push Not at hc
    -- all straddling sides count
    unfold InsidePoly at h
    have hall : (polySides vs).filter (fun s => decide (RayHits p s)) = (polySides vs).filter (straddle p) := by
      apply List.filter_congr
      intro t ht
      rw [Bool.eq_iff_iff, decide_eq_true_iff, straddle_iff]
      refine ⟨fun h => h.1, fun hst => ⟨hst, ?_⟩⟩
      have hne : t.1.y - t.2.y ≠ 0 := by
        intro h0
        have : t.1.y = t.2.y := by linarith
        rw [this] at hst
        exact iff_not_self hst
      have e1 : t.2.y + (p.y - t.2.y) / (t.1.y - t.2.y) * (t.1.y - t.2.y) = p.y := by
        rw [div_mul_cancel₀ _ hne]; ring
      obtain ⟨g0, g1⟩ := ray_level hst e1
      obtain ⟨n1, n2⟩ := mem_polySides ht
      have c1 := (hx _ n1).1; have c2 := (hx _ n2).1
      refine ⟨_, e1, ?_⟩
      generalize (p.y - t.2.y) / (t.1.y - t.2.y) = q at *
      nlinarith
    rw [hall] at h
    unfold polySides at h
    cases hlst : vs.getLast? with
    | none => rw [hlst] at h; simp at h
    | some last =>
      rw [hlst] at h
      simp only at h
      have := count_even p vs last (by
        have : vs = vs.dropLast ++ [last] := (List.dropLast_append_getLast? last hlst).symm
        rw [this]; simp)
      omega
  · nlinarith
  · nlinarith
  · rcases lt_or_ge p.y s.1.y with h2 | h2
    · exact lt_of_lt_of_le h2 by1.2
    · have : p.y < s.2.y := by
        by_contra hc
        exact absurd (h1.2 hc) (not_lt.2 h2)
      exact lt_of_lt_of_le this by2.2

/-! ### Bounding box and conversions -/

theorem aabb2d_spec {lo hi : Rat} {vs : List V2} (hne : vs ≠ []) (hr : ∀ v ∈ vs, (lo ≤ v.x ∧ v.x ≤ hi) ∧ lo ≤ v.y ∧ v.y ≤ hi) :
    ∃ mn mx, aabb2dFromVerts lo hi vs = some (mn, mx) ∧ ∀ v ∈ vs, (mn.x ≤ v.x ∧ v.x ≤ mx.x) ∧ mn.y ≤ v.y ∧ v.y ≤ mx.y := by
  refine ⟨_, _, by unfold aabb2dFromVerts; rw [if_neg (by simpa using hne)], ?_⟩
  have kmin : ∀ (vs : List V2) (a : V2), ((vs.foldl (fun a v => (⟨min a.x v.x, min a.y v.y⟩ : V2)) a).x ≤ a.x ∧
      (vs.foldl (fun a v => (⟨min a.x v.x, min a.y v.y⟩ : V2)) a).y ≤ a.y) ∧ ∀ v ∈ vs,
      (vs.foldl (fun a v => (⟨min a.x v.x, min a.y v.y⟩ : V2)) a).x ≤ v.x ∧ (vs.foldl (fun a v => (⟨min a.x v.x, min a.y v.y⟩ : V2)) a).y ≤ v.y := by
    intro vs
    induction vs with
    | nil => intro a; simp
    | cons w vs ih =>
      intro a
      rw [List.foldl_cons]
      obtain ⟨⟨g1, g2⟩, g3⟩ := ih ⟨min a.x w.x, min a.y w.y⟩
      refine ⟨⟨le_trans g1 (min_le_left _ _), le_trans g2 (min_le_left _ _)⟩, ?_⟩
      intro v hv
      rcases List.mem_cons.1 hv with rfl | hv
      · exact ⟨le_trans g1 (min_le_right _ _), le_trans g2 (min_le_right _ _)⟩
      · exact g3 v hv
  have kmax : ∀ (vs : List V2) (a : V2), (a.x ≤ (vs.foldl (fun a v => (⟨max a.x v.x, max a.y v.y⟩ : V2)) a).x ∧
      a.y ≤ (vs.foldl (fun a v => (⟨max a.x v.x, max a.y v.y⟩ : V2)) a).y) ∧ ∀ v ∈ vs,
      v.x ≤ (vs.foldl (fun a v => (⟨max a.x v.x, max a.y v.y⟩ : V2)) a).x ∧ v.y ≤ (vs.foldl (fun a v => (⟨max a.x v.x, max a.y v.y⟩ : V2)) a).y := by
    intro vs
    induction vs with
    | nil => intro a; simp
    | cons w vs ih =>
      intro a
      rw [List.foldl_cons]
      obtain ⟨⟨g1, g2⟩, g3⟩ := ih ⟨max a.x w.x, max a.y w.y⟩
      refine ⟨⟨le_trans (le_max_left _ _) g1, le_trans (le_max_left _ _) g2⟩, ?_⟩
      intro v hv
      rcases List.mem_cons.1 hv with rfl | hv
      · exact ⟨le_trans (le_max_right _ _) g1, le_trans (le_max_right _ _) g2⟩
      · exact g3 v hv
  intro v hv
  exact ⟨⟨((kmin vs _).2 v hv).1, ((kmax vs _).2 v hv).1⟩, ((kmin vs _).2 v hv).2, ((kmax vs _).2 v hv).2⟩

theorem asI32_le {q : Rat} {n : Nat} (hn : n ≤ 65535) : ratAsI32 q ≤ (n : Int) ↔ q < (n : Rat) + 1 := by
  unfold ratAsI32
  constructor
  · intro h
    by_contra hc
    push Not at hc
    have := le_ratTrunc (n := (n : Int) + 1) (by omega) (by push_cast; exact hc)
    omega
  · intro h
    have := ratTrunc_le (n := (n : Int)) (by omega) (by push_cast; exact h)
    omega

theorem le_asI32 {q : Rat} {n : Nat} (hn : n ≤ 65535) : (n : Int) ≤ ratAsI32 q ↔ (n : Rat) ≤ q ∨ (n = 0 ∧ -1 < q) := by
  unfold ratAsI32
  constructor
  · intro h
    by_contra hc
    push Not at hc
    obtain ⟨h1, h2⟩ := hc
    have h3 : (n : Int) ≤ ratTrunc q := by omega
    rcases Nat.eq_zero_or_pos n with h0 | h0
    · subst h0
      have hq := h2 rfl
      have : ratTrunc q ≤ -1 := by
        have h4 := ratTrunc_neg (-q)
        rw [neg_neg] at h4
        have := le_ratTrunc (n := 1) (q := -q) (by omega) (by push_cast; linarith)
        omega
      omega
    · have := ratTrunc_le (q := q) (n := (n : Int) - 1) (by omega) (by push_cast; linarith)
      omega
  · rintro (h | ⟨rfl, h⟩)
    · have := le_ratTrunc (n := (n : Int)) (by omega) (by push_cast; exact h)
      omega
    · have := le_ratTrunc_zero h
      simp
      omega

theorem mem_intRange {a b k : Int} : k ∈ intRange a b ↔ a ≤ k ∧ k ≤ b := by
  unfold intRange
  rw [List.mem_map]
  constructor
  · rintro ⟨i, hi, rfl⟩
    rw [List.mem_range] at hi
    omega
  · rintro ⟨h1, h2⟩
    exact ⟨(k - a).toNat, List.mem_range.2 (by omega), by omega⟩

/-! ### The loop -/
namespace CompactHeightfield
section
variable {chf : CompactHeightfield} (hwf : chf.WellFormed) (fr : Frame) (vol : ConvexVolume) (hne : vol.vertices ≠ []) (minY maxY : Int)

/-- The test applied to a span. -/
def MarkHit (chf : CompactHeightfield) (fr : Frame) (vol : ConvexVolume) (minY maxY : Int) (i : Nat) (a : Area) : Prop :=
  isWalkable a = true ∧ (∃ s, chf.spans[i]? = some s ∧ minY ≤ s.y ∧ s.y ≤ maxY) ∧
    InsidePoly (cellCentre fr (chf.xOf i) (chf.zOf i)) vol.vertices

open Classical in
/-- The spans in `V` have been processed. -/
def Upd (chf : CompactHeightfield) (fr : Frame) (vol : ConvexVolume) (minY maxY : Int) (V : Nat → Prop) (areas : List Area) : Prop :=
  areas.length = chf.areas.length ∧ ∀ (i : Nat) a, chf.areas[i]? = some a →
    areas[i]? = some (if V i ∧ chf.MarkHit fr vol minY maxY i a then vol.area else a)

theorem Upd.congr {V V' : Nat → Prop} {areas} (h : chf.Upd fr vol minY maxY V areas) (hV : ∀ i < chf.areas.length, (V i ↔ V' i)) :
    chf.Upd fr vol minY maxY V' areas := by
  classical
  refine ⟨h.1, fun i a ha => ?_⟩
  have hi := (List.getElem?_eq_some_iff.1 ha).1
  rw [h.2 i a ha]
  exact congrArg some (if_congr (and_congr (hV i hi) Iff.rfl) rfl rfl)

theorem Upd.pos {V : Nat → Prop} {areas} (h : chf.Upd fr vol minY maxY V areas) {i : Nat} {a : Area} (ha : chf.areas[i]? = some a) (hV : V i)
    (hm : chf.MarkHit fr vol minY maxY i a) : areas[i]? = some vol.area := by
  rw [h.2 i a ha, if_pos ⟨hV, hm⟩]

theorem Upd.neg {V : Nat → Prop} {areas} (h : chf.Upd fr vol minY maxY V areas) {i : Nat} {a : Area} (ha : chf.areas[i]? = some a)
    (hm : ¬ (V i ∧ chf.MarkHit fr vol minY maxY i a)) : areas[i]? = some a := by
  rw [h.2 i a ha, if_neg hm]

include hwf hne
theorem markSpan_ok {V : Nat → Prop} {areas} (h : chf.Upd fr vol minY maxY V areas) {i : Nat} (hi : i < chf.spans.length) :
    Total (chf.markSpan fr vol minY maxY (chf.xOf i : Int) (chf.zOf i : Int) areas i) (chf.Upd fr vol minY maxY (fun j => V j ∨ j = i)) := by
  classical
  have hs : chf.spans[i]? = some chf.spans[i] := List.getElem?_eq_getElem hi
  have ha0 : i < chf.areas.length := by rw [hwf.areas_len]; exact hi
  have ha : chf.areas[i]? = some chf.areas[i] := List.getElem?_eq_getElem ha0
  have hcur := h.2 i _ ha
  have skip : (¬ chf.MarkHit fr vol minY maxY i chf.areas[i] ∨ V i) → chf.Upd fr vol minY maxY (fun j => V j ∨ j = i) areas := by
    intro hno
    refine ⟨h.1, fun j a haj => ?_⟩
    rw [h.2 j a haj]
    by_cases hj : j = i
    · subst hj
      rw [ha] at haj
      cases haj
      rcases hno with hno | hno
      · simp [hno]
      · simp [hno]
    · simp [hj]
  have stepto : chf.MarkHit fr vol minY maxY i chf.areas[i] → chf.Upd fr vol minY maxY (fun j => V j ∨ j = i) (areas.set i vol.area) := by
    intro hyes
    refine ⟨by simp [h.1], fun j a haj => ?_⟩
    rw [List.getElem?_set]
    by_cases hj : i = j
    · subst hj
      rw [ha] at haj
      cases haj
      simp [h.1, ha0, hyes]
    · rw [if_neg hj, h.2 j a haj]
      have hj' : ¬ j = i := fun e => hj e.symm
      simp [hj']
  unfold markSpan
  rw [idx_some hs, bind_ok, idx_some hcur, bind_ok]
  have hcent : (⟨fr.aabb.min.x + (((chf.xOf i : Int) : Rat) + 1 / 2) * fr.cellSize, fr.aabb.min.z + (((chf.zOf i : Int) : Rat) + 1 / 2) * fr.cellSize⟩ : V2) =
      cellCentre fr (chf.xOf i) (chf.zOf i) := by simp [cellCentre]
  dsimp only
  rw [hcent, pointInPoly_spec _ hne]
  by_cases hV : V i ∧ chf.MarkHit fr vol minY maxY i chf.areas[i]
  · rw [if_pos hV]
    split
    · exact Total.ok (skip (Or.inr hV.1))
    · split
      · exact Total.ok (skip (Or.inr hV.1))
      · rw [bind_ok]
        split
        · rw [setIdx_ok (by rw [h.1]; exact ha0)]
          exact Total.ok (stepto hV.2)
        · exact Total.ok (skip (Or.inr hV.1))
  · rw [if_neg hV]
    by_cases hw : isWalkable chf.areas[i] = true
    · rw [if_neg (by simp [hw])]
      by_cases hy : ((chf.spans[i].y : Int) < minY ∨ (chf.spans[i].y : Int) > maxY)
      · rw [if_pos hy]
        refine Total.ok (skip (Or.inl ?_))
        rintro ⟨_, ⟨s, hs', h1, h2⟩, _⟩
        rw [hs] at hs'; cases hs'
        omega
      · rw [if_neg hy, bind_ok]
        by_cases hin : InsidePoly (cellCentre fr (chf.xOf i) (chf.zOf i)) vol.vertices
        · rw [if_pos (by simpa using hin), setIdx_ok (by rw [h.1]; exact ha0)]
          exact Total.ok (stepto ⟨hw, ⟨_, hs, by omega, by omega⟩, hin⟩)
        · rw [if_neg (by simpa using hin)]
          exact Total.ok (skip (Or.inl fun hm => hin hm.2.2))
    · rw [if_pos (by simp [hw])]
      exact Total.ok (skip (Or.inl fun hm => hw hm.1))

theorem markCell_ok (hsz : chf.width * chf.height ≤ 2147483648) {V : Nat → Prop} {areas} (h : chf.Upd fr vol minY maxY V areas) {x z : Int}
    (hx0 : 0 ≤ x) (hx : x < chf.width) (hz0 : 0 ≤ z) (hz : z < chf.height) :
    Total (chf.markCell fr vol minY maxY z areas x) (chf.Upd fr vol minY maxY (fun j => V j ∨ ((chf.xOf j : Int) = x ∧ (chf.zOf j : Int) = z))) := by
  obtain ⟨x, rfl⟩ := Int.eq_ofNat_of_zero_le hx0
  obtain ⟨z, rfl⟩ := Int.eq_ofNat_of_zero_le hz0
  have hx' : x < chf.width := by omega
  have hz' : z < chf.height := by omega
  have hc : x + z * chf.width < chf.width * chf.height := by
    have : (z + 1) * chf.width ≤ chf.height * chf.width := Nat.mul_le_mul_right _ hz'
    rw [Nat.add_mul, Nat.one_mul, Nat.mul_comm chf.height] at this
    omega
  have hcell : x + z * chf.width < chf.cells.length := by rw [hwf.cells_len]; exact hc
  have e1 : checkI32 ((z : Int) * chf.width) = .ok ((z * chf.width : Nat) : Int) := by
    unfold checkI32
    push_cast
    rw [if_pos ⟨by have := Int.mul_nonneg (Int.natCast_nonneg z) (Int.natCast_nonneg chf.width); omega, by
      have : ((z * chf.width : Nat) : Int) ≤ 2147483647 := by omega
      push_cast at this; exact this⟩]
  have e2 : checkI32 ((x : Int) + ((z * chf.width : Nat) : Int)) = .ok ((x + z * chf.width : Nat) : Int) := by
    unfold checkI32
    rw [if_pos (by omega)]
    rfl
  unfold markCell
  rw [e1, bind_ok, e2, bind_ok, Int.toNat_natCast, idx_ok hcell, bind_ok]
  have hget : chf.cells[x + z * chf.width]? = some chf.cells[x + z * chf.width] := List.getElem?_eq_getElem hcell
  have hcol : ∀ i ∈ (chf.cells[x + z * chf.width]).indexRange, i < chf.spans.length ∧ chf.xOf i = x ∧ chf.zOf i = z := by
    intro i hi
    have h1 := col_unique hwf hget hi
    obtain ⟨h2, h3⟩ := col_divmod (z := z) hx'
    exact ⟨mem_cell_lt hwf hget hi, by unfold xOf; rw [h1, h2], by unfold zOf; rw [h1, h3]⟩
  refine (foldlM_total (fun pre areas => chf.Upd fr vol minY maxY (fun j => V j ∨ j ∈ pre) areas) _ _ (h.congr _ _ _ _ (by simp)) ?_).mono ?_
  · intro pre i post s hl hP
    obtain ⟨hi, hxi, hzi⟩ := hcol i (by rw [hl]; simp)
    have := markSpan_ok hwf fr vol hne minY maxY hP hi
    rw [hxi, hzi] at this
    exact this.mono fun s hs => hs.congr _ _ _ _ (by intro j _; simp [or_assoc])
  · intro s hs
    refine hs.congr _ _ _ _ ?_
    intro j hj
    have hj' : j < chf.spans.length := by rw [← hwf.areas_len]; exact hj
    refine or_congr Iff.rfl ⟨fun hm => ?_, fun ⟨h1, h2⟩ => ?_⟩
    · obtain ⟨_, h1, h2⟩ := hcol j hm
      rw [h1, h2]; exact ⟨rfl, rfl⟩
    · have h1 : chf.xOf j = x := Int.ofNat.inj h1
      have h2 : chf.zOf j = z := Int.ofNat.inj h2
      obtain ⟨hc2, cell, hg, hm⟩ := col_spec hwf hj'
      have h3 := (col_div hc2).2.2
      unfold xOf at h1
      unfold zOf at h2
      rw [h1, h2] at h3
      rw [← h3] at hg
      rw [hget] at hg
      cases hg
      exact hm

theorem markLoop_ok (hsz : chf.width * chf.height ≤ 2147483648) {x0 x1 z0 z1 : Int} (hx0 : 0 ≤ x0) (hx1 : x1 < chf.width) (hz0 : 0 ≤ z0)
    (hz1 : z1 < chf.height) :
    Total ((intRange z0 z1).foldlM (fun areas z => (intRange x0 x1).foldlM (chf.markCell fr vol minY maxY z) areas) chf.areas)
      (chf.Upd fr vol minY maxY (fun j => (x0 ≤ chf.xOf j ∧ (chf.xOf j : Int) ≤ x1) ∧ z0 ≤ chf.zOf j ∧ (chf.zOf j : Int) ≤ z1)) := by
  refine (foldlM_total (fun pre areas => chf.Upd fr vol minY maxY (fun j => (chf.xOf j : Int) ∈ intRange x0 x1 ∧ (chf.zOf j : Int) ∈ pre) areas) _ _
    ⟨rfl, fun i a ha => by simpa using ha⟩ ?_).mono ?_
  · intro pre z post s hl hP
    have hz : z ∈ intRange z0 z1 := by rw [hl]; simp
    rw [mem_intRange] at hz
    refine (foldlM_total (fun prex areas => chf.Upd fr vol minY maxY (fun j => ((chf.xOf j : Int) ∈ intRange x0 x1 ∧ (chf.zOf j : Int) ∈ pre) ∨
      ((chf.xOf j : Int) ∈ prex ∧ (chf.zOf j : Int) = z)) areas) _ _ (hP.congr _ _ _ _ (by simp)) ?_).mono ?_
    · intro prex x postx t hlx hPx
      have hx : x ∈ intRange x0 x1 := by rw [hlx]; simp
      rw [mem_intRange] at hx
      refine (markCell_ok hwf fr vol hne minY maxY hsz hPx (by omega) (by omega) (by omega) (by omega)).mono fun s hs => hs.congr _ _ _ _ ?_
      intro j _
      simp only [List.mem_append, List.mem_singleton, or_assoc, or_and_right]
    · intro s hs
      refine hs.congr _ _ _ _ ?_
      intro j _
      simp only [List.mem_append, List.mem_singleton, and_or_left]
  · intro s hs
    exact hs.congr _ _ _ _ (by intro j _; simp only [mem_intRange])

end
end CompactHeightfield
end Rerecast
