import Verif.Lemmas.Res
import Verif.Lemmas.VertexWord
import Verif.Model.Contour
import Mathlib.Order.Basic
import Mathlib.Algebra.Order.Ring.Rat
import Mathlib.Tactic.Linarith
/-! Contour simplification: the chosen vertices are tracked by their unwrapped positions along the raw contour. -/
set_option linter.unusedVariables false
namespace Rerecast

/-- `x` returns a value with `P`, or `bad` holds and it panics. -/
def TotalOr (bad : Prop) (x : Res α) (P : α → Prop) : Prop := (∃ a, x = .ok a ∧ P a) ∨ (bad ∧ x = .error .panic)

theorem TotalOr.of_total {bad : Prop} {x : Res α} {P : α → Prop} (h : Total x P) : TotalOr bad x P := Or.inl h
theorem TotalOr.ok {bad : Prop} {a : α} {P : α → Prop} (h : P a) : TotalOr bad (.ok a) P := Or.inl ⟨a, rfl, h⟩
theorem TotalOr.bind {bad : Prop} {x : Res α} {f : α → Res β} {P : α → Prop} {Q : β → Prop}
    (hx : TotalOr bad x P) (hf : ∀ a, P a → TotalOr bad (f a) Q) : TotalOr bad (x >>= f) Q := by
  rcases hx with ⟨a, rfl, ha⟩ | ⟨hb, rfl⟩
  · exact hf a ha
  · exact Or.inr ⟨hb, rfl⟩
theorem TotalOr.mono {bad : Prop} {x : Res α} {P Q : α → Prop} (hx : TotalOr bad x P) (h : ∀ a, P a → Q a) :
    TotalOr bad x Q := by
  rcases hx with ⟨a, rfl, ha⟩ | hb
  · exact Or.inl ⟨a, rfl, h a ha⟩
  · exact Or.inr hb
theorem TotalOr.total {bad : Prop} {x : Res α} {P : α → Prop} (hx : TotalOr bad x P) (h : ¬ bad) : Total x P := by
  rcases hx with h1 | ⟨h2, _⟩
  · exact h1
  · exact absurd h2 h

/-- Position of raw vertex `k` (taken cyclically). -/
def posAt (points : RawContour) (k : Nat) : U16Vec3 := (points.getD (k % points.length) default).1
/-- Word of raw vertex `k` (taken cyclically). -/
def wordAt (points : RawContour) (k : Nat) : Nat := (points.getD (k % points.length) default).2
/-- The chosen vertex at unwrapped position `k`. -/
def chosenAt (points : RawContour) (k : Nat) : U16Vec3 × Nat := (posAt points k, k % points.length)

theorem idx_at {points : RawContour} (hn : 0 < points.length) (k : Nat) :
    idx points (k % points.length) = .ok (posAt points k, wordAt points k) := by
  have h := Nat.mod_lt k hn
  rw [idx_ok h]
  simp [posAt, wordAt, List.getD_eq_getElem?_getD, List.getElem?_eq_getElem h]

theorem posAt_mod (points : RawContour) (k : Nat) : posAt points (k % points.length) = posAt points k := by
  simp [posAt]
theorem wordAt_mod (points : RawContour) (k : Nat) : wordAt points (k % points.length) = wordAt points k := by
  simp [wordAt]
theorem chosenAt_congr {points : RawContour} {a b : Nat} (h : a % points.length = b % points.length) :
    chosenAt points a = chosenAt points b := by
  simp [chosenAt, posAt, h]

theorem mod_ne {lo c n : Nat} (h0 : 0 < c) (h : c < n) : (lo + c) % n ≠ lo % n := by
  intro e
  have := Nat.sub_mod_eq_zero_of_mod_eq e
  rw [Nat.add_sub_cancel_left, Nat.mod_eq_of_lt h] at this
  omega

section
variable (t : Tests) (points : RawContour) (a b : Nat × Nat)

/-- One step of the search for the maximal deviation. -/
def devStep (m : Rat × Option Nat) (k : Nat) : Rat × Option Nat :=
  if t.dev (posAt points k).xz a b > m.1 then (t.dev (posAt points k).xz a b, some (k % points.length)) else m

variable {points}

theorem maxDeviation_forward (hn : 0 < points.length) : ∀ (c lo fuel : Nat) (m : Rat × Option Nat), c ≤ fuel → c < points.length →
    maxDeviation t points a b 1 ((lo + c) % points.length) fuel (lo % points.length) m =
      .ok ((List.range' lo c).foldl (devStep t points a b) m) := by
  intro c
  induction c with
  | zero => intro lo fuel m _ _; cases fuel <;> simp [maxDeviation]
  | succ c ih =>
    intro lo fuel m hf hc
    obtain ⟨fuel, rfl⟩ : ∃ f, fuel = f + 1 := ⟨fuel - 1, by omega⟩
    rw [maxDeviation, if_neg]
    · rw [idx_at hn, bind_ok, Nat.mod_add_mod, List.range'_succ, List.foldl_cons,
        show lo + (c + 1) = (lo + 1) + c by omega]
      exact ih (lo + 1) fuel _ (by omega) (by omega)
    · intro h; exact mod_ne (by omega) hc h.symm

theorem maxDeviation_backward (hn : 0 < points.length) : ∀ (c lo fuel : Nat) (m : Rat × Option Nat), c ≤ fuel → c < points.length →
    maxDeviation t points a b (points.length - 1) (lo % points.length) fuel ((lo + c) % points.length) m =
      .ok ((List.range' (lo + 1) c).reverse.foldl (devStep t points a b) m) := by
  intro c
  induction c with
  | zero => intro lo fuel m _ _; cases fuel <;> simp [maxDeviation]
  | succ c ih =>
    intro lo fuel m hf hc
    obtain ⟨fuel, rfl⟩ : ∃ f, fuel = f + 1 := ⟨fuel - 1, by omega⟩
    rw [maxDeviation, if_neg]
    · rw [idx_at hn, bind_ok, Nat.mod_add_mod, List.range'_concat, List.reverse_append, List.reverse_singleton,
        List.singleton_append, List.foldl_cons, show lo + (c + 1) + (points.length - 1) = lo + c + points.length by omega,
        Nat.add_mod_right, Nat.one_mul, show lo + 1 + c = lo + (c + 1) by omega]
      exact ih lo fuel _ (by omega) (by omega)
    · intro h; exact mod_ne (by omega) hc h

variable (points)

theorem devFold : ∀ (ks : List Nat) (m : Rat × Option Nat), let r := ks.foldl (devStep t points a b) m
    (r = m ∨ ∃ k ∈ ks, r.2 = some (k % points.length)) ∧ m.1 ≤ r.1 ∧ (∀ k ∈ ks, t.dev (posAt points k).xz a b ≤ r.1) ∧
    (m.2 = none → m.1 = 0 → r.2 = none → r.1 = 0) := by
  intro ks
  induction ks with
  | nil => intro m; exact ⟨Or.inl rfl, le_refl _, by simp, fun _ h _ => h⟩
  | cons k ks ih =>
    intro m
    simp only [List.foldl_cons]
    obtain ⟨h1, h2, h3, h4⟩ := ih (devStep t points a b m k)
    have hs : (devStep t points a b m k = m ∨ (devStep t points a b m k).2 = some (k % points.length)) ∧
        m.1 ≤ (devStep t points a b m k).1 ∧ t.dev (posAt points k).xz a b ≤ (devStep t points a b m k).1 := by
      unfold devStep
      split
      · rename_i h; exact ⟨Or.inr rfl, le_of_lt h, le_refl _⟩
      · rename_i h; exact ⟨Or.inl rfl, le_refl _, not_lt.1 h⟩
    refine ⟨?_, le_trans hs.2.1 h2, ?_, ?_⟩
    · rcases h1 with h1 | ⟨k', hk', h1⟩
      · rcases hs.1 with h5 | h5
        · left; rw [h1, h5]
        · right; exact ⟨k, by simp, by rw [h1, h5]⟩
      · exact Or.inr ⟨k', by simp [hk'], h1⟩
    · intro k' hk'
      rcases List.mem_cons.1 hk' with rfl | hk'
      · exact le_trans hs.2.2 h2
      · exact h3 k' hk'
    · intro hm0 hm1 hr
      rcases hs.1 with h5 | h5
      · rw [h5] at h4; rw [h5]; rw [h5] at hr; exact h4 hm0 hm1 hr
      · exfalso
        rcases h1 with h1 | ⟨k', _, h1⟩
        · rw [h1, h5] at hr; cases hr
        · rw [h1] at hr; cases hr
end

/-- The two end points in the order of traversal. -/
def lexLt (a b : U16Vec3) : Bool := decide (b.x > a.x) || (decide (b.x = a.x) && decide (b.z > a.z))

/-- Whether the raw edges ending at `k` are subject to the error tolerance. -/
def tolerated (points : RawContour) (k : Nat) : Bool :=
  !intersects (wordAt points k) REGION_MASK || intersects (wordAt points k) AREA_BORDER

/-- The first raw vertex looked at when the arc `(a, b)` is searched. -/
def firstLooked (points : RawContour) (a b : Nat) : Nat :=
  if lexLt (posAt points a) (posAt points b) then a + 1 else b + points.length - 1

theorem segmentDeviation_spec (t : Tests) {points : RawContour} {a b : Nat} (hab : a < b) (hba : b ≤ a + points.length) :
    ∃ r, segmentDeviation t points (chosenAt points a) (chosenAt points b) = .ok r ∧
      (∀ m, r.2 = some m → ∃ k, a < k ∧ k < b ∧ m = k % points.length) ∧
      (r.2 = none → r.1 = 0) ∧ 
      (tolerated points (firstLooked points a b) = true → ∀ k, a < k → k < b →
        (if lexLt (posAt points a) (posAt points b) then t.dev (posAt points k).xz (posAt points a).xz (posAt points b).xz
          else t.dev (posAt points k).xz (posAt points b).xz (posAt points a).xz) ≤ r.1) := by
  have hn : 0 < points.length := by omega
  obtain ⟨c, rfl⟩ : ∃ c, b = a + 1 + c := ⟨b - a - 1, by omega⟩
  unfold segmentDeviation
  have hf : (decide ((chosenAt points (a + 1 + c)).1.x > (chosenAt points a).1.x) ||
      (decide ((chosenAt points (a + 1 + c)).1.x = (chosenAt points a).1.x) &&
      decide ((chosenAt points (a + 1 + c)).1.z > (chosenAt points a).1.z))) =
      lexLt (posAt points a) (posAt points (a + 1 + c)) := rfl
  simp only [hf]
  cases hl : lexLt (posAt points a) (posAt points (a + 1 + c)) with
  | true =>
    simp only [if_true, chosenAt, Nat.mod_add_mod, idx_at hn, bind_ok]
    have ht : (!intersects (wordAt points (a + 1)) REGION_MASK || intersects (wordAt points (a + 1)) AREA_BORDER) =
      tolerated points (firstLooked points a (a + 1 + c)) := by simp [firstLooked, hl, tolerated]
    rw [ht]
    by_cases hcond : tolerated points (firstLooked points a (a + 1 + c)) = true
    · rw [if_pos hcond, maxDeviation_forward t _ _ hn c (a + 1) points.length _ (by omega) (by omega)]
      obtain ⟨h1, h2, h3, h4⟩ := devFold t points (posAt points a).xz (posAt points (a + 1 + c)).xz (List.range' (a + 1) c) (0, none)
      refine ⟨_, rfl, ?_, h4 rfl rfl, ?_⟩
      · intro m hm
        rcases h1 with h1 | ⟨k, hk, h1⟩
        · rw [h1] at hm; cases hm
        · rw [h1] at hm; cases hm
          have := List.mem_range'_1.1 hk
          exact ⟨k, by omega, by omega, rfl⟩
      · intro _ k hk1 hk2
        exact h3 k (List.mem_range'_1.2 (by omega))
    · rw [if_neg hcond]
      refine ⟨_, rfl, ?_, fun _ => rfl, fun h => absurd h hcond⟩
      intro m hm; cases hm
  | false =>
    simp only [Bool.false_eq_true, if_false, chosenAt, Nat.mod_add_mod, idx_at hn, bind_ok]
    have ew : ∀ {k}, k = a + 1 + c + (points.length - 1) → k % points.length = (a + c) % points.length := by
      rintro k rfl
      rw [show a + 1 + c + (points.length - 1) = a + c + points.length by omega, Nat.add_mod_right]
    have ht : (!intersects (wordAt points (a + 1 + c + (points.length - 1))) REGION_MASK ||
        intersects (wordAt points (a + 1 + c + (points.length - 1))) AREA_BORDER) =
      tolerated points (firstLooked points a (a + 1 + c)) := by
        simp only [firstLooked, hl, tolerated, Bool.false_eq_true, if_false]
        rw [show a + 1 + c + points.length - 1 = a + 1 + c + (points.length - 1) by omega]
    rw [ht]
    by_cases hcond : tolerated points (firstLooked points a (a + 1 + c)) = true
    · rw [if_pos hcond, ew rfl, maxDeviation_backward t _ _ hn c a points.length _ (by omega) (by omega)]
      obtain ⟨h1, h2, h3, h4⟩ := devFold t points (posAt points (a + 1 + c)).xz (posAt points a).xz (List.range' (a + 1) c).reverse (0, none)
      refine ⟨_, rfl, ?_, h4 rfl rfl, ?_⟩
      · intro m hm
        rcases h1 with h1 | ⟨k, hk, h1⟩
        · rw [h1] at hm; cases hm
        · rw [h1] at hm; cases hm
          have := List.mem_range'_1.1 (List.mem_reverse.1 hk)
          exact ⟨k, by omega, by omega, rfl⟩
      · intro _ k hk1 hk2
        exact h3 k (List.mem_reverse.2 (List.mem_range'_1.2 (by omega)))
    · rw [if_neg hcond]
      refine ⟨_, rfl, ?_, fun _ => rfl, fun h => absurd h hcond⟩
      intro m hm; cases hm

/-! ### Windings -/

/-- From `x` over the positions of the list to `e`, every arc is between 1 and `n` long. -/
def Arcs (n : Nat) : Nat → List Nat → Nat → Prop
  | x, [], e => x < e ∧ e ≤ x + n
  | x, y :: l, e => (x < y ∧ y ≤ x + n) ∧ Arcs n y l e

theorem arcs_append {n : Nat} : ∀ {l : List Nat} {x y : Nat} {l' : List Nat} {e : Nat},
    Arcs n x (l ++ y :: l') e ↔ Arcs n x l y ∧ Arcs n y l' e := by
  intro l
  induction l with
  | nil => intros; rfl
  | cons z l ih => intros; simp only [List.cons_append, Arcs, ih, and_assoc]

theorem Arcs.length {n : Nat} : ∀ {l : List Nat} {x e : Nat}, Arcs n x l e → x + l.length < e := by
  intro l
  induction l with
  | nil => intro x e h; exact h.1
  | cons y l ih => intro x e h; have := ih h.2; have := h.1; simp; omega

theorem Arcs.mem {n : Nat} : ∀ {l : List Nat} {x e : Nat}, Arcs n x l e → ∀ y ∈ l, x < y ∧ y < e := by
  intro l
  induction l with
  | nil => intro x e h y hy; cases hy
  | cons z l ih =>
    intro x e h y hy
    have h1 := h.1
    rcases List.mem_cons.1 hy with rfl | hy
    · have := Arcs.length h.2; omega
    · have := ih h.2 y hy; omega

theorem Arcs.pairwise {n : Nat} : ∀ {l : List Nat} {x e : Nat}, Arcs n x l e → (x :: l).Pairwise (· < ·) := by
  intro l
  induction l with
  | nil => intro x e h; simp
  | cons z l ih =>
    intro x e h
    have := ih h.2
    refine List.pairwise_cons.2 ⟨?_, this⟩
    intro y hy
    exact (Arcs.mem h y hy).1

/-- Unwrapped positions of a closed chain of chosen vertices that goes `W` times around. -/
def Wind (n W : Nat) (u : List Nat) : Prop := ∃ h l, u = h :: l ∧ h < n ∧ Arcs n h l (h + W * n)

theorem Wind.insert {n W : Nat} {pre : List Nat} {x : Nat} {post : List Nat} (hw : Wind n W (pre ++ x :: post)) {k y : Nat}
    (hy : ((post ++ [(pre ++ x :: post).headD 0 + W * n]).headD 0) = y) (h1 : x < k) (h2 : k < y) :
    Wind n W (pre ++ x :: k :: post) := by
  obtain ⟨h, l, he, hh, ha⟩ := hw
  have key : ∀ {x : Nat} {post : List Nat} {e : Nat}, Arcs n x post e → ((post ++ [e]).headD 0) = y → x < k → k < y → Arcs n x (k :: post) e := by
    intro x post e ha hy h1 h2
    cases post with
    | nil =>
      simp at hy; subst hy
      have := ha.1; have := ha.2
      exact ⟨⟨h1, by omega⟩, h2, by omega⟩
    | cons z post =>
      simp at hy; subst hy
      have := ha.1
      exact ⟨⟨h1, by omega⟩, ⟨h2, by omega⟩, ha.2⟩
  have hhd : (pre ++ x :: post).headD 0 = h := by rw [he]; rfl
  rw [hhd] at hy
  cases pre with
  | nil =>
    simp at he
    obtain ⟨rfl, rfl⟩ := he
    exact ⟨x, k :: post, rfl, hh, key ha hy h1 h2⟩
  | cons p pre =>
    simp at he
    obtain ⟨rfl, rfl⟩ := he
    refine ⟨p, pre ++ x :: k :: post, rfl, hh, ?_⟩
    obtain ⟨g1, g2⟩ := arcs_append.1 ha
    exact arcs_append.2 ⟨g1, key g2 hy h1 h2⟩

theorem Wind.arc {n W : Nat} {pre : List Nat} {x : Nat} {post : List Nat} (hw : Wind n W (pre ++ x :: post)) {y : Nat}
    (hy : ((post ++ [(pre ++ x :: post).headD 0 + W * n]).headD 0) = y) : x < y ∧ y ≤ x + n := by
  obtain ⟨h, l, he, hh, ha⟩ := hw
  have hhd : (pre ++ x :: post).headD 0 = h := by rw [he]; rfl
  rw [hhd] at hy
  have key : ∀ {x : Nat} {post : List Nat} {e : Nat}, Arcs n x post e → ((post ++ [e]).headD 0) = y → x < y ∧ y ≤ x + n := by
    intro x post e ha hy
    cases post with
    | nil => simp at hy; subst hy; exact ha
    | cons z post => simp at hy; subst hy; exact ha.1
  cases pre with
  | nil =>
    simp at he
    obtain ⟨rfl, rfl⟩ := he
    exact key ha hy
  | cons p pre =>
    simp at he
    obtain ⟨rfl, rfl⟩ := he
    exact key (arcs_append.1 ha).2 hy

theorem Wind.length {n W : Nat} {u : List Nat} (hw : Wind n W u) : u.length ≤ W * n := by
  obtain ⟨h, l, rfl, _, ha⟩ := hw
  have := ha.length
  simp; omega

/-! ### The two insertion loops -/

/-- The common shape of the two insertion loops: `pick` decides where to split the segment. -/
def insertLoop (pick : U16Vec3 × Nat → U16Vec3 × Nat → Res (Option Nat)) (points : RawContour) :
    Nat → Nat → Chosen → Res Chosen
  | 0, i, s => if i < s.length then .error .diverge else .ok s
  | fuel + 1, i, s =>
    if i < s.length then do
      let a ← idx s i
      let b ← idx s ((i + 1) % s.length)
      let m ← pick a b
      match m with
      | some m => do
        let s ← insertAfter points s i m
        insertLoop pick points fuel i s
      | none => insertLoop pick points fuel (i + 1) s
    else .ok s

/-- How `refine` picks. -/
def refinePick (t : Tests) (points : RawContour) (a b : U16Vec3 × Nat) : Res (Option Nat) := do
  let r ← segmentDeviation t points a b
  .ok (if t.exceeds r.1 then r.2 else none)

theorem refine_eq (t : Tests) (points : RawContour) : ∀ fuel i s,
    refine t points fuel i s = insertLoop (refinePick t points) points fuel i s := by
  intro fuel
  induction fuel with
  | zero => intros; rfl
  | succ fuel ih =>
    intro i s
    rw [refine, insertLoop]
    split
    · cases idx s i with
      | error e => rfl
      | ok a =>
        cases idx s ((i + 1) % s.length) with
        | error e => rfl
        | ok b =>
          simp only [bind_ok, refinePick]
          cases segmentDeviation t points a b with
          | error e => rfl
          | ok r =>
            obtain ⟨d, m⟩ := r
            cases m with
            | none => simp only [bind_ok, ih, ite_self]
            | some m =>
              simp only [bind_ok, ih]
              cases t.exceeds d <;> simp
    · rfl

theorem splitLong_eq (points : RawContour) (maxEdgeLen : Nat) (flags : ContourFlags) : ∀ fuel i s,
    splitLong points maxEdgeLen flags fuel i s = insertLoop (splitPoint points maxEdgeLen flags) points fuel i s := by
  intro fuel
  induction fuel with
  | zero => intros; rfl
  | succ fuel ih =>
    intro i s
    rw [splitLong, insertLoop]
    simp only [ih]
    rfl

theorem insertLoop_spec {bad : Prop} {pick : U16Vec3 × Nat → U16Vec3 × Nat → Res (Option Nat)} {points : RawContour}
    {W : Nat}
    (hpick : ∀ a b, a < b → b ≤ a + points.length → TotalOr bad (pick (chosenAt points a) (chosenAt points b))
      fun o => ∀ m, o = some m → ∃ k, a < k ∧ k < b ∧ m = k % points.length) (h0 : Nat) :
    ∀ (fuel i : Nat) (u : List Nat), Wind points.length W u → u.headD 0 = h0 → i ≤ u.length → 2 * (W * points.length) ≤ fuel + u.length + i →
      (∀ pre x y post, u ++ [h0 + W * points.length] = pre ++ x :: y :: post → pre.length < i →
        pick (chosenAt points x) (chosenAt points y) = .ok none) →
      TotalOr bad (insertLoop pick points fuel i (u.map (chosenAt points))) fun s => ∃ u', s = u'.map (chosenAt points) ∧
        Wind points.length W u' ∧ u'.headD 0 = h0 ∧ u.Sublist u' ∧
        ∀ pre x y post, u' ++ [h0 + W * points.length] = pre ++ x :: y :: post →
          pick (chosenAt points x) (chosenAt points y) = .ok none := by
  intro fuel
  induction fuel with
  | zero =>
    intro i u hw hh hi hf hset
    have := hw.length
    have hi' : i = u.length := by omega
    rw [insertLoop, if_neg (by simp; omega)]
    refine TotalOr.ok ⟨u, rfl, hw, hh, List.Sublist.refl _, ?_⟩
    intro pre x y post he
    refine hset pre x y post he ?_
    have := congrArg List.length he
    simp at this; omega
  | succ fuel ih =>
    intro i u hw hh hi hf hset
    rw [insertLoop]
    by_cases hlt : i < u.length
    · rw [if_pos (by simpa using hlt)]
      obtain ⟨pre, x, post, rfl, rfl⟩ : ∃ pre x post, u = pre ++ x :: post ∧ pre.length = i :=
        ⟨u.take i, u[i], u.drop (i + 1), by simp, by simp; omega⟩
      have hn : 0 < points.length := by obtain ⟨h, l, _, hl, _⟩ := hw; omega
      have ha : idx ((pre ++ x :: post).map (chosenAt points)) pre.length = .ok (chosenAt points x) := by
        apply idx_some; simp
      obtain ⟨y, hy⟩ : ∃ y, ((post ++ [(pre ++ x :: post).headD 0 + W * points.length]).headD 0) = y := ⟨_, rfl⟩
      have harc := hw.arc hy
      have hb : idx ((pre ++ x :: post).map (chosenAt points)) ((pre.length + 1) % ((pre ++ x :: post).map (chosenAt points)).length) =
          .ok (chosenAt points y) := by
        cases post with
        | nil =>
          simp only [List.length_map, List.length_append, List.length_cons, List.length_nil, Nat.zero_add, Nat.mod_self]
          simp only [List.nil_append, List.headD_cons] at hy
          have : chosenAt points y = chosenAt points ((pre ++ [x]).headD 0) := by
            apply chosenAt_congr; rw [← hy]; simp
          rw [this]
          apply idx_some
          cases pre <;> simp
        | cons z post =>
          have : pre.length + 1 < ((pre ++ x :: z :: post).map (chosenAt points)).length := by simp
          rw [Nat.mod_eq_of_lt this]
          simp at hy; subst hy
          apply idx_some
          simp
      rw [ha, bind_ok, hb, bind_ok]
      rcases hpick x y harc.1 harc.2 with ⟨o, ho, hk⟩ | ⟨hbad, he⟩
      · rw [ho, bind_ok]
        cases o with
        | none =>
          simp only
          refine ih (pre.length + 1) _ hw hh (by simp) (by omega) ?_
          intro pre' x' y' post' he hlen
          by_cases h : pre'.length < pre.length
          · exact hset pre' x' y' post' he h
          · have hl : pre'.length = pre.length := by omega
            rw [List.append_assoc] at he
            obtain ⟨e1, e2⟩ := List.append_inj he hl.symm
            have e3 : x = x' ∧ post ++ [h0 + W * points.length] = y' :: post' := by simpa using e2
            obtain ⟨rfl, e3⟩ := e3
            rw [hh, e3] at hy
            simp at hy; subst hy
            exact ho
        | some m =>
          obtain ⟨k, hk1, hk2, rfl⟩ := hk m rfl
          simp only [insertAfter, idx_at hn, bind_ok]
          have e1 : ((pre ++ x :: post).map (chosenAt points)).take (pre.length + 1) ++
              (posAt points k, k % points.length) :: ((pre ++ x :: post).map (chosenAt points)).drop (pre.length + 1) =
              (pre ++ x :: k :: post).map (chosenAt points) := by
            have e0 : (pre ++ x :: post).map (chosenAt points) = (pre ++ [x]).map (chosenAt points) ++ post.map (chosenAt points) := by simp
            rw [e0, List.take_left' (by simp), List.drop_left' (by simp)]
            simp [chosenAt]
          rw [e1]
          have hhead : (pre ++ x :: k :: post).headD 0 = (pre ++ x :: post).headD 0 := by cases pre <;> rfl
          refine TotalOr.mono (ih pre.length _ (hw.insert hy hk1 hk2) (by rw [hhead]; exact hh) (by simp) (by simp at hf ⊢; omega) ?_) ?_
          · intro pre' x' y' post' he hlen
            -- the first `pre.length + 1` positions are unchanged
            have hpre : ∃ pre2, pre' ++ x' :: y' :: pre2 = pre ++ [x] ∧ post' = pre2 ++ k :: (post ++ [h0 + W * points.length]) := by
              have he' : (pre ++ [x]) ++ (k :: (post ++ [h0 + W * points.length])) = (pre' ++ [x', y']) ++ post' := by
                simpa using he
              rcases List.append_eq_append_iff.1 he' with ⟨c, hc1, hc2⟩ | ⟨c, hc1, hc2⟩
              · have hl := congrArg List.length hc1
                simp at hl
                have : c = [] := List.length_eq_zero_iff.1 (by omega)
                subst this
                refine ⟨[], by simpa using hc1, by simpa using hc2.symm⟩
              · exact ⟨c, by simpa using hc1.symm, hc2⟩
            obtain ⟨pre2, e2, e3⟩ := hpre
            refine hset pre' x' y' (pre2 ++ (post ++ [h0 + W * points.length])) ?_ hlen
            have : (pre ++ x :: post) ++ [h0 + W * points.length] = (pre ++ [x]) ++ (post ++ [h0 + W * points.length]) := by simp
            rw [this, ← e2]; simp
          · rintro s ⟨u', h1, h2, h3, h4, h5⟩
            refine ⟨u', h1, h2, h3, List.Sublist.trans ?_ h4, h5⟩
            exact List.Sublist.append (List.Sublist.refl _) (List.Sublist.cons_cons _ (List.sublist_cons_self _ _))
      · rw [he]; exact Or.inr ⟨hbad, rfl⟩
    · rw [if_neg (by simpa using hlt)]
      refine TotalOr.ok ⟨u, rfl, hw, hh, List.Sublist.refl _, ?_⟩
      intro pre x y post he
      refine hset pre x y post he ?_
      have := congrArg List.length he
      simp at this; omega

end Rerecast
