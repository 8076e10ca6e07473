import Verif.Lemmas.Cycle
import Verif.Lemmas.Outs
import Mathlib.Tactic.Linarith
import Mathlib.Tactic.Ring
/-! Ear cutting: outcome of the predicates and of the loop. -/
set_option linter.unusedVariables false
namespace Rerecast

/-- Coordinates small enough for `i32` arithmetic. -/
def U16Vec3.Small (v : U16Vec3) : Prop := v.x ≤ 32767 ∧ v.z ≤ 32767

variable {A : Fault → Prop}

theorem mul_bound {a b : Int} (ha : -32767 ≤ a ∧ a ≤ 32767) (hb : -32767 ≤ b ∧ b ≤ 32767) :
    -1073676289 ≤ a * b ∧ a * b ≤ 1073676289 := by
  constructor <;> nlinarith [ha.1, ha.2, hb.1, hb.2]

theorem i32_ok {v : Int} (h : -2147483648 ≤ v ∧ v ≤ 2147483647) : i32 v = .ok v := if_pos h

theorem i32_out {v : Int} (h : A .panic) : Outs A (i32 v) fun w => w = v := by
  unfold i32
  split
  · exact Outs.ok rfl
  · exact Outs.error h

/-- `area2` is the cross product. -/
theorem area2_out {a b c : U16Vec3} (h : (a.Small ∧ b.Small ∧ c.Small) ∨ A .panic) : Outs A (area2 a b c) fun v => v = cross a b c := by
  unfold area2 cross
  rcases h with ⟨⟨a1, a2⟩, ⟨b1, b2⟩, ⟨c1, c2⟩⟩ | h
  · have h1 := mul_bound (a := (b.x : Int) - a.x) (b := (c.z : Int) - a.z) (by omega) (by omega)
    have h2 := mul_bound (a := (c.x : Int) - a.x) (b := (b.z : Int) - a.z) (by omega) (by omega)
    rw [i32_ok (by omega), bind_ok, i32_ok (by omega), bind_ok, i32_ok (by omega)]
    exact Outs.ok rfl
  · refine (i32_out h).bind fun p hp => (i32_out h).bind fun q hq => (i32_out h).mono fun v hv => ?_
    rw [hv, hp, hq]

theorem leftOn_out {a b c : U16Vec3} (h : (a.Small ∧ b.Small ∧ c.Small) ∨ A .panic) :
    Outs A (leftOn a b c) fun v => v = decide (cross a b c ≤ 0) := by
  unfold leftOn
  exact (area2_out h).bind fun v hv => Outs.ok (by rw [hv])
theorem left_out {a b c : U16Vec3} (h : (a.Small ∧ b.Small ∧ c.Small) ∨ A .panic) :
    Outs A (left a b c) fun v => v = decide (cross a b c < 0) := by
  unfold left
  exact (area2_out h).bind fun v hv => Outs.ok (by rw [hv])
theorem collinear_out {a b c : U16Vec3} (h : (a.Small ∧ b.Small ∧ c.Small) ∨ A .panic) :
    Outs A (collinear a b c) fun v => v = decide (cross a b c = 0) := by
  unfold collinear
  exact (area2_out h).bind fun v hv => Outs.ok (by rw [hv])
theorem uleft_out {a b c : U16Vec3} (h : (a.Small ∧ b.Small ∧ c.Small) ∨ A .panic) :
    Outs A (uleft a b c) fun v => v = decide (cross a b c < 0) := by
  have h' := area2_out (A := A) h
  unfold area2 at h'
  unfold uleft
  have e : (do
      let p ← i32 (((b.x : Int) - a.x) * ((c.z : Int) - a.z))
      let q ← i32 (((c.x : Int) - a.x) * ((b.z : Int) - a.z))
      let v ← i32 (p - q)
      Except.ok (decide (v < 0)) : Res Bool) = (do
        let p ← i32 (((b.x : Int) - a.x) * ((c.z : Int) - a.z))
        let q ← i32 (((c.x : Int) - a.x) * ((b.z : Int) - a.z))
        i32 (p - q)) >>= fun v => Except.ok (decide (v < 0)) := by simp [bind_assoc]
  rw [e]
  exact h'.bind fun v hv => Outs.ok (by rw [hv])

theorem andThen_out {x y : Res Bool} {p q : Bool} (hx : Outs A x fun v => v = p) (hy : Outs A y fun v => v = q) :
    Outs A (andThen x y) fun v => v = (p && q) := by
  unfold andThen
  refine hx.bind fun a ha => ?_
  subst ha
  cases a
  · exact Outs.ok rfl
  · exact hy.mono fun v hv => by simp [hv]
theorem orElse_out {x y : Res Bool} {p q : Bool} (hx : Outs A x fun v => v = p) (hy : Outs A y fun v => v = q) :
    Outs A (orElse x y) fun v => v = (p || q) := by
  unfold orElse
  refine hx.bind fun a ha => ?_
  subst ha
  cases a
  · exact hy.mono fun v hv => by simp [hv]
  · exact Outs.ok rfl

/-- `c` is collinear with `a b` and within their range on the axis used (see `between`). -/
def betweenB (a b c : U16Vec3) : Bool :=
  decide (cross a b c = 0) && (if a.x ≠ b.x then decide ((a.x ≤ c.x ∧ c.x ≤ b.x) ∨ (a.x ≥ c.x ∧ c.x ≥ b.x))
    else decide ((a.z ≤ c.z ∧ c.z ≤ b.z) ∨ (a.z ≥ c.z ∧ c.z ≥ b.z)))

theorem between_out {a b c : U16Vec3} (h : (a.Small ∧ b.Small ∧ c.Small) ∨ A .panic) :
    Outs A (between a b c) fun v => v = betweenB a b c := by
  unfold between
  refine (collinear_out h).bind fun v hv => ?_
  subst hv
  unfold betweenB
  by_cases h1 : cross a b c = 0
  · by_cases h2 : a.x = b.x
    · simp only [h1, decide_true, Bool.not_true, Bool.false_eq_true, if_false, h2, ne_eq, not_true_eq_false, Bool.true_and]
      exact Outs.ok rfl
    · simp only [h1, decide_true, Bool.not_true, Bool.false_eq_true, if_false, h2, ne_eq, not_false_eq_true, if_true, Bool.true_and]
      exact Outs.ok rfl
  · simp only [h1, decide_false, Bool.not_false, if_true, Bool.false_and]
    exact Outs.ok rfl

/-- Truth value of `intersect_prop`. -/
def intersectPropB (a b c d : U16Vec3) : Bool :=
  if (decide (cross a b c = 0) || (decide (cross a b d = 0) || (decide (cross c d a = 0) || decide (cross c d b = 0)))) = true then false
  else (decide (cross a b c < 0) != decide (cross a b d < 0)) && (decide (cross c d a < 0) != decide (cross c d b < 0))

theorem intersectProp_out {a b c d : U16Vec3} (h : (a.Small ∧ b.Small ∧ c.Small ∧ d.Small) ∨ A .panic) :
    Outs A (intersectProp a b c d) fun v => v = intersectPropB a b c d := by
  have h1 : (a.Small ∧ b.Small ∧ c.Small) ∨ A .panic := h.imp_left fun h => ⟨h.1, h.2.1, h.2.2.1⟩
  have h2 : (a.Small ∧ b.Small ∧ d.Small) ∨ A .panic := h.imp_left fun h => ⟨h.1, h.2.1, h.2.2.2⟩
  have h3 : (c.Small ∧ d.Small ∧ a.Small) ∨ A .panic := h.imp_left fun h => ⟨h.2.2.1, h.2.2.2, h.1⟩
  have h4 : (c.Small ∧ d.Small ∧ b.Small) ∨ A .panic := h.imp_left fun h => ⟨h.2.2.1, h.2.2.2, h.2.1⟩
  unfold intersectProp
  refine (orElse_out (collinear_out h1) (orElse_out (collinear_out h2) (orElse_out (collinear_out h3) (collinear_out h4)))).bind fun v hv => ?_
  subst hv
  unfold intersectPropB
  split
  · exact Outs.ok rfl
  · refine andThen_out ?_ ?_
    · exact (left_out h1).bind fun p hp => (left_out h2).bind fun q hq => Outs.ok (by rw [hp, hq])
    · exact (left_out h3).bind fun p hp => (left_out h4).bind fun q hq => Outs.ok (by rw [hp, hq])

/-- Truth value of `intersect`. -/
def intersectB (a b c d : U16Vec3) : Bool :=
  intersectPropB a b c d || (betweenB a b c || (betweenB a b d || (betweenB c d a || betweenB c d b)))

theorem intersect_out {a b c d : U16Vec3} (h : (a.Small ∧ b.Small ∧ c.Small ∧ d.Small) ∨ A .panic) :
    Outs A (intersect a b c d) fun v => v = intersectB a b c d := by
  have h1 : (a.Small ∧ b.Small ∧ c.Small) ∨ A .panic := h.imp_left fun h => ⟨h.1, h.2.1, h.2.2.1⟩
  have h2 : (a.Small ∧ b.Small ∧ d.Small) ∨ A .panic := h.imp_left fun h => ⟨h.1, h.2.1, h.2.2.2⟩
  have h3 : (c.Small ∧ d.Small ∧ a.Small) ∨ A .panic := h.imp_left fun h => ⟨h.2.2.1, h.2.2.2, h.1⟩
  have h4 : (c.Small ∧ d.Small ∧ b.Small) ∨ A .panic := h.imp_left fun h => ⟨h.2.2.1, h.2.2.2, h.2.1⟩
  unfold intersect
  exact orElse_out (intersectProp_out h) (orElse_out (between_out h1) (orElse_out (between_out h2) (orElse_out (between_out h3) (between_out h4))))

/-! ### the ring -/

/-- The ring refers to vertices that exist, all with small coordinates (or overflow is an allowed outcome). -/
structure RingOk (A : Fault → Prop) (verts : List U16Vec3) (ps : Ring) : Prop where
  lt : ∀ p ∈ ps, p.1 < verts.length
  small : (∀ v ∈ verts, v.Small) ∨ A .panic

/-- The vertex at position `i` of the ring. -/
def ringAt (verts : List U16Vec3) (ps : Ring) (i : Nat) : U16Vec3 := verts.getD (ps.getD i (0, false)).1 ⟨0, 0, 0⟩

theorem ringVert_out {verts : List U16Vec3} {ps : Ring} (h : RingOk A verts ps) {i : Nat} (hi : i < ps.length) :
    Outs A (ringVert verts ps i) fun v => v = ringAt verts ps i ∧ (v.Small ∨ A .panic) := by
  unfold ringVert
  rw [idx_ok hi, bind_ok]
  have hl := h.lt _ (List.getElem_mem hi)
  rw [idx_ok hl]
  refine Outs.ok ⟨?_, h.small.imp_left fun hs => hs _ (List.getElem_mem hl)⟩
  unfold ringAt
  simp [List.getD_eq_getElem?_getD, hi, hl]

theorem or_and {p q r : Prop} (h1 : p ∨ r) (h2 : q ∨ r) : (p ∧ q) ∨ r := by tauto

/-- Truth value of `in_cone`. -/
def inConeB (strict : U16Vec3 → U16Vec3 → U16Vec3 → Bool) (verts : List U16Vec3) (ps : Ring) (i j : Nat) : Bool :=
  let pi := ringAt verts ps i
  let pj := ringAt verts ps j
  let pi1 := ringAt verts ps ((i + 1) % ps.length)
  let pin1 := ringAt verts ps ((i + ps.length - 1) % ps.length)
  if decide (cross pin1 pi pi1 ≤ 0) = true then strict pi pj pin1 && strict pj pi pi1
  else !(decide (cross pi pj pi1 ≤ 0) && decide (cross pj pi pin1 ≤ 0))

theorem inCone_out {verts : List U16Vec3} {ps : Ring} (h : RingOk A verts ps) {i j : Nat} (hi : i < ps.length) (hj : j < ps.length)
    {strict : U16Vec3 → U16Vec3 → U16Vec3 → Res Bool} {strictB : U16Vec3 → U16Vec3 → U16Vec3 → Bool}
    (hs : ∀ {a b c : U16Vec3}, (a.Small ∧ b.Small ∧ c.Small) ∨ A .panic → Outs A (strict a b c) fun v => v = strictB a b c) :
    Outs A (inCone strict verts ps i j) fun v => v = inConeB strictB verts ps i j := by
  have hn : 0 < ps.length := by omega
  unfold inCone
  refine (ringVert_out h hi).bind fun pi ⟨h1, s1⟩ => ?_
  refine (ringVert_out h hj).bind fun pj ⟨h2, s2⟩ => ?_
  refine (ringVert_out h (Nat.mod_lt _ hn)).bind fun pi1 ⟨h3, s3⟩ => ?_
  refine (ringVert_out h (Nat.mod_lt _ hn)).bind fun pin1 ⟨h4, s4⟩ => ?_
  refine (leftOn_out (or_and s4 (or_and s1 s3))).bind fun v hv => ?_
  unfold inConeB
  simp only
  rw [← h1, ← h2, ← h3, ← h4, ← hv]
  cases v
  · simp only [Bool.false_eq_true, if_false]
    exact (andThen_out (leftOn_out (or_and s1 (or_and s2 s3))) (leftOn_out (or_and s2 (or_and s1 s4)))).bind fun b hb => Outs.ok (by rw [hb])
  · simp only [if_true]
    exact andThen_out (hs (or_and s1 (or_and s2 s4))) (hs (or_and s2 (or_and s1 s3)))

/-- Truth value of `edgeFree`. -/
def edgeFreeB (hits : U16Vec3 → U16Vec3 → U16Vec3 → U16Vec3 → Bool) (verts : List U16Vec3) (ps : Ring) (i j k : Nat) : Bool :=
  let k1 := (k + 1) % ps.length
  let d0 := ringAt verts ps i
  let d1 := ringAt verts ps j
  let p0 := ringAt verts ps k
  let p1 := ringAt verts ps k1
  decide (k = i ∨ k1 = i ∨ k = j ∨ k1 = j) || (decide (d0.xz = p0.xz ∨ d1.xz = p0.xz ∨ d0.xz = p1.xz ∨ d1.xz = p1.xz) || !hits d0 d1 p0 p1)

theorem edgeFree_out {verts : List U16Vec3} {ps : Ring} (h : RingOk A verts ps) {i j k : Nat} (hi : i < ps.length) (hj : j < ps.length)
    (hk : k < ps.length)
    {hits : U16Vec3 → U16Vec3 → U16Vec3 → U16Vec3 → Res Bool} {hitsB : U16Vec3 → U16Vec3 → U16Vec3 → U16Vec3 → Bool}
    (hs : ∀ {a b c d : U16Vec3}, (a.Small ∧ b.Small ∧ c.Small ∧ d.Small) ∨ A .panic → Outs A (hits a b c d) fun v => v = hitsB a b c d)
    {d0 d1 : U16Vec3} (h0 : d0 = ringAt verts ps i ∧ (d0.Small ∨ A .panic)) (h1 : d1 = ringAt verts ps j ∧ (d1.Small ∨ A .panic)) :
    Outs A (edgeFree hits verts ps i j d0 d1 k) fun v => v = edgeFreeB hitsB verts ps i j k := by
  have hn : 0 < ps.length := by omega
  unfold edgeFree edgeFreeB
  simp only
  rw [← h0.1, ← h1.1]
  split
  · rename_i hc
    refine Outs.ok ?_
    rw [decide_eq_true hc]; rfl
  · rename_i hc
    refine (ringVert_out h hk).bind fun p0 ⟨e0, s0⟩ => ?_
    refine (ringVert_out h (Nat.mod_lt _ hn)).bind fun p1 ⟨e1, s1⟩ => ?_
    rw [← e0, ← e1, decide_eq_false hc]
    split
    · rename_i hc
      refine Outs.ok ?_
      rw [decide_eq_true hc]; rfl
    · rename_i hc
      rw [decide_eq_false hc]
      exact (hs (or_and h0.2 (or_and h1.2 (or_and s0 s1)))).bind fun b hb => Outs.ok (by rw [hb]; simp)

/-- Truth value of `diagonalFree`. -/
def diagonalFreeB (hits : U16Vec3 → U16Vec3 → U16Vec3 → U16Vec3 → Bool) (verts : List U16Vec3) (ps : Ring) (i j : Nat) : Bool :=
  (List.range ps.length).all (edgeFreeB hits verts ps i j)

theorem diagonalFree_out {verts : List U16Vec3} {ps : Ring} (h : RingOk A verts ps) {i j : Nat} (hi : i < ps.length) (hj : j < ps.length)
    {hits : U16Vec3 → U16Vec3 → U16Vec3 → U16Vec3 → Res Bool} {hitsB : U16Vec3 → U16Vec3 → U16Vec3 → U16Vec3 → Bool}
    (hs : ∀ {a b c d : U16Vec3}, (a.Small ∧ b.Small ∧ c.Small ∧ d.Small) ∨ A .panic → Outs A (hits a b c d) fun v => v = hitsB a b c d) :
    Outs A (diagonalFree hits verts ps i j) fun v => v = diagonalFreeB hitsB verts ps i j := by
  unfold diagonalFree
  refine (ringVert_out h hi).bind fun d0 h0 => ?_
  refine (ringVert_out h hj).bind fun d1 h1 => ?_
  refine (Outs.foldlM (fun pre free => free = pre.all (edgeFreeB hitsB verts ps i j)) _ true rfl ?_)
  intro pre k post s hl hP
  have hk : k < ps.length := by
    have : k ∈ List.range ps.length := by rw [hl]; simp
    simpa using this
  rw [List.all_append, ← hP]
  cases s
  · simp only [Bool.false_eq_true, if_false]; exact Outs.ok rfl
  · simp only [if_true]
    exact (edgeFree_out h hi hj hk hs h0 h1).mono fun v hv => by simp [hv]

def leftB (a b c : U16Vec3) : Bool := decide (cross a b c < 0)
def leftOnB (a b c : U16Vec3) : Bool := decide (cross a b c ≤ 0)

/-- Truth value of `is_diagonal`. -/
def isDiagonalB (verts : List U16Vec3) (ps : Ring) (i j : Nat) : Bool :=
  inConeB leftB verts ps i j && diagonalFreeB intersectB verts ps i j
def isDiagonalLooseB (verts : List U16Vec3) (ps : Ring) (i j : Nat) : Bool :=
  inConeB leftOnB verts ps i j && diagonalFreeB intersectPropB verts ps i j

theorem isDiagonal_out {verts : List U16Vec3} {ps : Ring} (h : RingOk A verts ps) {i j : Nat} (hi : i < ps.length) (hj : j < ps.length) :
    Outs A (isDiagonal verts ps i j) fun v => v = isDiagonalB verts ps i j :=
  andThen_out (inCone_out h hi hj left_out) (diagonalFree_out h hi hj intersect_out)
theorem isDiagonalLoose_out {verts : List U16Vec3} {ps : Ring} (h : RingOk A verts ps) {i j : Nat} (hi : i < ps.length) (hj : j < ps.length) :
    Outs A (isDiagonalLoose verts ps i j) fun v => v = isDiagonalLooseB verts ps i j :=
  andThen_out (inCone_out h hi hj leftOn_out) (diagonalFree_out h hi hj intersectProp_out)

end Rerecast
