import Verif.Lemmas.Spiral
import Verif.Lemmas.Graph
/-! The flood that fills a height patch. -/
set_option linter.unusedVariables false
namespace Rerecast
variable {A : Fault → Prop}
namespace HeightPatch
open CompactHeightfield

/-! ### The queue -/

theorem retract_ok {queue : List Seed} {head : Nat} (h : head < 256) (hl : head < queue.length) :
    ∃ q' h', retract queue (head + 1) = .ok (q', h') ∧ h' < 256 ∧ q'.drop h' = queue.drop (head + 1) ∧ h' ≤ q'.length := by
  have e : RETRACT_SIZE = 256 := rfl
  unfold retract
  by_cases h1 : head + 1 ≥ RETRACT_SIZE
  · rw [if_pos h1]
    dsimp only
    have e2 : head + 1 = 256 := by omega
    have hs : subU queue.length RETRACT_SIZE = .ok (queue.length - 256) := by unfold subU; rw [if_pos (by omega), e]
    rw [hs, bind_ok]
    refine ⟨_, _, rfl, by omega, ?_, by omega⟩
    rw [List.drop_zero, e2]
    by_cases h2 : queue.length > RETRACT_SIZE
    · rw [if_pos h2, e, List.take_append_of_le_length (by simp), List.take_of_length_le (by simp)]
    · rw [if_neg h2, show queue.length - 256 = 0 by omega, List.take_zero, List.drop_eq_nil_of_le (by omega)]
  · rw [if_neg h1]
    exact ⟨_, _, rfl, by omega, rfl, by omega⟩

/-- Handling one entry: the patch and the new arrivals. -/
def visit (chf : CompactHeightfield) (bs : Nat) (hp : HeightPatch) (e : Seed) : Res (HeightPatch × List Seed) := do
  let s ← idx chf.spans e.2.2
  [0, 1, 2, 3].foldlM (floodDir chf bs e.1 e.2.1 s) (hp, [])

theorem floodDir_append (chf : CompactHeightfield) (bs : Nat) (cx cz : Int) (s : CompactSpan) (hp : HeightPatch) (q q' : List Seed) (d : Nat) :
    floodDir chf bs cx cz s (hp, q ++ q') d = (floodDir chf bs cx cz s (hp, q') d).map fun r => (r.1, q ++ r.2) := by
  unfold floodDir
  cases s.con d with
  | none => rfl
  | some con =>
    dsimp only
    split
    · rfl
    · cases hp.dataAt (cx + dirOffsetX d - hp.xmin - bs) (cz + dirOffsetZ d - hp.zmin - bs) with
      | error e => rfl
      | ok old =>
        simp only [bind_ok]
        split
        · rfl
        · cases idxI chf.cells (cx + dirOffsetX d + (cz + dirOffsetZ d) * chf.width) with
          | error e => rfl
          | ok cell =>
            simp only [bind_ok]
            cases idx chf.spans (cell.index + con) with
            | error e => rfl
            | ok as =>
              simp only [bind_ok]
              cases hp.setDataAt (cx + dirOffsetX d - hp.xmin - bs) (cz + dirOffsetZ d - hp.zmin - bs) as.y with
              | error e => rfl
              | ok hp' => simp only [bind_ok, Except.map, List.append_assoc]

theorem floodDirs_append (chf : CompactHeightfield) (bs : Nat) (cx cz : Int) (s : CompactSpan) (q : List Seed) (ds : List Nat) :
    ∀ (hp : HeightPatch) (q' : List Seed), ds.foldlM (floodDir chf bs cx cz s) (hp, q ++ q') =
      (ds.foldlM (floodDir chf bs cx cz s) (hp, q')).map fun r => (r.1, q ++ r.2) := by
  induction ds with
  | nil => intro hp q'; rfl
  | cons d ds ih =>
    intro hp q'
    rw [List.foldlM_cons, List.foldlM_cons, floodDir_append]
    cases floodDir chf bs cx cz s (hp, q') d with
    | error e => rfl
    | ok r => exact ih r.1 r.2

/-- The compacted queue behaves as a plain one. -/
theorem flood_fifo (chf : CompactHeightfield) (bs : Nat) : ∀ (fuel : Nat) (hp : HeightPatch) (queue : List Seed) (head : Nat),
    head < 256 → head ≤ queue.length → flood chf bs fuel hp queue head = fifo (visit chf bs) fuel hp (queue.drop head) := by
  intro fuel
  induction fuel with
  | zero =>
    intro hp queue head h hl
    unfold flood
    cases hq : queue[head]? with
    | none =>
      rw [List.drop_eq_nil_of_le (List.getElem?_eq_none_iff.1 hq)]
      rfl
    | some e =>
      obtain ⟨hlt, rfl⟩ := List.getElem?_eq_some_iff.1 hq
      rw [List.drop_eq_getElem_cons hlt]
      rfl
  | succ fuel ih =>
    intro hp queue head h hl
    unfold flood
    cases hq : queue[head]? with
    | none =>
      rw [List.drop_eq_nil_of_le (List.getElem?_eq_none_iff.1 hq)]
      rfl
    | some e =>
      obtain ⟨hlt, he⟩ := List.getElem?_eq_some_iff.1 hq
      rw [List.drop_eq_getElem_cons hlt, he]
      obtain ⟨cx, cz, ci⟩ := e
      obtain ⟨q', h', hr, hh', hd, hl'⟩ := retract_ok h hlt
      show (do
        let (queue, head) ← retract queue (head + 1)
        let s ← idx chf.spans ci
        let (hp, queue) ← [0, 1, 2, 3].foldlM (floodDir chf bs cx cz s) (hp, queue)
        flood chf bs fuel hp queue head) = (do
          let (st, new) ← visit chf bs hp (cx, cz, ci)
          fifo (visit chf bs) fuel st (queue.drop (head + 1) ++ new))
      rw [hr, bind_ok]
      unfold visit
      dsimp only
      cases idx chf.spans ci with
      | error e => rfl
      | ok s =>
        simp only [bind_ok]
        have := floodDirs_append chf bs cx cz s q' [0, 1, 2, 3] hp []
        rw [List.append_nil] at this
        rw [this]
        cases [0, 1, 2, 3].foldlM (floodDir chf bs cx cz s) (hp, []) with
        | error e => rfl
        | ok r =>
          show flood chf bs fuel r.1 (q' ++ r.2) h' = fifo (visit chf bs) fuel r.1 (queue.drop (head + 1) ++ r.2)
          rw [ih r.1 (q' ++ r.2) h' hh' (by simp; omega), List.drop_append_of_le_length hl', hd]

/-! ### The data -/

/-- The patches differ in their data at most. -/
structure Alike (hp hp' : HeightPatch) : Prop where
  xmin : hp'.xmin = hp.xmin
  zmin : hp'.zmin = hp.zmin
  width : hp'.width = hp.width
  height : hp'.height = hp.height
  len : hp'.data.length = hp.data.length

theorem Alike.refl (hp : HeightPatch) : Alike hp hp := ⟨rfl, rfl, rfl, rfl, rfl⟩
theorem Alike.trans {a b c : HeightPatch} (h : Alike a b) (h' : Alike b c) : Alike a c :=
  ⟨h'.xmin.trans h.xmin, h'.zmin.trans h.zmin, h'.width.trans h.width, h'.height.trans h.height, h'.len.trans h.len⟩

theorem Alike.inPatch {a b : HeightPatch} (h : Alike a b) {bs x z : Nat} : b.InPatch bs x z ↔ a.InPatch bs x z := by
  unfold InPatch; rw [h.xmin, h.zmin, h.width, h.height]

/-- Position in the data of the cell `(x, z)` of the patch. -/
theorem dataAt_eq {hp : HeightPatch} (hlen : hp.dataLen ≤ hp.data.length) {x z : Nat} (hx : x < hp.width) (hz : z < hp.height) :
    x + z * hp.width < hp.dataLen ∧ hp.dataAt x z = idx hp.data (x + z * hp.width) := by
  have h1 : x + z * hp.width < hp.width * hp.height := col_lt hx hz
  refine ⟨h1, ?_⟩
  unfold dataAt idxI
  rw [if_neg (by have : (0 : Int) ≤ (z : Int) * hp.width := mul_nonneg (by omega) (by omega); omega)]
  congr 1

theorem setDataAt_eq {hp : HeightPatch} (hlen : hp.dataLen ≤ hp.data.length) {x z v : Nat} (hx : x < hp.width) (hz : z < hp.height) :
    hp.setDataAt x z v = .ok { hp with data := hp.data.set (x + z * hp.width) v } := by
  have h1 : x + z * hp.width < hp.width * hp.height := col_lt hx hz
  have h2 : hp.dataLen = hp.width * hp.height := rfl
  unfold setDataAt setIdxI
  rw [if_neg (by have : (0 : Int) ≤ (z : Int) * hp.width := mul_nonneg (by omega) (by omega); omega)]
  rw [show ((x : Int) + (z : Int) * hp.width).toNat = x + z * hp.width by omega, setIdx_ok (by omega), bind_ok]

theorem has_nat {hp : HeightPatch} {x z h : Nat} : hp.Has x z h ↔ x < hp.width ∧ z < hp.height ∧ h ≠ 0xFFFF ∧ hp.data[x + z * hp.width]? = some h := by
  unfold Has
  rw [show ((x : Int) + (z : Int) * hp.width).toNat = x + z * hp.width by omega]
  constructor
  · rintro ⟨a, b, c, d, e, f⟩; exact ⟨by omega, by omega, e, f⟩
  · rintro ⟨a, b, c, d⟩; exact ⟨by omega, by omega, by omega, by omega, c, d⟩

theorem has_set {hp : HeightPatch} (hlen : hp.dataLen ≤ hp.data.length) {x z v : Nat} (hx : x < hp.width) (hz : z < hp.height) (hv : v ≠ 0xFFFF)
    {x' z' h : Nat} : ({ hp with data := hp.data.set (x + z * hp.width) v } : HeightPatch).Has x' z' h ↔
      (x' = x ∧ z' = z ∧ h = v) ∨ (¬ (x' = x ∧ z' = z) ∧ hp.Has x' z' h) := by
  have h1 : x + z * hp.width < hp.width * hp.height := col_lt hx hz
  have h2 : hp.dataLen = hp.width * hp.height := rfl
  rw [has_nat, has_nat]
  dsimp only
  rw [List.getElem?_set]
  by_cases he : x' = x ∧ z' = z
  · obtain ⟨rfl, rfl⟩ := he
    rw [if_pos rfl, if_pos (by omega)]
    constructor
    · rintro ⟨_, _, _, d⟩; exact Or.inl ⟨rfl, rfl, (Option.some.inj d).symm⟩
    · rintro (⟨_, _, rfl⟩ | ⟨h, _⟩)
      · exact ⟨hx, hz, hv, rfl⟩
      · exact absurd ⟨rfl, rfl⟩ h
  · constructor
    · rintro ⟨a, b, c, d⟩
      rw [if_neg (fun e => he (by obtain ⟨e1, e2⟩ := col_inj hx a e; exact ⟨e1.symm, e2.symm⟩))] at d
      exact Or.inr ⟨he, a, b, c, d⟩
    · rintro (⟨e1, e2, _⟩ | ⟨_, a, b, c, d⟩)
      · exact absurd ⟨e1, e2⟩ he
      · refine ⟨a, b, c, ?_⟩
        rw [if_neg (fun e => he (by obtain ⟨e1, e2⟩ := col_inj hx a e; exact ⟨e1.symm, e2.symm⟩))]
        exact d

/-- Number of cells without a height. -/
def unset (hp : HeightPatch) : Nat := (hp.data.take hp.dataLen).countP (· == UNSET_HEIGHT)

theorem unset_le (hp : HeightPatch) : hp.unset ≤ hp.dataLen := by
  unfold unset
  exact List.countP_le_length.trans (by simp)

theorem unset_set {hp : HeightPatch} (hlen : hp.dataLen ≤ hp.data.length) {k v : Nat} (hk : k < hp.dataLen) (hold : hp.data[k]? = some UNSET_HEIGHT)
    (hv : v ≠ 0xFFFF) : ({ hp with data := hp.data.set k v } : HeightPatch).unset + 1 = hp.unset := by
  unfold unset
  show ((hp.data.set k v).take hp.dataLen).countP _ + 1 = _
  rw [List.take_set, List.countP_set (by simp; omega)]
  have hk2 : k < hp.data.length := by omega
  have e : (hp.data.take hp.dataLen)[k]'(by simp; omega) = UNSET_HEIGHT := by
    rw [List.getElem_take]
    rw [List.getElem?_eq_getElem hk2] at hold
    exact Option.some.inj hold
  rw [e]
  have hpos : 0 < (hp.data.take hp.dataLen).countP (· == UNSET_HEIGHT) := by
    rw [List.countP_pos_iff]
    exact ⟨UNSET_HEIGHT, by rw [← e]; exact List.getElem_mem _, by simp⟩
  have : (v == UNSET_HEIGHT) = false := by
    rw [beq_eq_false_iff_ne]; exact hv
  simp only [this, beq_self_eq_true, if_true]
  simp
  omega

/-! ### The flood -/

/-- The queue entry of a span. -/
def seedOf (chf : CompactHeightfield) (i : Nat) : Seed := ((chf.xOf i : Int), (chf.zOf i : Int), i)

section
variable (chf : CompactHeightfield) (bs : Nat) (root : Nat → Prop)

/-- The invariant of the flood: `C` is the set of the spans whose heights are in the patch. -/
structure FloodInv (C : Nat → Prop) (hp : HeightPatch) : Prop where
  lt : ∀ i, C i → i < chf.spans.length
  inside : ∀ i, C i → hp.InPatch bs (chf.xOf i) (chf.zOf i)
  one : ∀ i j, C i → C j → chf.xOf i = chf.xOf j → chf.zOf i = chf.zOf j → i = j
  has : ∀ x z h : Nat, hp.Has x z h ↔ ∃ i s, C i ∧ chf.spans[i]? = some s ∧ chf.xOf i = x + hp.xmin + bs ∧ chf.zOf i = z + hp.zmin + bs ∧ s.y = h
  reached : ∀ k, C k → ∃ j, root j ∧ Relation.ReflTransGen (fun i k => C i ∧ C k ∧ ∃ d < 4, chf.Link i d k) j k

/-- All connections of span `i` in the directions `ds` that stay in the patch lead to cells with a span in `C`. -/
def ClosedAt (C : Nat → Prop) (hp : HeightPatch) (ds : List Nat) (i : Nat) : Prop :=
  ∀ d ∈ ds, ∀ k, chf.nbr i d = some k → hp.InPatch bs (chf.xOf k) (chf.zOf k) → ∃ j, C j ∧ chf.xOf j = chf.xOf k ∧ chf.zOf j = chf.zOf k

end

variable {chf : CompactHeightfield} {bs : Nat} {root : Nat → Prop}

/-- What `con` says in a well-formed field. -/
theorem step_of_con (hwf : chf.WellFormed) {i d con : Nat} {s : CompactSpan} (hs : chf.spans[i]? = some s) (hd : d < 4) (hc : s.con d = some con) :
    ∃ nb k t, chf.nbr i d = some k ∧ k = nb.index + con ∧ chf.cells[chf.xOf k + chf.zOf k * chf.width]? = some nb ∧ chf.spans[k]? = some t ∧
      (chf.xOf k : Int) = chf.xOf i + dirOffsetX d ∧ (chf.zOf k : Int) = chf.zOf i + dirOffsetZ d := by
  obtain ⟨k, h1, h2, h3, h4⟩ := nbr_of_con hwf hs hd hc
  have hat := at_spec hwf hs
  obtain ⟨x, z, s', l, nx, nz, nb, hat', hc', hn, hnb, hk⟩ := (nbr_iff_link hwf hd).1 h1
  obtain ⟨rfl, rfl⟩ := at_unique hwf hat'
  have : s' = s := by have := hat'.2.2.1; rw [hs] at this; exact (Option.some.inj this).symm
  subst this
  rw [hc] at hc'
  cases hc'
  rw [h3] at hn
  cases hn
  refine ⟨nb, k, chf.spans[k], h1, hk, hnb, List.getElem?_eq_getElem h2, ?_⟩
  obtain ⟨hx, hz, _⟩ := hat
  have h4' : d = 0 ∨ d = 1 ∨ d = 2 ∨ d = 3 := by omega
  rcases h4' with rfl | rfl | rfl | rfl <;> simp only [neighbourCell] at h3 <;> split at h3 <;>
    simp only [Option.some.injEq, Prod.mk.injEq, reduceCtorEq] at h3 <;> simp only [dirOffsetX, dirOffsetZ] <;> omega

theorem asU16_ge {v : Int} {w : Nat} (h0 : -1 ≤ v) (h1 : v ≤ 65535) (hw : w ≤ 65535) : asU16 v ≥ w ↔ v < 0 ∨ w ≤ v := by
  unfold asU16; omega

theorem FloodInv.add {C : Nat → Prop} {hp : HeightPatch} (hwf : chf.WellFormed) (h : FloodInv chf bs root C hp) (hlen : hp.dataLen ≤ hp.data.length)
    {k : Nat} {t : CompactSpan} {x z : Nat} (hreach : root k ∨ ∃ i d, C i ∧ d < 4 ∧ chf.nbr i d = some k) (ht : chf.spans[k]? = some t)
    (hx : chf.xOf k = x + hp.xmin + bs) (hz : chf.zOf k = z + hp.zmin + bs) (hxw : x < hp.width) (hzh : z < hp.height)
    (hold : hp.data[x + z * hp.width]? = some UNSET_HEIGHT) (hy : t.y ≠ 0xFFFF) :
    FloodInv chf bs root (fun j => C j ∨ j = k) { hp with data := hp.data.set (x + z * hp.width) t.y } := by
  have hno : ∀ j, C j → ¬ (chf.xOf j = chf.xOf k ∧ chf.zOf j = chf.zOf k) := by
    rintro j hj ⟨e1, e2⟩
    have hjl := h.lt j hj
    have hh := (h.has x z _).2 ⟨j, _, hj, List.getElem?_eq_getElem hjl, by omega, by omega, rfl⟩
    rw [has_nat] at hh
    rw [hold] at hh
    exact hh.2.2.1 (Option.some.inj hh.2.2.2).symm
  have hkl := (List.getElem?_eq_some_iff.1 ht).1
  refine ⟨?_, ?_, ?_, ?_, ?_⟩
  · rintro j (hj | rfl)
    · exact h.lt j hj
    · exact hkl
  · rintro j (hj | rfl)
    · exact h.inside j hj
    · show _ ∧ _
      dsimp only
      unfold InPatch at *
      omega
  · rintro j j' (hj | rfl) (hj' | rfl) e1 e2
    · exact h.one j j' hj hj' e1 e2
    · exact absurd ⟨e1, e2⟩ (hno j hj)
    · exact absurd ⟨e1.symm, e2.symm⟩ (hno j' hj')
    · rfl
  · intro x' z' v
    rw [has_set hlen hxw hzh hy, h.has]
    dsimp only
    constructor
    · rintro (⟨rfl, rfl, rfl⟩ | ⟨hne, j, s, hj, hs, e1, e2, rfl⟩)
      · exact ⟨k, t, Or.inr rfl, ht, hx, hz, rfl⟩
      · exact ⟨j, s, Or.inl hj, hs, e1, e2, rfl⟩
    · rintro ⟨j, s, hj | rfl, hs, e1, e2, rfl⟩
      · refine Or.inr ⟨?_, j, s, hj, hs, e1, e2, rfl⟩
        rintro ⟨rfl, rfl⟩
        exact hno j hj ⟨by omega, by omega⟩
      · rw [ht] at hs
        cases hs
        exact Or.inl ⟨by omega, by omega, rfl⟩
  · have hmono : ∀ a b, Relation.ReflTransGen (fun i k => C i ∧ C k ∧ ∃ d < 4, chf.Link i d k) a b →
        Relation.ReflTransGen (fun i k' => (C i ∨ i = k) ∧ (C k' ∨ k' = k) ∧ ∃ d < 4, chf.Link i d k') a b := by
      intro a b hab
      induction hab with
      | refl => exact Relation.ReflTransGen.refl
      | tail _ hst ih => exact ih.tail ⟨Or.inl hst.1, Or.inl hst.2.1, hst.2.2⟩
    rintro j (hj | rfl)
    · obtain ⟨r, hr, hc⟩ := h.reached j hj
      exact ⟨r, hr, hmono _ _ hc⟩
    · rcases hreach with hr | ⟨i, d, hi, hd, hnb⟩
      · exact ⟨_, hr, Relation.ReflTransGen.refl⟩
      obtain ⟨r, hr, hc⟩ := h.reached i hi
      exact ⟨r, hr, (hmono _ _ hc).tail ⟨Or.inl hi, Or.inr rfl, d, hd, (nbr_iff_link hwf hd).1 hnb⟩⟩

theorem FloodInv.unset_iff {C : Nat → Prop} {hp : HeightPatch} (hwf : chf.WellFormed) (h : FloodInv chf bs root C hp) (hlen : hp.dataLen ≤ hp.data.length)
    {x z old : Nat} (hx : x < hp.width) (hz : z < hp.height) (hold : hp.data[x + z * hp.width]? = some old) (hne : old ≠ UNSET_HEIGHT) :
    ∃ j, C j ∧ chf.xOf j = x + hp.xmin + bs ∧ chf.zOf j = z + hp.zmin + bs := by
  have := (h.has x z old).1 (has_nat.2 ⟨hx, hz, hne, hold⟩)
  obtain ⟨j, s, h1, h2, h3, h4, _⟩ := this
  exact ⟨j, h1, h3, h4⟩

/-- The state while an entry is handled. -/
def VisitInv (chf : CompactHeightfield) (bs : Nat) (root : Nat → Prop) (hp0 : HeightPatch) (C0 : Nat → Prop) (i : Nat) (ds : List Nat)
    (st : HeightPatch × List Seed) : Prop :=
  ∃ (C : Nat → Prop) (new : List Nat), FloodInv chf bs root C st.1 ∧ Alike hp0 st.1 ∧ (∀ j, C0 j → C j) ∧ st.2 = new.map (seedOf chf) ∧ (∀ j ∈ new, C j) ∧
    (∀ j, C j → C0 j ∨ j ∈ new) ∧ ClosedAt chf bs C hp0 ds i ∧ st.1.unset + new.length = hp0.unset

theorem floodDir_out (hwf : chf.WellFormed) (hy : ∀ s ∈ chf.spans, s.y ≠ 0xFFFF) {hp0 : HeightPatch} (hw : hp0.width ≤ 65535) (hh : hp0.height ≤ 65535)
    (hlen : hp0.dataLen ≤ hp0.data.length) {C0 : Nat → Prop} {i : Nat} {s : CompactSpan} (hs : chf.spans[i]? = some s) (hi : C0 i)
    (hin : hp0.InPatch bs (chf.xOf i) (chf.zOf i)) {d : Nat} (hd : d < 4) {pre : List Nat} {st : HeightPatch × List Seed}
    (h : VisitInv chf bs root hp0 C0 i pre st) :
    Outs A (floodDir chf bs (chf.xOf i) (chf.zOf i) s st d) (VisitInv chf bs root hp0 C0 i (pre ++ [d])) := by
  obtain ⟨C, new, hinv, hal, hsub, hq, hnew, hC, hcl, hm⟩ := h
  obtain ⟨hp, q⟩ := st
  dsimp only at hinv hal hq hm
  have hlen' : hp.dataLen ≤ hp.data.length := by
    rw [hal.len]; unfold dataLen; rw [hal.width, hal.height]; exact hlen
  -- nothing to do
  have hsame : (∀ k, chf.nbr i d = some k → hp0.InPatch bs (chf.xOf k) (chf.zOf k) → ∃ j, C j ∧ chf.xOf j = chf.xOf k ∧ chf.zOf j = chf.zOf k) →
      VisitInv chf bs root hp0 C0 i (pre ++ [d]) (hp, q) := by
    intro hdone
    refine ⟨C, new, hinv, hal, hsub, hq, hnew, hC, ?_, hm⟩
    intro d' hd' k hk hk'
    rcases List.mem_append.1 hd' with h1 | h1
    · exact hcl d' h1 k hk hk'
    · rw [List.mem_singleton] at h1
      subst h1
      exact hdone k hk hk'
  unfold floodDir
  cases hc : s.con d with
  | none =>
    refine Outs.ok (hsame ?_)
    intro k hk
    obtain ⟨s', con, hs', hc', _⟩ := nbr_con hwf hk hd
    rw [hs] at hs'
    cases hs'
    rw [hc] at hc'
    cases hc'
  | some con =>
    obtain ⟨nb, k, t, hnbr, hk, hcell, ht, hx, hz⟩ := step_of_con hwf hs hd hc
    dsimp only
    rw [← hx, ← hz]
    have hdx : dirOffsetX d = -1 ∨ dirOffsetX d = 0 ∨ dirOffsetX d = 1 := by unfold dirOffsetX; split <;> simp
    have hdz : dirOffsetZ d = -1 ∨ dirOffsetZ d = 0 ∨ dirOffsetZ d = 1 := by unfold dirOffsetZ; split <;> simp
    have hin2 := hal.inPatch.2 hin
    unfold InPatch at hin2
    rw [← hal.width] at hw
    rw [← hal.height] at hh
    by_cases hp1 : hp.InPatch bs (chf.xOf k) (chf.zOf k)
    · obtain ⟨x, hxe⟩ : ∃ x, chf.xOf k = x + hp.xmin + bs := ⟨chf.xOf k - hp.xmin - bs, by unfold InPatch at hp1; omega⟩
      obtain ⟨z, hze⟩ : ∃ z, chf.zOf k = z + hp.zmin + bs := ⟨chf.zOf k - hp.zmin - bs, by unfold InPatch at hp1; omega⟩
      have hxw : x < hp.width := by unfold InPatch at hp1; omega
      have hzh : z < hp.height := by unfold InPatch at hp1; omega
      rw [show (chf.xOf k : Int) - hp.xmin - bs = (x : Int) by omega, show (chf.zOf k : Int) - hp.zmin - bs = (z : Int) by omega]
      rw [if_neg (by
        rw [Bool.or_eq_true, decide_eq_true_eq, decide_eq_true_eq, asU16_ge (by omega) (by omega) hw, asU16_ge (by omega) (by omega) hh]
        omega)]
      obtain ⟨hlt, hda⟩ := dataAt_eq hlen' hxw hzh
      have hlt2 : x + z * hp.width < hp.data.length := by omega
      rw [hda, idx_ok hlt2, bind_ok]
      have hold := List.getElem?_eq_getElem hlt2
      generalize hp.data[x + z * hp.width] = old at hold ⊢
      split
      · rename_i hne
        refine Outs.ok (hsame ?_)
        intro k' hk' _
        rw [hnbr] at hk'
        cases hk'
        obtain ⟨j, hj, e1, e2⟩ := hinv.unset_iff hwf hlen' hxw hzh hold hne
        exact ⟨j, hj, by omega, by omega⟩
      · rename_i hne
        rw [not_not] at hne
        subst hne
        have hidx : idxI chf.cells ((chf.xOf k : Int) + (chf.zOf k : Int) * chf.width) = .ok nb := by
          unfold idxI
          rw [if_neg (by have : (0 : Int) ≤ (chf.zOf k : Int) * chf.width := mul_nonneg (by omega) (by omega); omega)]
          rw [show ((chf.xOf k : Int) + (chf.zOf k : Int) * chf.width).toNat = chf.xOf k + chf.zOf k * chf.width by omega]
          exact idx_some hcell
        have hty : t.y ≠ 0xFFFF := hy t (List.mem_of_getElem? ht)
        rw [hidx, bind_ok, ← hk, idx_some ht, bind_ok, setDataAt_eq hlen' hxw hzh, bind_ok]
        refine Outs.ok ⟨fun j => C j ∨ j = k, new ++ [k], hinv.add hwf hlen' (Or.inr ⟨i, d, hsub i hi, hd, hnbr⟩) ht hxe hze hxw hzh hold hty, ?_, ?_, ?_, ?_, ?_, ?_, ?_⟩
        · exact hal.trans ⟨rfl, rfl, rfl, rfl, by simp⟩
        · exact fun j hj => Or.inl (hsub j hj)
        · show q ++ _ = _
          rw [hq, List.map_append]
          rfl
        · intro j hj
          rcases List.mem_append.1 hj with h1 | h1
          · exact Or.inl (hnew j h1)
          · exact Or.inr (List.mem_singleton.1 h1)
        · rintro j (hj | rfl)
          · rcases hC j hj with h1 | h1
            · exact Or.inl h1
            · exact Or.inr (List.mem_append_left _ h1)
          · exact Or.inr (by simp)
        · intro d' hd' k' hk' hk''
          rcases List.mem_append.1 hd' with h1 | h1
          · obtain ⟨j, hj, e⟩ := hcl d' h1 k' hk' hk''
            exact ⟨j, Or.inl hj, e⟩
          · rw [List.mem_singleton] at h1
            subst h1
            rw [hnbr] at hk'
            cases hk'
            exact ⟨k, Or.inr rfl, rfl, rfl⟩
        · dsimp only
          have := unset_set hlen' hlt hold hty
          rw [List.length_append, List.length_singleton]
          omega
    · rw [if_pos (by
        unfold InPatch at hp1
        rw [Bool.or_eq_true, decide_eq_true_eq, decide_eq_true_eq, asU16_ge (by omega) (by omega) hw, asU16_ge (by omega) (by omega) hh]
        omega)]
      refine Outs.ok (hsame ?_)
      intro k' hk' hk''
      rw [hnbr] at hk'
      cases hk'
      exact absurd (hal.inPatch.2 hk'') hp1

theorem visit_out (hwf : chf.WellFormed) (hy : ∀ s ∈ chf.spans, s.y ≠ 0xFFFF) {hp0 : HeightPatch} (hw : hp0.width ≤ 65535) (hh : hp0.height ≤ 65535)
    (hlen : hp0.dataLen ≤ hp0.data.length) {C0 : Nat → Prop} (hinv : FloodInv chf bs root C0 hp0) {i : Nat} (hi : C0 i) :
    Outs A (visit chf bs hp0 (seedOf chf i)) (VisitInv chf bs root hp0 C0 i [0, 1, 2, 3]) := by
  unfold visit
  have hlt := hinv.lt i hi
  show Outs A (do let s ← idx chf.spans i; _) _
  rw [idx_ok hlt, bind_ok]
  refine Outs.foldlM (fun pre st => VisitInv chf bs root hp0 C0 i pre st) _ _ ?_ ?_
  · exact ⟨C0, [], hinv, Alike.refl _, fun _ h => h, rfl, by simp, fun j hj => Or.inl hj, fun d hd => by simp at hd, rfl⟩
  · intro pre d post st hl hst
    have hd : d < 4 := by
      have : d ∈ [0, 1, 2, 3] := by rw [hl]; simp
      simp at this
      omega
    exact floodDir_out hwf hy hw hh hlen (List.getElem?_eq_getElem hlt) hi (hinv.inside i hi) hd hst

theorem fifo_out (hwf : chf.WellFormed) (hy : ∀ s ∈ chf.spans, s.y ≠ 0xFFFF) : ∀ (fuel : Nat) (hp : HeightPatch) (is : List Nat) (C : Nat → Prop),
    hp.width ≤ 65535 → hp.height ≤ 65535 → hp.dataLen ≤ hp.data.length → FloodInv chf bs root C hp → (∀ i ∈ is, C i) →
    (∀ i, C i → i ∈ is ∨ ClosedAt chf bs C hp [0, 1, 2, 3] i) → is.length + hp.unset ≤ fuel →
    Outs A (fifo (visit chf bs) fuel hp (is.map (seedOf chf))) fun hp' => Alike hp hp' ∧ ∃ C', FloodInv chf bs root C' hp' ∧ (∀ i, C i → C' i) ∧
      ∀ i, C' i → ClosedAt chf bs C' hp [0, 1, 2, 3] i := by
  intro fuel
  induction fuel with
  | zero =>
    intro hp is C hw hh hlen hinv his hcl hf
    have : is = [] := List.length_eq_zero_iff.1 (by omega)
    subst this
    exact Outs.ok ⟨Alike.refl _, C, hinv, fun _ h => h, fun i hi => (hcl i hi).resolve_left (by simp)⟩
  | succ fuel ih =>
    intro hp is C hw hh hlen hinv his hcl hf
    cases is with
    | nil => exact Outs.ok ⟨Alike.refl _, C, hinv, fun _ h => h, fun i hi => (hcl i hi).resolve_left (by simp)⟩
    | cons i is =>
      show Outs A (do
        let (st, new) ← visit chf bs hp (seedOf chf i)
        fifo (visit chf bs) fuel st (is.map (seedOf chf) ++ new)) _
      refine (visit_out hwf hy hw hh hlen hinv (his i (by simp))).bind ?_
      rintro ⟨hp', q⟩ ⟨C', new, hinv', hal, hsub, hq, hnew, hC', hcl', hm⟩
      dsimp only at hinv' hal hq hm ⊢
      rw [hq, ← List.map_append]
      have hmono : ∀ j, ClosedAt chf bs C hp [0, 1, 2, 3] j → ClosedAt chf bs C' hp [0, 1, 2, 3] j := by
        intro j hj d hd k hk hk'
        obtain ⟨j', h1, h2⟩ := hj d hd k hk hk'
        exact ⟨j', hsub _ h1, h2⟩
      refine (ih hp' (is ++ new) C' (by rw [hal.width]; exact hw) (by rw [hal.height]; exact hh) ?_ hinv' ?_ ?_ ?_).mono ?_
      · rw [hal.len]; unfold dataLen; rw [hal.width, hal.height]; exact hlen
      · intro j hj
        rcases List.mem_append.1 hj with h1 | h1
        · exact hsub j (his j (by simp [h1]))
        · exact hnew j h1
      · intro j hj
        have hcong : ∀ j, ClosedAt chf bs C' hp [0, 1, 2, 3] j → ClosedAt chf bs C' hp' [0, 1, 2, 3] j :=
          fun j hj d hd k hk hk' => hj d hd k hk (hal.inPatch.1 hk')
        rcases hC' j hj with h1 | h1
        · rcases hcl j h1 with h2 | h2
          · rcases List.mem_cons.1 h2 with rfl | h3
            · exact Or.inr (hcong _ hcl')
            · exact Or.inl (List.mem_append_left _ h3)
          · exact Or.inr (hcong _ (hmono j h2))
        · exact Or.inl (List.mem_append_right _ h1)
      · rw [List.length_append]
        simp only [List.length_cons] at hf
        omega
      · rintro hp'' ⟨hal', C'', hinv'', hsub', hcl''⟩
        exact ⟨hal.trans hal', C'', hinv'', fun j hj => hsub' j (hsub j hj), fun j hj d hd k hk hk' => hcl'' j hj d hd k hk (hal.inPatch.2 hk')⟩

end HeightPatch
end Rerecast
