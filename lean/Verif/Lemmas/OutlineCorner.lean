import Verif.Lemmas.ContourWalk
import Verif.Lemmas.Follow
import Mathlib.Tactic.Linarith
import Mathlib.Data.Nat.Bitwise
/-! The raw vertex recorded for a boundary side. -/
set_option linter.unusedVariables false
set_option linter.unusedSectionVars false
namespace Rerecast
namespace CompactHeightfield

/-- Height of span `k`. -/
def hgt (chf : CompactHeightfield) (k : Nat) : Nat := (chf.spans.getD k CompactSpan.default).y
/-- Area of span `k`. -/
def ara (chf : CompactHeightfield) (k : Nat) : Nat := chf.areas.getD k 0
/-- Region and area of span `k` in one word. -/
def wrd (chf : CompactHeightfield) (k : Nat) : Nat := chf.reg k ||| (chf.ara k <<< 16)

theorem hgt_eq {chf : CompactHeightfield} {i : Nat} {s : CompactSpan} (h : chf.spans[i]? = some s) : chf.hgt i = s.y := by
  simp [hgt, List.getD_eq_getElem?_getD, h]

theorem ara_eq {chf : CompactHeightfield} {i : Nat} {a : Nat} (h : chf.areas[i]? = some a) : chf.ara i = a := by
  simp [ara, List.getD_eq_getElem?_getD, h]

/-- Greatest height met by one of the two searches around a corner. -/
def pairHeight (chf : CompactHeightfield) (i d1 d2 ch : Nat) : Nat :=
  match chf.nbr i d1 with
  | none => ch
  | some a => match chf.nbr a d2 with
    | none => max ch (chf.hgt a)
    | some b => max (max ch (chf.hgt a)) (chf.hgt b)

section
variable {chf : CompactHeightfield} (hwf : chf.WellFormed)
include hwf

theorem con_none_of_nbr {i d : Nat} {s : CompactSpan} (hs : chf.spans[i]? = some s) (hd : d < 4) (hc : s.con d = none) : chf.nbr i d = none := by
  cases hn : chf.nbr i d with
  | none => rfl
  | some k => obtain ⟨s', con, hs', hc', _⟩ := nbr_con hwf hn hd; rw [hs] at hs'; cases hs'; rw [hc] at hc'; cases hc'

theorem regArea_eq {i : Nat} (hi : i < chf.spans.length) : chf.regArea i = .ok (chf.wrd i) := by
  obtain ⟨s, hs⟩ := span_get hwf hi
  have ha : i < chf.areas.length := by rw [hwf.areas_len]; exact hi
  have ha' := List.getElem?_eq_getElem ha
  unfold regArea
  rw [idx_some hs, bind_ok, idx_ok ha, bind_ok]
  simp only [wrd, reg_eq hs, ara_eq ha']

theorem cornerPair_eq {i : Nat} {s : CompactSpan} (hs : chf.spans[i]? = some s) {d1 d2 ch : Nat} (h1 : d1 < 4) (h2 : d2 < 4) :
    chf.cornerPair (chf.xOf i) (chf.zOf i) s d1 d2 ch =
      .ok (chf.pairHeight i d1 d2 ch, (chf.nbr i d1).map fun a => (chf.wrd a, (chf.nbr a d2).map chf.wrd)) := by
  unfold cornerPair pairHeight
  cases hc : s.con d1 with
  | none => rw [con_none_of_nbr hwf hs h1 hc]; rfl
  | some con =>
    obtain ⟨k, hk, hkl, hci⟩ := conIndices_of_con hwf hs h1 hc
    obtain ⟨sk, hsk⟩ := span_get hwf hkl
    simp only [hci, bind_ok, idx_some hsk, regArea_eq hwf hkl, hk, hgt_eq hsk, Option.map_some]
    cases hc2 : sk.con d2 with
    | none => rw [con_none_of_nbr hwf hsk h2 hc2]; simp
    | some con2 =>
      obtain ⟨k2, hk2, hkl2, hci2⟩ := conIndices_of_con hwf hsk h2 hc2
      obtain ⟨sk2, hsk2⟩ := span_get hwf hkl2
      simp only [hci2, bind_ok, idx_some hsk2, regArea_eq hwf hkl2, hk2, hgt_eq hsk2, Option.map_some]

/-- The span diagonally opposite. -/
def diag (chf : CompactHeightfield) (i d : Nat) : Option Nat :=
  match (chf.nbr i ((d + 1) % 4)).bind fun a => chf.nbr a d with
  | some k => some k
  | none => (chf.nbr i d).bind fun a => chf.nbr a ((d + 1) % 4)

/-- Word of an optional span. -/
def wrdO (chf : CompactHeightfield) (o : Option Nat) : Nat := match o with | some k => chf.wrd k | none => 0

theorem getCornerHeight_eq {i d : Nat} (hi : i < chf.spans.length) (hd : d < 4) :
    chf.getCornerHeight (chf.xOf i) (chf.zOf i) i d =
      .ok (chf.pairHeight i ((d + 1) % 4) d (chf.pairHeight i d ((d + 1) % 4) (chf.hgt i)),
        borderVertexAt (chf.wrd i) (chf.wrdO (chf.nbr i d)) (chf.wrdO (chf.diag i d)) (chf.wrdO (chf.nbr i ((d + 1) % 4))) ||
        borderVertexAt (chf.wrdO (chf.nbr i d)) (chf.wrdO (chf.diag i d)) (chf.wrdO (chf.nbr i ((d + 1) % 4))) (chf.wrd i) ||
        borderVertexAt (chf.wrdO (chf.diag i d)) (chf.wrdO (chf.nbr i ((d + 1) % 4))) (chf.wrd i) (chf.wrdO (chf.nbr i d)) ||
        borderVertexAt (chf.wrdO (chf.nbr i ((d + 1) % 4))) (chf.wrd i) (chf.wrdO (chf.nbr i d)) (chf.wrdO (chf.diag i d))) := by
  obtain ⟨s, hs⟩ := span_get hwf hi
  have h4 : (d + 1) % 4 < 4 := Nat.mod_lt _ (by omega)
  unfold getCornerHeight
  simp only [idx_some hs, bind_ok, regArea_eq hwf hi, cornerPair_eq hwf hs hd h4, cornerPair_eq hwf hs h4 hd, hgt_eq hs]
  unfold diag
  cases ha : chf.nbr i d <;> cases hb : chf.nbr i ((d + 1) % 4) <;>
    simp only [Option.map_none, Option.map_some, Option.bind_none, Option.bind_some, wrdO]
  · rename_i b
    cases hc : chf.nbr b d <;> simp
  · rename_i a
    cases hc : chf.nbr a ((d + 1) % 4) <;> simp
  · rename_i a b
    cases hc : chf.nbr b d <;> cases he : chf.nbr a ((d + 1) % 4) <;> simp

theorem pairHeight_some (i d1 d2 ch : Nat) : chf.pairHeight i d1 d2 ch = ch ∨
    (∃ a, chf.nbr i d1 = some a ∧ (chf.pairHeight i d1 d2 ch = chf.hgt a ∨ ∃ b, chf.nbr a d2 = some b ∧ chf.pairHeight i d1 d2 ch = chf.hgt b)) := by
  unfold pairHeight
  cases ha : chf.nbr i d1 with
  | none => left; rfl
  | some a =>
    simp only
    cases hb : chf.nbr a d2 with
    | none =>
      simp only
      rcases Nat.le_total ch (chf.hgt a) with h | h
      · right; exact ⟨a, rfl, Or.inl (by omega)⟩
      · left; omega
    | some b =>
      simp only
      rcases Nat.le_total (max ch (chf.hgt a)) (chf.hgt b) with h | h
      · right; exact ⟨a, rfl, Or.inr ⟨b, hb, by omega⟩⟩
      · rcases Nat.le_total ch (chf.hgt a) with h' | h'
        · right; exact ⟨a, rfl, Or.inl (by omega)⟩
        · left; omega

theorem pairHeight_ge (i d1 d2 ch : Nat) : ch ≤ chf.pairHeight i d1 d2 ch ∧
    ∀ a, chf.nbr i d1 = some a → chf.hgt a ≤ chf.pairHeight i d1 d2 ch ∧ ∀ b, chf.nbr a d2 = some b → chf.hgt b ≤ chf.pairHeight i d1 d2 ch := by
  unfold pairHeight
  cases ha : chf.nbr i d1 with
  | none => simp
  | some a =>
    simp only
    cases hb : chf.nbr a d2 with
    | none =>
      simp only
      refine ⟨by omega, ?_⟩
      intro a' e; cases e
      exact ⟨by omega, by intro b hb'; rw [hb] at hb'; cases hb'⟩
    | some b =>
      simp only
      refine ⟨by omega, ?_⟩
      intro a' e; cases e
      refine ⟨by omega, ?_⟩
      intro b' hb'
      rw [hb] at hb'; cases hb'
      omega

end

theorem containsBorder (w : Nat) : containsBits w BORDER_REGION = isBorderRegion w := by
  unfold containsBits isBorderRegion BORDER_REGION
  rw [show (0x8000 : Nat) = 2 ^ 15 from rfl, Nat.and_two_pow]
  cases w.testBit 15 <;> simp

theorem border_word (r a : Nat) : isBorderRegion (r ||| (a <<< 16)) = isBorderRegion r := by
  unfold isBorderRegion
  rw [Nat.testBit_or, Nat.testBit_shiftLeft]
  simp

theorem word_shift {r a : Nat} (hr : r < 65536) : (r ||| (a <<< 16)) >>> 16 = a := by
  apply Nat.eq_of_testBit_eq
  intro k
  rw [Nat.testBit_shiftRight, Nat.testBit_or, Nat.testBit_shiftLeft]
  have : r.testBit (16 + k) = false := Nat.testBit_lt_two_pow (lt_of_lt_of_le hr (by
    rw [show (65536 : Nat) = 2 ^ 16 from rfl]; exact Nat.pow_le_pow_right (by omega) (by omega)))
  rw [this]
  simp

theorem word_mask {r a : Nat} (hr : r < 65536) : (r ||| (a <<< 16)) % 65536 = r := by
  apply Nat.eq_of_testBit_eq
  intro k
  rw [show (65536 : Nat) = 2 ^ 16 from rfl, Nat.testBit_mod_two_pow, Nat.testBit_or, Nat.testBit_shiftLeft]
  by_cases hk : k < 16
  · simp [hk]
  · have : r.testBit k = false := Nat.testBit_lt_two_pow (lt_of_lt_of_le hr (by
      rw [show (65536 : Nat) = 2 ^ 16 from rfl]; exact Nat.pow_le_pow_right (by omega) (by omega)))
    simp [hk, this]

theorem word_inj {r a r' a' : Nat} (hr : r < 65536) (hr' : r' < 65536) :
    (r ||| (a <<< 16)) = (r' ||| (a' <<< 16)) ↔ (r, a) = (r', a') := by
  constructor
  · intro h
    have h1 := word_mask (a := a) hr
    have h2 := word_shift (a := a) hr
    rw [h] at h1 h2
    rw [word_mask hr'] at h1
    rw [word_shift hr'] at h2
    rw [h1, h2]
  · intro h; cases h; rfl

/-- The border test, on region and area. -/
theorem borderVertexAt_iff {a b c e : Nat × Nat} (ha : a.1 < 65536) (hb : b.1 < 65536) (hc : c.1 < 65536) (he : e.1 < 65536) :
    borderVertexAt (a.1 ||| (a.2 <<< 16)) (b.1 ||| (b.2 <<< 16)) (c.1 ||| (c.2 <<< 16)) (e.1 ||| (e.2 <<< 16)) = true ↔ BorderCorner a b c e := by
  have hz : ∀ w : Nat × Nat, w.1 < 65536 → ((w.1 ||| (w.2 <<< 16)) ≠ 0 ↔ w ≠ (0, 0)) := by
    intro w hw
    have := word_inj (a := w.2) (r' := 0) (a' := 0) hw (by omega)
    simp only [Nat.zero_shiftLeft, Nat.or_zero] at this
    rw [not_iff_not]
    exact this
  have hor : isBorderRegion ((c.1 ||| (c.2 <<< 16)) ||| (e.1 ||| (e.2 <<< 16))) = (isBorderRegion c.1 || isBorderRegion e.1) := by
    have h1 := border_word c.1 c.2
    have h2 := border_word e.1 e.2
    unfold isBorderRegion at *
    rw [Nat.testBit_or, h1, h2]
  unfold borderVertexAt BorderCorner
  simp only [containsBorder, border_word, hor, word_shift hc, word_shift he, Bool.and_eq_true, decide_eq_true_eq, hz _ ha, hz _ hb, hz _ hc, hz _ he,
    word_inj ha hb, Bool.not_eq_true', Bool.or_eq_false_iff, Prod.mk.eta]
  tauto

section
variable {chf : CompactHeightfield} (hwf : chf.WellFormed)
include hwf

theorem regionOf_iff {k r : Nat} : chf.RegionOf k r ↔ k < chf.spans.length ∧ chf.reg k = r := by
  constructor
  · rintro ⟨s, hs, rfl⟩
    exact ⟨(List.getElem?_eq_some_iff.1 hs).1, reg_eq hs⟩
  · rintro ⟨hk, rfl⟩
    obtain ⟨s, hs⟩ := span_get hwf hk
    exact ⟨s, hs, (reg_eq hs).symm⟩

theorem areas_get {k : Nat} (hk : k < chf.spans.length) : chf.areas[k]? = some (chf.ara k) := by
  have ha : k < chf.areas.length := by rw [hwf.areas_len]; exact hk
  have := List.getElem?_eq_getElem ha
  rw [ara_eq this, this]

/-- Region and area of an optional span. -/
def pairO (chf : CompactHeightfield) (o : Option Nat) : Nat × Nat := match o with | some k => (chf.reg k, chf.ara k) | none => (0, 0)

theorem wrdO_pair (o : Option Nat) : chf.wrdO o = ((chf.pairO o).1 ||| ((chf.pairO o).2 <<< 16)) := by
  cases o <;> simp [wrdO, pairO, wrd]

theorem looks_iff {P : Nat → Prop} {o : Option Nat} (hP : ∀ k, P k ↔ o = some k) (hlt : ∀ k, o = some k → k < chf.spans.length) (w : Nat × Nat) :
    chf.Looks P w ↔ w = chf.pairO o := by
  unfold Looks pairO
  cases o with
  | none =>
    constructor
    · rintro (⟨k, hk, _⟩ | ⟨_, h⟩)
      · cases (hP k).1 hk
      · exact h
    · intro h; right; exact ⟨fun k hk => by (cases (hP k).1 hk), h⟩
  | some j =>
    have hj := hlt j rfl
    constructor
    · rintro (⟨k, hk, hr, ha⟩ | ⟨h, _⟩)
      · have hkj := (hP k).1 hk
        obtain rfl : j = k := by simpa using hkj
        have hr' := ((regionOf_iff hwf).1 hr).2
        rw [areas_get hwf hj] at ha
        simp only [Option.some.injEq] at ha
        show w = (chf.reg j, chf.ara j)
        rw [hr', ha]
      · exact absurd ((hP j).2 rfl) (h j)
    · intro h
      left
      subst h
      exact ⟨j, (hP j).2 rfl, (regionOf_iff hwf).2 ⟨hj, rfl⟩, areas_get hwf hj⟩

theorem diag_iff {i d k : Nat} (hd : d < 4) : chf.Diagonal i d k ↔ chf.diag i d = some k := by
  have h4 : (d + 1) % 4 < 4 := Nat.mod_lt _ (by omega)
  unfold Diagonal diag
  simp only [← nbr_iff_link hwf hd, ← nbr_iff_link hwf h4]
  have e1 : ∀ j, (∃ a, chf.nbr i ((d + 1) % 4) = some a ∧ chf.nbr a d = some j) ↔ ((chf.nbr i ((d + 1) % 4)).bind fun a => chf.nbr a d) = some j := by
    intro j; rw [Option.bind_eq_some_iff]
  have e2 : (∃ a, chf.nbr i d = some a ∧ chf.nbr a ((d + 1) % 4) = some k) ↔ ((chf.nbr i d).bind fun a => chf.nbr a ((d + 1) % 4)) = some k := by
    rw [Option.bind_eq_some_iff]
  rw [e1, e2]
  have e3 : (∃ a j, chf.nbr i ((d + 1) % 4) = some a ∧ chf.nbr a d = some j) ↔ ∃ j, ((chf.nbr i ((d + 1) % 4)).bind fun a => chf.nbr a d) = some j := by
    rw [exists_comm]; exact exists_congr e1
  rw [e3]
  cases h : ((chf.nbr i ((d + 1) % 4)).bind fun a => chf.nbr a d) with
  | none => simp
  | some m => simp

theorem reg_u16 (hu : ∀ s ∈ chf.spans, s.region < 65536) (k : Nat) : chf.reg k < 65536 := by
  unfold reg
  rw [List.getD_eq_getElem?_getD]
  cases h : chf.spans[k]? with
  | none => simp [CompactSpan.default]
  | some s => exact hu s (List.mem_of_getElem? h)

theorem pairO_u16 (hu : ∀ s ∈ chf.spans, s.region < 65536) (o : Option Nat) : (chf.pairO o).1 < 65536 := by
  cases o with
  | none => show (0 : Nat) < 65536; omega
  | some k => exact reg_u16 hwf hu k

theorem vertexWord_mask {r : Nat} (hr : r < 65536) (b a : Bool) : vertexWord r b a &&& REGION_MASK = r := by
  have hm : ∀ w, w &&& REGION_MASK = w % 65536 := by
    intro w
    rw [show REGION_MASK = 2 ^ 16 - 1 from rfl, Nat.and_two_pow_sub_one_eq_mod]
  rw [hm]
  have e1 : BORDER_VERTEX = 1 <<< 16 := rfl
  have e2 : AREA_BORDER = 2 <<< 16 := rfl
  unfold vertexWord regionWord
  cases b <;> cases a <;> simp only [Bool.false_eq_true, if_false, if_true, e1, e2]
  · exact Nat.mod_eq_of_lt hr
  · exact word_mask hr
  · exact word_mask hr
  · rw [Nat.or_assoc, ← Nat.shiftLeft_or_distrib]; exact word_mask hr

theorem vertexWord_area {r : Nat} (hr : r < 65536) (b a : Bool) : vertexWord r b a &&& AREA_BORDER ≠ 0 ↔ a = true := by
  have ht : r.testBit 17 = false := Nat.testBit_lt_two_pow (by omega)
  rw [show AREA_BORDER = 2 ^ 17 from rfl, Nat.and_two_pow]
  have : (vertexWord r b a).testBit 17 = a := by
    unfold vertexWord regionWord
    cases b <;> cases a <;> simp [Nat.testBit_or, ht, BORDER_VERTEX, AREA_BORDER] <;> decide
  rw [this]
  cases a <;> simp

theorem vertexWord_border {r : Nat} (hr : r < 65536) (b a : Bool) : vertexWord r b a &&& BORDER_VERTEX ≠ 0 ↔ b = true := by
  have ht : r.testBit 16 = false := Nat.testBit_lt_two_pow (by omega)
  rw [show BORDER_VERTEX = 2 ^ 16 from rfl, Nat.and_two_pow]
  have : (vertexWord r b a).testBit 16 = b := by
    unfold vertexWord regionWord
    cases b <;> cases a <;> simp [Nat.testBit_or, ht, BORDER_VERTEX, AREA_BORDER] <;> decide
  rw [this]
  cases b <;> simp

theorem tileCorner_iff (hu : ∀ s ∈ chf.spans, s.region < 65536) {i d : Nat} (hi : i < chf.spans.length) (hd : d < 4) :
    chf.TileCorner i d ↔
      (borderVertexAt (chf.wrd i) (chf.wrdO (chf.nbr i d)) (chf.wrdO (chf.diag i d)) (chf.wrdO (chf.nbr i ((d + 1) % 4))) ||
        borderVertexAt (chf.wrdO (chf.nbr i d)) (chf.wrdO (chf.diag i d)) (chf.wrdO (chf.nbr i ((d + 1) % 4))) (chf.wrd i) ||
        borderVertexAt (chf.wrdO (chf.diag i d)) (chf.wrdO (chf.nbr i ((d + 1) % 4))) (chf.wrd i) (chf.wrdO (chf.nbr i d)) ||
        borderVertexAt (chf.wrdO (chf.nbr i ((d + 1) % 4))) (chf.wrd i) (chf.wrdO (chf.nbr i d)) (chf.wrdO (chf.diag i d))) = true := by
  have h4 : (d + 1) % 4 < 4 := Nat.mod_lt _ (by omega)
  have hlt : ∀ j e, e < 4 → ∀ k, chf.nbr j e = some k → k < chf.spans.length := fun j e he k hk => (nbr_lt hwf he hk).2
  have hdl : ∀ k, chf.diag i d = some k → k < chf.spans.length := by
    intro k hk
    have := (diag_iff hwf hd).2 hk
    rcases this with ⟨a, _, h⟩ | ⟨_, a, _, h⟩
    · exact hlt a d hd k ((nbr_iff_link hwf hd).2 h)
    · exact hlt a _ h4 k ((nbr_iff_link hwf h4).2 h)
  have e0 : chf.wrd i = chf.wrdO (some i) := rfl
  have hp := fun o => pairO_u16 hwf hu o
  simp only [e0, wrdO_pair hwf, Bool.or_eq_true, borderVertexAt_iff (hp _) (hp _) (hp _) (hp _)]
  unfold TileCorner
  simp only [looks_iff hwf (P := fun k => k = i) (o := some i) (by intro k; simp [eq_comm]) (by intro k e; cases e; exact hi),
    looks_iff hwf (P := chf.Link i d) (o := chf.nbr i d) (by intro k; exact (nbr_iff_link hwf hd).symm) (hlt i d hd),
    looks_iff hwf (P := chf.Link i ((d + 1) % 4)) (o := chf.nbr i ((d + 1) % 4)) (by intro k; exact (nbr_iff_link hwf h4).symm) (hlt i _ h4),
    looks_iff hwf (P := chf.Diagonal i d) (o := chf.diag i d) (by intro k; exact diag_iff hwf hd) hdl]
  constructor
  · rintro ⟨w0, w1, w2, w3, rfl, rfl, rfl, rfl, h⟩
    tauto
  · intro h
    exact ⟨_, _, _, _, rfl, rfl, rfl, rfl, by tauto⟩

/-- What recording a boundary side does. -/
theorem walkEdge_spec (hu : ∀ s ∈ chf.spans, s.region < 65536) (area : Area) {w : Walk} (hw : chf.WalkOk w) (f : BitVec 8) : ∃ p,
    chf.RawVertex area (w.i, w.dir) p ∧ p.1.xz = cornerOf w.x w.z w.dir ∧
    chf.walkEdge area w f = .ok { w with dir := (w.dir + 1) % 4, flags := w.flags.set w.i (f &&& ~~~(1#8 <<< w.dir)), points := w.points ++ [p] } := by
  obtain ⟨hi, hx, hz, hd, hfl, _⟩ := hw
  have h4 : (w.dir + 1) % 4 < 4 := Nat.mod_lt _ (by omega)
  have hr := getCornerHeight_eq hwf hi hd
  obtain ⟨s, hs⟩ := span_get hwf hi
  obtain ⟨bx, bz, _⟩ := xz_spec hwf hi
  have hwx := hwf.width_u16
  have hhx := hwf.height_u16
  have hside : chf.sideInfo area w.x w.z s w.dir = .ok (match chf.nbr w.i w.dir with
      | some k => (chf.reg k, decide (area ≠ chf.ara k)) | none => (0, false)) := by
    unfold sideInfo
    cases hc : s.con w.dir with
    | none => rw [con_none_of_nbr hwf hs hd hc]
    | some con =>
      obtain ⟨k, hk, hkl, hci⟩ := conIndices_of_con hwf hs hd hc
      obtain ⟨sk, hsk⟩ := span_get hwf hkl
      have ha : k < chf.areas.length := by rw [hwf.areas_len]; exact hkl
      simp only [hx, hz, hci, bind_ok, idx_some hsk, idx_some (areas_get hwf hkl), hk, reg_eq hsk]
  have hcor := corner_ok (x := w.x) (z := w.z) (d := w.dir) (by omega) (by omega)
  rw [← hx, ← hz] at hr
  generalize hH : chf.pairHeight w.i ((w.dir + 1) % 4) w.dir (chf.pairHeight w.i w.dir ((w.dir + 1) % 4) (chf.hgt w.i)) = H at hr
  generalize hB : (_ || _ || _ || _ : Bool) = B at hr
  have hT : chf.TileCorner w.i w.dir ↔ B = true := by rw [tileCorner_iff hwf hu hi hd, hB]
  generalize hM : (match chf.nbr w.i w.dir with | some k => (chf.reg k, decide (area ≠ chf.ara k)) | none => (0, false)) = M at hside
  have hru : (match chf.nbr w.i w.dir with | some k => (chf.reg k, decide (area ≠ chf.ara k)) | none => (0, false)).1 < 65536 := by
    cases chf.nbr w.i w.dir with
    | none => simp
    | some k => exact reg_u16 hwf hu k
  rw [hM] at hru
  refine ⟨(⟨(cornerOf w.x w.z w.dir).1, H, (cornerOf w.x w.z w.dir).2⟩, vertexWord M.1 B M.2), ⟨?_, ?_, ?_, ?_, ?_, ?_⟩, rfl, ?_⟩
  · exact ⟨_, _, s, at_spec hwf hs, by rw [hx, hz]; rfl⟩
  · -- the height is attained
    have hself : ∃ k sp, chf.MeetsCorner w.i w.dir k ∧ chf.spans[k]? = some sp ∧ sp.y = chf.hgt w.i := ⟨_, s, .self, hs, (hgt_eq hs).symm⟩
    have att : ∀ k, chf.MeetsCorner w.i w.dir k → k < chf.spans.length → ∃ k' sp, chf.MeetsCorner w.i w.dir k' ∧ chf.spans[k']? = some sp ∧ sp.y = chf.hgt k := by
      intro k hm hk
      obtain ⟨sk, hsk⟩ := span_get hwf hk
      exact ⟨k, sk, hm, hsk, (hgt_eq hsk).symm⟩
    simp only
    rw [← hH]
    rcases pairHeight_some hwf w.i ((w.dir + 1) % 4) w.dir (chf.pairHeight w.i w.dir ((w.dir + 1) % 4) (chf.hgt w.i)) with h | ⟨a, ha, h | ⟨b, hb, h⟩⟩
    · rw [h]
      rcases pairHeight_some hwf w.i w.dir ((w.dir + 1) % 4) (chf.hgt w.i) with h | ⟨a, ha, h | ⟨b, hb, h⟩⟩
      · rw [h]; exact hself
      · rw [h]; exact att a (.left ((nbr_iff_link hwf hd).1 ha)) (nbr_lt hwf hd ha).2
      · rw [h]; exact att b (.leftAhead ((nbr_iff_link hwf hd).1 ha) ((nbr_iff_link hwf h4).1 hb)) (nbr_lt hwf h4 hb).2
    · rw [h]; exact att a (.ahead ((nbr_iff_link hwf h4).1 ha)) (nbr_lt hwf h4 ha).2
    · rw [h]; exact att b (.aheadLeft ((nbr_iff_link hwf h4).1 ha) ((nbr_iff_link hwf hd).1 hb)) (nbr_lt hwf hd hb).2
  · -- and is the greatest
    intro k sp hm hsp
    simp only at hm ⊢
    rw [← hH, ← hgt_eq hsp]
    obtain ⟨g1, g2⟩ := pairHeight_ge hwf w.i ((w.dir + 1) % 4) w.dir (chf.pairHeight w.i w.dir ((w.dir + 1) % 4) (chf.hgt w.i))
    obtain ⟨g3, g4⟩ := pairHeight_ge hwf w.i w.dir ((w.dir + 1) % 4) (chf.hgt w.i)
    cases hm with
    | self => omega
    | left hl => have := (g4 k ((nbr_iff_link hwf hd).2 hl)).1; omega
    | ahead hl => exact (g2 k ((nbr_iff_link hwf h4).2 hl)).1
    | leftAhead hl hl2 => have := (g4 _ ((nbr_iff_link hwf hd).2 hl)).2 k ((nbr_iff_link hwf h4).2 hl2); omega
    | aheadLeft hl hl2 => exact (g2 _ ((nbr_iff_link hwf h4).2 hl)).2 k ((nbr_iff_link hwf hd).2 hl2)
  · simp only
    rw [vertexWord_mask hwf hru, ← hM]
    cases hk : chf.nbr w.i w.dir with
    | none =>
      right
      exact ⟨fun k hl => by (rw [(nbr_iff_link hwf hd).2 hl] at hk; cases hk), rfl⟩
    | some k =>
      left
      exact ⟨k, (nbr_iff_link hwf hd).1 hk, (regionOf_iff hwf).2 ⟨(nbr_lt hwf hd hk).2, rfl⟩⟩
  · simp only
    rw [vertexWord_area hwf hru, ← hM]
    cases hk : chf.nbr w.i w.dir with
    | none =>
      simp only [Bool.false_eq_true, false_iff]
      rintro ⟨k, a, hl, _⟩
      rw [(nbr_iff_link hwf hd).2 hl] at hk; cases hk
    | some k =>
      simp only [decide_eq_true_eq]
      constructor
      · intro h
        exact ⟨k, _, (nbr_iff_link hwf hd).1 hk, areas_get hwf (nbr_lt hwf hd hk).2, fun e => h e.symm⟩
      · rintro ⟨k', a, hl, ha, hne⟩ e
        rw [(nbr_iff_link hwf hd).2 hl] at hk
        cases hk
        rw [areas_get hwf (nbr_lt hwf hd ((nbr_iff_link hwf hd).2 hl)).2] at ha
        cases ha
        exact hne e.symm
  · simp only
    rw [vertexWord_border hwf hru, hT]
  · unfold walkEdge
    simp only [hr, bind_ok, hcor, idx_some hs, hside, setIdx_ok (show w.i < w.flags.length by omega)]

end
end CompactHeightfield
end Rerecast
