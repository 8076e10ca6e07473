import Verif.Lemmas.Graph
import Verif.Spec.Outline
import Verif.Lemmas.Simplify
import Verif.Lemmas.SimplifyMain
import Verif.Lemmas.Degenerate
import Verif.Lemmas.RegionsBase
/-! Contour tracing on a well-formed field: no step fails. -/
set_option linter.unusedVariables false
set_option linter.unusedSectionVars false
namespace Rerecast
namespace CompactHeightfield

section
variable {chf : CompactHeightfield} (hwf : chf.WellFormed)
include hwf

theorem conIndices_of_con {i d con : Nat} {s : CompactSpan} (hs : chf.spans[i]? = some s) (hd : d < 4) (hc : s.con d = some con) :
    ∃ k, chf.nbr i d = some k ∧ k < chf.spans.length ∧
      chf.conIndices (chf.xOf i) (chf.zOf i) d con = .ok ((chf.xOf k : Int), (chf.zOf k : Int), k) := by
  obtain ⟨hx, hz, _, cell, hcell, hi⟩ := at_spec hwf hs
  obtain ⟨nx, nz, nb, h1, h2, h3⟩ := hwf.con _ hx _ hz cell hcell i hi s hs d hd con hc
  obtain ⟨k, hk, hkl, hn, hm⟩ := nbr_of_con hwf hs hd hc
  refine ⟨k, hk, hkl, ?_⟩
  rw [h1] at hn
  simp only [Option.some.injEq, Prod.mk.injEq] at hn
  obtain ⟨e1, e2⟩ := hn
  have ek : k = nb.index + con := by
    have h1' : neighbourCell chf.width chf.height (chf.colOf i % chf.width) (chf.colOf i / chf.width) d = some (nx, nz) := h1
    unfold nbr at hk
    rw [hs, Option.bind_some, hc, Option.bind_some, h1', Option.bind_some, h2] at hk
    simpa using hk.symm
  have ex : ((chf.xOf i : Int) + dirOffsetX d) = nx ∧ ((chf.zOf i : Int) + dirOffsetZ d) = nz := by
    have h4 : d = 0 ∨ d = 1 ∨ d = 2 ∨ d = 3 := by omega
    rcases h4 with rfl | rfl | rfl | rfl <;> simp only [neighbourCell] at h1 <;> split at h1 <;> cases h1 <;>
      simp only [dirOffsetX, dirOffsetZ] <;> omega
  unfold conIndices
  simp only [ex.1, ex.2]
  have e0 : (nx : Int) + (nz : Int) * (chf.width : Int) = ((nx + nz * chf.width : Nat) : Int) := by push_cast; rfl
  rw [e0, if_neg (by omega), Int.toNat_natCast, idx_some h2, bind_ok, ← e1, ← e2, ek]

/-- The region of a span, 0 for none. -/
theorem span_get {i : Nat} (hi : i < chf.spans.length) : ∃ s, chf.spans[i]? = some s := ⟨_, List.getElem?_eq_getElem hi⟩

end

/-- Region of span `i`. -/
def reg (chf : CompactHeightfield) (i : Nat) : Nat := (chf.spans.getD i CompactSpan.default).region

theorem reg_eq {chf : CompactHeightfield} {i : Nat} {s : CompactSpan} (h : chf.spans[i]? = some s) : chf.reg i = s.region := by
  simp [reg, List.getD_eq_getElem?_getD, h]


/-- Span `i` has a proper region and is not joined to a span of the same region in direction `d`. -/
def Edge (chf : CompactHeightfield) (i d : Nat) : Prop :=
  ProperRegion (chf.reg i) ∧ ∀ k, chf.nbr i d = some k → chf.reg k ≠ chf.reg i

section
variable {chf : CompactHeightfield} (hwf : chf.WellFormed)
include hwf

theorem bit_dir {d d' : Nat} (hd : d < 4) (hd' : d' < 4) : (1#8 <<< d).getLsbD d' = decide (d = d') := by
  have h1 : d = 0 ∨ d = 1 ∨ d = 2 ∨ d = 3 := by omega
  have h2 : d' = 0 ∨ d' = 1 ∨ d' = 2 ∨ d' = 3 := by omega
  rcases h1 with rfl | rfl | rfl | rfl <;> rcases h2 with rfl | rfl | rfl | rfl <;> decide

theorem boundaryFlags_spec {i : Nat} (hi : i < chf.spans.length) : ∃ f, chf.boundaryFlags (chf.xOf i) (chf.zOf i) i = .ok f ∧
    (∀ d < 4, (f.getLsbD d = true ↔ chf.Edge i d)) ∧ ∀ d, 4 ≤ d → f.getLsbD d = false := by
  obtain ⟨s, hs⟩ := span_get hwf hi
  have hr := reg_eq hs
  unfold boundaryFlags
  rw [idx_some hs, bind_ok]
  by_cases hp : (s.region = REGION_NONE || isBorderRegion s.region) = true
  · rw [if_pos hp]
    refine ⟨0, rfl, ?_, by simp⟩
    intro d hd
    rw [show (0 : BitVec 8).getLsbD d = false by simp]
    simp only [Bool.false_eq_true, false_iff]
    rintro ⟨⟨h1, h2⟩, _⟩
    rw [hr] at h1 h2
    simp [h1, h2] at hp
  · rw [if_neg hp]
    have hproper : ProperRegion (chf.reg i) := by
      rw [hr]; simp at hp; exact hp
    have hfold := foldlM_total (f := fun (res : BitVec 8) (dir : Nat) => do
        let r ← chf.sideRegion (chf.xOf i) (chf.zOf i) s dir
        .ok (if r = s.region then res ||| (1#8 <<< dir) else res))
      (fun pre (res : BitVec 8) => (∀ d < 4, (res.getLsbD d = true ↔ d ∈ pre ∧ ¬ chf.Edge i d)) ∧ ∀ d, 4 ≤ d → res.getLsbD d = false) [0, 1, 2, 3] 0#8
      (by simp) (by
        rintro pre dir post res hl ⟨hP, hP4⟩
        have hd : dir < 4 := by
          have : dir ∈ [0, 1, 2, 3] := by rw [hl]; simp
          simp at this; omega
        have hsame : ∃ r, chf.sideRegion (chf.xOf i) (chf.zOf i) s dir = .ok r ∧ (r = s.region ↔ ¬ chf.Edge i dir) := by
          unfold sideRegion
          cases hc : s.con dir with
          | none =>
            refine ⟨REGION_NONE, rfl, ?_⟩
            have hnn : chf.nbr i dir = none := by
              cases hn : chf.nbr i dir with
              | none => rfl
              | some k => obtain ⟨s', con, hs', hc', _⟩ := nbr_con hwf hn hd; rw [hs] at hs'; cases hs'; rw [hc] at hc'; cases hc'
            constructor
            · intro e h; rw [hr] at hproper; exact hproper.1 e.symm
            · intro h; exact absurd ⟨hproper, by intro k hk; rw [hnn] at hk; cases hk⟩ h
          | some con =>
            obtain ⟨k, hk, hkl, hci⟩ := conIndices_of_con hwf hs hd hc
            obtain ⟨sk, hsk⟩ := span_get hwf hkl
            refine ⟨sk.region, ?_, ?_⟩
            · simp only [hci, bind_ok, idx_some hsk]
            · constructor
              · rintro e ⟨_, h⟩
                exact h k hk (by rw [reg_eq hsk, hr, e])
              · intro h
                by_contra hne
                exact h ⟨hproper, by intro k' hk'; rw [hk] at hk'; cases hk'; rw [reg_eq hsk, hr]; exact hne⟩
        obtain ⟨r, hr1, hr2⟩ := hsame
        rw [hr1, bind_ok]
        refine Total.ok ⟨?_, ?_⟩
        · intro d hd'
          by_cases hrs : r = s.region
          · rw [if_pos hrs, BitVec.getLsbD_or, bit_dir hwf hd hd', Bool.or_eq_true, hP d hd', decide_eq_true_eq]
            have := hr2.1 hrs
            simp only [List.mem_append, List.mem_singleton]
            constructor
            · rintro (⟨h1, h2⟩ | rfl)
              · exact ⟨Or.inl h1, h2⟩
              · exact ⟨Or.inr rfl, this⟩
            · rintro ⟨h1 | rfl, h2⟩
              · exact Or.inl ⟨h1, h2⟩
              · exact Or.inr rfl
          · rw [if_neg hrs, hP d hd']
            have : chf.Edge i dir := by by_contra h; exact hrs (hr2.2 h)
            simp only [List.mem_append, List.mem_singleton]
            constructor
            · rintro ⟨h1, h2⟩; exact ⟨Or.inl h1, h2⟩
            · rintro ⟨h1 | rfl, h2⟩
              · exact ⟨h1, h2⟩
              · exact absurd this h2
        · intro d h4
          split
          · rw [BitVec.getLsbD_or, hP4 d h4, BitVec.getLsbD_shiftLeft]
            by_cases h8 : d < 8
            · have : d = 4 ∨ d = 5 ∨ d = 6 ∨ d = 7 := by omega
              have h1 : dir = 0 ∨ dir = 1 ∨ dir = 2 ∨ dir = 3 := by omega
              rcases this with rfl | rfl | rfl | rfl <;> rcases h1 with rfl | rfl | rfl | rfl <;> decide
            · simp [h8]
          · exact hP4 d h4)
    obtain ⟨res, h1, h2, h3⟩ := hfold
    rw [h1, bind_ok]
    refine ⟨_, rfl, ?_, ?_⟩
    · intro d hd
      have hf : (0xf#8).getLsbD d = true := by
        have : d = 0 ∨ d = 1 ∨ d = 2 ∨ d = 3 := by omega
        rcases this with rfl | rfl | rfl | rfl <;> decide
      have hmem : d ∈ [0, 1, 2, 3] := by simp; omega
      rw [BitVec.getLsbD_xor, hf]
      have := h2 d hd
      cases hb : res.getLsbD d with
      | true => rw [hb] at this; simp; exact (this.1 rfl).2
      | false =>
        rw [hb] at this; simp
        by_contra hcon
        have := this.2 ⟨hmem, hcon⟩
        cases this
    · intro d h4
      rw [BitVec.getLsbD_xor, h3 d h4]
      by_cases h8 : d < 8
      · have : d = 4 ∨ d = 5 ∨ d = 6 ∨ d = 7 := by omega
        rcases this with rfl | rfl | rfl | rfl <;> decide
      · rw [BitVec.getLsbD_of_ge _ _ (by omega)]; rfl

/-- The flags record exactly the edges in `T`. -/
def FlagsAre (chf : CompactHeightfield) (flags : List (BitVec 8)) (T : Nat → Nat → Prop) : Prop :=
  flags.length = chf.spans.length ∧ ∀ (i : Nat) (f : BitVec 8), flags[i]? = some f →
    (∀ d < 4, (f.getLsbD d = true ↔ T i d)) ∧ ∀ d, 4 ≤ d → f.getLsbD d = false

theorem markBoundaries_spec : ∃ flags, chf.markBoundaries = .ok flags ∧ chf.FlagsAre flags chf.Edge := by
  unfold markBoundaries
  rw [forSpans_eq hwf]
  obtain ⟨flags, h1, h2, h3⟩ := foldlM_total (f := fun (flags : List (BitVec 8)) (i : Nat) => do
      let f ← chf.boundaryFlags (chf.xOf i) (chf.zOf i) i
      setIdx flags i f)
    (fun pre flags => flags.length = chf.spans.length ∧ ∀ (i : Nat) (f : BitVec 8), flags[i]? = some f → i ∈ pre →
      (∀ d < 4, (f.getLsbD d = true ↔ chf.Edge i d)) ∧ ∀ d, 4 ≤ d → f.getLsbD d = false)
    (List.range chf.spans.length) (List.replicate chf.spans.length 0) (by simp) (by
      rintro pre i post flags hl ⟨hlen, hP⟩
      have hi : i < chf.spans.length := List.mem_range.1 (by rw [hl]; simp)
      obtain ⟨f, hf, hb, h4⟩ := boundaryFlags_spec hwf hi
      rw [hf, bind_ok, setIdx_ok (by omega)]
      refine Total.ok ⟨by simp [hlen], ?_⟩
      intro j g hg hj
      rw [List.getElem?_set] at hg
      split at hg
      · rename_i e
        subst e
        split at hg
        · cases hg; exact ⟨hb, h4⟩
        · cases hg
      · rename_i hne
        refine hP j g hg ?_
        simp at hj
        rcases hj with hj | rfl
        · exact hj
        · exact absurd rfl hne)
  refine ⟨flags, h1, h2, ?_⟩
  intro i f hf
  have hi : i < chf.spans.length := by rw [← h2]; exact (List.getElem?_eq_some_iff.1 hf).1
  exact h3 i f hf (List.mem_range.2 hi)

theorem regArea_ok {i : Nat} (hi : i < chf.spans.length) : ∃ w, chf.regArea i = .ok w := by
  obtain ⟨s, hs⟩ := span_get hwf hi
  have ha : i < chf.areas.length := by rw [hwf.areas_len]; exact hi
  unfold regArea
  rw [idx_some hs, bind_ok, idx_ok ha, bind_ok]
  exact ⟨_, rfl⟩

theorem cornerPair_ok {i : Nat} {s : CompactSpan} (hs : chf.spans[i]? = some s) {d1 d2 ch : Nat} (h1 : d1 < 4) (h2 : d2 < 4) :
    ∃ r, chf.cornerPair (chf.xOf i) (chf.zOf i) s d1 d2 ch = .ok r := by
  unfold cornerPair
  cases hc : s.con d1 with
  | none => exact ⟨_, rfl⟩
  | some con =>
    obtain ⟨k, hk, hkl, hci⟩ := conIndices_of_con hwf hs h1 hc
    obtain ⟨sk, hsk⟩ := span_get hwf hkl
    obtain ⟨w, hw⟩ := regArea_ok hwf hkl
    simp only [hci, bind_ok, idx_some hsk, hw]
    cases hc2 : sk.con d2 with
    | none => exact ⟨_, rfl⟩
    | some con2 =>
      obtain ⟨k2, hk2, hkl2, hci2⟩ := conIndices_of_con hwf hsk h2 hc2
      obtain ⟨sk2, hsk2⟩ := span_get hwf hkl2
      obtain ⟨w2, hw2⟩ := regArea_ok hwf hkl2
      simp only [hci2, bind_ok, idx_some hsk2, hw2]
      exact ⟨_, rfl⟩

theorem getCornerHeight_ok {i dir : Nat} (hi : i < chf.spans.length) (hd : dir < 4) :
    ∃ r, chf.getCornerHeight (chf.xOf i) (chf.zOf i) i dir = .ok r := by
  obtain ⟨s, hs⟩ := span_get hwf hi
  obtain ⟨w, hw⟩ := regArea_ok hwf hi
  obtain ⟨r1, hr1⟩ := cornerPair_ok hwf hs (ch := s.y) hd (Nat.mod_lt (dir + 1) (by omega : 0 < 4))
  obtain ⟨r2, hr2⟩ := cornerPair_ok hwf hs (ch := r1.1) (Nat.mod_lt (dir + 1) (by omega : 0 < 4)) hd
  unfold getCornerHeight
  simp only [idx_some hs, bind_ok, hw, hr1, hr2]
  exact ⟨_, rfl⟩

end

theorem corner_ok {x z d : Nat} (hx : x < 65535) (hz : z < 65535) : corner x z d = .ok (cornerOf x z d) := by
  unfold corner cornerOf addU16
  match d with
  | 0 => simp only [if_pos (show z + 1 ≤ 65535 by omega), bind_ok]
  | 1 => simp only [if_pos (show z + 1 ≤ 65535 by omega), if_pos (show x + 1 ≤ 65535 by omega), bind_ok]
  | 2 => simp only [if_pos (show x + 1 ≤ 65535 by omega), bind_ok]
  | d + 3 => rfl

/-- Bits 4 to 7 of all flags are clear. -/
def HighClear (flags : List (BitVec 8)) : Prop := ∀ (j : Nat) (f : BitVec 8), flags[j]? = some f → ∀ d, 4 ≤ d → f.getLsbD d = false

theorem HighClear.set {flags : List (BitVec 8)} (h : HighClear flags) {i : Nat} {f : BitVec 8} (hf : ∀ d, 4 ≤ d → f.getLsbD d = false) :
    HighClear (flags.set i f) := by
  intro j g hg
  rw [List.getElem?_set] at hg
  split at hg
  · split at hg
    · cases hg; exact hf
    · cases hg
  · exact h j g hg

/-- A walk state that is consistent with the field. -/
structure WalkOk (chf : CompactHeightfield) (w : Walk) : Prop where
  i_lt : w.i < chf.spans.length
  x_eq : w.x = chf.xOf w.i
  z_eq : w.z = chf.zOf w.i
  dir_lt : w.dir < 4
  flags_len : w.flags.length = chf.spans.length
  high : HighClear w.flags

section
variable {chf : CompactHeightfield} (hwf : chf.WellFormed)
include hwf

theorem walkEdge_ok (area : Area) {w : Walk} (hw : chf.WalkOk w) (f : BitVec 8) : ∃ y wd,
    chf.walkEdge area w f = .ok { w with dir := (w.dir + 1) % 4, flags := w.flags.set w.i (f &&& ~~~(1#8 <<< w.dir)), points := w.points ++ [(⟨(cornerOf w.x w.z w.dir).1, y, (cornerOf w.x w.z w.dir).2⟩, wd)] } := by
  obtain ⟨hi, hx, hz, hd, hfl, _⟩ := hw
  obtain ⟨⟨y, bv⟩, hr⟩ := getCornerHeight_ok hwf hi hd
  obtain ⟨s, hs⟩ := span_get hwf hi
  obtain ⟨bx, bz, _⟩ := xz_spec hwf hi
  have hwx := hwf.width_u16
  have hhx := hwf.height_u16
  have hrg : ∃ p, chf.sideInfo area w.x w.z s w.dir = .ok p := by
    unfold sideInfo
    cases hc : s.con w.dir with
    | none => exact ⟨_, rfl⟩
    | some con =>
      obtain ⟨k, hk, hkl, hci⟩ := conIndices_of_con hwf hs hd hc
      obtain ⟨sk, hsk⟩ := span_get hwf hkl
      have ha : k < chf.areas.length := by rw [hwf.areas_len]; exact hkl
      simp only [hx, hz, hci, bind_ok, idx_some hsk, idx_ok ha]
      exact ⟨_, rfl⟩
  obtain ⟨p, hp⟩ := hrg
  refine ⟨y, vertexWord p.1 bv p.2, ?_⟩
  unfold walkEdge
  rw [← hx, ← hz] at hr
  simp only [hr, bind_ok, corner_ok (x := w.x) (z := w.z) (by omega) (by omega), idx_some hs]
  rw [hp]
  simp only [bind_ok, setIdx_ok (show w.i < w.flags.length by omega)]

theorem walkMove_ok {w : Walk} (hw : chf.WalkOk w) : chf.walkMove w = .ok ((chf.nbr w.i w.dir).map fun k =>
      { w with x := chf.xOf k, z := chf.zOf k, i := k, dir := (w.dir + 3) % 4 }) := by
  obtain ⟨hi, hx, hz, hd, hfl, _⟩ := hw
  obtain ⟨s, hs⟩ := span_get hwf hi
  unfold walkMove
  rw [idx_some hs, bind_ok]
  cases hc : s.con w.dir with
  | none =>
    have hnn : chf.nbr w.i w.dir = none := by
      cases hn : chf.nbr w.i w.dir with
      | none => rfl
      | some k => obtain ⟨s', con, hs', hc', _⟩ := nbr_con hwf hn hd; rw [hs] at hs'; cases hs'; rw [hc] at hc'; cases hc'
    rw [hnn]; rfl
  | some con =>
    obtain ⟨k, hk, hkl, _, hm⟩ := nbr_of_con hwf hs hd hc
    rw [← hx, ← hz] at hm
    simp only [hm, bind_ok, hk, Option.map_some]

theorem walkOk_move {w : Walk} (hw : chf.WalkOk w) {k : Nat} (hk : chf.nbr w.i w.dir = some k) :
    chf.WalkOk { w with x := chf.xOf k, z := chf.zOf k, i := k, dir := (w.dir + 3) % 4 } :=
  ⟨(nbr_lt hwf hw.dir_lt hk).2, rfl, rfl, Nat.mod_lt _ (by omega), hw.flags_len, hw.high⟩

theorem walkOk_edge {w : Walk} (hw : chf.WalkOk w) {f : BitVec 8} (hf : ∀ d, 4 ≤ d → f.getLsbD d = false) (p : U16Vec3 × Nat) :
    chf.WalkOk { w with dir := (w.dir + 1) % 4, flags := w.flags.set w.i f, points := w.points ++ [p] } :=
  ⟨hw.i_lt, hw.x_eq, hw.z_eq, Nat.mod_lt _ (by omega), by simp [hw.flags_len], hw.high.set hf⟩

/-- What one iteration of the walk does. -/
theorem walkLoop_succ (area : Area) (startI startDir n : Nat) {w : Walk} (hw : chf.WalkOk w) :
    ∃ f, w.flags[w.i]? = some f ∧
    ((f.getLsbD w.dir = true ∧ ∃ y wd, ∃ w', w' = { w with dir := (w.dir + 1) % 4, flags := w.flags.set w.i (f &&& ~~~(1#8 <<< w.dir)), points := w.points ++ [(⟨(cornerOf w.x w.z w.dir).1, y, (cornerOf w.x w.z w.dir).2⟩, wd)] } ∧ chf.WalkOk w' ∧
      chf.walkLoop area startI startDir (n + 1) w = if startI = w'.i ∧ startDir = w'.dir then .ok w' else chf.walkLoop area startI startDir n w') ∨
    (f.getLsbD w.dir = false ∧ chf.nbr w.i w.dir = none ∧ chf.walkLoop area startI startDir (n + 1) w = .ok w) ∨
    (f.getLsbD w.dir = false ∧ ∃ k, chf.nbr w.i w.dir = some k ∧ ∃ w', w' = { w with x := chf.xOf k, z := chf.zOf k, i := k, dir := (w.dir + 3) % 4 } ∧ chf.WalkOk w' ∧
      chf.walkLoop area startI startDir (n + 1) w = if startI = w'.i ∧ startDir = w'.dir then .ok w' else chf.walkLoop area startI startDir n w')) := by
  have hi : w.i < w.flags.length := by rw [hw.flags_len]; exact hw.i_lt
  refine ⟨w.flags[w.i], List.getElem?_eq_getElem hi, ?_⟩
  rw [walkLoop, idx_ok hi, bind_ok]
  cases hf : (w.flags[w.i]).getLsbD w.dir with
  | true =>
    left
    obtain ⟨y, wd, he⟩ := walkEdge_ok hwf area hw w.flags[w.i]
    refine ⟨rfl, y, wd, _, rfl, walkOk_edge hwf hw (fun d h4 => ?_) _, ?_⟩
    · rw [BitVec.getLsbD_and, hw.high _ _ (List.getElem?_eq_getElem hi) d h4]; rfl
    simp only [if_true, he, bind_ok]
  | false =>
    right
    rw [if_neg (by simp), walkMove_ok hwf hw]
    cases hn : chf.nbr w.i w.dir with
    | none => left; exact ⟨rfl, rfl, rfl⟩
    | some k => right; exact ⟨rfl, k, rfl, _, rfl, walkOk_move hwf hw hn, rfl⟩

/-- The corner at which the side `d` starts. -/
def startCorner (x z d : Nat) : Nat × Nat := cornerOf x z ((d + 3) % 4)

theorem unit_corner {x z d : Nat} (hd : d < 4) : UnitStep (startCorner x z d) (cornerOf x z d) := by
  have : d = 0 ∨ d = 1 ∨ d = 2 ∨ d = 3 := by omega
  rcases this with rfl | rfl | rfl | rfl <;> simp [UnitStep, startCorner, cornerOf]

theorem startCorner_turn {x z d : Nat} (hd : d < 4) : startCorner x z ((d + 1) % 4) = cornerOf x z d := by
  have : d = 0 ∨ d = 1 ∨ d = 2 ∨ d = 3 := by omega
  rcases this with rfl | rfl | rfl | rfl <;> rfl

theorem startCorner_move {i d k : Nat} (hd : d < 4) (hk : chf.nbr i d = some k) :
    startCorner (chf.xOf k) (chf.zOf k) ((d + 3) % 4) = startCorner (chf.xOf i) (chf.zOf i) d := by
  obtain ⟨s, con, _, _, _, hn, _⟩ := nbr_con hwf hk hd
  have : d = 0 ∨ d = 1 ∨ d = 2 ∨ d = 3 := by omega
  rcases this with rfl | rfl | rfl | rfl <;> simp only [neighbourCell] at hn <;> split at hn <;>
    simp only [Option.some.injEq, Prod.mk.injEq, reduceCtorEq] at hn <;>
    simp [startCorner, cornerOf] <;> omega

/-- Unit steps from `c` over the points of the list, ending at `e`. -/
def Steps : Nat × Nat → RawContour → Nat × Nat → Prop
  | c, [], e => c = e
  | c, p :: l, e => UnitStep c p.1.xz ∧ Steps p.1.xz l e

theorem steps_append {c : Nat × Nat} {l : RawContour} {p : U16Vec3 × Nat} {e : Nat × Nat} (h : Steps c l e) (hp : UnitStep e p.1.xz) :
    Steps c (l ++ [p]) p.1.xz := by
  induction l generalizing c with
  | nil => cases h; exact ⟨hp, rfl⟩
  | cons q l ih => exact ⟨h.1, ih h.2⟩

/-- The walk never fails, keeps the flags' shape, and its points form a unit-step path that starts where it started and
ends at the corner where it stands. -/
theorem walkLoop_ok (area : Area) (startI startDir : Nat) (c : Nat × Nat) : ∀ (n : Nat) (w : Walk), chf.WalkOk w →
    Steps c w.points (startCorner w.x w.z w.dir) → ∃ w', chf.walkLoop area startI startDir n w = .ok w' ∧ chf.WalkOk w' ∧
      Steps c w'.points (startCorner w'.x w'.z w'.dir) ∧ w'.points.length ≤ w.points.length + n ∧ w.points.length ≤ w'.points.length := by
  intro n
  induction n with
  | zero => intro w hw hs; exact ⟨w, rfl, hw, hs, by omega, by omega⟩
  | succ n ih =>
    intro w hw hs
    obtain ⟨f, hf, h⟩ := walkLoop_succ hwf area startI startDir n hw
    rcases h with ⟨_, y, wd, w', rfl, hw', he⟩ | ⟨_, _, he⟩ | ⟨_, k, hk, w', rfl, hw', he⟩
    · have hst : Steps c (w.points ++ [(⟨(cornerOf w.x w.z w.dir).1, y, (cornerOf w.x w.z w.dir).2⟩, wd)]) (startCorner w.x w.z ((w.dir + 1) % 4)) := by
        rw [startCorner_turn hwf hw.dir_lt]
        exact steps_append hwf hs (unit_corner hwf hw.dir_lt)
      rw [he]
      split
      · exact ⟨_, rfl, hw', hst, by simp, by simp⟩
      · obtain ⟨w2, h1, h2, h3, h4, h5⟩ := ih _ hw' hst
        refine ⟨w2, h1, h2, h3, ?_, ?_⟩
        · simp at h4; omega
        · simp at h5; omega
    · exact ⟨w, he, hw, hs, by omega, by omega⟩
    · have hst : Steps c w.points (startCorner (chf.xOf k) (chf.zOf k) ((w.dir + 3) % 4)) := by
        rw [startCorner_move hwf hw.dir_lt hk, ← hw.x_eq, ← hw.z_eq]; exact hs
      rw [he]
      split
      · exact ⟨_, rfl, hw', hst, by simp, by simp⟩
      · obtain ⟨w2, h1, h2, h3, h4, h5⟩ := ih _ hw' hst
        exact ⟨w2, h1, h2, h3, by simp at h4; omega, h5⟩

theorem firstDir_ok {f : BitVec 8} (h : ∃ d < 4, f.getLsbD d = true) : ∃ d < 4, f.getLsbD d = true ∧ firstDir f 8 0 = .ok d := by
  simp only [firstDir]
  cases h0 : f.getLsbD 0 with
  | true => exact ⟨0, by omega, h0, by simp⟩
  | false =>
    cases h1 : f.getLsbD 1 with
    | true => exact ⟨1, by omega, h1, by simp⟩
    | false =>
      cases h2 : f.getLsbD 2 with
      | true => exact ⟨2, by omega, h2, by simp⟩
      | false =>
        cases h3 : f.getLsbD 3 with
        | true => exact ⟨3, by omega, h3, by simp⟩
        | false =>
          obtain ⟨d, hd, hb⟩ := h
          have : d = 0 ∨ d = 1 ∨ d = 2 ∨ d = 3 := by omega
          rcases this with rfl | rfl | rfl | rfl <;> simp_all

theorem walkContour_ok {i : Nat} {flags : List (BitVec 8)} (hlen : flags.length = chf.spans.length) (hhi : HighClear flags) {f : BitVec 8}
    (hf : flags[i]? = some f) (hd : ∃ d < 4, f.getLsbD d = true) :
    ∃ r c e, chf.walkContour (chf.xOf i) (chf.zOf i) i flags = .ok r ∧ r.1.length = chf.spans.length ∧ HighClear r.1 ∧ r.2 ≠ [] ∧
      r.2.length ≤ 40000 ∧ Steps c r.2 e := by
  have hi : i < chf.spans.length := by rw [← hlen]; exact (List.getElem?_eq_some_iff.1 hf).1
  have ha : i < chf.areas.length := by rw [hwf.areas_len]; exact hi
  obtain ⟨d, hd4, hbit, hfd⟩ := firstDir_ok hwf hd
  unfold walkContour
  rw [idx_some hf, bind_ok, hfd, bind_ok, idx_ok ha, bind_ok]
  have hw0 : chf.WalkOk ⟨chf.xOf i, chf.zOf i, i, d, flags, []⟩ := ⟨hi, rfl, rfl, hd4, hlen, hhi⟩
  -- the first iteration records a vertex
  obtain ⟨f', hf', h⟩ := walkLoop_succ hwf chf.areas[i] i d 39999 hw0
  simp only at hf'
  rw [hf] at hf'; cases hf'
  rcases h with ⟨_, y, wd, w', rfl, hw', he⟩ | ⟨hb, _⟩ | ⟨hb, _⟩
  · have hst : Steps (startCorner (chf.xOf i) (chf.zOf i) d) [(⟨(cornerOf (chf.xOf i) (chf.zOf i) d).1, y, (cornerOf (chf.xOf i) (chf.zOf i) d).2⟩, wd)]
        (startCorner (chf.xOf i) (chf.zOf i) ((d + 1) % 4)) := by
      rw [startCorner_turn hwf hd4]
      exact ⟨unit_corner hwf hd4, rfl⟩
    have he' : chf.walkLoop chf.areas[i] i d WALK_LIMIT ⟨chf.xOf i, chf.zOf i, i, d, flags, []⟩ = _ := he
    rw [he']
    simp only
    split
    · refine ⟨_, _, _, rfl, by simp [hlen], hw'.high, by simp, by simp, hst⟩
    · obtain ⟨w2, h1, h2, h3, h4, h5⟩ := walkLoop_ok hwf chf.areas[i] i d _ 39999 _ hw' hst
      rw [h1, bind_ok]
      refine ⟨_, _, _, rfl, h2.flags_len, h2.high, ?_, ?_, h3⟩
      · intro h0
        simp only at h0
        rw [h0] at h5; simp at h5
      · simp at h4; show w2.points.length ≤ 40000; omega
  · rw [hb] at hbit; cases hbit
  · rw [hb] at hbit; cases hbit

end
end CompactHeightfield
end Rerecast
