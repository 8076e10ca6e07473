import Verif.Lemmas.HeightGather
/-! The walk to the centre of a polygon, and the complete height patch. -/
set_option linter.unusedVariables false
namespace Rerecast
variable {A : Fault → Prop}
namespace HeightPatch
open CompactHeightfield
variable {chf : CompactHeightfield} {bs : Nat} {F : Type} {o : FloatOps F}

/-- Span `i` lies inside the patch. -/
def Inside (chf : CompactHeightfield) (bs : Nat) (hp : HeightPatch) (i : Nat) : Prop :=
  i < chf.spans.length ∧ hp.InPatch bs (chf.xOf i) (chf.zOf i)

/-- The entry of span `i` on the stack of the walk; its coordinates leave out the border. -/
def walkSeed (chf : CompactHeightfield) (bs i : Nat) : Seed := ((chf.xOf i : Int) - bs, (chf.zOf i : Int) - bs, i)

/-- The span found so far. -/
def StartOk (chf : CompactHeightfield) (bs : Nat) (hp : HeightPatch) (st : Start) : Prop :=
  ∀ i, st.span = some i → Inside chf bs hp i ∧ (st.x, st.z, i) = walkSeed chf bs i

theorem startCell_out (hwf : chf.WellFormed) {hp : HeightPatch} (hxf : hp.xmin + hp.width + bs ≤ chf.width) (hzf : hp.zmin + hp.height + bs ≤ chf.height)
    {v : Vec3 F} {st : Start} (h : StartOk chf bs hp st) (off : Int × Int) : Outs A (startCell o chf hp bs v st off) (StartOk chf bs hp) := by
  unfold startCell
  split
  · exact Outs.ok h
  · dsimp only
    split
    · exact Outs.ok h
    · rename_i hc
      simp only [Bool.or_eq_true, decide_eq_true_eq, not_or, not_lt, ge_iff_le, not_le] at hc
      obtain ⟨x, hx⟩ : ∃ x : Nat, o.toI32 v.x + off.1 = x := ⟨(o.toI32 v.x + off.1).toNat, by omega⟩
      obtain ⟨z, hz⟩ : ∃ z : Nat, o.toI32 v.z + off.2 = z := ⟨(o.toI32 v.z + off.2).toNat, by omega⟩
      rw [hx, hz] at hc
      rw [hx, hz]
      have hcol : (x + bs) + (z + bs) * chf.width < chf.cells.length := by
        rw [hwf.cells_len]; exact col_lt (by omega) (by omega)
      have hidx : idxI chf.cells ((x : Int) + bs + ((z : Int) + bs) * chf.width) = idx chf.cells ((x + bs) + (z + bs) * chf.width) := by
        unfold idxI
        have e : (x : Int) + bs + ((z : Int) + bs) * chf.width = ((x + bs + (z + bs) * chf.width : Nat) : Int) := by push_cast; ring
        rw [e, if_neg (by omega), Int.toNat_natCast]
      rw [hidx, idx_ok hcol, bind_ok]
      have hce := List.getElem?_eq_getElem hcol
      generalize chf.cells[(x + bs) + (z + bs) * chf.width] = c at hce ⊢
      refine Outs.foldlM_inv (StartOk chf bs hp) _ _ h ?_
      intro i hi st hst
      unfold startSpan
      have hl := mem_cell_lt hwf hce hi
      rw [idx_ok hl, bind_ok]
      dsimp only
      split
      · refine Outs.ok ?_
        intro j hj
        cases hj
        have hat : chf.At (x + bs) (z + bs) i _ := ⟨by omega, by omega, List.getElem?_eq_getElem hl, c, hce, hi⟩
        have := at_unique hwf hat
        refine ⟨⟨hl, ?_⟩, ?_⟩
        · unfold InPatch; omega
        · unfold walkSeed
          simp only [Prod.mk.injEq, and_true]
          omega
      · exact Outs.ok hst

theorem startCorner_out (hwf : chf.WellFormed) {hp : HeightPatch} (hxf : hp.xmin + hp.width + bs ≤ chf.width) (hzf : hp.zmin + hp.height + bs ≤ chf.height)
    (hA : A .panic) {verts : List (Vec3 F)} {st : Start} (h : StartOk chf bs hp st) (j : Nat) :
    Outs A (startCorner o chf hp bs verts st j) (StartOk chf bs hp) := by
  unfold startCorner
  split
  · exact Outs.ok h
  · unfold idx
    cases verts[j]? with
    | none => exact Outs.error hA
    | some v =>
      show Outs A (seedOffsets.foldlM (startCell o chf hp bs v) st) _
      exact Outs.foldlM_inv (StartOk chf bs hp) _ _ h fun off _ st hst => startCell_out hwf hxf hzf hst off

/-! ### The walk -/

/-- Number of cells not yet visited by the walk. -/
def zeros (hp : HeightPatch) : Nat := (hp.data.take hp.dataLen).countP (· == 0)

theorem zeros_set {hp : HeightPatch} (hlen : hp.dataLen ≤ hp.data.length) {k : Nat} (hk : k < hp.dataLen) (hold : hp.data[k]? = some 0) :
    ({ hp with data := hp.data.set k 1 } : HeightPatch).zeros + 1 = hp.zeros := by
  unfold zeros
  show ((hp.data.set k 1).take hp.dataLen).countP _ + 1 = _
  rw [List.take_set, List.countP_set (by simp; omega)]
  have hk2 : k < hp.data.length := by omega
  have e : (hp.data.take hp.dataLen)[k]'(by simp; omega) = 0 := by
    rw [List.getElem_take]
    rw [List.getElem?_eq_getElem hk2] at hold
    exact Option.some.inj hold
  rw [e]
  have hpos : 0 < (hp.data.take hp.dataLen).countP (· == 0) := by
    rw [List.countP_pos_iff]
    exact ⟨0, by rw [← e]; exact List.getElem_mem _, by simp⟩
  simp
  omega

theorem walkDirs_out (cx cz pcx pcz : Int) (h : ¬ (cx = pcx ∧ cz = pcz)) : Outs A (walkDirs cx cz pcx pcz) fun ds => ∀ d ∈ ds, d < 4 := by
  unfold walkDirs
  have key : ∀ d : Int, d = 0 ∨ d = 1 ∨ d = 2 ∨ d = 3 → Outs A (if d < 0 || d > 3 then (.error .panic : Res (List Nat))
      else .ok ((([0, 1, 2, 3] : List Nat).set d.toNat 3).set 3 d.toNat)) fun ds => ∀ d ∈ ds, d < 4 := by
    rintro d (rfl | rfl | rfl | rfl) <;> exact Outs.ok (by decide)
  split
  · split
    · exact (Outs.of_eq (P := fun d => d = 1) (show dirOffset 0 1 = .ok 1 from rfl) rfl).bind fun d hd => key d (by omega)
    · exact (Outs.of_eq (P := fun d => d = 3) (show dirOffset 0 (-1) = .ok 3 from rfl) rfl).bind fun d hd => key d (by omega)
  · split
    · exact (Outs.of_eq (P := fun d => d = 2) (show dirOffset 1 0 = .ok 2 from rfl) rfl).bind fun d hd => key d (by omega)
    · exact (Outs.of_eq (P := fun d => d = 0) (show dirOffset (-1) 0 = .ok 0 from rfl) rfl).bind fun d hd => key d (by omega)

/-- The state of the walk. -/
def WalkInv (chf : CompactHeightfield) (bs : Nat) (hp0 : HeightPatch) (n : Nat) (st : HeightPatch × List Seed) : Prop :=
  Alike hp0 st.1 ∧ ∃ is : List Nat, st.2 = is.map (walkSeed chf bs) ∧ (∀ i ∈ is, Inside chf bs hp0 i) ∧ is.length + st.1.zeros ≤ n

theorem walkDir_out (hwf : chf.WellFormed) {hp0 : HeightPatch} (hlen : hp0.dataLen ≤ hp0.data.length) {i : Nat} {s : CompactSpan}
    (hs : chf.spans[i]? = some s) {n : Nat} {st : HeightPatch × List Seed} (h : WalkInv chf bs hp0 n st) {d : Nat} (hd : d < 4) :
    Outs A (walkDir chf bs ((chf.xOf i : Int) - bs) ((chf.zOf i : Int) - bs) s st d) (WalkInv chf bs hp0 n) := by
  obtain ⟨hp, q⟩ := st
  obtain ⟨hal, is, hq, his, hn⟩ := h
  dsimp only at hal hq hn
  have hlen' : hp.dataLen ≤ hp.data.length := by
    rw [hal.len]; unfold dataLen; rw [hal.width, hal.height]; exact hlen
  have hsame : WalkInv chf bs hp0 n (hp, q) := ⟨hal, is, hq, his, hn⟩
  unfold walkDir
  cases hc : s.con d with
  | none => exact Outs.ok hsame
  | some con =>
    obtain ⟨nb, k, t, hnbr, hk, hcell, ht, hx, hz⟩ := step_of_con hwf hs hd hc
    dsimp only
    rw [show (chf.xOf i : Int) - bs + dirOffsetX d = (chf.xOf k : Int) - bs by omega, show (chf.zOf i : Int) - bs + dirOffsetZ d = (chf.zOf k : Int) - bs by omega]
    split
    · exact Outs.ok hsame
    · rename_i hin
      simp only [Bool.or_eq_true, decide_eq_true_eq, not_or, not_lt, ge_iff_le, not_le] at hin
      obtain ⟨x, hxe⟩ : ∃ x, chf.xOf k = x + hp.xmin + bs := ⟨chf.xOf k - hp.xmin - bs, by omega⟩
      obtain ⟨z, hze⟩ : ∃ z, chf.zOf k = z + hp.zmin + bs := ⟨chf.zOf k - hp.zmin - bs, by omega⟩
      have hxw : x < hp.width := by omega
      have hzh : z < hp.height := by omega
      rw [show (chf.xOf k : Int) - bs - hp.xmin = (x : Int) by omega, show (chf.zOf k : Int) - bs - hp.zmin = (z : Int) by omega]
      obtain ⟨hlt, hda⟩ := dataAt_eq hlen' hxw hzh
      have hlt2 : x + z * hp.width < hp.data.length := by omega
      rw [hda, idx_ok hlt2, bind_ok]
      have hold := List.getElem?_eq_getElem hlt2
      generalize hp.data[x + z * hp.width] = old at hold ⊢
      split
      · exact Outs.ok hsame
      · rename_i hne
        rw [not_not] at hne
        subst hne
        have hidx : idxI chf.cells ((chf.xOf k : Int) - bs + bs + ((chf.zOf k : Int) - bs + bs) * chf.width) = .ok nb := by
          unfold idxI
          rw [show (chf.xOf k : Int) - bs + bs + ((chf.zOf k : Int) - bs + bs) * chf.width = ((chf.xOf k + chf.zOf k * chf.width : Nat) : Int) by push_cast; ring]
          rw [if_neg (by omega), Int.toNat_natCast]
          exact idx_some hcell
        rw [setDataAt_eq hlen' hxw hzh, bind_ok, hidx, bind_ok, ← hk]
        refine Outs.ok ⟨hal.trans ⟨rfl, rfl, rfl, rfl, by simp⟩, is ++ [k], ?_, ?_, ?_⟩
        · rw [hq, List.map_append]; rfl
        · intro j hj
          rcases List.mem_append.1 hj with h1 | h1
          · exact his j h1
          · rw [List.mem_singleton] at h1
            subst h1
            refine ⟨(List.getElem?_eq_some_iff.1 ht).1, ?_⟩
            rw [← hal.inPatch]
            unfold InPatch
            omega
        · have := zeros_set hlen' hlt hold
          simp only [List.length_append, List.length_singleton]
          omega

theorem walk_out (hwf : chf.WellFormed) {hp0 : HeightPatch} (hlen : hp0.dataLen ≤ hp0.data.length) (pcx pcz : Int) :
    ∀ (fuel : Nat) (hp : HeightPatch) (stack : List Seed) (last : Option Seed), WalkInv chf bs hp0 fuel (hp, stack) →
    (∀ e, last = some e → ∃ i, e = walkSeed chf bs i ∧ Inside chf bs hp0 i) →
    Outs A (walk chf bs pcx pcz fuel hp stack last) fun r => Alike hp0 r.1 ∧ ∀ e, r.2 = some e → ∃ i, e = walkSeed chf bs i ∧ Inside chf bs hp0 i := by
  intro fuel
  induction fuel with
  | zero =>
    rintro hp stack last ⟨hal, is, hq, his, hn⟩ hlast
    dsimp only at hal hq hn
    have : is = [] := List.length_eq_zero_iff.1 (by omega)
    subst this
    subst hq
    exact Outs.ok ⟨hal, hlast⟩
  | succ fuel ih =>
    rintro hp stack last ⟨hal, is, hq, his, hn⟩ hlast
    dsimp only at hal hq hn
    subst hq
    unfold walk
    rw [List.getLast?_map]
    cases hl : is.getLast? with
    | none => exact Outs.ok ⟨hal, hlast⟩
    | some i =>
      have hmem : i ∈ is := List.mem_of_getLast? hl
      have hi := his i hmem
      have hsplit : is = is.dropLast ++ [i] := by
        obtain ⟨l, rfl⟩ := List.getLast?_eq_some_iff.1 hl
        simp
      dsimp only [Option.map, walkSeed]
      split
      · refine Outs.ok ⟨hal, ?_⟩
        intro e he
        cases he
        exact ⟨i, rfl, hi⟩
      · rename_i hne
        refine (walkDirs_out _ _ _ _ hne).bind ?_
        intro dirs hdirs
        have hspan := List.getElem?_eq_getElem hi.1
        rw [idx_ok hi.1, bind_ok]
        generalize chf.spans[i]'hi.1 = s at hspan ⊢
        have hlen2 : is.length = is.dropLast.length + 1 := by
          conv_lhs => rw [hsplit]
          simp
        have hstep : Outs A (dirs.foldlM (walkDir chf bs ((chf.xOf i : Int) - bs) ((chf.zOf i : Int) - bs) s) (hp, (is.map (walkSeed chf bs)).dropLast))
            (WalkInv chf bs hp0 fuel) := by
          refine Outs.foldlM_inv (WalkInv chf bs hp0 fuel) _ _ ?_ ?_
          · refine ⟨hal, is.dropLast, by rw [List.map_dropLast], fun j hj => his j (List.mem_of_mem_dropLast hj), ?_⟩
            dsimp only
            omega
          · intro d hd st hst
            exact walkDir_out hwf hlen hspan hst (hdirs d hd)
        refine hstep.bind ?_
        rintro ⟨hp', stack'⟩ hst
        exact ih hp' stack' _ hst fun e he => by cases he; exact ⟨i, rfl, hi⟩

theorem seedCenter_out (hwf : chf.WellFormed) (hy : ∀ s ∈ chf.spans, s.y ≠ 0xFFFF) {hp : HeightPatch} (hlen : hp.dataLen ≤ hp.data.length)
    (hxf : hp.xmin + hp.width + bs ≤ chf.width) (hzf : hp.zmin + hp.height + bs ≤ chf.height) (hA : A .panic) {poly : List Nat} {verts : List (Vec3 F)} :
    Outs A (seedCenter o chf hp poly verts bs) fun r => Alike hp r.1 ∧ ∃ i, r.2 = [seedOf chf i] ∧ FloodInv chf bs (· = i) (· = i) r.1 := by
  unfold seedCenter
  have hstart : Outs A (poly.foldlM (startCorner o chf hp bs verts) ⟨0, 0, none, UNSET_HEIGHT⟩) (StartOk chf bs hp) :=
    Outs.foldlM_inv (StartOk chf bs hp) _ _ (fun i hi => by cases hi) fun j _ st hst => startCorner_out hwf hxf hzf hA hst j
  refine hstart.bind ?_
  rintro ⟨sx, sz, span, dmin⟩ hst
  cases span with
  | none => exact Outs.error hA
  | some si =>
    obtain ⟨hin, hseed⟩ := hst si rfl
    dsimp only at hseed ⊢
    have hcen : Outs A (center o verts poly) fun _ => True := by
      unfold center
      refine Outs.bind (P := fun _ => True) (Outs.foldlM_inv (fun _ => True) _ _ trivial ?_) ?_
      · intro j _ c _
        unfold idx
        cases verts[j]? with
        | none => exact Outs.error hA
        | some v => exact Outs.ok trivial
      · intro c _
        split
        · exact Outs.error hA
        · exact Outs.ok trivial
    refine hcen.bind ?_
    rintro ⟨pcx, pcz⟩ _
    dsimp only
    obtain ⟨hp1, hf1, hal1, hz1⟩ := fill_out (v := 0) hlen
    rw [hf1, bind_ok]
    have hlen1 : hp1.dataLen ≤ hp1.data.length := by
      rw [hal1.len]; unfold dataLen; rw [hal1.width, hal1.height]; exact hlen
    have hw := walk_out (A := A) (bs := bs) hwf hlen1 pcx pcz (hp1.dataLen + 1) hp1 [(sx, sz, si)] none
      ⟨Alike.refl _, [si], by rw [hseed]; rfl, by
        intro j hj
        rw [List.mem_singleton] at hj
        subst hj
        exact ⟨hin.1, hal1.inPatch.2 hin.2⟩, by
        dsimp only
        have : hp1.zeros ≤ hp1.dataLen := by unfold zeros; exact List.countP_le_length.trans (by simp)
        simp only [List.length_singleton]
        omega⟩ (fun e he => by cases he)
    refine hw.bind ?_
    rintro ⟨hp2, last⟩ ⟨hal2, hlast⟩
    dsimp only at hal2 hlast ⊢
    cases last with
    | none => exact Outs.error hA
    | some e =>
      obtain ⟨i, rfl, hi⟩ := hlast e rfl
      have hal12 := hal1.trans hal2
      have hlen2 : hp2.dataLen ≤ hp2.data.length := by
        rw [hal12.len]; unfold dataLen; rw [hal12.width, hal12.height]; exact hlen
      obtain ⟨hp3, hf3, hal3, hz3⟩ := fill_out (v := UNSET_HEIGHT) hlen2
      dsimp only [walkSeed]
      rw [hf3, bind_ok]
      have hspan := List.getElem?_eq_getElem hi.1
      rw [idx_ok hi.1, bind_ok]
      generalize chf.spans[i]'hi.1 = s at hspan ⊢
      have hal03 := hal12.trans hal3
      have hlen3 : hp3.dataLen ≤ hp3.data.length := by
        rw [hal03.len]; unfold dataLen; rw [hal03.width, hal03.height]; exact hlen
      have hin3 : hp3.InPatch bs (chf.xOf i) (chf.zOf i) := (hal2.trans hal3).inPatch.2 hi.2
      obtain ⟨x, hxe⟩ : ∃ x, chf.xOf i = x + hp3.xmin + bs := ⟨chf.xOf i - hp3.xmin - bs, by unfold InPatch at hin3; omega⟩
      obtain ⟨z, hze⟩ : ∃ z, chf.zOf i = z + hp3.zmin + bs := ⟨chf.zOf i - hp3.zmin - bs, by unfold InPatch at hin3; omega⟩
      have hxw : x < hp3.width := by unfold InPatch at hin3; omega
      have hzh : z < hp3.height := by unfold InPatch at hin3; omega
      have hset : setIdxI hp3.data ((chf.xOf i : Int) - bs - hp3.xmin + ((chf.zOf i : Int) - bs - hp3.zmin) * hp3.width) (s.y) =
          .ok (hp3.data.set (x + z * hp3.width) (s.y)) := by
        unfold setIdxI
        rw [show (chf.xOf i : Int) - bs - hp3.xmin = (x : Int) by omega, show (chf.zOf i : Int) - bs - hp3.zmin = (z : Int) by omega]
        rw [show (x : Int) + (z : Int) * hp3.width = ((x + z * hp3.width : Nat) : Int) by push_cast; ring]
        rw [if_neg (by omega), Int.toNat_natCast]
        refine setIdx_ok ?_
        have h1 : x + z * hp3.width < hp3.width * hp3.height := col_lt hxw hzh
        have h2 : hp3.dataLen = hp3.width * hp3.height := rfl
        omega
      rw [hset, bind_ok]
      have hun : ∀ k < hp3.dataLen, hp3.data[k]? = some UNSET_HEIGHT := by
        intro k hk
        refine hz3 k ?_
        unfold dataLen at hk ⊢
        rwa [hal3.width, hal3.height] at hk
      refine Outs.ok ⟨hal03.trans ⟨rfl, rfl, rfl, rfl, by simp⟩, i, ?_, ?_⟩
      · show [((chf.xOf i : Int) - bs + bs, (chf.zOf i : Int) - bs + bs, i)] = _
        unfold seedOf
        simp
      · have := (floodInv_empty (chf := chf) (bs := bs) (root := (· = i)) hun).add (k := i) hwf hlen3 (Or.inl rfl) hspan hxe hze hxw hzh
          (hun _ (col_lt hxw hzh)) (hy _ (List.mem_of_getElem? hspan))
        exact this.congr fun j => by simp

/-! ### The complete patch -/

theorem FloodInv.covers {root C : Nat → Prop} {hp : HeightPatch} (hwf : chf.WellFormed) (h : FloodInv chf bs root C hp) (hr : ∀ i, root i → C i)
    (hcl : ∀ i, C i → ClosedAt chf bs C hp [0, 1, 2, 3] i) : hp.Covers chf bs root C := by
  refine ⟨?_, ?_, ?_, hr, h.reached, ?_⟩
  · intro i hi
    exact ⟨_, _, _, at_spec hwf (List.getElem?_eq_getElem (h.lt i hi)), h.inside i hi⟩
  · intro i j x z s t hi hj hai haj
    have e1 := at_unique hwf hai
    have e2 := at_unique hwf haj
    exact h.one i j hi hj (by omega) (by omega)
  · intro x z v
    rw [h.has]
    constructor
    · rintro ⟨i, s, hi, hs, e1, e2, rfl⟩
      exact ⟨i, s, hi, by rw [← e1, ← e2]; exact at_spec hwf hs, rfl⟩
    · rintro ⟨i, s, hi, hat, rfl⟩
      have e := at_unique hwf hat
      exact ⟨i, s, hi, hat.2.2.1, by omega, by omega, rfl⟩
  · intro i d k x z t hi hd hl hat hin
    have e := at_unique hwf hat
    obtain ⟨j, hj, e1, e2⟩ := hcl i hi d (by simp; omega) k ((nbr_iff_link hwf hd).2 hl) (by rw [← e.1, ← e.2]; exact hin)
    refine ⟨j, chf.spans[j]'(h.lt j hj), hj, ?_⟩
    rw [e.1, e.2, ← e1, ← e2]
    exact at_spec hwf (List.getElem?_eq_getElem (h.lt j hj))

theorem lowest_iff (hwf : chf.WellFormed) {hp : HeightPatch} {region i : Nat} : Lowest chf bs region hp i ↔ hp.IsRoot chf bs region i := by
  constructor
  · rintro ⟨⟨s, hs, hr⟩, hin, hmin⟩
    refine ⟨_, _, s, at_spec hwf hs, hin, hr, ?_⟩
    intro j t hat hrt
    have e := at_unique hwf hat
    exact hmin j t hat.2.2.1 hrt e.1.symm e.2.symm
  · rintro ⟨x, z, s, hat, hin, hr, hmin⟩
    obtain ⟨rfl, rfl⟩ := at_unique hwf hat
    refine ⟨⟨s, hat.2.2.1, hr⟩, hin, ?_⟩
    intro j t ht hrt e1 e2
    have := at_spec hwf ht
    rw [e1, e2] at this
    exact hmin j t this hrt

/-- A cell of the patch with a span of the region has a lowest one. -/
theorem exists_lowest {hp : HeightPatch} {region k : Nat} {t : CompactSpan} (ht : chf.spans[k]? = some t) (hr : t.region = region)
    (hin : hp.InPatch bs (chf.xOf k) (chf.zOf k)) : ∃ i, Lowest chf bs region hp i ∧ chf.xOf i = chf.xOf k ∧ chf.zOf i = chf.zOf k := by
  classical
  have hex : ∃ j, (∃ t, chf.spans[j]? = some t ∧ t.region = region) ∧ chf.xOf j = chf.xOf k ∧ chf.zOf j = chf.zOf k := ⟨k, ⟨t, ht, hr⟩, rfl, rfl⟩
  obtain ⟨h1, h2, h3⟩ := Nat.find_spec hex
  refine ⟨Nat.find hex, ⟨h1, by rw [h2, h3]; exact hin, ?_⟩, h2, h3⟩
  intro j t' ht' hr' e1 e2
  exact Nat.find_min' hex ⟨⟨t', ht', hr'⟩, by omega, by omega⟩

/-- The result of `get_height_data`: if the region occurs in the patch, the heights start from its lowest spans; otherwise from a single
span, unless none is found. -/
theorem getHeightData_out (hwf : chf.WellFormed) (hy : ∀ s ∈ chf.spans, s.y ≠ 0xFFFF) {hp : HeightPatch} (hlen : hp.dataLen ≤ hp.data.length)
    (hxf : hp.xmin + hp.width + bs ≤ chf.width) (hzf : hp.zmin + hp.height + bs ≤ chf.height) {poly : List Nat} {verts : List (Vec3 F)} {region : Nat} :
    Outs (fun e => e = .panic ∧ (region = REGION_NONE ∨ ∀ i, ¬ hp.IsRoot chf bs region i)) (getHeightData o chf hp poly verts bs region) fun hp' =>
      Alike hp hp' ∧ ((region ≠ REGION_NONE ∧ (∃ i, hp.IsRoot chf bs region i) ∧ ∃ C, hp'.Covers chf bs (hp.IsRoot chf bs region) C) ∨
        ((region = REGION_NONE ∨ ∀ i, ¬ hp.IsRoot chf bs region i) ∧ ∃ i C, hp'.Covers chf bs (· = i) C)) := by
  have hw := hwf.width_u16
  have hh := hwf.height_u16
  unfold getHeightData
  obtain ⟨hp1, hf1, hal1, hz1⟩ := fill_out (v := UNSET_HEIGHT) hlen
  rw [hf1, bind_ok]
  have hlen1 : hp1.dataLen ≤ hp1.data.length := by
    rw [hal1.len]; unfold dataLen; rw [hal1.width, hal1.height]; exact hlen
  have hun : ∀ k < hp1.dataLen, hp1.data[k]? = some UNSET_HEIGHT := by
    intro k hk
    refine hz1 k ?_
    unfold dataLen at hk ⊢
    rwa [hal1.width, hal1.height] at hk
  have hroots : Lowest chf bs region hp1 = hp.IsRoot chf bs region := by
    funext i
    rw [← lowest_iff hwf, hal1.lowest]
  refine (gather_out (region := region) hwf hy hlen1 (by rw [hal1.xmin, hal1.width]; exact hxf) (by rw [hal1.zmin, hal1.height]; exact hzf) hun).bind ?_
  have hcell : ∀ i, Lowest chf bs region hp1 i → ∃ p ∈ gridCells hp1.width hp1.height, chf.xOf i = p.1 + hp1.xmin + bs ∧ chf.zOf i = p.2 + hp1.zmin + bs := by
    rintro i ⟨_, hin, _⟩
    unfold InPatch at hin
    exact ⟨(chf.xOf i - hp1.xmin - bs, chf.zOf i - hp1.zmin - bs), mem_gridCells.2 ⟨by omega, by omega⟩, by dsimp only; omega, by dsimp only; omega⟩
  have hcenter : ∀ (hp2 : HeightPatch), Alike hp1 hp2 → (region = REGION_NONE ∨ ∀ i, ¬ hp.IsRoot chf bs region i) →
      Outs (fun e => e = Fault.panic ∧ (region = REGION_NONE ∨ ∀ i, ¬ hp.IsRoot chf bs region i)) (do
        let (hp, queue) ← seedCenter o chf hp2 poly verts bs
        flood chf bs (queue.length + hp.dataLen) hp queue 0) fun hp' =>
      Alike hp hp' ∧ ((region ≠ REGION_NONE ∧ (∃ i, hp.IsRoot chf bs region i) ∧ ∃ C, hp'.Covers chf bs (hp.IsRoot chf bs region) C) ∨
        ((region = REGION_NONE ∨ ∀ i, ¬ hp.IsRoot chf bs region i) ∧ ∃ i C, hp'.Covers chf bs (· = i) C)) := by
    intro hp2 hal2 hno
    have hal02 := hal1.trans hal2
    have hlen2 : hp2.dataLen ≤ hp2.data.length := by
      rw [hal02.len]; unfold dataLen; rw [hal02.width, hal02.height]; exact hlen
    refine (seedCenter_out hwf hy hlen2 (by rw [hal02.xmin, hal02.width]; exact hxf) (by rw [hal02.zmin, hal02.height]; exact hzf) ⟨rfl, hno⟩).bind ?_
    rintro ⟨hp3, q⟩ ⟨hal3, i, hq, hinv⟩
    dsimp only at hal3 hq hinv ⊢
    subst hq
    have hal03 := hal02.trans hal3
    have hlen3 : hp3.dataLen ≤ hp3.data.length := by
      rw [hal03.len]; unfold dataLen; rw [hal03.width, hal03.height]; exact hlen
    rw [flood_fifo _ _ _ _ _ _ (by omega) (by omega), List.drop_zero]
    have := fifo_out (A := fun e => e = Fault.panic ∧ (region = REGION_NONE ∨ ∀ i, ¬ hp.IsRoot chf bs region i)) (root := (· = i)) (bs := bs) hwf hy
      ([seedOf chf i].length + hp3.dataLen) hp3 [i] (· = i) (by rw [hal03.width]; omega) (by rw [hal03.height]; omega) hlen3 hinv (by simp) (by simp)
      (by have := hp3.unset_le; simp only [List.length_singleton]; omega)
    refine this.mono ?_
    rintro hp' ⟨hal', C, hC, hsub, hcl⟩
    refine ⟨hal03.trans hal', Or.inr ⟨hno, i, C, hC.covers hwf hsub ?_⟩⟩
    exact fun j hj d hd k hk hk' => hcl j hj d hd k hk (hal'.inPatch.1 hk')
  rintro g (⟨hr, hg⟩ | ⟨hr, rfl⟩)
  · cases he : g.empty with
    | true =>
      rw [if_pos rfl]
      refine hcenter g.hp hg.alike (Or.inr ?_)
      intro i hi
      rw [← hroots] at hi
      exact hg.empty.1 he i hi (hcell i hi)
    | false =>
      rw [if_neg (by simp), bind_ok]
      dsimp only
      obtain ⟨is, hq, his, hcl⟩ := hg.queue
      have hal02 := hal1.trans hg.alike
      have hlen2 : g.hp.dataLen ≤ g.hp.data.length := by
        rw [hal02.len]; unfold dataLen; rw [hal02.width, hal02.height]; exact hlen
      have hinv := hg.inv.congr (C' := Lowest chf bs region hp1) fun i => ⟨fun h => h.1, fun h => ⟨h, hcell i h⟩⟩
      rw [flood_fifo _ _ _ _ _ _ (by omega) (by omega), List.drop_zero, hq]
      have := fifo_out (A := fun e => e = Fault.panic ∧ (region = REGION_NONE ∨ ∀ i, ¬ hp.IsRoot chf bs region i)) (root := Lowest chf bs region hp1) (bs := bs)
        hwf hy ((is.map (seedOf chf)).length + g.hp.dataLen) g.hp is (Lowest chf bs region hp1) (by rw [hal02.width]; omega) (by rw [hal02.height]; omega) hlen2
        hinv his (by
          intro i hi
          rcases hcl i hi (hcell i hi) with h1 | h1
          · exact Or.inl h1
          · right
            intro d hd k hk hin
            obtain ⟨t, ht, hrt⟩ := h1 d (by simp at hd; omega) k hk
            exact exists_lowest ht hrt (hg.alike.inPatch.1 hin))
        (by have := g.hp.unset_le; simp only [List.length_map]; omega)
      refine this.mono ?_
      rintro hp' ⟨hal', C, hC, hsub, hcl'⟩
      have hex : ∃ i, hp.IsRoot chf bs region i := by
        by_contra hcon
        have : g.empty = true := hg.empty.2 fun i hi _ => hcon ⟨i, by rw [← hroots]; exact hi⟩
        rw [he] at this
        cases this
      refine ⟨hal02.trans hal', Or.inl ⟨hr, hex, C, ?_⟩⟩
      rw [← hroots]
      exact hC.covers hwf hsub fun j hj d hd k hk hk' => hcl' j hj d hd k hk (hal'.inPatch.1 hk')
  · rw [if_pos rfl]
    exact hcenter hp1 (Alike.refl _) (Or.inl hr)

end HeightPatch
end Rerecast
