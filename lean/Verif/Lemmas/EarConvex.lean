import Verif.Lemmas.EarCut
/-! Ear cutting of strictly convex polygons never gets stuck. -/
set_option linter.unusedVariables false
namespace Rerecast

theorem cross_cyc (a b c : U16Vec3) : cross b c a = cross a b c := by unfold cross; ring

/-- All corners of the ring, in order, turn the same way. -/
def ConvexRing (verts : List U16Vec3) (ps : Ring) : Prop :=
  ∀ i j k : Nat, i < j → j < k → k < ps.length → cross (ringAt verts ps i) (ringAt verts ps j) (ringAt verts ps k) < 0

theorem ringAt_map {verts : List U16Vec3} {ps qs : Ring} (h : qs.map Prod.fst = ps.map Prod.fst) (i : Nat) :
    ringAt verts qs i = ringAt verts ps i := by
  have e : ∀ ps : Ring, (ps.getD i (0, false)).1 = (ps.map Prod.fst).getD i 0 := by
    intro ps
    simp only [List.getD_eq_getElem?_getD, List.getElem?_map]
    cases ps[i]? <;> rfl
  unfold ringAt
  rw [e, e, h]

theorem ConvexRing.congr {verts : List U16Vec3} {ps qs : Ring} (h : ConvexRing verts ps) (e : qs.map Prod.fst = ps.map Prod.fst) :
    ConvexRing verts qs := by
  intro i j k hij hjk hk
  rw [map_fst_length e] at hk
  rw [ringAt_map e, ringAt_map e, ringAt_map e]
  exact h i j k hij hjk hk

theorem ringAt_eraseIdx {verts : List U16Vec3} {ps : Ring} (i j : Nat) :
    ringAt verts (ps.eraseIdx i) j = ringAt verts ps (if j < i then j else j + 1) := by
  unfold ringAt
  simp only [List.getD_eq_getElem?_getD, List.getElem?_eraseIdx]
  split <;> rfl

theorem ConvexRing.erase {verts : List U16Vec3} {ps : Ring} (h : ConvexRing verts ps) {i : Nat} (hi : i < ps.length) :
    ConvexRing verts (ps.eraseIdx i) := by
  intro a b c hab hbc hc
  rw [List.length_eraseIdx, if_pos hi] at hc
  rw [ringAt_eraseIdx, ringAt_eraseIdx, ringAt_eraseIdx]
  refine h _ _ _ ?_ ?_ ?_ <;> (repeat' split) <;> omega

/-- Three positions in cyclic order turn the same way. -/
theorem ConvexRing.cyc {verts : List U16Vec3} {ps : Ring} (h : ConvexRing verts ps) {i p q a b c : Nat} (hi : i < ps.length)
    (hp : 0 < p) (hpq : p < q) (hq : q < ps.length) (ha : a = i) (hb : b = (i + p) % ps.length) (hc : c = (i + q) % ps.length) :
    cross (ringAt verts ps a) (ringAt verts ps b) (ringAt verts ps c) < 0 := by
  subst ha
  have hb' : b = if a + p < ps.length then a + p else a + p - ps.length := by
    split
    · rwa [Nat.mod_eq_of_lt (by omega)] at hb
    · rwa [Nat.mod_eq_sub_mod (by omega), Nat.mod_eq_of_lt (by omega)] at hb
  have hc' : c = if a + q < ps.length then a + q else a + q - ps.length := by
    split
    · rwa [Nat.mod_eq_of_lt (by omega)] at hc
    · rwa [Nat.mod_eq_sub_mod (by omega), Nat.mod_eq_of_lt (by omega)] at hc
  split at hb' <;> split at hc'
  · exact h a b c (by omega) (by omega) (by omega)
  · rw [← cross_cyc, ← cross_cyc]; exact h c a b (by omega) (by omega) (by omega)
  · omega
  · rw [← cross_cyc]; exact h b c a (by omega) (by omega) (by omega)

theorem isDiagonalB_convex {verts : List U16Vec3} {ps : Ring} (h : ConvexRing verts ps) (hn : 3 < ps.length) {i j : Nat} (hi : i < ps.length)
    (hj : j = (i + 2) % ps.length) : isDiagonalB verts ps i j = true := by
  have hjlt : j < ps.length := hj ▸ Nat.mod_lt _ (by omega)
  unfold isDiagonalB
  rw [Bool.and_eq_true]
  constructor
  · unfold inConeB leftB
    simp only
    have h1 := h.cyc (i := i) (p := 1) (q := ps.length - 1) hi (by omega) (by omega) (by omega) rfl rfl
      (c := (i + ps.length - 1) % ps.length) (by congr 1; omega)
    have h2 := h.cyc (i := i) (p := 2) (q := ps.length - 1) hi (by omega) (by omega) (by omega) rfl hj
      (c := (i + ps.length - 1) % ps.length) (by congr 1; omega)
    have h3 := h.cyc (i := i) (p := 1) (q := 2) hi (by omega) (by omega) (by omega) rfl rfl hj
    rw [← cross_cyc, ← cross_cyc] at h1
    rw [← cross_cyc, ← cross_cyc] at h3
    rw [if_pos (by simpa using le_of_lt h1)]
    simp [h2, h3]
  · unfold diagonalFreeB
    rw [List.all_eq_true]
    intro k hk
    have hk : k < ps.length := by simpa using hk
    unfold edgeFreeB
    simp only
    by_cases hc : k = i ∨ (k + 1) % ps.length = i ∨ k = j ∨ (k + 1) % ps.length = j
    · rw [decide_eq_true hc]; rfl
    · simp only [not_or] at hc
      obtain ⟨c1, c2, c3, c4⟩ := hc
      -- k = i + r with 3 ≤ r ≤ n - 2
      obtain ⟨r, hr, hkr⟩ : ∃ r, r < ps.length ∧ k = (i + r) % ps.length := by
        rcases Nat.lt_or_ge k i with hlt | hge
        · refine ⟨k + ps.length - i, by omega, ?_⟩
          rw [show i + (k + ps.length - i) = ps.length + k by omega, Nat.add_mod_left, Nat.mod_eq_of_lt hk]
        · exact ⟨k - i, by omega, by rw [show i + (k - i) = k by omega, Nat.mod_eq_of_lt hk]⟩
      have hk1 : (k + 1) % ps.length = (i + (r + 1)) % ps.length := by rw [hkr, Nat.mod_add_mod]; congr 1
      have hr0 : r ≠ 0 := fun h0 => c1 (by rw [hkr, h0]; exact Nat.mod_eq_of_lt hi)
      have hr2 : r ≠ 2 := fun h0 => c3 (by rw [hkr, h0, hj])
      have hr1 : r ≠ 1 := fun h0 => c4 (by rw [hk1, h0, hj])
      have hrn : r + 1 ≠ ps.length := fun h0 => c2 (by rw [hk1, h0, Nat.add_mod_right, Nat.mod_eq_of_lt hi])
      have x1 := h.cyc (i := i) (p := 2) (q := r) hi (by omega) (by omega) hr rfl hj hkr
      have x2 := h.cyc (i := i) (p := 2) (q := r + 1) hi (by omega) (by omega) (by omega) rfl hj hk1
      have x3 := h.cyc (i := i) (p := r) (q := r + 1) hi (by omega) (by omega) (by omega) rfl hkr hk1
      have x4 := h.cyc (i := j) (p := r - 2) (q := r - 1) hjlt (by omega) (by omega) (by omega) rfl
        (b := k) (by rw [hj, Nat.mod_add_mod, hkr]; congr 1; omega) (c := (k + 1) % ps.length)
        (by rw [hk1, hj, Nat.mod_add_mod]; congr 1; omega)
      rw [← cross_cyc] at x3 x4
      have hx : intersectB (ringAt verts ps i) (ringAt verts ps j) (ringAt verts ps k) (ringAt verts ps ((k + 1) % ps.length)) = false := by
        unfold intersectB intersectPropB betweenB
        simp [ne_of_lt x1, ne_of_lt x2, ne_of_lt x3, ne_of_lt x4, x1, x2]
      rw [hx]; simp

theorem isDiagonalB_map {verts : List U16Vec3} {ps qs : Ring} (h : qs.map Prod.fst = ps.map Prod.fst) (i j : Nat) :
    isDiagonalB verts qs i j = isDiagonalB verts ps i j := by
  unfold isDiagonalB inConeB diagonalFreeB edgeFreeB
  simp only [map_fst_length h, ringAt_map h]

variable {A : Fault → Prop}

theorem flagEars_convex {verts : List U16Vec3} {ps : Ring} (h : RingOk A verts ps) (hc : ConvexRing verts ps) (hn : 3 < ps.length) :
    Outs A (flagEars verts ps) fun qs => qs.map Prod.fst = ps.map Prod.fst ∧ ∀ p ∈ qs, p.2 = true := by
  unfold flagEars
  have := Outs.foldlM (A := A) (f := fun (ps : Ring) i => do
    let i1 := (i + 1) % ps.length
    let d ← isDiagonal verts ps i ((i1 + 1) % ps.length)
    if d then setFlag ps i1 true else .ok ps)
    (fun pre (qs : Ring) => qs.map Prod.fst = ps.map Prod.fst ∧ ∀ i ∈ pre, (qs.map Prod.snd)[(i + 1) % ps.length]? = some true)
    (List.range ps.length) ps ⟨rfl, by simp⟩ (by
      intro pre i post qs hl ⟨hq, hf⟩
      have hlen := map_fst_length hq
      have hi : i < ps.length := by
        have : i ∈ List.range ps.length := by rw [hl]; simp
        simpa using this
      have hok : RingOk A verts qs := h.congr (by rw [hq]; exact fun _ h => h)
      have h0 : 0 < qs.length := by omega
      refine (isDiagonal_out hok (by omega) (Nat.mod_lt _ h0)).bind fun d hd => ?_
      rw [isDiagonalB_map hq, isDiagonalB_convex hc hn hi (by rw [hlen, Nat.mod_add_mod])] at hd
      subst hd
      refine (setFlag_out (Nat.mod_lt _ h0) _).mono fun rs hr => ⟨hr.1.trans hq, ?_⟩
      intro k hk
      rw [hr.2, hlen, List.getElem?_set]
      split
      · rename_i he
        rw [if_pos (by simp [hlen, Nat.mod_lt _ (show 0 < ps.length by omega)])]
      · rename_i he
        rw [List.mem_append, List.mem_singleton] at hk
        rcases hk with hk | rfl
        · exact hf k hk
        · exact absurd rfl he)
  refine this.mono fun qs ⟨hq, hf⟩ => ⟨hq, fun p hp => ?_⟩
  have hlen := map_fst_length hq
  obtain ⟨j, hj⟩ := List.mem_iff_getElem?.1 hp
  have hjl : j < ps.length := by rw [← hlen]; exact (List.getElem?_eq_some_iff.1 hj).1
  have := hf ((j + ps.length - 1) % ps.length) (by simpa using Nat.mod_lt _ (by omega))
  rw [Nat.mod_add_mod, show j + ps.length - 1 + 1 = j + ps.length by omega, Nat.add_mod_right, Nat.mod_eq_of_lt hjl] at this
  simpa [hj] using this

theorem findEar_flagged {verts : List U16Vec3} {ps : Ring} (h : RingOk A verts ps) (hf : ∀ p ∈ ps, p.2 = true) (hn : 0 < ps.length) :
    Outs A (findEar verts ps) fun r => ∃ i, r = some i ∧ i < ps.length := by
  unfold findEar
  refine Outs.bind (P := fun best => ∃ b, best = some b ∧ b.2 < ps.length) ?_ fun best ⟨b, hb, hlt⟩ => ?_
  · have := Outs.foldlM (A := A) (f := earStep verts ps)
      (fun pre best => (∀ b, best = some b → b.2 < ps.length) ∧ (pre ≠ [] → best ≠ none)) (List.range ps.length) none
      ⟨by simp, by simp⟩ (by
        intro pre i post best hl ⟨hb, _⟩
        have hi : i < ps.length := by
          have : i ∈ List.range ps.length := by rw [hl]; simp
          simpa using this
        unfold earStep
        simp only
        rw [idx_ok (Nat.mod_lt _ hn), bind_ok, hf _ (List.getElem_mem _)]
        simp only [if_true]
        refine (ringVert_out h hi).bind fun p0 ⟨_, s0⟩ => ?_
        refine (ringVert_out h (Nat.mod_lt _ hn)).bind fun p2 ⟨_, s2⟩ => ?_
        refine (cutLength_out (or_and s0 s2)).bind fun len _ => Outs.ok ⟨shorter_lt hb hi, fun _ => ?_⟩
        unfold shorter
        split
        · simp
        · split <;> simp)
    refine this.mono fun best ⟨hb, hne⟩ => ?_
    have hne := hne (by intro h0; rw [List.range_eq_nil] at h0; omega)
    cases best with
    | none => exact absurd rfl hne
    | some b => exact ⟨b, rfl, hb b rfl⟩
  · subst hb
    exact Outs.ok ⟨b.2, rfl, hlt⟩

theorem cutRing_convex {verts : List U16Vec3} {ps : Ring} (h : RingOk A verts ps) (hc : ConvexRing verts ps) (hf : ∀ p ∈ ps, p.2 = true)
    {i : Nat} (hi : i < ps.length) (hn : 4 < ps.length) :
    Outs A (cutRing verts ps i) fun qs => ∀ p ∈ qs, p.2 = true := by
  unfold cutRing
  simp only
  have hl : (ps.eraseIdx i).length = ps.length - 1 := by rw [List.length_eraseIdx]; simp [hi]
  have hok : RingOk A verts (ps.eraseIdx i) := h.congr fun x hx => by
    rw [eraseIdx_map] at hx; exact List.mem_of_mem_eraseIdx hx
  have hc' := hc.erase hi
  have hf' : ∀ p ∈ ps.eraseIdx i, p.2 = true := fun p hp => hf p (List.mem_of_mem_eraseIdx hp)
  generalize hqs : ps.eraseIdx i = qs at *
  have h0 : 0 < qs.length := by omega
  have h1 : (if i ≥ qs.length then 0 else i) < qs.length := by split <;> omega
  generalize (if i ≥ qs.length then 0 else i) = i1 at h1 ⊢
  have allTrue : ∀ (qs rs : Ring) (k : Nat), (∀ p ∈ qs, p.2 = true) → rs.map Prod.snd = (qs.map Prod.snd).set k true → ∀ p ∈ rs, p.2 = true := by
    intro qs rs k hq hr p hp
    have : p.2 ∈ (qs.map Prod.snd).set k true := by rw [← hr]; exact List.mem_map_of_mem hp
    rcases List.mem_or_eq_of_mem_set this with h | h
    · obtain ⟨q, hq', he⟩ := List.mem_map.1 h
      rw [← he]; exact hq q hq'
    · exact h
  have wrap : ∀ a b : Nat, (a % qs.length + b) % qs.length = (a + b) % qs.length := fun a b => Nat.mod_add_mod a qs.length b
  refine (isDiagonal_out hok (Nat.mod_lt _ h0) h1).bind fun d hd => ?_
  rw [isDiagonalB_convex hc' (by omega) (Nat.mod_lt _ h0) (by
    rw [wrap]
    have e : ((i1 + qs.length - 1) % qs.length + qs.length - 1) + 2 = (i1 + qs.length - 1) % qs.length + (qs.length + 1) := by omega
    rw [e, wrap, show i1 + qs.length - 1 + (qs.length + 1) = i1 + qs.length + qs.length by omega, Nat.add_mod_right,
      Nat.add_mod_right, Nat.mod_eq_of_lt h1])] at hd
  subst hd
  refine (setFlag_out (Nat.mod_lt _ h0) _).bind fun rs hr => ?_
  have hlr := map_fst_length hr.1
  have hok2 : RingOk A verts rs := hok.congr (by rw [hr.1]; exact fun _ h => h)
  have hc2 := hc'.congr hr.1
  refine (isDiagonal_out hok2 (by rw [hlr]; exact Nat.mod_lt _ h0) (by rw [hlr]; exact Nat.mod_lt _ h0)).bind fun d2 hd2 => ?_
  rw [isDiagonalB_convex hc2 (by omega) (by rw [hlr]; exact Nat.mod_lt _ h0) (by
    rw [hlr, wrap, show i1 + qs.length - 1 + 2 = (i1 + 1) + qs.length by omega, Nat.add_mod_right])] at hd2
  subst hd2
  refine (setFlag_out (by rw [hlr]; exact h1) _).mono fun ts ht => ?_
  exact allTrue _ _ _ (allTrue _ _ _ hf' hr.2) ht.2

theorem cutLoop_convex {verts : List U16Vec3} : ∀ (fuel : Nat) (ps : Ring) (T : List Tri), RingOk A verts ps → ConvexRing verts ps →
    (3 < ps.length → ∀ p ∈ ps, p.2 = true) → 3 ≤ ps.length → (∀ t ∈ T, t.turn verts < 0) → ps.length ≤ fuel + 3 →
    Outs A (cutLoop verts fuel ps T) fun T => ∀ t ∈ T, t.turn verts < 0 := by
  have turn : ∀ (ps : Ring), ConvexRing verts ps → 3 ≤ ps.length → ∀ i (hi : i < ps.length) i1 i2, i1 = (i + 1) % ps.length →
      i2 = (i1 + 1) % ps.length → ∀ (h1 : i1 < ps.length) (h2 : i2 < ps.length),
      Tri.turn verts (ps[i].1, ps[i1].1, ps[i2].1) < 0 := by
    intro ps hc h3 i hi i1 i2 e1 e2 h1 h2
    have := hc.cyc (i := i) (p := 1) (q := 2) hi (by omega) (by omega) (by omega) rfl e1 (c := i2)
      (by rw [e2, e1, Nat.mod_add_mod])
    have e : ∀ k (hk : k < ps.length), ringAt verts ps k = verts.getD ps[k].1 ⟨0, 0, 0⟩ := by
      intro k hk; unfold ringAt; simp [List.getD_eq_getElem?_getD, hk]
    rw [e i hi, e i1 h1, e i2 h2] at this
    exact this
  have last : ∀ (ps : Ring) (T : List Tri), ConvexRing verts ps → 3 ≤ ps.length → ¬ 3 < ps.length → (∀ t ∈ T, t.turn verts < 0) →
      Outs A (ringTri ps 0 1 2 >>= fun t => Except.ok (T ++ [t])) fun T => ∀ t ∈ T, t.turn verts < 0 := by
    intro ps T hc h3 hn hT
    unfold ringTri
    rw [idx_ok (show 0 < ps.length by omega), bind_ok, idx_ok (show 1 < ps.length by omega), bind_ok,
      idx_ok (show 2 < ps.length by omega)]
    refine Outs.ok ?_
    intro t ht
    rw [List.mem_append, List.mem_singleton] at ht
    rcases ht with ht | rfl
    · exact hT t ht
    · exact turn ps hc h3 0 (by omega) 1 2 (by rw [Nat.mod_eq_of_lt]; omega) (by rw [Nat.mod_eq_of_lt]; omega) (by omega) (by omega)
  intro fuel
  induction fuel with
  | zero =>
    intro ps T hok hc hf h3 hT hfuel
    unfold cutLoop
    rw [if_neg (by omega)]
    exact last ps T hc h3 (by omega) hT
  | succ fuel ih =>
    intro ps T hok hc hf h3 hT hfuel
    unfold cutLoop
    split
    · rename_i hl
      refine (findEar_flagged hok (hf hl) (by omega)).bind fun ear ⟨i, hear, hi⟩ => ?_
      subst hear
      simp only
      have h0 : 0 < ps.length := by omega
      have h1 : (i + 1) % ps.length < ps.length := Nat.mod_lt _ h0
      have h2 : ((i + 1) % ps.length + 1) % ps.length < ps.length := Nat.mod_lt _ h0
      unfold ringTri
      rw [idx_ok hi, bind_ok, idx_ok h1, bind_ok, idx_ok h2, bind_ok]
      simp only [bind_ok]
      have hcut : Outs A (cutRing verts ps ((i + 1) % ps.length)) fun qs => 3 < qs.length → ∀ p ∈ qs, p.2 = true := by
        by_cases h4 : 4 < ps.length
        · exact (cutRing_convex hok hc (hf hl) h1 h4).mono fun qs h _ => h
        · refine (cutRing_out hok h1 hl).mono fun qs hq h3' => ?_
          have := congrArg List.length hq
          rw [List.length_eraseIdx] at this
          simp [h1] at this
          omega
      refine (hcut.and_holds (cutRing_out hok h1 hl).holds).bind fun qs ⟨hfq, hq⟩ => ?_
      have hlq : qs.length = ps.length - 1 := by
        have := congrArg List.length hq
        rw [List.length_eraseIdx] at this
        simpa [h1] using this
      refine ih qs _ (hok.congr ?_) ?_ hfq (by omega) ?_ (by omega)
      · intro x hx; rw [hq] at hx; exact List.mem_of_mem_eraseIdx hx
      · exact (hc.erase h1).congr (by rw [hq, eraseIdx_map])
      · intro t ht
        rw [List.mem_append, List.mem_singleton] at ht
        rcases ht with ht | rfl
        · exact hT t ht
        · exact turn ps hc h3 i hi _ _ rfl rfl h1 h2
    · exact last ps T hc h3 (by omega) hT

theorem triangulate_convex {verts : List U16Vec3} (h3 : 3 ≤ verts.length) (hs : ∀ v ∈ verts, v.Small)
    (hconv : StrictlyConvex verts) :
    ∃ T, triangulate verts = .ok T ∧ TriOk verts.length T ∧ ∀ t ∈ T, t.turn verts < 0 := by
  have main : Outs (fun _ => False) (triangulate verts) fun T => ∀ t ∈ T, t.turn verts < 0 := by
    unfold triangulate
    have hlen : ((List.range verts.length).map fun i => (i, false) : Ring).length = verts.length := by simp
    have hok : RingOk (fun _ => False) verts ((List.range verts.length).map fun i => (i, false)) := by
      refine ⟨?_, Or.inl hs⟩
      intro p hp
      obtain ⟨i, hi, rfl⟩ := List.mem_map.1 hp
      simpa using hi
    have hc : ConvexRing verts ((List.range verts.length).map fun i => (i, false)) := by
      intro i j k hij hjk hk
      rw [hlen] at hk
      have e : ∀ m (hm : m < verts.length), ringAt verts ((List.range verts.length).map fun i => (i, false)) m = verts[m] := by
        intro m hm; unfold ringAt; simp [List.getD_eq_getElem?_getD, hm]
      rw [e i (by omega), e j (by omega), e k hk]
      exact hconv i j k hij hjk hk
    have hflag : Outs (fun _ => False) (flagEars verts ((List.range verts.length).map fun i => (i, false))) fun qs =>
        qs.map Prod.fst = ((List.range verts.length).map fun i => (i, false) : Ring).map Prod.fst ∧ (3 < qs.length → ∀ p ∈ qs, p.2 = true) := by
      by_cases hn : 3 < verts.length
      · exact (flagEars_convex hok hc (by omega)).mono fun qs h => ⟨h.1, fun _ => h.2⟩
      · refine (flagEars_out hok).mono fun qs h => ⟨h, fun h' => ?_⟩
        have := map_fst_length h
        omega
    refine hflag.bind fun qs ⟨hq, hf⟩ => ?_
    have hlq := map_fst_length hq
    exact cutLoop_convex _ qs [] (hok.congr (by rw [hq]; exact fun _ h => h)) (hc.congr hq) hf (by omega) (by simp) (by omega)
  obtain ⟨T, hT, hturn⟩ := main.total (fun _ h => h)
  exact ⟨T, hT, (triangulate_out (A := fun _ => True) trivial h3 (Or.inr trivial)).holds T hT, hturn⟩

end Rerecast
