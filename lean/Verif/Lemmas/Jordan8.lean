import Verif.Lemmas.Jordan7
/-! The triangulation cuts off ears of a contour that does not touch itself, until a triangle is left. -/
namespace Rerecast.Jordan
open List

/-- The corner `q` can be cut off. -/
def Tip (l : List Point) (q : Point) : Prop := ∃ a c, Ear l a q c

theorem Tip.rotated {l m : List Point} (h : l ~r m) {q : Point} (T : Tip l q) : Tip m q := by
  obtain ⟨a, c, E⟩ := T
  exact ⟨a, c, E.rotated h⟩

theorem rotated_tail {b : Point} {u v : List Point} (h : (b :: u) ~r (b :: v)) (hn : (b :: u).Nodup) : u = v := by
  obtain ⟨n, hle, hr⟩ := List.isRotated_iff_mod.1 h
  rw [List.rotate_eq_drop_append_take hle] at hr
  have hs := List.take_append_drop n (b :: u)
  generalize List.take n (b :: u) = s at *
  generalize List.drop n (b :: u) = t at *
  cases s with
  | nil => simp at hs hr; rw [hr] at hs; simpa using hs.symm
  | cons x s =>
    cases t with
    | nil => simp only [List.append_nil, List.nil_append] at hs hr; rw [hr] at hs; simpa using hs.symm
    | cons y t =>
      simp only [List.cons_append, List.cons.injEq] at hs hr
      rw [← hs.2, hr.1] at hn
      simp at hn

/-- Cutting off an ear. -/
theorem erase_ear {l : List Point} (S : SimplePolygon l) (hk : ValAll l 0) (hl : 4 ≤ l.length) {a c : Point} {i : Nat} (hi : i < l.length) (E : Ear l a l[i] c) :
    SimplePolygon (l.eraseIdx i) ∧ ValAll (l.eraseIdx i) 0 ∧ ∀ q ∈ l, q ≠ a → q ≠ l[i] → q ≠ c → (Tip l q ↔ Tip (l.eraseIdx i) q) := by
  have hbX : l = l.take i ++ l[i] :: l.drop (i + 1) := by
    rw [← List.drop_eq_getElem_cons hi, List.take_append_drop]
  have hX : l.eraseIdx i = l.take i ++ l.drop (i + 1) := List.eraseIdx_eq_take_drop_succ l i
  rw [hX]
  generalize l[i] = b at *
  generalize l.take i = X at *
  generalize l.drop (i + 1) = Y at *
  obtain ⟨m, hm⟩ := corner_decomp S E.first E.second
  have hlen := hm.perm.length_eq
  simp only [List.length_cons] at hlen
  have hm0 : m ≠ [] := by rintro rfl; simp at hlen; omega
  obtain ⟨l2, d, rfl⟩ : ∃ m' d, m = m' ++ [d] := ⟨_, _, (List.dropLast_append_getLast hm0).symm⟩
  have hd : (d, a) ∈ sides l := by
    rw [← (sides_isRotated hm).mem_iff]
    have : a :: b :: c :: (l2 ++ [d]) = a :: ((b :: c :: l2) ++ [d]) := by simp
    rw [this, sides_part]; simp
  have hr : (a :: (b :: [] ++ c :: (l2 ++ [d]))) ~r l := hm
  have C : Cut a c (b :: []) (l2 ++ [d]) := cut_diagonal (simple_rotated hr.symm S) (hk.rotated hr.symm) ((E.diagonal S hl).rotated hr.symm) (E.cone S hl hd)
  have hrot : (c :: (l2 ++ [d]) ++ [a]) ~r (X ++ Y) := by
    have r1 : (b :: (Y ++ X)) ~r l := by
      conv_rhs => rw [hbX]
      have : b :: (Y ++ X) = (b :: Y) ++ X := by simp
      rw [this]
      exact List.isRotated_append
    have r2 : (b :: (c :: (l2 ++ [d]) ++ [a])) ~r l := by
      refine List.IsRotated.trans ?_ hr
      have e1 : b :: (c :: (l2 ++ [d]) ++ [a]) = (b :: c :: (l2 ++ [d])) ++ [a] := by simp
      have e2 : a :: (b :: [] ++ c :: (l2 ++ [d])) = [a] ++ (b :: c :: (l2 ++ [d])) := by simp
      rw [e1, e2]
      exact List.isRotated_append
    have hnd : (b :: (c :: (l2 ++ [d]) ++ [a])).Nodup := r2.perm.nodup_iff.2 S.corners
    have := rotated_tail (r2.trans r1.symm) hnd
    rw [this]
    exact List.isRotated_append
  have hrot' : (c :: ((l2 ++ [d]) ++ [a])) ~r (X ++ Y) := hrot
  refine ⟨simple_rotated hrot' C.part2, C.val2.rotated hrot', ?_⟩
  intro q hq na nb nc
  have hql2 : q ∈ l2 ++ [d] := by
    have := hr.mem_iff.2 hq
    simp only [List.mem_cons, List.mem_append, List.not_mem_nil, or_false] at this ⊢
    tauto
  constructor
  · rintro ⟨x, z, E'⟩
    refine Tip.rotated hrot' ⟨x, z, ?_, ?_, E'.pos, ?_⟩
    · have := (sides_isRotated hr).mem_iff.2 E'.first
      rw [sides_split] at this
      rw [sides_part]
      rcases List.mem_append.1 this with h | h
      · exfalso
        have := (path_ends' h).2
        simp [nb, nc] at this
      · exact List.mem_append_left _ h
    · have := (sides_isRotated hr).mem_iff.2 E'.second
      rw [sides_split] at this
      rw [sides_part]
      rcases List.mem_append.1 this with h | h
      · exfalso
        have := (path_ends' h).1
        simp [na, nb] at this
      · exact List.mem_append_left _ h
    · intro q' hq'
      refine E'.free q' (hr.mem_iff.1 ?_)
      simp only [List.mem_cons, List.mem_append, List.not_mem_nil, or_false] at hq' ⊢
      tauto
  · intro T
    obtain ⟨x, z, E'⟩ := Tip.rotated hrot'.symm T
    exact ⟨x, z, ((C.swap.ear E' nc na).rotated (split_rotated c a (l2 ++ [d]) [b])).rotated hr⟩

variable {A : Fault → Prop}

/-- The flags of the ring are right. -/
def Flags (verts : List U16Vec3) (ps : Ring) : Prop :=
  ∀ i, i < ps.length → ((ps.map Prod.snd)[i]? = some true ↔ Tip (pts verts ps) (pt (ringAt verts ps i)))

theorem isDiagonalB_tip {verts : List U16Vec3} {ps : Ring} (S : SimplePolygon (pts verts ps)) (hk : ValAll (pts verts ps) 0) (hl : 4 ≤ ps.length) {i j : Nat} (hi : i < ps.length)
    (hj : j = ((i + 1) % ps.length + 1) % ps.length) : isDiagonalB verts ps i j = true ↔ Tip (pts verts ps) (pt (ringAt verts ps ((i + 1) % ps.length))) := by
  subst hj
  have hl' : 4 ≤ (pts verts ps).length := by rw [pts_length]; exact hl
  rw [isDiagonalB_iff S hl hi]
  constructor
  · intro h
    exact ⟨_, _, h.ear S hk hl'⟩
  · rintro ⟨a, c, E⟩
    have s1 := side_at (verts := verts) hi
    have s2 := side_at (verts := verts) (Nat.mod_lt (i + 1) (show 0 < ps.length by omega))
    have e1 := sides_snd_inj' S.corners s1 E.first
    have e2 := sides_fst_inj S.corners s2 E.second
    rw [e1, e2]
    exact E.accept S hl'

theorem pts_map {verts : List U16Vec3} {ps qs : Ring} (h : qs.map Prod.fst = ps.map Prod.fst) : pts verts qs = pts verts ps := by
  have e : ∀ ps : Ring, pts verts ps = (ps.map Prod.fst).map fun k => pt (verts.getD k ⟨0, 0, 0⟩) := by
    intro ps; unfold pts; rw [List.map_map]; rfl
  rw [e, e, h]

theorem set_true {l : List Bool} {i j : Nat} (hi : i < l.length) (d : Bool) : (l.set i d)[j]? = some true ↔ (if i = j then d = true else l[j]? = some true) := by
  rw [List.getElem?_set]
  split
  · rename_i h
    simp [hi]
  · rfl

theorem flagEars_tip {verts : List U16Vec3} {ps : Ring} (h : RingOk A verts ps) (S : SimplePolygon (pts verts ps)) (hk : ValAll (pts verts ps) 0) (hn : 3 < ps.length)
    (h0 : ∀ p ∈ ps, p.2 = false) : Outs A (flagEars verts ps) fun qs => qs.map Prod.fst = ps.map Prod.fst ∧ Flags verts qs := by
  unfold flagEars
  have := Outs.foldlM (A := A) (f := fun (ps : Ring) i => do
    let i1 := (i + 1) % ps.length
    let d ← isDiagonal verts ps i ((i1 + 1) % ps.length)
    if d then setFlag ps i1 true else .ok ps)
    (fun pre (qs : Ring) => qs.map Prod.fst = ps.map Prod.fst ∧
      ∀ j, j < ps.length → ((qs.map Prod.snd)[j]? = some true ↔ ∃ i ∈ pre, (i + 1) % ps.length = j ∧ Tip (pts verts ps) (pt (ringAt verts ps j))))
    (List.range ps.length) ps ⟨rfl, by
      intro j hj
      simp only [List.not_mem_nil, false_and, exists_false, iff_false]
      intro hs
      rw [List.getElem?_map, List.getElem?_eq_getElem hj] at hs
      simp [h0 _ (List.getElem_mem hj)] at hs⟩ (by
      intro pre i post qs hl ⟨hq, hf⟩
      have hlen := map_fst_length hq
      have hi : i < ps.length := by
        have : i ∈ List.range ps.length := by rw [hl]; simp
        simpa using this
      have hok : RingOk A verts qs := h.congr (by rw [hq]; exact fun _ h => h)
      have h0 : 0 < qs.length := by omega
      have h1 : (i + 1) % ps.length < ps.length := Nat.mod_lt _ (by omega)
      refine (isDiagonal_out hok (by omega) (Nat.mod_lt _ h0)).bind fun d hd => ?_
      rw [isDiagonalB_map hq, hlen] at hd
      have ht := isDiagonalB_tip S hk hn hi rfl
      rw [← hd] at ht
      cases hdd : d
      · rw [hdd] at ht
        simp only [Bool.false_eq_true, if_false, false_iff] at ht ⊢
        refine Outs.ok ⟨hq, fun j hj => ?_⟩
        rw [hf j hj]
        constructor
        · rintro ⟨k, hk, e⟩; exact ⟨k, by simp [hk], e⟩
        · rintro ⟨k, hk, e, t⟩
          rw [List.mem_append, List.mem_singleton] at hk
          rcases hk with hk | rfl
          · exact ⟨k, hk, e, t⟩
          · rw [e] at ht; exact absurd t ht
      · rw [hdd] at ht
        simp only [if_true, true_iff] at ht ⊢
        refine (setFlag_out (Nat.mod_lt _ h0) _).mono fun rs hr => ⟨hr.1.trans hq, ?_⟩
        intro j hj
        rw [hr.2, hlen, set_true (by simp [hlen, h1])]
        split
        · rename_i he
          simp only [true_iff]
          exact ⟨i, by simp, he, he ▸ ht⟩
        · rename_i he
          rw [hf j hj]
          constructor
          · rintro ⟨k, hk, e⟩; exact ⟨k, by simp [hk], e⟩
          · rintro ⟨k, hk, e, t⟩
            rw [List.mem_append, List.mem_singleton] at hk
            rcases hk with hk | rfl
            · exact ⟨k, hk, e, t⟩
            · exact absurd e he)
  refine this.mono fun qs ⟨hq, hf⟩ => ⟨hq, fun j hj => ?_⟩
  have hlen := map_fst_length hq
  rw [hlen] at hj
  rw [hf j hj, pts_map hq, ringAt_map hq]
  constructor
  · rintro ⟨_, _, _, t⟩; exact t
  · intro t
    refine ⟨(j + ps.length - 1) % ps.length, by simpa using Nat.mod_lt _ (by omega), ?_, t⟩
    rw [Nat.mod_add_mod, show j + ps.length - 1 + 1 = j + ps.length by omega, Nat.add_mod_right, Nat.mod_eq_of_lt hj]

/-- The length the code compares: that of the base, truncated. -/
def cutLen (verts : List U16Vec3) (ps : Ring) (i : Nat) : Nat :=
  ((((ringAt verts ps (((i + 1) % ps.length + 1) % ps.length)).x : Int) - (ringAt verts ps i).x).natAbs ^ 2 +
    (((ringAt verts ps (((i + 1) % ps.length + 1) % ps.length)).z : Int) - (ringAt verts ps i).z).natAbs ^ 2) % 65536

theorem cutLength_val {p q : U16Vec3} (h : (p.Small ∧ q.Small) ∨ A .panic) : Outs A (cutLength p q) fun n =>
    n = (((q.x : Int) - p.x).natAbs ^ 2 + ((q.z : Int) - p.z).natAbs ^ 2) % 65536 := by
  refine ((cutLength_out h).and_holds ?_).mono fun _ h => h.2
  intro n hn
  unfold cutLength lenSqI32 at hn
  split at hn
  · rw [bind_ok] at hn
    injection hn with hn
    rw [← hn]
    have e : ∀ x : Int, x * x = ((x.natAbs ^ 2 : Nat) : Int) := by intro x; rw [Nat.cast_pow, Int.natCast_natAbs, sq_abs, sq]
    rw [e, e]
    omega
  · cases hn

theorem findEar_tip {verts : List U16Vec3} {ps : Ring} (h : RingOk A verts ps) (hn : 0 < ps.length) (hf : ∃ i, i < ps.length ∧ (ps.map Prod.snd)[i]? = some true) :
    Outs A (findEar verts ps) fun r => ∃ i, r = some i ∧ i < ps.length ∧ (ps.map Prod.snd)[(i + 1) % ps.length]? = some true ∧
      ∀ j < ps.length, (ps.map Prod.snd)[(j + 1) % ps.length]? = some true → cutLen verts ps i ≤ cutLen verts ps j := by
  unfold findEar
  refine Outs.bind (P := fun best => ∃ b, best = some b ∧ (b.2 < ps.length ∧ (ps.map Prod.snd)[(b.2 + 1) % ps.length]? = some true) ∧
      ∀ j < ps.length, (ps.map Prod.snd)[(j + 1) % ps.length]? = some true → cutLen verts ps b.2 ≤ cutLen verts ps j) ?_ fun best ⟨b, hb, hlt, hmin⟩ => ?_
  · have := Outs.foldlM (A := A) (f := earStep verts ps)
      (fun pre best => (∀ b, best = some b → b.1 = cutLen verts ps b.2 ∧ b.2 < ps.length ∧ (ps.map Prod.snd)[(b.2 + 1) % ps.length]? = some true) ∧
        ∀ i ∈ pre, (ps.map Prod.snd)[(i + 1) % ps.length]? = some true → ∃ b, best = some b ∧ b.1 ≤ cutLen verts ps i) (List.range ps.length) none
      ⟨by simp, by simp⟩ (by
        intro pre i post best hl ⟨hb, hne⟩
        have hi : i < ps.length := by
          have : i ∈ List.range ps.length := by rw [hl]; simp
          simpa using this
        have h1 : (i + 1) % ps.length < ps.length := Nat.mod_lt _ hn
        have hfl : (ps.map Prod.snd)[(i + 1) % ps.length]? = some (ps[(i + 1) % ps.length].2) := by
          rw [List.getElem?_map, List.getElem?_eq_getElem h1]; rfl
        unfold earStep
        simp only
        rw [idx_ok h1, bind_ok]
        cases hc : ps[(i + 1) % ps.length].2
        · simp only [Bool.false_eq_true, if_false]
          refine Outs.ok ⟨hb, ?_⟩
          intro k hk e
          rw [List.mem_append, List.mem_singleton] at hk
          rcases hk with hk | rfl
          · exact hne k hk e
          · rw [hfl, hc] at e; simp at e
        · simp only [if_true]
          refine (ringVert_out h hi).bind fun p0 ⟨e0, s0⟩ => ?_
          refine (ringVert_out h (Nat.mod_lt _ hn)).bind fun p2 ⟨e2, s2⟩ => ?_
          refine (cutLength_val (or_and s0 s2)).bind fun len hlen => ?_
          have hlen : len = cutLen verts ps i := by rw [hlen, e0, e2]; rfl
          refine Outs.ok ⟨?_, ?_⟩
          · intro b
            unfold shorter
            split
            · intro e; cases e; exact ⟨hlen, hi, by rw [hfl, hc]⟩
            · split
              · intro e; cases e; exact ⟨hlen, hi, by rw [hfl, hc]⟩
              · exact hb b
          · intro k hk e
            rw [List.mem_append, List.mem_singleton] at hk
            unfold shorter
            rcases hk with hk | rfl
            · obtain ⟨b, rfl, hle⟩ := hne k hk e
              dsimp only
              split
              · exact ⟨_, rfl, by dsimp only; omega⟩
              · exact ⟨_, rfl, hle⟩
            · split
              · exact ⟨_, rfl, by dsimp only; omega⟩
              · split
                · exact ⟨_, rfl, by dsimp only; omega⟩
                · exact ⟨_, rfl, by dsimp only; omega⟩)
    refine this.mono fun best ⟨hb, hne⟩ => ?_
    obtain ⟨j, hj, hjf⟩ := hf
    obtain ⟨b, rfl, _⟩ := hne ((j + ps.length - 1) % ps.length) (by simpa using Nat.mod_lt _ (by omega)) (by
      rw [Nat.mod_add_mod, show j + ps.length - 1 + 1 = j + ps.length by omega, Nat.add_mod_right, Nat.mod_eq_of_lt hj]; exact hjf)
    refine ⟨b, rfl, (hb b rfl).2, ?_⟩
    intro k hk e
    obtain ⟨b', hb', hle⟩ := hne k (by simpa using hk) e
    injection hb' with hb'
    rw [← (hb b rfl).1, hb']
    exact hle
  · subst hb
    exact Outs.ok ⟨b.2, rfl, hlt.1, hlt.2, hmin⟩

theorem cutRing_tip {verts : List U16Vec3} {ps : Ring} (h : RingOk A verts ps) {i : Nat} (hi : i < ps.length) (hn : 4 < ps.length)
    (S : SimplePolygon (pts verts (ps.eraseIdx i))) (hk : ValAll (pts verts (ps.eraseIdx i)) 0)
    (hf : ∀ j, j < (ps.eraseIdx i).length → j ≠ (if i ≥ (ps.eraseIdx i).length then 0 else i) →
      j ≠ ((if i ≥ (ps.eraseIdx i).length then 0 else i) + (ps.eraseIdx i).length - 1) % (ps.eraseIdx i).length →
      (((ps.eraseIdx i).map Prod.snd)[j]? = some true ↔ Tip (pts verts (ps.eraseIdx i)) (pt (ringAt verts (ps.eraseIdx i) j)))) :
    Outs A (cutRing verts ps i) fun qs => Flags verts qs := by
  unfold cutRing
  simp only
  have hl : (ps.eraseIdx i).length = ps.length - 1 := by rw [List.length_eraseIdx]; simp [hi]
  have hok : RingOk A verts (ps.eraseIdx i) := h.congr fun x hx => by
    rw [eraseIdx_map] at hx; exact List.mem_of_mem_eraseIdx hx
  generalize hqs : ps.eraseIdx i = qs at *
  have h0 : 0 < qs.length := by omega
  have h1 : (if i ≥ qs.length then 0 else i) < qs.length := by split <;> omega
  generalize (if i ≥ qs.length then 0 else i) = i1 at *
  have hp : (i1 + qs.length - 1) % qs.length < qs.length := Nat.mod_lt _ h0
  have wrap : ∀ a b : Nat, (a % qs.length + b) % qs.length = (a + b) % qs.length := fun a b => Nat.mod_add_mod a qs.length b
  have ep : ((i1 + qs.length - 1) % qs.length + 1) % qs.length = i1 := by
    rw [wrap, show i1 + qs.length - 1 + 1 = i1 + qs.length by omega, Nat.add_mod_right, Nat.mod_eq_of_lt h1]
  generalize (i1 + qs.length - 1) % qs.length = i0 at *
  have ep0 : ((i0 + qs.length - 1) % qs.length + 1) % qs.length = i0 := by
    rw [wrap, show i0 + qs.length - 1 + 1 = i0 + qs.length by omega, Nat.add_mod_right, Nat.mod_eq_of_lt hp]
  refine (isDiagonal_out hok (Nat.mod_lt _ h0) h1).bind fun d hd => ?_
  have t1 := isDiagonalB_tip S hk (by omega) (i := (i0 + qs.length - 1) % qs.length) (Nat.mod_lt _ h0) (j := i1) (by rw [ep0, ep])
  rw [← hd, ep0] at t1
  refine (setFlag_out hp _).bind fun rs hr => ?_
  have hlr := map_fst_length hr.1
  have hok2 : RingOk A verts rs := hok.congr (by rw [hr.1]; exact fun _ h => h)
  refine (isDiagonal_out hok2 (by rw [hlr]; exact hp) (by rw [hlr]; exact Nat.mod_lt _ h0)).bind fun d2 hd2 => ?_
  rw [isDiagonalB_map hr.1] at hd2
  have t2 := isDiagonalB_tip S hk (by omega) (i := i0) hp (j := (i1 + 1) % qs.length) (by rw [ep])
  rw [← hd2, ep] at t2
  refine (setFlag_out (by rw [hlr]; exact h1) _).mono fun ts ht => ?_
  have hm := ht.1.trans hr.1
  intro j hj
  rw [map_fst_length hm] at hj
  rw [pts_map hm, ringAt_map hm, ht.2, hr.2, set_true (by simp [h1])]
  split
  · rename_i e; rw [← e]; exact t2
  · rename_i e
    rw [set_true (by simp [hp])]
    split
    · rename_i e'; rw [← e']; exact t1
    · rename_i e'
      exact hf j hj (Ne.symm e) (Ne.symm e')

end Rerecast.Jordan
