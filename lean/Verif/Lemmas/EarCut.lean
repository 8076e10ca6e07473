import Verif.Lemmas.Ears
import Verif.Lemmas.InOrder
/-! Ear cutting: the loop and what it returns. -/
set_option linter.unusedVariables false
namespace Rerecast
variable {A : Fault → Prop}

theorem RingOk.congr {verts : List U16Vec3} {ps qs : Ring} (h : RingOk A verts ps) (e : ∀ x ∈ qs.map Prod.fst, x ∈ ps.map Prod.fst) : RingOk A verts qs := by
  refine ⟨fun p hp => ?_, h.small⟩
  have := e p.1 (List.mem_map_of_mem hp)
  obtain ⟨q, hq, he⟩ := List.mem_map.1 this
  rw [← he]; exact h.lt q hq

theorem setFlag_out {ps : Ring} {i : Nat} (hi : i < ps.length) (d : Bool) :
    Outs A (setFlag ps i d) fun qs => qs.map Prod.fst = ps.map Prod.fst ∧ qs.map Prod.snd = (ps.map Prod.snd).set i d := by
  unfold setFlag
  rw [idx_ok hi, bind_ok, setIdx_ok hi]
  refine Outs.ok ⟨?_, by rw [List.map_set]⟩
  rw [List.map_set]
  apply List.ext_getElem?
  intro j
  rw [List.getElem?_set]
  split
  · rename_i h; subst h; simp [hi]
  · rfl

theorem map_fst_length {ps qs : Ring} (h : qs.map Prod.fst = ps.map Prod.fst) : qs.length = ps.length := by
  have := congrArg List.length h; simpa using this

theorem flagEars_out {verts : List U16Vec3} {ps : Ring} (h : RingOk A verts ps) :
    Outs A (flagEars verts ps) fun qs => qs.map Prod.fst = ps.map Prod.fst := by
  unfold flagEars
  refine Outs.foldlM_inv (fun (qs : Ring) => qs.map Prod.fst = ps.map Prod.fst) _ _ rfl ?_
  intro i hi qs hq
  have hl := map_fst_length hq
  have hi : i < ps.length := by simpa using hi
  have hok : RingOk A verts qs := h.congr (by rw [hq]; exact fun _ h => h)
  have hn : 0 < qs.length := by omega
  refine (isDiagonal_out hok (by omega) (Nat.mod_lt _ hn)).bind fun d _ => ?_
  cases d
  · exact Outs.ok hq
  · exact (setFlag_out (Nat.mod_lt _ hn) _).mono fun rs hr => hr.1.trans hq

theorem cutLength_out {p q : U16Vec3} (h : (p.Small ∧ q.Small) ∨ A .panic) : Outs A (cutLength p q) fun _ => True := by
  unfold cutLength
  refine Outs.bind (P := fun _ => True) ?_ fun _ _ => Outs.ok trivial
  unfold lenSqI32
  rcases h with ⟨⟨p1, p2⟩, q1, q2⟩ | h
  · have h1 := mul_bound (a := (q.x : Int) - p.x) (b := (q.x : Int) - p.x) (by omega) (by omega)
    have h2 := mul_bound (a := (q.z : Int) - p.z) (b := (q.z : Int) - p.z) (by omega) (by omega)
    rw [if_pos (by omega)]
    exact Outs.ok trivial
  · split
    · exact Outs.ok trivial
    · exact Outs.error h

theorem shorter_lt {best : Option (Nat × Nat)} {len i n : Nat} (hb : ∀ b, best = some b → b.2 < n) (hi : i < n) :
    ∀ b, shorter best len i = some b → b.2 < n := by
  intro b hb'
  unfold shorter at hb'
  split at hb'
  · injection hb' with hb'; subst hb'; exact hi
  · split at hb'
    · injection hb' with hb'; subst hb'; exact hi
    · exact hb _ hb'

theorem findEar_out {verts : List U16Vec3} {ps : Ring} (h : RingOk A verts ps) :
    Outs A (findEar verts ps) fun r => ∀ i, r = some i → i < ps.length := by
  unfold findEar
  refine Outs.bind (P := fun best => ∀ b, best = some b → b.2 < ps.length) ?_ fun best hbest => ?_
  · refine Outs.foldlM_inv _ _ _ (by simp) ?_
    intro i hi best hb
    have hi : i < ps.length := by simpa using hi
    have hn : 0 < ps.length := by omega
    unfold earStep
    simp only
    rw [idx_ok (Nat.mod_lt _ hn), bind_ok]
    split
    · refine (ringVert_out h hi).bind fun p0 ⟨_, s0⟩ => ?_
      refine (ringVert_out h (Nat.mod_lt _ hn)).bind fun p2 ⟨_, s2⟩ => ?_
      exact (cutLength_out (or_and s0 s2)).bind fun len _ => Outs.ok (shorter_lt hb hi)
    · exact Outs.ok hb
  · cases best with
    | some b => exact Outs.ok fun i hi => by injection hi with hi; subst hi; exact hbest b rfl
    | none =>
      refine Outs.bind (P := fun best => ∀ b, best = some b → b.2 < ps.length) ?_ fun best hbest => ?_
      · refine Outs.foldlM_inv _ _ _ (by simp) ?_
        intro i hi best hb
        have hi : i < ps.length := by simpa using hi
        have hn : 0 < ps.length := by omega
        unfold looseStep
        refine (isDiagonalLoose_out h hi (Nat.mod_lt _ hn)).bind fun d _ => ?_
        cases d
        · exact Outs.ok hb
        · refine (ringVert_out h hi).bind fun p0 ⟨_, s0⟩ => ?_
          refine (ringVert_out h (Nat.mod_lt _ hn)).bind fun p2 ⟨_, s2⟩ => ?_
          exact (cutLength_out (or_and s0 s2)).bind fun len _ => Outs.ok (shorter_lt hb hi)
      · refine Outs.ok fun i hi => ?_
        rw [Option.map_eq_some_iff] at hi
        obtain ⟨b, hb, rfl⟩ := hi
        exact hbest b hb

theorem eraseIdx_map {ps : List α} (f : α → β) (i : Nat) : (ps.eraseIdx i).map f = (ps.map f).eraseIdx i := by
  simp [List.eraseIdx_map]

theorem cutRing_out {verts : List U16Vec3} {ps : Ring} (h : RingOk A verts ps) {i : Nat} (hi : i < ps.length) (hn : 3 < ps.length) :
    Outs A (cutRing verts ps i) fun qs => qs.map Prod.fst = (ps.map Prod.fst).eraseIdx i := by
  unfold cutRing
  simp only
  have hl : (ps.eraseIdx i).length = ps.length - 1 := by rw [List.length_eraseIdx]; simp [hi]
  have hm : (ps.eraseIdx i).map Prod.fst = (ps.map Prod.fst).eraseIdx i := eraseIdx_map _ _
  have hok : RingOk A verts (ps.eraseIdx i) := h.congr fun x hx => by
    rw [hm] at hx; exact List.mem_of_mem_eraseIdx hx
  generalize hqs : ps.eraseIdx i = qs at *
  have h0 : 0 < qs.length := by omega
  have h1 : (if i ≥ qs.length then 0 else i) < qs.length := by split <;> omega
  refine (isDiagonal_out hok (Nat.mod_lt _ h0) h1).bind fun d _ => ?_
  refine (setFlag_out (Nat.mod_lt _ h0) d).bind fun rs hr => ?_
  have hlr := map_fst_length hr.1
  have hok2 : RingOk A verts rs := hok.congr (by rw [hr.1]; exact fun _ h => h)
  refine (isDiagonal_out hok2 (by rw [hlr]; exact Nat.mod_lt _ h0) (by rw [hlr]; exact Nat.mod_lt _ h0)).bind fun d2 _ => ?_
  refine (setFlag_out (by rw [hlr]; exact h1) d2).mono fun ts ht => ?_
  rw [ht.1, hr.1, hm]

/-! ### the invariant of the loop -/

theorem sides_fst_inj {p : List α} (h : p.Nodup) {x y z : α} (h1 : (x, y) ∈ sides p) (h2 : (x, z) ∈ sides p) : y = z := by
  obtain ⟨i, hi⟩ := List.mem_iff_getElem?.1 h1
  obtain ⟨j, hj⟩ := List.mem_iff_getElem?.1 h2
  have li : i < p.length := by rw [← sides_length p]; exact (List.getElem?_eq_some_iff.1 hi).1
  have lj : j < p.length := by rw [← sides_length p]; exact (List.getElem?_eq_some_iff.1 hj).1
  rw [sides_getElem? p i li] at hi
  rw [sides_getElem? p j lj] at hj
  simp only [Option.some.injEq, Prod.mk.injEq] at hi hj
  have : i = j := (List.Nodup.getElem_inj_iff h).1 (hi.1.trans hj.1.symm)
  subst this
  exact hi.2.symm.trans hj.2

/-- Triangles `T` have been cut off, the ring `R` is left, of a polygon with corners `0..n`. -/
structure EarInv (n : Nat) (R : List Nat) (T : List Tri) : Prop where
  nodup : R.Nodup
  len : 3 ≤ R.length
  lt : ∀ x ∈ R, x < n
  corners : ∀ t ∈ T, InOrder t.corners (List.range n)
  order : InOrder R (List.range n)
  count : T.length + R.length = n
  once : (allSides (T.map Tri.corners) ++ sides R).Nodup
  live : ∀ x y, (x, y) ∈ allSides (T.map Tri.corners) → x ∈ R → y ∈ R → (y, x) ∈ sides R
  bal : ∀ f : Nat × Nat → Int, Antisymmetric f →
    ((allSides (T.map Tri.corners)).map f).sum + ((sides R).map f).sum = ((sides (List.range n)).map f).sum

theorem EarInv.start {n : Nat} (h : 3 ≤ n) : EarInv n (List.range n) [] where
  nodup := List.nodup_range
  len := by simpa
  lt := by simp
  corners := by simp
  order := InOrder.refl _
  count := by simp
  once := by simpa [allSides] using sides_nodup List.nodup_range
  live := by simp [allSides]
  bal := by simp [allSides]

theorem EarInv.rotate {n : Nat} {R : List Nat} {T : List Tri} (h : EarInv n R T) (k : Nat) : EarInv n (R.rotate k) T where
  nodup := List.nodup_rotate.2 h.nodup
  len := by simpa using h.len
  lt := by simpa using h.lt
  corners := h.corners
  order := inOrder_rotate.2 h.order
  count := by simpa using h.count
  once := (List.Perm.nodup_iff ((List.Perm.refl _).append (sides_rotate_perm R k))).2 h.once
  live := fun x y hxy hx hy => (sides_rotate_perm R k).mem_iff.2 (h.live x y hxy (by simpa using hx) (by simpa using hy))
  bal := fun f hf => by rw [sum_perm (sides_rotate_perm R k)]; exact h.bal f hf

theorem EarInv.unrotate {n : Nat} {R : List Nat} {T : List Tri} {k : Nat} (h : EarInv n (R.rotate k) T) : EarInv n R T := by
  have := h.rotate (R.length - k % R.length)
  rw [List.rotate_rotate] at this
  by_cases h0 : R.length = 0
  · have : 3 ≤ R.length := by simpa using h.len
    omega
  · have hk := Nat.mod_lt k (Nat.pos_of_ne_zero h0)
    have e : R.rotate (k + (R.length - k % R.length)) = R := by
      rw [← List.rotate_mod]
      have h1 : k + (R.length - k % R.length) = R.length * (k / R.length + 1) := by
        have := Nat.div_add_mod k R.length
        rw [Nat.mul_add]; omega
      rw [h1, Nat.mul_mod_right, List.rotate_zero]
    rwa [e] at this

theorem tri_sides (a b c : Nat) : sides [a, b, c] = [(a, b), (b, c), (c, a)] := rfl

theorem EarInv.cut {n a b c : Nat} {l : List Nat} {T : List Tri} (h : EarInv n (b :: (c :: l ++ [a])) T) (hl : l ≠ []) :
    EarInv n (c :: l ++ [a]) (T ++ [(a, b, c)]) := by
  obtain ⟨d, l', rfl⟩ : ∃ d l', l = d :: l' := by
    cases l with
    | nil => exact absurd rfl hl
    | cons d l' => exact ⟨d, l', rfl⟩
  have hnd := h.nodup
  have hs1 : sides (b :: (c :: (d :: l') ++ [a])) = (b, c) :: path (c :: (d :: l') ++ [a]) ++ [(a, b)] := by
    rw [sides_eq_path]; simp [path_cons_cons]
  have hs2 : sides (c :: (d :: l') ++ [a]) = path (c :: (d :: l') ++ [a]) ++ [(a, c)] := by
    rw [List.cons_append, sides_eq_path]; simp
  have hE : allSides ((T ++ [(a, b, c)]).map Tri.corners) = allSides (T.map Tri.corners) ++ [(a, b), (b, c), (c, a)] := by
    rw [List.map_append, allSides_append]; rfl
  have hcd : (c, d) ∈ sides (b :: (c :: (d :: l') ++ [a])) := by rw [hs1]; simp [path_cons_cons]
  have hab : (a, b) ∈ sides (b :: (c :: (d :: l') ++ [a])) := by rw [hs1]; simp
  have nd : a ≠ b ∧ b ≠ c ∧ c ≠ a ∧ d ≠ a := by
    simp only [List.cons_append, List.nodup_cons, List.mem_cons, List.mem_append, not_or] at hnd
    tauto
  obtain ⟨n1, n2, n3, n4⟩ := nd
  have hac : (a, c) ∉ sides (b :: (c :: (d :: l') ++ [a])) := fun hm => n2 (sides_fst_inj hnd hab hm)
  have hca : (c, a) ∉ sides (b :: (c :: (d :: l') ++ [a])) := fun hm => n4 (sides_fst_inj hnd hcd hm)
  have ha : a ∈ b :: (c :: (d :: l') ++ [a]) := by simp
  have hc : c ∈ b :: (c :: (d :: l') ++ [a]) := by simp
  have hac' : (a, c) ∉ allSides (T.map Tri.corners) := fun hm => hca (h.live a c hm ha hc)
  have hca' : (c, a) ∉ allSides (T.map Tri.corners) := fun hm => hac (h.live c a hm hc ha)
  refine ⟨(List.nodup_cons.1 hnd).2, by simp, fun x hx => h.lt x (List.mem_cons_of_mem _ hx), ?_, h.order.sub (List.sublist_cons_self _ _),
    ?_, ?_, ?_, ?_⟩
  · intro t ht
    rw [List.mem_append, List.mem_singleton] at ht
    rcases ht with ht | rfl
    · exact h.corners t ht
    · rw [← inOrder_rotate (k := 1)]
      refine h.order.sub ?_
      show [b, c, a].Sublist (b :: (c :: (d :: l') ++ [a]))
      refine List.Sublist.cons_cons b (List.Sublist.cons_cons c ?_)
      exact List.singleton_sublist.2 (by simp)
  · have := h.count
    simp only [List.length_append, List.length_cons, List.length_nil] at this ⊢
    omega
  · rw [hE, hs2]
    have hp : (allSides (T.map Tri.corners) ++ [(a, b), (b, c), (c, a)] ++ (path (c :: (d :: l') ++ [a]) ++ [(a, c)])).Perm
        ((c, a) :: (a, c) :: (allSides (T.map Tri.corners) ++ sides (b :: (c :: (d :: l') ++ [a])))) := by
      rw [hs1]
      generalize path (c :: (d :: l') ++ [a]) = P
      generalize allSides (T.map Tri.corners) = E
      rw [List.perm_iff_count]
      intro e
      simp only [List.count_append, List.count_cons, List.cons_append, List.count_nil]
      omega
    rw [hp.nodup_iff, List.nodup_cons, List.nodup_cons]
    refine ⟨?_, ?_, h.once⟩
    · simp only [List.mem_cons, Prod.mk.injEq, List.mem_append, not_or]
      exact ⟨fun hh => n3 hh.1, hca', hca⟩
    · simp only [List.mem_append, not_or]
      exact ⟨hac', hac⟩
  · intro x y hxy hx hy
    have hb : ∀ z, z ∈ c :: (d :: l') ++ [a] → z ≠ b := fun z hz e => (List.nodup_cons.1 hnd).1 (e ▸ hz)
    rw [hE, List.mem_append] at hxy
    rw [hs2, List.mem_append, List.mem_singleton]
    rcases hxy with hxy | hxy
    · have := h.live x y hxy (List.mem_cons_of_mem _ hx) (List.mem_cons_of_mem _ hy)
      rw [hs1, List.cons_append, List.mem_cons, List.mem_append, List.mem_singleton] at this
      rcases this with h1 | h1 | h1
      · injection h1 with h1 h2; exact absurd h1 (hb y hy)
      · exact Or.inl h1
      · injection h1 with h1 h2; exact absurd h2 (hb x hx)
    · simp only [List.mem_cons, Prod.mk.injEq, List.not_mem_nil, or_false] at hxy
      rcases hxy with ⟨h1, h2⟩ | ⟨h1, h2⟩ | ⟨h1, h2⟩
      · exact absurd h2 (hb y hy)
      · exact absurd h1 (hb x hx)
      · exact Or.inr (by rw [h1, h2])
  · intro f hf
    rw [← h.bal f hf, hE, hs1, hs2]
    simp only [List.map_append, List.sum_append, List.map_cons, List.map_nil, List.sum_cons, List.sum_nil, List.cons_append]
    have := hf a c
    omega

/-- What a triangulation of the polygon `0..n` is. -/
structure TriOk (n : Nat) (T : List Tri) : Prop where
  count : T.length = n - 2
  corners : ∀ t ∈ T, InOrder t.corners (List.range n)
  once : (allSides (T.map Tri.corners)).Nodup
  bal : SameBoundary (T.map Tri.corners) (List.range n)

theorem EarInv.finish {n : Nat} {a b c : Nat} {T : List Tri} (h : EarInv n [a, b, c] T) : TriOk n (T ++ [(a, b, c)]) := by
  have hE : allSides ((T ++ [(a, b, c)]).map Tri.corners) = allSides (T.map Tri.corners) ++ sides [a, b, c] := by
    rw [List.map_append, allSides_append]; simp [allSides, Tri.corners]
  refine ⟨?_, ?_, by rw [hE]; exact h.once, fun f hf => ?_⟩
  · have := h.count; simp at this ⊢; omega
  · intro t ht
    rw [List.mem_append, List.mem_singleton] at ht
    rcases ht with ht | rfl
    · exact h.corners t ht
    · exact h.order
  · rw [hE, sum_append]; exact h.bal f hf

/-- Cutting position `i1` off the ring. -/
theorem EarInv.step {n : Nat} {R : List Nat} {T : List Tri} (h : EarInv n R T) (hl : 3 < R.length) {i i1 i2 : Nat} (hi : i < R.length)
    (e1 : i1 = (i + 1) % R.length) (e2 : i2 = (i1 + 1) % R.length) (h1 : i1 < R.length) (h2 : i2 < R.length) :
    EarInv n (R.eraseIdx i1) (T ++ [(R[i], R[i1], R[i2])]) := by
  have h0 : 0 < R.length := by omega
  have hr := h.rotate i1
  rw [rotate_eq_cons h1] at hr
  generalize hm : R.drop (i1 + 1) ++ R.take i1 = m at hr
  have hml : m.length = R.length - 1 := by rw [← hm]; simp; omega
  have hmr : m = (R.eraseIdx i1).rotate i1 := by rw [← hm]; exact eraseIdx_rotate h1
  have hrot : ∀ k, k < R.length → (R.rotate i1)[k]? = R[(k + i1) % R.length]? := fun k hk => List.getElem?_rotate hk
  rw [rotate_eq_cons h1, hm] at hrot
  have hc : m[0]? = some R[i2] := by
    have := hrot 1 (by omega)
    rw [List.getElem?_cons_succ] at this
    rw [this]
    have : (1 + i1) % R.length = i2 := by rw [e2, Nat.add_comm]
    rw [this]; simp [h2]
  have ha : m[R.length - 2]? = some R[i] := by
    have := hrot (R.length - 1) (by omega)
    rw [show R.length - 1 = (R.length - 2) + 1 by omega, List.getElem?_cons_succ] at this
    rw [this]
    have : (R.length - 2 + 1 + i1) % R.length = i := by
      rcases Nat.lt_or_ge (i + 1) R.length with hlt | hge
      · rw [Nat.mod_eq_of_lt hlt] at e1
        rw [show R.length - 2 + 1 + i1 = R.length + i by omega, Nat.add_mod_left, Nat.mod_eq_of_lt hi]
      · have : i + 1 = R.length := by omega
        rw [this, Nat.mod_self] at e1
        rw [e1, Nat.mod_eq_of_lt (by omega)]; omega
    rw [this]; simp [hi]
  obtain ⟨l, hml', hlne⟩ : ∃ l, m = R[i2] :: l ++ [R[i]] ∧ l ≠ [] := by
    cases m with
    | nil => simp at hml; omega
    | cons c m' =>
      have : c = R[i2] := by simpa using hc
      subst this
      rcases List.eq_nil_or_concat m' with rfl | ⟨l, a, rfl⟩
      · simp at hml; omega
      · simp only [List.length_cons, List.concat_eq_append, List.length_append, List.length_nil] at hml
        refine ⟨l, ?_, ?_⟩
        · rw [show R.length - 2 = l.length + 1 by omega] at ha
          simp at ha
          simp [ha]
        · rintro rfl; simp at hml; omega
  rw [hml'] at hr
  have := hr.cut hlne
  rw [← hml', hmr] at this
  exact this.unrotate

theorem cutLoop_out (hA : A .err) {verts : List U16Vec3} : ∀ (fuel : Nat) (ps : Ring) (T : List Tri), RingOk A verts ps →
    EarInv verts.length (ps.map Prod.fst) T → ps.length ≤ fuel + 3 → Outs A (cutLoop verts fuel ps T) (TriOk verts.length) := by
  have last : ∀ (ps : Ring) (T : List Tri), EarInv verts.length (ps.map Prod.fst) T → ¬ 3 < ps.length →
      Outs A (ringTri ps 0 1 2 >>= fun t => Except.ok (T ++ [t])) (TriOk verts.length) := by
    intro ps T h hn
    have hl : ps.length = 3 := by have := h.len; simp at this; omega
    obtain ⟨a, b, c, rfl⟩ : ∃ a b c, ps = [a, b, c] := by
      match ps, hl with
      | [a, b, c], _ => exact ⟨a, b, c, rfl⟩
    exact Outs.ok h.finish
  intro fuel
  induction fuel with
  | zero =>
    intro ps T hok h hf
    unfold cutLoop
    rw [if_neg (by omega)]
    exact last ps T h (by omega)
  | succ fuel ih =>
    intro ps T hok h hf
    unfold cutLoop
    split
    · rename_i hl
      refine (findEar_out hok).bind fun ear hear => ?_
      cases ear with
      | none => exact Outs.error hA
      | some i =>
        simp only
        have hi := hear i rfl
        have h0 : 0 < ps.length := by omega
        have h1 : (i + 1) % ps.length < ps.length := Nat.mod_lt _ h0
        have h2 : ((i + 1) % ps.length + 1) % ps.length < ps.length := Nat.mod_lt _ h0
        unfold ringTri
        rw [idx_ok hi, bind_ok, idx_ok h1, bind_ok, idx_ok h2, bind_ok]
        simp only [bind_ok]
        refine (cutRing_out hok h1 hl).bind fun qs hq => ?_
        have hlq : qs.length = ps.length - 1 := by
          have := congrArg List.length hq
          rw [List.length_eraseIdx] at this
          simpa [h1] using this
        refine ih qs _ (hok.congr ?_) ?_ (by omega)
        · intro x hx; rw [hq] at hx; exact List.mem_of_mem_eraseIdx hx
        · rw [hq]
          have hlm : (ps.map Prod.fst).length = ps.length := by simp
          have := h.step (by omega) (i := i) (i1 := (i + 1) % ps.length) (i2 := ((i + 1) % ps.length + 1) % ps.length)
            (by omega) (by rw [hlm]) (by rw [hlm]) (by omega) (by omega)
          simpa using this
    · exact last ps T h (by omega)

/-- `triangulate` returns a triangulation or reports an invalid contour; it fails otherwise only by overflow, for vertices with
coordinates above 32767. -/
theorem triangulate_out (hA : A .err) {verts : List U16Vec3} (h3 : 3 ≤ verts.length) (hs : (∀ v ∈ verts, v.Small) ∨ A .panic) :
    Outs A (triangulate verts) (TriOk verts.length) := by
  unfold triangulate
  have hm : (((List.range verts.length).map fun i => (i, false)) : Ring).map Prod.fst = List.range verts.length := by
    rw [List.map_map]; exact List.map_id _
  have hok : RingOk A verts ((List.range verts.length).map fun i => (i, false)) := by
    refine ⟨?_, hs⟩
    intro p hp
    obtain ⟨i, hi, rfl⟩ := List.mem_map.1 hp
    simpa using hi
  refine (flagEars_out hok).bind fun qs hq => ?_
  have hq' : qs.map Prod.fst = List.range verts.length := hq.trans hm
  refine cutLoop_out hA _ qs [] (hok.congr (by rw [hq]; exact fun _ h => h)) (by rw [hq']; exact EarInv.start h3) ?_
  have := congrArg List.length hq'
  simp at this; omega

end Rerecast
