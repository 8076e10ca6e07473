import Verif.Lemmas.MergePolys
/-! Shape of the merged polygon. -/
set_option linter.unusedVariables false
namespace Rerecast

theorem rotate_side {p : List Nat} {i : Nat} {e : Nat × Nat} (h : (sides p)[i]? = some e) (h2 : 2 ≤ p.length) :
    ∃ X, p.rotate (i + 1) = e.2 :: X ++ [e.1] := by
  have hi : i < p.length := by rw [← sides_length p]; exact (List.getElem?_eq_some_iff.1 h).1
  rw [sides_getElem? p i hi] at h
  injection h with h
  have e1 : e.1 = p[i] := by rw [← h]
  have e2 : e.2 = p[(i + 1) % p.length]'(Nat.mod_lt _ (by omega)) := by rw [← h]
  have hr : ∀ k, k < p.length → (p.rotate (i + 1))[k]? = p[(k + (i + 1)) % p.length]? := fun k hk => List.getElem?_rotate hk
  have hl : (p.rotate (i + 1)).length = p.length := by simp
  generalize p.rotate (i + 1) = l at hr hl ⊢
  cases l with
  | nil => simp at hl; omega
  | cons a m =>
    have ha := hr 0 (by omega)
    rw [Nat.zero_add, List.getElem?_cons_zero, List.getElem?_eq_getElem (Nat.mod_lt _ (by omega)), ← e2] at ha
    injection ha with ha
    rcases List.eq_nil_or_concat m with rfl | ⟨X, z, rfl⟩
    · simp at hl; omega
    · rw [List.concat_eq_append] at *
      simp only [List.length_cons, List.length_append, List.length_nil] at hl
      have hz := hr (p.length - 1) (by omega)
      have hm : (p.length - 1 + (i + 1)) % p.length = i := by
        rw [show p.length - 1 + (i + 1) = i + p.length by omega, Nat.add_mod_right, Nat.mod_eq_of_lt hi]
      rw [hm, List.getElem?_eq_getElem hi, ← e1, show p.length - 1 = X.length + 1 by omega] at hz
      simp at hz
      exact ⟨X, by rw [ha, hz]; simp⟩

/-- Two polygons that meet at the directed sides `(u, v)` and `(v, u)`. -/
structure Meet (pa pb : List Nat) (ea eb u v : Nat) (X Y : List Nat) : Prop where
  ha : pa.rotate (ea + 1) = v :: X ++ [u]
  hb : pb.rotate (eb + 1) = u :: Y ++ [v]
  side : (sides pa)[ea]? = some (u, v)

theorem Shared.meet {pa pb : List Nat} {ea eb : Nat} (h : Shared pa pb ea eb) (ha : 2 ≤ pa.length) (hb : 2 ≤ pb.length)
    (hd : (sides pa ++ sides pb).Nodup) : ∃ u v X Y, Meet pa pb ea eb u v X Y := by
  obtain ⟨e, f, he, hf, hs⟩ := h
  obtain ⟨u, v⟩ := e
  rcases hs with rfl | rfl
  · exfalso
    rw [List.nodup_append] at hd
    exact hd.2.2 _ (List.mem_of_getElem? he) _ (List.mem_of_getElem? hf) rfl
  · obtain ⟨X, hX⟩ := rotate_side he ha
    obtain ⟨Y, hY⟩ := rotate_side hf hb
    exact ⟨u, v, X, Y, hX, hY, he⟩

theorem Meet.merged {pa pb : List Nat} {ea eb u v : Nat} {X Y : List Nat} (h : Meet pa pb ea eb u v X Y) :
    mergedPoly pa pb ea eb = v :: X ++ u :: Y := by
  unfold mergedPoly
  rw [h.ha, h.hb, List.dropLast_concat, List.dropLast_concat]

theorem Meet.sides {pa pb : List Nat} {ea eb u v : Nat} {X Y : List Nat} (h : Meet pa pb ea eb u v X Y) :
    (sides (mergedPoly pa pb ea eb) ++ [(u, v), (v, u)]).Perm (sides pa ++ sides pb) := by
  have p1 := sides_rotate_perm pa (ea + 1)
  have p2 := sides_rotate_perm pb (eb + 1)
  rw [h.ha, List.cons_append, sides_eq_path] at p1
  rw [h.hb, List.cons_append, sides_eq_path] at p2
  rw [h.merged, List.cons_append, sides_eq_path]
  refine List.Perm.trans ?_ (p1.append p2)
  have e1 : path (v :: (X ++ [u])) = path (v :: X) ++ [((v :: X).getLast (by simp), u)] := by
    have := path_append v X u []
    simpa [path_single] using this
  have e2 : path (u :: (Y ++ [v])) = path (u :: Y) ++ [((u :: Y).getLast (by simp), v)] := by
    have := path_append u Y v []
    simpa [path_single] using this
  have e3 : path (v :: (X ++ u :: Y)) = path (v :: X) ++ ((v :: X).getLast (by simp), u) :: path (u :: Y) := path_append v X u Y
  have e4 : (v :: (X ++ u :: Y)).getLast (by simp) = (u :: Y).getLast (by simp) := by
    have := List.getLast_append_of_ne_nil (l := v :: X) (l' := u :: Y) (by simp) (by simp)
    simpa using this
  have e5 : (v :: (X ++ [u])).getLast (by simp) = u := by simp
  have e6 : (u :: (Y ++ [v])).getLast (by simp) = v := by simp
  rw [e1, e2, e3, e4, e5, e6]
  rw [List.perm_iff_count]
  intro e
  simp only [List.count_append, List.count_cons, List.count_nil]
  omega

/-! ### cyclic order -/

theorem sublist_split {u : α} {l r M1 M2 : List α} (h : (l ++ u :: r).Sublist (M1 ++ u :: M2)) (hn : (M1 ++ u :: M2).Nodup) :
    l.Sublist M1 ∧ r.Sublist M2 := by
  induction M1 generalizing l with
  | nil =>
    have hu : u ∉ M2 := by simpa using (List.nodup_cons.1 hn).1
    cases l with
    | nil => exact ⟨List.nil_sublist _, by simpa using h⟩
    | cons a l =>
      exfalso
      simp only [List.cons_append, List.nil_append] at h
      rcases List.cons_sublist_cons'.1 h with h' | ⟨_, h'⟩
      · exact hu (h'.subset (by simp))
      · exact hu (h'.subset (by simp))
  | cons m M1 ih =>
    rw [List.cons_append, List.nodup_cons] at hn
    cases l with
    | nil =>
      rw [List.nil_append, List.cons_append] at h
      rcases List.cons_sublist_cons'.1 h with h' | ⟨he, _⟩
      · exact ⟨List.nil_sublist _, (ih (l := []) h' hn.2).2⟩
      · exfalso; apply hn.1; rw [← he]; simp
    | cons a l =>
      rw [List.cons_append, List.cons_append] at h
      rcases List.cons_sublist_cons'.1 h with h' | ⟨he, h'⟩
      · have := ih (l := a :: l) h' hn.2
        exact ⟨this.1.trans (List.sublist_cons_self _ _), this.2⟩
      · have := ih h' hn.2
        rw [he]
        exact ⟨this.1.cons_cons _, this.2⟩

/-- Turning both polygons so that they start at a common vertex. -/
theorem InOrder.align {p l : List α} (h : InOrder p l) (hn : l.Nodup) {v : α} {P L : List α} {i j : Nat} (hp : p.rotate i = v :: P)
    (hl : l.rotate j = v :: L) : (v :: P).Sublist (v :: L) := by
  obtain ⟨k, hk⟩ := h
  have hpn : p.Nodup := by
    have : (p.rotate k).Nodup := hn.sublist hk
    simpa using this
  have hvp : v ∈ p.rotate k := by
    have : v ∈ p.rotate i := by rw [hp]; simp
    simpa using this
  obtain ⟨P1, P2, hP⟩ := List.append_of_mem hvp
  have hvl : v ∈ l := hk.subset hvp
  obtain ⟨L1, L2, hL⟩ := List.append_of_mem hvl
  rw [hP, hL] at hk
  have hs := sublist_split hk (hL ▸ hn)
  -- a rotation of a list without duplicates is determined by its first element
  have uniq : ∀ (q Q Q1 Q2 : List α) (a : Nat), q.Nodup → q.rotate a = v :: Q → ∀ b, q.rotate b = Q1 ++ v :: Q2 → Q = Q2 ++ Q1 := by
    intro q Q Q1 Q2 a hq ha b hb
    have h1 : (v :: Q) ~r (v :: (Q2 ++ Q1)) := by
      have r1 : q ~r (v :: Q) := ⟨a, ha⟩
      have r2 : q ~r (Q1 ++ v :: Q2) := ⟨b, hb⟩
      have r3 : (Q1 ++ v :: Q2) ~r (v :: Q2 ++ Q1) := ⟨Q1.length, by rw [List.rotate_append_length_eq]⟩
      exact (r1.symm.trans r2).trans r3
    obtain ⟨n, hn'⟩ := h1
    have hvq : (v :: Q).Nodup := by rw [← ha]; simpa using hq
    by_cases h0 : n % (v :: Q).length = 0
    · rw [← List.rotate_mod, h0, List.rotate_zero] at hn'
      injection hn'
    · exfalso
      have hlt : n % (v :: Q).length < (v :: Q).length := Nat.mod_lt _ (by simp)
      rw [← List.rotate_mod, rotate_eq_cons hlt] at hn'
      injection hn' with h1 _
      have e := (List.Nodup.getElem_inj_iff hvq (hi := hlt) (hj := by simp)).1 (h1.trans (List.getElem_cons_zero (h := by simp)).symm)
      exact h0 e
  have e1 := uniq p P P1 P2 i hpn hp k hP
  have e2 := uniq l L L1 L2 j hn hl 0 (by rw [List.rotate_zero]; exact hL)
  rw [e1, e2]
  exact (hs.2.append hs.1).cons_cons v

theorem Meet.inOrder {pa pb l : List Nat} {ea eb u v : Nat} {X Y : List Nat} (h : Meet pa pb ea eb u v X Y) (ha : InOrder pa l)
    (hb : InOrder pb l) (hn : l.Nodup) : InOrder (mergedPoly pa pb ea eb) l := by
  have hv : v ∈ l := by
    obtain ⟨k, hk⟩ := ha
    refine hk.subset ?_
    have : v ∈ pa.rotate (ea + 1) := by rw [h.ha]; simp
    simpa using this
  obtain ⟨L1, L2, hL⟩ := List.append_of_mem hv
  have hl : l.rotate L1.length = v :: (L2 ++ L1) := by rw [hL, List.rotate_append_length_eq]; simp
  have hln : (v :: (L2 ++ L1)).Nodup := by rw [← hl]; simpa using hn
  have s1 : (v :: (X ++ [u])).Sublist (v :: (L2 ++ L1)) := ha.align hn h.ha hl
  have hb' : pb.rotate (eb + 1 + (u :: Y).length) = v :: u :: Y := by
    rw [← List.rotate_rotate, h.hb, List.rotate_append_length_eq]; simp
  have s2 := hb.align hn hb' hl
  rw [List.cons_sublist_cons] at s1
  rw [List.cons_sublist_cons] at s2
  have hu : u ∈ L2 ++ L1 := s1.subset (by simp)
  obtain ⟨M1, M2, hM⟩ := List.append_of_mem hu
  rw [hM] at s1 s2 hln
  have hMn := (List.nodup_cons.1 hln).2
  have t1 := (sublist_split (r := []) s1 hMn).1
  have t2 := (sublist_split (l := []) s2 hMn).2
  -- merged <+ v :: M1 ++ u :: M2, a rotation of l
  have hs : (mergedPoly pa pb ea eb).Sublist (v :: (L2 ++ L1)) := by
    rw [h.merged, hM, List.cons_append]
    exact (t1.append (t2.cons_cons u)).cons_cons v
  rw [h.merged] at hs ⊢
  -- rotate back
  rw [← List.cons_append] at hs
  obtain ⟨A1, B1, hAB, hA, hB⟩ := List.sublist_append_iff.1 hs
  refine ⟨A1.length, ?_⟩
  rw [hAB, List.rotate_append_length_eq, hL]
  exact hB.append hA

/-! ### corners -/

/-- Three consecutive entries. -/
def tpath (l : List α) : List (α × α × α) := l.zip (l.tail.zip l.tail.tail)

theorem tpath_overlap : ∀ (l : List α) (a b : α) (r : List α), tpath (l ++ a :: b :: r) = tpath (l ++ [a, b]) ++ tpath (a :: b :: r)
  | [], a, b, r => by simp [tpath]
  | [x], a, b, r => by simp [tpath]
  | x :: y :: l, a, b, r => by
    have := tpath_overlap (y :: l) a b r
    have e : ∀ (m : List α), tpath (x :: y :: l ++ a :: m) = (x, y, (l ++ a :: m).head (by simp)) :: tpath (y :: l ++ a :: m) := by
      intro m
      cases l <;> simp [tpath]
    rw [e, e, this]
    cases l <;> simp

theorem corners3_rotate (p : List α) (k : Nat) : corners3 (p.rotate k) = (corners3 p).rotate k := by
  have hz : ∀ (β γ : Type _) (l : List β) (m : List γ), l.length = m.length → (l.zip m).rotate k = (l.rotate k).zip (m.rotate k) := by
    intro β γ l m hl
    exact List.zipWith_rotate_distrib Prod.mk l m k hl
  unfold corners3
  rw [hz _ _ _ _ (by simp), hz _ _ _ _ (by simp)]
  rw [List.rotate_rotate, List.rotate_rotate, List.rotate_rotate, List.rotate_rotate, Nat.add_comm k 1, Nat.add_comm k 2]

theorem convexCorners_rotate {verts : List U16Vec3} {p : List Nat} {k : Nat} : ConvexCorners verts (p.rotate k) ↔ ConvexCorners verts p := by
  unfold ConvexCorners
  rw [corners3_rotate]
  simp only [List.mem_rotate]

theorem corners3_cons (a b : α) (l : List α) : corners3 (a :: b :: l) = tpath (a :: b :: l ++ [a, b]) := by
  unfold corners3 tpath
  have e1 : (a :: b :: l).rotate 1 = b :: l ++ [a] := by simp [List.rotate_cons_succ]
  have e2 : (a :: b :: l).rotate 2 = l ++ [a, b] := by
    rw [show (2 : Nat) = 1 + 1 from rfl, ← List.rotate_rotate, e1]; simp [List.rotate_cons_succ]
  rw [e1, e2]
  simp only [List.cons_append, List.tail_cons]
  -- zip truncates
  have t : ∀ (β : Type _) (p q r : List β) (γ : Type _) (s : List γ), s.length = p.length → (p ++ q).zip s = p.zip s := by
    intro β p q r γ s hs
    rw [← List.append_nil s, List.zip_append hs.symm]; simp
  have e3 : (b :: (l ++ [a, b])).zip (l ++ [a, b]) = (b :: (l ++ [a])).zip (l ++ [a, b]) := by
    have := t _ (b :: (l ++ [a])) [b] [] _ (l ++ [a, b]) (by simp)
    simpa using this
  rw [e3]
  have := t _ (a :: b :: l) [a, b] [] _ ((b :: (l ++ [a])).zip (l ++ [a, b])) (by simp)
  simpa using this.symm

theorem Meet.corners {verts : List U16Vec3} {pa pb : List Nat} {ea eb u v : Nat} {X Y : List Nat} (h : Meet pa pb ea eb u v X Y)
    (hX : X ≠ []) (hY : Y ≠ []) (hea : ea < pa.length) (heb : eb < pb.length)
    (ca : ConvexCorners verts pa) (cb : ConvexCorners verts pb) (hj : JointConvex verts pa pb ea eb) :
    ConvexCorners verts (mergedPoly pa pb ea eb) := by
  obtain ⟨x1, X', rfl⟩ : ∃ x X', X = x :: X' := by cases X with | nil => exact absurd rfl hX | cons a l => exact ⟨a, l, rfl⟩
  obtain ⟨y1, Y', rfl⟩ : ∃ y Y', Y = y :: Y' := by cases Y with | nil => exact absurd rfl hY | cons a l => exact ⟨a, l, rfl⟩
  obtain ⟨X0, a0, hX0⟩ : ∃ X0 a0, v :: x1 :: X' = X0 ++ [a0] := by
    rcases List.eq_nil_or_concat (v :: x1 :: X') with h | ⟨l, z, h⟩
    · simp at h
    · exact ⟨l, z, by simpa using h⟩
  obtain ⟨Y0, b0, hY0⟩ : ∃ Y0 b0, u :: y1 :: Y' = Y0 ++ [b0] := by
    rcases List.eq_nil_or_concat (u :: y1 :: Y') with h | ⟨l, z, h⟩
    · simp at h
    · exact ⟨l, z, by simpa using h⟩
  rw [← convexCorners_rotate (k := ea + 1), h.ha] at ca
  rw [← convexCorners_rotate (k := eb + 1), h.hb] at cb
  rw [h.merged]
  have tX : tpath (X0 ++ [a0, u]) ⊆ corners3 (v :: x1 :: X' ++ [u]) := by
    rw [List.cons_append, List.cons_append, corners3_cons]
    have e : v :: x1 :: (X' ++ [u]) ++ [v, x1] = X0 ++ a0 :: u :: [v, x1] := by
      have : v :: x1 :: (X' ++ [u]) ++ [v, x1] = (v :: x1 :: X') ++ [u, v, x1] := by simp
      rw [this, hX0]; simp
    rw [e, tpath_overlap X0 a0 u [v, x1]]
    exact List.subset_append_left _ _
  have tY : tpath (Y0 ++ [b0, v]) ⊆ corners3 (u :: y1 :: Y' ++ [v]) := by
    rw [List.cons_append, List.cons_append, corners3_cons]
    have e : u :: y1 :: (Y' ++ [v]) ++ [u, y1] = Y0 ++ b0 :: v :: [u, y1] := by
      have : u :: y1 :: (Y' ++ [v]) ++ [u, y1] = (u :: y1 :: Y') ++ [v, u, y1] := by simp
      rw [this, hY0]; simp
    rw [e, tpath_overlap Y0 b0 v [u, y1]]
    exact List.subset_append_left _ _
  -- the joint corners
  have at1 : ∀ (p l : List Nat) (k n : Nat) (x : Nat), p.rotate k = l → n < p.length → l[n]? = some x → cornerAt p (n + k) = x := by
    intro p l k n x hl hn hx
    rw [← hl, List.getElem?_rotate hn] at hx
    unfold cornerAt
    rw [List.getD_eq_getElem?_getD, hx]; rfl
  have per : ∀ (p : List Nat) (i j : Nat), i % p.length = j % p.length → cornerAt p i = cornerAt p j := by
    intro p i j e; unfold cornerAt; rw [e]
  have la : pa.length = X'.length + 3 := by have := congrArg List.length h.ha; simpa using this
  have lb : pb.length = Y'.length + 3 := by have := congrArg List.length h.hb; simpa using this
  have lX0 : X0.length = X'.length + 1 := by have := congrArg List.length hX0; simpa using this.symm
  have lY0 : Y0.length = Y'.length + 1 := by have := congrArg List.length hY0; simpa using this.symm
  have ha' := h.ha
  rw [hX0] at ha'
  have hb' := h.hb
  rw [hY0] at hb'
  have c1 : cornerAt pa (ea + pa.length - 1) = a0 := by
    rw [← at1 pa _ (ea + 1) (pa.length - 2) a0 ha' (by omega) (by
      rw [show pa.length - 2 = X0.length by omega]; simp)]
    exact per pa _ _ (by congr 1; omega)
  have c2 : cornerAt pa ea = u := by
    rw [← at1 pa _ (ea + 1) (pa.length - 1) u ha' (by omega) (by
      rw [show pa.length - 1 = (X0 ++ [a0]).length by simp; omega, List.getElem?_concat_length])]
    refine per pa _ _ ?_
    rw [show pa.length - 1 + (ea + 1) = ea + pa.length by omega, Nat.add_mod_right]
  have c3 : cornerAt pa (ea + 2) = x1 := by
    rw [← at1 pa _ (ea + 1) 1 x1 h.ha (by omega) (by simp)]
    exact per pa _ _ (by congr 1; omega)
  have d1 : cornerAt pb (eb + pb.length - 1) = b0 := by
    rw [← at1 pb _ (eb + 1) (pb.length - 2) b0 hb' (by omega) (by
      rw [show pb.length - 2 = Y0.length by omega]; simp)]
    exact per pb _ _ (by congr 1; omega)
  have d2 : cornerAt pb eb = v := by
    rw [← at1 pb _ (eb + 1) (pb.length - 1) v hb' (by omega) (by
      rw [show pb.length - 1 = (Y0 ++ [b0]).length by simp; omega, List.getElem?_concat_length])]
    refine per pb _ _ ?_
    rw [show pb.length - 1 + (eb + 1) = eb + pb.length by omega, Nat.add_mod_right]
  have d3 : cornerAt pb (eb + 2) = y1 := by
    rw [← at1 pb _ (eb + 1) 1 y1 h.hb (by omega) (by simp)]
    exact per pb _ _ (by congr 1; omega)
  unfold JointConvex at hj
  rw [c1, c2, c3, d1, d2, d3] at hj
  intro c hc
  have hW : v :: x1 :: X' ++ u :: y1 :: Y' ++ [v, x1] = X0 ++ a0 :: u :: y1 :: (Y' ++ [v, x1]) := by
    rw [hX0]; simp
  have hW2 : u :: y1 :: (Y' ++ [v, x1]) = Y0 ++ b0 :: v :: [x1] := by
    have : u :: y1 :: (Y' ++ [v, x1]) = (u :: y1 :: Y') ++ [v, x1] := by simp
    rw [this, hY0]; simp
  have hcc : corners3 (v :: x1 :: X' ++ u :: y1 :: Y') = tpath (X0 ++ [a0, u]) ++ (a0, u, y1) :: (tpath (Y0 ++ [b0, v]) ++ [(b0, v, x1)]) := by
    rw [List.cons_append, List.cons_append, corners3_cons]
    have : v :: x1 :: (X' ++ u :: y1 :: Y') ++ [v, x1] = v :: x1 :: X' ++ u :: y1 :: Y' ++ [v, x1] := by simp
    rw [this, hW, tpath_overlap X0 a0 u]
    have e : tpath (a0 :: u :: y1 :: (Y' ++ [v, x1])) = (a0, u, y1) :: tpath (u :: y1 :: (Y' ++ [v, x1])) := by simp [tpath]
    rw [e, hW2, tpath_overlap Y0 b0 v]
    simp [tpath]
  rw [hcc] at hc
  simp only [List.mem_append, List.mem_cons, List.not_mem_nil, or_false] at hc
  rcases hc with hc | rfl | hc | rfl
  · exact ca c (tX hc)
  · exact hj.1
  · exact cb c (tY hc)
  · exact hj.2

end Rerecast
