import Verif.Lemmas.MergeShape
import Mathlib.Data.List.NodupEquivFin
/-! Two strictly convex polygons joined at a side are strictly convex if they are convex at the two joints. -/
set_option linter.unusedVariables false
namespace Rerecast

/-- Any three entries of the list, in order, turn one way. -/
def Turning {α R : Type} [Zero R] [LT R] (D : α → α → α → R) (l : List α) : Prop := ∀ a b c, [a, b, c].Sublist l → 0 < D a b c

section
variable {α R : Type} [Zero R] [LT R] {D : α → α → α → R}

theorem turning_rotate_one (cyc : ∀ a b c, D b c a = D a b c) {l : List α} (h : Turning D l) : Turning D (l.rotate 1) := by
  cases l with
  | nil => simpa using h
  | cons x l =>
    intro a b c hs
    rw [List.rotate_cons_succ, List.rotate_zero] at hs
    obtain ⟨l1, l2, e, h1, h2⟩ := List.sublist_append_iff.1 hs
    have h2' : l2 = [] ∨ l2 = [x] := by
      cases l2 with
      | nil => exact Or.inl rfl
      | cons y m =>
        right
        have hl := h2.length_le
        simp only [List.length_cons, List.length_nil] at hl
        have : m = [] := List.length_eq_zero_iff.1 (by omega)
        subst this
        rw [List.singleton_sublist, List.mem_singleton] at h2
        rw [h2]
    rcases h2' with rfl | rfl
    · rw [List.append_nil] at e
      subst e
      exact h a b c (h1.cons x)
    · have : l1 = [a, b] ∧ c = x := by
        have := congrArg List.reverse e
        simp at this
        refine ⟨?_, this.1⟩
        have h' := congrArg List.reverse this.2
        simpa using h'.symm
      obtain ⟨rfl, rfl⟩ := this
      rw [cyc c a b]
      exact h c a b (h1.cons₂ c)

theorem turning_rotate (cyc : ∀ a b c, D b c a = D a b c) {l : List α} (h : Turning D l) : ∀ k, Turning D (l.rotate k)
  | 0 => by simpa using h
  | k + 1 => by rw [← List.rotate_rotate]; exact turning_rotate_one cyc (turning_rotate cyc h k)

theorem turning_rotated (cyc : ∀ a b c, D b c a = D a b c) {l : List α} {k : Nat} (h : Turning D (l.rotate k)) : Turning D l := by
  by_cases h0 : l.length = 0
  · rw [List.length_eq_zero_iff] at h0; subst h0; simpa using h
  · have := turning_rotate cyc h (l.length - k % l.length)
    rw [List.rotate_rotate] at this
    have e : l.rotate (k + (l.length - k % l.length)) = l := by
      have hk := Nat.mod_lt k (show 0 < l.length by omega)
      rw [← List.rotate_mod, Nat.add_mod, Nat.mod_eq_of_lt (a := l.length - _ % _ ) (b := l.length + 1) (by omega) |>.symm]
      have : (k % l.length + (l.length - k % l.length) % (l.length + 1) % l.length) % l.length = 0 := by
        rw [Nat.mod_eq_of_lt (a := l.length - _) (b := l.length + 1) (by omega), Nat.add_mod_mod, show k % l.length + (l.length - k % l.length) = l.length by omega, Nat.mod_self]
      rw [this, List.rotate_zero]
    rwa [e] at this

end

section
variable {α : Type} {D : α → α → α → Int}

theorem pos_of_plu {x y a b c d : Int} (h : x * y = a * b + c * d) (hy : 0 < y) (ha : 0 < a) (hb : 0 < b) (hc : 0 < c) (hd : 0 < d) : 0 < x := by
  have h1 := mul_pos ha hb
  have h2 := mul_pos hc hd
  by_contra hn
  have := mul_nonpos_of_nonpos_of_nonneg (not_lt.1 hn) hy.le
  linarith

section
variable (cyc : ∀ a b c, D b c a = D a b c) (plu : ∀ o e f g h, D o e g * D o f h = D o e f * D o g h + D o e h * D o f g)
include cyc plu

/-- Seen from `v`. -/
theorem joint_seen {v u x1 b0 : α} {X' Y0 : List α} (ca : Turning D (v :: (x1 :: X') ++ [u])) (cb : Turning D (u :: (Y0 ++ [b0]) ++ [v]))
    (j : 0 < D b0 v x1) : ∀ x ∈ x1 :: X', ∀ y ∈ Y0 ++ [b0], 0 < D v x y := by
  have hu : ∀ x ∈ x1 :: X', 0 < D v x u := fun x hx => ca v x u (by
    rw [List.cons_append]
    exact (List.cons_sublist_cons).2 ((List.singleton_sublist.2 hx).append (List.Sublist.refl [u])))
  have hb : ∀ y ∈ Y0 ++ [b0], 0 < D v u y := fun y hy => by
    rw [← cyc v u y]
    exact cb u y v (by
      rw [List.cons_append]
      exact (List.cons_sublist_cons).2 ((List.singleton_sublist.2 hy).append (List.Sublist.refl [v])))
  have h1 : ∀ y ∈ Y0 ++ [b0], 0 < D v x1 y := by
    intro y hy
    have hb0 : 0 < D v x1 b0 := by rw [← cyc b0 v x1] at j; exact j
    rcases List.mem_append.1 hy with h | h
    · refine pos_of_plu (plu v x1 u y b0) (hb b0 (by simp)) (hu x1 (by simp)) ?_ hb0 (hb y hy)
      rw [← cyc v y b0]
      exact cb y b0 v (by
        refine List.Sublist.trans ?_ (List.sublist_cons_self u _)
        have : [y, b0, v] = [y] ++ ([b0] ++ [v]) := rfl
        show List.Sublist _ (Y0 ++ [b0] ++ [v])
        rw [this, List.append_assoc]
        exact (List.singleton_sublist.2 h).append (List.Sublist.refl _))
    · rw [List.mem_singleton.1 h]; exact hb0
  intro x hx y hy
  rcases List.mem_cons.1 hx with rfl | hx'
  · exact h1 y hy
  · refine pos_of_plu (y := D v x1 u) (a := D v x1 x) (b := D v u y) (c := D v x1 y) (d := D v x u) ?_ (hu x1 (by simp)) ?_ (hb y hy) (h1 y hy) (hu x hx)
    · have := plu v x1 x u y
      linarith
    · exact ca v x1 x (by
        rw [List.cons_append, List.cons_append]
        exact (List.cons_sublist_cons).2 ((List.cons_sublist_cons).2 ((List.singleton_sublist.2 hx').trans (List.sublist_append_left _ _))))

theorem joint_two {v u a b y : α} {X : List α} (ca : Turning D (v :: X ++ [u])) (hab : [a, b].Sublist X) (hv : 0 < D v a y) (hu : 0 < D u y a) : 0 < D a b y := by
  have ha : a ∈ X := hab.subset (by simp)
  refine pos_of_plu (plu a b u y v) ?_ ?_ ?_ ?_ ?_
  · rw [← cyc a u v, ← cyc u v a]
    exact ca v a u (by
      rw [List.cons_append]
      exact (List.cons_sublist_cons).2 ((List.singleton_sublist.2 ha).append (List.Sublist.refl [u])))
  · exact ca a b u (by
      have : [a, b, u] = [a, b] ++ [u] := rfl
      rw [this]
      exact (hab.trans (List.sublist_cons_self v X)).append (List.Sublist.refl [u]))
  · rw [← cyc a y v, ← cyc y v a]; exact hv
  · rw [← cyc a b v, ← cyc b v a]
    exact ca v a b (by
      rw [List.cons_append]
      exact (List.cons_sublist_cons).2 (hab.trans (List.sublist_append_left _ _)))
  · rw [← cyc a u y]; exact hu

theorem turning_join {v u x1 a0 y1 b0 : α} {X X' X0 Y Y' Y0 : List α} (ex : X = x1 :: X') (ex' : X = X0 ++ [a0]) (ey : Y = y1 :: Y') (ey' : Y = Y0 ++ [b0])
    (ca : Turning D (v :: X ++ [u])) (cb : Turning D (u :: Y ++ [v])) (j1 : 0 < D a0 u y1) (j2 : 0 < D b0 v x1) : Turning D (v :: X ++ u :: Y) := by
  have seenV : ∀ x ∈ X, ∀ y ∈ Y, 0 < D v x y := by
    rw [ex, ey']
    exact joint_seen cyc plu (by rw [← ex]; exact ca) (by rw [← ey']; exact cb) j2
  have seenU : ∀ y ∈ Y, ∀ x ∈ X, 0 < D u y x := by
    rw [ey, ex']
    exact joint_seen cyc plu (by rw [← ey]; exact cb) (by rw [← ex']; exact ca) j1
  intro a b c hs
  obtain ⟨l1, l2, e, h1, h2⟩ := List.sublist_append_iff.1 hs
  have suba : ∀ {m : List α}, m.Sublist (v :: X) → m.Sublist (v :: X ++ [u]) := fun h => h.trans (List.sublist_append_left _ _)
  have subb : ∀ {m : List α}, m.Sublist (u :: Y) → m.Sublist (u :: Y ++ [v]) := fun h => h.trans (List.sublist_append_left _ _)
  rcases l1 with _ | ⟨p, _ | ⟨q, _ | ⟨r, l1⟩⟩⟩
  · rw [List.nil_append] at e
    subst e
    exact cb a b c (subb h2)
  · simp only [List.cons_append, List.nil_append, List.cons.injEq] at e
    obtain ⟨rfl, rfl⟩ := e
    rw [List.singleton_sublist, List.mem_cons] at h1
    cases h2 with
    | cons _ h2 =>
      -- both on `Y`
      rcases h1 with rfl | h1
      · rw [← cyc a b c]
        exact cb b c a (by
          have : [b, c, a] = [b, c] ++ [a] := rfl
          rw [this]
          exact (h2.trans (List.sublist_cons_self u Y)).append (List.Sublist.refl _))
      · rw [← cyc a b c]
        exact joint_two cyc plu cb h2 (seenU b (h2.subset (by simp)) a h1) (seenV a h1 b (h2.subset (by simp)))
    | cons_cons _ h2 =>
      rw [List.singleton_sublist] at h2
      rcases h1 with rfl | h1
      · rw [← cyc a u c]
        exact cb u c a (by
          rw [List.cons_append]
          exact (List.cons_sublist_cons).2 ((List.singleton_sublist.2 h2).append (List.Sublist.refl _)))
      · rw [← cyc a u c]
        exact seenU c h2 a h1
  · simp only [List.cons_append, List.nil_append, List.cons.injEq] at e
    obtain ⟨rfl, rfl, rfl⟩ := e
    rw [List.singleton_sublist, List.mem_cons] at h2
    rcases h2 with rfl | h2
    · exact ca a b c (by
        have : [a, b, c] = [a, b] ++ [c] := rfl
        rw [this]
        exact h1.append (List.Sublist.refl _))
    · cases h1 with
      | cons _ h1 => exact joint_two cyc plu ca h1 (seenV a (h1.subset (by simp)) c h2) (seenU c h2 a (h1.subset (by simp)))
      | cons_cons _ h1 =>
        rw [List.singleton_sublist] at h1
        exact seenV b h1 c h2
  · simp only [List.cons_append, List.cons.injEq] at e
    obtain ⟨rfl, rfl, rfl, e⟩ := e
    obtain ⟨rfl, rfl⟩ := List.append_eq_nil_iff.1 e.symm
    exact ca a b c (suba h1)

end
end

/-- The turn of three vertices, positive for convex corners. -/
def bend (verts : List U16Vec3) (a b c : Nat) : Int := - cross (pos verts a) (pos verts b) (pos verts c)

theorem bend_cyc (verts : List U16Vec3) (a b c : Nat) : bend verts b c a = bend verts a b c := by unfold bend cross; ring

theorem bend_plu (verts : List U16Vec3) (o e f g h : Nat) :
    bend verts o e g * bend verts o f h = bend verts o e f * bend verts o g h + bend verts o e h * bend verts o f g := by unfold bend cross; ring

theorem cons_drop_sublist {l m : List α} {i : Nat} (hi : i < l.length) (h : m.Sublist (l.drop (i + 1))) : (l[i] :: m).Sublist (l.drop i) := by
  rw [List.drop_eq_getElem_cons hi]
  exact List.cons_sublist_cons.2 h

theorem drop_mono_sublist {l : List α} {i j : Nat} (h : i ≤ j) : (l.drop j).Sublist (l.drop i) := by
  obtain ⟨d, rfl⟩ := Nat.exists_eq_add_of_le h
  rw [← List.drop_drop]
  exact List.drop_sublist _ _

theorem three_sublist {l : List α} {i j k : Nat} (hij : i < j) (hjk : j < k) (hk : k < l.length) :
    [l[i]'(by omega), l[j]'(by omega), l[k]].Sublist l := by
  have h3 : [l[k]].Sublist (l.drop k) := cons_drop_sublist hk (List.nil_sublist _)
  have h2 : [l[j]'(by omega), l[k]].Sublist (l.drop j) := cons_drop_sublist (by omega) (h3.trans (drop_mono_sublist (by omega)))
  have h1 : [l[i]'(by omega), l[j]'(by omega), l[k]].Sublist (l.drop i) := cons_drop_sublist (by omega) (h2.trans (drop_mono_sublist (by omega)))
  exact h1.trans (List.drop_sublist _ _)

theorem sublist_three {l : List α} {a b c : α} (h : [a, b, c].Sublist l) :
    ∃ i j k : Nat, i < j ∧ j < k ∧ l[i]? = some a ∧ l[j]? = some b ∧ l[k]? = some c := by
  obtain ⟨f, hf⟩ := List.sublist_iff_exists_orderEmbedding_getElem?_eq.1 h
  exact ⟨f 0, f 1, f 2, f.lt_iff_lt.2 (by norm_num), f.lt_iff_lt.2 (by norm_num), (hf 0).symm, (hf 1).symm, (hf 2).symm⟩

theorem strictlyConvex_iff {verts : List U16Vec3} {p : List Nat} : StrictlyConvex (p.map (pos verts)) ↔ Turning (bend verts) p := by
  constructor
  · intro h a b c hs
    obtain ⟨i, j, k, hij, hjk, h1, h2, h3⟩ := sublist_three hs
    obtain ⟨hk, e3⟩ := List.getElem?_eq_some_iff.1 h3
    obtain ⟨_, e2⟩ := List.getElem?_eq_some_iff.1 h2
    obtain ⟨_, e1⟩ := List.getElem?_eq_some_iff.1 h1
    have := h i j k hij hjk (by simpa using hk)
    simp only [List.getElem_map, e1, e2, e3] at this
    unfold bend
    omega
  · intro h i j k hij hjk hk
    have := h _ _ _ (three_sublist hij hjk (by simpa using hk))
    simp only [List.getElem_map]
    unfold bend at this
    omega

theorem StrictlyConvex.corners {verts : List U16Vec3} {p : List Nat} (h3 : 3 ≤ p.length) (h : StrictlyConvex (p.map (pos verts))) : ConvexCorners verts p := by
  rw [strictlyConvex_iff] at h
  intro q hq
  obtain ⟨i, hi⟩ := List.mem_iff_getElem?.1 hq
  have hl : i < p.length := by
    have := (List.getElem?_eq_some_iff.1 hi).1
    unfold corners3 at this
    simp at this; exact this
  have ht := turning_rotate (bend_cyc verts) h i
  have e : (corners3 (p.rotate i))[0]? = some q := by
    rw [corners3_rotate, List.getElem?_rotate (by unfold corners3; simp; omega)]
    have : (corners3 p).length = p.length := by unfold corners3; simp
    rw [this, Nat.zero_add, Nat.mod_eq_of_lt hl]; exact hi
  have hr : 3 ≤ (p.rotate i).length := by simpa using h3
  generalize p.rotate i = r at ht e hr
  match r, hr with
  | x :: y :: z :: r, _ =>
    rw [corners3_cons] at e
    simp [tpath] at e
    rw [← e]
    have := ht x y z (by simp)
    unfold bend at this
    dsimp only
    omega

/-- Merging keeps polygons strictly convex. -/
theorem Meet.convex {verts : List U16Vec3} {pa pb : List Nat} {ea eb u v : Nat} {X Y : List Nat} (h : Meet pa pb ea eb u v X Y)
    (hX : X ≠ []) (hY : Y ≠ []) (hea : ea < pa.length) (heb : eb < pb.length)
    (ca : StrictlyConvex (pa.map (pos verts))) (cb : StrictlyConvex (pb.map (pos verts))) (hj : JointConvex verts pa pb ea eb) :
    StrictlyConvex ((mergedPoly pa pb ea eb).map (pos verts)) := by
  rw [strictlyConvex_iff] at *
  have ca := turning_rotate (bend_cyc verts) ca (ea + 1)
  have cb := turning_rotate (bend_cyc verts) cb (eb + 1)
  rw [h.ha] at ca
  rw [h.hb] at cb
  rw [h.merged]
  obtain ⟨x1, X', ex⟩ : ∃ x X', X = x :: X' := by cases X with | nil => exact absurd rfl hX | cons a l => exact ⟨a, l, rfl⟩
  obtain ⟨y1, Y', ey⟩ : ∃ y Y', Y = y :: Y' := by cases Y with | nil => exact absurd rfl hY | cons a l => exact ⟨a, l, rfl⟩
  obtain ⟨X0, a0, ex'⟩ : ∃ X0 a0, X = X0 ++ [a0] := by
    rcases List.eq_nil_or_concat X with h | ⟨l, z, h⟩
    · exact absurd h hX
    · exact ⟨l, z, by simpa using h⟩
  obtain ⟨Y0, b0, ey'⟩ : ∃ Y0 b0, Y = Y0 ++ [b0] := by
    rcases List.eq_nil_or_concat Y with h | ⟨l, z, h⟩
    · exact absurd h hY
    · exact ⟨l, z, by simpa using h⟩
  have at1 : ∀ (p l : List Nat) (k n : Nat) (x : Nat), p.rotate k = l → n < p.length → l[n]? = some x → cornerAt p (n + k) = x := by
    intro p l k n x hl hn hx
    rw [← hl, List.getElem?_rotate hn] at hx
    unfold cornerAt
    rw [List.getD_eq_getElem?_getD, hx]; rfl
  have per : ∀ (p : List Nat) (i j : Nat), i % p.length = j % p.length → cornerAt p i = cornerAt p j := by
    intro p i j e; unfold cornerAt; rw [e]
  have la : pa.length = X.length + 2 := by have := congrArg List.length h.ha; simpa using this
  have lb : pb.length = Y.length + 2 := by have := congrArg List.length h.hb; simpa using this
  have lX : X.length = X0.length + 1 := by rw [ex']; simp
  have lY : Y.length = Y0.length + 1 := by rw [ey']; simp
  have c1 : cornerAt pa (ea + pa.length - 1) = a0 := by
    rw [← at1 pa _ (ea + 1) (pa.length - 2) a0 h.ha (by omega) (by
      rw [show pa.length - 2 = X0.length + 1 by omega, ex']; simp)]
    exact per pa _ _ (by congr 1; omega)
  have c2 : cornerAt pa ea = u := by
    rw [← at1 pa _ (ea + 1) (pa.length - 1) u h.ha (by omega) (by
      rw [show pa.length - 1 = (v :: X).length by simp; omega, List.getElem?_concat_length])]
    refine per pa _ _ ?_
    rw [show pa.length - 1 + (ea + 1) = ea + pa.length by omega, Nat.add_mod_right]
  have c3 : cornerAt pa (ea + 2) = x1 := by
    rw [← at1 pa _ (ea + 1) 1 x1 h.ha (by omega) (by rw [ex]; simp)]
    exact per pa _ _ (by congr 1; omega)
  have d1 : cornerAt pb (eb + pb.length - 1) = b0 := by
    rw [← at1 pb _ (eb + 1) (pb.length - 2) b0 h.hb (by omega) (by
      rw [show pb.length - 2 = Y0.length + 1 by omega, ey']; simp)]
    exact per pb _ _ (by congr 1; omega)
  have d2 : cornerAt pb eb = v := by
    rw [← at1 pb _ (eb + 1) (pb.length - 1) v h.hb (by omega) (by
      rw [show pb.length - 1 = (u :: Y).length by simp; omega, List.getElem?_concat_length])]
    refine per pb _ _ ?_
    rw [show pb.length - 1 + (eb + 1) = eb + pb.length by omega, Nat.add_mod_right]
  have d3 : cornerAt pb (eb + 2) = y1 := by
    rw [← at1 pb _ (eb + 1) 1 y1 h.hb (by omega) (by rw [ey]; simp)]
    exact per pb _ _ (by congr 1; omega)
  obtain ⟨j1, j2⟩ := hj
  rw [c1, c2, d3] at j1
  rw [d1, d2, c3] at j2
  exact turning_join (bend_cyc verts) (bend_plu verts) ex ex' ey ey' ca cb (by unfold bend; omega) (by unfold bend; omega)

end Rerecast
