import Verif.Spec.DetailMesh
import Verif.Lemmas.EarCut
import Verif.Lemmas.ContourPolys
/-! `triangulate_hull` triangulates. -/
set_option linter.unusedVariables false
namespace Rerecast
variable {A : Fault → Prop} {F : Type} {o : FloatOps F}

/-- `m` consecutive positions from `l` on, of a cycle of `n`. -/
def arc (n l m : Nat) : List Nat := (List.range m).map fun k => (l + k) % n

theorem arc_length (n l m : Nat) : (arc n l m).length = m := by simp [arc]

theorem arc_cons (n l m : Nat) : arc n l (m + 1) = l % n :: arc n (l + 1) m := by
  unfold arc
  rw [List.range_succ_eq_map, List.map_cons, List.map_map]
  congr 1
  apply List.map_congr_left
  intro k _
  simp only [Function.comp]
  congr 1; omega

theorem arc_snoc (n l m : Nat) : arc n l (m + 1) = arc n l m ++ [(l + m) % n] := by
  unfold arc
  rw [List.range_succ, List.map_append]; rfl

theorem arcs_mod (n l m : Nat) : arc n (l % n) m = arc n l m := by
  unfold arc
  apply List.map_congr_left
  intro k _
  rw [Nat.mod_add_mod]

theorem arc_full {n : Nat} (l : Nat) : arc n l n = (List.range n).rotate l := by
  apply List.ext_getElem?
  intro k
  unfold arc
  rcases Nat.lt_or_ge k n with hk | hk
  · rw [List.getElem?_rotate (by simpa using hk)]
    simp only [List.getElem?_map, List.getElem?_range hk, Option.map_some, List.length_range]
    rw [List.getElem?_range (Nat.mod_lt _ (by omega)), Nat.add_comm]
  · rw [List.getElem?_eq_none (by simpa using hk), List.getElem?_eq_none (by simpa using hk)]

/-- The same triangle, perhaps starting at another corner. -/
def SameTri (t t' : Tri) : Prop := ∃ k, t.corners = t'.corners.rotate k

/-- Triangles `T` have been cut off and the arc of `m` positions from `l` is left (a single side if `m = 2`). -/
def FanInv (n l m : Nat) (T : List Tri) : Prop :=
  ∃ T', List.Forall₂ SameTri T T' ∧ ((3 ≤ m ∧ EarInv n (arc n l m) T') ∨ (m = 2 ∧ TriOk n T'))

theorem forall2_snoc {R : α → β → Prop} {l : List α} {m : List β} {a : α} {b : β} (h : List.Forall₂ R l m) (hab : R a b) :
    List.Forall₂ R (l ++ [a]) (m ++ [b]) := List.rel_append h (.cons hab .nil)

/-- Cut off the first position. -/
theorem FanInv.left {n l m : Nat} {T : List Tri} (h : FanInv n l (m + 1) T) (hm : 2 ≤ m) :
    FanInv n (l + 1) m (T ++ [(l % n, (l + 1) % n, (l + m) % n)]) := by
  obtain ⟨T', hT, h | h⟩ := h
  · refine ⟨T' ++ [((l + m) % n, l % n, (l + 1) % n)], forall2_snoc hT ⟨1, rfl⟩, ?_⟩
    obtain ⟨m, rfl⟩ : ∃ k, m = k + 2 := ⟨m - 2, by omega⟩
    have e : arc n l (m + 2 + 1) = l % n :: ((l + 1) % n :: arc n (l + 2) m ++ [(l + (m + 2)) % n]) := by
      rw [arc_snoc, show m + 2 = m + 1 + 1 from rfl, arc_cons, arc_cons]; rfl
    have e2 : arc n (l + 1) (m + 2) = (l + 1) % n :: arc n (l + 2) m ++ [(l + (m + 2)) % n] := by
      rw [show m + 2 = m + 1 + 1 from rfl, arc_snoc, arc_cons, show l + 1 + (m + 1) = l + (m + 1 + 1) by omega]
    rw [e] at h
    rcases Nat.eq_zero_or_pos m with rfl | hpos
    · right
      refine ⟨rfl, ?_⟩
      have := (h.2.rotate 2).finish (a := (l + (0 + 2)) % n) (b := l % n) (c := (l + 1) % n)
      simpa [arc, List.rotate_cons_succ] using this
    · left
      refine ⟨by omega, ?_⟩
      rw [e2]
      refine h.2.cut ?_
      intro h0
      have := congrArg List.length h0
      rw [arc_length] at this
      simp at this; omega
  · omega

/-- Cut off the last position. -/
theorem FanInv.right {n l m : Nat} {T : List Tri} (h : FanInv n l (m + 1) T) (hm : 2 ≤ m) :
    FanInv n l m (T ++ [(l % n, (l + (m - 1)) % n, (l + m) % n)]) := by
  obtain ⟨T', hT, h | h⟩ := h
  · refine ⟨T' ++ [((l + (m - 1)) % n, (l + m) % n, l % n)], forall2_snoc hT ⟨2, rfl⟩, ?_⟩
    obtain ⟨m, rfl⟩ : ∃ k, m = k + 2 := ⟨m - 2, by omega⟩
    rw [show m + 2 - 1 = m + 1 by omega]
    have e2 : arc n l (m + 2) = l % n :: arc n (l + 1) m ++ [(l + (m + 1)) % n] := by
      rw [show m + 2 = m + 1 + 1 from rfl, arc_snoc, arc_cons]
    have e : (arc n l (m + 2 + 1)).rotate (m + 2) = (l + (m + 2)) % n :: (l % n :: arc n (l + 1) m ++ [(l + (m + 1)) % n]) := by
      rw [arc_snoc]
      have := List.rotate_append_length_eq (arc n l (m + 2)) [(l + (m + 2)) % n]
      rw [arc_length] at this
      rw [this, e2]; rfl
    have hr := h.2.rotate (m + 2)
    rw [e] at hr
    rcases Nat.eq_zero_or_pos m with rfl | hpos
    · right
      refine ⟨rfl, ?_⟩
      have := (hr.rotate 2).finish (a := (l + (0 + 1)) % n) (b := (l + (0 + 2)) % n) (c := l % n)
      simpa [arc, List.rotate_cons_succ] using this
    · left
      refine ⟨by omega, ?_⟩
      rw [e2]
      refine hr.cut ?_
      intro h0
      have := congrArg List.length h0
      rw [arc_length] at this
      simp at this; omega
  · omega

theorem FanInv.start {n : Nat} (h : 3 ≤ n) (s : Nat) : FanInv n s n [] :=
  ⟨[], .nil, Or.inl ⟨h, by rw [arc_full]; exact (EarInv.start h).rotate s⟩⟩

/-- The vertices of a triangle of positions. -/
def hullVal (hull : List Nat) (t : Tri) : DTri := (hull.getD t.1 0, hull.getD t.2.1 0, hull.getD t.2.2 0)

theorem hullVal_corners (hull : List Nat) (t : Tri) : Tri.corners (hullVal hull t) = t.corners.map fun i => hull.getD i 0 := rfl

theorem range_map_getD (l : List Nat) : (List.range l.length).map (fun i => l.getD i 0) = l := by
  apply List.ext_getElem?
  intro k
  rcases Nat.lt_or_ge k l.length with hk | hk
  · simp [List.getElem?_range hk, hk]
  · rw [List.getElem?_eq_none (by simpa using hk), List.getElem?_eq_none (by simpa using hk)]

theorem allSides_sameTri {T T' : List Tri} (h : List.Forall₂ SameTri T T') :
    (allSides (T.map Tri.corners)).Perm (allSides (T'.map Tri.corners)) := by
  induction h with
  | nil => exact .refl _
  | cons hab _ ih =>
    obtain ⟨k, hk⟩ := hab
    rw [List.map_cons, List.map_cons, allSides_cons, allSides_cons, hk]
    exact (sides_rotate_perm _ k).append ih

theorem FanInv.done {hull : List Nat} {l : Nat} {T : List Tri} (h : FanInv hull.length l 2 T) :
    Triangulates (T.map (hullVal hull)) hull := by
  obtain ⟨T', hT, h | h⟩ := h
  · omega
  have hlen := hT.length_eq
  have hp := allSides_sameTri hT
  have hm : (T.map (hullVal hull)).map Tri.corners = (T.map Tri.corners).map (List.map fun i => hull.getD i 0) := by
    rw [List.map_map, List.map_map]; rfl
  refine ⟨by rw [List.length_map, hlen, h.2.count], ?_, ?_, ?_⟩
  · intro t ht
    obtain ⟨u, hu, rfl⟩ := List.mem_map.1 ht
    rw [hullVal_corners]
    have : InOrder u.corners (List.range hull.length) := by
      obtain ⟨i, hi⟩ := List.mem_iff_getElem?.1 hu
      obtain ⟨hi', hi⟩ := List.getElem?_eq_some_iff.1 hi
      have := (List.forall₂_iff_get.1 hT).2 i hi' (by omega)
      obtain ⟨k, hk⟩ := this
      simp only [List.get_eq_getElem, hi] at hk
      rw [hk, inOrder_rotate]
      exact h.2.corners _ (List.getElem_mem _)
    have := this.map fun i => hull.getD i 0
    rwa [range_map_getD] at this
  · intro hn
    rw [hm, allSides_map]
    have hnd : (allSides (T.map Tri.corners)).Nodup := hp.nodup_iff.2 h.2.once
    refine (List.nodup_map_iff_inj_on hnd).2 ?_
    have hlt : ∀ e ∈ allSides (T.map Tri.corners), e.1 < hull.length ∧ e.2 < hull.length := by
      intro e he
      have he := hp.mem_iff.1 he
      unfold allSides at he
      rw [List.mem_flatMap] at he
      obtain ⟨c, hc, he⟩ := he
      obtain ⟨t, ht, rfl⟩ := List.mem_map.1 hc
      have := mem_sides he
      exact ⟨List.mem_range.1 ((h.2.corners t ht).mem this.1), List.mem_range.1 ((h.2.corners t ht).mem this.2)⟩
    have hinj : ∀ i j, i < hull.length → j < hull.length → hull.getD i 0 = hull.getD j 0 → i = j := by
      intro i j hi hj hij
      simp only [List.getD_eq_getElem?_getD, List.getElem?_eq_getElem hi, List.getElem?_eq_getElem hj, Option.getD_some] at hij
      exact (List.Nodup.getElem_inj_iff hn).1 hij
    rintro ⟨a, b⟩ hab ⟨c, d⟩ hcd heq
    simp only [Prod.map_apply, Prod.mk.injEq] at heq
    have h1 := hlt _ hab
    have h2 := hlt _ hcd
    rw [hinj a c h1.1 h2.1 heq.1, hinj b d h1.2 h2.2 heq.2]
  · intro f hf
    rw [hm, allSides_map, List.map_map, sum_perm hp]
    have := h.2.bal (f ∘ Prod.map (fun i => hull.getD i 0) (fun i => hull.getD i 0)) (fun a b => hf _ _)
    rw [this, ← List.map_map, ← sides_map, range_map_getD]

/-- Every entry of the hull is a vertex, and fits into a `u8`. -/
def HullOk (verts : List (Vec3 F)) (hull : List Nat) : Prop := ∀ v ∈ hull, v < verts.length ∧ v < 256

theorem hullVert_out {verts : List (Vec3 F)} {hull : List Nat} (h : HullOk verts hull) {i : Nat} (hi : i < hull.length) :
    Outs A (hullVert verts hull i) fun _ => True := by
  unfold hullVert
  rw [idx_ok hi, bind_ok]
  exact (Outs.idx (h _ (List.getElem_mem hi)).1).mono fun _ _ => trivial

theorem hullTri_out {verts : List (Vec3 F)} {hull : List Nat} (h : HullOk verts hull) {a b c : Nat} (ha : a < hull.length)
    (hb : b < hull.length) (hc : c < hull.length) : hullTri hull a b c = .ok (hullVal hull (a, b, c)) := by
  unfold hullTri
  rw [idx_ok ha, bind_ok, idx_ok hb, bind_ok, idx_ok hc, bind_ok]
  have e : ∀ i (hi : i < hull.length), asU8 hull[i] = hull.getD i 0 := by
    intro i hi
    unfold asU8
    rw [Nat.mod_eq_of_lt (h _ (List.getElem_mem hi)).2]
    simp [hi]
  rw [e a ha, e b hb, e c hc]; rfl

theorem nextIdx_ok {i n : Nat} (h : 0 < n) : nextIdx i n = .ok ((i + 1) % n) := by unfold nextIdx; rw [if_neg (by omega)]
theorem prevIdx_ok {i n : Nat} (h : 0 < n) : prevIdx i n = .ok ((i + n - 1) % n) := by unfold prevIdx; rw [if_neg (by omega)]

theorem goLeft_out {verts : List (Vec3 F)} {hull : List Nat} (h : HullOk verts hull) {a b c d : Nat} (ha : a < hull.length)
    (hb : b < hull.length) (hc : c < hull.length) (hd : d < hull.length) : Outs A (goLeft o verts hull a b c d) fun _ => True := by
  unfold goLeft
  exact (hullVert_out h ha).bind fun _ _ => (hullVert_out h hb).bind fun _ _ => (hullVert_out h hc).bind fun _ _ =>
    (hullVert_out h hd).bind fun _ _ => Outs.ok trivial

theorem hullLoop_out {verts : List (Vec3 F)} {hull : List Nat} (h : HullOk verts hull) : ∀ (fuel l m : Nat) (T : List Tri),
    2 ≤ m → m ≤ fuel + 1 → m < hull.length → FanInv hull.length l m T →
    Outs A (hullLoop o verts hull fuel (l % hull.length) ((l + (m - 1)) % hull.length) (T.map (hullVal hull))) fun R => Triangulates R hull := by
  intro fuel
  induction fuel with
  | zero => intro l m T h2 hm; omega
  | succ fuel ih =>
    intro l m T h2 hm hlt hinv
    have hn : 0 < hull.length := by omega
    unfold hullLoop
    rw [nextIdx_ok hn, bind_ok, Nat.mod_add_mod]
    by_cases he : m = 2
    · subst he
      rw [if_pos rfl]
      exact Outs.ok hinv.done
    · obtain ⟨m, rfl⟩ : ∃ k, m = k + 1 := ⟨m - 1, by omega⟩
      have hne : ¬ (l + 1) % hull.length = (l + (m + 1 - 1)) % hull.length := by
        intro heq
        have h1 : (l + (m + 1 - 1)) = l + 1 + (m - 1) := by omega
        rw [h1] at heq
        have : (m - 1) % hull.length = 0 := by
          have := Nat.sub_mod_eq_zero_of_mod_eq heq.symm
          rwa [Nat.add_sub_cancel_left] at this
        rw [Nat.mod_eq_of_lt (by omega)] at this
        omega
      rw [if_neg hne, prevIdx_ok hn, bind_ok]
      have e1 : ((l + (m + 1 - 1)) % hull.length + hull.length - 1) % hull.length = (l + (m - 1)) % hull.length := by
        rw [Nat.add_sub_assoc (by omega), Nat.mod_add_mod, show l + (m + 1 - 1) + (hull.length - 1) = l + (m - 1) + hull.length by omega,
          Nat.add_mod_right]
      rw [e1]
      refine (goLeft_out h (Nat.mod_lt _ hn) (Nat.mod_lt _ hn) (Nat.mod_lt _ hn) (Nat.mod_lt _ hn)).bind fun b _ => ?_
      have hl := hinv.left (by omega)
      have hr := hinv.right (by omega)
      rw [show l + (m + 1 - 1) = l + m by omega]
      cases b
      · simp only [Bool.false_eq_true, if_false]
        rw [hullTri_out h (Nat.mod_lt _ hn) (Nat.mod_lt _ hn) (Nat.mod_lt _ hn), bind_ok]
        have := ih l m _ (by omega) (by omega) (by omega) hr
        simpa using this
      · simp only [if_true]
        rw [hullTri_out h (Nat.mod_lt _ hn) (Nat.mod_lt _ hn) (Nat.mod_lt _ hn), bind_ok]
        have := ih (l + 1) m _ (by omega) (by omega) (by omega) hl
        rw [show l + 1 + (m - 1) = l + m by omega] at this
        simpa using this

/-- The first ear is at some corner. -/
def HullEar.Ok (n : Nat) (e : HullEar F) : Prop := e.start < n ∧ e.left = (e.start + 1) % n ∧ e.right = (e.start + n - 1) % n

theorem hullEarStep_out {verts : List (Vec3 F)} {hull : List Nat} (h : HullOk verts hull) {nin i : Nat} (hi : i < hull.length)
    {e : HullEar F} (he : e.Ok hull.length) : Outs A (hullEarStep o verts hull nin e i) fun e' => e'.Ok hull.length := by
  have hn : 0 < hull.length := by omega
  unfold hullEarStep
  rw [idx_ok hi, bind_ok]
  split
  · exact Outs.ok he
  · rw [prevIdx_ok hn, bind_ok, nextIdx_ok hn, bind_ok]
    refine (hullVert_out h (Nat.mod_lt _ hn)).bind fun _ _ => (hullVert_out h hi).bind fun _ _ => (hullVert_out h (Nat.mod_lt _ hn)).bind fun _ _ => ?_
    dsimp only
    split
    · exact Outs.ok ⟨hi, rfl, rfl⟩
    · exact Outs.ok he

/-- `triangulate_hull` triangulates every hull of at least three vertices. -/
theorem triangulateHull_out {verts : List (Vec3 F)} {hull : List Nat} (h : HullOk verts hull) (h3 : 3 ≤ hull.length) (nin : Nat) :
    Outs A (triangulateHull o verts hull nin) fun T => Triangulates T hull := by
  have hn : 0 < hull.length := by omega
  unfold triangulateHull
  unfold subU
  rw [if_pos (by omega), bind_ok]
  refine (Outs.foldlM_inv (fun e => HullEar.Ok hull.length e) _ _ ?_ fun i hi e he => hullEarStep_out h (List.mem_range.1 hi) he).bind ?_
  · refine ⟨hn, ?_, ?_⟩
    · show 1 = (0 + 1) % hull.length; rw [Nat.mod_eq_of_lt (by omega)]
    · show hull.length - 1 = (0 + hull.length - 1) % hull.length; rw [Nat.mod_eq_of_lt (by omega)]; omega
  rintro ⟨s, l, r, d⟩ ⟨hs, hl, hr⟩
  dsimp only at hs hl hr ⊢
  rw [hullTri_out h hs (by rw [hl]; exact Nat.mod_lt _ hn) (by rw [hr]; exact Nat.mod_lt _ hn), bind_ok]
  obtain ⟨n, hne⟩ : ∃ k, hull.length = k + 1 := ⟨hull.length - 1, by omega⟩
  have h0 : FanInv hull.length s (n + 1) [] := by rw [← hne]; exact FanInv.start h3 s
  have h1 := h0.left (by omega)
  have := hullLoop_out (A := A) (o := o) h hull.length (s + 1) n _ (by omega) (by omega) (by omega) h1
  rw [Nat.mod_eq_of_lt hs, ← hl] at this
  rw [show s + 1 + (n - 1) = s + n by omega] at this
  rw [show s + hull.length - 1 = s + n by omega] at hr
  rw [← hr] at this
  exact this

end Rerecast
