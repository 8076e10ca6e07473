import Verif.Spec.DetailMesh
import Verif.Lemmas.Cycle
import Verif.Lemmas.IntoPolyMesh
/-! `delaunay_hull` terminates without panic, and its triangles are proper ones. -/
set_option linter.unusedVariables false
namespace Rerecast
variable {A : Fault → Prop} {F : Type} {o : FloatOps F}

/-- A face: three different points, turning left. -/
def Facet (o : FloatOps F) (pts : List (Vec3 F)) (npts : Nat) (f : Tri) : Prop :=
  f.1 < npts ∧ f.2.1 < npts ∧ f.2.2 < npts ∧ f.1 ≠ f.2.1 ∧ f.2.1 ≠ f.2.2 ∧ f.2.2 ≠ f.1 ∧
  ∃ a b c, pts[f.1]? = some a ∧ pts[f.2.1]? = some b ∧ pts[f.2.2]? = some c ∧ o.lt (o.lit (1 / 100000)) (cross2 o a b c) = true

theorem tri_sides_mem {t : Tri} {e : Nat × Nat} : e ∈ sides t.corners ↔ e = (t.1, t.2.1) ∨ e = (t.2.1, t.2.2) ∨ e = (t.2.2, t.1) := by
  simp [sides, Tri.corners, List.rotate_cons_succ]

/-- An edge joins two points, and its faces have it as a side. -/
def EdgeOk (npts : Nat) (faces : List Tri) (e : DEdges) : Prop :=
  ∃ s t, e.e0 = .regular s ∧ e.e1 = .regular t ∧ s < npts ∧ t < npts ∧ s ≠ t ∧
    (∀ f, e.e2 = .regular f → ∃ T, faces[f]? = some T ∧ (s, t) ∈ sides (Tri.corners T)) ∧
    (∀ f, e.e3 = .regular f → ∃ T, faces[f]? = some T ∧ (t, s) ∈ sides (Tri.corners T))

theorem EdgeOk.mono {npts : Nat} {faces : List Tri} {e : DEdges} (h : EdgeOk npts faces e) (T : Tri) : EdgeOk npts (faces ++ [T]) e := by
  obtain ⟨s, t, h0, h1, hs, ht, hne, h2, h3⟩ := h
  have key : ∀ (f : Nat) (T' : Tri), faces[f]? = some T' → (faces ++ [T])[f]? = some T' := by
    intro f T' hf
    rw [List.getElem?_append_left (List.getElem?_eq_some_iff.1 hf).1]; exact hf
  refine ⟨s, t, h0, h1, hs, ht, hne, fun f hf => ?_, fun f hf => ?_⟩
  · obtain ⟨T', hT, hm⟩ := h2 f hf; exact ⟨T', key _ _ hT, hm⟩
  · obtain ⟨T', hT, hm⟩ := h3 f hf; exact ⟨T', key _ _ hT, hm⟩

structure DelInv (o : FloatOps F) (pts : List (Vec3 F)) (npts maxEdges : Nat) (faces : List Tri) (st : List DEdges × Nat) : Prop where
  edges : ∀ e ∈ st.1, EdgeOk npts faces e
  len : st.1.length ≤ maxEdges
  nfaces : faces.length = st.2
  facet : ∀ f ∈ faces, Facet o pts npts f

theorem addEdge_ok {npts maxEdges : Nat} {faces : List Tri} {edges : List DEdges} {s t l r : DEdge}
    (h : ∀ e ∈ edges, EdgeOk npts faces e) (hl : edges.length ≤ maxEdges) (hn : EdgeOk npts faces ⟨s, t, l, r⟩) :
    (∀ e ∈ addEdge maxEdges edges s t l r, EdgeOk npts faces e) ∧ (addEdge maxEdges edges s t l r).length ≤ maxEdges ∧
      edges.length ≤ (addEdge maxEdges edges s t l r).length := by
  unfold addEdge
  split
  · exact ⟨h, hl, le_refl _⟩
  · split
    · refine ⟨?_, ?_, by simp⟩
      · intro e he
        rw [List.mem_append, List.mem_singleton] at he
        rcases he with he | rfl
        · exact h e he
        · exact hn
      · rw [List.length_append, List.length_singleton]; omega
    · exact ⟨h, hl, le_refl _⟩

theorem updateLeftFace_ok {npts : Nat} {faces : List Tri} {e : DEdges} {s t : Nat} {f : DEdge} (h : EdgeOk npts faces e)
    (hf : ∀ n, f = .regular n → ∃ T, faces[n]? = some T ∧ (s, t) ∈ sides (Tri.corners T)) :
    EdgeOk npts faces (updateLeftFace e (.regular s) (.regular t) f) := by
  obtain ⟨a, b, h0, h1, ha, hb, hne, h2, h3⟩ := h
  unfold updateLeftFace
  split
  · rename_i hc
    simp only [Bool.and_eq_true, decide_eq_true_eq] at hc
    rw [h0, h1] at hc
    obtain ⟨⟨rfl, rfl⟩, _⟩ : (a = s ∧ b = t) ∧ _ := by simpa using hc
    exact ⟨a, b, h0, h1, ha, hb, hne, fun n hn => hf n hn, h3⟩
  · split
    · rename_i _ hc
      simp only [Bool.and_eq_true, decide_eq_true_eq] at hc
      rw [h0, h1] at hc
      obtain ⟨⟨rfl, rfl⟩, _⟩ : (b = s ∧ a = t) ∧ _ := by simpa using hc
      exact ⟨a, b, h0, h1, ha, hb, hne, h2, fun n hn => hf n hn⟩
    · exact ⟨a, b, h0, h1, ha, hb, hne, h2, h3⟩

theorem mem_set_ok {P : α → Prop} {l : List α} {i : Nat} {a : α} (h : ∀ x ∈ l, P x) (ha : P a) : ∀ x ∈ l.set i a, P x := by
  intro x hx
  rcases List.mem_or_eq_of_mem_set hx with hx | rfl
  · exact h x hx
  · exact ha

theorem faceEdge_out {npts maxEdges : Nat} {faces : List Tri} {edges : List DEdges} {s t f : Nat} (h : ∀ e ∈ edges, EdgeOk npts faces e)
    (hl : edges.length ≤ maxEdges) (hs : s < npts) (ht : t < npts) (hne : s ≠ t)
    (hf : ∃ T, faces[f]? = some T ∧ (s, t) ∈ sides (Tri.corners T)) :
    Outs A (faceEdge maxEdges edges s t f) fun es => (∀ e ∈ es, EdgeOk npts faces e) ∧ es.length ≤ maxEdges ∧ edges.length ≤ es.length := by
  unfold faceEdge
  split
  · refine Outs.ok (addEdge_ok h hl ⟨s, t, rfl, rfl, hs, ht, hne, ?_, ?_⟩)
    · intro n hn; cases hn; exact hf
    · intro n hn; cases hn
  · rename_i e he
    unfold findEdge at he
    obtain ⟨hlt, _⟩ := List.findIdx?_eq_some_iff_findIdx_eq.1 he
    rw [idx_ok hlt, bind_ok]
    refine Outs.of_eq (setIdx_ok hlt) ⟨?_, by simpa using hl, by simp⟩
    refine mem_set_ok h (updateLeftFace_ok (h _ (List.getElem_mem hlt)) ?_)
    intro n hn; cases hn; exact hf

theorem closeFacet_out {pts : List (Vec3 F)} {npts maxEdges : Nat} {faces : List Tri} {st : List DEdges × Nat} {e s t : Nat} {old : DEdges}
    (h : DelInv o pts npts maxEdges faces st) (he : st.1[e]? = some old) (hs : s < npts) (ht : t < npts) (hne : s ≠ t) {best : BestPt F}
    (hb : ∀ u c, best = some (u, c) → Facet o pts npts (s, t, u)) :
    Outs A (closeFacet maxEdges st.1 st.2 e s t old best) fun st' =>
      (∃ faces', DelInv o pts npts maxEdges faces' st') ∧ st.1.length ≤ st'.1.length := by
  obtain ⟨hlt, hget⟩ := List.getElem?_eq_some_iff.1 he
  have hold : EdgeOk npts faces old := h.edges old (hget ▸ List.getElem_mem hlt)
  unfold closeFacet
  split
  · rename_i u c
    have hfa := hb u c rfl
    have hu := hfa.2.2.1
    have hget' : (faces ++ [(s, t, u)])[st.2]? = some (s, t, u) := by
      rw [← h.nfaces, List.getElem?_append_right (le_refl _)]; simp
    have hmono : ∀ e ∈ st.1, EdgeOk npts (faces ++ [(s, t, u)]) e := fun e he => (h.edges e he).mono _
    rw [setIdx_ok hlt, bind_ok]
    have h1 : ∀ x ∈ st.1.set e (updateLeftFace old (.regular s) (.regular t) (.regular st.2)), EdgeOk npts (faces ++ [(s, t, u)]) x := by
      refine mem_set_ok hmono (updateLeftFace_ok (hold.mono _) ?_)
      intro n hn; cases hn
      exact ⟨_, hget', tri_sides_mem.2 (Or.inl rfl)⟩
    refine (faceEdge_out h1 (by simpa using h.len) hu hs (fun h => hfa.2.2.2.2.2.1 (by simpa using h))
      ⟨_, hget', tri_sides_mem.2 (Or.inr (Or.inr rfl))⟩).bind ?_
    rintro es ⟨h2, h2l, h2m⟩
    refine (faceEdge_out h2 h2l ht hu (fun h => hfa.2.2.2.2.1 (by simpa using h)) ⟨_, hget', tri_sides_mem.2 (Or.inr (Or.inl rfl))⟩).bind ?_
    rintro es' ⟨h3, h3l, h3m⟩
    refine Outs.ok ⟨⟨faces ++ [(s, t, u)], h3, h3l, ?_, ?_⟩, ?_⟩
    · simp [h.nfaces]
    · intro f hf
      rw [List.mem_append, List.mem_singleton] at hf
      rcases hf with hf | rfl
      · exact h.facet f hf
      · exact hfa
    · rw [List.length_set] at h2m; exact h2m.trans h3m
  · rw [setIdx_ok hlt, bind_ok]
    refine Outs.ok ⟨⟨faces, ?_, by simpa using h.len, h.nfaces, h.facet⟩, by simp⟩
    refine mem_set_ok h.edges (updateLeftFace_ok hold ?_)
    intro n hn; cases hn

theorem overlapEdges_out {pts : List (Vec3 F)} {npts : Nat} (hp : npts ≤ pts.length) {faces : List Tri} {s t : Nat} (hs : s < npts)
    (ht : t < npts) : ∀ {edges : List DEdges}, (∀ e ∈ edges, EdgeOk npts faces e) → Outs A (overlapEdges o pts s t edges) fun _ => True := by
  intro edges
  induction edges with
  | nil => intro _; exact Outs.ok trivial
  | cons e es ih =>
    intro h
    obtain ⟨a, b, h0, h1, ha, hb, _⟩ := h e (by simp)
    have ih := ih fun e he => h e (by simp [he])
    unfold overlapEdges
    rw [h0, h1]
    show Outs A (do let s0 ← Except.ok a; let t0 ← Except.ok b; _) _
    rw [bind_ok, bind_ok]
    split
    · exact ih
    · rw [idx_ok (by omega), bind_ok, idx_ok (by omega), bind_ok, idx_ok (by omega), bind_ok, idx_ok (by omega), bind_ok]
      split
      · exact Outs.ok trivial
      · exact ih

theorem facetStep_out {pts : List (Vec3 F)} {npts : Nat} (hp : npts ≤ pts.length) {faces : List Tri} {edges : List DEdges}
    (h : ∀ e ∈ edges, EdgeOk npts faces e) {s t u : Nat} (hs : s < npts) (ht : t < npts) (hst : s ≠ t) (hu : u < npts) {best : BestPt F}
    (hb : ∀ u c, best = some (u, c) → Facet o pts npts (s, t, u)) :
    Outs A (facetStep o pts edges s t best u) fun best' => ∀ u c, best' = some (u, c) → Facet o pts npts (s, t, u) := by
  unfold facetStep
  split
  · exact Outs.ok hb
  · rename_i hne
    simp only [Bool.or_eq_true, decide_eq_true_eq, not_or] at hne
    rw [idx_ok (by omega), bind_ok, idx_ok (by omega), bind_ok, idx_ok (by omega), bind_ok]
    split
    · rename_i hc
      have hnew : ∀ (x : Vec3 F × F) v c, (some (u, x) : BestPt F) = some (v, c) → Facet o pts npts (s, t, v) := by
        intro x v c hv; cases hv
        exact ⟨hs, ht, hu, hst, fun h => hne.2 h.symm, hne.1, _, _, _, List.getElem?_eq_getElem _, List.getElem?_eq_getElem _,
          List.getElem?_eq_getElem _, hc⟩
      dsimp only
      split
      · exact Outs.ok (hnew _)
      · split
        · exact Outs.ok hb
        · split
          · exact Outs.ok (hnew _)
          · unfold tryPoint
            refine (overlapEdges_out hp hs hu h).bind fun b _ => ?_
            split
            · exact Outs.ok hb
            · refine (overlapEdges_out hp ht hu h).bind fun b _ => ?_
              split
              · exact Outs.ok hb
              · exact Outs.ok (hnew _)
    · exact Outs.ok hb

/-- The state is fine, for some list of faces. -/
def DelOk (o : FloatOps F) (pts : List (Vec3 F)) (npts maxEdges : Nat) (st : List DEdges × Nat) : Prop :=
  ∃ faces, DelInv o pts npts maxEdges faces st

theorem completeFacet_out {pts : List (Vec3 F)} {npts maxEdges : Nat} (hp : npts ≤ pts.length) {st : List DEdges × Nat}
    (h : DelOk o pts npts maxEdges st) {e : Nat} (he : e < st.1.length) :
    Outs A (completeFacet o pts npts maxEdges st e) fun st' => DelOk o pts npts maxEdges st' ∧ st.1.length ≤ st'.1.length := by
  obtain ⟨faces, h⟩ := h
  unfold completeFacet
  rw [idx_ok he, bind_ok]
  obtain ⟨a, b, h0, h1, ha, hb, hne, _⟩ := h.edges _ (List.getElem_mem he)
  have key : ∀ s t, s < npts → t < npts → s ≠ t → Outs A (do
      let best ← (List.range npts).foldlM (facetStep o pts st.1 s t) none
      closeFacet maxEdges st.1 st.2 e s t st.1[e] best) fun st' => DelOk o pts npts maxEdges st' ∧ st.1.length ≤ st'.1.length := by
    intro s t hs ht hst
    refine (Outs.foldlM_inv (fun (best : BestPt F) => ∀ u c, best = some (u, c) → Facet o pts npts (s, t, u)) _ _ ?_ ?_).bind ?_
    · intro u c hc; cases hc
    · intro u hu best hb
      exact facetStep_out hp h.edges hs ht hst (List.mem_range.1 hu) hb
    · intro best hb
      exact closeFacet_out h (List.getElem?_eq_getElem he) hs ht hst hb
  unfold openEnds
  rw [h0, h1]
  split
  · exact Outs.ok ⟨⟨faces, h⟩, le_refl _⟩
  · rename_i s t hst
    split at hst
    · cases hst
      show Outs A (do let s ← Except.ok a; let t ← Except.ok b; _) _
      rw [bind_ok, bind_ok]
      exact key a b ha hb hne
    · split at hst
      · cases hst
        show Outs A (do let s ← Except.ok b; let t ← Except.ok a; _) _
        rw [bind_ok, bind_ok]
        exact key b a hb ha (Ne.symm hne)
      · cases hst

theorem completeIf_out {pts : List (Vec3 F)} {npts maxEdges : Nat} (hp : npts ≤ pts.length) {st : List DEdges × Nat}
    (h : DelOk o pts npts maxEdges st) {e : Nat} (he : e < st.1.length) (side : DEdges → DEdge) :
    Outs A (completeIf o pts npts maxEdges st e side) fun st' => DelOk o pts npts maxEdges st' ∧ st.1.length ≤ st'.1.length := by
  unfold completeIf
  rw [idx_ok he, bind_ok]
  split
  · exact completeFacet_out hp h he
  · exact Outs.ok ⟨h, le_refl _⟩

theorem facetLoop_out {pts : List (Vec3 F)} {npts maxEdges : Nat} (hp : npts ≤ pts.length) : ∀ (fuel cur : Nat) (st : List DEdges × Nat),
    DelOk o pts npts maxEdges st → cur ≤ st.1.length → maxEdges < cur + fuel →
    Outs A (facetLoop o pts npts maxEdges fuel cur st) (DelOk o pts npts maxEdges) := by
  intro fuel
  induction fuel with
  | zero =>
    intro cur st h hc hf
    obtain ⟨faces, h⟩ := h
    have := h.len
    omega
  | succ fuel ih =>
    intro cur st h hc hf
    unfold facetLoop
    split
    · rename_i hc
      refine (completeIf_out hp h hc _).bind ?_
      rintro st1 ⟨h1, hl1⟩
      refine (completeIf_out hp h1 (by omega) _).bind ?_
      rintro st2 ⟨h2, hl2⟩
      exact ih _ _ h2 (by omega) (by omega)
    · exact Outs.ok h

theorem hullEdges_out {pts : List (Vec3 F)} {npts maxEdges : Nat} {hull : List Nat} (h2 : 2 ≤ hull.length) (hn : hull.Nodup)
    (hlt : ∀ v ∈ hull, v < npts) : Outs A (hullEdges maxEdges hull) fun edges => DelOk o pts npts maxEdges (edges, 0) := by
  unfold hullEdges
  unfold subU
  rw [if_pos (by omega), bind_ok]
  refine (Outs.foldlM (fun pre (st : List DEdges × Nat) => (∀ e ∈ st.1, EdgeOk npts [] e) ∧ st.1.length ≤ maxEdges ∧
    st.2 = (pre.length + hull.length - 1) % hull.length) _ _ ?_ ?_).bind ?_
  · refine ⟨by simp, by simp, ?_⟩
    dsimp only
    rw [Nat.mod_eq_of_lt (by simp; omega)]; simp
  · rintro pre a post ⟨edges, j⟩ hl ⟨he, hm, hj⟩
    dsimp only at he hm hj ⊢
    have ha : a = pre.length ∧ a < hull.length := by
      have h1 : (List.range hull.length)[pre.length]? = some a := by rw [hl]; simp
      obtain ⟨h2, h3⟩ := List.getElem?_eq_some_iff.1 h1
      rw [List.getElem_range] at h3
      rw [List.length_range] at h2
      omega
    have hjl : j < hull.length := by rw [hj]; exact Nat.mod_lt _ (by omega)
    rw [idx_ok hjl, bind_ok, idx_ok ha.2, bind_ok]
    have hne : j ≠ a := by
      rw [hj]
      rcases Nat.eq_zero_or_pos pre.length with h0 | h0
      · rw [h0, Nat.mod_eq_of_lt (by omega)]; omega
      · rw [show pre.length + hull.length - 1 = pre.length - 1 + hull.length by omega, Nat.add_mod_right, Nat.mod_eq_of_lt (by omega)]; omega
    have := addEdge_ok (s := .regular hull[j]) (t := .regular hull[a]) (l := .hull) (r := .undefined) he hm
      ⟨_, _, rfl, rfl, hlt _ (List.getElem_mem _), hlt _ (List.getElem_mem _),
        fun h => hne ((List.Nodup.getElem_inj_iff hn).1 h), (fun f hf => by cases hf), (fun f hf => by cases hf)⟩
    refine Outs.ok ⟨this.1, this.2.1, ?_⟩
    dsimp only
    rw [List.length_append, List.length_singleton, show pre.length + 1 + hull.length - 1 = pre.length + hull.length by omega,
      Nat.add_mod_right, Nat.mod_eq_of_lt (by omega)]
    omega
  · rintro ⟨edges, j⟩ ⟨he, hm, _⟩
    exact Outs.ok ⟨[], he, hm, rfl, by simp⟩

/-- The triangle `t` has the corners of face `f`, in the opposite order. -/
def Flipped (f : Tri) (a b c : Nat) : Prop := ∃ n, ([a, b, c] : List Nat).reverse.rotate n = f.corners

/-- A triangle under construction, for face `f`. -/
def TriOf (f : Tri) (t : DEdges) : Prop :=
  t = DEdges.undef ∨ ∃ a b, t.e0 = .regular a ∧ t.e1 = .regular b ∧ (b, a) ∈ sides f.corners ∧
    (t.e2 = .undefined ∨ ∃ c, t.e2 = .regular c ∧ Flipped f a b c)

theorem flip_next {f : Tri} (hd : f.1 ≠ f.2.1 ∧ f.2.1 ≠ f.2.2 ∧ f.2.2 ≠ f.1) {a b c : Nat} (h1 : (b, a) ∈ sides f.corners)
    (h2 : (a, c) ∈ sides f.corners) : Flipped f a b c := by
  obtain ⟨x, y, z⟩ := f
  rw [tri_sides_mem] at h1 h2
  dsimp only at hd h1 h2
  simp only [Prod.mk.injEq] at h1 h2
  rcases h1 with ⟨rfl, rfl⟩ | ⟨rfl, rfl⟩ | ⟨rfl, rfl⟩ <;> rcases h2 with ⟨h, rfl⟩ | ⟨h, rfl⟩ | ⟨h, rfl⟩ <;>
    first
    | exact absurd h hd.1
    | exact absurd h hd.2.1
    | exact absurd h hd.2.2
    | exact absurd h.symm hd.1
    | exact absurd h.symm hd.2.1
    | exact absurd h.symm hd.2.2
    | exact ⟨0, rfl⟩
    | exact ⟨1, rfl⟩
    | exact ⟨2, rfl⟩

theorem flip_prev {f : Tri} (hd : f.1 ≠ f.2.1 ∧ f.2.1 ≠ f.2.2 ∧ f.2.2 ≠ f.1) {a b c : Nat} (h1 : (b, a) ∈ sides f.corners)
    (h2 : (c, b) ∈ sides f.corners) : Flipped f a b c := by
  obtain ⟨x, y, z⟩ := f
  rw [tri_sides_mem] at h1 h2
  dsimp only at hd h1 h2
  simp only [Prod.mk.injEq] at h1 h2
  rcases h1 with ⟨rfl, rfl⟩ | ⟨rfl, rfl⟩ | ⟨rfl, rfl⟩ <;> rcases h2 with ⟨rfl, h⟩ | ⟨rfl, h⟩ | ⟨rfl, h⟩ <;>
    first
    | exact absurd h hd.1
    | exact absurd h hd.2.1
    | exact absurd h hd.2.2
    | exact absurd h.symm hd.1
    | exact absurd h.symm hd.2.1
    | exact absurd h.symm hd.2.2
    | exact ⟨0, rfl⟩
    | exact ⟨1, rfl⟩
    | exact ⟨2, rfl⟩

theorem faceRight_ok {f : Tri} (hd : f.1 ≠ f.2.1 ∧ f.2.1 ≠ f.2.2 ∧ f.2.2 ≠ f.1) {e t : DEdges} {s u : Nat} (h0 : e.e0 = .regular s)
    (h1 : e.e1 = .regular u) (hm : (u, s) ∈ sides f.corners) (ht : TriOf f t) : TriOf f (faceRight e t) := by
  unfold faceRight
  rcases ht with rfl | ⟨a, b, ha, hb, hab, h2⟩
  · rw [if_pos (by rfl)]
    exact Or.inr ⟨s, u, h0, h1, hm, Or.inl rfl⟩
  · rw [ha, hb, h0, h1, if_neg (by simp [DEdge.isUndefined])]
    split
    · rename_i h; cases h
      exact Or.inr ⟨_, _, rfl, rfl, hab, Or.inr ⟨s, rfl, flip_next hd hab hm⟩⟩
    · split
      · rename_i _ h; cases h
        exact Or.inr ⟨_, _, rfl, rfl, hab, Or.inr ⟨u, rfl, flip_prev hd hab hm⟩⟩
      · exact Or.inr ⟨a, b, ha, hb, hab, h2⟩

theorem faceLeft_ok {f : Tri} (hd : f.1 ≠ f.2.1 ∧ f.2.1 ≠ f.2.2 ∧ f.2.2 ≠ f.1) {e t : DEdges} {s u : Nat} (h0 : e.e0 = .regular s)
    (h1 : e.e1 = .regular u) (hm : (s, u) ∈ sides f.corners) (ht : TriOf f t) : TriOf f (faceLeft e t) := by
  unfold faceLeft
  rcases ht with rfl | ⟨a, b, ha, hb, hab, h2⟩
  · rw [if_pos (by rfl)]
    exact Or.inr ⟨u, s, h1, h0, hm, Or.inl rfl⟩
  · rw [ha, hb, h0, h1, if_neg (by simp [DEdge.isUndefined])]
    split
    · rename_i h; cases h
      exact Or.inr ⟨_, _, rfl, rfl, hab, Or.inr ⟨u, rfl, flip_next hd hab hm⟩⟩
    · split
      · rename_i _ h; cases h
        exact Or.inr ⟨_, _, rfl, rfl, hab, Or.inr ⟨s, rfl, flip_prev hd hab hm⟩⟩
      · exact Or.inr ⟨a, b, ha, hb, hab, h2⟩

theorem onFace_out {faces : List Tri} {tris : List DEdges} (h : List.Forall₂ TriOf faces tris) {f : DEdge} {g : DEdges → DEdges}
    (hg : ∀ n, f = .regular n → ∃ T, faces[n]? = some T ∧ ∀ t, TriOf T t → TriOf T (g t)) :
    Outs A (onFace tris f g) (List.Forall₂ TriOf faces) := by
  unfold onFace
  split
  · rename_i n
    obtain ⟨T, hT, hg⟩ := hg n rfl
    obtain ⟨hlt, hget⟩ := List.getElem?_eq_some_iff.1 hT
    have hlt' : n < tris.length := by rw [← h.length_eq]; exact hlt
    rw [idx_ok hlt', bind_ok]
    refine Outs.of_eq (setIdx_ok hlt') ?_
    rw [List.forall₂_iff_get] at h ⊢
    refine ⟨by simpa using h.1, ?_⟩
    intro i h1 h2
    simp only [List.get_eq_getElem, List.getElem_set]
    split
    · rename_i hi; subst hi
      rw [hget]
      refine hg _ ?_
      have := h.2 n hlt hlt'
      simp only [List.get_eq_getElem] at this
      rwa [hget] at this
    · exact h.2 i h1 (by simpa using h2)
  · exact Outs.ok h

theorem enterEdge_out {pts : List (Vec3 F)} {npts : Nat} {faces : List Tri} (hfa : ∀ f ∈ faces, Facet o pts npts f) {tris : List DEdges}
    (h : List.Forall₂ TriOf faces tris) {e : DEdges} (he : EdgeOk npts faces e) :
    Outs A (enterEdge tris e) (List.Forall₂ TriOf faces) := by
  obtain ⟨s, t, h0, h1, hs, ht, hne, h2, h3⟩ := he
  have hd : ∀ (n : Nat) (T : Tri), faces[n]? = some T → T.1 ≠ T.2.1 ∧ T.2.1 ≠ T.2.2 ∧ T.2.2 ≠ T.1 := by
    intro n T hT
    have := hfa T (List.mem_of_getElem? hT)
    exact ⟨this.2.2.2.1, this.2.2.2.2.1, this.2.2.2.2.2.1⟩
  unfold enterEdge
  refine (onFace_out h ?_).bind fun tris' h' => onFace_out h' ?_
  · intro n hn
    obtain ⟨T, hT, hm⟩ := h3 n hn
    exact ⟨T, hT, fun t ht => faceRight_ok (hd n T hT) h0 h1 hm ht⟩
  · intro n hn
    obtain ⟨T, hT, hm⟩ := h2 n hn
    exact ⟨T, hT, fun t ht => faceLeft_ok (hd n T hT) h0 h1 hm ht⟩

theorem dropDangling_out {P : DEdges → Prop} : ∀ (fuel i : Nat) (tris : List DEdges), (∀ t ∈ tris, P t) → tris.length ≤ fuel + i →
    (∀ t ∈ tris.take i, t.e0.isUndefined = false ∧ t.e1.isUndefined = false ∧ t.e2.isUndefined = false) →
    Outs A (dropDangling fuel i tris) fun l => ∀ t ∈ l, P t ∧ t.e0.isUndefined = false ∧ t.e1.isUndefined = false ∧ t.e2.isUndefined = false := by
  intro fuel
  induction fuel with
  | zero =>
    intro i tris h hl hd
    unfold dropDangling
    rw [if_neg (by omega)]
    rw [List.take_of_length_le (by omega)] at hd
    exact Outs.ok fun t ht => ⟨h t ht, hd t ht⟩
  | succ fuel ih =>
    intro i tris h hl hd
    unfold dropDangling
    split
    · rename_i hn
      rw [List.getElem?_eq_none_iff] at hn
      rw [List.take_of_length_le (by omega)] at hd
      exact Outs.ok fun t ht => ⟨h t ht, hd t ht⟩
    · rename_i t ht
      obtain ⟨hi, hget⟩ := List.getElem?_eq_some_iff.1 ht
      split
      · refine ih i _ ?_ ?_ ?_
        · intro x hx
          refine mem_set_ok h ?_ x (List.mem_of_mem_dropLast hx)
          have hne : tris ≠ [] := by rintro rfl; simp at hi
          rw [List.getLastD_eq_getLast?, List.getLast?_eq_some_getLast hne]
          exact h _ (List.getLast_mem hne)
        · rw [List.length_dropLast, List.length_set]; omega
        · intro x hx
          refine hd x ?_
          rw [List.dropLast_eq_take, List.take_take, List.length_set, Nat.min_eq_left (by omega)] at hx
          rwa [List.take_set_of_le (le_refl _)] at hx
      · rename_i hc
        simp only [Bool.or_eq_true, not_or, Bool.not_eq_true] at hc
        refine ih (i + 1) _ h (by omega) ?_
        intro x hx
        rw [List.take_succ_eq_append_getElem hi, List.mem_append, List.mem_singleton] at hx
        rcases hx with hx | rfl
        · exact hd x hx
        · rw [hget]; exact ⟨hc.1.1, hc.1.2, hc.2⟩

/-- What the triangles of `delaunay_hull` are like. -/
def ProperTri (o : FloatOps F) (pts : List (Vec3 F)) (npts : Nat) (t : DTri) : Prop :=
  (∀ v ∈ Tri.corners t, v < npts) ∧ (Tri.corners t).Nodup ∧ Turns o pts t

theorem delaunayHull_out {pts : List (Vec3 F)} {npts : Nat} (hp : npts ≤ pts.length) (hu8 : npts ≤ 256) {hull : List Nat}
    (h2 : 2 ≤ hull.length) (hn : hull.Nodup) (hlt : ∀ v ∈ hull, v < npts) :
    Outs A (delaunayHull o pts npts hull) fun T => ∀ t ∈ T, ProperTri o pts npts t := by
  unfold delaunayHull
  refine (hullEdges_out (o := o) (pts := pts) h2 hn hlt).bind fun edges he => ?_
  refine (facetLoop_out hp _ 0 _ he (by omega) (by omega)).bind ?_
  rintro ⟨edges, nfaces⟩ ⟨faces, hinv⟩
  dsimp only
  refine (Outs.foldlM_inv (List.Forall₂ TriOf faces) _ _ ?_ fun e he tris ht => enterEdge_out hinv.facet ht (hinv.edges e he)).bind ?_
  · have hnf := hinv.nfaces
    dsimp only at hnf
    rw [List.forall₂_iff_get]
    refine ⟨by simp [hnf], fun i h1 h2 => ?_⟩
    simp only [List.get_eq_getElem, List.getElem_replicate]
    exact Or.inl rfl
  intro tris ht
  refine (dropDangling_out (P := fun t => ∃ f ∈ faces, TriOf f t) _ _ _ ?_ (by omega) (by simp)).bind ?_
  · intro t hm
    obtain ⟨i, hi, rfl⟩ := List.mem_iff_getElem.1 hm
    have hi' : i < faces.length := by rw [ht.length_eq]; exact hi
    exact ⟨faces[i], List.getElem_mem _, by simpa using (List.forall₂_iff_get.1 ht).2 i hi' hi⟩
  intro l hl
  refine (Outs.mapM (R := fun (_ : DEdges) t => ProperTri o pts npts t) l fun t htm => ?_).mono ?_
  · obtain ⟨⟨f, hf, hto⟩, d0, d1, d2⟩ := hl t htm
    rcases hto with rfl | ⟨a, b, ha, hb, hab, h | ⟨c, hc, n, hfl⟩⟩
    · simp [DEdges.undef, DEdge.isUndefined] at d0
    · rw [h] at d2; simp [DEdge.isUndefined] at d2
    · unfold faceTri
      rw [ha, hb, hc]
      show Outs A (do let a ← Except.ok a; let b ← Except.ok b; let c ← Except.ok c; Except.ok (asU8 a, asU8 b, asU8 c)) _
      rw [bind_ok, bind_ok, bind_ok]
      obtain ⟨f1, f2, f3, g1, g2, g3, x, y, z, hx, hy, hz, hlt⟩ := hinv.facet f hf
      have hmem : ∀ v, v ∈ f.corners ↔ v ∈ [a, b, c] := by
        intro v; rw [← hfl, List.mem_rotate, List.mem_reverse]
      have hltn : ∀ v ∈ [a, b, c], v < npts := by
        intro v hv
        have := (hmem v).2 hv
        simp only [Tri.corners, List.mem_cons, List.not_mem_nil, or_false] at this
        rcases this with rfl | rfl | rfl <;> assumption
      have e : ∀ v ∈ [a, b, c], asU8 v = v := fun v hv => Nat.mod_eq_of_lt (by have := hltn v hv; omega)
      rw [e a (by simp), e b (by simp), e c (by simp)]
      refine Outs.ok ⟨hltn, ?_, f.1, f.2.1, f.2.2, x, y, z, ⟨n, hfl⟩, hx, hy, hz, hlt⟩
      have : (f.corners).Nodup := by
        simp only [Tri.corners, List.nodup_cons, List.mem_cons, List.not_mem_nil, or_false, not_or, not_false_eq_true, List.nodup_nil, and_true]
        exact ⟨⟨g1, fun h => g3 h.symm⟩, g2⟩
      rw [← hfl, List.nodup_rotate, List.nodup_reverse] at this
      exact this
  · intro T hT t ht
    obtain ⟨i, hi, rfl⟩ := List.mem_iff_getElem.1 ht
    have hi' : i < l.length := by rw [hT.length_eq]; exact hi
    exact (List.forall₂_iff_get.1 hT).2 i hi' hi

/-! `set_tri_flags` -/

theorem onHullLoop_spec {hull : List Nat} {a b : Nat} : ∀ (is : List Nat) (j : Nat) (pre : List Nat), List.range hull.length = pre ++ is →
    j = (pre.length + hull.length - 1) % hull.length → 0 < hull.length →
    Outs A (onHullLoop hull a b is j) fun r => r = true ↔ ∃ i ∈ is, hull[(i + hull.length - 1) % hull.length]? = some a ∧ hull[i]? = some b := by
  intro is
  induction is with
  | nil => intro j pre _ _ _; exact Outs.ok (by simp)
  | cons i is ih =>
    intro j pre hl hj hn
    have hi : i = pre.length ∧ i < hull.length := by
      have h1 : (List.range hull.length)[pre.length]? = some i := by rw [hl]; simp
      obtain ⟨h2, h3⟩ := List.getElem?_eq_some_iff.1 h1
      rw [List.getElem_range] at h3
      rw [List.length_range] at h2
      omega
    have hjl : j < hull.length := by rw [hj]; exact Nat.mod_lt _ hn
    unfold onHullLoop
    rw [idx_ok hjl, bind_ok, idx_ok hi.2, bind_ok]
    have hj' : hull[(i + hull.length - 1) % hull.length]? = some hull[j] := by
      rw [hi.1, ← hj]; exact List.getElem?_eq_getElem hjl
    split
    · rename_i h
      simp only [Bool.and_eq_true, decide_eq_true_eq] at h
      refine Outs.ok (iff_of_true rfl ⟨i, by simp, ?_, ?_⟩)
      · rw [hj', h.1]
      · rw [List.getElem?_eq_getElem hi.2, h.2]
    · rename_i h
      simp only [Bool.and_eq_true, decide_eq_true_eq] at h
      refine (ih i (pre ++ [i]) (by simp [hl]) ?_ hn).mono ?_
      · rw [List.length_append, List.length_singleton, show pre.length + 1 + hull.length - 1 = pre.length + hull.length by omega,
          Nat.add_mod_right, Nat.mod_eq_of_lt (by omega)]
        exact hi.1
      · intro r hr
        rw [hr]
        constructor
        · rintro ⟨k, hk, h⟩; exact ⟨k, by simp [hk], h⟩
        · rintro ⟨k, hk, h1, h2⟩
          rcases List.mem_cons.1 hk with rfl | hk
          · exfalso
            rw [hj'] at h1
            rw [List.getElem?_eq_getElem hi.2] at h2
            simp only [Option.some.injEq] at h1 h2
            exact h ⟨h1.symm, h2.symm⟩
          · exact ⟨k, hk, h1, h2⟩

theorem mem_sides_iff {p : List Nat} {a b : Nat} :
    (a, b) ∈ sides p ↔ ∃ i, i < p.length ∧ p[(i + p.length - 1) % p.length]? = some a ∧ p[i]? = some b := by
  rw [List.mem_iff_getElem?]
  constructor
  · rintro ⟨k, hk⟩
    have hkl : k < p.length := by
      have := (List.getElem?_eq_some_iff.1 hk).1
      rwa [sides_length] at this
    have hpos : 0 < p.length := by omega
    unfold sides at hk
    rw [List.getElem?_zip_eq_some] at hk
    refine ⟨(k + 1) % p.length, Nat.mod_lt _ hpos, ?_, ?_⟩
    · have : ((k + 1) % p.length + p.length - 1) % p.length = k := by
        rw [Nat.add_sub_assoc (by omega), Nat.mod_add_mod, show k + 1 + (p.length - 1) = k + p.length by omega, Nat.add_mod_right,
          Nat.mod_eq_of_lt hkl]
      rw [this]; exact hk.1
    · rw [← List.getElem?_rotate hkl]; exact hk.2
  · rintro ⟨i, hi, h1, h2⟩
    have hpos : 0 < p.length := by omega
    have hk : (i + p.length - 1) % p.length < p.length := Nat.mod_lt _ hpos
    refine ⟨(i + p.length - 1) % p.length, ?_⟩
    unfold sides
    rw [List.getElem?_zip_eq_some]
    refine ⟨h1, ?_⟩
    rw [List.getElem?_rotate hk, Nat.mod_add_mod, show i + p.length - 1 + 1 = i + p.length by omega, Nat.add_mod_right, Nat.mod_eq_of_lt hi]
    exact h2

theorem onHull_out {hull : List Nat} (hlt : ∀ v ∈ hull, v < hull.length) (a b : Nat) :
    Outs A (onHull hull a b) fun r => r = true ↔ (a, b) ∈ sides hull := by
  unfold onHull
  split
  · rename_i h
    simp only [Bool.or_eq_true, decide_eq_true_eq] at h
    refine Outs.ok ⟨fun h => by simp at h, fun hm => ?_⟩
    have := mem_sides hm
    have h1 := hlt _ this.1
    have h2 := hlt _ this.2
    dsimp only at h1 h2
    omega
  · rename_i h
    simp only [Bool.or_eq_true, decide_eq_true_eq, not_or] at h
    unfold subU
    rw [if_pos (by omega), bind_ok]
    refine (onHullLoop_spec (List.range hull.length) _ [] (by simp) ?_ (by omega)).mono ?_
    · rw [Nat.mod_eq_of_lt (by simp; omega)]; simp
    · intro r hr
      rw [hr, mem_sides_iff]
      simp [List.mem_range]

theorem setTriFlags_out {hull : List Nat} (hlt : ∀ v ∈ hull, v < hull.length) (tris : List DTri) :
    Outs A (setTriFlags hull tris) (List.Forall₂ (HullFlags hull) tris) := by
  unfold setTriFlags
  refine Outs.mapM tris fun t _ => ?_
  unfold triFlags
  refine (onHull_out hlt _ _).bind fun ab hab => (onHull_out hlt _ _).bind fun bc hbc => (onHull_out hlt _ _).bind fun ca hca => ?_
  refine Outs.ok ⟨ab, bc, ca, hab, hbc, hca, ?_⟩
  cases ab <;> cases bc <;> cases ca <;> rfl

end Rerecast
