import Verif.Lemmas.Ears
import Verif.Spec.PolyMesh
/-! Merging of polygons. -/
set_option linter.unusedVariables false
namespace Rerecast
variable {A : Fault → Prop}

theorem polyEdge_out {p : List Nat} {i : Nat} (hi : i < p.length) : Outs A (polyEdge p i) fun e => (sides p)[i]? = some e := by
  unfold polyEdge
  have h1 : (i + 1) % p.length < p.length := Nat.mod_lt _ (by omega)
  rw [idx_ok hi, bind_ok, idx_ok h1, bind_ok]
  exact Outs.ok (sides_getElem? p i hi)

/-- Side `j` of `p` joins the same two vertices as `e`. -/
def SideAt (p : List Nat) (j : Nat) (e : Nat × Nat) : Prop := ∃ eb, (sides p)[j]? = some eb ∧ sorted e = sorted eb

theorem SideAt.lt {p : List Nat} {j : Nat} {e : Nat × Nat} (h : SideAt p j e) : j < p.length := by
  obtain ⟨eb, h, _⟩ := h
  rw [← sides_length p]; exact (List.getElem?_eq_some_iff.1 h).1

theorem sharedWith_out {pb : List Nat} {ea : Nat × Nat} :
    Outs A (sharedWith pb ea) fun r => (∀ j, r = some j → SideAt pb j ea) ∧ (r = none → ∀ j, ¬ SideAt pb j ea) := by
  unfold sharedWith
  refine (Outs.foldlM (fun pre (st : Option Nat) => (∀ j, st = some j → SideAt pb j ea) ∧ (st = none → ∀ j ∈ pre, ¬ SideAt pb j ea))
    _ none ⟨by simp, by simp⟩ ?_).mono ?_
  · intro pre j post st hl ⟨h1, h2⟩
    have hj : j < pb.length := by
      have : j ∈ List.range pb.length := by rw [hl]; simp
      simpa using this
    cases st with
    | some k => exact Outs.ok ⟨h1, by simp⟩
    | none =>
      simp only
      refine (polyEdge_out hj).bind fun eb heb => Outs.ok ?_
      split
      · rename_i hs
        exact ⟨fun k hk => by injection hk with hk; subst hk; exact ⟨eb, heb, hs⟩, by simp⟩
      · rename_i hs
        refine ⟨by simp, fun _ k hk => ?_⟩
        rw [List.mem_append, List.mem_singleton] at hk
        rcases hk with hk | rfl
        · exact h2 rfl k hk
        · rintro ⟨eb', h, hs'⟩
          rw [heb] at h
          injection h with h
          subst h
          exact hs hs'
  · rintro r ⟨h1, h2⟩
    refine ⟨h1, fun hr j hj => h2 hr j ?_ hj⟩
    simpa using hj.lt

theorem sorted_eq {e f : Nat × Nat} : sorted e = sorted f ↔ f = e ∨ f = (e.2, e.1) := by
  obtain ⟨a, b⟩ := e
  obtain ⟨c, d⟩ := f
  unfold sorted
  simp only
  split <;> split <;> simp only [Prod.mk.injEq] <;> omega

theorem shared_iff {pa pb : List Nat} {ea eb : Nat} : Shared pa pb ea eb ↔ ∃ e, (sides pa)[ea]? = some e ∧ SideAt pb eb e := by
  constructor
  · rintro ⟨e, f, h1, h2, h3⟩
    exact ⟨e, h1, f, h2, sorted_eq.2 h3⟩
  · rintro ⟨e, h1, f, h2, h3⟩
    exact ⟨e, f, h1, h2, sorted_eq.1 h3⟩

theorem Shared.lt_left {pa pb : List Nat} {ea eb : Nat} (h : Shared pa pb ea eb) : ea < pa.length := by
  obtain ⟨e, f, h, _⟩ := h
  rw [← sides_length pa]; exact (List.getElem?_eq_some_iff.1 h).1
theorem Shared.lt_right {pa pb : List Nat} {ea eb : Nat} (h : Shared pa pb ea eb) : eb < pb.length := by
  obtain ⟨e, f, _, h, _⟩ := h
  rw [← sides_length pb]; exact (List.getElem?_eq_some_iff.1 h).1

theorem sharedEdge_out {pa pb : List Nat} :
    Outs A (sharedEdge pa pb) fun r => (∀ i j, r = some (i, j) → Shared pa pb i j) ∧ (r = none → ∀ i j, ¬ Shared pa pb i j) := by
  unfold sharedEdge
  refine (Outs.foldlM (fun pre (st : Option (Nat × Nat)) => (∀ i j, st = some (i, j) → Shared pa pb i j) ∧
    (st = none → ∀ i ∈ pre, ∀ j, ¬ Shared pa pb i j)) _ none ⟨by simp, by simp⟩ ?_).mono ?_
  · intro pre i post st hl ⟨h1, h2⟩
    have hi : i < pa.length := by
      have : i ∈ List.range pa.length := by rw [hl]; simp
      simpa using this
    refine (polyEdge_out hi).bind fun ea hea => sharedWith_out.bind fun r ⟨r1, r2⟩ => Outs.ok ?_
    cases r with
    | some j =>
      refine ⟨fun i' j' h => ?_, by simp⟩
      injection h with h
      injection h with e1 e2
      subst e1 e2
      exact shared_iff.2 ⟨ea, hea, r1 _ rfl⟩
    | none =>
      refine ⟨h1, fun hst k hk j => ?_⟩
      rw [List.mem_append, List.mem_singleton] at hk
      rcases hk with hk | rfl
      · exact h2 hst k hk j
      · rw [shared_iff]
        rintro ⟨e, he, hs⟩
        rw [hea] at he
        injection he with he
        subst he
        exact r2 rfl j hs
  · rintro r ⟨h1, h2⟩
    refine ⟨h1, fun hr i j hs => h2 hr i ?_ j hs⟩
    simpa using hs.lt_left

/-! ### Geometry -/

/-- Vertex indices that exist, with small coordinates (or overflow is allowed). -/
structure PolyIn (A : Fault → Prop) (verts : List U16Vec3) (p : List Nat) : Prop where
  lt : ∀ v ∈ p, v < verts.length
  small : (∀ v ∈ verts, v.Small) ∨ A .panic

theorem polyVert_out {verts : List U16Vec3} {p : List Nat} (h : PolyIn A verts p) {i : Nat} (hi : i < p.length) :
    Outs A (polyVert verts p i) fun v => v = pos verts p[i] ∧ (v.Small ∨ A .panic) := by
  unfold polyVert
  rw [idx_ok hi, bind_ok]
  have hl := h.lt _ (List.getElem_mem hi)
  rw [idx_ok hl]
  refine Outs.ok ⟨?_, h.small.imp_left fun hs => hs _ (List.getElem_mem hl)⟩
  unfold pos
  simp [List.getD_eq_getElem?_getD, hl]

instance (verts : List U16Vec3) (pa pb : List Nat) (ea eb : Nat) : Decidable (JointConvex verts pa pb ea eb) := by
  unfold JointConvex; infer_instance

theorem cornersConvex_out {verts : List U16Vec3} {pa pb : List Nat} (ha : PolyIn A verts pa) (hb : PolyIn A verts pb) {ea eb : Nat}
    (hea : ea < pa.length) (heb : eb < pb.length) :
    Outs A (cornersConvex verts pa pb ea eb) fun r => r = decide (JointConvex verts pa pb ea eb) := by
  have c : ∀ (p : List Nat) (i j : Nat) (h : i < p.length), i = j % p.length → p[i] = cornerAt p j := by
    intro p i j h e
    unfold cornerAt
    rw [← e]; simp [List.getD_eq_getElem?_getD, h]
  have ma : ∀ i, i % pa.length < pa.length := fun i => Nat.mod_lt _ (by omega)
  have mb : ∀ i, i % pb.length < pb.length := fun i => Nat.mod_lt _ (by omega)
  unfold cornersConvex
  refine (polyVert_out ha (ma _)).bind fun v1 ⟨e1, s1⟩ => ?_
  refine (polyVert_out ha hea).bind fun v2 ⟨e2, s2⟩ => ?_
  refine (polyVert_out hb (mb _)).bind fun v3 ⟨e3, s3⟩ => ?_
  refine (uleft_out (or_and s1 (or_and s2 s3))).bind fun l hl => ?_
  rw [c pa _ (ea + pa.length - 1) (ma _) rfl] at e1
  rw [c pa ea ea hea (Nat.mod_eq_of_lt hea).symm] at e2
  rw [c pb _ (eb + 2) (mb _) rfl] at e3
  rw [e1, e2, e3] at hl
  cases l
  · simp only [Bool.not_false, if_true]
    refine Outs.ok ?_
    have := of_decide_eq_false hl.symm
    exact (decide_eq_false fun h : JointConvex verts pa pb ea eb => this h.1).symm
  · simp only [Bool.not_true, Bool.false_eq_true, if_false]
    refine (polyVert_out hb (mb _)).bind fun w1 ⟨f1, t1⟩ => ?_
    refine (polyVert_out hb heb).bind fun w2 ⟨f2, t2⟩ => ?_
    refine (polyVert_out ha (ma _)).bind fun w3 ⟨f3, t3⟩ => ?_
    refine (uleft_out (or_and t1 (or_and t2 t3))).mono fun r hr => ?_
    rw [c pb _ (eb + pb.length - 1) (mb _) rfl] at f1
    rw [c pb eb eb heb (Nat.mod_eq_of_lt heb).symm] at f2
    rw [c pa _ (ea + 2) (ma _) rfl] at f3
    rw [hr, f1, f2, f3]
    have := of_decide_eq_true hl.symm
    exact decide_eq_decide.2 ⟨fun h => ⟨this, h⟩, fun h : JointConvex verts pa pb ea eb => h.2⟩

theorem lenSq_out {p q : U16Vec3} (h : (p.Small ∧ q.Small) ∨ A .panic) :
    Outs A (lenSqI32 ((p.x : Int) - q.x) ((p.z : Int) - q.z)) fun l =>
      l = ((p.x : Int) - q.x) * ((p.x : Int) - q.x) + ((p.z : Int) - q.z) * ((p.z : Int) - q.z) := by
  unfold lenSqI32
  rcases h with ⟨⟨p1, p2⟩, q1, q2⟩ | h
  · have h1 := mul_bound (a := (p.x : Int) - q.x) (b := (p.x : Int) - q.x) (by omega) (by omega)
    have h2 := mul_bound (a := (p.z : Int) - q.z) (b := (p.z : Int) - q.z) (by omega) (by omega)
    rw [if_pos (by omega)]
    exact Outs.ok rfl
  · split
    · exact Outs.ok rfl
    · exact Outs.error h

/-- `pa` and `pb` may be merged along sides `ea` and `eb`. -/
structure Mergeable (verts : List U16Vec3) (nvp : Nat) (pa pb : List Nat) (ea eb : Nat) : Prop where
  len : pa.length + pb.length ≤ nvp + 2
  shared : Shared pa pb ea eb
  convex : JointConvex verts pa pb ea eb

theorem mergeValue_out {verts : List U16Vec3} {nvp : Nat} {pa pb : List Nat} (ha : PolyIn A verts pa) (hb : PolyIn A verts pb)
    (h2 : 2 ≤ pa.length + pb.length) :
    Outs A (mergeValue verts nvp pa pb) fun r => (∀ v ea eb, r = some (v, ea, eb) → 0 < v → Mergeable verts nvp pa pb ea eb) ∧
      ((r = none ∨ ∃ ea eb, r = some (0, ea, eb)) → Unmergeable verts nvp pa pb) := by
  unfold mergeValue subU
  rw [if_pos h2, bind_ok]
  split
  · refine Outs.ok ⟨by simp, fun _ => Or.inl (by omega)⟩
  · rename_i hn
    refine sharedEdge_out.bind fun r ⟨r1, r2⟩ => ?_
    cases r with
    | none => exact Outs.ok ⟨by simp, fun _ => Or.inr (Or.inl (r2 rfl))⟩
    | some e =>
      obtain ⟨ea, eb⟩ := e
      simp only
      have hs := r1 ea eb rfl
      refine (cornersConvex_out ha hb hs.lt_left hs.lt_right).bind fun c hc => ?_
      cases c
      · simp only [Bool.not_false, if_true]
        exact Outs.ok ⟨by simp, fun _ => Or.inr (Or.inr ⟨ea, eb, hs, Or.inl (of_decide_eq_false hc.symm)⟩)⟩
      · simp only [Bool.not_true, Bool.false_eq_true, if_false]
        have ma : ∀ i, i % pa.length < pa.length := fun i => Nat.mod_lt _ (by have := hs.lt_left; omega)
        refine (polyVert_out ha hs.lt_left).bind fun v1 ⟨e1, s1⟩ => ?_
        refine (polyVert_out ha (ma _)).bind fun v2 ⟨e2, s2⟩ => ?_
        refine (lenSq_out (or_and s1 s2)).bind fun l hl => Outs.ok ?_
        refine ⟨fun v ea' eb' h _ => ?_, fun h => ?_⟩
        · injection h with h
          injection h with h1 h
          injection h with h2 h3
          subst h2 h3
          exact ⟨by omega, hs, of_decide_eq_true hc.symm⟩
        · rcases h with h | ⟨ea', eb', h⟩
          · simp at h
          · injection h with h
            injection h with h1 h
            injection h with h2 h3
            subst h2 h3
            refine Or.inr (Or.inr ⟨ea, eb, hs, Or.inr ?_⟩)
            have e1' : v1 = pos verts (cornerAt pa ea) := by
              rw [e1]; unfold cornerAt
              rw [Nat.mod_eq_of_lt hs.lt_left]; simp [List.getD_eq_getElem?_getD, hs.lt_left]
            have e2' : v2 = pos verts (cornerAt pa (ea + 1)) := by
              rw [e2]; unfold cornerAt
              simp [List.getD_eq_getElem?_getD, ma]
            unfold sideLen
            simp only
            rw [← e1', ← e2', ← hl]
            have : 0 ≤ l := by rw [hl]; nlinarith [mul_self_nonneg ((v1.x : Int) - v2.x), mul_self_nonneg ((v1.z : Int) - v2.z)]
            omega

/-! ### The merged polygon -/

theorem polyRest_eq {p : List Nat} {e : Nat} (he : e < p.length) : polyRest p e = .ok (p.rotate (e + 1)).dropLast := by
  unfold polyRest subU
  rw [if_pos (by omega), bind_ok]
  have hmap : ∀ l : List Nat, (∀ i ∈ l, i < p.length) → (l.mapM fun i => idx p ((e + 1 + i) % p.length)) =
      .ok (l.map fun i => p.getD ((e + 1 + i) % p.length) 0) := by
    intro l
    induction l with
    | nil => intro _; rfl
    | cons i l ih =>
      intro h
      have hm : (e + 1 + i) % p.length < p.length := Nat.mod_lt _ (by omega)
      rw [List.mapM_cons, idx_ok hm, bind_ok, ih fun i hi => h i (by simp [hi]), bind_ok]
      simp [List.getD_eq_getElem?_getD, hm]
  rw [hmap _ (by intro i hi; simp at hi; omega)]
  congr 1
  apply List.ext_getElem
  · simp
  · intro i h1 h2
    simp only [List.length_map, List.length_range] at h1
    have hm : (e + 1 + i) % p.length < p.length := Nat.mod_lt _ (by omega)
    simp only [List.getElem_map, List.getElem_range, List.getElem_dropLast, List.getElem_rotate, List.getD_eq_getElem?_getD]
    have e2 : (i + (e + 1)) % p.length = (e + 1 + i) % p.length := by rw [Nat.add_comm]
    simp only [e2]
    simp [hm]

/-- The polygon made of `pa` and `pb` by leaving out their sides `ea` and `eb`. -/
def mergedPoly (pa pb : List Nat) (ea eb : Nat) : List Nat := (pa.rotate (ea + 1)).dropLast ++ (pb.rotate (eb + 1)).dropLast

theorem mergePolyVerts_eq {pa pb : List Nat} {ea eb : Nat} (ha : ea < pa.length) (hb : eb < pb.length) :
    mergePolyVerts pa pb ea eb = .ok (mergedPoly pa pb ea eb) := by
  unfold mergePolyVerts
  rw [polyRest_eq ha, bind_ok, polyRest_eq hb, bind_ok]
  rfl

theorem mergedPoly_length {pa pb : List Nat} {ea eb : Nat} (ha : 0 < pa.length) (hb : 0 < pb.length) :
    (mergedPoly pa pb ea eb).length = pa.length + pb.length - 2 := by
  unfold mergedPoly; simp; omega

theorem mem_mergedPoly {pa pb : List Nat} {ea eb x : Nat} (h : x ∈ mergedPoly pa pb ea eb) : x ∈ pa ∨ x ∈ pb := by
  unfold mergedPoly at h
  rw [List.mem_append] at h
  rcases h with h | h
  · exact Or.inl (by simpa using List.mem_of_mem_dropLast h)
  · exact Or.inr (by simpa using List.mem_of_mem_dropLast h)

/-! ### The loop -/

theorem swapRemove_perm {l : List α} {i : Nat} (hi : i < l.length) (x : α) (hx : l[l.length - 1]? = some x) :
    ((l.set i x).dropLast).Perm (l.eraseIdx i) := by
  rcases List.eq_nil_or_concat l with rfl | ⟨m, z, rfl⟩
  · simp at hi
  · rw [List.concat_eq_append] at *
    have hz : z = x := by simpa using hx
    subst hz
    simp only [List.length_append, List.length_cons, List.length_nil] at hi
    rcases Nat.lt_or_ge i m.length with hlt | hge
    · rw [List.set_append_left _ _ hlt, List.dropLast_concat, List.eraseIdx_append_of_lt_length hlt]
      exact (List.set_perm_cons_eraseIdx hlt z).trans (List.perm_append_comm (l₁ := [z]))
    · have : i = m.length := by omega
      subst this
      rw [List.set_append_right _ _ (le_refl _), List.eraseIdx_append_of_length_le (le_refl _)]
      simp

theorem mergeBest_out {combine : α → α → α} {polys : List (Poly α)} {b : Best} (h1 : b.pa < b.pb) (h2 : b.pb < polys.length)
    {pa pb : Poly α} (hpa : polys[b.pa]? = some pa) (hpb : polys[b.pb]? = some pb) (hea : b.ea < pa.1.length) (heb : b.eb < pb.1.length) :
    Outs A (mergeBest combine polys b) fun r => r.length + 1 = polys.length ∧ ∃ rest, polys.Perm (pa :: pb :: rest) ∧
      r.Perm ((mergedPoly pa.1 pb.1 b.ea b.eb, combine pa.2 pb.2) :: rest) := by
  unfold mergeBest
  rw [idx_some hpa, bind_ok, idx_some hpb, bind_ok, mergePolyVerts_eq hea heb, bind_ok, setIdx_ok (by omega), bind_ok]
  generalize hm : (mergedPoly pa.1 pb.1 b.ea b.eb, combine pa.2 pb.2) = m
  generalize hl : polys.set b.pa m = l
  have hll : l.length = polys.length := by rw [← hl]; simp
  have hlast : l.length - 1 < l.length := by omega
  rw [idx_ok hlast, bind_ok, setIdx_ok (by omega), bind_ok]
  refine Outs.ok ⟨by simp; omega, ?_⟩
  have p1 := swapRemove_perm (l := l) (i := b.pb) (by omega) l[l.length - 1] (by simp [hlast])
  have p2 : polys.Perm (pa :: polys.eraseIdx b.pa) := by
    have := List.getElem_cons_eraseIdx_perm (l := polys) (n := b.pa) (by omega)
    rw [List.getElem?_eq_getElem (by omega)] at hpa
    injection hpa with hpa
    rw [hpa] at this
    exact this.symm
  have p3 : l.Perm (m :: polys.eraseIdx b.pa) := by rw [← hl]; exact List.set_perm_cons_eraseIdx (by omega) m
  have hlpb : l[b.pb]? = some pb := by rw [← hl, List.getElem?_set_ne (by omega)]; exact hpb
  have p4 : l.Perm (pb :: l.eraseIdx b.pb) := by
    have := List.getElem_cons_eraseIdx_perm (l := l) (n := b.pb) (by omega)
    rw [List.getElem?_eq_getElem (by omega)] at hlpb
    injection hlpb with hlpb
    rw [hlpb] at this
    exact this.symm
  have hmem : pb ∈ polys.eraseIdx b.pa := by
    rw [List.mem_eraseIdx_iff_getElem?]
    exact ⟨b.pb, by omega, hpb⟩
  obtain ⟨s, t, hst⟩ := List.append_of_mem hmem
  have p5 : (polys.eraseIdx b.pa).Perm (pb :: (s ++ t)) := by rw [hst]; exact List.perm_middle
  refine ⟨s ++ t, p2.trans (p5.cons pa), p1.trans ?_⟩
  have : (pb :: l.eraseIdx b.pb).Perm (pb :: m :: (s ++ t)) :=
    p4.symm.trans (p3.trans ((p5.cons m).trans (List.Perm.swap pb m _)))
  exact this.cons_inv

theorem mem_pairs {n j k : Nat} : (j, k) ∈ pairs n ↔ j < k ∧ k < n := by
  unfold pairs
  simp only [List.mem_flatMap, List.mem_range, List.mem_map, List.mem_range', Prod.mk.injEq]
  constructor
  · rintro ⟨a, ha, b, ⟨i, hi, rfl⟩, rfl, rfl⟩; omega
  · rintro ⟨h1, h2⟩
    exact ⟨j, by omega, k, ⟨k - (j + 1), by omega, by omega⟩, rfl, rfl⟩

theorem bestMerge_out {verts : List U16Vec3} {nvp : Nat} {polys : List (Poly α)} (h0 : polys ≠ [])
    (hin : ∀ p ∈ polys, PolyIn A verts p.1 ∧ 1 ≤ p.1.length) :
    Outs A (bestMerge verts nvp polys) fun b =>
      (0 < b.value → b.pa < b.pb ∧ ∃ pa pb, polys[b.pa]? = some pa ∧ polys[b.pb]? = some pb ∧ Mergeable verts nvp pa.1 pb.1 b.ea b.eb) ∧
      (b.value = 0 → Finished verts nvp (polys.map Prod.fst)) := by
  unfold bestMerge
  have : 0 < polys.length := List.length_pos_iff.2 h0
  unfold subU
  rw [if_pos (by omega), bind_ok]
  refine (Outs.foldlM (fun pre (b : Best) =>
    (0 < b.value → b.pa < b.pb ∧ ∃ pa pb, polys[b.pa]? = some pa ∧ polys[b.pb]? = some pb ∧ Mergeable verts nvp pa.1 pb.1 b.ea b.eb) ∧
    (b.value = 0 → ∀ jk ∈ pre, ∀ pj pk, polys[jk.1]? = some pj → polys[jk.2]? = some pk → Unmergeable verts nvp pj.1 pk.1))
    _ _ ⟨by simp, by simp⟩ ?_).mono ?_
  · intro pre jk post b hl ⟨h1, h2⟩
    have hjk : jk.1 < jk.2 ∧ jk.2 < polys.length := mem_pairs.1 (by rw [hl]; simp)
    have hj : jk.1 < polys.length := by omega
    unfold bestStep
    rw [idx_ok hj, bind_ok, idx_ok hjk.2, bind_ok]
    have ij := hin _ (List.getElem_mem hj)
    have ik := hin _ (List.getElem_mem hjk.2)
    refine (mergeValue_out ij.1 ik.1 (by omega)).bind fun m ⟨m1, m2⟩ => ?_
    have ext : ∀ b' : Best, (b'.value = 0 → b.value = 0 ∧ Unmergeable verts nvp polys[jk.1].1 polys[jk.2].1) → b'.value = 0 →
        ∀ jk' ∈ pre ++ [jk], ∀ pj pk, polys[jk'.1]? = some pj → polys[jk'.2]? = some pk → Unmergeable verts nvp pj.1 pk.1 := by
      intro b' hb' hv jk' hm pj pk hpj hpk
      rw [List.mem_append, List.mem_singleton] at hm
      rcases hm with hm | rfl
      · exact h2 (hb' hv).1 jk' hm pj pk hpj hpk
      · rw [List.getElem?_eq_getElem (by omega)] at hpj hpk
        injection hpj with hpj
        injection hpk with hpk
        rw [← hpj, ← hpk]
        exact (hb' hv).2
    cases m with
    | none => exact Outs.ok ⟨h1, ext b fun hv => ⟨hv, m2 (Or.inl rfl)⟩⟩
    | some m =>
      obtain ⟨v, ea, eb⟩ := m
      simp only
      split
      · rename_i hv
        refine Outs.ok ⟨fun _ => ⟨hjk.1, _, _, List.getElem?_eq_getElem hj, List.getElem?_eq_getElem hjk.2, m1 v ea eb rfl (by omega)⟩, ?_⟩
        intro hz
        simp only at hz
        omega
      · rename_i hv
        refine Outs.ok ⟨h1, ext b fun hz => ⟨hz, m2 (Or.inr ⟨ea, eb, ?_⟩)⟩⟩
        have : v = 0 := by omega
        rw [this]
  · rintro b ⟨h1, h2⟩
    refine ⟨h1, fun hv j k pj pk hjk hpj hpk => ?_⟩
    rw [List.getElem?_map, Option.map_eq_some_iff] at hpj hpk
    obtain ⟨qj, hqj, rfl⟩ := hpj
    obtain ⟨qk, hqk, rfl⟩ := hpk
    exact h2 hv (j, k) (mem_pairs.2 ⟨hjk, (List.getElem?_eq_some_iff.1 hqk).1⟩) qj qk hqj hqk

/-- Merging keeps every property that is kept by a single merge. -/
theorem mergePolys_out {combine : α → α → α} {verts : List U16Vec3} {nvp : Nat} (I : List (Poly α) → Prop)
    (hperm : ∀ l m : List (Poly α), l.Perm m → I l → I m)
    (hin : ∀ l, I l → ∀ p ∈ l, PolyIn A verts p.1 ∧ 1 ≤ p.1.length)
    (hmerge : ∀ (pa pb : Poly α) (rest : List (Poly α)) (ea eb : Nat), I (pa :: pb :: rest) → Mergeable verts nvp pa.1 pb.1 ea eb →
      I ((mergedPoly pa.1 pb.1 ea eb, combine pa.2 pb.2) :: rest)) :
    ∀ (fuel : Nat) (polys : List (Poly α)), I polys → polys ≠ [] → polys.length ≤ fuel →
      Outs A (mergePolys combine verts nvp fuel polys) fun r => I r ∧ r ≠ [] ∧ r.length ≤ polys.length ∧ Finished verts nvp (r.map Prod.fst) := by
  intro fuel
  induction fuel with
  | zero =>
    intro polys _ h0 hl
    have := List.length_pos_iff.2 h0
    omega
  | succ fuel ih =>
    intro polys hI h0 hl
    unfold mergePolys
    refine (bestMerge_out h0 (hin polys hI)).bind fun b ⟨h1, h2⟩ => ?_
    split
    · rename_i hv
      obtain ⟨hab, pa, pb, hpa, hpb, hm⟩ := h1 hv
      have hpbl := (List.getElem?_eq_some_iff.1 hpb).1
      refine (mergeBest_out (combine := combine) hab hpbl hpa hpb hm.shared.lt_left hm.shared.lt_right).bind ?_
      rintro r ⟨hrl, rest, hp, hr⟩
      have hIr : I r := hperm _ _ hr.symm (hmerge pa pb rest _ _ (hperm _ _ hp hI) hm)
      have hr0 : r ≠ [] := by rintro rfl; simp at hrl; omega
      exact (ih r hIr hr0 (by omega)).mono fun q hq => ⟨hq.1, hq.2.1, by omega, hq.2.2.2⟩
    · exact Outs.ok ⟨hI, h0, le_refl _, h2 (by omega)⟩

end Rerecast
