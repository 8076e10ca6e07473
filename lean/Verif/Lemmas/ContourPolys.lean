import Verif.Lemmas.ConvexMerge
import Verif.Lemmas.EarConvex
import Verif.Lemmas.VertexTable
/-! The polygons of one contour. -/
set_option linter.unusedVariables false
namespace Rerecast
variable {A : Fault → Prop}

/-- Invariant of merging. -/
structure MergeInv (A : Fault → Prop) (verts : List U16Vec3) (nvp : Nat) (l : List Nat) (conv : Prop) (ts : List (List Nat)) (polys : List (Poly Unit)) :
    Prop where
  small : (∀ v ∈ verts, v.Small) ∨ A .panic
  lt : ∀ v ∈ l, v < verts.length
  sizes : ∀ p ∈ polys, 3 ≤ p.1.length ∧ p.1.length ≤ nvp ∧ ∀ v ∈ p.1, v ∈ l
  order : l.Nodup → ∀ p ∈ polys, InOrder p.1 l
  once : l.Nodup → (allSides (polys.map Prod.fst)).Nodup
  boundary : l.Nodup → SameBoundary (polys.map Prod.fst) l
  convex : l.Nodup → conv → ∀ p ∈ polys, StrictlyConvex (p.1.map (pos verts))
  parts : l.Nodup → ∀ p ∈ polys, ∃ g : List (List Nat), (∀ t ∈ g, t ∈ ts) ∧ SameBoundary g p.1

theorem MergeInv.perm {verts : List U16Vec3} {nvp : Nat} {l : List Nat} {conv : Prop} {ts : List (List Nat)} (p q : List (Poly Unit)) (h : p.Perm q)
    (hi : MergeInv A verts nvp l conv ts p) : MergeInv A verts nvp l conv ts q where
  small := hi.small
  lt := hi.lt
  sizes := fun x hx => hi.sizes x (h.mem_iff.2 hx)
  order := fun hn x hx => hi.order hn x (h.mem_iff.2 hx)
  once := fun hn => ((allSides_perm (h.map Prod.fst)).nodup_iff).1 (hi.once hn)
  boundary := fun hn f hf => by rw [← hi.boundary hn f hf]; exact (sum_perm (allSides_perm (h.map Prod.fst))).symm
  convex := fun hn hc x hx => hi.convex hn hc x (h.mem_iff.2 hx)
  parts := fun hn x hx => hi.parts hn x (h.mem_iff.2 hx)

theorem MergeInv.merge {verts : List U16Vec3} {nvp : Nat} {l : List Nat} {conv : Prop} {ts : List (List Nat)} (pa pb : Poly Unit) (rest : List (Poly Unit))
    (ea eb : Nat) (h : MergeInv A verts nvp l conv ts (pa :: pb :: rest)) (hm : Mergeable verts nvp pa.1 pb.1 ea eb) :
    MergeInv A verts nvp l conv ts ((mergedPoly pa.1 pb.1 ea eb, pa.2) :: rest) := by
  have sa := h.sizes pa (by simp)
  have sb := h.sizes pb (by simp)
  have hl := mergedPoly_length (ea := ea) (eb := eb) (show 0 < pa.1.length by omega) (show 0 < pb.1.length by omega)
  have hmeet : l.Nodup → ∃ u v X Y, Meet pa.1 pb.1 ea eb u v X Y := by
    intro hn
    refine hm.shared.meet (by omega) (by omega) ?_
    have := h.once hn
    rw [List.map_cons, List.map_cons, allSides_cons, allSides_cons, ← List.append_assoc] at this
    exact (List.nodup_append.1 this).1
  refine ⟨h.small, h.lt, ?_, ?_, ?_, ?_, ?_, ?_⟩
  · intro p hp
    rw [List.mem_cons] at hp
    rcases hp with rfl | hp
    · refine ⟨by rw [hl]; omega, by rw [hl]; have := hm.len; omega, fun v hv => ?_⟩
      rcases mem_mergedPoly hv with hv | hv
      · exact sa.2.2 v hv
      · exact sb.2.2 v hv
    · exact h.sizes p (by simp [hp])
  · intro hn p hp
    obtain ⟨u, v, X, Y, hmt⟩ := hmeet hn
    rw [List.mem_cons] at hp
    rcases hp with rfl | hp
    · exact hmt.inOrder (h.order hn pa (by simp)) (h.order hn pb (by simp)) hn
    · exact h.order hn p (by simp [hp])
  · intro hn
    obtain ⟨u, v, X, Y, hmt⟩ := hmeet hn
    have ho := h.once hn
    rw [List.map_cons, List.map_cons, allSides_cons, allSides_cons, ← List.append_assoc] at ho
    rw [List.map_cons, allSides_cons]
    have hp := (hmt.sides.append_right (allSides (rest.map Prod.fst))).nodup_iff.2 ho
    rw [List.append_assoc] at hp
    refine hp.sublist ?_
    exact List.Sublist.append_left (List.sublist_append_right _ _) _
  · intro hn f hf
    obtain ⟨u, v, X, Y, hmt⟩ := hmeet hn
    have hb := h.boundary hn f hf
    rw [List.map_cons, List.map_cons, allSides_cons, allSides_cons, sum_append, sum_append] at hb
    rw [List.map_cons, allSides_cons, sum_append, ← hb]
    have := sum_perm (f := f) hmt.sides
    rw [sum_append, sum_append] at this
    simp only [List.map_cons, List.map_nil, List.sum_cons, List.sum_nil] at this
    have hfuv := hf u v
    dsimp only
    omega
  · intro hn hc p hp
    obtain ⟨u, v, X, Y, hmt⟩ := hmeet hn
    rw [List.mem_cons] at hp
    rcases hp with rfl | hp
    · have la := congrArg List.length hmt.ha
      have lb := congrArg List.length hmt.hb
      simp at la lb
      refine hmt.convex ?_ ?_ hm.shared.lt_left hm.shared.lt_right (h.convex hn hc pa (by simp)) (h.convex hn hc pb (by simp)) hm.convex
      · rintro rfl; simp at la; omega
      · rintro rfl; simp at lb; omega
    · exact h.convex hn hc p (by simp [hp])
  · intro hn p hp
    obtain ⟨u, v, X, Y, hmt⟩ := hmeet hn
    rw [List.mem_cons] at hp
    rcases hp with rfl | hp
    · obtain ⟨ga, ma, ba⟩ := h.parts hn pa (by simp)
      obtain ⟨gb, mb, bb⟩ := h.parts hn pb (by simp)
      refine ⟨ga ++ gb, ?_, ?_⟩
      · intro t ht
        rcases List.mem_append.1 ht with ht | ht
        · exact ma t ht
        · exact mb t ht
      · intro f hf
        have := sum_perm (f := f) hmt.sides
        rw [sum_append, sum_append] at this
        simp only [List.map_cons, List.map_nil, List.sum_cons, List.sum_nil] at this
        have hfuv := hf u v
        have e : allSides (ga ++ gb) = allSides ga ++ allSides gb := by unfold allSides; rw [List.flatMap_append]
        rw [e, sum_append, ba f hf, bb f hf]
        dsimp only
        omega
    · exact h.parts hn p (by simp [hp])

theorem sides_map (g : α → β) (p : List α) : sides (p.map g) = (sides p).map (Prod.map g g) := by
  unfold sides
  rw [← List.map_rotate, List.zip_map]

theorem allSides_map (g : α → β) (ps : List (List α)) : allSides (ps.map (List.map g)) = (allSides ps).map (Prod.map g g) := by
  unfold allSides
  rw [List.flatMap_map, List.map_flatMap]
  congr 1
  funext p
  exact sides_map g p

/-- The polygon of a triangle. -/
def triPoly (indices : List Nat) (t : Tri) : List Nat := t.corners.map fun i => indices.getD i 0

theorem initialPolys {indices : List Nat} {tris : List Tri} (h : TriOk indices.length tris) :
    tris.mapM (initialPoly indices) = .ok (tris.map fun t => some (triPoly indices t, ())) := by
  have : ∀ l : List Tri, (∀ t ∈ l, InOrder t.corners (List.range indices.length)) →
      l.mapM (initialPoly indices) = .ok (l.map fun t => some (triPoly indices t, ())) := by
    intro l
    induction l with
    | nil => intro _; rfl
    | cons t l ih =>
      intro hl
      have ht := hl t (by simp)
      have hnd := ht.nodup List.nodup_range
      have hlt : ∀ x ∈ t.corners, x < indices.length := fun x hx => by simpa using ht.mem hx
      have e : initialPoly indices t = .ok (some (triPoly indices t, ())) := by
        unfold initialPoly triPoly
        unfold Tri.corners at *
        simp only [List.nodup_cons, List.mem_cons, List.not_mem_nil, or_false, not_or, not_false_eq_true, List.nodup_nil, and_true] at hnd
        rw [if_pos ⟨hnd.1.1, hnd.1.2, hnd.2⟩, idx_ok (hlt _ (by simp)), bind_ok, idx_ok (hlt _ (by simp)), bind_ok,
          idx_ok (hlt _ (by simp)), bind_ok]
        have h1 := hlt t.1 (by simp)
        have h2 := hlt t.2.1 (by simp)
        have h3 := hlt t.2.2 (by simp)
        simp [List.getD_eq_getElem?_getD, h1, h2, h3]
      rw [List.mapM_cons, e, bind_ok, ih fun t ht => hl t (by simp [ht]), bind_ok]
      rfl
  exact this tris h.corners

theorem mergeInv_start {verts : List U16Vec3} {nvp : Nat} {l : List Nat} {tris : List Tri} (h : TriOk l.length tris) (h3 : 3 ≤ nvp)
    (hs : (∀ v ∈ verts, v.Small) ∨ A .panic) (hlt : ∀ v ∈ l, v < verts.length) :
    MergeInv A verts nvp l (∀ t ∈ tris, StrictlyConvex ((triPoly l t).map (pos verts))) (tris.map (triPoly l)) (tris.map fun t => (triPoly l t, ())) := by
  have hmap : (tris.map fun t => (triPoly l t, ())).map Prod.fst = (tris.map Tri.corners).map (List.map fun i => l.getD i 0) := by
    rw [List.map_map, List.map_map]; rfl
  have hl : (List.range l.length).map (fun i => l.getD i 0) = l := by
    apply List.ext_getElem
    · simp
    · intro i h1 h2; simp [List.getD_eq_getElem?_getD, h2]
  refine ⟨hs, hlt, ?_, ?_, ?_, ?_, ?_, ?_⟩
  · intro p hp
    obtain ⟨t, ht, rfl⟩ := List.mem_map.1 hp
    refine ⟨by simp [triPoly, Tri.corners], by simpa [triPoly, Tri.corners] using h3, ?_⟩
    intro v hv
    obtain ⟨i, hi, rfl⟩ := List.mem_map.1 hv
    have : i < l.length := by simpa using (h.corners t ht).mem hi
    simp [List.getD_eq_getElem?_getD, this]
  · intro hn p hp
    obtain ⟨t, ht, rfl⟩ := List.mem_map.1 hp
    have := (h.corners t ht).map fun i => l.getD i 0
    rwa [hl] at this
  · intro hn
    rw [hmap, allSides_map]
    refine List.Nodup.map_on ?_ h.once
    have hmem : ∀ x ∈ allSides (tris.map Tri.corners), x.1 < l.length ∧ x.2 < l.length := by
      intro x hx
      unfold allSides at hx
      rw [List.mem_flatMap] at hx
      obtain ⟨p, hp, hx⟩ := hx
      obtain ⟨t, ht, rfl⟩ := List.mem_map.1 hp
      have := mem_sides hx
      exact ⟨by simpa using (h.corners t ht).mem this.1, by simpa using (h.corners t ht).mem this.2⟩
    have inj : ∀ i j, i < l.length → j < l.length → l.getD i 0 = l.getD j 0 → i = j := by
      intro i j hi hj he
      simp only [List.getD_eq_getElem?_getD, List.getElem?_eq_getElem hi, List.getElem?_eq_getElem hj, Option.getD_some] at he
      exact (List.Nodup.getElem_inj_iff hn).1 he
    intro x hx y hy he
    obtain ⟨x1, x2⟩ := x
    obtain ⟨y1, y2⟩ := y
    simp only [Prod.map_apply, Prod.mk.injEq] at he
    have a := hmem _ hx
    have b := hmem _ hy
    rw [Prod.mk.injEq]
    exact ⟨inj _ _ a.1 b.1 he.1, inj _ _ a.2 b.2 he.2⟩
  · intro hn f hf
    rw [hmap, allSides_map, List.map_map]
    have := h.bal (f ∘ Prod.map (fun i => l.getD i 0) (fun i => l.getD i 0)) (by
      intro a b; exact hf _ _)
    rw [this, ← List.map_map, ← sides_map, hl]
  · intro hn hc p hp
    obtain ⟨t, ht, rfl⟩ := List.mem_map.1 hp
    exact hc t ht
  · intro hn p hp
    obtain ⟨t, ht, rfl⟩ := List.mem_map.1 hp
    refine ⟨[triPoly l t], ?_, ?_⟩
    · intro x hx
      rw [List.mem_singleton.1 hx]
      exact List.mem_map.2 ⟨t, ht, rfl⟩
    · intro f _
      unfold allSides
      rw [List.flatMap_cons, List.flatMap_nil, List.append_nil]

/-- The polygons of a contour. -/
theorem contourPolys_out {verts : List U16Vec3} {nvp : Nat} {l : List Nat} {tris : List Tri} (h : TriOk l.length tris) (h3 : 3 ≤ nvp)
    (hl : 3 ≤ l.length) (hs : (∀ v ∈ verts, v.Small) ∨ A .panic) (hlt : ∀ v ∈ l, v < verts.length) :
    Outs A (contourPolys nvp verts l tris) fun polys => ∃ ps : List (Poly Unit), polys = ps.map Prod.fst ∧ ps ≠ [] ∧ ps.length ≤ l.length - 2 ∧
      MergeInv A verts nvp l (∀ t ∈ tris, StrictlyConvex ((triPoly l t).map (pos verts))) (tris.map (triPoly l)) ps ∧ (3 < nvp → Finished verts nvp polys) := by
  unfold contourPolys
  rw [initialPolys h, bind_ok]
  have e : (tris.map fun t => some (triPoly l t, ())).filterMap id = tris.map fun t => (triPoly l t, ()) := by
    rw [List.filterMap_map]
    induction tris with
    | nil => rfl
    | cons t ts ih => simp
  simp only [e]
  have hne : (tris.map fun t => (triPoly l t, ())) ≠ [] := by
    intro h0
    rw [List.map_eq_nil_iff] at h0
    have := h.count
    rw [h0] at this
    simp at this; omega
  have hi := mergeInv_start (A := A) (nvp := nvp) h h3 hs hlt
  have hlen : (tris.map fun t => (triPoly l t, ())).length = l.length - 2 := by rw [List.length_map, h.count]
  generalize (tris.map fun t => (triPoly l t, ())) = ps at hne hi hlen ⊢
  rw [if_neg (by simpa using hne)]
  split
  · have := mergePolys_out (A := A) (combine := fun (a _ : Unit) => a) (verts := verts) (nvp := nvp)
      (MergeInv A verts nvp l (∀ t ∈ tris, StrictlyConvex ((triPoly l t).map (pos verts))) (tris.map (triPoly l))) MergeInv.perm
      (fun q hq p hp => ⟨⟨fun v hv => hq.lt v ((hq.sizes p hp).2.2 v hv), hq.small⟩, by have := (hq.sizes p hp).1; omega⟩)
      (fun pa pb rest ea eb => MergeInv.merge pa pb rest ea eb) (ps.length + 1) ps hi hne (by omega)
    exact this.bind fun r hr => Outs.ok ⟨r, rfl, hr.2.1, by omega, hr.1, fun _ => hr.2.2.2⟩
  · exact Outs.ok ⟨ps, rfl, hne, by omega, hi, fun h => absurd h (by omega)⟩

end Rerecast
