import Verif.Lemmas.ContourPolys
/-! The loop over the contours. -/
set_option linter.unusedVariables false
namespace Rerecast
variable {A : Fault → Prop}

theorem near_iff {w v : U16Vec3} : Near w v ↔ sameVertex w v = true := by
  rw [VertexTable.sameVertex_iff]; rfl

/-- A contour vertex is marked for removal. -/
def flagged (v : U16Vec3 × Nat) : Prop := v.2 &&& BORDER_VERTEX ≠ 0

/-- State while the vertices of a contour are added: `pre` have been added to table `t0` with flags `f0`. -/
structure AddInv (cap : Nat) (t0 : VertexTable) (f0 : List Bool) (pre : List (U16Vec3 × Nat)) (st : VertexTable × List Bool × List Nat) : Prop where
  ok : st.1.Ok
  ext : ∃ e, st.1.verts = t0.verts ++ e ∧ ∀ w ∈ e, ∃ v ∈ pre, v.1 = w
  len : st.1.verts.length ≤ t0.verts.length + pre.length
  flen : st.2.1.length = f0.length
  stands : List.Forall₂ (fun v i => ∃ w, st.1.verts[i]? = some w ∧ Near w v.1) pre st.2.2
  flags : ∀ i : Nat, st.2.1[i]? = some true → f0[i]? = some true ∨ ∃ v ∈ pre, flagged v

theorem forall₂_snoc {R : α → β → Prop} : ∀ {l : List α} {m : List β} {a : α} {b : β}, List.Forall₂ R l m → R a b →
    List.Forall₂ R (l ++ [a]) (m ++ [b])
  | [], [], _, _, _, h => .cons h .nil
  | _ :: _, _ :: _, _, _, .cons h hs, h' => .cons h (forall₂_snoc hs h')

theorem addVertices_out {cap : Nat} {t0 : VertexTable} {f0 : List Bool} {vs : List (U16Vec3 × Nat)} (h0 : t0.Ok)
    (hcap : (t0.verts.length + vs.length ≤ cap ∧ cap ≤ 65535 ∧ cap ≤ f0.length) ∨ A .panic) :
    Outs A (vs.foldlM (addContourVertex cap) (t0, f0, [])) (AddInv cap t0 f0 vs) := by
  refine Outs.foldlM (AddInv cap t0 f0) vs _ ⟨h0, ⟨[], by simp, by simp⟩, by simp, rfl, .nil, fun i h => Or.inl h⟩ ?_
  intro pre v post st hl hi
  unfold addContourVertex
  refine (VertexTable.add_out hi.ok cap v.1 ?_).bind fun r hr => ?_
  · rcases hcap with ⟨h1, h2, _⟩ | h
    · refine Or.inl ⟨?_, h2⟩
      have := hi.len
      have hll := congrArg List.length hl
      simp at hll
      omega
    · exact Or.inr h
  · obtain ⟨t, i⟩ := r
    obtain ⟨w, hw, hs⟩ := hr.found
    have hgrow : ∃ e, t.verts = st.1.verts ++ e ∧ ∀ w ∈ e, w = v.1 := by
      rcases hr.grow with h | ⟨h, _⟩
      · exact ⟨[], by simpa using h, by simp⟩
      · exact ⟨[v.1], h, by simp⟩
    obtain ⟨e, he, hev⟩ := hgrow
    have hlen : t.verts.length ≤ st.1.verts.length + 1 := by
      rcases hr.grow with h | ⟨h, _⟩
      · have : t.verts = st.1.verts := h
        rw [this]; omega
      · have : t.verts = st.1.verts ++ [v.1] := h
        rw [this]; simp
    have hstands : List.Forall₂ (fun (v : U16Vec3 × Nat) (i : Nat) => ∃ w, t.verts[i]? = some w ∧ Near w v.1) (pre ++ [v]) (st.2.2 ++ [i]) := by
      refine forall₂_snoc (hi.stands.imp ?_) ⟨w, hw, near_iff.2 hs⟩
      rintro x j ⟨y, hy, hn⟩
      refine ⟨y, ?_, hn⟩
      rw [he, List.getElem?_append_left (List.getElem?_eq_some_iff.1 hy).1]
      exact hy
    have hext : ∃ e, t.verts = t0.verts ++ e ∧ ∀ w ∈ e, ∃ x ∈ pre ++ [v], x.1 = w := by
      obtain ⟨e0, he0, h0'⟩ := hi.ext
      refine ⟨e0 ++ e, by rw [he, he0, List.append_assoc], fun w hw => ?_⟩
      rw [List.mem_append] at hw
      rcases hw with hw | hw
      · obtain ⟨x, hx, hxe⟩ := h0' w hw
        exact ⟨x, by simp [hx], hxe⟩
      · exact ⟨v, by simp, (hev w hw).symm⟩
    have hlen' : t.verts.length ≤ t0.verts.length + (pre ++ [v]).length := by
      have := hi.len
      simp; omega
    simp only
    split
    · rename_i hf
      have hset : Outs A (setIdx st.2.1 i true) fun m => m = st.2.1.set i true := by
        rcases Nat.lt_or_ge i st.2.1.length with hlt | hge
        · exact Outs.setIdx hlt
        · rcases hcap with ⟨h1, _, h2⟩ | h
          · exfalso
            have : i < t.verts.length := (List.getElem?_eq_some_iff.1 hw).1
            have := hi.flen
            have hll := congrArg List.length hl
            simp at hll hlen'
            omega
          · unfold setIdx
            rw [if_neg (by omega)]
            exact Outs.error h
      refine hset.bind fun m hm => Outs.ok ⟨hr.ok, hext, hlen', by rw [hm]; simpa using hi.flen, hstands, ?_⟩
      intro k hk
      simp only [hm] at hk
      rw [List.getElem?_set] at hk
      split at hk
      · exact Or.inr ⟨v, by simp, hf⟩
      · rcases hi.flags k hk with h | ⟨x, hx, hxf⟩
        · exact Or.inl h
        · exact Or.inr ⟨x, by simp [hx], hxf⟩
    · refine Outs.ok ⟨hr.ok, hext, hlen', hi.flen, hstands, ?_⟩
      intro k hk
      rcases hi.flags k hk with h | ⟨x, hx, hxf⟩
      · exact Or.inl h
      · exact Or.inr ⟨x, by simp [hx], hxf⟩

/-! ### storing -/

/-- The slot a polygon is stored in. -/
def polySlot (nvp : Nat) (p : List Nat) : Slot := ⟨pad nvp p, List.replicate nvp NO_INDEX⟩

/-- A polygon with region and area. -/
structure PolyEntry where
  poly : List Nat
  region : Nat
  area : Area

/-- The mesh holds these polygons. -/
structure MeshIs (nvp maxT : Nat) (es : List PolyEntry) (m : Mesh) : Prop where
  le : es.length ≤ maxT
  npolys : m.npolys = es.length
  slots : m.slots = es.map (fun e => polySlot nvp e.poly) ++ List.replicate (maxT - es.length) (emptySlot nvp)
  regions : m.regions = es.map (·.region) ++ List.replicate (maxT - es.length) REGION_NONE
  areas : m.areas = es.map (·.area) ++ List.replicate (maxT - es.length) NOT_WALKABLE

theorem set_fill {l : List α} {n : Nat} {x a : α} (h : l.length < n) :
    (l ++ List.replicate (n - l.length) x).set l.length a = l ++ [a] ++ List.replicate (n - (l ++ [a]).length) x := by
  obtain ⟨k, hk⟩ : ∃ k, n - l.length = k + 1 := ⟨n - l.length - 1, by omega⟩
  have e : n - (l ++ [a]).length = k := by simp; omega
  rw [hk, e, List.replicate_succ, List.set_append_right _ _ (le_refl _)]
  simp

theorem storePoly_out {nvp maxT : Nat} {es : List PolyEntry} {m : Mesh} (h : MeshIs nvp maxT es m) (e : PolyEntry) (hlt : es.length < maxT) :
    Outs A (storePoly nvp maxT e.region e.area m e.poly) fun m' => MeshIs nvp maxT (es ++ [e]) m' ∧ m'.verts = m.verts := by
  have l1 : m.slots.length = maxT := by rw [h.slots]; simp; omega
  have l2 : m.regions.length = maxT := by rw [h.regions]; simp; omega
  have l3 : m.areas.length = maxT := by rw [h.areas]; simp; omega
  have hn := h.npolys
  unfold storePoly
  have hslot : m.slots[m.npolys]? = some (emptySlot nvp) := by
    rw [h.slots, hn, List.getElem?_append_right (by simp), List.length_map, Nat.sub_self, List.getElem?_replicate, if_pos (by omega)]
  rw [idx_some hslot, bind_ok, setIdx_ok (by omega), bind_ok, setIdx_ok (by omega), bind_ok, setIdx_ok (by omega), bind_ok,
    if_neg (by omega)]
  refine Outs.ok ⟨⟨by simp; omega, by simp [hn], ?_, ?_, ?_⟩, rfl⟩
  · dsimp only
    rw [h.slots, hn]
    have := set_fill (l := es.map fun e => polySlot nvp e.poly) (n := maxT) (x := emptySlot nvp) (a := polySlot nvp e.poly) (by simpa using hlt)
    simp only [List.length_map] at this
    have e1 : ({ (emptySlot nvp) with verts := pad nvp e.poly } : Slot) = polySlot nvp e.poly := rfl
    rw [e1, this, List.map_append, List.map_singleton]
    simp
  · dsimp only
    rw [h.regions, hn]
    have := set_fill (l := es.map (·.region)) (n := maxT) (x := REGION_NONE) (a := e.region) (by simpa using hlt)
    simp only [List.length_map] at this
    rw [this, List.map_append, List.map_singleton]
    simp
  · dsimp only
    rw [h.areas, hn]
    have := set_fill (l := es.map (·.area)) (n := maxT) (x := NOT_WALKABLE) (a := e.area) (by simpa using hlt)
    simp only [List.length_map] at this
    rw [this, List.map_append, List.map_singleton]
    simp

theorem storePolys_out {nvp maxT : Nat} {es : List PolyEntry} {m : Mesh} (h : MeshIs nvp maxT es m) (region : Nat) (area : Area)
    (ps : List (List Nat)) (hle : es.length + ps.length ≤ maxT) :
    Outs A (ps.foldlM (storePoly nvp maxT region area) m) fun m' =>
      MeshIs nvp maxT (es ++ ps.map fun p => ⟨p, region, area⟩) m' ∧ m'.verts = m.verts := by
  refine Outs.foldlM (fun pre m' => MeshIs nvp maxT (es ++ pre.map fun p => ⟨p, region, area⟩) m' ∧ m'.verts = m.verts) ps m
    ⟨by simpa using h, rfl⟩ ?_
  rintro pre p post m' hl ⟨hm, hv⟩
  have hll := congrArg List.length hl
  simp at hll
  refine (storePoly_out hm ⟨p, region, area⟩ (by simp; omega)).mono ?_
  rintro m'' ⟨h1, h2⟩
  refine ⟨?_, h2.trans hv⟩
  rw [List.map_append, ← List.append_assoc]
  exact h1

/-! ### one contour -/

theorem cross_congr {a b c a' b' c' : U16Vec3} (ha : a.x = a'.x ∧ a.z = a'.z) (hb : b.x = b'.x ∧ b.z = b'.z) (hc : c.x = c'.x ∧ c.z = c'.z) :
    cross a b c = cross a' b' c' := by
  unfold cross
  rw [ha.1, ha.2, hb.1, hb.2, hc.1, hc.2]

theorem StandsFor.get {verts : List U16Vec3} {c : Contour} {l : List Nat} (h : StandsFor verts c l) {i : Nat} (hi : i < l.length) :
    ∃ v w, c.vertices[i]? = some v ∧ verts[l[i]]? = some w ∧ Near w v.1 := by
  have hl : c.vertices.length = l.length := h.length_eq
  have := List.Forall₂.get h (by omega) hi
  obtain ⟨w, hw, hn⟩ := this
  refine ⟨c.vertices[i], w, by simp, hw, hn⟩

theorem StandsFor.lt {verts : List U16Vec3} {c : Contour} {l : List Nat} (h : StandsFor verts c l) : ∀ v ∈ l, v < verts.length := by
  intro v hv
  obtain ⟨i, hi, rfl⟩ := List.getElem_of_mem hv
  obtain ⟨_, w, _, hw, _⟩ := h.get hi
  exact (List.getElem?_eq_some_iff.1 hw).1

theorem StandsFor.nodup {verts : List U16Vec3} {c : Contour} {l : List Nat} (h : StandsFor verts c l) (hs : c.Simple) : l.Nodup := by
  rw [List.nodup_iff_injective_get]
  intro ⟨i, hi⟩ ⟨j, hj⟩ hij
  simp only [List.get_eq_getElem] at hij
  obtain ⟨v, w, hv, hw, hn⟩ := h.get hi
  obtain ⟨v', w', hv', hw', hn'⟩ := h.get hj
  rw [hij, hw'] at hw
  injection hw with hw
  subst hw
  have hxz : v.1.xz = v'.1.xz := by
    unfold U16Vec3.xz
    rw [← hn.1, ← hn'.1, ← hn.2.1, ← hn'.2.1]
  have hi' : i < c.vertices.length := (List.getElem?_eq_some_iff.1 hv).1
  have hj' : j < c.vertices.length := (List.getElem?_eq_some_iff.1 hv').1
  have e1 : (c.vertices.map fun v => v.1.xz)[i]'(by simpa using hi') = v.1.xz := by
    rw [List.getElem_map]
    rw [List.getElem?_eq_getElem hi'] at hv
    injection hv with hv
    rw [hv]
  have e2 : (c.vertices.map fun v => v.1.xz)[j]'(by simpa using hj') = v'.1.xz := by
    rw [List.getElem_map]
    rw [List.getElem?_eq_getElem hj'] at hv'
    injection hv' with hv'
    rw [hv']
  have := (List.Nodup.getElem_inj_iff hs).1 (e1.trans (hxz.trans e2.symm))
  exact Fin.ext this

theorem StandsFor.pos {verts : List U16Vec3} {c : Contour} {l : List Nat} (h : StandsFor verts c l) {i : Nat} (hi : i < l.length) :
    (pos verts (l.getD i 0)).x = (c.points.getD i ⟨0, 0, 0⟩).x ∧ (pos verts (l.getD i 0)).z = (c.points.getD i ⟨0, 0, 0⟩).z := by
  obtain ⟨v, w, hv, hw, hn⟩ := h.get hi
  have e1 : Rerecast.pos verts (l.getD i 0) = w := by
    unfold Rerecast.pos
    simp [List.getD_eq_getElem?_getD, hi, hw]
  have e2 : c.points.getD i ⟨0, 0, 0⟩ = v.1 := by
    unfold Contour.points
    simp [List.getD_eq_getElem?_getD, hv]
  rw [e1, e2]
  exact ⟨hn.1, hn.2.1⟩

theorem triPoly_convex {verts : List U16Vec3} {c : Contour} {l : List Nat} (h : StandsFor verts c l) {t : Tri}
    (hlt : ∀ x ∈ t.corners, x < l.length) (ht : t.turn c.points < 0) : StrictlyConvex ((triPoly l t).map (pos verts)) := by
  have h1 := h.pos (hlt t.1 (by simp [Tri.corners]))
  have h2 := h.pos (hlt t.2.1 (by simp [Tri.corners]))
  have h3 := h.pos (hlt t.2.2 (by simp [Tri.corners]))
  have hx : cross (pos verts (l.getD t.1 0)) (pos verts (l.getD t.2.1 0)) (pos verts (l.getD t.2.2 0)) < 0 := by
    rw [cross_congr h1 h2 h3]; exact ht
  rw [strictlyConvex_iff]
  intro a b d hs
  have e : [a, b, d] = triPoly l t := hs.eq_of_length (by simp [triPoly, Tri.corners])
  have e' : triPoly l t = [l.getD t.1 0, l.getD t.2.1 0, l.getD t.2.2 0] := rfl
  rw [e'] at e
  simp only [List.cons.injEq, and_true] at e
  obtain ⟨rfl, rfl, rfl⟩ := e
  unfold bend
  omega

theorem pos_append {verts e : List U16Vec3} {v : Nat} (h : v < verts.length) : pos (verts ++ e) v = pos verts v := by
  unfold pos
  simp [List.getD_eq_getElem?_getD, h, List.getElem?_append_left]

theorem cornerAt_mem {p : List Nat} (h : 0 < p.length) (i : Nat) : cornerAt p i ∈ p := by
  unfold cornerAt
  have := Nat.mod_lt i h
  simp [List.getD_eq_getElem?_getD, this]

theorem corners3_mem {p : List α} {c : α × α × α} (h : c ∈ corners3 p) : c.1 ∈ p ∧ c.2.1 ∈ p ∧ c.2.2 ∈ p := by
  unfold corners3 at h
  have h1 := List.of_mem_zip (show (c.1, c.2) ∈ _ from h)
  have h2 := List.of_mem_zip (show (c.2.1, c.2.2) ∈ _ from h1.2)
  exact ⟨h1.1, by simpa using h2.1, by simpa using h2.2⟩

theorem MakesUp.mono {verts : List U16Vec3} {nvp : Nat} {c : Contour} {l : List Nat} {polys : List (List Nat)}
    (h : MakesUp verts nvp c l polys) (e : List U16Vec3) : MakesUp (verts ++ e) nvp c l polys := by
  have hlt := h.stands.lt
  have hp : ∀ p ∈ polys, ∀ v ∈ p, pos (verts ++ e) v = pos verts v := fun p hp v hv => pos_append (hlt v ((h.sizes p hp).2.2 v hv))
  have hc : ∀ p ∈ polys, ∀ i, pos (verts ++ e) (cornerAt p i) = pos verts (cornerAt p i) := fun p hpp i =>
    hp p hpp _ (cornerAt_mem (by have := (h.sizes p hpp).1; omega) i)
  refine ⟨?_, h.sizes, h.count, ?_, h.distinct, h.order, h.once, h.boundary, ?_, h.parts⟩
  · refine h.stands.imp ?_
    rintro v i ⟨w, hw, hn⟩
    exact ⟨w, by rw [List.getElem?_append_left (List.getElem?_eq_some_iff.1 hw).1]; exact hw, hn⟩
  · intro h3 j k pj pk hjk hj hk
    have mj := List.mem_of_getElem? hj
    have mk := List.mem_of_getElem? hk
    have := h.finished h3 j k pj pk hjk hj hk
    unfold Unmergeable JointConvex sideLen at this ⊢
    simp only [hc pj mj, hc pk mk]
    exact this
  · intro hn hw p hpp
    rw [List.map_congr_left (hp p hpp)]
    exact h.convex hn hw p hpp

def Block.entries (b : Block) : List PolyEntry := b.polys.map fun p => ⟨p, b.contour.region, b.contour.area⟩

theorem exists_map_mem {α β : Type} (f : α → β) (l : List α) : ∀ (g : List β), (∀ t ∈ g, t ∈ l.map f) → ∃ g' : List α, (∀ t ∈ g', t ∈ l) ∧ g = g'.map f
  | [], _ => ⟨[], by simp, rfl⟩
  | t :: g, h => by
    obtain ⟨g', h1, rfl⟩ := exists_map_mem f l g fun t ht => h t (by simp [ht])
    obtain ⟨a, ha, rfl⟩ := List.mem_map.1 (h t (by simp))
    exact ⟨a :: g', by simpa [ha] using h1, rfl⟩

/-- State after the contours `pre`. -/
structure BuildInv (nvp maxV maxT : Nat) (pre : List Contour) (st : Build) (blocks : List Block) : Prop where
  table : st.table.Ok
  from_ : ∀ w ∈ st.table.verts, ∃ c ∈ pre, 3 ≤ c.vertices.length ∧ w ∈ c.points
  vlen : st.table.verts.length ≤ ((pre.filter fun c => 3 ≤ c.vertices.length).map (·.vertices.length)).sum
  flen : st.vflags.length = maxV
  flags : ∀ i : Nat, st.vflags[i]? = some true → ∃ c ∈ pre, ∃ v ∈ c.vertices, flagged v
  contours : blocks.map (·.contour) = pre.filter fun c => 3 ≤ c.vertices.length
  mesh : MeshIs nvp maxT (blocks.flatMap Block.entries) st.mesh
  makes : ∀ b ∈ blocks, MakesUp st.table.verts nvp b.contour b.ring b.polys

theorem entries_le {blocks : List Block} (h : ∀ b ∈ blocks, b.polys.length ≤ b.contour.vertices.length - 2) :
    (blocks.flatMap Block.entries).length ≤ (blocks.map fun b => b.contour.vertices.length - 2).sum := by
  induction blocks with
  | nil => simp
  | cons b bs ih =>
    have h1 := h b (by simp)
    have h2 := ih fun b hb => h b (by simp [hb])
    rw [List.flatMap_cons, List.length_append, List.map_cons, List.sum_cons]
    have : b.entries.length = b.polys.length := by simp [Block.entries]
    omega

theorem addContour_out (hA : A .err) {nvp maxV maxT : Nat} (h3 : 3 ≤ nvp) {pre : List Contour} {c : Contour} {st : Build} {blocks : List Block}
    (h : BuildInv nvp maxV maxT pre st blocks)
    (hs : (∀ c' ∈ pre ++ [c], ∀ v ∈ c'.points, v.Small) ∨ A .panic)
    (hV : (((pre ++ [c]).filter fun c => 3 ≤ c.vertices.length).map (·.vertices.length)).sum ≤ maxV) (hV' : maxV ≤ 65535)
    (hT : (((pre ++ [c]).filter fun c => 3 ≤ c.vertices.length).map (·.vertices.length - 2)).sum ≤ maxT) :
    Outs A (addContour nvp maxV maxT st c) fun st' => ∃ blocks', BuildInv nvp maxV maxT (pre ++ [c]) st' blocks' := by
  unfold addContour
  split
  · rename_i hlt
    refine Outs.ok ⟨blocks, ?_⟩
    have hf : (pre ++ [c]).filter (fun c => 3 ≤ c.vertices.length) = pre.filter fun c => 3 ≤ c.vertices.length := by
      rw [List.filter_append, List.filter_cons_of_neg (by simpa using hlt)]; simp
    refine ⟨h.table, ?_, by rw [hf]; exact h.vlen, h.flen, ?_, by rw [hf]; exact h.contours, h.mesh, h.makes⟩
    · intro w hw
      obtain ⟨c', hc', hh⟩ := h.from_ w hw
      exact ⟨c', by simp [hc'], hh⟩
    · intro i hi
      obtain ⟨c', hc', hh⟩ := h.flags i hi
      exact ⟨c', by simp [hc'], hh⟩
  · rename_i hge
    have hge : 3 ≤ c.vertices.length := by omega
    have hf : (pre ++ [c]).filter (fun c => 3 ≤ c.vertices.length) = (pre.filter fun c => 3 ≤ c.vertices.length) ++ [c] := by
      rw [List.filter_append, List.filter_cons_of_pos (by simpa using hge)]; simp
    rw [hf, List.map_append, List.sum_append, List.map_singleton, List.sum_singleton] at hV hT
    have hpl : c.points.length = c.vertices.length := by simp [Contour.points]
    have htri := triangulate_out (A := A) hA (verts := c.points) (by omega) (by
      rcases hs with hs | hs
      · exact Or.inl (hs c (by simp))
      · exact Or.inr hs)
    have htri' : Outs A (triangulate c.points) fun T => TriOk c.points.length T ∧ triangulate c.points = .ok T := by
      rcases htri with ⟨T, h1, h2⟩ | ⟨e, h1, h2⟩
      · exact Or.inl ⟨T, h1, h2, h1⟩
      · exact Or.inr ⟨e, h1, h2⟩
    rw [show c.vertices.map (·.1) = c.points from rfl]
    refine htri'.bind fun tris ⟨htr, htreq⟩ => ?_
    have hvl := h.vlen
    refine (addVertices_out (cap := maxV) (f0 := st.vflags) h.table (Or.inl ⟨by omega, hV', by rw [h.flen]⟩)).bind fun r hr => ?_
    obtain ⟨table, vflags, indices⟩ := r
    dsimp only
    have hst : StandsFor table.verts c indices := hr.stands
    have hil : indices.length = c.vertices.length := hst.length_eq.symm
    obtain ⟨ext, hext, hextm⟩ := hr.ext
    dsimp only at hext
    have hfrom : ∀ w ∈ table.verts, ∃ c' ∈ pre ++ [c], 3 ≤ c'.vertices.length ∧ w ∈ c'.points := by
      intro w hw
      rw [hext, List.mem_append] at hw
      rcases hw with hw | hw
      · obtain ⟨c', hc', hh⟩ := h.from_ w hw
        exact ⟨c', by simp [hc'], hh⟩
      · obtain ⟨v, hv, rfl⟩ := hextm w hw
        exact ⟨c, by simp, hge, List.mem_map.2 ⟨v, hv, rfl⟩⟩
    have hsm : (∀ v ∈ table.verts, v.Small) ∨ A .panic := by
      rcases hs with hs | hs
      · refine Or.inl fun v hv => ?_
        obtain ⟨c', hc', _, hm⟩ := hfrom v hv
        exact hs c' hc' v hm
      · exact Or.inr hs
    rw [hpl, ← hil] at htr
    refine (contourPolys_out htr h3 (by omega) hsm hst.lt).bind ?_
    rintro polys ⟨ps, rfl, hne, hpsl, hinv, hfin⟩
    have hmakes : MakesUp table.verts nvp c indices (ps.map Prod.fst) := by
      refine ⟨hst, ?_, ⟨by simpa using hne, by simp; omega⟩, hfin, hst.nodup, ?_, hinv.once, hinv.boundary, ?_, ?_⟩
      · intro p hp
        obtain ⟨q, hq, rfl⟩ := List.mem_map.1 hp
        exact hinv.sizes q hq
      · intro hn p hp
        obtain ⟨q, hq, rfl⟩ := List.mem_map.1 hp
        exact hinv.order hn q hq
      · intro hn hw p hp
        obtain ⟨q, hq, rfl⟩ := List.mem_map.1 hp
        refine hinv.convex hn ?_ q hq
        intro t ht
        refine triPoly_convex hst ?_ (hw tris htreq t ht)
        intro x hx
        simpa using (htr.corners t ht).mem hx
      · intro hn
        refine ⟨tris, htreq, fun p hp => ?_⟩
        obtain ⟨q, hq, rfl⟩ := List.mem_map.1 hp
        obtain ⟨g, hg, hb⟩ := hinv.parts hn q hq
        obtain ⟨g', hg', rfl⟩ := exists_map_mem (triPoly indices) tris g hg
        exact ⟨g', hg', hb⟩
    have hnew : ∀ b ∈ blocks ++ [⟨c, indices, ps.map Prod.fst⟩], MakesUp table.verts nvp b.contour b.ring b.polys := by
      intro b hb
      rw [List.mem_append, List.mem_singleton] at hb
      rcases hb with hb | rfl
      · rw [hext]; exact (h.makes b hb).mono ext
      · exact hmakes
    have hcount : (blocks.flatMap Block.entries).length + (ps.map Prod.fst).length ≤ maxT := by
      have h1 := entries_le (blocks := blocks) fun b hb => (h.makes b hb).count.2
      have h2 : (blocks.map fun b => b.contour.vertices.length - 2).sum = ((pre.filter fun c => 3 ≤ c.vertices.length).map (·.vertices.length - 2)).sum := by
        rw [← h.contours, List.map_map]; rfl
      rw [List.length_map]
      omega
    refine (storePolys_out h.mesh c.region c.area (ps.map Prod.fst) hcount).bind fun m' ⟨hm', hv'⟩ => Outs.ok ⟨blocks ++ [⟨c, indices, ps.map Prod.fst⟩], ?_⟩
    refine ⟨hr.ok, hfrom, ?_, by rw [← h.flen]; exact hr.flen, ?_, ?_, ?_, hnew⟩
    · rw [hf, List.map_append, List.sum_append, List.map_singleton, List.sum_singleton]
      have := hr.len
      dsimp only at this ⊢
      omega
    · intro i hi
      rcases hr.flags i hi with hi | ⟨v, hv, hvf⟩
      · obtain ⟨c', hc', hh⟩ := h.flags i hi
        exact ⟨c', by simp [hc'], hh⟩
      · exact ⟨c, by simp, v, hv, hvf⟩
    · rw [hf, List.map_append, h.contours]; rfl
    · rw [List.flatMap_append]
      simpa [Block.entries] using hm'

/-- The mesh of all contours. -/
theorem buildMesh_out (hA : A .err) {cset : ContourSet} {nvp : Nat} (h3 : 3 ≤ nvp)
    (hs : (∀ c ∈ cset.contours, ∀ v ∈ c.points, v.Small) ∨ A .panic) :
    Outs A (cset.buildMesh nvp) fun st => cset.maxVertices ≤ 65535 ∧
      ∃ blocks, BuildInv nvp cset.maxVertices cset.maxTris cset.contours st blocks := by
  unfold ContourSet.buildMesh
  split
  · exact Outs.error hA
  · rename_i hle
    have hle : cset.maxVertices ≤ 65535 := by omega
    have hsum : ∀ (f : Contour → Nat) (pre post : List Contour), cset.contours = pre ++ post →
        ((pre.filter fun c => 3 ≤ c.vertices.length).map f).sum ≤ ((cset.contours.filter fun c => 3 ≤ c.vertices.length).map f).sum := by
      intro f pre post e
      rw [e, List.filter_append, List.map_append, List.sum_append]
      omega
    refine Outs.mono (Outs.foldlM (fun pre st => ∃ blocks, BuildInv nvp cset.maxVertices cset.maxTris pre st blocks) cset.contours _ ?_ ?_)
      fun st h => ⟨hle, h⟩
    · refine ⟨[], VertexTable.ok_empty, by simp, by simp, by simp, ?_, by simp, ?_, by simp⟩
      · intro i hi
        dsimp only at hi
        rw [List.getElem?_replicate] at hi
        split at hi <;> simp at hi
      · exact ⟨by simp, by simp, by simp, by simp, by simp⟩
    · rintro pre c post st hl ⟨blocks, h⟩
      refine addContour_out hA h3 h ?_ ?_ hle ?_
      · rcases hs with hs | hs
        · refine Or.inl fun c' hc' => hs c' ?_
          rw [hl]
          simp only [List.mem_append, List.mem_cons] at hc' ⊢
          tauto
        · exact Or.inr hs
      · exact hsum (·.vertices.length) (pre ++ [c]) post (by rw [hl]; simp)
      · exact hsum (·.vertices.length - 2) (pre ++ [c]) post (by rw [hl]; simp)

end Rerecast
