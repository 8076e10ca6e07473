import Verif.Spec.Visualize
import Verif.Lemmas.RemoveVertex
/-! Lemmas on the drawing of navmeshes. -/
namespace Rerecast

theorem mapM_ok_of {α β : Type} {f : α → Res β} {l : List α} {out : List β} (h : List.Forall₂ (fun a b => f a = .ok b) l out) :
    l.mapM f = .ok out := by
  induction h with
  | nil => rfl
  | cons h1 _ ih => rw [List.mapM_cons, h1, bind_ok, ih, bind_ok]; rfl

theorem chunksExact_eq {α : Type} {n : Nat} (hn : 0 < n) : ∀ (fuel : Nat) (l : List α), l.length ≤ fuel →
    chunksExact n fuel l = (List.range (l.length / n)).map fun i => (l.drop (i * n)).take n
  | 0, l, h => by
    have : l.length = 0 := by omega
    simp [chunksExact, this]
  | fuel + 1, l, h => by
    unfold chunksExact
    split
    · rename_i hle
      rw [chunksExact_eq hn fuel _ (by simp; omega)]
      have : l.length / n = (l.length - n) / n + 1 := by
        have := Nat.add_div_right (l.length - n) hn
        rw [Nat.sub_add_cancel hle] at this
        omega
      rw [this, List.range_succ_eq_map, List.map_cons, List.map_map, List.length_drop]
      congr 1
      · simp
      · refine List.map_congr_left fun i _ => ?_
        simp only [Function.comp, List.drop_drop]
        rw [Nat.succ_mul, Nat.add_comm]
    · rw [Nat.div_eq_of_lt (by omega)]; simp

namespace Visualize
variable {P : Type}

theorem Shows.mono {verts verts' : List P} (hp : verts <+: verts') {is : List Nat} {ts : List (P × P × P)} (h : Shows verts is ts) : Shows verts' is ts := by
  induction h with
  | nil => exact .nil
  | cons h1 h2 h3 _ ih =>
    have : ∀ {k p}, verts[k]? = some p → verts'[k]? = some p := fun {k p} hk => by
      obtain ⟨r, rfl⟩ := hp
      rw [List.getElem?_append_left (List.getElem?_eq_some_iff.1 hk).1]; exact hk
    exact .cons (this h1) (this h2) (this h3) ih

theorem Shows.append {verts : List P} {is js : List Nat} {ts us : List (P × P × P)} (h : Shows verts is ts) (h' : Shows verts js us) :
    Shows verts (is ++ js) (ts ++ us) := by
  induction h with
  | nil => exact h'
  | cons h1 h2 h3 _ ih => exact .cons h1 h2 h3 ih

theorem Shows.index {verts : List P} {is : List Nat} {ts : List (P × P × P)} (h : Shows verts is ts) : ∀ i ∈ is, i < verts.length := by
  induction h with
  | nil => simp
  | cons h1 h2 h3 _ ih =>
    intro i hi
    simp only [List.mem_cons] at hi
    rcases hi with rfl | rfl | rfl | hi
    · exact (List.getElem?_eq_some_iff.1 h1).1
    · exact (List.getElem?_eq_some_iff.1 h2).1
    · exact (List.getElem?_eq_some_iff.1 h3).1
    · exact ih i hi

theorem closeStrip_eq {l : List P} (h : l ≠ []) : closeStrip l = .ok (closedLine l) := by
  cases l with
  | nil => exact absurd rfl h
  | cons a l => rfl

/-- A corner of a polygon and its position. -/
def CornerAt (pos : U16Vec3 → P) (mesh : PolygonNavmesh) (k : Nat) (p : P) : Prop := ∃ v, mesh.vertices[k]? = some v ∧ p = pos v

theorem fan_none {pos : U16Vec3 → P} {mesh : PolygonNavmesh} {a : Nat} {st : List P × List Nat} : ∀ (L : List (Nat × Nat)), (∀ x ∈ L, x.2 = NO_INDEX) →
    L.foldlM (fanStep pos mesh a) st = .ok st
  | [], _ => rfl
  | x :: L, h => by
    rw [List.foldlM_cons, fanStep, if_pos (Or.inr (h x (by simp))), bind_ok]
    exact fan_none L fun y hy => h y (by simp [hy])

theorem fan_spec {pos : U16Vec3 → P} {mesh : PolygonNavmesh} {a : Nat} {pa : P} {k : Nat} : ∀ {l : List Nat} {ps : List P} {st : List P × List Nat}
    {ts : List (P × P × P)}, (∀ v ∈ l, v ≠ NO_INDEX) → List.Forall₂ (CornerAt pos mesh) l ps → Shows st.1 st.2 ts → st.1[a]? = some pa →
    st.1.length + 2 * l.length < 4294967296 →
    ∃ r, ((l ++ List.replicate k NO_INDEX).zip (l ++ List.replicate k NO_INDEX).tail).foldlM (fanStep pos mesh a) st = .ok r ∧ st.1 <+: r.1 ∧
      r.1.length ≤ st.1.length + 2 * l.length ∧ Shows r.1 r.2 (ts ++ (ps.zip ps.tail).map fun bc => (pa, bc.1, bc.2))
  | [], ps, st, ts, _, hc, hs, _, _ => by
    cases hc
    refine ⟨st, fan_none _ ?_, List.prefix_refl _, by simp, by simpa using hs⟩
    intro x hx
    have := (List.of_mem_zip hx).2
    exact List.eq_of_mem_replicate (List.mem_of_mem_tail this)
  | [b], ps, st, ts, _, hc, hs, _, _ => by
    obtain ⟨p, rfl⟩ : ∃ p, ps = [p] := by cases hc with | cons _ h => cases h; exact ⟨_, rfl⟩
    refine ⟨st, fan_none _ ?_, List.prefix_refl _, by simp, by simpa using hs⟩
    intro x hx
    have := (List.of_mem_zip hx).2
    exact List.eq_of_mem_replicate (by simpa using this)
  | b :: c :: l, ps, st, ts, hno, hc, hs, ha, hl => by
    obtain ⟨p, q, ps, rfl, ⟨vb, hb, rfl⟩, ⟨vc, hvc, rfl⟩, hc'⟩ : ∃ p q ps', ps = p :: q :: ps' ∧ CornerAt pos mesh b p ∧ CornerAt pos mesh c q ∧
        List.Forall₂ (CornerAt pos mesh) l ps' := by
      cases hc with | cons h1 h => cases h with | cons h2 h => exact ⟨_, _, _, rfl, h1, h2, h⟩
    have hlen : st.1.length + 2 + 2 * (l.length + 1) ≤ st.1.length + 2 * (b :: c :: l).length := by simp; omega
    have hstep : fanStep pos mesh a st (b, c) = .ok (st.1 ++ [pos vb] ++ [pos vc], st.2 ++ [a, st.1.length, st.1.length + 1]) := by
      unfold fanStep
      rw [if_neg (by have h1 := hno b (by simp); have h2 := hno c (by simp); simp [h1, h2]), idx_some hb, bind_ok, idx_some hvc, bind_ok]
      unfold asU32
      simp only [List.length_append, List.length_singleton]
      rw [Nat.mod_eq_of_lt (by omega), Nat.mod_eq_of_lt (by omega)]
    have hpre : st.1 <+: st.1 ++ [pos vb] ++ [pos vc] := ⟨[pos vb, pos vc], by simp⟩
    have hs' : Shows (st.1 ++ [pos vb] ++ [pos vc]) (st.2 ++ [a, st.1.length, st.1.length + 1]) (ts ++ [(pa, pos vb, pos vc)]) := by
      refine (hs.mono hpre).append (.cons ?_ ?_ ?_ .nil)
      · obtain ⟨h, _⟩ := List.getElem?_eq_some_iff.1 ha
        rw [List.append_assoc, List.getElem?_append_left h]; exact ha
      · simp
      · simp
    obtain ⟨r, hr, h1, h2, h3⟩ := fan_spec (pos := pos) (mesh := mesh) (a := a) (pa := pa) (k := k) (l := c :: l)
      (ps := pos vc :: ps) (st := (st.1 ++ [pos vb] ++ [pos vc], st.2 ++ [a, st.1.length, st.1.length + 1])) (ts := ts ++ [(pa, pos vb, pos vc)])
      (fun v hv => hno v (by simp only [List.mem_cons] at hv ⊢; exact Or.inr hv)) (.cons ⟨vc, hvc, rfl⟩ hc') hs' (by
        obtain ⟨h, _⟩ := List.getElem?_eq_some_iff.1 ha
        dsimp only
        rw [List.append_assoc, List.getElem?_append_left h]; exact ha) (by
        simp only [List.length_append, List.length_nil, List.length_cons] at hlen hl ⊢; omega)
    refine ⟨r, ?_, hpre.trans h1, ?_, ?_⟩
    · simp only [List.cons_append, List.tail_cons, List.zip_cons_cons, List.foldlM_cons]
      rw [hstep, bind_ok]
      exact hr
    · simp only [List.length_append, List.length_nil, List.length_cons] at h2 ⊢; omega
    · simpa using h3

/-- What the drawing of a polygon mesh needs. -/
structure Drawable (mesh : PolygonNavmesh) : Prop where
  length : mesh.polygons.length = mesh.polygonCount * mesh.nvp
  rows : ∀ i < mesh.polygonCount, (mesh.polygons.drop (i * mesh.nvp)).take mesh.nvp = pad mesh.nvp (mesh.polygon i)
  corners : ∀ i < mesh.polygonCount, mesh.polygon i ≠ [] ∧ (mesh.polygon i).length ≤ mesh.nvp ∧ ∀ v ∈ mesh.polygon i, v < mesh.vertices.length ∧ v ≠ NO_INDEX
  nvp : 0 < mesh.nvp
  few : mesh.polygonCount * (2 * mesh.nvp) < 4294967296

theorem filter_pad {nvp : Nat} {p : List Nat} (h : ∀ v ∈ p, v ≠ NO_INDEX) : (pad nvp p).filter (· ≠ NO_INDEX) = p := by
  unfold pad
  rw [List.filter_append, List.filter_eq_self.2 (by simpa using h), List.filter_eq_nil_iff.2 (by simp), List.append_nil]

theorem Drawable.slice {mesh : PolygonNavmesh} (h : Drawable mesh) {i : Nat} (hi : i < mesh.polygonCount) :
    sliceFrom mesh.polygons (i * mesh.nvp) = .ok (mesh.polygons.drop (i * mesh.nvp)) ∧
    sliceTo (mesh.polygons.drop (i * mesh.nvp)) mesh.nvp = .ok (pad mesh.nvp (mesh.polygon i)) := by
  have : (i + 1) * mesh.nvp ≤ mesh.polygonCount * mesh.nvp := Nat.mul_le_mul_right _ hi
  rw [Nat.add_mul] at this
  have hl := h.length
  refine ⟨by unfold sliceFrom; rw [if_pos (by omega)], ?_⟩
  unfold sliceTo
  rw [if_pos (by rw [List.length_drop]; omega), h.rows i hi]

theorem corners_exist {pos : U16Vec3 → P} {mesh : PolygonNavmesh} : ∀ (l : List Nat), (∀ v ∈ l, v < mesh.vertices.length) →
    ∃ ps, List.Forall₂ (CornerAt pos mesh) l ps
  | [], _ => ⟨[], .nil⟩
  | v :: l, h => by
    obtain ⟨ps, hps⟩ := corners_exist (pos := pos) l fun w hw => h w (by simp [hw])
    exact ⟨_, .cons ⟨_, List.getElem?_eq_getElem (h v (by simp)), rfl⟩ hps⟩

theorem polyStrip_spec {pos : U16Vec3 → P} {mesh : PolygonNavmesh} (h : Drawable mesh) {i : Nat} (hi : i < mesh.polygonCount) {ps : List P}
    (hps : List.Forall₂ (CornerAt pos mesh) (mesh.polygon i) ps) : polyStrip pos mesh i = .ok (closedLine ps) := by
  obtain ⟨h1, h2⟩ := h.slice hi
  obtain ⟨c1, _, c2⟩ := h.corners i hi
  unfold polyStrip
  rw [h1, bind_ok, h2, bind_ok, filter_pad fun v hv => (c2 v hv).2]
  have hm : (mesh.polygon i).mapM (fun k => do
      let v ← idx mesh.vertices k
      (.ok (pos v) : Res P)) = .ok ps := mapM_ok_of (hps.imp fun k p ⟨v, hv, hp⟩ => by rw [idx_some hv, bind_ok, hp])
  rw [hm, bind_ok]
  refine closeStrip_eq ?_
  rintro rfl
  cases hps' : mesh.polygon i with
  | nil => exact c1 hps'
  | cons a l => rw [hps'] at hps; cases hps

theorem fanPoly_spec {pos : U16Vec3 → P} {mesh : PolygonNavmesh} (h : Drawable mesh) {i : Nat} (hi : i < mesh.polygonCount) {ps : List P}
    (hps : List.Forall₂ (CornerAt pos mesh) (mesh.polygon i) ps) {st : List P × List Nat} {ts : List (P × P × P)} (hs : Shows st.1 st.2 ts)
    (hl : st.1.length + 2 * mesh.nvp < 4294967296) :
    ∃ r, fanPoly pos mesh st i = .ok r ∧ r.1.length ≤ st.1.length + 2 * mesh.nvp ∧ Shows r.1 r.2 (ts ++ fanOf ps) := by
  obtain ⟨h1, h2⟩ := h.slice hi
  obtain ⟨c1, c3, c2⟩ := h.corners i hi
  have hrow := h.rows i hi
  generalize hp : mesh.polygon i = p at *
  cases hps with
  | nil => exact absurd rfl c1
  | @cons k pa l ps hk hrest =>
    obtain ⟨va, hva, rfl⟩ := hk
    have hk0 : (mesh.polygons.drop (i * mesh.nvp))[0]? = some k := by
      have := congrArg (fun l : List Nat => l[0]?) hrow
      rw [List.getElem?_take_of_lt h.nvp] at this
      rw [this]; rfl
    unfold fanPoly
    rw [h1, bind_ok, idx_some hk0, bind_ok, idx_some hva, bind_ok]
    dsimp only
    rw [h2, bind_ok, if_neg (by have := h.nvp; omega)]
    have hdrop : (pad mesh.nvp (k :: l)).drop 1 = l ++ List.replicate (mesh.nvp - (k :: l).length) NO_INDEX := rfl
    have hdrop2 : (pad mesh.nvp (k :: l)).drop 2 = (l ++ List.replicate (mesh.nvp - (k :: l).length) NO_INDEX).tail := by
      rw [← hdrop, ← List.drop_one, List.drop_drop]
    rw [hdrop, hdrop2]
    simp only [List.length_cons] at c3
    obtain ⟨r, hr, _, e2, e3⟩ := fan_spec (pos := pos) (mesh := mesh) (a := asU32 st.1.length) (pa := pos va) (k := mesh.nvp - (k :: l).length)
      (l := l) (ps := ps) (st := (st.1 ++ [pos va], st.2)) (ts := ts) (fun v hv => (c2 v (by simp [hv])).2) hrest
      (hs.mono ⟨[pos va], rfl⟩) (by unfold asU32; rw [Nat.mod_eq_of_lt (by omega)]; simp)
      (by simp only [List.length_append, List.length_singleton]; omega)
    refine ⟨r, hr, ?_, e3⟩
    simp only [List.length_append, List.length_singleton] at e2
    omega

theorem fanPolys_spec {pos : U16Vec3 → P} {mesh : PolygonNavmesh} (h : Drawable mesh) {corners : List (List P)} : ∀ (n a : Nat) (st : List P × List Nat)
    (ts : List (P × P × P)), a + n = mesh.polygonCount → Shows st.1 st.2 ts → st.1.length ≤ a * (2 * mesh.nvp) → corners.length = mesh.polygonCount →
    (∀ i ps, corners[i]? = some ps → List.Forall₂ (CornerAt pos mesh) (mesh.polygon i) ps) →
    ∃ r, (List.range' a n).foldlM (fanPoly pos mesh) st = .ok r ∧ Shows r.1 r.2 (ts ++ (corners.drop a).flatMap fanOf)
  | 0, a, st, ts, ha, hs, _, hcl, _ => by
    refine ⟨st, rfl, ?_⟩
    rw [List.drop_of_length_le (by omega)]
    simpa using hs
  | n + 1, a, st, ts, ha, hs, hl, hcl, hc => by
    have hlt : a < corners.length := by omega
    have hfew := h.few
    have hm : (a + 1) * (2 * mesh.nvp) ≤ mesh.polygonCount * (2 * mesh.nvp) := Nat.mul_le_mul_right _ (by omega)
    rw [Nat.add_mul, Nat.one_mul] at hm
    obtain ⟨r, hr, h1, h2⟩ := fanPoly_spec h (by omega) (hc a _ (List.getElem?_eq_getElem hlt)) hs (by omega)
    obtain ⟨r', hr', h3⟩ := fanPolys_spec h n (a + 1) r (ts ++ fanOf corners[a]) (by omega) h2 (by rw [Nat.add_mul, Nat.one_mul]; omega) hcl hc
    refine ⟨r', ?_, ?_⟩
    · rw [List.range'_succ, List.foldlM_cons, hr, bind_ok]; exact hr'
    · rw [List.drop_eq_getElem_cons hlt, List.flatMap_cons, ← List.append_assoc]; exact h3

/-- Drawing a polygon mesh. -/
theorem drawPolyMesh_spec {mesh : PolygonNavmesh} (h : Drawable mesh) (pos : U16Vec3 → P) :
    ∃ d corners, drawPolyMesh pos mesh = .ok d ∧ CornersAt pos mesh corners ∧ d.strips = corners.map closedLine ∧
      Shows d.verts d.indices (corners.flatMap fanOf) := by
  obtain ⟨corners, hc⟩ : ∃ corners, List.Forall₂ (List.Forall₂ (CornerAt pos mesh)) mesh.polys corners := by
    have : ∀ l : List (List Nat), (∀ p ∈ l, ∀ v ∈ p, v < mesh.vertices.length) → ∃ cs, List.Forall₂ (List.Forall₂ (CornerAt pos mesh)) l cs := by
      intro l
      induction l with
      | nil => exact fun _ => ⟨[], .nil⟩
      | cons p l ih =>
        intro hl
        obtain ⟨cs, h1⟩ := ih fun q hq => hl q (by simp [hq])
        obtain ⟨c, h2⟩ := corners_exist (pos := pos) p (hl p (by simp))
        exact ⟨_, .cons h2 h1⟩
    refine this _ ?_
    intro p hp v hv
    obtain ⟨i, hi, rfl⟩ := List.mem_map.1 hp
    exact ((h.corners i (List.mem_range.1 hi)).2.2 v hv).1
  have hlen : corners.length = mesh.polygonCount := by rw [← hc.length_eq]; simp [PolygonNavmesh.polys]
  have hget : ∀ i ps, corners[i]? = some ps → List.Forall₂ (CornerAt pos mesh) (mesh.polygon i) ps := by
    intro i ps hi
    obtain ⟨hlt, rfl⟩ := List.getElem?_eq_some_iff.1 hi
    have := (List.forall₂_iff_get.1 hc).2 i (by simp [PolygonNavmesh.polys]; omega) hlt
    simpa [PolygonNavmesh.polys] using this
  have hstrips : (List.range mesh.polygonCount).mapM (polyStrip pos mesh) = .ok (corners.map closedLine) := by
    refine mapM_ok_of (List.forall₂_iff_get.2 ⟨by simp [hlen], fun i h1 h2 => ?_⟩)
    simp only [List.length_range] at h1
    simp only [List.get_eq_getElem, List.getElem_range, List.getElem_map]
    exact polyStrip_spec h h1 (hget i _ (List.getElem?_eq_getElem (by omega)))
  obtain ⟨r, hr, hshow⟩ := fanPolys_spec h (corners := corners) mesh.polygonCount 0 ([], []) [] (by omega) .nil (by simp) hlen hget
  refine ⟨⟨corners.map closedLine, r.1, r.2⟩, corners, ?_, hc, rfl, by simpa using hshow⟩
  unfold drawPolyMesh
  rw [if_neg (by have := h.nvp; omega), hstrips, bind_ok, List.range_eq_range', hr, bind_ok]

/-! ### The detail mesh -/

theorem sliceFrom_ok {α : Type} {l : List α} {i : Nat} (h : i ≤ l.length) : sliceFrom l i = .ok (l.drop i) := by unfold sliceFrom; rw [if_pos h]
theorem sliceTo_ok {α : Type} {l : List α} {i : Nat} (h : i ≤ l.length) : sliceTo l i = .ok (l.take i) := by unfold sliceTo; rw [if_pos h]

theorem triStrip_spec {verts : List P} {t : Nat × Nat × Nat} {p : P × P × P} (h : CornersOf verts t p) :
    triStrip verts t = .ok (closedLine [p.1, p.2.1, p.2.2]) := by
  unfold triStrip
  rw [mapM_ok_of (out := [p.1, p.2.1, p.2.2]) (.cons (idx_some h.1) (.cons (idx_some h.2.1) (.cons (idx_some h.2.2) .nil))), bind_ok]
  rfl

theorem triangles_exist {verts : List P} : ∀ (l : List (Nat × Nat × Nat)), (∀ t ∈ l, t.1 < verts.length ∧ t.2.1 < verts.length ∧ t.2.2 < verts.length) →
    ∃ ps, List.Forall₂ (CornersOf verts) l ps
  | [], _ => ⟨[], .nil⟩
  | t :: l, h => by
    obtain ⟨ps, hps⟩ := triangles_exist l fun w hw => h w (by simp [hw])
    obtain ⟨h1, h2, h3⟩ := h t (by simp)
    exact ⟨(verts[t.1], verts[t.2.1], verts[t.2.2]) :: ps,
      .cons ⟨List.getElem?_eq_getElem h1, List.getElem?_eq_getElem h2, List.getElem?_eq_getElem h3⟩ hps⟩

/-- The indices of a sub-mesh, moved by the number of vertices before it. -/
theorem fill_spec {before verts : List P} {ts : List (Nat × Nat × Nat)} {ps : List (P × P × P)} (h : List.Forall₂ (CornersOf verts) ts ps)
    (hl : before.length + verts.length < 4294967296) :
    ∃ is, (ts.flatMap fun t => [t.1, t.2.1, t.2.2]).mapM (fun i => addU32 i (asU32 before.length)) = .ok is ∧ Shows (before ++ verts) is ps := by
  have hasu : asU32 before.length = before.length := Nat.mod_eq_of_lt (by omega)
  rw [hasu]
  refine ⟨ts.flatMap fun t => [t.1 + before.length, t.2.1 + before.length, t.2.2 + before.length], ?_, ?_⟩
  · refine mapM_ok_of ?_
    induction h with
    | nil => exact .nil
    | cons h1 _ ih =>
      have hb : ∀ {k : Nat} {p : P}, verts[k]? = some p → addU32 k before.length = .ok (k + before.length) := by
        intro k p hk
        have := (List.getElem?_eq_some_iff.1 hk).1
        unfold addU32; rw [if_pos (by omega)]
      simp only [List.flatMap_cons, List.cons_append, List.nil_append]
      exact .cons (hb h1.1) (.cons (hb h1.2.1) (.cons (hb h1.2.2) ih))
  · induction h with
    | nil => exact .nil
    | cons h1 _ ih =>
      have hb : ∀ {k : Nat} {p : P}, verts[k]? = some p → (before ++ verts)[k + before.length]? = some p := by
        intro k p hk
        rw [List.getElem?_append_right (by omega), Nat.add_sub_cancel]; exact hk
      simp only [List.flatMap_cons, List.cons_append, List.nil_append]
      exact .cons (hb h1.1) (hb h1.2.1) (hb h1.2.2) ih

/-- What the drawing of a detail mesh needs. -/
structure DrawableDetail {F : Type} (dm : DetailNavmesh F) : Prop where
  bases : ∀ i m, dm.meshes[i]? = some m → m.baseVertex = ((dm.meshes.take i).map SubMesh.vertexCount).sum ∧
    m.baseTriangle = ((dm.meshes.take i).map SubMesh.triangleCount).sum
  vertices : dm.vertices.length = (dm.meshes.map SubMesh.vertexCount).sum
  triangles : dm.triangles.length = (dm.meshes.map SubMesh.triangleCount).sum
  inside : ∀ m ∈ dm.meshes, ∀ t ∈ (dm.part m).2.1, t.1 < m.vertexCount ∧ t.2.1 < m.vertexCount ∧ t.2.2 < m.vertexCount
  few : dm.vertices.length < 4294967296

theorem sum_take_le {α : Type} (f : α → Nat) {l : List α} {i : Nat} {a : α} (h : l[i]? = some a) : ((l.take i).map f).sum + f a ≤ (l.map f).sum := by
  obtain ⟨hi, rfl⟩ := List.getElem?_eq_some_iff.1 h
  conv_rhs => rw [← List.take_append_drop i l, List.drop_eq_getElem_cons hi]
  rw [List.map_append, List.sum_append, List.map_cons, List.sum_cons]
  omega

theorem DrawableDetail.slices {F : Type} {dm : DetailNavmesh F} (h : DrawableDetail dm) {i : Nat} {m : SubMesh} (hm : dm.meshes[i]? = some m) :
    subMeshSlices dm m = .ok ((dm.part m).1, (dm.part m).2.1) ∧ (dm.part m).1.length = m.vertexCount := by
  obtain ⟨b1, b2⟩ := h.bases i m hm
  have h1 := sum_take_le SubMesh.vertexCount hm
  have h2 := sum_take_le SubMesh.triangleCount hm
  rw [← b1, ← h.vertices] at h1
  rw [← b2, ← h.triangles] at h2
  refine ⟨?_, ?_⟩
  · unfold subMeshSlices
    rw [sliceFrom_ok (by omega), bind_ok, sliceTo_ok (by rw [List.length_drop]; omega), bind_ok, sliceFrom_ok (by omega), bind_ok,
      sliceTo_ok (by rw [List.length_drop]; omega), bind_ok]
    rfl
  · unfold DetailNavmesh.part
    dsimp only
    rw [List.length_take, List.length_drop]; omega

theorem DrawableDetail.exist {F : Type} {dm : DetailNavmesh F} (h : DrawableDetail dm) : ∃ ts, DetailTriangles dm ts := by
  have : ∀ l : List SubMesh, (∀ m ∈ l, m ∈ dm.meshes) → ∃ ts, List.Forall₂ (fun m l => List.Forall₂ (CornersOf (dm.part m).1) (dm.part m).2.1 l) l ts := by
    intro l
    induction l with
    | nil => exact fun _ => ⟨[], .nil⟩
    | cons m l ih =>
      intro hl
      obtain ⟨ts, h1⟩ := ih fun q hq => hl q (by simp [hq])
      have hm := hl m (by simp)
      obtain ⟨i, hi⟩ := List.mem_iff_getElem?.1 hm
      obtain ⟨t, h2⟩ := triangles_exist (verts := (dm.part m).1) (dm.part m).2.1 (by rw [(h.slices hi).2]; exact h.inside m hm)
      exact ⟨_, .cons h2 h1⟩
  exact this _ fun _ => id

theorem detailFill {F : Type} {dm : DetailNavmesh F} (h : DrawableDetail dm) {ts : List (List (Vec3 F × Vec3 F × Vec3 F))} (hts : DetailTriangles dm ts) :
    ∀ (n a : Nat) (is : List Nat), a + n = dm.meshes.length →
      Shows (dm.vertices.take ((dm.meshes.take a).map SubMesh.vertexCount).sum) is (ts.take a).flatten →
      ∃ js, (dm.meshes.drop a).foldlM (subMeshFill dm) (dm.vertices.take ((dm.meshes.take a).map SubMesh.vertexCount).sum, is) = .ok (dm.vertices, js) ∧
        Shows dm.vertices js ts.flatten
  | 0, a, is, ha, hs => by
    have hl : ts.length = dm.meshes.length := hts.length_eq.symm
    rw [List.take_of_length_le (by omega : dm.meshes.length ≤ a), ← h.vertices, List.take_length, List.take_of_length_le (by omega)] at hs
    refine ⟨is, ?_, hs⟩
    rw [List.drop_of_length_le (by omega), List.take_of_length_le (by omega : dm.meshes.length ≤ a), ← h.vertices, List.take_length]
    rfl
  | n + 1, a, is, ha, hs => by
    have hlt : a < dm.meshes.length := by omega
    have hl : ts.length = dm.meshes.length := hts.length_eq.symm
    have hget := List.getElem?_eq_getElem hlt
    obtain ⟨h1, h2⟩ := h.slices hget
    obtain ⟨b1, _⟩ := h.bases a _ hget
    have hle := sum_take_le SubMesh.vertexCount hget
    rw [← h.vertices] at hle
    have hfew := h.few
    have htri := (List.forall₂_iff_get.1 hts).2 a hlt (by omega)
    simp only [List.get_eq_getElem] at htri
    have hbl : (dm.vertices.take ((dm.meshes.take a).map SubMesh.vertexCount).sum).length = ((dm.meshes.take a).map SubMesh.vertexCount).sum := by
      rw [List.length_take]; omega
    obtain ⟨js, hj1, hj2⟩ := fill_spec (before := dm.vertices.take ((dm.meshes.take a).map SubMesh.vertexCount).sum) htri (by rw [hbl, h2]; omega)
    have hnext : dm.vertices.take ((dm.meshes.take a).map SubMesh.vertexCount).sum ++ (dm.part dm.meshes[a]).1 =
        dm.vertices.take ((dm.meshes.take (a + 1)).map SubMesh.vertexCount).sum := by
      rw [List.take_succ_eq_append_getElem hlt, List.map_append, List.sum_append, List.take_add]
      unfold DetailNavmesh.part
      dsimp only
      rw [b1]; simp
    have hs' : Shows (dm.vertices.take ((dm.meshes.take (a + 1)).map SubMesh.vertexCount).sum) (is ++ js) (ts.take (a + 1)).flatten := by
      rw [← hnext, List.take_succ_eq_append_getElem (by omega), List.flatten_append]
      refine (hs.mono ⟨_, rfl⟩).append ?_
      simpa using hj2
    obtain ⟨ks, hk1, hk2⟩ := detailFill h hts n (a + 1) (is ++ js) (by omega) hs'
    refine ⟨ks, ?_, hk2⟩
    rw [List.drop_eq_getElem_cons hlt, List.foldlM_cons]
    have hstep : subMeshFill dm (dm.vertices.take ((dm.meshes.take a).map SubMesh.vertexCount).sum, is) dm.meshes[a] =
        .ok (dm.vertices.take ((dm.meshes.take (a + 1)).map SubMesh.vertexCount).sum, is ++ js) := by
      unfold subMeshFill
      rw [h1, bind_ok]
      dsimp only
      rw [hj1, bind_ok, hnext]
    rw [hstep, bind_ok]
    exact hk1

/-- Drawing a detail mesh. -/
theorem drawDetailMesh_spec {F : Type} {dm : DetailNavmesh F} (h : DrawableDetail dm) :
    ∃ d ts, drawDetailMesh dm = .ok d ∧ DetailTriangles dm ts ∧ d.strips = ts.flatten.map (fun t => closedLine [t.1, t.2.1, t.2.2]) ∧
      d.verts = dm.vertices ∧ Shows d.verts d.indices ts.flatten := by
  obtain ⟨ts, hts⟩ := h.exist
  obtain ⟨js, hj, hs⟩ := detailFill h hts dm.meshes.length 0 [] (by omega) (by simpa using Shows.nil)
  have hstrips : dm.meshes.mapM (subMeshStrips dm) = .ok (ts.map fun l => l.map fun t => closedLine [t.1, t.2.1, t.2.2]) := by
    refine mapM_ok_of (List.forall₂_iff_get.2 ⟨by rw [List.length_map]; exact hts.length_eq, fun i h1 h2 => ?_⟩)
    have hl := hts.length_eq
    have htri := (List.forall₂_iff_get.1 hts).2 i h1 (by rw [List.length_map] at h2; exact h2)
    simp only [List.get_eq_getElem, List.getElem_map] at htri ⊢
    unfold subMeshStrips
    rw [(h.slices (List.getElem?_eq_getElem h1)).1, bind_ok]
    dsimp only
    refine mapM_ok_of ?_
    rw [List.forall₂_map_right_iff]
    exact htri.imp fun t p hp => triStrip_spec hp
  refine ⟨⟨(ts.map fun l => l.map fun t => closedLine [t.1, t.2.1, t.2.2]).flatten, dm.vertices, js⟩, ts, ?_, hts, ?_, rfl, hs⟩
  · unfold drawDetailMesh
    rw [hstrips, bind_ok]
    simp only [List.take_zero, List.map_nil, List.sum_nil, List.drop_zero] at hj
    rw [hj, bind_ok]
  · dsimp only
    rw [List.map_flatten]

end Visualize

end Rerecast
