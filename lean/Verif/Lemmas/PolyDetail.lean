import Verif.Lemmas.Tessellate
/-! `build_poly_detail` builds a proper sub-mesh. -/
set_option linter.unusedVariables false
namespace Rerecast
variable {A : Fault → Prop} {F : Type} {o : FloatOps F}

theorem flatMap_cons_perm (f : List Nat × Nat → Nat) (l : List (List Nat × Nat)) :
    (l.flatMap fun li => f li :: li.1).Perm (l.map f ++ (l.map (·.1)).flatten) := by
  induction l with
  | nil => exact .refl _
  | cons a l ih =>
    rw [List.flatMap_cons, List.map_cons, List.map_cons, List.flatten_cons, List.cons_append, List.cons_append]
    refine .cons _ ?_
    refine (ih.append_left _).trans ?_
    rw [← List.append_assoc, ← List.append_assoc]
    exact List.perm_append_comm.append_right _

theorem zipIdx_map_snd (f : Nat → Nat) (l : List (List Nat)) : (l.zipIdx.map fun li => f li.2) = (List.range l.length).map f := by
  apply List.ext_getElem?
  intro i
  simp only [List.getElem?_map, List.getElem?_zipIdx]
  rcases Nat.lt_or_ge i l.length with hi | hi
  · rw [List.getElem?_eq_getElem hi, List.getElem?_range hi]; simp
  · rw [List.getElem?_eq_none hi, List.getElem?_eq_none (by simpa using hi)]; rfl

theorem prev_perm (n : Nat) : ((List.range n).map fun i => (i + n - 1) % n).Perm (List.range n) := by
  rcases Nat.eq_zero_or_pos n with rfl | hn
  · exact .refl _
  · have : ((List.range n).map fun i => (i + n - 1) % n) = arc n (n - 1) n := by
      unfold arc
      apply List.map_congr_left
      intro k _
      congr 1; omega
    rw [this, arc_full]
    exact List.rotate_perm _ _

theorem range'_perm (a b : Nat) (h : a ≤ b) : List.range a ++ List.range' a (b - a) = List.range b := by
  rw [List.range_eq_range', List.range_eq_range']
  have := List.range'_append_1 (s := 0) (m := a) (n := b - a)
  rw [Nat.zero_add] at this
  rw [this]; congr 1; omega

theorem outline_perm {c : DetailConfig F} {hp : HeightPatch} {verts poly : List (Vec3 F)} {m : Nat} {hull : List Nat}
    (h : IsOutline o c hp verts poly m hull) : hull.Perm (List.range m) := by
  obtain ⟨ext, h1, h2, h3, h4, _⟩ := h
  rw [h2]
  refine (flatMap_cons_perm _ _).trans ?_
  have e : (ext.zipIdx.map (·.1)) = ext := List.zipIdx_map_fst 0 ext
  rw [e, h4, zipIdx_map_snd (fun i => (i + poly.length - 1) % poly.length), h1, ← range'_perm _ _ h3]
  exact (prev_perm _).append_right _

theorem outline_mono {c : DetailConfig F} {hp : HeightPatch} {verts verts' poly : List (Vec3 F)} {m : Nat} {hull : List Nat}
    (h : IsOutline o c hp verts poly m hull) (he : ∀ (v : Nat), v < m → verts'[v]? = verts[v]?) : IsOutline o c hp verts' poly m hull := by
  obtain ⟨ext, h1, h2, h3, h4, h5⟩ := h
  refine ⟨ext, h1, h2, h3, h4, fun i l hl => ?_⟩
  obtain ⟨a, b, ha, hb, hab⟩ := h5 i l hl
  refine ⟨a, b, ha, hb, onSide_mono hab fun v hv => he v ?_⟩
  have : v ∈ ext.flatten := List.mem_flatten.2 ⟨l, List.mem_of_getElem? hl, hv⟩
  rw [h4, List.mem_range'_1] at this
  omega

theorem polyMinExtent_out {verts : List (Vec3 F)} {n : Nat} (h : n ≤ verts.length) : Outs A (polyMinExtent o verts n) fun _ => True := by
  unfold polyMinExtent
  refine Outs.foldlM_inv (fun _ => True) _ _ trivial fun i hi m _ => ?_
  rw [List.mem_range] at hi
  rw [nextIdx_ok (by omega), bind_ok, idx_ok (by omega), bind_ok, idx_ok (by have := Nat.mod_lt (i + 1) (show 0 < n by omega); omega), bind_ok]
  exact Outs.ok trivial

theorem distToPoly_out {poly : List (Vec3 F)} (h : 1 ≤ poly.length) (p : Vec3 F) : Outs A (distToPoly o poly p) fun _ => True := by
  unfold distToPoly
  unfold subU
  rw [if_pos h, bind_ok]
  refine (Outs.foldlM_inv (fun _ => True) _ _ trivial fun ji hji st _ => ?_).bind fun st _ => Outs.ok trivial
  unfold cornerPairs at hji
  obtain ⟨i, hi, rfl⟩ := List.mem_map.1 hji
  rw [List.mem_range] at hi
  dsimp only
  rw [idx_ok hi, bind_ok, idx_ok (Nat.mod_lt _ (by omega)), bind_ok]
  exact Outs.ok trivial

theorem polyMinExtent_append (poly rest : List (Vec3 F)) : polyMinExtent o (poly ++ rest) poly.length = polyMinExtent o poly poly.length := by
  unfold polyMinExtent
  have key : ∀ (l : List Nat), (∀ i ∈ l, i < poly.length) → ∀ (x : F), (l.foldlM (fun (minDist : F) i => do
      let ni ← nextIdx i poly.length
      let p1 ← idx (poly ++ rest) i
      let p2 ← idx (poly ++ rest) ni
      let maxEdge := (((poly ++ rest).take poly.length).zipIdx).foldl (fun (m : F) (vj : Vec3 F × Nat) =>
        if vj.2 = i || vj.2 = ni then m else o.max m (distPtSeg2 o vj.1 p1 p2)) (o.lit 0)
      (.ok (o.min minDist maxEdge) : Res F)) x) = l.foldlM (fun (minDist : F) i => do
      let ni ← nextIdx i poly.length
      let p1 ← idx poly i
      let p2 ← idx poly ni
      let maxEdge := ((poly.take poly.length).zipIdx).foldl (fun (m : F) (vj : Vec3 F × Nat) =>
        if vj.2 = i || vj.2 = ni then m else o.max m (distPtSeg2 o vj.1 p1 p2)) (o.lit 0)
      (.ok (o.min minDist maxEdge) : Res F)) x := by
    intro l
    induction l with
    | nil => intro _ x; rfl
    | cons i l ih =>
      intro hl x
      have hi := hl i (by simp)
      have hm := Nat.mod_lt (i + 1) (show 0 < poly.length by omega)
      rw [List.foldlM_cons, List.foldlM_cons, nextIdx_ok (by omega), bind_ok, bind_ok, idx_ok (show i < (poly ++ rest).length by simp; omega),
        idx_ok hi, bind_ok, bind_ok, idx_ok (show (i + 1) % poly.length < (poly ++ rest).length by rw [List.length_append]; omega), idx_ok hm, bind_ok, bind_ok,
        bind_ok, bind_ok, ih (fun k hk => hl k (by simp [hk]))]
      rw [List.getElem_append_left hi, List.getElem_append_left hm, List.take_left, List.take_length]
  exact key _ (fun i hi => List.mem_range.1 hi) _

/-- A sample was taken at the grid point `g`. -/
def SampleOk (o : FloatOps F) (c : DetailConfig F) (hp : HeightPatch) (poly : List (Vec3 F)) (g : Int × Int) (s : Sample) : Prop :=
  InGrid o c hp poly g s.y ∧ s.x = asU16 g.1 ∧ s.z = asU16 g.2

theorem mem_sampleRange {a b x : Int} : x ∈ sampleRange a b ↔ a ≤ x ∧ x < b := by
  unfold sampleRange
  rw [List.mem_map]
  constructor
  · rintro ⟨k, hk, rfl⟩
    rw [List.mem_range] at hk
    omega
  · rintro ⟨h1, h2⟩
    exact ⟨(x - a).toNat, List.mem_range.2 (by omega), by omega⟩

theorem gridSamples_out {c : DetailConfig F} {hp : HeightPatch} (hH : Lookups A o c hp) {poly : List (Vec3 F)} (h1 : 1 ≤ poly.length) :
    Outs A (gridSamples o c hp poly) fun l => ∃ P, List.Forall₂ (fun g s => SampleOk o c hp poly g s ∧ s.added = false) P l ∧
      ∀ g h, InGrid o c hp poly g h → g ∈ P := by
  unfold gridSamples
  have hd : poly[0] = poly.headD (Vec3.zero o) := by
    cases poly with
    | nil => simp at h1
    | cons p l => rfl
  rw [idx_ok (show 0 < poly.length by omega), bind_ok, hd]
  dsimp only
  refine (Outs.foldlM (fun pre (l : List Sample) => ∃ P, List.Forall₂ (fun g s => SampleOk o c hp poly g s ∧ s.added = false) P l ∧
      ∀ g h, InGrid o c hp poly g h → g ∈ pre → g ∈ P) _ _ ⟨[], .nil, by simp⟩ ?_).mono ?_
  · rintro pre g post l hl ⟨P, hP, hin⟩
    have hbox : g ∈ pre ++ g :: post := by simp
    rw [← hl, List.mem_flatMap] at hbox
    obtain ⟨z, hz, hx⟩ := hbox
    obtain ⟨x, hx', rfl⟩ := List.mem_map.1 hx
    clear hx
    have hx := mem_sampleRange.1 hx'
    rw [mem_sampleRange] at hz
    unfold sampleStep
    dsimp only
    refine (distToPoly_out h1 _).self.bind ?_
    rintro d ⟨hd, _⟩
    split
    · rename_i hlt
      refine Outs.ok ⟨P, hP, fun g' h' hg hmem => ?_⟩
      rw [List.mem_append, List.mem_singleton] at hmem
      rcases hmem with hmem | rfl
      · exact hin g' h' hg hmem
      · exfalso
        obtain ⟨_, _, ⟨d', hd', hlt'⟩, _⟩ := hg
        have e := hd.symm.trans hd'
        cases e
        rw [hlt] at hlt'; cases hlt'
    · rename_i hlt
      refine (hH _).self.bind ?_
      rintro y ⟨hy, _⟩
      refine Outs.ok ⟨P ++ [(x, z)], List.rel_append hP (.cons ⟨⟨⟨hx, hz, ⟨d, hd, by simpa using hlt⟩, hy⟩, rfl, rfl⟩, rfl⟩ .nil), fun g' h' hg hmem => ?_⟩
      rw [List.mem_append, List.mem_singleton] at hmem ⊢
      exact hmem.imp_left (hin g' h' hg)
  · rintro l ⟨P, hP, hin⟩
    refine ⟨P, hP, fun g h hg => hin g h hg ?_⟩
    obtain ⟨hx, hz, _⟩ := hg
    exact List.mem_flatMap.2 ⟨g.2, mem_sampleRange.2 hz, List.mem_map.2 ⟨g.1, mem_sampleRange.2 hx, rfl⟩⟩

theorem distToTriMesh_out {p : Vec3 F} {verts : List (Vec3 F)} {tris : List DTri} (h : ∀ t ∈ tris, ∀ v ∈ Tri.corners t, v < verts.length) :
    Outs A (distToTriMesh o p verts tris) fun _ => True := by
  unfold distToTriMesh
  refine (Outs.foldlM_inv (fun _ => True) _ _ trivial fun t ht d _ => ?_).bind fun d _ => Outs.ok trivial
  have := h t ht
  simp only [Tri.corners, List.mem_cons, List.not_mem_nil, or_false, forall_eq_or_imp, forall_eq] at this
  rw [idx_ok this.1, bind_ok, idx_ok this.2.1, bind_ok, idx_ok this.2.2, bind_ok]
  exact Outs.ok trivial

/-- The triangles in the course of `build_poly_detail`; the samples are at the grid points `P`. -/
structure InnerInv (o : FloatOps F) (c : DetailConfig F) (hp : HeightPatch) (poly : List (Vec3 F)) (m : Nat) (hull : List Nat) (P : List (Int × Int))
    (st : Interior F) : Prop where
  len : st.verts.length = 256
  corners : st.verts.take poly.length = poly
  max : st.nverts ≤ 127
  outline : IsOutline o c hp st.verts poly m hull
  le : m ≤ st.nverts
  inner : ∀ (v : Nat), m ≤ v → v < st.nverts → ∃ p, st.verts[v]? = some p ∧ IsInterior o c hp poly p
  tris : ∀ t ∈ st.tris, (∀ v ∈ Tri.corners t, v < st.nverts) ∧ (Tri.corners t).Nodup
  fan : st.nverts = m → Triangulates st.tris hull
  turns : m < st.nverts → ∀ t ∈ st.tris, Turns o st.verts t
  samples : List.Forall₂ (SampleOk o c hp poly) P st.samples
  added : ∀ (i : Nat) s g, st.samples[i]? = some s → P[i]? = some g → s.added = true →
    ∃ (v : Nat), m ≤ v ∧ v < st.nverts ∧ st.verts[v]? = some (jittered o c g s.y i)

theorem InnerInv.at {c : DetailConfig F} {hp : HeightPatch} {poly : List (Vec3 F)} {m : Nat} {hull : List Nat} {P : List (Int × Int)}
    {st : Interior F} (h : InnerInv o c hp poly m hull P st) {i : Nat} {s : Sample} (hs : st.samples[i]? = some s) :
    ∃ g, P[i]? = some g ∧ SampleOk o c hp poly g s := by
  obtain ⟨hi, rfl⟩ := List.getElem?_eq_some_iff.1 hs
  have hl := h.samples.length_eq
  have := (List.forall₂_iff_get.1 h.samples).2 i (by omega) hi
  exact ⟨_, List.getElem?_eq_getElem (by omega), this⟩

theorem addSample_out {c : DetailConfig F} {hp : HeightPatch} {poly : List (Vec3 F)} (h3 : 3 ≤ poly.length) {m : Nat} {hull : List Nat} {P : List (Int × Int)}
    {st : Interior F} (h : InnerInv o c hp poly m hull P st) (hlt : st.nverts < 127) {b : BestSample F} {i : Nat} {s : Sample} {g : Int × Int}
    (hs : st.samples[i]? = some s) (hg : P[i]? = some g) (hb : b.pt = jittered o c g s.y i) :
    Outs A (addSample o hull st b i) fun st' => InnerInv o c hp poly m hull P st' ∧ st'.samples = st.samples.set i { s with added := true } := by
  have hperm := outline_perm h.outline
  obtain ⟨hi, hsi⟩ := List.getElem?_eq_some_iff.1 hs
  obtain ⟨g', hg', hok⟩ := h.at hs
  rw [hg] at hg'; cases hg'
  have hint : IsInterior o c hp poly b.pt := ⟨g, s.y, i, hok.1, hb⟩
  obtain ⟨_, _, _, hpm, _⟩ := h.outline
  unfold addSample
  rw [idx_some hs, bind_ok, setIdx_ok hi, bind_ok, setIdx_ok (by have := h.len; omega), bind_ok]
  refine (delaunayHull_out (A := A) (o := o) (pts := st.verts.set st.nverts b.pt) (npts := st.nverts + 1) (hull := hull) ?_ (by omega) ?_ ?_ ?_).bind ?_
  · rw [List.length_set, h.len]; omega
  · rw [hperm.length_eq, List.length_range]; omega
  · exact hperm.nodup_iff.2 List.nodup_range
  · intro v hv
    have := List.mem_range.1 (hperm.mem_iff.1 hv)
    have := h.le; omega
  intro T hT
  have hle := h.le
  refine Outs.ok ⟨⟨by simpa using h.len, ?_, ?_, ?_, ?_, ?_, ?_, ?_, ?_, ?_, ?_⟩, rfl⟩
  · dsimp only
    rw [List.take_set_of_le (by omega)]
    exact h.corners
  · dsimp only; omega
  · refine outline_mono h.outline fun v hv => ?_
    dsimp only
    rw [List.getElem?_set_ne (by omega)]
  · dsimp only; omega
  · intro v hv1 hv2
    dsimp only at hv2 ⊢
    rcases Nat.lt_or_ge v st.nverts with hv | hv
    · rw [List.getElem?_set_ne (by omega)]
      exact h.inner v hv1 hv
    · have : v = st.nverts := by omega
      subst this
      rw [List.getElem?_set_self (by have := h.len; omega)]
      exact ⟨_, rfl, hint⟩
  · intro t ht
    exact ⟨(hT t ht).1, (hT t ht).2.1⟩
  · dsimp only; intro he; omega
  · intro _ t ht
    exact (hT t ht).2.2
  · dsimp only
    have hf := h.samples
    rw [List.forall₂_iff_get] at hf ⊢
    refine ⟨by rw [List.length_set]; exact hf.1, fun k hk hk' => ?_⟩
    rw [List.length_set] at hk'
    have := hf.2 k hk hk'
    simp only [List.get_eq_getElem, List.getElem_set] at this ⊢
    split
    · rename_i hik
      subst hik
      rw [hsi] at this
      exact this
    · exact this
  · intro k s' g' hk hg' ha
    dsimp only at hk ⊢
    by_cases hik : i = k
    · subst hik
      rw [List.getElem?_set_self hi] at hk; cases hk
      rw [hg] at hg'; cases hg'
      refine ⟨st.nverts, hle, by omega, ?_⟩
      rw [List.getElem?_set_self (by have := h.len; omega), hb]
    · rw [List.getElem?_set_ne hik] at hk
      obtain ⟨v, h1, h2, h4⟩ := h.added k s' g' hk hg' ha
      exact ⟨v, h1, by omega, by rw [List.getElem?_set_ne (by omega)]; exact h4⟩

/-- The search for the worst sample, after `pre`. -/
structure BestOk (o : FloatOps F) (c : DetailConfig F) (st : Interior F) (P : List (Int × Int)) (pre : List (Sample × Nat)) (b : BestSample F) : Prop where
  found : ∀ i, b.i = some i → ∃ s g, st.samples[i]? = some s ∧ P[i]? = some g ∧ s.added = false ∧ b.pt = jittered o c g s.y i
  start : b.i = none → b.d = o.lit 0
  max : FloatOrder o → ∀ s i g, (s, i) ∈ pre → P[i]? = some g → s.added = false →
    ∀ e, distToTriMesh o (jittered o c g s.y i) st.verts st.tris = .ok (some e) → o.lt b.d e = false

/-- All samples are close to the triangles. -/
def SamplesFine (o : FloatOps F) (c : DetailConfig F) (P : List (Int × Int)) (st : Interior F) : Prop :=
  st.nverts < 127 → FloatOrder o → ∀ (i : Nat) s g, st.samples[i]? = some s → P[i]? = some g → s.added = true ∨
    ∀ e, distToTriMesh o (jittered o c g s.y i) st.verts st.tris = .ok (some e) →
      ¬ (o.lt (o.lit 0) e = true ∧ o.lt c.sampleMaxError e = true)

theorem countP_set_le {l : List Sample} {i : Nat} {s : Sample} (hs : l[i]? = some s) (ha : s.added = false) :
    (l.set i { s with added := true }).countP (fun s => !s.added) + 1 = l.countP (fun s => !s.added) := by
  induction l generalizing i with
  | nil => simp at hs
  | cons x l ih =>
    cases i with
    | zero =>
      simp only [List.getElem?_cons_zero, Option.some.injEq] at hs
      subst hs
      rw [List.set_cons_zero, List.countP_cons, List.countP_cons, ha]
      simp
    | succ i =>
      rw [List.getElem?_cons_succ] at hs
      rw [List.set_cons_succ, List.countP_cons, List.countP_cons, ← ih hs]
      omega

theorem addSamples_out {c : DetailConfig F} {hp : HeightPatch} {poly : List (Vec3 F)} (h3 : 3 ≤ poly.length) {m : Nat} {hull : List Nat}
    {P : List (Int × Int)} :
    ∀ (n : Nat) (st : Interior F), InnerInv o c hp poly m hull P st → st.samples.countP (fun s => !s.added) ≤ n →
      Outs A (addSamples o c hull n st) fun st => InnerInv o c hp poly m hull P st ∧ SamplesFine o c P st := by
  intro n
  induction n with
  | zero =>
    intro st h hc
    refine Outs.ok ⟨h, fun _ _ i s g hs _ => Or.inl ?_⟩
    have := List.countP_eq_zero.1 (Nat.le_zero.1 hc) s (List.mem_of_getElem? hs)
    simpa using this
  | succ n ih =>
    intro st h hc
    unfold addSamples
    have e2 : MAX_SUBMESH_VERTS = 127 := rfl
    split
    · exact Outs.ok ⟨h, fun hlt => by omega⟩
    · rename_i hlt
      refine (Outs.foldlM (BestOk o c st P) _ _ ⟨fun i hi => (by cases hi), fun _ => rfl, fun _ s i g hm => by simp at hm⟩ ?_).bind ?_
      · rintro pre ⟨s, i⟩ post b hl hb
        have hmem : (s, i) ∈ st.samples.zipIdx := by rw [hl]; simp
        have hget : st.samples[i]? = some s := List.mem_zipIdx_iff_getElem?.1 hmem
        clear hmem
        obtain ⟨g, hg, hok⟩ := h.at hget
        have hpt : (⟨o.add (o.mul (o.ofInt s.x) c.sampleDist) (o.mul (o.mul (jitter o 0x8da6b343 i) c.chfCellSize) (o.lit (1 / 10))),
            o.mul (o.ofInt s.y) c.chfCellHeight,
            o.add (o.mul (o.ofInt s.z) c.sampleDist) (o.mul (o.mul (jitter o 0xd8163841 i) c.chfCellSize) (o.lit (1 / 10)))⟩ : Vec3 F) =
            jittered o c g s.y i := by
          unfold jittered
          rw [hok.2.1, hok.2.2]
        unfold sampleError
        dsimp only
        rw [hpt]
        split
        · rename_i ha
          refine Outs.ok ⟨hb.found, hb.start, fun ho s' i' g' hm hg' ha' => ?_⟩
          rw [List.mem_append, List.mem_singleton] at hm
          rcases hm with hm | hm
          · exact hb.max ho s' i' g' hm hg' ha'
          · cases hm
            rw [ha] at ha'; cases ha'
        · rename_i ha
          refine (distToTriMesh_out fun t ht v hv => ?_).self.bind ?_
          · have := (h.tris t ht).1 v hv
            have := h.len; have := h.max; omega
          rintro d ⟨hd, _⟩
          split
          · refine Outs.ok ⟨hb.found, hb.start, fun ho s' i' g' hm hg' ha' e he => ?_⟩
            rw [List.mem_append, List.mem_singleton] at hm
            rcases hm with hm | hm
            · exact hb.max ho s' i' g' hm hg' ha' e he
            · cases hm
              rw [hg] at hg'; cases hg'
              rw [hd] at he; cases he
          · rename_i d
            split
            · rename_i hlt'
              refine Outs.ok ⟨?_, fun hn => (by cases hn), fun ho s' i' g' hm hg' ha' e he => ?_⟩
              · intro k hk
                cases hk
                exact ⟨s, g, hget, hg, by simpa using ha, rfl⟩
              · rw [List.mem_append, List.mem_singleton] at hm
                rw [Bool.eq_false_iff]
                intro hc
                rcases hm with hm | hm
                · have := hb.max ho s' i' g' hm hg' ha' e he
                  rw [ho.trans _ _ _ hlt' hc] at this; cases this
                · cases hm
                  rw [hg] at hg'; cases hg'
                  rw [hd] at he; cases he
                  rw [ho.irrefl] at hc; cases hc
            · rename_i hlt'
              refine Outs.ok ⟨hb.found, hb.start, fun ho s' i' g' hm hg' ha' e he => ?_⟩
              rw [List.mem_append, List.mem_singleton] at hm
              rcases hm with hm | hm
              · exact hb.max ho s' i' g' hm hg' ha' e he
              · cases hm
                rw [hg] at hg'; cases hg'
                rw [hd] at he; cases he
                simpa using hlt'
      · intro b hb
        have hzip : ∀ (i : Nat) s, st.samples[i]? = some s → (s, i) ∈ st.samples.zipIdx := fun i s hs => List.mem_zipIdx_iff_getElem?.2 hs
        split
        · rename_i hle
          refine Outs.ok ⟨h, fun _ ho i s g hs hg => ?_⟩
          cases ha : s.added with
          | true => exact Or.inl rfl
          | false =>
            refine Or.inr fun e he ⟨_, hc2⟩ => ?_
            have := hb.max ho s i g (hzip i s hs) hg ha e he
            rcases ho.split _ b.d _ hc2 with hx | hx
            · rw [(ho.le_iff _ _).1 hle] at hx; cases hx
            · rw [this] at hx; cases hx
        · split
          · rename_i hn
            refine Outs.ok ⟨h, fun _ ho i s g hs hg => ?_⟩
            cases ha : s.added with
            | true => exact Or.inl rfl
            | false =>
              refine Or.inr fun e he ⟨hc1, _⟩ => ?_
              have := hb.max ho s i g (hzip i s hs) hg ha e he
              rw [hb.start hn, hc1] at this; cases this
          · rename_i i hi
            obtain ⟨s, g, hs, hg, ha, hpt⟩ := hb.found i hi
            refine (addSample_out h3 h (by omega) hs hg hpt).bind ?_
            rintro st' ⟨h', hs'⟩
            refine ih st' h' ?_
            rw [hs']
            have := countP_set_le hs ha
            omega

theorem gridClose_of {c : DetailConfig F} {hp : HeightPatch} {poly : List (Vec3 F)} {m : Nat} {hull : List Nat} {P : List (Int × Int)}
    {st : Interior F} (h : InnerInv o c hp poly m hull P st) (hf : SamplesFine o c P st) (hlt : st.nverts < 127)
    (hin : ∀ g h, InGrid o c hp poly g h → g ∈ P) : GridClose o c hp poly st.verts m st.nverts st.tris := by
  intro ho
  refine ⟨fun g => P.idxOf g, fun g h' g' h'' h1 h2 he => ?_, fun g y hg => ?_⟩
  · have e1 := List.getElem_idxOf (List.idxOf_lt_length_of_mem (hin g h' h1))
    have e2 := List.getElem_idxOf (List.idxOf_lt_length_of_mem (hin g' h'' h2))
    rw [← e1, ← e2]
    congr 1
  · have hlt' := List.idxOf_lt_length_of_mem (hin g y hg)
    have e1 : P[P.idxOf g]? = some g := by rw [List.getElem?_eq_getElem hlt', List.getElem_idxOf]
    have hl := h.samples.length_eq
    have hs := List.getElem?_eq_getElem (show P.idxOf g < st.samples.length by omega)
    generalize st.samples[P.idxOf g] = s at hs
    obtain ⟨g', hg', hok⟩ := h.at hs
    rw [e1] at hg'; cases hg'
    have hy : s.y = y := by
      have h1 := hok.1.2.2.2
      rw [hg.2.2.2] at h1; cases h1; rfl
    subst hy
    rcases hf hlt ho _ s g hs e1 with ha | he
    · exact Or.inl (h.added _ s g hs e1 ha)
    · exact Or.inr he

/-- `build_poly_detail` builds a proper sub-mesh. -/
theorem buildPolyDetail_out {c : DetailConfig F} {hp : HeightPatch} (hH : Lookups A o c hp) {poly : List (Vec3 F)} (hst : StepsOk o c poly)
    (hsd : o.lt (o.lit 0) c.sampleDist = true) (h3 : 3 ≤ poly.length) (hmax : poly.length ≤ 126) {verts : List (Vec3 F)} (hlen : verts.length = 256) :
    Outs A (buildPolyDetail o c hp poly verts) (IsSubMesh o c hp poly) := by
  unfold buildPolyDetail
  rw [if_pos (by omega), bind_ok]
  have hl : (poly ++ verts.drop poly.length).length = 256 := by simp [hlen]; omega
  dsimp only
  rw [polyMinExtent_append]
  refine (polyMinExtent_out (le_refl _)).self.bind ?_
  rintro ext ⟨hext, _⟩
  refine (tessellate_out hH hst hsd (by omega) hmax hl (by simp)).bind ?_
  rintro ⟨tv, tn, th⟩ ht
  have htl := ht.len; have htc := ht.corners; have htn := ht.nin; have htm := ht.max
  dsimp only at htl htc htn htm
  have hout : IsOutline o c hp tv poly tn th := by
    obtain ⟨e, e1, e2, e3, e4⟩ := ht.ext
    exact ⟨e, e1, e2, htn, e3, e4⟩
  have hperm := outline_perm hout
  have hhl : th.length = tn := by rw [hperm.length_eq, List.length_range]
  have hlt : ∀ v ∈ th, v < tn := fun v hv => List.mem_range.1 (hperm.mem_iff.1 hv)
  have hlt' : ∀ v ∈ th, v < th.length := by rw [hhl]; exact hlt
  have hnd : th.Nodup := hperm.nodup_iff.2 List.nodup_range
  dsimp only
  refine (triangulateHull_out (A := A) (o := o) (verts := tv) (hull := th) (fun v hv => by have := hlt v hv; omega) (by omega) poly.length).bind ?_
  intro tris hT
  have htris : ∀ t ∈ tris, (∀ v ∈ Tri.corners t, v < tn) ∧ (Tri.corners t).Nodup := by
    intro t ht
    have := hT.order t ht
    exact ⟨fun v hv => hlt v (this.mem hv), this.nodup hnd⟩
  split
  · rename_i hnarrow
    refine (setTriFlags_out hlt' tris).bind fun flags hf => ?_
    refine Outs.ok ⟨htl, htc, by dsimp only; omega, ?_, htris, th, tn, hout, le_refl _, ?_, hf, fun _ => hT, ?_, Or.inl ⟨ext, hext, hnarrow⟩, fun _ _ _ => rfl⟩
    · have := hT.count; dsimp only; omega
    · intro v h1 h2; dsimp only at h2; omega
    · intro h; dsimp only at h; omega
  · rename_i hwide
    split
    · rename_i he
      exfalso
      have := hT.count
      rw [List.isEmpty_iff] at he
      subst he
      simp at this; omega
    · have hint : Outs A (interior o c hp poly ⟨tv, tn, th⟩ tris) fun st => ∃ P, InnerInv o c hp poly tn th P st ∧ SamplesFine o c P st ∧
          ∀ g h, InGrid o c hp poly g h → g ∈ P := by
        unfold interior
        rw [if_pos hsd]
        refine (gridSamples_out hH (by omega)).bind ?_
        rintro l ⟨P, hP, hin⟩
        have h0 : InnerInv o c hp poly tn th P ⟨tv, tn, tris, l⟩ := by
          refine ⟨htl, htc, by dsimp only; omega, hout, le_refl _, ?_, htris, fun _ => hT, ?_, hP.imp fun _ _ h => h.1, ?_⟩
          · intro v h1 h2; dsimp only at h2; omega
          · intro h; dsimp only at h; omega
          · intro i s g hs hg ha
            dsimp only at hs
            exfalso
            obtain ⟨hi, rfl⟩ := List.getElem?_eq_some_iff.1 hs
            have := ((List.forall₂_iff_get.1 hP).2 i (by rw [hP.length_eq]; exact hi) hi).2
            rw [List.get_eq_getElem, ha] at this; cases this
        exact (addSamples_out h3 _ _ h0 List.countP_le_length).mono fun st h => ⟨P, h.1, h.2, hin⟩
      refine hint.bind ?_
      rintro r ⟨P, hr, hfine, hin⟩
      refine (setTriFlags_out hlt' _).bind fun flags hf => ?_
      refine Outs.ok ⟨hr.len, hr.corners, hr.max, ?_, ?_, th, tn, hr.outline, hr.le, hr.inner, hf, ?_, ?_, Or.inr fun h1 h2 => ?_, fun ext' h1 h2 => ?_⟩
      · dsimp only
        rw [List.length_take]; unfold MAX_SUBMESH_TRIS; omega
      · intro t ht
        exact hr.tris t (List.mem_of_mem_take ht)
      · intro he
        have := hr.fan he
        dsimp only
        rw [List.take_of_length_le]
        · exact this
        · rw [this.count]; unfold MAX_SUBMESH_TRIS; omega
      · intro h t ht
        exact hr.turns h t (List.mem_of_mem_take ht)
      · dsimp only at h1 h2 ⊢
        have e : r.tris.take MAX_SUBMESH_TRIS = r.tris := by
          apply List.take_of_length_le
          rw [List.length_take] at h2
          unfold MAX_SUBMESH_TRIS at h2 ⊢; omega
        rw [e]
        exact gridClose_of hr hfine h1 hin
      · rw [hext] at h1
        injection h1 with e
        subst e
        exact absurd h2 hwide

end Rerecast
