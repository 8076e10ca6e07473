import Verif.Lemmas.BuildMesh
/-! Adjacency of polygons. -/
set_option linter.unusedVariables false
namespace Rerecast
variable {A : Fault → Prop}

/-- Polygons that fit in slots of `nvp` entries, of vertices below `nv`. -/
structure PolysFit (nvp nv : Nat) (polys : List (List Nat)) : Prop where
  nv_le : nv ≤ 65535
  nvp_le : nvp ≤ 65535
  n_le : polys.length ≤ 65535
  len : ∀ p ∈ polys, 3 ≤ p.length ∧ p.length ≤ nvp
  lt : ∀ p ∈ polys, ∀ v ∈ p, v < nv

/-- Side `j` of polygon `i`. -/
def dart (polys : List (List Nat)) (d : Nat × Nat) : Option (Nat × Nat) := polys[d.1]?.bind fun p => (sides p)[d.2]?

theorem dart_some {polys : List (List Nat)} {d : Nat × Nat} {e : Nat × Nat} :
    dart polys d = some e ↔ ∃ p, polys[d.1]? = some p ∧ (sides p)[d.2]? = some e := by
  unfold dart; rw [Option.bind_eq_some_iff]

theorem count_pad {nvp : Nat} {p : List Nat} (hl : p.length ≤ nvp) (hp : ∀ v ∈ p, v < 65535) : countPolyVerts nvp (pad nvp p) = p.length := by
  unfold countPolyVerts pad
  have ht : (p ++ List.replicate (nvp - p.length) NO_INDEX).take nvp = p ++ List.replicate (nvp - p.length) NO_INDEX :=
    List.take_of_length_le (by simp; omega)
  rw [ht, List.findIdx?_append]
  have h1 : p.findIdx? (fun x => decide (x = NO_INDEX)) = none := by
    rw [List.findIdx?_eq_none_iff]
    intro x hx
    have := hp x hx
    exact decide_eq_false (by unfold NO_INDEX; omega)
  rw [h1]
  cases hk : nvp - p.length with
  | zero => simp; omega
  | succ k => simp [List.replicate_succ, List.findIdx?_cons]

theorem edgeEnd_pad {nvp : Nat} {p : List Nat} (h1 : 1 ≤ p.length) (hl : p.length ≤ nvp) (hp : ∀ v ∈ p, v < 65535) {j : Nat} (hj : j < p.length) :
    edgeEnd nvp (pad nvp p) j = .ok (p[(j + 1) % p.length]'(Nat.mod_lt _ (by omega))) := by
  have hpl : (pad nvp p).length = nvp := by unfold pad; simp; omega
  have h0 : idx (pad nvp p) 0 = .ok p[0] := by
    refine idx_some ?_
    unfold pad
    rw [List.getElem?_append_left (by omega), List.getElem?_eq_getElem (by omega)]
  unfold edgeEnd
  rcases Nat.lt_or_ge (j + 1) p.length with hlt | hge
  · have e : (j + 1) % p.length = j + 1 := Nat.mod_eq_of_lt hlt
    rw [if_neg (by omega)]
    have : idx (pad nvp p) (j + 1) = .ok p[j + 1] := by
      refine idx_some ?_
      unfold pad
      rw [List.getElem?_append_left (by omega), List.getElem?_eq_getElem (by omega)]
    rw [this, bind_ok, if_neg (by have := hp _ (List.getElem_mem hlt); unfold NO_INDEX; omega)]
    simp only [e]
  · have e : (j + 1) % p.length = 0 := by rw [show j + 1 = p.length by omega, Nat.mod_self]
    simp only [e]
    split
    · exact h0
    · rename_i hn
      have : idx (pad nvp p) (j + 1) = .ok NO_INDEX := by
        refine idx_some ?_
        unfold pad
        rw [List.getElem?_append_right (by omega), List.getElem?_replicate, if_pos (by omega)]
      rw [this, bind_ok, if_pos rfl]
      exact h0

/-- One entry of the loops. -/
def entryOf (nvp : Nat) (polys : List (List Nat)) (e : Nat × List Nat × Nat) : Prop :=
  ∃ p, polys[e.1]? = some p ∧ e.2.1 = pad nvp p ∧ e.2.2 < p.length

theorem polyEntries_spec {nvp nv : Nat} {polys : List (List Nat)} (h : PolysFit nvp nv polys) :
    (∀ e ∈ polyEntries nvp (polys.map (polySlot nvp)), entryOf nvp polys e) ∧
    ((polyEntries nvp (polys.map (polySlot nvp))).map fun e => (e.1, e.2.2)).Nodup ∧
    (∀ (i j : Nat) (p : List Nat), polys[i]? = some p → j < p.length → (i, pad nvp p, j) ∈ polyEntries nvp (polys.map (polySlot nvp))) ∧
    (polyEntries nvp (polys.map (polySlot nvp))).length = (polys.map List.length).sum := by
  have hcount : ∀ p ∈ polys, countPolyVerts nvp (pad nvp p) = p.length := fun p hp =>
    count_pad (h.len p hp).2 fun v hv => by have := h.lt p hp v hv; have := h.nv_le; omega
  have e : polyEntries nvp (polys.map (polySlot nvp)) = polys.zipIdx.flatMap fun s => (List.range s.1.length).map fun j => (s.2, pad nvp s.1, j) := by
    unfold polyEntries
    rw [List.zipIdx_map, List.flatMap_map]
    refine List.flatMap_congr fun s hs => ?_
    have : s.1 ∈ polys := by
      have := List.mem_zipIdx' hs
      rw [this.2]; exact List.getElem_mem _
    show (List.range (countPolyVerts nvp (pad nvp s.1))).map _ = _
    rw [hcount _ this]
    rfl
  rw [e]
  refine ⟨?_, ?_, ?_, ?_⟩
  · intro x hx
    rw [List.mem_flatMap] at hx
    obtain ⟨s, hs, hx⟩ := hx
    obtain ⟨j, hj, rfl⟩ := List.mem_map.1 hx
    have hs' := List.mem_zipIdx_iff_getElem?.1 hs
    exact ⟨s.1, hs', rfl, by simpa using hj⟩
  · rw [List.map_flatMap, List.nodup_flatMap]
    refine ⟨?_, ?_⟩
    · intro s hs
      rw [List.map_map]
      refine List.Nodup.map_on ?_ List.nodup_range
      intro a _ b _ hab
      simpa using hab
    · have : (polys.zipIdx.map Prod.snd).Nodup := by
        rw [List.zipIdx_map_snd]; exact List.nodup_range'
      rw [List.Nodup, List.pairwise_map] at this
      refine this.imp ?_
      intro s t hst x hx hy
      obtain ⟨a, ha, rfl⟩ := List.mem_map.1 hx
      obtain ⟨b, hb, hab⟩ := List.mem_map.1 hy
      obtain ⟨j, _, rfl⟩ := List.mem_map.1 ha
      obtain ⟨k, _, rfl⟩ := List.mem_map.1 hb
      simp only [Prod.mk.injEq] at hab
      exact hst hab.1.symm
  · intro i j p hp hj
    rw [List.mem_flatMap]
    exact ⟨(p, i), List.mem_zipIdx_iff_getElem?.2 hp, List.mem_map.2 ⟨j, by simpa using hj, rfl⟩⟩
  · rw [List.length_flatMap]
    congr 1
    have : polys.zipIdx.map (fun s => ((List.range s.1.length).map fun j => (s.2, pad nvp s.1, j)).length) = (polys.zipIdx.map Prod.fst).map List.length := by
      rw [List.map_map]; refine List.map_congr_left fun s _ => ?_; simp
    rw [this, List.zipIdx_map_fst]

theorem sum_len_le {nvp : Nat} {polys : List (List Nat)} (h : ∀ p ∈ polys, p.length ≤ nvp) : (polys.map List.length).sum ≤ polys.length * nvp := by
  induction polys with
  | nil => simp
  | cons p ps ih =>
    have h1 := h p (by simp)
    have h2 := ih fun p hp => h p (by simp [hp])
    rw [List.map_cons, List.sum_cons, List.length_cons, Nat.add_mul]
    omega

/-! ### collecting -/

/-- Edge `e` is on the chain starting at `o`. -/
inductive EReach (first : List Nat) (nv : Nat) : Nat → Nat → Prop
  | here {e : Nat} (h : e ≠ NO_INDEX) : EReach first nv e e
  | next {e f n : Nat} (h : e ≠ NO_INDEX) (hn : first[nv + e]? = some n) (r : EReach first nv n f) : EReach first nv e f

/-- What the first loop has collected from the entries `pre`. -/
structure Collected (nv cap : Nat) (polys : List (List Nat)) (pre : List (Nat × List Nat × Nat)) (t : EdgeTable) : Prop where
  len : t.first.length = nv + cap
  count : t.edges.length ≤ pre.length
  head : ∀ v n : Nat, v < nv → t.first[v]? = some n → n = NO_INDEX ∨ n < t.edges.length
  tail : ∀ e n : Nat, e < t.edges.length → t.first[nv + e]? = some n → n = NO_INDEX ∨ n < e
  edge : ∀ ed ∈ t.edges, dart polys (ed.poly0, ed.edge0) = some (ed.v0, ed.v1) ∧ ed.v0 < ed.v1 ∧ ed.poly1 = ed.poly0 ∧
    (ed.poly0, ed.edge0) ∈ pre.map fun e => (e.1, e.2.2)
  distinct : (t.edges.map fun ed => (ed.poly0, ed.edge0)).Nodup
  complete : ∀ d ∈ pre.map fun e => (e.1, e.2.2), ∀ v0 v1, dart polys d = some (v0, v1) → v0 < v1 →
    ∃ ed ∈ t.edges, (ed.poly0, ed.edge0) = d
  chain : pre.length ≤ 65535 → ∀ (e : Nat) (ed : MeshEdge), t.edges[e]? = some ed →
    ∃ n, t.first[ed.v0]? = some n ∧ EReach t.first nv n e
  headv : pre.length ≤ 65535 → ∀ (v n : Nat) (ed : MeshEdge), v < nv → t.first[v]? = some n → t.edges[n]? = some ed → ed.v0 = v
  tailv : pre.length ≤ 65535 → ∀ (e n : Nat) (ed ed' : MeshEdge), t.edges[e]? = some ed → t.first[nv + e]? = some n →
    t.edges[n]? = some ed' → ed'.v0 = ed.v0

theorem EReach.mono {first first' : List Nat} {nv : Nat} {bound : Nat} (hs : ∀ e n : Nat, e < bound → first[nv + e]? = some n → first'[nv + e]? = some n) {s e : Nat} (hb : s < bound)
    (hd : ∀ e n : Nat, e < bound → first[nv + e]? = some n → n = NO_INDEX ∨ n < e)
    (r : EReach first nv s e) : EReach first' nv s e := by
  induction r with
  | here h => exact .here h
  | @next a f n h hn r ih =>
    refine .next h (hs a n hb hn) (ih ?_)
    rcases hd a n hb hn with h0 | h0
    · cases r with
      | here h' => exact absurd h0 h'
      | next h' _ _ => exact absurd h0 h'
    · omega

theorem collect_out {nvp nv : Nat} {polys : List (List Nat)} (h : PolysFit nvp nv polys) :
    Outs A ((polyEntries nvp (polys.map (polySlot nvp))).foldlM (fun t e => collectEdge nvp nv e.1 e.2.1 t e.2.2)
      ⟨[], List.replicate (nv + (polys.map (polySlot nvp)).length * nvp) NO_INDEX⟩)
      (Collected nv (polys.length * nvp) polys (polyEntries nvp (polys.map (polySlot nvp)))) := by
  obtain ⟨s1, s2, s3, s4⟩ := polyEntries_spec h
  have s5 := sum_len_le fun p hp => (h.len p hp).2
  generalize polyEntries nvp (polys.map (polySlot nvp)) = es at *
  refine Outs.foldlM (Collected nv (polys.length * nvp) polys) es _ ?_ ?_
  · refine ⟨by simp, by simp, ?_, by simp, by simp, by simp, by simp, by simp, by simp, by simp⟩
    intro v n _ hv
    dsimp only at hv
    rw [List.getElem?_replicate] at hv
    split at hv
    · injection hv with hv; exact Or.inl hv.symm
    · simp at hv
  · rintro pre ⟨i, q, j⟩ post t hl hc
    have hll := congrArg List.length hl
    simp only [List.length_append, List.length_cons] at hll
    obtain ⟨p, hp, rfl, hj⟩ := s1 (i, q, j) (by rw [hl]; simp)
    dsimp only at hp hj ⊢
    have hpm := List.mem_of_getElem? hp
    have hlen := h.len p hpm
    have hlt : ∀ v ∈ p, v < 65535 := fun v hv => by have := h.lt p hpm v hv; have := h.nv_le; omega
    have hi : i < polys.length := (List.getElem?_eq_some_iff.1 hp).1
    have hn : (i, j) ∉ pre.map fun e => (e.1, e.2.2) := by
      rw [hl, List.map_append, List.map_cons, List.nodup_append] at s2
      intro hm
      exact s2.2.2 _ hm _ (by simp) rfl
    have hmod1 : (j + 1) % p.length < p.length := Nat.mod_lt _ (by omega)
    have hd : dart polys (i, j) = some (p[j], p[(j + 1) % p.length]) := dart_some.2 ⟨p, hp, sides_getElem? p j hj⟩
    unfold collectEdge
    have hpj : idx (pad nvp p) j = .ok p[j] := by
      refine idx_some ?_
      unfold pad
      rw [List.getElem?_append_left hj, List.getElem?_eq_getElem hj]
    rw [hpj, bind_ok, edgeEnd_pad (by omega) hlen.2 hlt hj, bind_ok]
    generalize hv0 : p[j] = v0 at *
    generalize hv1 : p[(j + 1) % p.length] = v1 at *
    have hv0n : v0 < nv := by rw [← hv0]; exact h.lt p hpm _ (List.getElem_mem _)
    split
    · rename_i hlt01
      have hec := hc.count
      have hf0 : v0 < t.first.length := by rw [hc.len]; omega
      have hfe : nv + t.edges.length < t.first.length := by rw [hc.len]; omega
      rw [idx_ok hf0, bind_ok, setIdx_ok hfe, bind_ok, setIdx_ok (by simpa using hf0), bind_ok]
      have hie : i % 65536 = i := Nat.mod_eq_of_lt (by have := h.n_le; omega)
      have hje : j % 65536 = j := Nat.mod_eq_of_lt (by have := h.nvp_le; omega)
      rw [hie, hje]
      have hold : t.first[v0]? = some t.first[v0] := List.getElem?_eq_getElem hf0
      refine Outs.ok ⟨by simp [hc.len], by simp; omega, ?_, ?_, ?_, ?_, ?_, ?_, ?_, ?_⟩
      · intro v n hv hn'
        dsimp only at hn' ⊢
        rw [List.length_append, List.length_singleton]
        rw [List.getElem?_set] at hn'
        split at hn'
        · have hmod := Nat.mod_le t.edges.length 65536
          split at hn'
          · injection hn' with hn'; omega
          · simp at hn'
        · rw [List.getElem?_set_ne (by omega)] at hn'
          rcases hc.head v n hv hn' with h0 | h0
          · exact Or.inl h0
          · omega
      · intro e n he hn'
        dsimp only at hn' he
        rw [List.length_append, List.length_singleton] at he
        rw [List.getElem?_set_ne (by omega), List.getElem?_set] at hn'
        split at hn'
        · rename_i hee
          have hee : t.edges.length = e := by omega
          have hn'' : t.first[v0] = n := by
            first
              | exact Option.some.inj hn'
              | (split at hn'
                 · exact Option.some.inj hn'
                 · simp at hn')
          rcases hc.head v0 _ hv0n hold with h0 | h0
          · left; rw [← hn'', h0]
          · right; omega
        · rename_i hee
          exact hc.tail e n (by omega) hn'
      · intro ed hed
        dsimp only at hed
        rw [List.mem_append, List.mem_singleton] at hed
        rcases hed with hed | rfl
        · obtain ⟨a, b, c, d⟩ := hc.edge ed hed
          exact ⟨a, b, c, by rw [List.map_append]; exact List.mem_append_left _ d⟩
        · exact ⟨hd, hlt01, rfl, by simp⟩
      · dsimp only
        rw [List.map_append, List.map_singleton, List.nodup_append]
        refine ⟨hc.distinct, by simp, ?_⟩
        intro a ha b hb hab
        rw [List.mem_singleton] at hb
        obtain ⟨ed, hed, rfl⟩ := List.mem_map.1 ha
        have := (hc.edge ed hed).2.2.2
        rw [hab, hb] at this
        exact hn this
      · intro d hd' a b hda hab
        dsimp only
        rw [List.map_append, List.mem_append] at hd'
        rcases hd' with hd' | hd'
        · obtain ⟨ed, hed, he⟩ := hc.complete d hd' a b hda hab
          exact ⟨ed, by simp [hed], he⟩
        · simp only [List.map_cons, List.map_nil, List.mem_singleton] at hd'
          exact ⟨⟨v0, v1, i, j, i, 0⟩, by simp, hd'.symm⟩
      · intro hfew e ed hed
        rw [List.length_append, List.length_singleton] at hfew
        have hee : t.edges.length % 65536 = t.edges.length := Nat.mod_eq_of_lt (by omega)
        have hno : t.edges.length ≠ NO_INDEX := by unfold NO_INDEX; omega
        dsimp only at hed ⊢
        rw [hee]
        -- chains of the old table survive
        have old : ∀ (s e : Nat), s < t.edges.length → EReach t.first nv s e →
            EReach ((t.first.set (nv + t.edges.length) t.first[v0]).set v0 t.edges.length) nv s e := by
          intro s e hs r
          refine EReach.mono (bound := t.edges.length) (first := t.first) ?_ hs (fun e n he hn' => hc.tail e n he hn') r
          · intro e n he hn'
            rw [List.getElem?_set_ne (by omega), List.getElem?_set_ne (by omega)]
            exact hn'
        rw [List.getElem?_append] at hed
        split at hed
        · rename_i he
          obtain ⟨n, hn1, hr⟩ := hc.chain (by omega) e ed hed
          have hv : ed.v0 < nv := by
            obtain ⟨a, _⟩ := hc.edge ed (List.mem_of_getElem? hed)
            obtain ⟨p', hp', hs'⟩ := dart_some.1 a
            exact h.lt p' (List.mem_of_getElem? hp') _ (mem_sides (List.mem_of_getElem? hs')).1
          by_cases hveq : ed.v0 = v0
          · refine ⟨t.edges.length, ?_, ?_⟩
            · rw [hveq, List.getElem?_set_self (by simpa using hf0)]
            · refine .next hno (n := t.first[v0]) ?_ ?_
              · rw [List.getElem?_set_ne (by omega), List.getElem?_set_self hfe]
              · rw [hveq, hold] at hn1
                injection hn1 with hn1
                subst hn1
                refine old _ e ?_ hr
                rcases hc.head v0 _ hv0n hold with h0 | h0
                · cases hr with
                  | here h' => exact absurd h0 h'
                  | next h' _ _ => exact absurd h0 h'
                · exact h0
          · refine ⟨n, ?_, ?_⟩
            · rw [List.getElem?_set_ne (by omega), List.getElem?_set_ne (by omega)]; exact hn1
            · refine old n e ?_ hr
              rcases hc.head _ n hv hn1 with h0 | h0
              · cases hr with
                | here h' => exact absurd h0 h'
                | next h' _ _ => exact absurd h0 h'
              · exact h0
        · rename_i he
          have hel : e = t.edges.length := by
            have := (List.getElem?_eq_some_iff.1 hed).1
            simp at this; omega
          subst hel
          simp only [Nat.sub_self, List.getElem?_cons_zero, Option.some.injEq] at hed
          subst hed
          exact ⟨t.edges.length, by rw [List.getElem?_set_self (by simpa using hf0)], .here hno⟩
      · intro hfew v n ed hv hn' hed
        rw [List.length_append, List.length_singleton] at hfew
        have hee : t.edges.length % 65536 = t.edges.length := Nat.mod_eq_of_lt (by omega)
        dsimp only at hn' hed
        rw [hee, List.getElem?_set] at hn'
        split at hn'
        · rename_i hvv
          have hnn : t.edges.length = n := by
            first
              | exact Option.some.inj hn'
              | (split at hn'
                 · exact Option.some.inj hn'
                 · simp at hn')
          subst hnn
          rw [List.getElem?_append_right (Nat.le_refl _)] at hed
          simp only [Nat.sub_self, List.getElem?_cons_zero, Option.some.injEq] at hed
          subst hed
          exact hvv
        · rw [List.getElem?_set_ne (by omega)] at hn'
          rcases hc.head v n hv hn' with h0 | h0
          · have := (List.getElem?_eq_some_iff.1 hed).1
            rw [List.length_append, List.length_singleton] at this
            unfold NO_INDEX at h0
            omega
          · rw [List.getElem?_append_left h0] at hed
            exact hc.headv (by omega) v n ed hv hn' hed
      · intro hfew e n ed ed' hed hn' hed'
        rw [List.length_append, List.length_singleton] at hfew
        have hee : t.edges.length % 65536 = t.edges.length := Nat.mod_eq_of_lt (by omega)
        dsimp only at hn' hed hed'
        rw [List.getElem?_set_ne (by omega), List.getElem?_set] at hn'
        have hel := (List.getElem?_eq_some_iff.1 hed).1
        have hnl := (List.getElem?_eq_some_iff.1 hed').1
        rw [List.length_append, List.length_singleton] at hel hnl
        split at hn'
        · rename_i hvv
          have hvv : t.edges.length = e := by omega
          subst hvv
          have hnn : t.first[v0] = n := by
            first
              | exact Option.some.inj hn'
              | (split at hn'
                 · exact Option.some.inj hn'
                 · simp at hn')
          subst hnn
          rw [List.getElem?_append_right (Nat.le_refl _)] at hed
          simp only [Nat.sub_self, List.getElem?_cons_zero, Option.some.injEq] at hed
          subst hed
          rcases hc.head v0 _ hv0n hold with h0 | h0
          · unfold NO_INDEX at h0; omega
          · rw [List.getElem?_append_left h0] at hed'
            exact hc.headv (by omega) v0 _ ed' hv0n hold hed'
        · have he : e < t.edges.length := by omega
          rcases hc.tail e n he hn' with h0 | h0
          · unfold NO_INDEX at h0; omega
          · rw [List.getElem?_append_left he] at hed
            rw [List.getElem?_append_left (by omega)] at hed'
            exact hc.tailv (by omega) e n ed ed' hed hn' hed'
    · rename_i hge
      refine Outs.ok ⟨hc.len, by have := hc.count; simp; omega, hc.head, hc.tail, ?_, hc.distinct, ?_, ?_, ?_, ?_⟩
      · intro ed hed
        obtain ⟨a, b, c, d⟩ := hc.edge ed hed
        exact ⟨a, b, c, by rw [List.map_append]; exact List.mem_append_left _ d⟩
      · intro d hd' a b hda hab
        rw [List.map_append, List.mem_append] at hd'
        rcases hd' with hd' | hd'
        · exact hc.complete d hd' a b hda hab
        · simp only [List.map_cons, List.map_nil, List.mem_singleton] at hd'
          subst hd'
          rw [hd] at hda
          injection hda with hda
          injection hda with h1 h2
          omega
      · intro hfew
        rw [List.length_append] at hfew
        exact hc.chain (by omega)
      · intro hfew
        rw [List.length_append] at hfew
        exact hc.headv (by omega)
      · intro hfew
        rw [List.length_append] at hfew
        exact hc.tailv (by omega)

/-! ### pairing -/

/-- An edge that has no second polygon. -/
def MeshEdge.Open (e : MeshEdge) : Prop := e.poly0 = e.poly1

instance (e : MeshEdge) : Decidable e.Open := inferInstanceAs (Decidable (_ = _))

theorem matchEdge_out {first : List Nat} {nv i j v0 : Nat} (hi : i < 65536) (hj : j < 65536) (edges : List MeshEdge)
    (hf : nv + edges.length ≤ first.length)
    (ht : ∀ e n : Nat, e < edges.length → first[nv + e]? = some n → n = NO_INDEX ∨ n < e) :
    ∀ (fuel e : Nat), e < fuel ∨ e = NO_INDEX → e < edges.length ∨ e = NO_INDEX →
    Outs A (matchEdge first nv i j v0 fuel e edges) fun es =>
      (es = edges ∧ ∀ (f : Nat) (ed : MeshEdge), EReach first nv e f → edges[f]? = some ed → ¬ (ed.v1 = v0 ∧ ed.Open)) ∨
      ∃ (f : Nat) (ed : MeshEdge), EReach first nv e f ∧ edges[f]? = some ed ∧ ed.v1 = v0 ∧ ed.Open ∧
        es = edges.set f { ed with poly1 := i, edge1 := j } := by
  intro fuel
  induction fuel with
  | zero =>
    intro e h1 h2
    rcases h1 with h1 | h1
    · omega
    · unfold matchEdge
      rw [if_pos h1]
      refine Outs.ok (Or.inl ⟨rfl, ?_⟩)
      intro f ed r
      cases r with
      | here h' => exact absurd h1 h'
      | next h' _ _ => exact absurd h1 h'
  | succ fuel ih =>
    intro e h1 h2
    unfold matchEdge
    by_cases he : e = NO_INDEX
    · rw [if_pos he]
      refine Outs.ok (Or.inl ⟨rfl, ?_⟩)
      intro f ed r
      cases r with
      | here h' => exact absurd he h'
      | next h' _ _ => exact absurd he h'
    · rw [if_neg he]
      have hel : e < edges.length := h2.resolve_right he
      dsimp only
      rw [idx_ok hel, bind_ok]
      have hge : edges[e]? = some edges[e] := List.getElem?_eq_getElem hel
      split
      · rename_i hm
        rw [setIdx_ok hel, Nat.mod_eq_of_lt hi, Nat.mod_eq_of_lt hj]
        exact Outs.ok (Or.inr ⟨e, edges[e], .here he, hge, hm.1, hm.2, rfl⟩)
      · rename_i hm
        have hfl : nv + e < first.length := by omega
        have hfe : first[nv + e]? = some first[nv + e] := List.getElem?_eq_getElem hfl
        rw [idx_ok hfl, bind_ok]
        have hte := ht e _ hel hfe
        refine (ih first[nv + e] (by omega) (by omega)).mono ?_
        rintro es (⟨rfl, hno⟩ | ⟨f, ed, r, h3, h4⟩)
        · refine Or.inl ⟨rfl, ?_⟩
          intro f ed r hed
          cases r with
          | here h' => rw [hge] at hed; cases hed; exact hm
          | next h' hn r =>
            rw [hfe] at hn; cases hn
            exact hno f ed r hed
        · exact Or.inr ⟨f, ed, .next he hfe r, h3, h4⟩

/-- State of the second loop after the entries `pre`. -/
structure Paired (polys : List (List Nat)) (all pre : List (Nat × Nat)) (es0 es : List MeshEdge) : Prop where
  len : es.length = es0.length
  same : ∀ (e : Nat) (x y : MeshEdge), es0[e]? = some x → es[e]? = some y →
    y.v0 = x.v0 ∧ y.v1 = x.v1 ∧ y.poly0 = x.poly0 ∧ y.edge0 = x.edge0
  closed : ∀ y ∈ es, ¬ y.Open → (y.poly1, y.edge1) ∈ pre ∧ ∃ a b, dart polys (y.poly1, y.edge1) = some (a, b) ∧ b < a ∧
    (all.length ≤ 65535 → a = y.v1 ∧ b = y.v0)
  distinct : ∀ (e f : Nat) (x y : MeshEdge), es[e]? = some x → es[f]? = some y → ¬ x.Open → ¬ y.Open →
    (x.poly1, x.edge1) = (y.poly1, y.edge1) → e = f
  complete : all.length ≤ 65535 → ∀ (d d' : Nat × Nat) (a b : Nat), d ∈ pre → dart polys d = some (a, b) → b < a →
    dart polys d' = some (b, a) → d.1 ≠ d'.1 → (∀ x, dart polys x = some (a, b) → x = d) → (∀ x, dart polys x = some (b, a) → x = d') →
    ∃ y ∈ es, (y.poly0, y.edge0) = d' ∧ (y.poly1, y.edge1) = d

theorem pair_out {nvp nv : Nat} {polys : List (List Nat)} (h : PolysFit nvp nv polys) {t : EdgeTable}
    (ht : Collected nv (polys.length * nvp) polys (polyEntries nvp (polys.map (polySlot nvp))) t) :
    Outs A ((polyEntries nvp (polys.map (polySlot nvp))).foldlM (fun edges e => pairEdge nvp nv t.first e.1 e.2.1 edges e.2.2) t.edges)
      (Paired polys ((polyEntries nvp (polys.map (polySlot nvp))).map fun e => (e.1, e.2.2))
        ((polyEntries nvp (polys.map (polySlot nvp))).map fun e => (e.1, e.2.2)) t.edges) := by
  obtain ⟨s1, s2, s3, s4⟩ := polyEntries_spec h
  have s5 := sum_len_le fun p hp => (h.len p hp).2
  generalize polyEntries nvp (polys.map (polySlot nvp)) = ens at *
  have hopen : ∀ y ∈ t.edges, y.Open := fun y hy => (ht.edge y hy).2.2.1.symm
  refine Outs.foldlM (fun pre es => Paired polys (ens.map fun e => (e.1, e.2.2)) (pre.map fun e => (e.1, e.2.2)) t.edges es) ens _ ?_ ?_
  · refine ⟨rfl, ?_, ?_, ?_, ?_⟩
    · intro e x y hx hy
      rw [hx] at hy; cases hy; exact ⟨rfl, rfl, rfl, rfl⟩
    · intro y hy hn; exact absurd (hopen y hy) hn
    · intro e f x y hx _ hn; exact absurd (hopen x (List.mem_of_getElem? hx)) hn
    · intro _ d d' a b hd; simp at hd
  · rintro pre ⟨i, q, j⟩ post es hl hc
    obtain ⟨p, hp, rfl, hj⟩ := s1 (i, q, j) (by rw [hl]; simp)
    dsimp only at hp hj ⊢
    have hpm := List.mem_of_getElem? hp
    have hlen := h.len p hpm
    have hlt : ∀ v ∈ p, v < 65535 := fun v hv => by have := h.lt p hpm v hv; have := h.nv_le; omega
    have hi : i < polys.length := (List.getElem?_eq_some_iff.1 hp).1
    have hi' : i < 65536 := by have := h.n_le; omega
    have hj' : j < 65536 := by have := h.nvp_le; omega
    have hn : (i, j) ∉ pre.map fun e => (e.1, e.2.2) := by
      rw [hl, List.map_append, List.map_cons, List.nodup_append] at s2
      intro hm
      exact s2.2.2 _ hm _ (by simp) rfl
    have hmod1 : (j + 1) % p.length < p.length := Nat.mod_lt _ (by omega)
    have hd : dart polys (i, j) = some (p[j], p[(j + 1) % p.length]) := dart_some.2 ⟨p, hp, sides_getElem? p j hj⟩
    unfold pairEdge
    have hpj : idx (pad nvp p) j = .ok p[j] := by
      refine idx_some ?_
      unfold pad
      rw [List.getElem?_append_left hj, List.getElem?_eq_getElem hj]
    rw [hpj, bind_ok, edgeEnd_pad (by omega) hlen.2 hlt hj, bind_ok]
    generalize hv0 : p[j] = v0 at *
    generalize hv1 : p[(j + 1) % p.length] = v1 at *
    have hv1n : v1 < nv := by rw [← hv1]; exact h.lt p hpm _ (List.getElem_mem _)
    rw [List.map_append, List.map_singleton]
    dsimp only
    split
    · rename_i hgt
      have hf1 : v1 < t.first.length := by rw [ht.len]; omega
      have hhead : t.first[v1]? = some t.first[v1] := List.getElem?_eq_getElem hf1
      rw [idx_ok hf1, bind_ok]
      have hh := ht.head v1 _ hv1n hhead
      have hcnt := ht.count
      refine (matchEdge_out hi' hj' es (by rw [hc.len, ht.len]; omega)
        (fun e n he hn' => ht.tail e n (by rw [← hc.len]; exact he) hn') (es.length + 1) t.first[v1]
        (by rw [hc.len]; omega) (by rw [hc.len]; omega)).mono ?_
      -- all edges on the chain start at v1
      have hchain : (ens.map fun e => (e.1, e.2.2)).length ≤ 65535 → ∀ (s f : Nat) (es0 ed : MeshEdge),
          EReach t.first nv s f → t.edges[s]? = some es0 → t.edges[f]? = some ed → ed.v0 = es0.v0 := by
        intro hfew s f es0 ed r
        rw [List.length_map] at hfew
        induction r generalizing es0 with
        | here _ => intro h1 h2; rw [h1] at h2; cases h2; rfl
        | @next e f n hne hnn r ih =>
          intro h1 h2
          have hel := (List.getElem?_eq_some_iff.1 h1).1
          rcases ht.tail e n hel hnn with h0 | h0
          · cases r with
            | here h' => exact absurd h0 h'
            | next h' _ _ => exact absurd h0 h'
          · have hnl : n < t.edges.length := by omega
            have hng : t.edges[n]? = some t.edges[n] := List.getElem?_eq_getElem hnl
            rw [ih _ hng h2]
            exact ht.tailv hfew e n _ _ h1 hnn hng
      have hchain0 : (ens.map fun e => (e.1, e.2.2)).length ≤ 65535 → ∀ (f : Nat) (ed : MeshEdge),
          EReach t.first nv t.first[v1] f → t.edges[f]? = some ed → ed.v0 = v1 := by
        intro hfew f ed r hed
        have hne : t.first[v1] ≠ NO_INDEX := by
          cases r with
          | here h' => exact h'
          | next h' _ _ => exact h'
        have hll : t.first[v1] < t.edges.length := hh.resolve_left hne
        have hg : t.edges[t.first[v1]]? = some t.edges[t.first[v1]] := List.getElem?_eq_getElem hll
        rw [hchain hfew _ f _ ed r hg hed]
        rw [List.length_map] at hfew
        exact ht.headv hfew v1 _ _ hv1n hhead hg
      have hkeep : ∀ (es' : List MeshEdge), (∀ y ∈ es, ¬ y.Open → y ∈ es') → (all : List (Nat × Nat)) → all = (ens.map fun e => (e.1, e.2.2)) →
          all.length ≤ 65535 → ∀ (d d' : Nat × Nat) (a b : Nat), d ∈ (pre.map fun e => (e.1, e.2.2)) → dart polys d = some (a, b) → b < a →
          dart polys d' = some (b, a) → d.1 ≠ d'.1 → (∀ x, dart polys x = some (a, b) → x = d) → (∀ x, dart polys x = some (b, a) → x = d') →
          ∃ y ∈ es', (y.poly0, y.edge0) = d' ∧ (y.poly1, y.edge1) = d := by
        intro es' hes' all hall hfew d d' a b hd1 hd2 hd3 hd4 hd5 hd6 hd7
        obtain ⟨y, hy, h0, h1⟩ := hc.complete (by rw [← hall]; exact hfew) d d' a b hd1 hd2 hd3 hd4 hd5 hd6 hd7
        refine ⟨y, hes' y hy ?_, h0, h1⟩
        intro ho
        apply hd5
        rw [← h0, ← h1]
        exact ho.symm
      -- the edge to be found
      have hfind : (ens.map fun e => (e.1, e.2.2)).length ≤ 65535 → ∀ d' : Nat × Nat, dart polys d' = some (v1, v0) →
          (∀ x, dart polys x = some (v0, v1) → x = (i, j)) →
          ∃ (f : Nat) (x y : MeshEdge), EReach t.first nv t.first[v1] f ∧ t.edges[f]? = some x ∧ es[f]? = some y ∧
            (y.poly0, y.edge0) = d' ∧ y.v0 = v1 ∧ y.v1 = v0 ∧ y.Open := by
        intro hfew d' hd' hu
        have hmem : d' ∈ ens.map fun e => (e.1, e.2.2) := by
          obtain ⟨p', hp', hs'⟩ := dart_some.1 hd'
          have hl' : d'.2 < p'.length := by
            have := (List.getElem?_eq_some_iff.1 hs').1
            simpa [sides] using this
          exact List.mem_map.2 ⟨_, s3 d'.1 d'.2 p' hp' hl', rfl⟩
        obtain ⟨x, hx, hxk⟩ := ht.complete d' hmem v1 v0 hd' hgt
        obtain ⟨f, hfl, hf⟩ := List.getElem_of_mem hx
        have hfx : t.edges[f]? = some x := by rw [List.getElem?_eq_getElem hfl, hf]
        have hxe := (ht.edge x hx).1
        rw [hxk, hd'] at hxe
        injection hxe with hxe
        injection hxe with e1 e2
        obtain ⟨n, hn1, hr⟩ := ht.chain (by rw [List.length_map] at hfew; exact hfew) f x hfx
        rw [← e1, hhead] at hn1
        cases hn1
        have hfl' : f < es.length := by rw [hc.len]; exact hfl
        have hfy : es[f]? = some es[f] := List.getElem?_eq_getElem hfl'
        obtain ⟨q1, q2, q3, q4⟩ := hc.same f x es[f] hfx hfy
        refine ⟨f, x, es[f], hr, hfx, hfy, by rw [q3, q4]; exact hxk, by rw [q1, e1], by rw [q2, e2], ?_⟩
        by_contra ho
        obtain ⟨m1, a, b, m2, m3, m4⟩ := hc.closed es[f] (List.getElem_mem _) ho
        obtain ⟨m5, m6⟩ := m4 hfew
        rw [m5, m6, q1, q2, ← e1, ← e2] at m2
        have := hu _ m2
        rw [this] at m1
        exact hn m1
      rintro es' (⟨rfl, hno⟩ | ⟨f, ed, r, hed, hv, ho, rfl⟩)
      · refine ⟨hc.len, hc.same, ?_, hc.distinct, ?_⟩
        · intro y hy hn'
          obtain ⟨m1, m2⟩ := hc.closed y hy hn'
          exact ⟨List.mem_append_left _ m1, m2⟩
        · intro hfew d d' a b hd1 hd2 hd3 hd4 hd5 hd6 hd7
          rw [List.mem_append, List.mem_singleton] at hd1
          rcases hd1 with hd1 | rfl
          · exact hkeep _ (fun y hy _ => hy) _ rfl hfew d d' a b hd1 hd2 hd3 hd4 hd5 hd6 hd7
          · rw [hd] at hd2; cases hd2
            obtain ⟨f, x, y, r, hx, hy, hk, hy0, hy1, hyo⟩ := hfind hfew d' hd4 hd6
            exact absurd ⟨hy1, hyo⟩ (hno f y r hy)
      · have hfl := (List.getElem?_eq_some_iff.1 hed).1
        have hfx : t.edges[f]? = some (t.edges[f]'(by rw [← hc.len]; exact hfl)) := List.getElem?_eq_getElem _
        obtain ⟨q1, q2, q3, q4⟩ := hc.same f _ ed hfx hed
        have hget : ∀ (e : Nat) (y : MeshEdge), (es.set f { ed with poly1 := i, edge1 := j })[e]? = some y →
            (e = f ∧ y = { ed with poly1 := i, edge1 := j }) ∨ (e ≠ f ∧ es[e]? = some y) := by
          intro e y hy
          by_cases hef : e = f
          · subst hef
            rw [List.getElem?_set_self hfl] at hy
            exact Or.inl ⟨rfl, (Option.some.inj hy).symm⟩
          · rw [List.getElem?_set_ne (Ne.symm hef)] at hy
            exact Or.inr ⟨hef, hy⟩
        refine ⟨by simp [hc.len], ?_, ?_, ?_, ?_⟩
        · intro e x y hx hy
          rcases hget e y hy with ⟨rfl, rfl⟩ | ⟨_, hy⟩
          · rw [hfx] at hx; cases hx; exact ⟨q1, q2, q3, q4⟩
          · exact hc.same e x y hx hy
        · intro y hy hn'
          obtain ⟨e, hel, rfl⟩ := List.getElem_of_mem hy
          rcases hget e _ (List.getElem?_eq_getElem hel) with ⟨rfl, hyy⟩ | ⟨_, hyy⟩
          · rw [hyy]
            dsimp only
            refine ⟨by simp, v0, v1, hd, hgt, fun hfew => ⟨hv.symm, ?_⟩⟩
            rw [q1]
            exact (hchain0 hfew e _ r hfx).symm
          · obtain ⟨m1, m2⟩ := hc.closed _ (List.mem_of_getElem? hyy) hn'
            exact ⟨List.mem_append_left _ m1, m2⟩
        · intro e g x y hx hy hx' hy' hk
          rcases hget e x hx with ⟨rfl, hxx⟩ | ⟨hef, hxx⟩
          · rcases hget g y hy with ⟨rfl, hyy⟩ | ⟨hgf, hyy⟩
            · rfl
            · rw [hxx] at hk
              have := (hc.closed y (List.mem_of_getElem? hyy) hy').1
              rw [← hk] at this
              exact absurd this hn
          · rcases hget g y hy with ⟨rfl, hyy⟩ | ⟨hgf, hyy⟩
            · rw [hyy] at hk
              have := (hc.closed x (List.mem_of_getElem? hxx) hx').1
              rw [hk] at this
              exact absurd this hn
            · exact hc.distinct e g x y hxx hyy hx' hy' hk
        · intro hfew d d' a b hd1 hd2 hd3 hd4 hd5 hd6 hd7
          rw [List.mem_append, List.mem_singleton] at hd1
          rcases hd1 with hd1 | rfl
          · refine hkeep _ ?_ _ rfl hfew d d' a b hd1 hd2 hd3 hd4 hd5 hd6 hd7
            intro y hy hyn
            obtain ⟨e, hel, rfl⟩ := List.getElem_of_mem hy
            have hef : f ≠ e := by
              rintro rfl
              rw [List.getElem?_eq_getElem hel] at hed
              cases hed
              exact hyn ho
            refine List.mem_of_getElem? (i := e) ?_
            rw [List.getElem?_set_ne hef]
            exact List.getElem?_eq_getElem hel
          · rw [hd] at hd2; cases hd2
            refine ⟨{ ed with poly1 := i, edge1 := j }, List.mem_of_getElem? (i := f) (List.getElem?_set_self hfl), ?_, rfl⟩
            dsimp only
            refine hd7 _ ?_
            have := (ht.edge _ (List.mem_of_getElem? hfx)).1
            rw [← q3, ← q4, ← q1, ← q2, hv, q1, hchain0 hfew f _ r hfx] at this
            exact this
    · rename_i hle
      refine Outs.ok ⟨hc.len, hc.same, ?_, hc.distinct, ?_⟩
      · intro y hy hn'
        obtain ⟨m1, m2⟩ := hc.closed y hy hn'
        exact ⟨List.mem_append_left _ m1, m2⟩
      · intro hfew d d' a b hd1 hd2 hd3
        rw [List.mem_append, List.mem_singleton] at hd1
        rcases hd1 with hd1 | rfl
        · exact hc.complete hfew d d' a b hd1 hd2 hd3
        · rw [hd] at hd2; cases hd2; omega

/-! ### storing -/

/-- Neighbour entry `j` of slot `i`. -/
def neiAt (slots : List Slot) (d : Nat × Nat) : Option Nat := slots[d.1]?.bind fun s => s.neis[d.2]?

theorem setNei_out {slots : List Slot} {i j v n : Nat} (hi : i < slots.length) (hn : ∀ s ∈ slots, s.neis.length = n) (hj : j < n) :
    Outs A (setNei slots i j v) fun s' => s'.map Slot.verts = slots.map Slot.verts ∧ (∀ s ∈ s', s.neis.length = n) ∧
      neiAt s' (i, j) = some v ∧ ∀ d, d ≠ (i, j) → neiAt s' d = neiAt slots d := by
  unfold setNei
  have hjl : j < slots[i].neis.length := by rw [hn _ (List.getElem_mem _)]; exact hj
  rw [idx_ok hi, bind_ok, setIdx_ok hjl, bind_ok, setIdx_ok hi]
  refine Outs.ok ⟨?_, ?_, ?_, ?_⟩
  · refine List.ext_getElem? fun k => ?_
    rw [List.getElem?_map, List.getElem?_map]
    by_cases hk : i = k
    · subst hk
      rw [List.getElem?_set_self hi, List.getElem?_eq_getElem hi]; rfl
    · rw [List.getElem?_set_ne hk]
  · intro s hs
    rcases List.mem_or_eq_of_mem_set hs with h | h
    · exact hn s h
    · rw [h]; simp only [List.length_set]; exact hn _ (List.getElem_mem _)
  · unfold neiAt
    dsimp only
    rw [List.getElem?_set_self hi]
    simp [List.getElem?_set_self hjl]
  · rintro ⟨a, b⟩ hd
    unfold neiAt
    dsimp only
    by_cases ha : i = a
    · subst ha
      have hb : j ≠ b := by rintro rfl; exact hd rfl
      rw [List.getElem?_set_self hi, List.getElem?_eq_getElem hi]
      simp [List.getElem?_set_ne hb]
    · rw [List.getElem?_set_ne ha]

theorem neiAt_polySlot {nvp : Nat} {polys : List (List Nat)} {d : Nat × Nat} {v : Nat} (h : neiAt (polys.map (polySlot nvp)) d = some v) :
    v = NO_INDEX := by
  unfold neiAt at h
  rw [Option.bind_eq_some_iff] at h
  obtain ⟨s, hs, hv⟩ := h
  have := List.mem_of_getElem? hs
  obtain ⟨p, _, rfl⟩ := List.mem_map.1 this
  exact (List.mem_replicate.1 (List.mem_of_getElem? hv)).2

theorem dart_lt {nvp nv : Nat} {polys : List (List Nat)} (h : PolysFit nvp nv polys) {d e : Nat × Nat} (hd : dart polys d = some e) :
    d.1 < polys.length ∧ d.2 < nvp := by
  obtain ⟨p, hp, hs⟩ := dart_some.1 hd
  have h1 := (List.getElem?_eq_some_iff.1 hp).1
  have h2 := (List.getElem?_eq_some_iff.1 hs).1
  have h3 := (h.len p (List.mem_of_getElem? hp)).2
  have : (sides p).length = p.length := by simp [sides]
  exact ⟨h1, by omega⟩

/-- The neighbour tables `nei` of the polygons. -/
structure Adjacent (polys : List (List Nat)) (nei : Nat × Nat → Option Nat) : Prop where
  /-- Neighbours are mutual. -/
  mutual_ : ∀ (i j k : Nat), nei (i, j) = some k → k ≠ NO_INDEX → k ≠ i ∧ ∃ l e f, nei (k, l) = some i ∧
    dart polys (i, j) = some e ∧ dart polys (k, l) = some f ∧
    ((polys.map List.length).sum ≤ 65535 → f = (e.2, e.1))
  /-- Sides used once in each direction, by two polygons, make them neighbours. -/
  complete : (polys.map List.length).sum ≤ 65535 → ∀ (i j k l a b : Nat), dart polys (i, j) = some (a, b) → dart polys (k, l) = some (b, a) →
    i ≠ k → a ≠ b → (∀ x, dart polys x = some (a, b) → x = (i, j)) → (∀ x, dart polys x = some (b, a) → x = (k, l)) →
    nei (i, j) = some k ∧ nei (k, l) = some i

theorem buildAdjacency_out {nvp nv : Nat} {polys : List (List Nat)} (h : PolysFit nvp nv polys) :
    Outs A (buildAdjacency nvp nv (polys.map (polySlot nvp))) fun slots =>
      slots.map Slot.verts = polys.map (pad nvp) ∧ (∀ s ∈ slots, s.neis.length = nvp) ∧ Adjacent polys (neiAt slots) := by
  unfold buildAdjacency
  refine Outs.bind (collect_out h) fun t ht => ?_
  refine Outs.bind (pair_out h ht) fun es hp => ?_
  obtain ⟨s1, s2, s3, s4⟩ := polyEntries_spec h
  generalize polyEntries nvp (polys.map (polySlot nvp)) = ens at *
  have horig : ∀ (e : Nat) (y : MeshEdge), es[e]? = some y → ∃ x, t.edges[e]? = some x ∧ y.v0 = x.v0 ∧ y.v1 = x.v1 ∧
      y.poly0 = x.poly0 ∧ y.edge0 = x.edge0 := by
    intro e y hy
    have hl := (List.getElem?_eq_some_iff.1 hy).1
    have hl' : e < t.edges.length := by rw [← hp.len]; exact hl
    exact ⟨t.edges[e], List.getElem?_eq_getElem hl', hp.same e _ y (List.getElem?_eq_getElem hl') hy⟩
  have hd0 : ∀ y ∈ es, dart polys (y.poly0, y.edge0) = some (y.v0, y.v1) ∧ y.v0 < y.v1 := by
    intro y hy
    obtain ⟨e, he, rfl⟩ := List.getElem_of_mem hy
    obtain ⟨x, hx, a, b, c, d⟩ := horig e _ (List.getElem?_eq_getElem he)
    have := ht.edge x (List.mem_of_getElem? hx)
    rw [a, b, c, d]
    exact ⟨this.1, this.2.1⟩
  have huniq : ∀ (e f : Nat) (x y : MeshEdge), es[e]? = some x → es[f]? = some y → (x.poly0, x.edge0) = (y.poly0, y.edge0) → e = f := by
    intro e f x y hx hy hxy
    obtain ⟨x', hx', _, _, c, d⟩ := horig e x hx
    obtain ⟨y', hy', _, _, c', d'⟩ := horig f y hy
    have hnd := ht.distinct
    rw [c, d, c', d'] at hxy
    have hlx := (List.getElem?_eq_some_iff.1 hx').1
    have hly := (List.getElem?_eq_some_iff.1 hy').1
    refine (List.Nodup.getElem_inj_iff hnd (hi := by simpa using hlx) (hj := by simpa using hly)).1 ?_
    rw [List.getElem?_eq_getElem hlx] at hx'
    rw [List.getElem?_eq_getElem hly] at hy'
    rw [List.getElem_map, List.getElem_map, Option.some.inj hx', Option.some.inj hy', hxy]
  -- the store loop
  have hstore : Outs A (es.foldlM storeEdge (polys.map (polySlot nvp))) fun slots =>
      slots.map Slot.verts = polys.map (pad nvp) ∧ (∀ s ∈ slots, s.neis.length = nvp) ∧
      (∀ y ∈ es, ¬ y.Open → neiAt slots (y.poly0, y.edge0) = some y.poly1 ∧ neiAt slots (y.poly1, y.edge1) = some y.poly0) ∧
      (∀ d v, neiAt slots d = some v → v ≠ NO_INDEX → ∃ y ∈ es, ¬ y.Open ∧ (d = (y.poly0, y.edge0) ∧ v = y.poly1 ∨ d = (y.poly1, y.edge1) ∧ v = y.poly0)) := by
    refine Outs.foldlM (fun pre slots => slots.map Slot.verts = polys.map (pad nvp) ∧ (∀ s ∈ slots, s.neis.length = nvp) ∧
      (∀ y ∈ pre, ¬ y.Open → neiAt slots (y.poly0, y.edge0) = some y.poly1 ∧ neiAt slots (y.poly1, y.edge1) = some y.poly0) ∧
      (∀ d v, neiAt slots d = some v → v ≠ NO_INDEX → ∃ y ∈ pre, ¬ y.Open ∧ (d = (y.poly0, y.edge0) ∧ v = y.poly1 ∨ d = (y.poly1, y.edge1) ∧ v = y.poly0))) es _ ?_ ?_
    · refine ⟨?_, ?_, by simp, ?_⟩
      · rw [List.map_map]; rfl
      · intro s hs
        obtain ⟨p, _, rfl⟩ := List.mem_map.1 hs
        simp [polySlot]
      · intro d v hv hne
        exact absurd (neiAt_polySlot hv) hne
    · rintro pre y post slots hl ⟨g1, g2, g3, g4⟩
      have hlen : slots.length = polys.length := by simpa using congrArg List.length g1
      have hyi : es[pre.length]? = some y := by rw [hl]; simp
      have hym : y ∈ es := List.mem_of_getElem? hyi
      unfold storeEdge
      split
      · rename_i hne
        have hne' : ¬ y.Open := hne
        obtain ⟨da, hda⟩ := hd0 y hym
        obtain ⟨db, a, b, hdb, hba, hdir⟩ := hp.closed y hym hne'
        have b0 := dart_lt h da
        have b1 := dart_lt h hdb
        refine Outs.bind (setNei_out (by rw [hlen]; exact b0.1) g2 b0.2) ?_
        rintro s1 ⟨k1, k2, k3, k4⟩
        have hlen1 : s1.length = polys.length := by rw [← hlen]; simpa using congrArg List.length k1
        refine (setNei_out (by rw [hlen1]; exact b1.1) k2 b1.2).mono ?_
        rintro s2 ⟨l1, l2, l3, l4⟩
        -- keys of earlier edges are different
        have hkey : ∀ x ∈ pre, ¬ x.Open → (x.poly0, x.edge0) ≠ (y.poly0, y.edge0) ∧ (x.poly1, x.edge1) ≠ (y.poly1, y.edge1) ∧
            (x.poly0, x.edge0) ≠ (y.poly1, y.edge1) ∧ (x.poly1, x.edge1) ≠ (y.poly0, y.edge0) := by
          intro x hx hxo
          obtain ⟨k, hk, rfl⟩ := List.getElem_of_mem hx
          have hxi : es[k]? = some pre[k] := by rw [hl, List.getElem?_append_left hk, List.getElem?_eq_getElem hk]
          have hxm := List.mem_of_getElem? hxi
          obtain ⟨xa, hxa⟩ := hd0 _ hxm
          obtain ⟨_, a', b', hxb, hba', _⟩ := hp.closed _ hxm hxo
          refine ⟨?_, ?_, ?_, ?_⟩
          · intro he; have := huniq _ _ _ _ hxi hyi he; omega
          · intro he; have := hp.distinct _ _ _ _ hxi hyi hxo hne' he; omega
          · intro he
            rw [he, hdb] at xa
            injection xa with xa
            injection xa with e1 e2
            omega
          · intro he
            rw [he, da] at hxb
            injection hxb with xa
            injection xa with e1 e2
            omega
        have hself : (y.poly0, y.edge0) ≠ (y.poly1, y.edge1) := by
          intro he
          rw [he, hdb] at da
          injection da with xa
          injection xa with e1 e2
          omega
        refine ⟨l1.trans (k1.trans g1), l2, ?_, ?_⟩
        · intro x hx hxo
          rw [List.mem_append, List.mem_singleton] at hx
          rcases hx with hx | rfl
          · obtain ⟨n1, n2, n3, n4⟩ := hkey x hx hxo
            rw [l4 _ n3, k4 _ n1, l4 _ n2, k4 _ n4]
            exact g3 x hx hxo
          · exact ⟨by rw [l4 _ hself]; exact k3, l3⟩
        · intro d v hv hvn
          by_cases e2 : d = (y.poly1, y.edge1)
          · rw [e2, l3] at hv
            exact ⟨y, by simp, hne', Or.inr ⟨e2, (Option.some.inj hv).symm⟩⟩
          · rw [l4 _ e2] at hv
            by_cases e1 : d = (y.poly0, y.edge0)
            · rw [e1, k3] at hv
              exact ⟨y, by simp, hne', Or.inl ⟨e1, (Option.some.inj hv).symm⟩⟩
            · rw [k4 _ e1] at hv
              obtain ⟨x, hx, hh⟩ := g4 d v hv hvn
              exact ⟨x, by simp [hx], hh⟩
      · rename_i hne
        have hop : y.Open := not_not.1 hne
        refine Outs.ok ⟨g1, g2, ?_, ?_⟩
        · intro x hx hxo
          rw [List.mem_append, List.mem_singleton] at hx
          rcases hx with hx | rfl
          · exact g3 x hx hxo
          · exact absurd hop hxo
        · intro d v hv hvn
          obtain ⟨x, hx, hh⟩ := g4 d v hv hvn
          exact ⟨x, by simp [hx], hh⟩
  refine hstore.mono ?_
  rintro slots ⟨g1, g2, g3, g4⟩
  have hfew' : (polys.map List.length).sum ≤ 65535 → (ens.map fun e => (e.1, e.2.2)).length ≤ 65535 := by
    intro hf; rw [List.length_map, s4]; exact hf
  refine ⟨g1, g2, ?_, ?_⟩
  · intro i j k hk hkn
    obtain ⟨y, hy, hyo, hh⟩ := g4 _ _ hk hkn
    obtain ⟨n1, n2⟩ := g3 y hy hyo
    obtain ⟨da, hda⟩ := hd0 y hy
    obtain ⟨_, a, b, hdb, hba, hdir⟩ := hp.closed y hy hyo
    rcases hh with ⟨e1, rfl⟩ | ⟨e1, rfl⟩
    · injection e1 with e1 e2
      subst e1 e2
      refine ⟨fun he => hyo he.symm, y.edge1, _, _, n2, da, hdb, fun hf => ?_⟩
      obtain ⟨r1, r2⟩ := hdir (hfew' hf)
      rw [r1, r2]
    · injection e1 with e1 e2
      subst e1 e2
      refine ⟨hyo, y.edge0, _, _, n1, hdb, da, fun hf => ?_⟩
      obtain ⟨r1, r2⟩ := hdir (hfew' hf)
      rw [r1, r2]
  · intro hf
    have key : ∀ (i j k l a b : Nat), dart polys (i, j) = some (a, b) → dart polys (k, l) = some (b, a) →
        i ≠ k → b < a → (∀ x, dart polys x = some (a, b) → x = (i, j)) → (∀ x, dart polys x = some (b, a) → x = (k, l)) →
        neiAt slots (i, j) = some k ∧ neiAt slots (k, l) = some i := by
      intro i j k l a b h1 h2 h3 h4 h5 h6
      have hmem : (i, j) ∈ ens.map fun e => (e.1, e.2.2) := by
        obtain ⟨p', hp', hs'⟩ := dart_some.1 h1
        have hl' : j < p'.length := by
          have := (List.getElem?_eq_some_iff.1 hs').1
          simpa [sides] using this
        exact List.mem_map.2 ⟨_, s3 i j p' hp' hl', rfl⟩
      obtain ⟨y, hy, e1, e2⟩ := hp.complete (hfew' hf) (i, j) (k, l) a b hmem h1 h4 h2 h3 h5 h6
      injection e1 with e1 e1'
      injection e2 with e2 e2'
      subst e1 e1' e2 e2'
      have := g3 y hy (fun he => h3 he.symm)
      exact ⟨this.2, this.1⟩
    intro i j k l a b h1 h2 h3 h4 h5 h6
    rcases Nat.lt_or_ge b a with hlt | hge
    · exact key i j k l a b h1 h2 h3 hlt h5 h6
    · have := key k l i j b a h2 h1 (Ne.symm h3) (by omega) h6 h5
      exact ⟨this.2, this.1⟩

end Rerecast
