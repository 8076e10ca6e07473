import Verif.Lemmas.EditorBase
/-! The exchange between the game and the editor: meshes, index maps, images and materials. -/
namespace Rerecast.Transmission
variable {F V T : Type}

/-! ### Meshes -/

theorem serializeId_builtin (id : Nat) : serializeId id = if IsBuiltin id then some id else none := by
  by_cases h : IsBuiltin id
  · rw [if_pos h]
    unfold IsBuiltin at h
    have : id = 0 ∨ id = 1 ∨ id = 2 ∨ id = 3 ∨ id = 4 ∨ id = 5 ∨ id = 6 ∨ id = 7 := by omega
    rcases this with rfl | rfl | rfl | rfl | rfl | rfl | rfl | rfl <;> rfl
  · rw [if_neg h]
    unfold IsBuiltin at h
    unfold serializeId POSITION NORMAL UV_0 UV_1 TANGENT COLOR JOINT_WEIGHT JOINT_INDEX
    repeat' rw [if_neg (by omega)]

theorem builtin_find (id : Nat) (h : IsBuiltin id) :
    ∃ f, builtin.find? (fun (b : Nat × VertexFormat) => b.1 == id) = some (id, f) ∧ (id, f) ∈ builtin := by
  unfold IsBuiltin at h
  have : id = 0 ∨ id = 1 ∨ id = 2 ∨ id = 3 ∨ id = 4 ∨ id = 5 ∨ id = 6 ∨ id = 7 := by omega
  rcases this with rfl | rfl | rfl | rfl | rfl | rfl | rfl | rfl <;> exact ⟨_, rfl, by decide⟩

theorem insertSorted_append {α : Type} (k : Nat) (v : α) (l : List (Nat × α)) (h : ∀ a ∈ l, a.1 < k) :
    insertSorted k v l = l ++ [(k, v)] := by
  induction l with
  | nil => rfl
  | cons a l ih =>
    obtain ⟨k', v'⟩ := a
    have h1 := h (k', v') (by simp)
    dsimp only at h1
    unfold insertSorted
    rw [if_neg (by omega), if_neg (by omega), ih fun a ha => h a (by simp [ha])]
    rfl

theorem foldlM_insertAttribute (l : List (Nat × VertexValues F)) (m : Mesh F) (hb : ∀ a ∈ l, IsBuiltin a.1)
    (hs : (m.attributes ++ l).Pairwise fun a b => a.1 < b.1)
    (hf : ∀ a ∈ l, ∀ b ∈ builtin, a.1 = b.1 → a.2.format = b.2) :
    (l.map fun a => (a.1, SerializedValues.ofValues a.2)).foldlM insertAttribute m =
      .ok { m with attributes := m.attributes ++ l } := by
  induction l generalizing m with
  | nil => simp [pure, Except.pure]
  | cons a l ih =>
    rw [List.map_cons, List.foldlM_cons]
    obtain ⟨f, hfind, hmem⟩ := builtin_find a.1 (hb a (by simp))
    have hfmt := hf a (by simp) _ hmem rfl
    have e : insertAttribute m (a.1, SerializedValues.ofValues a.2) =
        .ok { m with attributes := m.attributes ++ [a] } := by
      unfold insertAttribute
      dsimp only
      rw [hfind]
      dsimp only
      rw [toValues_ofValues, if_pos hfmt, insertSorted_append]
      intro b hbm
      exact (List.pairwise_append.1 hs).2.2 b hbm a (by simp)
    rw [e]
    simp only [bind_ok]
    rw [ih]
    · simp
    · intro b hb'; exact hb b (by simp [hb'])
    · simpa using hs
    · intro b hb'; exact hf b (by simp [hb'])

theorem fromMesh_attributes (m : Mesh F) : (SerializedMesh.fromMesh m).attributes =
    m.stripped.attributes.map fun a => (a.1, SerializedValues.ofValues a.2) := by
  unfold SerializedMesh.fromMesh Mesh.stripped
  dsimp only
  induction m.attributes with
  | nil => rfl
  | cons a l ih =>
    rw [List.filterMap_cons, ih, List.filter_cons, serializeId_builtin]
    by_cases h : IsBuiltin a.1 <;> simp [h]

theorem intoMesh_fromMesh (m : Mesh F) (h : m.Ok) : (SerializedMesh.fromMesh m).intoMesh = .ok m.stripped := by
  unfold SerializedMesh.intoMesh
  rw [fromMesh_attributes, foldlM_insertAttribute]
  · simp only [bind_ok, List.nil_append]
    unfold SerializedMesh.fromMesh Mesh.stripped
    simp only [toTopology_ofTopology]
    congr 2
    cases m.indices with
    | none => rfl
    | some i => exact congrArg some (toIndices_ofIndices i)
  · intro a ha
    simpa using (List.mem_filter.1 ha).2
  · exact h.sorted.sublist (by simp [Mesh.stripped])
  · intro a ha
    exact h.formats a (List.mem_filter.1 ha).1

/-! ### Index maps -/

/-- The map `l` sends the keys in the list `keys` to their positions, counted from `base`. -/
structure KeysOf (base : Nat) (l : List (Nat × Nat)) (keys : List Nat) : Prop where
  nodup : keys.Nodup
  lookup : ∀ h i, l.lookup h = some i ↔ ∃ j, keys[j]? = some h ∧ i = base + j

theorem KeysOf.nil (base : Nat) : KeysOf base [] [] := ⟨by simp, by simp⟩

theorem KeysOf.none_iff {base : Nat} {l : List (Nat × Nat)} {keys : List Nat} (hk : KeysOf base l keys) (h : Nat) :
    l.lookup h = none ↔ h ∉ keys := by
  constructor
  · intro hn hm
    obtain ⟨j, hj⟩ := List.mem_iff_getElem?.1 hm
    have := (hk.lookup h (base + j)).2 ⟨j, hj, rfl⟩
    rw [hn] at this; cases this
  · intro hm
    cases hl : l.lookup h with
    | none => rfl
    | some i =>
      obtain ⟨j, hj, -⟩ := (hk.lookup h i).1 hl
      exact absurd (List.mem_iff_getElem?.2 ⟨j, hj⟩) hm

theorem KeysOf.insert {base : Nat} {l : List (Nat × Nat)} {keys : List Nat} (hk : KeysOf base l keys) (h : Nat)
    (hn : h ∉ keys) : KeysOf base ((h, base + keys.length) :: l) (keys ++ [h]) := by
  refine ⟨?_, fun h' i => ?_⟩
  · rw [List.nodup_append]
    refine ⟨hk.nodup, by simp, ?_⟩
    intro a ha b hb
    simp only [List.mem_singleton] at hb
    subst hb
    intro e; subst e; exact hn ha
  · rw [List.lookup_cons]
    by_cases e : h' = h
    · subst e
      simp only [beq_self_eq_true]
      constructor
      · intro hi
        cases hi
        exact ⟨keys.length, by simp, rfl⟩
      · rintro ⟨j, hj, rfl⟩
        have : j = keys.length := by
          by_contra hne
          by_cases hlt : j < keys.length
          · rw [List.getElem?_append_left hlt] at hj
            exact hn (List.mem_iff_getElem?.2 ⟨j, hj⟩)
          · rw [List.getElem?_eq_none (by simp; omega)] at hj
            cases hj
        rw [this]
    · have : (h' == h) = false := by simpa using e
      simp only [this]
      rw [hk.lookup]
      constructor
      · rintro ⟨j, hj, rfl⟩
        refine ⟨j, ?_, rfl⟩
        have hlt : j < keys.length := by
          by_contra hge
          rw [List.getElem?_eq_none (by omega)] at hj; cases hj
        rw [List.getElem?_append_left hlt]; exact hj
      · rintro ⟨j, hj, rfl⟩
        refine ⟨j, ?_, rfl⟩
        by_cases hlt : j < keys.length
        · rw [List.getElem?_append_left hlt] at hj; exact hj
        · exfalso
          by_cases heq : j = keys.length
          · subst heq
            simp at hj
            exact e hj.symm
          · rw [List.getElem?_eq_none (by simp; omega)] at hj
            cases hj

theorem getElem?_prefix {α : Type} {l l' : List α} (h : l <+: l') {i : Nat} {a : α} (hi : l[i]? = some a) : l'[i]? = some a := by
  obtain ⟨t, rfl⟩ := h
  have : i < l.length := by
    by_contra hge
    rw [List.getElem?_eq_none (by omega)] at hi; cases hi
  rw [List.getElem?_append_left this]; exact hi

/-! ### Sending images and materials -/

theorem run_bind {σ ε α β : Type} (x : StateRes σ ε α) (f : α → StateRes σ ε β) (s : σ) :
    (x >>= f).run.run s = match x.run.run s with
      | (.ok a, s') => (f a).run.run s'
      | (.error e, s') => (.error e, s') := by
  change (match x.run.run s with | (a, s') => ExceptT.bindCont f a s' : Except ε β × σ) = _
  generalize x.run.run s = r
  obtain ⟨r, s'⟩ := r
  cases r <;> rfl

/-- The images sent so far are those with the handles `keys`. -/
structure CacheOk (images : Nat → Option (Image V)) (s : ImageCache V) (keys : List Nat) : Prop where
  map : KeysOf 0 s.indices keys
  len : s.cache.length = keys.length
  content : ∀ (i h : Nat), keys[i]? = some h → ∃ img, images h = some img ∧ s.cache[i]? = some (SerializedImage.fromImage img)

/-- `x` sends at most `n` new images; it succeeds exactly if `P`, with a result satisfying `R`. -/
def Sends (images : Nat → Option (Image V)) (n : Nat) (k0 : List Nat) {α : Type} (x : StateRes (ImageCache V) Unit α)
    (P : Prop) (R : List Nat → α → Prop) : Prop :=
  ∀ s k, k0 <+: k → CacheOk images s k → k.length + n ≤ 4294967296 →
    ∃ r s' k', x.run.run s = (r, s') ∧ CacheOk images s' k' ∧ k <+: k' ∧ k'.length ≤ k.length + n ∧
      (P → ∃ a, r = .ok a ∧ R k' a) ∧ (¬ P → r = .error ())

theorem Sends.pure {images : Nat → Option (Image V)} {k0 : List Nat} {α : Type} (a : α) {R : List Nat → α → Prop}
    (h : ∀ k, k0 <+: k → R k a) : Sends images 0 k0 (pure a) True R := by
  intro s k hk hs hl
  exact ⟨.ok a, s, k, rfl, hs, List.prefix_rfl, by omega, fun _ => ⟨a, rfl, h k hk⟩, fun h => absurd trivial h⟩

theorem Sends.bind {images : Nat → Option (Image V)} {n n' : Nat} {k0 : List Nat} {α β : Type}
    {x : StateRes (ImageCache V) Unit α} {f : α → StateRes (ImageCache V) Unit β} {P P' : Prop} {R : List Nat → α → Prop}
    {R' : List Nat → β → Prop} (hx : Sends images n k0 x P R)
    (hf : ∀ k1, k0 <+: k1 → ∀ a, R k1 a → Sends images n' k1 (f a) P' R') :
    Sends images (n + n') k0 (x >>= f) (P ∧ P') R' := by
  intro s k hk hs hl
  obtain ⟨r, s1, k1, e, hs1, hk1, hl1, h1, h2⟩ := hx s k hk hs (by omega)
  by_cases hP : P
  · obtain ⟨a, rfl, hR⟩ := h1 hP
    obtain ⟨r', s2, k2, e', hs2, hk2, hl2, h1', h2'⟩ := hf k1 (hk.trans hk1) a hR s1 k1 List.prefix_rfl hs1 (by omega)
    refine ⟨r', s2, k2, ?_, hs2, hk1.trans hk2, by omega, fun hp => h1' hp.2, fun hn => h2' fun hp => hn ⟨hP, hp⟩⟩
    rw [run_bind, e]
    exact e'
  · have := h2 hP
    subst this
    refine ⟨.error (), s1, k1, ?_, hs1, hk1, by omega, fun hp => absurd hp.1 hP, fun _ => rfl⟩
    rw [run_bind, e]

/-- A texture of the material and the index sent for it. -/
def SentAs (k : List Nat) (h i : Nat) : Prop := k[i]? = some h

theorem serializeImage_sends (images : Nat → Option (Image V)) (k0 : List Nat) (h : Option Nat) :
    Sends images 1 k0 (serializeImage images h) (∀ t, h = some t → (images t).isSome = true)
      (fun k r => Option.Rel (SentAs k) h r) := by
  intro s k hk hs hl
  cases h with
  | none =>
    exact ⟨.ok none, s, k, rfl, hs, List.prefix_rfl, by omega, fun _ => ⟨none, rfl, .none⟩, fun hn => absurd (by simp) hn⟩
  | some h =>
    cases hlk : s.indices.lookup h with
    | some i =>
      refine ⟨.ok (some i), s, k, ?_, hs, List.prefix_rfl, by omega, fun _ => ⟨some i, rfl, .some ?_⟩, fun hn => ?_⟩
      · unfold serializeImage
        change (match s.indices.lookup h with | some index => _ | none => _ : StateRes (ImageCache V) Unit (Option Nat)).run.run s = _
        rw [hlk]; rfl
      · obtain ⟨j, hj, rfl⟩ := (hs.map.lookup h i).1 hlk
        rw [Nat.zero_add]; exact hj
      · exfalso
        obtain ⟨j, hj, rfl⟩ := (hs.map.lookup h i).1 hlk
        obtain ⟨img, himg, -⟩ := hs.content j h hj
        exact hn fun t ht => by cases ht; rw [himg]; rfl
    | none =>
      cases himg : images h with
      | none =>
        refine ⟨.error (), s, k, ?_, hs, List.prefix_rfl, by omega, fun hp => ?_, fun _ => rfl⟩
        · unfold serializeImage
          change (match s.indices.lookup h with | some index => _ | none => _ : StateRes (ImageCache V) Unit (Option Nat)).run.run s = _
          rw [hlk]
          dsimp only
          rw [himg]; rfl
        · have := hp h rfl
          rw [himg] at this; cases this
      | some img =>
        have hlen : lenU32 s.cache = k.length := by
          unfold lenU32; rw [hs.len]; exact Nat.mod_eq_of_lt (by omega)
        have hnk := (hs.map.none_iff h).1 hlk
        refine ⟨.ok (some (lenU32 s.cache)), ⟨(h, lenU32 s.cache) :: s.indices, s.cache ++ [.fromImage img]⟩, k ++ [h], ?_,
          ⟨?_, by simp [hs.len], ?_⟩, List.prefix_append _ _, by simp,
          fun _ => ⟨some (lenU32 s.cache), rfl, .some ?_⟩, fun hn => ?_⟩
        · unfold serializeImage
          change (match s.indices.lookup h with | some index => _ | none => _ : StateRes (ImageCache V) Unit (Option Nat)).run.run s = _
          rw [hlk]
          dsimp only
          rw [himg]; rfl
        · have := hs.map.insert h hnk
          rw [hlen]; simpa using this
        · intro i h' hi
          dsimp only
          by_cases hlt : i < k.length
          · rw [List.getElem?_append_left hlt] at hi
            obtain ⟨img', h1, h2⟩ := hs.content i h' hi
            exact ⟨img', h1, getElem?_prefix (List.prefix_append _ _) h2⟩
          · have hi' : i = k.length := by
              by_contra hne
              rw [List.getElem?_eq_none (by simp; omega)] at hi; cases hi
            subst hi'
            simp at hi
            subst hi
            refine ⟨img, himg, ?_⟩
            rw [← hs.len]; simp
        · unfold SentAs; rw [hlen]; simp
        · exact absurd (fun t ht => by cases ht; rw [himg]; rfl) hn

end Rerecast.Transmission
