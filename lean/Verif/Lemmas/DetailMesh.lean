import Verif.Lemmas.HeightSeed
import Verif.Lemmas.PolyDetail
/-! The tables of the detail mesh. -/
set_option linter.unusedVariables false
namespace Rerecast
open HeightPatch
variable {A : Fault → Prop} {F : Type} {o : FloatOps F} {α : Type}

/-! ### Vectors -/

theorem pushCapacity_exact {alloc : Allocator} (h : ExactAllocator alloc) : ∀ (n len capacity : Nat),
    pushCapacity alloc n len capacity = if len ≤ capacity then max capacity (len + n) else pushCapacity alloc n len capacity
  | 0, len, capacity => by
    unfold pushCapacity
    split <;> omega
  | n + 1, len, capacity => by
    by_cases hl : len ≤ capacity
    · rw [if_pos hl]
      unfold pushCapacity
      by_cases hlt : len < capacity
      · rw [if_pos hlt, pushCapacity_exact h n, if_pos (by omega)]; omega
      · rw [if_neg hlt, h, pushCapacity_exact h n, if_pos (by omega)]; omega
    · rw [if_neg hl]

/-- With exact allocation the capacity stays below the variable that mirrors it. -/
theorem store_out {alloc : Allocator} {b : Buffer α} {new : List α} (hA : ExactAllocator alloc ∨ A .panic)
    (hb : ExactAllocator alloc → b.items.length ≤ b.capacity ∧ b.capacity ≤ b.cap) :
    Outs A (b.store alloc new) fun b' => b'.items = b.items ++ new ∧ (ExactAllocator alloc → b'.items.length ≤ b'.capacity ∧ b'.capacity ≤ b'.cap) := by
  unfold Buffer.store
  dsimp only
  split
  · rename_i hneed
    unfold subU
    by_cases hle : b.capacity ≤ b.cap + 256 * ((b.items.length + new.length - b.cap + 255) / 256)
    · rw [if_pos hle, bind_ok]
      refine Outs.ok ⟨rfl, fun he => ?_⟩
      obtain ⟨h1, h2⟩ := hb he
      dsimp only
      rw [List.length_append, pushCapacity_exact he, he, if_pos (by omega)]
      omega
    · rw [if_neg hle]
      rcases hA with he | hp
      · exact absurd (hb he).2 (by omega)
      · exact Outs.error hp
  · rename_i hneed
    refine Outs.ok ⟨rfl, fun he => ?_⟩
    obtain ⟨h1, h2⟩ := hb he
    dsimp only
    rw [List.length_append, pushCapacity_exact he, if_pos h1]
    omega

/-! ### Bounds -/

theorem cornersOf_out {mesh : PolygonNavmesh} {i : Nat} (h : ∀ k ∈ mesh.polygon i, ∃ v, mesh.vertices[k]? = some v) :
    Outs A (mesh.cornersOf i) fun vs => List.Forall₂ (fun k v => mesh.vertices[k]? = some v) (mesh.polygon i) vs := by
  unfold PolygonNavmesh.cornersOf
  refine Outs.mapM _ fun k hk => ?_
  obtain ⟨v, hv⟩ := h k hk
  exact Outs.of_eq (idx_some hv) hv

theorem low {f : U16Vec3 → Nat} {v : U16Vec3} {vs : List U16Vec3} {r a : Nat}
    (h : r ≤ min a (f v) ∧ (∀ w ∈ vs, r ≤ f w) ∧ (r = min a (f v) ∨ ∃ w ∈ vs, r = f w)) :
    r ≤ a ∧ (∀ w ∈ v :: vs, r ≤ f w) ∧ (r = a ∨ ∃ w ∈ v :: vs, r = f w) := by
  obtain ⟨h1, h2, h3⟩ := h
  refine ⟨h1.trans (Nat.min_le_left _ _), ?_, ?_⟩
  · intro w hw
    rcases List.mem_cons.1 hw with rfl | h
    · exact h1.trans (Nat.min_le_right _ _)
    · exact h2 w h
  · rcases h3 with h | ⟨w, hw, h⟩
    · by_cases hm : a ≤ f v
      · left; omega
      · right; exact ⟨v, by simp, by omega⟩
    · exact Or.inr ⟨w, by simp [hw], h⟩

theorem high {f : U16Vec3 → Nat} {v : U16Vec3} {vs : List U16Vec3} {r a : Nat}
    (h : max a (f v) ≤ r ∧ (∀ w ∈ vs, f w ≤ r) ∧ (r = max a (f v) ∨ ∃ w ∈ vs, r = f w)) :
    a ≤ r ∧ (∀ w ∈ v :: vs, f w ≤ r) ∧ (r = a ∨ ∃ w ∈ v :: vs, r = f w) := by
  obtain ⟨h1, h2, h3⟩ := h
  refine ⟨(Nat.le_max_left _ _).trans h1, ?_, ?_⟩
  · intro w hw
    rcases List.mem_cons.1 hw with rfl | h
    · exact (Nat.le_max_right _ _).trans h1
    · exact h2 w h
  · rcases h3 with h | ⟨w, hw, h⟩
    · by_cases hm : f v ≤ a
      · left; omega
      · right; exact ⟨v, by simp, by omega⟩
    · exact Or.inr ⟨w, by simp [hw], h⟩

theorem bounds_fold (vs : List U16Vec3) : ∀ b : Bounds,
    let r := vs.foldl (fun (b : Bounds) v => ⟨min b.xmin v.x, max b.xmax v.x, min b.zmin v.z, max b.zmax v.z⟩) b
    (r.xmin ≤ b.xmin ∧ (∀ v ∈ vs, r.xmin ≤ v.x) ∧ (r.xmin = b.xmin ∨ ∃ v ∈ vs, r.xmin = v.x)) ∧
    (b.xmax ≤ r.xmax ∧ (∀ v ∈ vs, v.x ≤ r.xmax) ∧ (r.xmax = b.xmax ∨ ∃ v ∈ vs, r.xmax = v.x)) ∧
    (r.zmin ≤ b.zmin ∧ (∀ v ∈ vs, r.zmin ≤ v.z) ∧ (r.zmin = b.zmin ∨ ∃ v ∈ vs, r.zmin = v.z)) ∧
    (b.zmax ≤ r.zmax ∧ (∀ v ∈ vs, v.z ≤ r.zmax) ∧ (r.zmax = b.zmax ∨ ∃ v ∈ vs, r.zmax = v.z)) := by
  induction vs with
  | nil => intro b; simp
  | cons v vs ih =>
    intro b
    have h := ih ⟨min b.xmin v.x, max b.xmax v.x, min b.zmin v.z, max b.zmax v.z⟩
    simp only [List.foldl_cons]
    revert h
    generalize vs.foldl (fun (b : Bounds) v => (⟨min b.xmin v.x, max b.xmax v.x, min b.zmin v.z, max b.zmax v.z⟩ : Bounds))
      ⟨min b.xmin v.x, max b.xmax v.x, min b.zmin v.z, max b.zmax v.z⟩ = r
    dsimp only
    rintro ⟨ha, hb, hc, hd⟩
    refine ⟨low ha, high hb, low hc, high hd⟩

/-- The bounds of a polygon. -/
def GoodBounds (mesh : PolygonNavmesh) (chf : CompactHeightfield) (bs i : Nat) (b : Bounds) : Prop :=
  (∀ vs, List.Forall₂ (fun k v => mesh.vertices[k]? = some v) (mesh.polygon i) vs →
    IsRange (vs.map (·.x)) chf.width b.xmin b.xmax ∧ IsRange (vs.map (·.z)) chf.height b.zmin b.zmax) ∧
  b.xmin < b.xmax ∧ b.zmin < b.zmax ∧ b.xmax + bs ≤ chf.width ∧ b.zmax + bs ≤ chf.height

theorem forall2_unique {mesh : PolygonNavmesh} {l : List Nat} {vs vs' : List U16Vec3} (h : List.Forall₂ (fun k v => mesh.vertices[k]? = some v) l vs)
    (h' : List.Forall₂ (fun k v => mesh.vertices[k]? = some v) l vs') : vs = vs' := by
  induction h generalizing vs' with
  | nil => cases h'; rfl
  | cons h1 _ ih =>
    cases h' with
    | cons h2 h3 =>
      rw [h1] at h2
      cases h2
      rw [ih h3]

theorem boundsOf_out {mesh : PolygonNavmesh} {chf : CompactHeightfield} {bs i : Nat} (hw : 1 ≤ chf.width) (hh : 1 ≤ chf.height)
    (h3 : 3 ≤ (mesh.polygon i).length)
    (hin : ∀ k ∈ mesh.polygon i, ∃ v, mesh.vertices[k]? = some v ∧ v.x + 2 * bs ≤ chf.width ∧ v.z + 2 * bs ≤ chf.height ∧ v.x < 65535 ∧ v.z < 65535) :
    Outs A (mesh.boundsOf chf i) (GoodBounds mesh chf bs i) := by
  unfold PolygonNavmesh.boundsOf
  refine (cornersOf_out fun k hk => ?_).bind ?_
  · obtain ⟨v, hv, _⟩ := hin k hk
    exact ⟨v, hv⟩
  intro vs hvs
  have hlen : 3 ≤ vs.length := by rw [← hvs.length_eq]; exact h3
  have hall : ∀ v ∈ vs, v.x + 2 * bs ≤ chf.width ∧ v.z + 2 * bs ≤ chf.height ∧ v.x < 65535 ∧ v.z < 65535 := by
    intro v hv
    obtain ⟨n, hn, rfl⟩ := List.mem_iff_getElem.1 hv
    have hn' : n < (mesh.polygon i).length := by rw [hvs.length_eq]; exact hn
    have := (List.forall₂_iff_get.1 hvs).2 n hn' hn
    simp only [List.get_eq_getElem] at this
    obtain ⟨w, hw, hr⟩ := hin _ (List.getElem_mem hn')
    rw [this] at hw
    cases hw
    exact hr
  obtain ⟨v0, hv0⟩ : ∃ v, v ∈ vs := by
    cases vs with
    | nil => simp at hlen
    | cons v vs => exact ⟨v, by simp⟩
  have hf := bounds_fold vs ⟨chf.width, 0, chf.height, 0⟩
  dsimp only at hf ⊢
  revert hf
  generalize vs.foldl (fun (b : Bounds) v => (⟨min b.xmin v.x, max b.xmax v.x, min b.zmin v.z, max b.zmax v.z⟩ : Bounds)) ⟨chf.width, 0, chf.height, 0⟩ = r
  rintro ⟨⟨a1, a2, a3⟩, ⟨b1, b2, b3⟩, ⟨c1, c2, c3⟩, d1, d2, d3⟩
  have ex1 : ∃ v ∈ vs, r.xmin = v.x := by
    rcases a3 with h | h
    · exact ⟨v0, hv0, by have := hall v0 hv0; have := a2 v0 hv0; omega⟩
    · exact h
  have ex2 : ∃ v ∈ vs, r.xmax = v.x := by
    rcases b3 with h | h
    · exact ⟨v0, hv0, by have := b2 v0 hv0; omega⟩
    · exact h
  have ex3 : ∃ v ∈ vs, r.zmin = v.z := by
    rcases c3 with h | h
    · exact ⟨v0, hv0, by have := hall v0 hv0; have := c2 v0 hv0; omega⟩
    · exact h
  have ex4 : ∃ v ∈ vs, r.zmax = v.z := by
    rcases d3 with h | h
    · exact ⟨v0, hv0, by have := d2 v0 hv0; omega⟩
    · exact h
  obtain ⟨v1, m1, e1⟩ := ex1
  obtain ⟨v2, m2, e2⟩ := ex2
  obtain ⟨v3, m3, e3⟩ := ex3
  obtain ⟨v4, m4, e4⟩ := ex4
  have g1 := hall v1 m1
  have g2 := hall v2 m2
  have g3 := hall v3 m3
  have g4 := hall v4 m4
  have k1 := a2 v2 m2
  have k2 := c2 v4 m4
  have hadd : ∀ a b, a + b ≤ 65535 → addU16 a b = .ok (a + b) := fun a b h => by unfold addU16; rw [if_pos h]
  rw [hadd _ _ (by omega), bind_ok, hadd _ _ (by omega), bind_ok]
  refine Outs.ok ⟨?_, by dsimp only; omega, by dsimp only; omega, by dsimp only; omega, by dsimp only; omega⟩
  intro vs' hvs'
  rw [← forall2_unique hvs hvs']
  dsimp only
  unfold IsRange
  simp only [List.mem_map, forall_exists_index, and_imp, forall_apply_eq_imp_iff₂]
  refine ⟨⟨?_, ⟨v1.x, ⟨v1, m1, rfl⟩, by omega⟩, ⟨v2.x, ⟨v2, m2, rfl⟩, by omega⟩⟩, ?_, ⟨v3.z, ⟨v3, m3, rfl⟩, by omega⟩, ⟨v4.z, ⟨v4, m4, rfl⟩, by omega⟩⟩
  · intro v hv
    have := a2 v hv
    have := b2 v hv
    omega
  · intro v hv
    have := c2 v hv
    have := d2 v hv
    omega

theorem patchSize_le (bs : List Bounds) : ∀ m : Nat × Nat,
    let r := bs.foldl (fun m b => if b.xmin ≥ b.xmax || b.zmin ≥ b.zmax then m else (max m.1 (b.xmax - b.xmin), max m.2 (b.zmax - b.zmin))) m
    m.1 ≤ r.1 ∧ m.2 ≤ r.2 ∧ ∀ b ∈ bs, b.xmin < b.xmax → b.zmin < b.zmax → b.xmax - b.xmin ≤ r.1 ∧ b.zmax - b.zmin ≤ r.2 := by
  induction bs with
  | nil => intro m; simp
  | cons b bs ih =>
    intro m
    simp only [List.foldl_cons]
    split
    · rename_i hc
      have h := ih m
      dsimp only at h ⊢
      refine ⟨h.1, h.2.1, ?_⟩
      intro b' hb' h1 h2
      rcases List.mem_cons.1 hb' with rfl | hm
      · simp only [Bool.or_eq_true, decide_eq_true_eq] at hc
        omega
      · exact h.2.2 b' hm h1 h2
    · have h := ih (max m.1 (b.xmax - b.xmin), max m.2 (b.zmax - b.zmin))
      dsimp only at h ⊢
      refine ⟨by omega, by omega, ?_⟩
      intro b' hb' h1 h2
      rcases List.mem_cons.1 hb' with rfl | hm
      · omega
      · exact h.2.2 b' hm h1 h2

/-! ### One polygon -/

theorem lookups_of {c : DetailConfig F} {hp : HeightPatch} (hw : 1 ≤ hp.width) (hh : 1 ≤ hp.height) (hlen : hp.dataLen ≤ hp.data.length)
    (hR : c.radius o ≤ 32767) : Lookups A o c hp := fun p => getHeight_total hw hh hlen hR

/-- The state after the polygons `0 .. n`. -/
structure TablesInv (o : FloatOps F) (alloc : Allocator) (c : DetailConfig F) (mesh : PolygonNavmesh) (chf : CompactHeightfield) (space n : Nat)
    (st : DetailState F) : Prop where
  buffer : st.verts.length = 256
  data : st.data.length = space
  vcap : ExactAllocator alloc → st.vertices.items.length ≤ st.vertices.capacity ∧ st.vertices.capacity ≤ st.vertices.cap
  tcap : ExactAllocator alloc → st.triangles.items.length ≤ st.triangles.capacity ∧ st.triangles.capacity ≤ st.triangles.cap
  small : st.vertices.items.length ≤ n * 127 ∧ st.triangles.items.length ≤ n * 255
  count : st.meshes.length = n
  bases : ∀ i m, st.meshes[i]? = some m → m.baseVertex = ((st.meshes.take i).map SubMesh.vertexCount).sum ∧
    m.baseTriangle = ((st.meshes.take i).map SubMesh.triangleCount).sum
  vertices : st.vertices.items.length = (st.meshes.map SubMesh.vertexCount).sum
  triangles : st.triangles.items.length = (st.meshes.map SubMesh.triangleCount).sum
  flags : st.flags.length = st.triangles.items.length
  parts : ∀ i m, st.meshes[i]? = some m → ∃ vs region hp d, List.Forall₂ (fun k v => mesh.vertices[k]? = some v) (mesh.polygon i) vs ∧
    mesh.regions[i]? = some region ∧ IsPatch chf c.borderSize region vs hp ∧ IsSubMesh o c hp (vs.map (c.corner o)) d ∧
    (⟨st.meshes, st.vertices.items, st.triangles.items, st.flags⟩ : DetailNavmesh F).part m = ((d.verts.take d.nverts).map (c.toWorld o), d.tris, d.flags) ∧
    m.vertexCount = d.nverts ∧ m.triangleCount = d.tris.length ∧ m.baseVertex + m.vertexCount ≤ st.vertices.items.length ∧
    m.baseTriangle + m.triangleCount ≤ st.triangles.items.length

theorem detailStep_out {alloc : Allocator} {c : DetailConfig F} {mesh : PolygonNavmesh} {chf : CompactHeightfield} (hwf : chf.WellFormed)
    (hy : ∀ s ∈ chf.spans, s.y ≠ 0xFFFF) (hin : DetailInput mesh chf c.borderSize) (hR : c.radius o ≤ 32767) (hsd : o.lt (o.lit 0) c.sampleDist = true)
    (hst : ∀ i vs, List.Forall₂ (fun k v => mesh.vertices[k]? = some v) (mesh.polygon i) vs → StepsOk o c (vs.map (c.corner o)))
    (hA : ExactAllocator alloc ∨ A .panic) {n space : Nat} (hn : n < mesh.polygonCount) (hA' : A .panic ∨ RegionPresent mesh chf c.borderSize n) {b : Bounds}
    (hb : GoodBounds mesh chf c.borderSize n b) (hspace : (b.xmax - b.xmin) * (b.zmax - b.zmin) ≤ space) {st : DetailState F}
    (h : TablesInv o alloc c mesh chf space n st) :
    Outs A (detailStep o alloc c mesh chf st (n, b)) (TablesInv o alloc c mesh chf space (n + 1)) := by
  unfold detailStep
  dsimp only
  refine (cornersOf_out fun k hk => ?_).bind ?_
  · obtain ⟨v, hv, _⟩ := hin.inside n hn k hk
    exact ⟨v, hv⟩
  intro vs hvs
  have hsub : ∀ a b, b ≤ a → subU a b = .ok (a - b) := fun a b h => by unfold subU; rw [if_pos h]
  obtain ⟨hb1, hb2, hb3, hb4, hb5⟩ := hb
  rw [hsub _ _ (by omega), bind_ok, hsub _ _ (by omega), bind_ok]
  have hreg : n < mesh.regions.length := Nat.lt_of_lt_of_le hn hin.regions
  have hregion := List.getElem?_eq_getElem hreg
  rw [idx_ok hreg, bind_ok]
  generalize mesh.regions[n] = region at hregion ⊢
  obtain ⟨hrx, hrz⟩ := hb1 vs hvs
  have hpatch := getHeightData_out (o := o) (bs := c.borderSize) (hp := ⟨st.data, b.xmin, b.zmin, b.xmax - b.xmin, b.zmax - b.zmin⟩) (poly := mesh.polygon n)
    (verts := st.verts) (region := region) hwf hy (by unfold dataLen; dsimp only; rw [h.data]; exact hspace) (by dsimp only; omega) (by dsimp only; omega)
  have hpatch : Outs A (getHeightData o chf ⟨st.data, b.xmin, b.zmin, b.xmax - b.xmin, b.zmax - b.zmin⟩ (mesh.polygon n) st.verts c.borderSize region)
      fun hp => hp.data.length = space ∧ hp.width = b.xmax - b.xmin ∧ hp.height = b.zmax - b.zmin ∧ IsPatch chf c.borderSize region vs hp := by
    refine (hpatch.weaken ?_).mono ?_
    · rintro e ⟨rfl, hno⟩
      rcases hA' with hp | hp
      · exact hp
      · have := hp region ⟨st.data, b.xmin, b.zmin, b.xmax - b.xmin, b.zmax - b.zmin⟩ vs hregion hvs
          (by dsimp only; rw [Nat.add_sub_cancel' (by omega)]; exact hrx) (by dsimp only; rw [Nat.add_sub_cancel' (by omega)]; exact hrz)
        rcases hno with h1 | h1
        · exact absurd h1 this.1
        · obtain ⟨i, hi⟩ := this.2
          exact absurd hi (h1 i)
    · rintro hp ⟨hal, hc⟩
      have hroot : ∀ (hp hp' : HeightPatch), Alike hp hp' → HeightPatch.IsRoot chf hp' c.borderSize region = HeightPatch.IsRoot chf hp c.borderSize region := by
        intro hp hp' hal
        funext i
        rw [← lowest_iff hwf, ← lowest_iff hwf, hal.lowest]
      refine ⟨hal.len.trans h.data, hal.width, hal.height, ?_, ?_, ?_⟩
      · rw [hal.xmin, hal.width]; dsimp only; rw [Nat.add_sub_cancel' (by omega)]; exact hrx
      · rw [hal.zmin, hal.height]; dsimp only; rw [Nat.add_sub_cancel' (by omega)]; exact hrz
      · rw [hroot _ _ hal]; exact hc
  refine hpatch.bind ?_
  rintro hp ⟨hl, hpw, hph, hip⟩
  have hpoly : (vs.map (c.corner o)).length = (mesh.polygon n).length := by rw [List.length_map, hvs.length_eq]
  have hlk : Lookups A o c hp := lookups_of (by omega) (by omega) (by unfold dataLen; rw [hl, hpw, hph]; exact hspace) hR
  refine (buildPolyDetail_out hlk (hst n vs hvs) hsd (by rw [hpoly]; exact (hin.corners n hn).1) (by rw [hpoly]; exact (hin.corners n hn).2) h.buffer).bind ?_
  intro d hd
  have hvl : d.nverts ≤ d.verts.length := by rw [hd.buffer]; have := hd.max_verts; omega
  have hwl : ((d.verts.take d.nverts).map (c.toWorld o)).length = d.nverts := by simp [hvl]
  refine (store_out hA h.vcap).bind ?_
  rintro vb ⟨hvb, hvc⟩
  refine (store_out hA h.tcap).bind ?_
  rintro tb ⟨htb, htc⟩
  have hfl : d.flags.length = d.tris.length := by
    obtain ⟨hull, m, _, _, _, hf, _⟩ := hd.outline
    exact hf.length_eq.symm
  have hsm := h.small
  have hmv := hd.max_verts
  have hmt := hd.max_tris
  have hfew := hin.few
  have hbig : n * 255 + 255 ≤ mesh.polygonCount * 255 := by omega
  have em1 : st.vertices.items.length % 4294967296 = st.vertices.items.length := Nat.mod_eq_of_lt (by omega)
  have em2 : d.nverts % 4294967296 = d.nverts := Nat.mod_eq_of_lt (by omega)
  have em3 : st.triangles.items.length % 4294967296 = st.triangles.items.length := Nat.mod_eq_of_lt (by omega)
  have em4 : d.tris.length % 4294967296 = d.tris.length := Nat.mod_eq_of_lt (by omega)
  rw [em1, em2, em3, em4]
  have hv1 := h.vertices
  have ht1 := h.triangles
  refine Outs.ok ⟨?_, hl, hvc, htc, ?_, ?_, ?_, ?_, ?_, ?_, ?_⟩
  · dsimp only
    rw [List.length_append, hwl, List.length_drop, hd.buffer]
    omega
  · dsimp only
    rw [hvb, htb, List.length_append, List.length_append, hwl]
    omega
  · dsimp only
    rw [List.length_append, h.count]; rfl
  · intro i m hm
    dsimp only at hm ⊢
    rw [List.getElem?_append] at hm
    split at hm
    · rename_i hi
      rw [List.take_append_of_le_length (by omega)]
      exact h.bases i m hm
    · rename_i hi
      have hi' : i - st.meshes.length = 0 := by
        by_contra hne
        rw [List.getElem?_eq_none (by simp; omega)] at hm
        cases hm
      rw [hi'] at hm
      cases hm
      have : i = st.meshes.length := by omega
      subst this
      dsimp only
      rw [List.take_left]
      exact ⟨hv1, ht1⟩
  · dsimp only
    rw [hvb, List.length_append, hwl, hv1]
    simp
  · dsimp only
    rw [htb, List.length_append, ht1]
    simp
  · dsimp only
    rw [htb, List.length_append, List.length_append, h.flags, hfl]
  · intro i m hm
    dsimp only at hm ⊢
    rw [List.getElem?_append] at hm
    split at hm
    · obtain ⟨vs', region', hp', d', p1, p2, p3, p4, p5, p6, p7, p8, p9⟩ := h.parts i m hm
      refine ⟨vs', region', hp', d', p1, p2, p3, p4, ?_, p6, p7, by rw [hvb, List.length_append]; omega, by rw [htb, List.length_append]; omega⟩
      rw [← p5]
      unfold DetailNavmesh.part
      dsimp only
      have hfl' := h.flags
      rw [hvb, htb, List.drop_append_of_le_length (by omega), List.drop_append_of_le_length (by omega), List.drop_append_of_le_length (by omega),
        List.take_append_of_le_length (by rw [List.length_drop]; omega), List.take_append_of_le_length (by rw [List.length_drop]; omega),
        List.take_append_of_le_length (by rw [List.length_drop]; omega)]
    · rename_i hi
      have hi' : i - st.meshes.length = 0 := by
        by_contra hne
        rw [List.getElem?_eq_none (by simp; omega)] at hm
        cases hm
      rw [hi'] at hm
      cases hm
      have hin' : i = n := by have := h.count; omega
      subst hin'
      refine ⟨vs, region, hp, d, hvs, hregion, hip, hd, ?_, rfl, rfl, ?_, ?_⟩
      · unfold DetailNavmesh.part
        dsimp only
        rw [hvb, htb, List.drop_left, List.drop_left, ← h.flags, List.drop_left, List.take_of_length_le (l := List.map _ _) (by rw [hwl]),
          List.take_of_length_le (l := d.tris) (by omega), List.take_of_length_le (l := d.flags) (by omega)]
      · dsimp only
        rw [hvb, List.length_append, hwl]
      · dsimp only
        rw [htb, List.length_append]

theorem detailNavmesh_out {alloc : Allocator} {c : DetailConfig F} {mesh : PolygonNavmesh} {chf : CompactHeightfield} (hwf : chf.WellFormed)
    (hw : 1 ≤ chf.width) (hh : 1 ≤ chf.height) (hy : ∀ s ∈ chf.spans, s.y ≠ 0xFFFF) (hin : DetailInput mesh chf c.borderSize)
    (hR : c.radius o ≤ 32767) (hsd : o.lt (o.lit 0) c.sampleDist = true)
    (hst : ∀ i vs, List.Forall₂ (fun k v => mesh.vertices[k]? = some v) (mesh.polygon i) vs → StepsOk o c (vs.map (c.corner o)))
    (hA : ExactAllocator alloc ∨ A .panic) (hA' : A .panic ∨ ∀ i < mesh.polygonCount, RegionPresent mesh chf c.borderSize i) :
    Outs A (detailNavmesh o alloc c mesh chf) (IsDetailMesh o c mesh chf) := by
  unfold detailNavmesh
  split
  · rename_i h0
    have hn0 : mesh.polygonCount = 0 := by
      rw [Bool.or_eq_true, decide_eq_true_eq] at h0
      rcases h0 with h0 | h0
      · by_contra hne
        have h1 := hin.corners 0 (by omega)
        obtain ⟨k, hk⟩ : ∃ k, k ∈ mesh.polygon 0 := by
          cases hp : mesh.polygon 0 with
          | nil => rw [hp] at h1; simp at h1
          | cons k _ => exact ⟨k, by simp⟩
        obtain ⟨v, hv, _⟩ := hin.inside 0 (by omega) k hk
        rw [List.isEmpty_iff] at h0
        rw [h0] at hv
        simp at hv
      · exact h0
    exact Outs.ok ⟨hn0.symm, by simp, rfl, rfl, rfl, by simp⟩
  · refine (Outs.mapM (R := GoodBounds mesh chf c.borderSize) _ fun i hi => ?_).bind ?_
    · have hi := List.mem_range.1 hi
      exact boundsOf_out hw hh (hin.corners i hi).1 (hin.inside i hi)
    intro bounds hbounds
    dsimp only
    have hbl : bounds.length = mesh.polygonCount := by rw [← hbounds.length_eq, List.length_range]
    have hps := patchSize_le bounds (0, 0)
    dsimp only at hps
    change 0 ≤ (patchSize bounds).1 ∧ 0 ≤ (patchSize bounds).2 ∧ ∀ b ∈ bounds, b.xmin < b.xmax → b.zmin < b.zmax →
      b.xmax - b.xmin ≤ (patchSize bounds).1 ∧ b.zmax - b.zmin ≤ (patchSize bounds).2 at hps
    refine (Outs.foldlM (fun pre st => TablesInv o alloc c mesh chf ((patchSize bounds).1 * (patchSize bounds).2) pre.length st) _ _ ?_ ?_).bind ?_
    · exact ⟨List.length_replicate, List.length_replicate, fun _ => ⟨Nat.zero_le _, Nat.le_refl _⟩, fun _ => ⟨Nat.zero_le _, Nat.le_refl _⟩,
        ⟨Nat.zero_le _, Nat.zero_le _⟩, rfl, by simp, rfl, rfl, rfl, by simp⟩
    · intro pre ib post st hl hst'
      obtain ⟨i, b⟩ := ib
      have hpre : ((List.range mesh.polygonCount).zip bounds)[pre.length]? = some (i, b) := by rw [hl]; simp
      rw [List.getElem?_zip_eq_some] at hpre
      obtain ⟨h1, h2⟩ := hpre
      have hlt : pre.length < mesh.polygonCount := by
        have := (List.getElem?_eq_some_iff.1 h1).1
        simpa using this
      rw [List.getElem?_range hlt] at h1
      have hi : i = pre.length := (Option.some.inj h1).symm
      subst hi
      have hgb : GoodBounds mesh chf c.borderSize pre.length b := by
        have h2' := (List.getElem?_eq_some_iff.1 h2).1
        have := (List.forall₂_iff_get.1 hbounds).2 pre.length (by simpa using hlt) h2'
        simp only [List.get_eq_getElem, List.getElem_range] at this
        rw [List.getElem?_eq_getElem h2'] at h2
        cases h2
        exact this
      obtain ⟨q1, q2⟩ := hps.2.2 b (List.mem_of_getElem? h2) hgb.2.1 hgb.2.2.1
      rw [List.length_append, List.length_singleton]
      refine detailStep_out hwf hy hin hR hsd hst hA hlt ?_ hgb (Nat.mul_le_mul q1 q2) hst'
      rcases hA' with h | h
      · exact Or.inl h
      · exact Or.inr (h _ hlt)
    · intro st h
      have hn : ((List.range mesh.polygonCount).zip bounds).length = mesh.polygonCount := by simp [hbl]
      rw [hn] at h
      refine Outs.ok ⟨h.count, h.bases, h.vertices, h.triangles, h.flags, ?_⟩
      intro i m hm
      obtain ⟨vs, region, hp, d, p1, p2, p3, p4, p5, p6, p7, _⟩ := h.parts i m hm
      exact ⟨vs, region, hp, d, p1, p2, p3, p4, p5, p6, p7⟩

end Rerecast
