import Verif.Spec.Seams
import Verif.Lemmas.Seams
import Verif.Props.C50_C69_DetailMesh
import Verif.Props.C70_C71_DetailError
/-!
C101: neighbouring polygons have the same detail vertices on the side between them.
-/
set_option linter.unusedVariables false
namespace Rerecast
variable {F : Type}

theorem swapEnds_told {o : FloatOps F} {a b : Vec3 F} (h : ToldApart o a b) : swapEnds o b a = !swapEnds o a b := by
  obtain ⟨h1, h2⟩ := h
  unfold swapEnds
  rw [← h1]
  by_cases hc : o.lt (o.abs (o.sub a.x b.x)) (o.lit (1 / 1000000)) = true
  · rw [if_pos hc] at h2
    rw [if_pos hc, if_pos hc]
    revert h2
    cases o.lt a.z b.z <;> cases o.lt b.z a.z <;> simp
  · rw [if_neg hc] at h2
    rw [if_neg hc, if_neg hc]
    revert h2
    cases o.lt a.x b.x <;> cases o.lt b.x a.x <;> simp

/-- Every sub-mesh has vertices on its sides, found in this way. -/
theorem sideVertices_exist (o : FloatOps F) (alloc : Allocator) (c : DetailConfig F) (mesh : PolygonNavmesh) (chf : CompactHeightfield)
    (hwf : chf.WellFormed) (hw : 1 ≤ chf.width) (hh : 1 ≤ chf.height) (hy : ∀ s ∈ chf.spans, s.y ≠ 0xFFFF) (hin : DetailInput mesh chf c.borderSize)
    (hR : c.radius o ≤ 32767) (hst : SidesCountable o c mesh) (dm : DetailNavmesh F) (hdm : detailNavmesh o alloc c mesh chf = .ok dm)
    (i : Nat) (m : SubMesh) (hm : dm.meshes[i]? = some m) : ∃ hp ext, SideVertices o c mesh chf dm i m hp ext := by
  obtain ⟨vs, region, hp, d, h1, h2, h3, h4, h5, h6, h7⟩ := (c66_tables o alloc c mesh chf hwf hw hh hy hin hR hst dm hdm).parts i m hm
  obtain ⟨hull, k, ⟨ext, g1⟩, g2, _⟩ := h4.outline
  exact ⟨hp, ext, vs, region, d.verts, d.tris, d.flags, hull, k, h1, h2, h3, by rw [h6]; exact h5, by rw [h6]; exact g2, g1⟩

theorem SideVertices.side {o : FloatOps F} {c : DetailConfig F} {mesh : PolygonNavmesh} {chf : CompactHeightfield} {dm : DetailNavmesh F} {i : Nat} {m : SubMesh}
    {hp : HeightPatch} {ext : List (List Nat)} (h : SideVertices o c mesh chf dm i m hp ext) {j : Nat} {u v : Nat}
    (hu : (mesh.polygon i)[(j + (mesh.polygon i).length - 1) % (mesh.polygon i).length]? = some u) (hv : (mesh.polygon i)[j]? = some v) {vu vv : U16Vec3}
    (eu : mesh.vertices[u]? = some vu) (ev : mesh.vertices[v]? = some vv) :
    ∃ l verts nv, ext[j]? = some l ∧ nv ≤ m.vertexCount ∧ OnSide o c hp verts nv (cornerPos o c vu) (cornerPos o c vv) l ∧
      l.map ((dm.part m).1[·]?) = (l.map (verts[·]?)).map (Option.map (worldPos o c)) := by
  obtain ⟨vs, region, verts, tris, flags, hull, k, h1, h2, h3, h5, hk, hel, _, hle, hflat, hside⟩ := h
  have hlen := h1.length_eq
  rw [List.length_map] at hel hle hflat hside
  have hj : j < (mesh.polygon i).length := (List.getElem?_eq_some_iff.1 hv).1
  have hj' : (j + (mesh.polygon i).length - 1) % (mesh.polygon i).length < (mesh.polygon i).length := Nat.mod_lt _ (by omega)
  have at_ : ∀ (q : Nat) w vw, (mesh.polygon i)[q]? = some w → mesh.vertices[w]? = some vw → (vs.map (cornerPos o c))[q]? = some (cornerPos o c vw) := by
    intro q w vw hq hw
    obtain ⟨hql, e⟩ := List.getElem?_eq_some_iff.1 hq
    have := (List.forall₂_iff_get.1 h1).2 q hql (by omega)
    simp only [List.get_eq_getElem, e, hw, Option.some.injEq] at this
    rw [List.getElem?_map, List.getElem?_eq_getElem (by omega), ← this]
    rfl
  obtain ⟨a, b, ha, hb, hs⟩ := hside j _ (List.getElem?_eq_getElem (show j < ext.length by omega))
  rw [← hlen] at ha
  rw [at_ _ _ _ hu eu] at ha
  rw [at_ _ _ _ hv ev] at hb
  cases ha
  cases hb
  refine ⟨_, verts, _, List.getElem?_eq_getElem (show j < ext.length by omega), ?_, hs, ?_⟩
  · have h1 : (ext.take j).flatten.length ≤ ext.flatten.length := by
      conv_rhs => rw [← List.take_append_drop j ext, List.flatten_append, List.length_append]
      omega
    rw [hflat, List.length_range'] at h1
    omega
  · rw [h5, List.map_map]
    refine List.map_congr_left fun w hw => ?_
    have : w ∈ ext.flatten := List.mem_flatten.2 ⟨_, List.getElem_mem (show j < ext.length by omega), hw⟩
    rw [hflat, List.mem_range'_1] at this
    dsimp only
    rw [List.getElem?_map, List.getElem?_take_of_lt (by omega)]
    rfl

/-- **C101.** Let two polygons of the mesh have a side in common: corners `u` and `v` follow each other in polygon `i`, and `v` and `u` in polygon `i'`.  If the height
patches of the two polygons give the same heights along the side, then the two sub-meshes have the same vertices on it, in opposite order: as many, at
exactly the same positions, whatever the rounding is.  So there are no seams.  (The sub-meshes have at most 95 vertices, so that the limit of 127
vertices does not reduce the number of samples; and the comparisons tell the corners apart.) -/
theorem c101_no_seams (o : FloatOps F) (c : DetailConfig F) (mesh : PolygonNavmesh) (chf : CompactHeightfield) (dm : DetailNavmesh F)
    (i i' : Nat) (m m' : SubMesh) (hp hp' : HeightPatch) (ext ext' : List (List Nat))
    (hs : SideVertices o c mesh chf dm i m hp ext) (hs' : SideVertices o c mesh chf dm i' m' hp' ext') (h95 : m.vertexCount ≤ 95) (h95' : m'.vertexCount ≤ 95)
    (j j' u v : Nat) (vu vv : U16Vec3) (eu : mesh.vertices[u]? = some vu) (ev : mesh.vertices[v]? = some vv)
    (hu : (mesh.polygon i)[(j + (mesh.polygon i).length - 1) % (mesh.polygon i).length]? = some u) (hv : (mesh.polygon i)[j]? = some v)
    (hv' : (mesh.polygon i')[(j' + (mesh.polygon i').length - 1) % (mesh.polygon i').length]? = some v) (hu' : (mesh.polygon i')[j']? = some u)
    (htold : ToldApart o (cornerPos o c vu) (cornerPos o c vv))
    (hagree : HeightsAgree o c hp hp' (cornerPos o c vu) (cornerPos o c vv)) (hagree' : HeightsAgree o c hp hp' (cornerPos o c vv) (cornerPos o c vu)) :
    ∃ l l', ext[j]? = some l ∧ ext'[j']? = some l' ∧ l.map ((dm.part m).1[·]?) = (l'.map ((dm.part m').1[·]?)).reverse := by
  obtain ⟨l, verts, nv, e1, n1, s1, p1⟩ := hs.side hu hv eu ev
  obtain ⟨l', verts', nv', e2, n2, s2, p2⟩ := hs'.side hv' hu' ev eu
  refine ⟨l, l', e1, e2, ?_⟩
  have hsw := swapEnds_told htold
  have steps : ∀ a b : Vec3 F, sideSteps o c a b nv = sideSteps o c a b nv' := by
    intro a b
    unfold sideSteps
    dsimp only
    omega
  have key : l.map (verts[·]?) = (l'.map (verts'[·]?)).reverse := by
    cases hb : swapEnds o (cornerPos o c vu) (cornerPos o c vv) with
    | false =>
      rw [hb] at hsw
      exact seam_core s1 s2 hb hsw (steps _ _) hagree
    | true =>
      rw [hb] at hsw
      have := seam_core s2 s1 hsw hb (steps _ _).symm (fun n k hk h31 => (hagree' n k hk h31).symm)
      rw [this, List.reverse_reverse]
  rw [p1, p2, key, List.map_reverse]

/-- **C101 (exact arithmetic).** Without rounding, corners at different places are told apart if cells are not smaller than a millionth. -/
theorem c101_told_apart (c : DetailConfig Rat) (hcs : 1 / 1000000 ≤ c.cellSize) (a b : U16Vec3) (h : (a.x, a.z) ≠ (b.x, b.z)) :
    ToldApart exactOps (cornerPos exactOps c a) (cornerPos exactOps c b) := by
  have hpos : 0 < c.cellSize := lt_of_lt_of_le (by norm_num) hcs
  have ne : ∀ x y : Nat, x ≠ y → (decide ((x : Rat) * c.cellSize < y * c.cellSize)) ≠ decide ((y : Rat) * c.cellSize < x * c.cellSize) := by
    intro x y hxy e
    rw [decide_eq_decide, mul_lt_mul_iff_left₀ hpos, mul_lt_mul_iff_left₀ hpos, Nat.cast_lt, Nat.cast_lt] at e
    omega
  have eabs : ∀ x : Rat, exactOps.abs x = |x| := by
    intro x
    simp only [exactOps]
    split
    · rename_i hx; rw [abs_of_neg hx]
    · rename_i hx; rw [abs_of_nonneg (not_lt.1 hx)]
  have ex : ∀ v : U16Vec3, (cornerPos exactOps c v).x = v.x * c.cellSize := fun v => by simp [cornerPos, exactOps]
  have ez : ∀ v : U16Vec3, (cornerPos exactOps c v).z = v.z * c.cellSize := fun v => by simp [cornerPos, exactOps]
  have elt : ∀ x y : Rat, exactOps.lt x y = decide (x < y) := fun _ _ => rfl
  have esub : ∀ x y : Rat, exactOps.sub x y = x - y := fun _ _ => rfl
  have elit : ∀ x : Rat, exactOps.lit x = x := fun _ => rfl
  unfold ToldApart
  rw [ex, ex, ez, ez, esub, esub, eabs, eabs, abs_sub_comm, elit]
  refine ⟨rfl, ?_⟩
  simp only [elt, decide_eq_true_eq]
  split
  · rename_i hx
    refine ne _ _ fun e => ?_
    refine h (Prod.ext ?_ e)
    by_contra hne
    have : (1 : Rat) ≤ |(b.x : Rat) - a.x| := by
      rcases Nat.lt_or_gt_of_ne hne with g | g
      · have : (a.x : Rat) + 1 ≤ b.x := by exact_mod_cast g
        rw [abs_of_nonneg (by linarith)]; linarith
      · have : (b.x : Rat) + 1 ≤ a.x := by exact_mod_cast g
        rw [abs_of_nonpos (by linarith)]; linarith
    rw [← sub_mul, abs_mul, abs_of_pos hpos] at hx
    have := mul_le_mul this (le_refl c.cellSize) hpos.le (abs_nonneg _)
    linarith
  · rename_i hx
    refine ne _ _ fun e => hx ?_
    rw [e, sub_self, abs_zero]
    norm_num

/-- **C101 (one layer).** Two patches made for the same region give the same height at a point, if the heights are looked up in the same cell of the
field, and this cell has just one span, of that region. -/
theorem c101_one_layer (o : FloatOps F) (c : DetailConfig F) (chf : CompactHeightfield) (bs region : Nat) (hr : region ≠ REGION_NONE) (vs vs' : List U16Vec3)
    (hp hp' : HeightPatch) (h : IsPatch chf bs region vs hp) (h' : IsPatch chf bs region vs' hp') (q : Vec3 F) (x z x' z' : Nat)
    (hx : x < hp.width) (hz : z < hp.height) (hx' : x' < hp'.width) (hz' : z' < hp'.height)
    (hl : lookupCell o q (o.div (o.lit 1) c.chfCellSize) hp = ((x : Int), (z : Int)))
    (hl' : lookupCell o q (o.div (o.lit 1) c.chfCellSize) hp' = ((x' : Int), (z' : Int)))
    (ex : x + hp.xmin = x' + hp'.xmin) (ez : z + hp.zmin = z' + hp'.zmin)
    (i : Nat) (s : CompactSpan) (hat : chf.At (x + hp.xmin + bs) (z + hp.zmin + bs) i s) (hs : s.region = region)
    (hone : ∀ j t, chf.At (x + hp.xmin + bs) (z + hp.zmin + bs) j t → j = i) :
    c.height o hp q = .ok s.y ∧ c.height o hp' q = .ok s.y := by
  refine ⟨height_one_layer h hr hat hs hone hx hz hl, ?_⟩
  rw [ex, ez] at hat hone
  exact height_one_layer h' hr hat hs hone hx' hz' hl'

/-- The 3 × 3 plain with a block in the middle. -/
def bumpyChf : CompactHeightfield :=
  { flatChf.oneRegion with spans := flatChf.oneRegion.spans.zipIdx.map fun p => { p.1 with y := if p.2 = 4 then 9 else p.1.y } }

theorem bumpyChf_wellFormed : bumpyChf.WellFormed where
  width_u16 := flatChf_wellFormed.oneRegion.width_u16
  height_u16 := flatChf_wellFormed.oneRegion.height_u16
  cells_len := flatChf_wellFormed.oneRegion.cells_len
  areas_len := by simpa [bumpyChf] using flatChf_wellFormed.oneRegion.areas_len
  partition := by simpa [bumpyChf] using flatChf_wellFormed.oneRegion.partition
  con := by
    intro x hx z hz cell hc i hi s hs d hd k hk
    simp only [bumpyChf, List.getElem?_map, Option.map_eq_some_iff, List.getElem?_zipIdx] at hs
    obtain ⟨_, ⟨s0, hs0, rfl⟩, rfl⟩ := hs
    exact flatChf_wellFormed.oneRegion.con x hx z hz cell hc i hi s0 hs0 d hd k hk

theorem bumpyChf_cells : ∀ x < 3, ∀ z < 3, bumpyChf.cells[x + z * 3]? = some ⟨x + z * 3, 1⟩ := by decide +kernel
theorem bumpyChf_spans : ∀ i < 9, ∃ s, bumpyChf.spans[i]? = some s ∧ s.region = 1 := by
  intro i hi
  refine ⟨bumpyChf.spans[i]'(lt_of_lt_of_le hi (by decide +kernel)), List.getElem?_eq_getElem _, ?_⟩
  revert i
  decide +kernel

/-- The patches of the two triangles agree at all points. -/
theorem bumpyChf_heights {i : Nat} {m : SubMesh} {dm : DetailNavmesh Rat} {hp : HeightPatch} {ext : List (List Nat)} (hi : i < 2)
    (h : SideVertices exactOps (sampleConfig 1) sampleMesh bumpyChf dm i m hp ext) (q : Vec3 Rat) :
    ∃ s, bumpyChf.spans[(max 0 (min (exactOps.toI32 (exactOps.floor (exactOps.add (exactOps.mul q.x 1) (1 / 100)))) 2) +
      max 0 (min (exactOps.toI32 (exactOps.floor (exactOps.add (exactOps.mul q.z 1) (1 / 100)))) 2) * 3).toNat]? = some s ∧
    (sampleConfig 1).height exactOps hp q = .ok s.y := by
  obtain ⟨vs, region, _, _, _, _, _, h1, h2, h3, _⟩ := h
  have hreg : region = 1 := by
    rcases i with _ | _ | i
    · cases h2; rfl
    · cases h2; rfl
    · omega
  subst hreg
  have hbox : hp.xmin = 0 ∧ hp.width = 3 ∧ hp.zmin = 0 ∧ hp.height = 3 := by
    obtain ⟨hx, hz, _⟩ := h3
    have e1 : bumpyChf.width = 3 := by decide +kernel
    have e2 : bumpyChf.height = 3 := by decide +kernel
    rw [e1] at hx
    rw [e2] at hz
    rcases sampleMesh_corners h1 with ⟨_, rfl⟩ | ⟨_, rfl⟩ | ⟨h2, rfl⟩
    · have g1 := hx.1 0 (by simp); have g3 := hz.1 0 (by simp)
      have g5 := hx.2.2; have g6 := hz.2.2
      have g7 := hx.1 3 (by simp); have g8 := hz.1 3 (by simp)
      simp at g5 g6
      omega
    · have g1 := hx.1 0 (by simp); have g3 := hz.1 0 (by simp)
      have g5 := hx.2.2; have g6 := hz.2.2
      have g7 := hx.1 3 (by simp); have g8 := hz.1 3 (by simp)
      simp at g5 g6
      omega
    · omega
  obtain ⟨b1, b2, b3, b4⟩ := hbox
  generalize ex : max 0 (min (exactOps.toI32 (exactOps.floor (exactOps.add (exactOps.mul q.x 1) (1 / 100)))) 2) = x
  generalize ez : max 0 (min (exactOps.toI32 (exactOps.floor (exactOps.add (exactOps.mul q.z 1) (1 / 100)))) 2) = z
  obtain ⟨x, rfl⟩ := Int.eq_ofNat_of_zero_le (show 0 ≤ x by omega)
  obtain ⟨z, rfl⟩ := Int.eq_ofNat_of_zero_le (show 0 ≤ z by omega)
  have hx : x < 3 := by omega
  have hz : z < 3 := by omega
  have et : ((x : Int) + z * 3).toNat = x + z * 3 := by omega
  rw [et]
  obtain ⟨s, hs, hs1⟩ := bumpyChf_spans (x + z * 3) (by omega)
  refine ⟨s, hs, ?_⟩
  refine height_one_layer (i := x + z * 3) (x := x) (z := z) (s := s) h3 (by decide) ?_ hs1 ?_ (by omega) (by omega) ?_
  · rw [b1, b3]
    exact ⟨hx, hz, hs, _, bumpyChf_cells x hx z hz, by simp [CompactCell.indexRange, sampleConfig]⟩
  · rw [b1, b3]
    rintro j t ⟨_, _, _, cell, h5, h6⟩
    have h5 : bumpyChf.cells[x + z * 3]? = some cell := h5
    rw [bumpyChf_cells x hx z hz] at h5
    cases h5
    simpa [CompactCell.indexRange] using h6
  · unfold lookupCell
    rw [b1, b2, b3, b4]
    have : exactOps.div (exactOps.lit 1) (sampleConfig 1).chfCellSize = 1 := by decide +kernel
    rw [this]
    refine Prod.ext ?_ ?_
    · rw [← ex]; simp [exactOps]
    · rw [← ez]; simp [exactOps]

theorem bumpyMesh_ok : DetailInput sampleMesh bumpyChf (sampleConfig 1).borderSize :=
  ⟨sampleMesh_ok.1.few, sampleMesh_ok.1.corners, sampleMesh_ok.1.inside, sampleMesh_ok.1.regions⟩

/-- Two triangles over a plain with a block in the middle: their common side, the diagonal, gets a vertex on the block. -/
theorem bumpyMesh_detail : (detailNavmesh exactOps doublingAllocator (sampleConfig 1) sampleMesh bumpyChf).map
    (fun dm => (dm.meshes, (dm.vertices.map fun v => (v.x, v.y, v.z)).drop 3)) =
    .ok ([⟨0, 5, 0, 4⟩, ⟨5, 5, 4, 4⟩], [(56 / 5, 5, 106 / 5), (109 / 10, 3, 219 / 10),
      (10, 3, 20), (13, 3, 23), (13, 3, 20), (56 / 5, 5, 106 / 5), (119 / 10, 3, 209 / 10)]) := by decide +kernel

/-- These triangles meet the hypotheses of `c101_no_seams`. -/
example : ∃ dm hp hp' ext ext', detailNavmesh exactOps doublingAllocator (sampleConfig 1) sampleMesh bumpyChf = .ok dm ∧
    SideVertices exactOps (sampleConfig 1) sampleMesh bumpyChf dm 0 ⟨0, 5, 0, 4⟩ hp ext ∧
    SideVertices exactOps (sampleConfig 1) sampleMesh bumpyChf dm 1 ⟨5, 5, 4, 4⟩ hp' ext' ∧
    (sampleMesh.polygon 0)[(0 + 3 - 1) % 3]? = some 2 ∧ (sampleMesh.polygon 0)[0]? = some 0 ∧
    (sampleMesh.polygon 1)[(1 + 3 - 1) % 3]? = some 0 ∧ (sampleMesh.polygon 1)[1]? = some 2 ∧
    ToldApart exactOps (cornerPos exactOps (sampleConfig 1) ⟨3, 5, 3⟩) (cornerPos exactOps (sampleConfig 1) ⟨0, 5, 0⟩) ∧
    (∀ a b, HeightsAgree exactOps (sampleConfig 1) hp hp' a b) := by
  have hd := bumpyMesh_detail
  cases hdm : detailNavmesh exactOps doublingAllocator (sampleConfig 1) sampleMesh bumpyChf with
  | error e => rw [hdm] at hd; cases hd
  | ok dm =>
    rw [hdm] at hd
    simp only [Except.map, Except.ok.injEq, Prod.mk.injEq] at hd
    have hy : ∀ s ∈ bumpyChf.spans, s.y ≠ 0xFFFF := by decide +kernel
    have ex : ∀ i m, dm.meshes[i]? = some m → ∃ hp ext, SideVertices exactOps (sampleConfig 1) sampleMesh bumpyChf dm i m hp ext := fun i m hm =>
      sideVertices_exist exactOps doublingAllocator (sampleConfig 1) sampleMesh bumpyChf bumpyChf_wellFormed (by decide +kernel) (by decide +kernel) hy
        bumpyMesh_ok sampleMesh_ok.2.2.2.2.1 sampleMesh_ok.2.1 dm hdm i m hm
    obtain ⟨hp, ext, h1⟩ := ex 0 ⟨0, 5, 0, 4⟩ (by rw [hd.1]; rfl)
    obtain ⟨hp', ext', h2⟩ := ex 1 ⟨5, 5, 4, 4⟩ (by rw [hd.1]; rfl)
    refine ⟨dm, hp, hp', ext, ext', rfl, h1, h2, by decide +kernel, by decide +kernel, by decide +kernel, by decide +kernel, ?_, ?_⟩
    · exact c101_told_apart (sampleConfig 1) (by decide +kernel) _ _ (by decide)
    · intro a b n k _ _
      dsimp only
      obtain ⟨s, e1, e2⟩ := bumpyChf_heights (by omega) h1 (Vec3.add exactOps a (Vec3.scale exactOps (Vec3.sub exactOps b a) (exactOps.div (exactOps.ofInt k) (exactOps.ofInt n))))
      obtain ⟨s', e3, e4⟩ := bumpyChf_heights (by omega) h2 (Vec3.add exactOps a (Vec3.scale exactOps (Vec3.sub exactOps b a) (exactOps.div (exactOps.ofInt k) (exactOps.ofInt n))))
      rw [e1] at e3
      cases e3
      rw [e2, e4]

/-- Two plains with a gap of two cells in between, and a block on the second next to the gap. -/
def gapOps : List Insertion := [0, 1, 4, 5].flatMap fun x => (List.range 6).map fun z => ⟨x, z, 1, 0, if x = 4 ∧ z = 3 then 9 else 5, 255⟩
def gapChf : CompactHeightfield :=
  match (Heightfield.new 6 6).insertAll gapOps with
  | .ok hf => match hf.intoCompact 10 4 with
    | .ok c => c.oneRegion
    | .error _ => ⟨0, 0, 0, 0, 0, 0, 0, [], [], [], []⟩
  | .error _ => ⟨0, 0, 0, 0, 0, 0, 0, [], [], [], []⟩
def gapMesh : PolygonNavmesh :=
  ⟨[⟨0, 9, 0⟩, ⟨0, 9, 6⟩, ⟨3, 9, 6⟩, ⟨3, 9, 0⟩, ⟨6, 9, 6⟩, ⟨6, 9, 0⟩], [0, 1, 2, 3, 3, 2, 4, 5], [], [0, 0], [1, 1], [255, 255], 4⟩

/-- **C101 (the heights must agree).** Where polygons meet over a gap, the nearest heights found from the two sides can differ: the patch of a polygon
extends just one cell beyond its box.  Here the side at x = 13 has two further vertices in the second sub-mesh, none in the first. -/
theorem c101_seam_over_gap : (detailNavmesh exactOps doublingAllocator (sampleConfig 1) gapMesh gapChf).map (fun dm => dm.meshes.map fun m =>
      ((dm.part m).1.map fun v => (v.x, v.y, v.z)).filter fun p => p.1 = 13) =
    .ok [[(13, 5, 26), (13, 5, 20)], [(13, 5, 20), (13, 5, 26), (13, 3, 152 / 7), (13, 5, 158 / 7)]] := by decide +kernel

theorem c101_seam_input : gapChf.WellFormed ∧ DetailInput gapMesh gapChf (sampleConfig 1).borderSize := by
  refine ⟨?_, ⟨by decide +kernel, by decide +kernel, ?_, by decide +kernel⟩⟩
  · have h1 : ∃ hf, (Heightfield.new 6 6).insertAll gapOps = .ok hf ∧ hf.spanCount < 2 ^ 32 := by
      cases h : (Heightfield.new 6 6).insertAll gapOps with
      | ok hf =>
        refine ⟨hf, rfl, ?_⟩
        have : ((Heightfield.new 6 6).insertAll gapOps).map (·.spanCount) = .ok 24 := by decide +kernel
        rw [h] at this
        injection this with this
        exact lt_of_eq_of_lt this (by decide)
      | error e =>
        have : ((Heightfield.new 6 6).insertAll gapOps).map (·.spanCount) = .ok 24 := by decide +kernel
        rw [h] at this
        cases this
    obtain ⟨hf, hhf, hsc⟩ := h1
    have h2 : (hf.intoCompact 10 4).map (·.width) = .ok 6 := by
      have : (((Heightfield.new 6 6).insertAll gapOps).bind fun hf => (hf.intoCompact 10 4).map (·.width)) = .ok 6 := by decide +kernel
      rw [hhf] at this
      exact this
    cases hc : hf.intoCompact 10 4 with
    | error e => rw [hc] at h2; cases h2
    | ok chf =>
      have : gapChf = chf.oneRegion := by
        unfold gapChf
        rw [hhf]
        dsimp only
        rw [hc]
      rw [this]
      exact (wellFormed_of_ops (w := 6) (h := 6) (ops := gapOps) (by unfold ValidOps; decide +kernel) (by decide +kernel) (by decide) (by decide) hhf hsc hc).oneRegion
  · intro i hi k hk
    have hi : i < 2 := hi
    have hk6 : k < 6 := by
      rcases i with _ | _ | i
      · rw [show gapMesh.polygon 0 = [0, 1, 2, 3] by decide +kernel] at hk
        simp at hk; omega
      · rw [show gapMesh.polygon (0 + 1) = [3, 2, 4, 5] by decide +kernel] at hk
        simp at hk; omega
      · omega
    refine ⟨gapMesh.vertices[k], List.getElem?_eq_getElem hk6, ?_⟩
    clear hk hi
    revert k
    decide +kernel

end Rerecast
