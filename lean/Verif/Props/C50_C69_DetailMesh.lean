import Verif.Lemmas.DetailMesh
import Verif.Props.C40_C43_Contours
/-!
C50–C52 and C66–C69: the detail mesh.  The floating point operations are arbitrary (`FloatOps`) unless a theorem says otherwise, so the
theorems hold for IEEE floats with all their rounding.
-/
namespace Rerecast
variable {F : Type}

/-! ### Concrete data -/

/-- The integer square root, bit by bit. -/
def isqrt (n : Nat) : Nat := (List.range 48).reverse.foldl (fun r k => if (r + 2 ^ k) * (r + 2 ^ k) ≤ n then r + 2 ^ k else r) 0

/-- Exact arithmetic on rationals, with square roots rounded down to multiples of a thousandth. -/
def exactOps : FloatOps Rat where
  lit q := q
  maxVal := 340282346638528859811704183484516925440
  add := (· + ·)
  sub := (· - ·)
  mul := (· * ·)
  div := (· / ·)
  neg := (- ·)
  abs q := if q < 0 then -q else q
  sqrt q := (isqrt (q * 1000000).floor.toNat : Rat) / 1000
  floor q := q.floor
  ceil q := q.ceil
  min a b := if a ≤ b then a else b
  max a b := if a ≤ b then b else a
  clamp v lo hi := if v < lo then lo else if hi < v then hi else v
  lt a b := decide (a < b)
  le a b := decide (a ≤ b)
  beq a b := decide (a = b)
  ofInt i := i
  toI32 q := max (-2147483648) (min 2147483647 (if q < 0 then -(-q).floor else q.floor))
  toU32 q := (max 0 (min 4294967295 q.floor)).toNat
  toUsize q := (max 0 (min 18446744073709551615 q.floor)).toNat

/-- Cells of size 1 and height 1/2, no border. -/
def sampleConfig (dist : Rat) : DetailConfig Rat := ⟨1, 1 / 2, ⟨10, 0, 20⟩, 13 / 10, 1, 1 / 2, dist, 1, 0⟩

/-- The square over the 3 × 3 plain, cut into two triangles of region 1. -/
def sampleMesh : PolygonNavmesh :=
  ⟨[⟨0, 5, 0⟩, ⟨0, 5, 3⟩, ⟨3, 5, 3⟩, ⟨3, 5, 0⟩], [0, 1, 2, 0, 2, 3], [], [0, 0], [1, 1], [255, 255], 3⟩

def samplePatch : HeightPatch := ⟨[7, 0xFFFF, 0xFFFF, 0xFFFF, 3, 0xFFFF], 0, 0, 3, 2⟩

/-- The allocator of the Rust standard library: at least twice the old capacity whenever the vector grows. -/
def doublingAllocator : Allocator := fun capacity len more => if more ≤ capacity - len then capacity else max 4 (max (2 * capacity) (len + more))

/-! ### C50 -/

/-- **C50.** `triangulate_hull` on a hull of `n ≥ 3` vertices ends with exactly `n - 2` triangles.  Their corners are vertices of the hull
in the order of the hull, no directed side is used twice, and together they have the boundary of the hull. -/
theorem c50_hull_triangulation (o : FloatOps F) (verts : List (Vec3 F)) (hull : List Nat) (nin : Nat) (h3 : 3 ≤ hull.length)
    (hin : ∀ v ∈ hull, v < verts.length ∧ v < 256) :
    ∃ T, triangulateHull o verts hull nin = .ok T ∧ T.length = hull.length - 2 ∧ (∀ t ∈ T, InOrder (Tri.corners t) hull ∧ ∀ v ∈ Tri.corners t, v ∈ hull) ∧
      (hull.Nodup → (allSides (T.map Tri.corners)).Nodup) ∧ SameBoundary (T.map Tri.corners) hull := by
  rcases triangulateHull_out (A := fun _ => False) (o := o) hin h3 nin with ⟨T, h, ht⟩ | ⟨e, _, he⟩
  · exact ⟨T, h, ht.count, fun t htm => ⟨ht.order t htm, fun v hv => (ht.order t htm).mem hv⟩, ht.once, ht.boundary⟩
  · exact he.elim

example : (∀ v ∈ [3, 0, 4, 1, 2], v < 5 ∧ v < 256) ∧
    triangulateHull exactOps [⟨0, 0, 0⟩, ⟨0, 0, 3⟩, ⟨3, 0, 3⟩, ⟨3, 0, 0⟩, ⟨0, 1, 1⟩] [3, 0, 4, 1, 2] 4 = .ok [(0, 4, 3), (4, 1, 3), (1, 2, 3)] := by
  decide +kernel

/-! ### C51 -/

/-- **C51.** Filling the height patch with the periodically compacted queue is serving a plain queue in the order of arrival: `visit` handles
the entries exactly as they were pushed, each once and in this order. -/
theorem c51_flood_is_fifo (chf : CompactHeightfield) (bs fuel : Nat) (hp : HeightPatch) (queue : List Seed) :
    HeightPatch.flood chf bs fuel hp queue 0 = fifo (HeightPatch.visit chf bs) fuel hp queue :=
  HeightPatch.flood_fifo _ _ _ _ _ _ (by decide) (Nat.zero_le _)

/-- The queue is compacted: after 256 entries have been served, the first 256 are dropped. -/
example : (HeightPatch.retract (List.replicate 300 ((0 : Int), (0 : Int), 0)) 256).map (fun r => (r.1.length, r.2)) = .ok (44, 0) := by decide +kernel

/-! ### C67 -/

/-- **C67.** The flags of a triangle have bit 0, 2 or 4 set exactly when its first, second or third side is a side of the outline. -/
theorem c67_triangle_flags (hull : List Nat) (hlt : ∀ v ∈ hull, v < hull.length) (tris : List DTri) :
    ∃ flags, setTriFlags hull tris = .ok flags ∧ List.Forall₂ (HullFlags hull) tris flags := by
  rcases setTriFlags_out (A := fun _ => False) hlt tris with ⟨f, h, hf⟩ | ⟨e, _, he⟩
  · exact ⟨f, h, hf⟩
  · exact he.elim

example : (∀ v ∈ [3, 0, 1, 2], v < [3, 0, 1, 2].length) ∧ setTriFlags [3, 0, 1, 2] [(0, 1, 3), (1, 2, 3)] = .ok [17, 5] := by decide +kernel

/-! ### C68 -/

/-- **C68.** The height looked up for a point is the height of a cell of the patch that has one, at the smallest number of cells from
the cell of the point (diagonals counting as one) and at most `radius` away; of the cells at this distance none has a height
closer to the point's.  If there is no such cell, the result is `0xFFFF`.  Of the float comparison it is only assumed that it is a strict
order and that the height errors are below `f32::MAX`. -/
theorem c68_nearest_height (o : FloatOps F) (c : DetailConfig F) (hp : HeightPatch) (p : Vec3 F) (hw : 1 ≤ hp.width) (hh : 1 ≤ hp.height)
    (hlen : hp.width * hp.height ≤ hp.data.length) (hR : c.radius o ≤ 32767)
    (hmax : ∀ h ∈ hp.data, o.lt (heightError o c.chfCellHeight p.y h) o.maxVal = true)
    (htr : ∀ a b c, o.lt a b = true → o.lt b c = true → o.lt a c = true) (hir : ∀ a, o.lt a a = false) :
    ∃ h, c.height o hp p = .ok h ∧ hp.NearestHeight
      (fun h' h => o.lt (heightError o c.chfCellHeight p.y h') (heightError o c.chfCellHeight p.y h) = true) (c.radius o)
      (lookupCell o p (o.div (o.lit 1) c.chfCellSize) hp) h := by
  have h1 : 1 ≤ c.radius o := Nat.le_max_left _ _
  rcases getHeight_out (A := fun _ => False) (o := o) (f := p) (ics := o.div (o.lit 1) c.chfCellSize) hw hh hlen hR h1 hmax htr hir with ⟨h, h2, h3⟩ | ⟨e, _, he⟩
  · exact ⟨h, h2, h3⟩
  · exact he.elim

/-- In the sample patch the cell (2, 0) has no height.  Its neighbour (1, 1) has, at the distance of one cell. -/
example : samplePatch.width * samplePatch.height ≤ samplePatch.data.length ∧ (sampleConfig 1).radius exactOps = 2 ∧
    (∀ h ∈ samplePatch.data, exactOps.lt (heightError exactOps (1 / 2) 3 h) exactOps.maxVal = true) ∧
    (sampleConfig 1).height exactOps samplePatch ⟨5 / 2, 3, 1 / 2⟩ = .ok 3 := by decide +kernel

example (a b c : Rat) : (exactOps.lt a b = true → exactOps.lt b c = true → exactOps.lt a c = true) ∧ exactOps.lt a a = false := by
  simp only [exactOps, decide_eq_true_eq, decide_eq_false_iff_not]
  exact ⟨fun h1 h2 => lt_trans h1 h2, lt_irrefl a⟩

/-- **C68 (contents of patches).** When filling a patch from the region `region` ends well, its heights are those of connected spans, one in a
cell: they start from the lowest span of the region in each cell of the patch and spread to all cells reached.  If the region has spans
in the patch, filling it neither panics nor runs forever. -/
theorem c68_patch_contents (o : FloatOps F) (chf : CompactHeightfield) (hwf : chf.WellFormed) (hy : ∀ s ∈ chf.spans, s.y ≠ 0xFFFF) (hp : HeightPatch)
    (bs region : Nat) (hlen : hp.width * hp.height ≤ hp.data.length) (hx : hp.xmin + hp.width + bs ≤ chf.width)
    (hz : hp.zmin + hp.height + bs ≤ chf.height) (poly : List Nat) (verts : List (Vec3 F)) (hr : region ≠ REGION_NONE)
    (hroot : ∃ i, hp.IsRoot chf bs region i) :
    ∃ hp', HeightPatch.getHeightData o chf hp poly verts bs region = .ok hp' ∧ hp'.xmin = hp.xmin ∧ hp'.zmin = hp.zmin ∧ hp'.width = hp.width ∧
      hp'.height = hp.height ∧ ∃ C, hp'.Covers chf bs (hp.IsRoot chf bs region) C := by
  rcases HeightPatch.getHeightData_out (o := o) hwf hy (hp := hp) hlen hx hz (poly := poly) (verts := verts) (region := region) with ⟨hp', h, hal, hc⟩ | ⟨e, _, _, hno⟩
  · rcases hc with ⟨_, _, hc⟩ | ⟨hno, _⟩
    · exact ⟨hp', h, hal.xmin, hal.zmin, hal.width, hal.height, hc⟩
    · rcases hno with h | h
      · exact absurd h hr
      · obtain ⟨i, hi⟩ := hroot
        exact absurd hi (h i)
  · rcases hno with h | h
    · exact absurd h hr
    · obtain ⟨i, hi⟩ := hroot
      exact absurd hi (h i)

/-- **C68 is violated for a polygon without spans of its region.** Then the patch is to be filled from a span near the centre of the polygon, but
the corners are read from the buffer of detail vertices (all zero before the first polygon) instead of the mesh vertices: with walkable
ground everywhere below the polygon, no span is found and the program panics. -/
theorem c68_violated : ∃ (chf : CompactHeightfield) (hp : HeightPatch) (vs : List U16Vec3) (verts : List (Vec3 Rat)), chf.WellFormed ∧
    IsRange (vs.map (·.x)) chf.width hp.xmin (hp.xmin + hp.width) ∧ IsRange (vs.map (·.z)) chf.height hp.zmin (hp.zmin + hp.height) ∧
    (∀ c ∈ chf.cells, c.count = 1) ∧ verts = List.replicate 256 (Vec3.zero exactOps) ∧
    HeightPatch.getHeightData exactOps chf hp [0, 1, 2] verts 0 REGION_NONE = .error .panic := by
  refine ⟨flatChf.oneRegion, ⟨[0, 0, 0], 2, 0, 1, 3⟩, [⟨3, 0, 0⟩, ⟨3, 0, 2⟩, ⟨3, 0, 1⟩], _, flatChf_wellFormed.oneRegion, ?_, ?_, ?_, rfl, ?_⟩
  · unfold IsRange; decide +kernel
  · unfold IsRange; decide +kernel
  · decide +kernel
  · decide +kernel

/-! ### C66 -/

private theorem radius_one_le (o : FloatOps F) (c : DetailConfig F) : 1 ≤ c.radius o := Nat.le_max_left _ _

theorem buildPolyDetail_no_sampling {o : FloatOps F} {c : DetailConfig F} (hsd : o.lt (o.lit 0) c.sampleDist = false) (hp : HeightPatch)
    (poly verts : List (Vec3 F)) : ∀ d, buildPolyDetail o c hp poly verts ≠ .ok d := by
  intro d h
  unfold buildPolyDetail at h
  split at h
  · rw [bind_ok] at h
    dsimp only at h
    cases hx : polyMinExtent o (poly ++ verts.drop poly.length) poly.length with
    | error e => rw [hx] at h; cases h
    | ok ext =>
      rw [hx, bind_ok] at h
      unfold tessellate at h
      rw [if_neg (by rw [hsd]; decide), bind_ok] at h
      unfold triangulateHull subU at h
      cases h
  · cases h

theorem detailNavmesh_no_sampling {o : FloatOps F} {alloc : Allocator} {c : DetailConfig F} (hsd : o.lt (o.lit 0) c.sampleDist = false)
    {mesh : PolygonNavmesh} {chf : CompactHeightfield} (hv : mesh.vertices ≠ []) (hn : 0 < mesh.polygonCount) :
    ∀ dm, detailNavmesh o alloc c mesh chf ≠ .ok dm := by
  intro dm h
  unfold detailNavmesh at h
  rw [if_neg (by
    rw [Bool.or_eq_true, decide_eq_true_eq, List.isEmpty_iff]
    rintro (h | h)
    · exact hv h
    · omega)] at h
  cases hb : (List.range mesh.polygonCount).mapM (mesh.boundsOf chf) with
  | error e => rw [hb] at h; cases h
  | ok bounds =>
    rw [hb, bind_ok] at h
    have hlen : bounds.length = mesh.polygonCount := by
      rcases Outs.mapM (A := fun _ => True) (f := mesh.boundsOf chf) (R := fun _ _ => True) (List.range mesh.polygonCount) (fun a _ => by
          cases hm : mesh.boundsOf chf a with
          | ok v => exact Outs.ok trivial
          | error e => exact Outs.error trivial) with ⟨b, h1, h2⟩ | ⟨e, h1, _⟩
      · rw [hb] at h1; cases h1
        rw [← h2.length_eq, List.length_range]
      · rw [hb] at h1; cases h1
    obtain ⟨b, bs, rfl⟩ : ∃ b bs, bounds = b :: bs := by
      cases bounds with
      | nil => simp at hlen; omega
      | cons b bs => exact ⟨b, bs, rfl⟩
    obtain ⟨n, hn'⟩ : ∃ n, mesh.polygonCount = n + 1 := ⟨mesh.polygonCount - 1, by omega⟩
    dsimp only at h
    rw [hn', List.range_succ_eq_map, List.zip_cons_cons, List.foldlM_cons] at h
    have hstep : ∀ st r, detailStep o alloc c mesh chf st (0, b) ≠ .ok r := by
      intro st r hs
      unfold detailStep at hs
      dsimp only at hs
      cases h1 : mesh.cornersOf 0 with
      | error e => rw [h1] at hs; cases hs
      | ok vs =>
        rw [h1, bind_ok] at hs
        cases h2 : subU b.xmax b.xmin with
        | error e => rw [h2] at hs; cases hs
        | ok w =>
          rw [h2, bind_ok] at hs
          cases h3 : subU b.zmax b.zmin with
          | error e => rw [h3] at hs; cases hs
          | ok hgt =>
            rw [h3, bind_ok] at hs
            cases h4 : idx mesh.regions 0 with
            | error e => rw [h4] at hs; cases hs
            | ok region =>
              rw [h4, bind_ok] at hs
              cases h5 : HeightPatch.getHeightData o chf ⟨st.data, b.xmin, b.zmin, w, hgt⟩ (mesh.polygon 0) st.verts c.borderSize region with
              | error e => rw [h5] at hs; cases hs
              | ok hp =>
                rw [h5, bind_ok] at hs
                cases h6 : buildPolyDetail o c hp (vs.map (c.corner o)) st.verts with
                | error e => rw [h6] at hs; cases hs
                | ok d => exact buildPolyDetail_no_sampling hsd _ _ _ d h6
    cases hs : detailStep o alloc c mesh chf
      { verts := List.replicate 256 (Vec3.zero o), data := List.replicate ((patchSize (b :: bs)).1 * (patchSize (b :: bs)).2) 0, meshes := [],
        vertices := ⟨[], ((List.range mesh.polygonCount).map fun i => (mesh.polygon i).length).sum + ((List.range mesh.polygonCount).map fun i => (mesh.polygon i).length).sum / 2, ((List.range mesh.polygonCount).map fun i => (mesh.polygon i).length).sum + ((List.range mesh.polygonCount).map fun i => (mesh.polygon i).length).sum / 2⟩, triangles := ⟨[], (((List.range mesh.polygonCount).map fun i => (mesh.polygon i).length).sum + ((List.range mesh.polygonCount).map fun i => (mesh.polygon i).length).sum / 2) * 2, (((List.range mesh.polygonCount).map fun i => (mesh.polygon i).length).sum + ((List.range mesh.polygonCount).map fun i => (mesh.polygon i).length).sum / 2) * 2⟩, flags := [] } (0, b) with
    | ok r => exact hstep _ _ hs
    | error e =>
      rw [hn', List.range_succ_eq_map] at hs
      rw [hs] at h
      cases h

/-- The number of samples on a side of a polygon of the mesh can be counted in a `usize`. -/
def SidesCountable (o : FloatOps F) (c : DetailConfig F) (mesh : PolygonNavmesh) : Prop :=
  ∀ i vs, List.Forall₂ (fun k v => mesh.vertices[k]? = some v) (mesh.polygon i) vs → StepsOk o c (vs.map (c.corner o))

/-- **C66.** A detail mesh that is returned is one of the polygon mesh: it has one sub-mesh for each polygon.  The sub-meshes use up the vertices,
the triangles and the flags from the beginning to the end, without gaps and overlaps.  Each has at most 127 vertices, the polygon's corners
first, then samples of its sides, then samples of its interior, each with the height looked up in the polygon's height patch; its triangles, at most
255, have three different of its vertices as corners; the flags tell which triangle sides belong to the outline.  Without interior samples the
triangles exactly triangulate the outline. -/
theorem c66_tables (o : FloatOps F) (alloc : Allocator) (c : DetailConfig F) (mesh : PolygonNavmesh) (chf : CompactHeightfield) (hwf : chf.WellFormed)
    (hw : 1 ≤ chf.width) (hh : 1 ≤ chf.height) (hy : ∀ s ∈ chf.spans, s.y ≠ 0xFFFF) (hin : DetailInput mesh chf c.borderSize) (hR : c.radius o ≤ 32767)
    (hst : SidesCountable o c mesh) (dm : DetailNavmesh F) (hdm : detailNavmesh o alloc c mesh chf = .ok dm) : IsDetailMesh o c mesh chf dm := by
  cases hsd : o.lt (o.lit 0) c.sampleDist with
  | true => exact (detailNavmesh_out (A := fun _ => True) hwf hw hh hy hin hR hsd hst (Or.inr trivial) (Or.inl trivial)).holds dm hdm
  | false =>
    by_cases hn : 0 < mesh.polygonCount
    · refine absurd hdm (detailNavmesh_no_sampling hsd ?_ hn dm)
      intro hv
      have h1 := hin.corners 0 hn
      obtain ⟨k, hk⟩ : ∃ k, k ∈ mesh.polygon 0 := by
        cases hp : mesh.polygon 0 with
        | nil => rw [hp] at h1; simp at h1
        | cons k _ => exact ⟨k, by simp⟩
      obtain ⟨v, hv', _⟩ := hin.inside 0 hn k hk
      rw [hv] at hv'
      simp at hv'
    · have hn0 : mesh.polygonCount = 0 := by omega
      unfold detailNavmesh at hdm
      rw [if_pos (by simp [hn0])] at hdm
      cases hdm
      exact ⟨hn0.symm, by simp, rfl, rfl, rfl, by simp⟩

/-! ### C52 and C69 -/

/-- **C52 (partial).** With a positive sample distance, and if vectors get the capacity asked for and every polygon has spans of its region
around it, building the detail mesh succeeds.  Missing: sample distance 0, see `c52_violated`; other allocation behaviour, see
`c69_violated`. -/
theorem c52_succeeds_partial (o : FloatOps F) (alloc : Allocator) (halloc : ExactAllocator alloc) (c : DetailConfig F) (mesh : PolygonNavmesh)
    (chf : CompactHeightfield) (hwf : chf.WellFormed) (hw : 1 ≤ chf.width) (hh : 1 ≤ chf.height) (hy : ∀ s ∈ chf.spans, s.y ≠ 0xFFFF)
    (hin : DetailInput mesh chf c.borderSize) (hR : c.radius o ≤ 32767) (hst : SidesCountable o c mesh)
    (hreg : ∀ i < mesh.polygonCount, RegionPresent mesh chf c.borderSize i) (hsd : o.lt (o.lit 0) c.sampleDist = true) :
    ∃ dm, detailNavmesh o alloc c mesh chf = .ok dm := by
  rcases detailNavmesh_out (A := fun _ => False) hwf hw hh hy hin hR hsd hst (Or.inl halloc) (Or.inr hreg) with ⟨dm, h, _⟩ | ⟨e, _, he⟩
  · exact ⟨dm, h⟩
  · exact he.elim

theorem sampleMesh_corners {i : Nat} {vs : List U16Vec3} (h : List.Forall₂ (fun k v => sampleMesh.vertices[k]? = some v) (sampleMesh.polygon i) vs) :
    (i = 0 ∧ vs = [⟨0, 5, 0⟩, ⟨0, 5, 3⟩, ⟨3, 5, 3⟩]) ∨ (i = 1 ∧ vs = [⟨0, 5, 0⟩, ⟨3, 5, 3⟩, ⟨3, 5, 0⟩]) ∨ (2 ≤ i ∧ vs = []) := by
  rcases i with _ | _ | i
  · refine Or.inl ⟨rfl, forall2_unique h ?_⟩
    rw [show sampleMesh.polygon 0 = [0, 1, 2] by decide +kernel]
    exact .cons rfl (.cons rfl (.cons rfl .nil))
  · refine Or.inr (Or.inl ⟨rfl, forall2_unique h ?_⟩)
    rw [show sampleMesh.polygon 1 = [0, 2, 3] by decide +kernel]
    exact .cons rfl (.cons rfl (.cons rfl .nil))
  · refine Or.inr (Or.inr ⟨by omega, ?_⟩)
    have : sampleMesh.polygon (i + 1 + 1) = [] := by
      unfold PolygonNavmesh.polygon
      rw [List.drop_eq_nil_of_le (by show 6 ≤ (i + 1 + 1) * 3; omega)]; rfl
    rw [this] at h
    cases h
    rfl

/-- The two triangles over the plain meet the hypotheses, and get the expected detail mesh. -/
theorem sampleMesh_ok : DetailInput sampleMesh flatChf.oneRegion (sampleConfig 1).borderSize ∧ SidesCountable exactOps (sampleConfig 1) sampleMesh ∧
    (∀ i < sampleMesh.polygonCount, RegionPresent sampleMesh flatChf.oneRegion (sampleConfig 1).borderSize i) ∧
    (∀ s ∈ flatChf.oneRegion.spans, s.y ≠ 0xFFFF) ∧ (sampleConfig 1).radius exactOps ≤ 32767 ∧
    exactOps.lt (exactOps.lit 0) (sampleConfig 1).sampleDist = true := by
  refine ⟨⟨by decide +kernel, by decide +kernel, ?_, by decide +kernel⟩, ?_, ?_, by decide +kernel, by decide +kernel, by decide +kernel⟩
  · intro i hi k hk
    have hi : i < 2 := hi
    have hk4 : k < 4 := by
      rcases i with _ | _ | i
      · rw [show sampleMesh.polygon 0 = [0, 1, 2] by decide +kernel] at hk
        simp at hk; omega
      · rw [show sampleMesh.polygon (0 + 1) = [0, 2, 3] by decide +kernel] at hk
        simp at hk; omega
      · omega
    refine ⟨sampleMesh.vertices[k], List.getElem?_eq_getElem hk4, ?_⟩
    clear hk hi
    revert k
    decide +kernel
  · intro i vs h
    rcases sampleMesh_corners h with ⟨_, rfl⟩ | ⟨_, rfl⟩ | ⟨_, rfl⟩
    · unfold StepsOk; decide +kernel
    · unfold StepsOk; decide +kernel
    · simp [StepsOk]
  · intro i hi region hp vs hr h hx hz
    have hreg : region = 1 := by
      have hi : i < 2 := hi
      rcases i with _ | _ | i
      · cases hr; rfl
      · cases hr; rfl
      · omega
    subst hreg
    refine ⟨by decide, 0, 0, 0, ?_⟩
    have hbox : hp.xmin ≤ 0 ∧ 3 ≤ hp.xmin + hp.width ∧ hp.zmin ≤ 0 ∧ 3 ≤ hp.zmin + hp.height := by
      have e1 : flatChf.oneRegion.width = 3 := by decide +kernel
      have e2 : flatChf.oneRegion.height = 3 := by decide +kernel
      rw [e1] at hx
      rw [e2] at hz
      rcases sampleMesh_corners h with ⟨_, rfl⟩ | ⟨_, rfl⟩ | ⟨h2, rfl⟩
      · have h1 := hx.1 0 (by simp); have h2 := hx.1 3 (by simp); have h3 := hz.1 0 (by simp); have h4 := hz.1 3 (by simp)
        omega
      · have h1 := hx.1 0 (by simp); have h2 := hx.1 3 (by simp); have h3 := hz.1 0 (by simp); have h4 := hz.1 3 (by simp)
        omega
      · have : i < 2 := hi
        omega
    obtain ⟨s, hs, hsr⟩ : ∃ s, flatChf.oneRegion.At 0 0 0 s ∧ s.region = 1 := by
      refine ⟨flatChf.oneRegion.spans[0]'(by decide +kernel), ?_, by decide +kernel⟩
      exact ⟨by decide +kernel, by decide +kernel, by decide +kernel, flatChf.oneRegion.cells[0]'(by decide +kernel), by decide +kernel, by decide +kernel⟩
    exact ⟨s, hs, ⟨by dsimp [sampleConfig]; omega, by dsimp [sampleConfig]; omega, by dsimp [sampleConfig]; omega, by dsimp [sampleConfig]; omega⟩, hsr,
      fun i _ _ _ => Nat.zero_le i⟩

example : (detailNavmesh exactOps doublingAllocator (sampleConfig 1) sampleMesh flatChf.oneRegion).map (fun dm => (dm.meshes, dm.triangles, dm.flags)) =
    .ok ([⟨0, 3, 0, 1⟩, ⟨3, 3, 1, 1⟩], [(2, 0, 1), (2, 0, 1)], [21, 21]) := by decide +kernel

/-- **C52 is violated.** Without a positive sample distance no detail mesh is ever built for a mesh with polygons.  Distance 0, documented to turn sampling
off, makes the program panic for two triangles over the plain. -/
theorem c52_violated :
    (∀ (F : Type) (o : FloatOps F) (alloc : Allocator) (c : DetailConfig F) (mesh : PolygonNavmesh) (chf : CompactHeightfield),
      mesh.vertices ≠ [] → 0 < mesh.polygonCount → o.lt (o.lit 0) c.sampleDist = false → ¬ ∃ dm, detailNavmesh o alloc c mesh chf = .ok dm) ∧
    (detailNavmesh exactOps doublingAllocator (sampleConfig 0) sampleMesh flatChf.oneRegion).map (·.meshes) = .error .panic :=
  ⟨fun F o alloc c mesh chf hv hn hsd ⟨dm, h⟩ => detailNavmesh_no_sampling hsd hv hn dm h, by decide +kernel⟩

/-- **C69 (partial).** Storing the vertices or triangles of the polygons one after the other never panics, if vectors get exactly the capacity asked
for, or, however they grow, if the estimate of one and a half times the number of corners is not exceeded. -/
theorem c69_storing_partial {α : Type} (alloc : Allocator) (estimate : Nat) (parts : List (List α))
    (h : ExactAllocator alloc ∨ parts.flatten.length ≤ estimate) :
    ∃ b : Buffer α, parts.foldlM (fun (b : Buffer α) new => b.store alloc new) ⟨[], estimate, estimate⟩ = .ok b ∧ b.items = parts.flatten := by
  rcases h with h | h
  · have := Outs.foldlM (A := fun _ => False) (f := fun (b : Buffer α) new => b.store alloc new)
      (fun pre (b : Buffer α) => b.items = pre.flatten ∧ (ExactAllocator alloc → b.items.length ≤ b.capacity ∧ b.capacity ≤ b.cap)) parts ⟨[], estimate, estimate⟩
      ⟨rfl, fun _ => ⟨Nat.zero_le _, Nat.le_refl _⟩⟩ (by
        rintro pre new post b _ ⟨h1, h2⟩
        refine (store_out (A := fun _ => False) (Or.inl h) h2).mono ?_
        rintro b' ⟨h3, h4⟩
        exact ⟨by rw [h3, h1]; simp, h4⟩)
    rcases this with ⟨b, hb, h1, _⟩ | ⟨e, _, he⟩
    · exact ⟨b, hb, h1⟩
    · exact he.elim
  · have := Outs.foldlM (A := fun _ => False) (f := fun (b : Buffer α) new => b.store alloc new)
      (fun pre (b : Buffer α) => b.items = pre.flatten ∧ b.cap = estimate) parts ⟨[], estimate, estimate⟩
      ⟨rfl, rfl⟩ (by
        rintro pre new post b hp ⟨h1, h2⟩
        unfold Buffer.store
        dsimp only
        rw [if_neg (by
          rw [hp] at h
          simp only [List.flatten_append, List.flatten_cons, List.length_append] at h
          rw [h1, h2]; omega)]
        exact Outs.ok ⟨by dsimp only; rw [h1]; simp, h2⟩)
    rcases this with ⟨b, hb, h1, _⟩ | ⟨e, _, he⟩
    · exact ⟨b, hb, h1⟩
    · exact he.elim

example : ExactAllocator (fun capacity len more => max capacity (len + more)) := fun _ _ _ => rfl

/-- **C69 is violated.** With the allocator of the standard library, storing the vertices of seven quads with 127 detail vertices each panics:
`reserve` is called with the capacity wanted less the capacity there is, but counts from the length, so the capacity outgrows `vcap`, and at
last the difference is negative. -/
theorem c69_violated :
    (List.replicate 7 (List.replicate 127 ())).foldlM (fun (b : Buffer Unit) new => b.store doublingAllocator new) ⟨[], 42, 42⟩ = .error .panic := by
  have h : ((List.replicate 7 (List.replicate 127 ())).foldlM (fun (b : Buffer Unit) new => b.store doublingAllocator new) ⟨[], 42, 42⟩).map (fun b => b.cap) =
      .error .panic := by decide +kernel
  revert h
  generalize (List.replicate 7 (List.replicate 127 ())).foldlM (fun (b : Buffer Unit) new => b.store doublingAllocator new) ⟨[], 42, 42⟩ = r
  cases r with
  | ok b => intro h; cases h
  | error e => intro h; cases h; rfl

end Rerecast
