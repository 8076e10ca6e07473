import Verif.Lemmas.Jordan13
import Verif.Spec.Tiles
import Verif.Spec.Pipeline
/-! Triangulations of convex polygons with points on the sides. -/
set_option linter.unusedVariables false
namespace Rerecast.Jordan

theorem hasArea_iff (a b c : Point) : HasArea a b c ↔ turn a.swap b.swap c.swap ≠ 0 := by
  unfold HasArea turn
  simp only [Prod.fst_swap, Prod.snd_swap]
  rw [not_iff_not]
  constructor <;> intro h <;> linarith

theorem corners_map (t : DTri) (P : Nat → Point) : (Tri.corners t).map P = [P t.1, P t.2.1, P t.2.2] := rfl

/-- A triangulation of a list of points without turns the other way, which goes around every point once or not at all, fills it. -/
theorem fills_of {P place : Nat → Point} (hP : ∀ v, P v = (place v).swap) {T : List DTri} {hull : List Nat} (hord : ∀ t ∈ T, InOrder (Tri.corners t) hull)
    (hbd : SameBoundary (T.map Tri.corners) hull) {C outline : List Point}
    (ho : outline.map Prod.swap = C) (hb : Bends (hull.map P)) (hw : ∀ q, winding q (hull.map P) = winding q C) (h1 : ∀ q, winding q C = 0 ∨ winding q C = 1) :
    Fills place T outline := by
  have sum : ∀ q, (T.map fun t => winding q [P t.1, P t.2.1, P t.2.2]).sum = winding q C := by
    intro q
    rw [← hw, ← pieces_sum hbd, List.map_map]
    rfl
  have pos : ∀ t ∈ T, 0 ≤ turn (P t.1) (P t.2.1) (P t.2.2) := by
    intro t ht
    obtain ⟨k, hk⟩ := hord t ht
    have hk := hk.map P
    rw [List.map_rotate, corners_map, ← List.rotate_mod] at hk
    have : k % [P t.1, P t.2.1, P t.2.2].length < 3 := Nat.mod_lt _ (by simp)
    generalize k % [P t.1, P t.2.1, P t.2.2].length = j at *
    rcases (show j = 0 ∨ j = 1 ∨ j = 2 by omega) with rfl | rfl | rfl
    · exact hb _ _ _ (by simpa using hk)
    · rw [← turn_cyc]
      exact hb _ _ _ (by simpa [List.rotate_cons_succ] using hk)
    · rw [← turn_cyc, ← turn_cyc]
      exact hb _ _ _ (by simpa [List.rotate_cons_succ] using hk)
  have nonneg : ∀ t ∈ T, ∀ q, 0 ≤ winding q [P t.1, P t.2.1, P t.2.2] := by
    intro t ht q
    rcases (pos t ht).lt_or_eq with h | h
    · rcases winding_once (tri_simple h) (tri_val h) q with e | e <;> omega
    · rw [flat_winding h.symm]
  have area : ∀ t ∈ T, HasArea (place t.1) (place t.2.1) (place t.2.2) → 0 < turn (P t.1) (P t.2.1) (P t.2.2) := by
    intro t ht ha
    rw [hasArea_iff, ← hP, ← hP, ← hP] at ha
    exact lt_of_le_of_ne (pos t ht) ha.symm
  have inside : ∀ t ∈ T, HasArea (place t.1) (place t.2.1) (place t.2.2) → ∀ p, InsideTriangle p (place t.1) (place t.2.1) (place t.2.2) →
      winding p.swap [P t.1, P t.2.1, P t.2.2] = 1 := by
    intro t ht ha p hp
    have hp := inside_swap hp
    rw [← hP, ← hP, ← hP] at hp
    obtain ⟨a1, a2, a3⟩ := inside_turns hp (area t ht ha)
    exact tri_in a1 a2 a3
  refine ⟨?_, ?_, ?_⟩
  · have := once_pairwise (fun (t : DTri) q => winding q [P t.1, P t.2.1, P t.2.2]) T nonneg (fun q => by
      rw [sum]; rcases h1 q with e | e <;> omega)
    refine List.Pairwise.imp_of_mem ?_ this
    rintro t t' m m' hh ha ha' p ⟨e1, e2⟩
    exact hh p.swap ⟨inside t m ha p e1, inside t' m' ha' p e2⟩
  · intro t ht ha p hp
    rw [encloses_iff, ho]
    have hle := List.single_le_sum (l := T.map fun t => winding p.swap [P t.1, P t.2.1, P t.2.2]) (by
      intro z hz
      obtain ⟨x, hx, rfl⟩ := List.mem_map.1 hz
      exact nonneg x hx _) _ (List.mem_map.2 ⟨t, ht, rfl⟩)
    rw [sum, inside t ht ha p hp] at hle
    rcases h1 p.swap with e | e
    · omega
    · rw [e]; rfl
  · intro p hp
    rw [encloses_iff, ho] at hp
    have : (T.map fun t => winding p.swap [P t.1, P t.2.1, P t.2.2]).sum ≠ 0 := by
      rw [sum]; intro e; rw [e] at hp; simp at hp
    obtain ⟨t, m, hw⟩ := sum_nonzero _ T this
    have hT : 0 < turn (P t.1) (P t.2.1) (P t.2.2) := by
      rcases (pos t m).lt_or_eq with h | h
      · exact h
      · exact absurd (flat_winding h.symm _) hw
    refine ⟨t, m, ?_, ?_⟩
    · rw [hasArea_iff, ← hP, ← hP, ← hP]
      exact ne_of_gt hT
    · have h3 : ¬ (_ ∨ _ ∨ _) := fun hh => hw (tri_out hT hh)
      push Not at h3
      obtain ⟨q1, q2, q3⟩ := h3
      have := in_of_turns (by rw [turn_sum]; exact hT) q1 q2 q3
      rw [hP, hP, hP] at this
      exact inTri_swap this

theorem insertable_bends : Insertable Bends := ⟨fun l1 l2 a b s hs h => bends_insert hs h⟩
theorem insertable_sum (q : Point) (w : Int) : Insertable (fun l => pathSum (crossing q) l = w) :=
  ⟨fun l1 l2 a b s hs h => by rw [pathSum_insert hs]; exact h⟩

/-- The closed path around a convex polygon does not turn the other way. -/
theorem bends_closed {c : Point} {m : List Point} (h : Turning turn (c :: m)) : Bends (c :: m ++ [c]) := by
  intro x y z hs
  obtain ⟨u, v, huv, h1, h2⟩ := List.sublist_append_iff.1 hs
  have hv : v = [] ∨ v = [c] := by
    cases h2 with
    | cons _ h => left; exact List.sublist_nil.1 h
    | cons_cons _ h => right; rw [List.sublist_nil.1 h]
  rcases hv with rfl | rfl
  · rw [List.append_nil] at huv
    exact (h x y z (huv ▸ h1)).le
  · have e : [x, y] ++ [z] = u ++ [c] := huv
    obtain ⟨rfl, e2⟩ := List.append_inj' e rfl
    injection e2 with e2 _
    subst e2
    cases h1 with
    | cons _ h1 =>
      rw [← turn_cyc, ← turn_cyc]
      exact (h z x y (List.cons_sublist_cons.2 h1)).le
    | cons_cons _ h1 => rw [turn_same3]

/-- The places of the points on a side. -/
def SideOk (ts : List Rat) : Prop := (∀ t ∈ ts, 0 ≤ t ∧ t ≤ 1) ∧ ts.Pairwise (· < ·)

theorem chain_full {P : Nat → Point} {n : Nat} (hn : 0 < n) : ∀ (ext : List (List Nat)) (i : Nat), i + ext.length = n →
    (∀ (j : Nat) l, ext[j]? = some l → ∃ ts, SideOk ts ∧ l.map P = ts.map (mix (P ((i + j + n - 1) % n)) (P (i + j)))) →
    ∃ r : List (List Rat × Point), (∀ x ∈ r, SideOk x.1) ∧ r.map Prod.snd = (List.range' i ext.length).map P ∧
      fullPath (P ((i + n - 1) % n)) r = ((ext.zipIdx i).flatMap (fun li => ((li.2 + n - 1) % n) :: li.1)).map P ++ [P (n - 1)]
  | [], i, hi, _ => by
    refine ⟨[], by simp, by simp, ?_⟩
    simp at hi
    subst hi
    have : (i + i - 1) % i = i - 1 := by
      rw [show i + i - 1 = i - 1 + i by omega, Nat.add_mod_right, Nat.mod_eq_of_lt (by omega)]
    simp [fullPath, this]
  | l :: ext, i, hi, h => by
    simp only [List.length_cons] at hi
    obtain ⟨r, r1, r2, r3⟩ := chain_full hn ext (i + 1) (by omega) (fun j l hl => by
      have := h (j + 1) l (by simpa using hl)
      rwa [show i + 1 + j = i + (j + 1) by omega])
    obtain ⟨ts, t1, t2⟩ := h 0 l rfl
    rw [Nat.add_zero] at t2
    refine ⟨(ts, P i) :: r, ?_, ?_, ?_⟩
    · intro x hx
      rcases List.mem_cons.1 hx with rfl | hx
      · exact t1
      · exact r1 x hx
    · rw [List.map_cons, r2, List.length_cons, List.range'_succ, List.map_cons]
    · have e : (i + 1 + n - 1) % n = i := by
        rw [show i + 1 + n - 1 = i + n by omega, Nat.add_mod_right, Nat.mod_eq_of_lt (by omega)]
      rw [e] at r3
      simp only [fullPath, r3, List.zipIdx_cons, List.flatMap_cons, List.map_append, List.map_cons, t2, List.cons_append, List.append_assoc]

/-- A convex polygon with points on its sides, triangulated. -/
theorem fills_outline {P place : Nat → Point} (hP : ∀ v, P v = (place v).swap) {n : Nat} (hn : 3 ≤ n) (hc : Turning turn ((List.range n).map P))
    {ext : List (List Nat)} (hel : ext.length = n)
    (hside : ∀ (j : Nat) l, ext[j]? = some l → ∃ ts, SideOk ts ∧ l.map P = ts.map (mix (P ((j + n - 1) % n)) (P j)))
    {T : List DTri} (hT : Triangulates T (ext.zipIdx.flatMap (fun li => ((li.2 + n - 1) % n) :: li.1))) :
    Fills place T ((List.range n).map place) := by
  obtain ⟨r, r1, r2, r3⟩ := chain_full (P := P) (by omega : 0 < n) ext 0 (by omega) (fun j l hl => by
    have := hside j l hl
    rwa [Nat.zero_add])
  obtain ⟨k, rfl⟩ : ∃ k, n = k + 1 := ⟨n - 1, by omega⟩
  rw [hel, ← List.range_eq_range', List.range_succ, List.map_append] at r2
  rw [List.range_succ, List.map_append] at hc
  rw [show (0 + (k + 1) - 1) % (k + 1) = k by rw [Nat.zero_add, Nat.add_sub_cancel, Nat.mod_eq_of_lt (by omega)], Nat.add_sub_cancel] at r3
  have er : ((List.range k).map P ++ [P k]).rotate k = P k :: (List.range k).map P := by
    have := List.rotate_append_length_eq ((List.range k).map P) [P k]
    rwa [List.length_map, List.length_range] at this
  have hc' : Turning turn (P k :: (List.range k).map P) := by
    have := turning_rotate (fun a b c => turn_cyc a b c) hc k
    rwa [List.map_singleton, er] at this
  have closed : P k :: r.map Prod.snd = P k :: (List.range k).map P ++ [P k] := by rw [r2]; rfl
  have hb := bends_closed hc'
  rw [← closed] at hb
  have hb' := insertable_bends.full r (P k) [] (fun x hx => r1 x hx) (by simpa using hb)
  rw [List.nil_append, r3] at hb'
  have rot : ((List.range (k + 1)).map P) ~r (P k :: (List.range k).map P) := by
    refine ⟨k, ?_⟩
    rw [List.range_succ, List.map_append]
    exact er
  refine fills_of hP hT.order hT.boundary (C := (List.range (k + 1)).map P) ?_ ?_ ?_ ?_
  · rw [List.map_map]
    exact List.map_congr_left fun v _ => (hP v).symm
  · intro x y z hs
    exact hb' x y z (hs.trans (List.sublist_append_left _ _))
  · intro q
    rw [winding_rotated rot]
    have e := (insertable_sum q (winding q (P k :: (List.range k).map P))).full r (P k) [] (fun x hx => r1 x hx) (by
      rw [List.nil_append, closed]
      exact (around_cons _ _ _).symm)
    rw [List.nil_append, r3] at e
    rw [← e]
    -- the path begins at the last corner
    obtain ⟨l, ext', rfl⟩ : ∃ l ext', ext = l :: ext' := by
      cases ext with
      | nil => simp at hel
      | cons l ext' => exact ⟨l, ext', rfl⟩
    rw [List.zipIdx_cons, List.flatMap_cons, List.cons_append, List.map_cons]
    dsimp only
    rw [show (0 + (k + 1) - 1) % (k + 1) = k by rw [Nat.zero_add, Nat.add_sub_cancel, Nat.mod_eq_of_lt (by omega)]]
    exact around_cons _ _ _
  · intro q
    refine turning_once (by simp; omega) ?_ q
    rw [List.range_succ, List.map_append]
    exact hc

theorem mix_flip (a b : Point) (t : Rat) : mix b a t = mix a b (1 - t) := by
  unfold mix
  ext <;> dsimp only <;> ring

/-- Where a vertex of a sub-mesh is, seen from above, with the axes exchanged. -/
def spotOf (c : DetailConfig Rat) (p : Vec3 Rat) : Point := (p.z + c.origin.z, p.x + c.origin.x)

theorem spotOf_sample {o : FloatOps Rat} (ho : ExactArithmetic o) {c : DetailConfig Rat} {hp : HeightPatch} {a b p : Vec3 Rat} {n k : Nat}
    (h : IsSample o c hp a b n k p) : spotOf c p = mix (spotOf c a) (spotOf c b) ((k : Rat) / n) := by
  obtain ⟨h, q, rfl, _, rfl⟩ := h
  have e1 : o.ofInt (k : Int) = (k : Rat) := by rw [ho.ofInt]; simp
  have e2 : o.ofInt (n : Int) = (n : Rat) := by rw [ho.ofInt]; simp
  unfold spotOf mix Vec3.add Vec3.scale Vec3.sub
  simp only [ho.add, ho.mul, ho.sub, ho.div, e1, e2]
  ext <;> dsimp only <;> ring

theorem side_ok {o : FloatOps Rat} (ho : ExactArithmetic o) {c : DetailConfig Rat} {hp : HeightPatch} {verts : List (Vec3 Rat)} {nverts : Nat} {a b : Vec3 Rat}
    {l : List Nat} (h : OnSide o c hp verts nverts a b l) {P : Nat → Point} (hP : ∀ v ∈ l, ∀ p, verts[v]? = some p → P v = spotOf c p) :
    ∃ ts, SideOk ts ∧ l.map P = ts.map (mix (spotOf c a) (spotOf c b)) := by
  obtain ⟨n, ks, hk, h⟩ := h
  have frac : ∀ k ∈ ks, 0 ≤ (k : Rat) / n ∧ (k : Rat) / n ≤ 1 := by
    intro k hm
    obtain ⟨h0, h1⟩ := hk k hm
    have hn : (0 : Rat) < n := by exact_mod_cast (by omega : 0 < n)
    refine ⟨by positivity, ?_⟩
    rw [div_le_one hn]
    exact_mod_cast h1.le
  have lt : ∀ k ∈ ks, ∀ k' ∈ ks, k < k' → (k : Rat) / n < (k' : Rat) / n := by
    intro k hm k' hm' hlt
    obtain ⟨h0, h1⟩ := hk k hm
    have hn : (0 : Rat) < n := by exact_mod_cast (by omega : 0 < n)
    rw [div_lt_div_iff_of_pos_right hn]
    exact_mod_cast hlt
  have eq : ∀ (f : Nat → Point) (l' ks' : List Nat), List.Forall₂ (fun v k => P v = f k) l' ks' → l'.map P = ks'.map f := by
    intro f l' ks' h
    induction h with
    | nil => rfl
    | cons h _ ih => rw [List.map_cons, List.map_cons, h, ih]
  have mem : ∀ {R : Nat → Nat → Prop} {l' ks' : List Nat}, List.Forall₂ R l' ks' → (∀ v ∈ l', v ∈ l) → List.Forall₂ (fun v k => v ∈ l ∧ R v k) l' ks' := by
    intro R l' ks' h
    induction h with
    | nil => intro _; exact List.Forall₂.nil
    | cons h _ ih => intro hl; exact List.Forall₂.cons ⟨hl _ (by simp), h⟩ (ih fun v hv => hl v (by simp [hv]))
  rcases h with ⟨hp1, hf, _⟩ | ⟨hp1, hf, _⟩
  · refine ⟨ks.map fun k : Nat => (k : Rat) / n, ⟨?_, ?_⟩, ?_⟩
    · intro t ht
      obtain ⟨k, hm, rfl⟩ := List.mem_map.1 ht
      exact frac k hm
    · rw [List.pairwise_map]
      exact List.Pairwise.imp_of_mem (fun m m' h => lt _ m _ m' h) hp1
    · rw [List.map_map]
      refine eq _ _ _ ((mem hf fun _ h => h).imp ?_)
      rintro v k ⟨hv, p, hvp, hs⟩
      rw [hP v hv p hvp, spotOf_sample ho hs]
      rfl
  · refine ⟨ks.map fun k : Nat => 1 - (k : Rat) / n, ⟨?_, ?_⟩, ?_⟩
    · intro t ht
      obtain ⟨k, hm, rfl⟩ := List.mem_map.1 ht
      have := frac k hm
      constructor <;> linarith
    · rw [List.pairwise_map]
      exact List.Pairwise.imp_of_mem (fun m m' h => by have := lt _ m' _ m h; linarith) hp1
    · rw [List.map_map]
      refine eq _ _ _ ((mem hf fun _ h => h).imp ?_)
      rintro v k ⟨hv, p, hvp, hs⟩
      rw [hP v hv p hvp, spotOf_sample ho hs, mix_flip]
      rfl

/-- A sub-mesh without interior samples fills its polygon, if that is convex. -/
theorem submesh_fills {o : FloatOps Rat} (ho : ExactArithmetic o) {c : DetailConfig Rat} (hcs : 0 < c.cellSize) {hp : HeightPatch} {vs : List U16Vec3} (h3 : 3 ≤ vs.length)
    (hconv : StrictlyConvex vs) {d : Detail Rat} (hd : IsSubMesh o c hp (vs.map (cornerPos o c)) d) {hull : List Nat} {m : Nat}
    (hout : IsOutline o c hp d.verts (vs.map (cornerPos o c)) m hull) (hm : d.nverts = m) (hT : Triangulates d.tris hull) :
    Fills (fun v => (((d.verts.take d.nverts).map (worldPos o c)).getD v ⟨0, 0, 0⟩).plane) d.tris
      (vs.map fun v => (v.x * c.cellSize + c.origin.x, v.z * c.cellSize + c.origin.z)) := by
  obtain ⟨ext, hel, rfl, hle, hflat, hside⟩ := hout
  have hcor := hd.corners
  rw [List.length_map] at hel hle hflat hside hT hcor
  have hlen := hd.buffer
  have hmax := hd.max_verts
  obtain ⟨place, hplace⟩ : ∃ place : Nat → Point, place = fun v => (((d.verts.take d.nverts).map (worldPos o c)).getD v ⟨0, 0, 0⟩).plane := ⟨_, rfl⟩
  rw [← hplace]
  have at_ : ∀ (v : Nat), v < d.nverts → ∀ p, d.verts[v]? = some p → (place v).swap = spotOf c p := by
    intro v hv p hvp
    rw [hplace]
    dsimp only
    have : ((d.verts.take d.nverts).map (worldPos o c))[v]? = some (worldPos o c p) := by
      rw [List.getElem?_map, List.getElem?_take_of_lt hv, hvp]; rfl
    rw [List.getD_eq_getElem?_getD, this]
    unfold spotOf worldPos Vec3.plane
    simp [ho.add]
  have corner : ∀ (i : Nat) (hi : i < vs.length), (place i).swap = spotOf c (cornerPos o c vs[i]) := by
    intro i hi
    refine at_ i (by omega) _ ?_
    have := congrArg (fun l => l[i]?) hcor
    simp only [List.getElem?_take_of_lt hi, List.getElem?_map, List.getElem?_eq_getElem hi] at this
    exact this
  have spot : ∀ v : U16Vec3, spotOf c (cornerPos o c v) = (v.z * c.cellSize + c.origin.z, v.x * c.cellSize + c.origin.x) := by
    intro v
    unfold spotOf cornerPos
    simp [ho.mul, ho.ofInt]
  have e : (vs.map fun v => (v.x * c.cellSize + c.origin.x, v.z * c.cellSize + c.origin.z)) = (List.range vs.length).map place := by
    apply List.ext_getElem
    · simp
    · intro i h1 h2
      have hi : i < vs.length := by simpa using h1
      rw [List.getElem_map, List.getElem_map, List.getElem_range, ← Prod.swap_inj, corner i hi, spot]
      rfl
  rw [e]
  refine fills_outline (P := fun v => (place v).swap) (fun v => rfl) h3 ?_ hel ?_ hT
  · intro a b x hs
    obtain ⟨i, j, k, hij, hjk, e1, e2, e3⟩ := sublist_three hs
    obtain ⟨hk, e3⟩ := List.getElem?_eq_some_iff.1 e3
    obtain ⟨hj, e2⟩ := List.getElem?_eq_some_iff.1 e2
    obtain ⟨hi, e1⟩ := List.getElem?_eq_some_iff.1 e1
    simp only [List.length_map, List.length_range] at hk hj hi
    rw [List.getElem_map, List.getElem_range, corner _ ‹_›, spot] at e1 e2 e3
    have := cross_neg.1 (hconv i j k hij hjk hk)
    have sc : turn a b x = c.cellSize * c.cellSize * turn (pt vs[i]) (pt vs[j]) (pt vs[k]) := by
      rw [← e1, ← e2, ← e3]
      unfold turn pt
      ring
    rw [sc]
    exact mul_pos (mul_pos hcs hcs) this
  · intro j l hl
    have hj : j < vs.length := by rw [← hel]; exact (List.getElem?_eq_some_iff.1 hl).1
    obtain ⟨a, b, ha, hb, hs⟩ := hside j l hl
    have hj' : (j + vs.length - 1) % vs.length < vs.length := Nat.mod_lt _ (by omega)
    rw [List.getElem?_map, List.getElem?_eq_getElem hj', Option.map_some, Option.some.injEq] at ha
    rw [List.getElem?_map, List.getElem?_eq_getElem hj, Option.map_some, Option.some.injEq] at hb
    obtain ⟨ts, t1, t2⟩ := side_ok ho hs (P := fun v => (place v).swap) (fun v hv p hvp => by
      refine at_ v ?_ p hvp
      have : v ∈ ext.flatten := List.mem_flatten.2 ⟨l, List.mem_of_getElem? hl, hv⟩
      rw [hflat, List.mem_range'_1] at this
      omega)
    refine ⟨ts, t1, ?_⟩
    rw [t2, ← ha, ← hb, ← corner _ hj', ← corner _ hj]

end Rerecast.Jordan
