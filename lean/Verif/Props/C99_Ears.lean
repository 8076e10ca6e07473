import Verif.Props.C98_SimpleContours
/-! C99: the order in which ears are cut. -/
namespace Rerecast
open Jordan

/-- With a better reason, the same ears. -/
theorem CutsEars.imp {verts : List U16Vec3} {P Q : Tri → Tri → Prop} {ring : List Nat} {T : List Tri} (h : CutsEars verts P ring T)
    (hPQ : ∀ t t', (∀ x ∈ t.corners, x ∈ ring) → (∀ x ∈ t'.corners, x ∈ ring) → P t t' → Q t t') : CutsEars verts Q ring T := by
  induction h with
  | last a b c => exact .last a b c
  | cut ring t T hl E hg hc ih =>
    have hm : ∀ t, EarOf verts ring t → ∀ x ∈ t.corners, x ∈ ring := by
      intro t E x hx
      simp only [Tri.corners, List.mem_cons, List.not_mem_nil, or_false] at hx
      rcases hx with rfl | rfl | rfl
      · exact (mem_sides E.first).1
      · exact (mem_sides E.first).2
      · exact (mem_sides E.second).2
    refine .cut ring t T hl E (fun t' E' => hPQ t t' (hm t E) (hm t' E') (hg t' E')) (ih fun t t' h1 h2 => ?_)
    exact hPQ t t' (fun x hx => List.mem_of_mem_erase (h1 x hx)) (fun x hx => List.mem_of_mem_erase (h2 x hx))

/-- **C99 (what is cut).** The triangles of a contour that does not touch itself are cut off one after the other, each an ear of what is left of the
contour, and among its ears one whose base is shortest when squared lengths are truncated to 16 bits. -/
theorem c99_ears (verts : List U16Vec3) (hs : ∀ v ∈ verts, v.x ≤ 32767 ∧ v.z ≤ 32767) (S : SimplePolygon (verts.map U16Vec3.plane))
    (hd : shoelace id verts < 0) (T : List Tri) (hT : triangulate verts = .ok T) :
    CutsEars verts (fun t t' => t.base verts % 65536 ≤ t'.base verts % 65536) (List.range verts.length) T := by
  obtain ⟨T', h1, _, _, h⟩ := triangulate_simple hs (simple_pt S) (val_pt S hd)
  rw [hT] at h1
  injection h1 with e
  subst e
  exact h

/-- **C99 (partial).** If no two corners of the contour are 256 cells or more apart, the ear with the shortest base is cut first, and so on.
Missing: larger contours, for which it is not true (`c99_violated`). -/
theorem c99_shortest_partial (verts : List U16Vec3) (hs : ∀ v ∈ verts, v.x ≤ 32767 ∧ v.z ≤ 32767) (S : SimplePolygon (verts.map U16Vec3.plane))
    (hd : shoelace id verts < 0) (hn : ∀ v ∈ verts, ∀ w ∈ verts, ((w.x : Int) - v.x) ^ 2 + ((w.z : Int) - v.z) ^ 2 < 256 ^ 2)
    (T : List Tri) (hT : triangulate verts = .ok T) :
    CutsEars verts (fun t t' => t.base verts ≤ t'.base verts) (List.range verts.length) T := by
  refine (c99_ears verts hs S hd T hT).imp ?_
  have key : ∀ t : Tri, (∀ x ∈ t.corners, x ∈ List.range verts.length) → t.base verts % 65536 = t.base verts := by
    intro t ht
    have m : ∀ x ∈ t.corners, pos verts x ∈ verts := by
      intro x hx
      have := List.mem_range.1 (ht x hx)
      unfold pos
      rw [List.getD_eq_getElem?_getD, List.getElem?_eq_getElem this, Option.getD_some]
      exact List.getElem_mem this
    have := hn _ (m t.1 (by simp [Tri.corners])) _ (m t.2.2 (by simp [Tri.corners]))
    apply Nat.mod_eq_of_lt
    unfold Tri.base
    rw [← Int.natAbs_sq, ← Int.natAbs_sq ((pos verts t.2.2).z - _ : Int)] at this
    exact_mod_cast this
  intro t t' h1 h2 h
  rw [key t h1, key t' h2] at h
  exact h

/-- A rhombus 256 cells wide and 100 deep. -/
def exampleRhombus : List U16Vec3 := [⟨0, 0, 50⟩, ⟨128, 0, 100⟩, ⟨256, 0, 50⟩, ⟨128, 0, 0⟩]

theorem exampleRhombus_simple : SimplePolygon (exampleRhombus.map U16Vec3.plane) := by
  have hs : sides (exampleRhombus.map U16Vec3.plane) = [((0, 50), (128, 100)), ((128, 100), (256, 50)), ((256, 50), (128, 0)), ((128, 0), (0, 50))] := by
    simp [exampleRhombus, sides, U16Vec3.plane]
  refine ⟨by decide, by decide +kernel, ?_⟩
  rw [hs]
  rintro e he f hf hne ⟨x, y⟩ ⟨t, t0, t1, e1, e2⟩ ⟨s, s0, s1, e3, e4⟩
  simp only [List.mem_cons, List.not_mem_nil, or_false] at he hf
  rcases he with rfl | rfl | rfl | rfl <;> rcases hf with rfl | rfl | rfl | rfl <;> dsimp only at e1 e2 e3 e4 <;>
    first
    | exact absurd rfl hne
    | (exfalso; linarith)
    | (left; constructor <;> (apply Prod.ext <;> dsimp only <;> linarith))
    | (right; constructor <;> (apply Prod.ext <;> dsimp only <;> linarith))

theorem exampleRhombus_cut : triangulate exampleRhombus = .ok [(0, 1, 2), (0, 2, 3)] := by decide +kernel

/-- **C99 is violated**: a rhombus 256 cells wide is cut along its long diagonal, although the other one is 100 cells long: the squared length
65536 is truncated to 0. -/
theorem c99_violated : ∃ verts : List U16Vec3, (∀ v ∈ verts, v.x ≤ 256 ∧ v.z ≤ 100) ∧ SimplePolygon (verts.map U16Vec3.plane) ∧ shoelace id verts < 0 ∧
    ∃ T, triangulate verts = .ok T ∧ ¬ CutsEars verts (fun t t' => t.base verts ≤ t'.base verts) (List.range verts.length) T := by
  refine ⟨exampleRhombus, by decide, exampleRhombus_simple, by decide, _, exampleRhombus_cut, ?_⟩
  intro h
  have E : EarOf exampleRhombus (List.range exampleRhombus.length) (1, 2, 3) := by
    refine ⟨by decide, by decide, by decide, ?_⟩
    intro q hq n1 n2 n3
    have : q = 0 := by
      have := List.mem_range.1 hq
      have : exampleRhombus.length = 4 := rfl
      dsimp only at n1 n2 n3
      omega
    subst this
    rintro ⟨s, t, u, h1, h2, h3, h4, h5, _⟩
    simp [exampleRhombus, pos, U16Vec3.plane] at h5
    linarith
  cases h with
  | cut ring t T hl _ hg _ =>
    have := hg (1, 2, 3) E
    revert this
    decide

/-- The L-shaped contour of C98 meets the hypothesis of `c99_shortest_partial` on distances, too. -/
example : ∀ v ∈ exampleL, ∀ w ∈ exampleL, ((w.x : Int) - v.x) ^ 2 + ((w.z : Int) - v.z) ^ 2 < 256 ^ 2 := by decide

end Rerecast
