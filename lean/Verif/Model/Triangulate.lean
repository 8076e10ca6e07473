import Verif.Model.Contour
/-!
Model of the triangulation of poly_mesh.rs (lines 1035-1332).

Simplifications: `indices` is the list of its first `n` entries (the rest is never read), each entry a pair of the index
(`indices[i] & INDEX_MASK`) and the flag bit `CAN_REMOVE`; `verts` is the list of positions.  `i32` arithmetic is
overflow-checked.
-/
namespace Rerecast

/-- `i32` arithmetic: overflow-checked. -/
def i32 (v : Int) : Res Int := if -2147483648 ≤ v ∧ v ≤ 2147483647 then .ok v else .error .panic

/-- `a && b` with `b` evaluated only if `a` is true. -/
def andThen (a b : Res Bool) : Res Bool := a >>= fun x => if x then b else .ok false
/-- `a || b` with `b` evaluated only if `a` is false. -/
def orElse (a b : Res Bool) : Res Bool := a >>= fun x => if x then .ok true else b

/-- poly_mesh.rs:1178-1183 `area2` -/
def area2 (a b c : U16Vec3) : Res Int := do
  let p ← i32 (((b.x : Int) - a.x) * ((c.z : Int) - a.z))
  let q ← i32 (((c.x : Int) - a.x) * ((b.z : Int) - a.z))
  i32 (p - q)

/-- poly_mesh.rs:1166-1169 `is_left_on`, 1255-1258 `left_on` -/
def leftOn (a b c : U16Vec3) : Res Bool := do
  let v ← area2 a b c
  .ok (decide (v ≤ 0))

/-- poly_mesh.rs:1171-1175 `is_left`, 1248-1253 `left` -/
def left (a b c : U16Vec3) : Res Bool := do
  let v ← area2 a b c
  .ok (decide (v < 0))

/-- poly_mesh.rs:1243-1246 `collinear` -/
def collinear (a b c : U16Vec3) : Res Bool := do
  let v ← area2 a b c
  .ok (decide (v = 0))

/-- poly_mesh.rs:1260-1273 `between` -/
def between (a b c : U16Vec3) : Res Bool := do
  let col ← collinear a b c
  if !col then .ok false
  else if a.x ≠ b.x then .ok (decide ((a.x ≤ c.x ∧ c.x ≤ b.x) ∨ (a.x ≥ c.x ∧ c.x ≥ b.x)))
  else .ok (decide ((a.z ≤ c.z ∧ c.z ≤ b.z) ∨ (a.z ≥ c.z ∧ c.z ≥ b.z)))

/-- poly_mesh.rs:1231-1241 `intersect_prop` -/
def intersectProp (a b c d : U16Vec3) : Res Bool := do
  let col ← orElse (collinear a b c) (orElse (collinear a b d) (orElse (collinear c d a) (collinear c d b)))
  if col then .ok false
  else andThen (do let p ← left a b c; let q ← left a b d; .ok (p != q)) (do let p ← left c d a; let q ← left c d b; .ok (p != q))

/-- poly_mesh.rs:1222-1229 `intersect` -/
def intersect (a b c d : U16Vec3) : Res Bool :=
  orElse (intersectProp a b c d)
    (orElse (between a b c) (orElse (between a b d) (orElse (between c d a) (between c d b))))

/-- The live part of `indices`. -/
abbrev Ring := List (Nat × Bool)

/-- `verts[indices[i] & INDEX_MASK].0` -/
def ringVert (verts : List U16Vec3) (ps : Ring) (i : Nat) : Res U16Vec3 := do
  let p ← idx ps i
  idx verts p.1

/-- poly_mesh.rs:1148-1164 `in_cone` with `strict = left`, 1286-1304 `in_cone_loose` with `strict = leftOn`. -/
def inCone (strict : U16Vec3 → U16Vec3 → U16Vec3 → Res Bool) (verts : List U16Vec3) (ps : Ring) (i j : Nat) : Res Bool := do
  let pi ← ringVert verts ps i
  let pj ← ringVert verts ps j
  let pi1 ← ringVert verts ps ((i + 1) % ps.length)
  let pin1 ← ringVert verts ps ((i + ps.length - 1) % ps.length)
  let convex ← leftOn pin1 pi pi1
  if convex then andThen (strict pi pj pin1) (strict pj pi pi1)
  else do
    let b ← andThen (leftOn pi pj pi1) (leftOn pj pi pin1)
    .ok !b

/-- poly_mesh.rs:1198-1211: edge `(k, k1)` leaves the diagonal free. -/
def edgeFree (hits : U16Vec3 → U16Vec3 → U16Vec3 → U16Vec3 → Res Bool) (verts : List U16Vec3) (ps : Ring) (i j : Nat)
    (d0 d1 : U16Vec3) (k : Nat) : Res Bool :=
  let k1 := (k + 1) % ps.length
  if k = i ∨ k1 = i ∨ k = j ∨ k1 = j then .ok true
  else do
    let p0 ← ringVert verts ps k
    let p1 ← ringVert verts ps k1
    if d0.xz = p0.xz ∨ d1.xz = p0.xz ∨ d0.xz = p1.xz ∨ d1.xz = p1.xz then .ok true
    else do
      let h ← hits d0 d1 p0 p1
      .ok !h

/-- poly_mesh.rs:1185-1213 `is_diagonal_internal_or_external` with `hits = intersect`, 1306-1332 the loose version with
`hits = intersectProp`. -/
def diagonalFree (hits : U16Vec3 → U16Vec3 → U16Vec3 → U16Vec3 → Res Bool) (verts : List U16Vec3) (ps : Ring) (i j : Nat) :
    Res Bool := do
  let d0 ← ringVert verts ps i
  let d1 ← ringVert verts ps j
  (List.range ps.length).foldlM (fun free k => if free then edgeFree hits verts ps i j d0 d1 k else .ok false) true

/-- poly_mesh.rs:1143-1146 `is_diagonal` -/
def isDiagonal (verts : List U16Vec3) (ps : Ring) (i j : Nat) : Res Bool :=
  andThen (inCone left verts ps i j) (diagonalFree intersect verts ps i j)

/-- poly_mesh.rs:1275-1284 `is_diagonal_loose` -/
def isDiagonalLoose (verts : List U16Vec3) (ps : Ring) (i j : Nat) : Res Bool :=
  andThen (inCone leftOn verts ps i j) (diagonalFree intersectProp verts ps i j)

/-- poly_mesh.rs:1120-1130: set or clear `CAN_REMOVE` at position `i`. -/
def setFlag (ps : Ring) (i : Nat) (d : Bool) : Res Ring := do
  let p ← idx ps i
  setIdx ps i (p.1, d)

/-- poly_mesh.rs:1044-1050: flag the positions that can be cut off at the start. -/
def flagEars (verts : List U16Vec3) (ps : Ring) : Res Ring :=
  (List.range ps.length).foldlM (fun (ps : Ring) i => do
    let i1 := (i + 1) % ps.length
    let d ← isDiagonal verts ps i ((i1 + 1) % ps.length)
    if d then setFlag ps i1 true else .ok ps) ps

/-- poly_mesh.rs:1060-1061: `d.xz().length_squared() as u16` for the difference of two vertices; the cast truncates. -/
def cutLength (p q : U16Vec3) : Res Nat := do
  let l ← lenSqI32 ((q.x : Int) - p.x) ((q.z : Int) - p.z)
  .ok (l % 65536).toNat

/-- poly_mesh.rs:1062-1065: keep the shortest, the earlier one on a tie. -/
def shorter (best : Option (Nat × Nat)) (len i : Nat) : Option (Nat × Nat) :=
  match best with
  | none => some (len, i)
  | some (m, _) => if len < m then some (len, i) else best

/-- poly_mesh.rs:1054-1067: one candidate among the flagged ears. -/
def earStep (verts : List U16Vec3) (ps : Ring) (best : Option (Nat × Nat)) (i : Nat) : Res (Option (Nat × Nat)) := do
  let i1 := (i + 1) % ps.length
  let p ← idx ps i1
  if p.2 then
    let p0 ← ringVert verts ps i
    let p2 ← ringVert verts ps ((i1 + 1) % ps.length)
    let len ← cutLength p0 p2
    .ok (shorter best len i)
  else .ok best

/-- poly_mesh.rs:1078-1091: one candidate of the recovery search. -/
def looseStep (verts : List U16Vec3) (ps : Ring) (best : Option (Nat × Nat)) (i : Nat) : Res (Option (Nat × Nat)) := do
  let i1 := (i + 1) % ps.length
  let i2 := (i1 + 1) % ps.length
  let d ← isDiagonalLoose verts ps i i2
  if d then
    let p0 ← ringVert verts ps i
    let p2 ← ringVert verts ps ((i2 + 1) % ps.length)
    let len ← cutLength p0 p2
    .ok (shorter best len i)
  else .ok best

/-- poly_mesh.rs:1052-1092: the position before the ear to cut. -/
def findEar (verts : List U16Vec3) (ps : Ring) : Res (Option Nat) := do
  let best ← (List.range ps.length).foldlM (earStep verts ps) none
  match best with
  | some b => .ok (some b.2)
  | none => do
    let best ← (List.range ps.length).foldlM (looseStep verts ps) none
    .ok (best.map (·.2))

/-- poly_mesh.rs:1109-1130: remove the position after `i` from the ring and update the flags next to it. -/
def cutRing (verts : List U16Vec3) (ps : Ring) (i1 : Nat) : Res Ring := do
  let ps := ps.eraseIdx i1
  let n := ps.length
  let i1 := if i1 ≥ n then 0 else i1
  let i := (i1 + n - 1) % n
  let d ← isDiagonal verts ps ((i + n - 1) % n) i1
  let ps ← setFlag ps i d
  let d ← isDiagonal verts ps i ((i1 + 1) % n)
  setFlag ps i1 d

/-- glam `U16Vec3` holding three positions of a contour: a triangle. -/
abbrev Tri := Nat × Nat × Nat

/-- poly_mesh.rs:1104-1107, 1132-1136: the triangle of three positions of the ring. -/
def ringTri (ps : Ring) (i j k : Nat) : Res Tri := do
  let a ← idx ps i
  let b ← idx ps j
  let c ← idx ps k
  .ok (a.1, b.1, c.1)

/-- poly_mesh.rs:1051-1138: cut ears until three positions are left; one unit of fuel per iteration. -/
def cutLoop (verts : List U16Vec3) : Nat → Ring → List Tri → Res (List Tri)
  | 0, ps, tris =>
    if 3 < ps.length then .error .diverge
    else do
      let t ← ringTri ps 0 1 2
      .ok (tris ++ [t])
  | fuel + 1, ps, tris =>
    if 3 < ps.length then do
      let ear ← findEar verts ps
      match ear with
      | none => .error .err
      | some i => do
        let i1 := (i + 1) % ps.length
        let t ← ringTri ps i i1 ((i1 + 1) % ps.length)
        let ps ← cutRing verts ps i1
        cutLoop verts fuel ps (tris ++ [t])
    else do
      let t ← ringTri ps 0 1 2
      .ok (tris ++ [t])

/-- poly_mesh.rs:1035-1139 `triangulate`, called with `indices = 0..n` (lines 261-263, 666) -/
def triangulate (verts : List U16Vec3) : Res (List Tri) := do
  let ps ← flagEars verts ((List.range verts.length).map fun i => (i, false))
  cutLoop verts verts.length ps []

end Rerecast
