/-
Result monad and the primitive operations shared by every modelled function.

`Res α` models a Rust computation under overflow-checked (debug) semantics:
* `.ok a`            the function returns `a`;
* `.error .panic`    it panics (index out of range, integer overflow, `unwrap` on `None`, ...);
* `.error .err`      it returns `Err(_)`;
* `.error .diverge`  a `while` loop of the model ran out of fuel.
-/
namespace Rerecast

/-- The ways in which a modelled Rust function can fail to return a value. -/
inductive Fault
  | panic
  | err
  | diverge
  deriving DecidableEq, Repr

/-- Outcome of a modelled Rust function. -/
abbrev Res (α : Type _) := Except Fault α

instance [DecidableEq α] : DecidableEq (Res α) := fun a b =>
  match a, b with
  | .ok x, .ok y => if h : x = y then isTrue (by rw [h]) else isFalse (by intro h'; cases h'; exact h rfl)
  | .error x, .error y => if h : x = y then isTrue (by rw [h]) else isFalse (by intro h'; cases h'; exact h rfl)
  | .ok _, .error _ => isFalse (by intro h; cases h)
  | .error _, .ok _ => isFalse (by intro h; cases h)

/-- `v[i]` on a `Vec`/slice: panics when out of range. -/
def idx (l : List α) (i : Nat) : Res α :=
  match l[i]? with
  | some a => .ok a
  | none => .error .panic

/-- `v[i] = a` on a `Vec`/slice: panics when out of range. -/
def setIdx (l : List α) (i : Nat) (a : α) : Res (List α) :=
  if i < l.length then .ok (l.set i a) else .error .panic

/-- `a + b` on `u16`, overflow-checked. -/
def addU16 (a b : Nat) : Res Nat :=
  if a + b ≤ 65535 then .ok (a + b) else .error .panic

/-- `a + b` on `u8`, overflow-checked. -/
def addU8 (a b : Nat) : Res Nat :=
  if a + b ≤ 255 then .ok (a + b) else .error .panic

/-- `a * b` on `u16`, overflow-checked. -/
def mulU16 (a b : Nat) : Res Nat :=
  if a * b ≤ 65535 then .ok (a * b) else .error .panic

/-- `a - b` on an unsigned type, overflow-checked. -/
def subU (a b : Nat) : Res Nat :=
  if b ≤ a then .ok (a - b) else .error .panic

/-- The grid coordinates `(x, z)` in the order of the Rust double loop
`for z in 0..height { for x in 0..width { .. } }`. -/
def gridCells (w h : Nat) : List (Nat × Nat) :=
  (List.range h).flatMap fun z => (List.range w).map fun x => (x, z)

/-- The grid coordinates in the order of
`for z in (0..height).rev() { for x in (0..width).rev() { .. } }`. -/
def gridCellsRev (w h : Nat) : List (Nat × Nat) :=
  (List.range h).reverse.flatMap fun z => (List.range w).reverse.map fun x => (x, z)

end Rerecast
