import Verif.Model.Basic
/-! Model of `crates/rerecast/src/math.rs` (integer helpers). -/
namespace Rerecast

/-- math.rs:142-146 `dir_offset_x` -/
def dirOffsetX (direction : Nat) : Int :=
  match direction % 4 with
  | 0 => -1
  | 1 => 0
  | 2 => 1
  | _ => 0

/-- math.rs:155-159 `dir_offset_z` -/
def dirOffsetZ (direction : Nat) : Int :=
  match direction % 4 with
  | 0 => 0
  | 1 => 1
  | 2 => 0
  | _ => -1

/-- math.rs:161-165 `dir_offset`; the index is computed in `i32` and cast to `usize`, so a negative
index becomes huge and is out of range. -/
def dirOffset (offset_x offset_z : Int) : Res Int :=
  let i := (offset_z + 1) * 2 + offset_x
  if i < 0 then .error .panic else idx [3, 0, -1, 2, 1] i.toNat

/-- math.rs:167-170 `prev`; `n = 0` is a division by zero (`i + 0 - 1` underflows first if `i = 0`). -/
def prevIdx (i n : Nat) : Res Nat :=
  if n = 0 then .error .panic else .ok ((i + n - 1) % n)

/-- math.rs:172-175 `next`; `n = 0` is a remainder by zero. -/
def nextIdx (i n : Nat) : Res Nat :=
  if n = 0 then .error .panic else .ok ((i + 1) % n)

end Rerecast
