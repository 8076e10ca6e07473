import Verif.Model.Basic
/-! Model of `compact_span.rs`, `compact_cell.rs`, `region.rs` and `span.rs` (data types). -/
namespace Rerecast

/-- span.rs:93-140 `AreaType(u8)`; `NOT_WALKABLE = 0`. -/
notation "Area" => Nat
/-- span.rs:129 `AreaType::NOT_WALKABLE` -/
def NOT_WALKABLE : Area := 0
/-- span.rs:132 `AreaType::DEFAULT_WALKABLE` -/
def DEFAULT_WALKABLE : Area := 255
/-- span.rs:136-139 `AreaType::is_walkable` -/
def isWalkable (a : Area) : Bool := a != NOT_WALKABLE

/-- compact_span.rs:11-22 `CompactSpan`; `y : u16` and `region : u16` are `Nat`. -/
structure CompactSpan where
  y : Nat
  region : Nat
  data : BitVec 32
  deriving DecidableEq, Repr

/-- `#[derive(Default)]` on `CompactSpan`, compact_span.rs:11 -/
def CompactSpan.default : CompactSpan := ⟨0, 0, 0⟩

/-- compact_span.rs:25 `NOT_CONNECTED` -/
def NOT_CONNECTED : Nat := 0x3f

/-- compact_span.rs:29-35 `set_con`.  Rust shifts overflow (panic) for `direction * 6 >= 32`; the model is
only used with `direction < 4`, as every caller does. -/
def CompactSpan.setCon (s : CompactSpan) (direction : Nat) (neighbor : Option Nat) : CompactSpan :=
  let shift := direction * 6
  let value : BitVec 32 := BitVec.ofNat 32 (neighbor.getD NOT_CONNECTED) &&& 0x3f#32
  { s with data := (s.data &&& ~~~(0x3f#32 <<< shift)) ||| (value <<< shift) }

/-- compact_span.rs:39-47 `con` -/
def CompactSpan.con (s : CompactSpan) (direction : Nat) : Option Nat :=
  let shift := direction * 6
  let value := ((s.data >>> shift) &&& 0x3f#32).toNat
  if value = NOT_CONNECTED then none else some value

/-- compact_span.rs:50-52 `height` (the `as u8` keeps the low 8 bits) -/
def CompactSpan.height (s : CompactSpan) : Nat := ((s.data >>> 24).setWidth 8).toNat

/-- compact_span.rs:55-57 `set_height` -/
def CompactSpan.setHeight (s : CompactSpan) (height : Nat) : CompactSpan :=
  { s with data := (s.data &&& 0x00FFFFFF#32) ||| (BitVec.ofNat 32 height <<< 24) }

/-- compact_cell.rs:12-21 `CompactCell` -/
structure CompactCell where
  index : Nat
  count : Nat
  deriving DecidableEq, Repr

/-- `#[derive(Default)]` on `CompactCell`, compact_cell.rs:12 -/
def CompactCell.default : CompactCell := ⟨0, 0⟩

/-- compact_cell.rs:45-47 `inc_count`: `self.count += 1` on a `u8`, overflow-checked. -/
def CompactCell.incCount (c : CompactCell) : Res CompactCell :=
  if c.count + 1 ≤ 255 then .ok { c with count := c.count + 1 } else .error .panic

/-- compact_cell.rs:50-52 `index_range` (also written out as `index..index+count` by most callers) -/
def CompactCell.indexRange (c : CompactCell) : List Nat := List.range' c.index c.count

/-- region.rs:20 `RegionId::NONE` -/
def REGION_NONE : Nat := 0
/-- region.rs:25 `RegionId::BORDER_REGION` -/
def BORDER_REGION : Nat := 0x8000
/-- region.rs `RegionId::intersects(BORDER_REGION)`: bit 15 of the id -/
def isBorderRegion (r : Nat) : Bool := r.testBit 15

end Rerecast
