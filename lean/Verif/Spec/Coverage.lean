import Verif.Spec.Pipeline
/-! Specification vocabulary for coverage: places of a scene where the agent can stand whatever rounding to the grid does. -/
namespace Rerecast
namespace World

/-- Something of the scene is inside the cell `(x, z)`, at a height that belongs to voxel `v` and to no other. -/
def Surely (w : World) (x z v : Nat) : Prop :=
  ∃ t q, w.triangle t ∧ InTriangle t q ∧ InOpenCell w.fr x z q ∧ InVoxel w.fr v q.y ∧ ∀ v', InVoxel w.fr v' q.y → v' = v

/-- Something of the scene is in the cell `(x, z)` or on its boundary, at a height in voxel `v` or on its boundary. -/
def Possibly (w : World) (x z v : Nat) : Prop :=
  ∃ t q, w.triangle t ∧ InTriangle t q ∧ InCell w.fr x z q ∧ InVoxel w.fr v q.y

/-- No voxel of the cell `(x, z)`, from `y` on up to the agent's height, holds anything, and they are below the limit of heights. -/
def Clear (w : World) (x z y : Nat) : Prop := y + w.agentHeight ≤ 65535 ∧ ∀ v, y ≤ v → v < y + w.agentHeight → ¬ w.Possibly x z v

/-- The cells `(x, z)` and `(nx, nz)` share a side. -/
def Beside (x z nx nz : Nat) : Prop := (z = nz ∧ (x = nx + 1 ∨ nx = x + 1)) ∨ (x = nx ∧ (z = nz + 1 ∨ nz = z + 1))

/-- There may be a floor at height `f` in the cell `(x, z)`: something just below it, and not surely anything just above it. -/
def MaybeFloor (w : World) (x z f : Nat) : Prop := 1 ≤ f ∧ w.Possibly x z (f - 1) ∧ ¬ w.Surely x z f

/-- A firm spot. -/
structure Firm (w : World) (p : Spot) : Prop where
  /-- the topmost voxel of the floor surely holds something -/
  ground : 1 ≤ p.y ∧ w.Surely p.x p.z (p.y - 1)
  /-- room for the agent -/
  room : w.Clear p.x p.z p.y
  /-- the floor is thick at most down to a voxel boundary `g`, and everything in it has an acceptable slope -/
  slope : ∃ g < p.y, (g = 0 ∨ ¬ w.Possibly p.x p.z (g - 1)) ∧ ∀ t q, w.triangle t → InTriangle t q → InCell w.fr p.x p.z q →
    g * w.fr.cellHeight ≤ q.y - w.fr.aabb.min.y → q.y - w.fr.aabb.min.y ≤ p.y * w.fr.cellHeight → w.slope t.1 t.2.1 t.2.2 = true
  /-- the four neighbouring cells are in the grid -/
  inside : 1 ≤ p.x ∧ p.x + 1 < w.width ∧ 1 ≤ p.z ∧ p.z + 1 < w.depth
  /-- in each of them something surely reaches up to the agent's climb below the floor, and begins less than its height above it -/
  side : ∀ nx nz, Beside p.x p.z nx nz → ∃ v, p.y ≤ v + 1 + w.agentClimb ∧ v < p.y + w.agentHeight ∧ w.Surely nx nz v
  /-- the floors around that can be stepped to differ by at most the climb: the ground is not too steep -/
  gentle : ∀ ax az bx bz a b, Beside p.x p.z ax az → Beside p.x p.z bx bz → w.MaybeFloor ax az a → w.MaybeFloor bx bz b →
    a ≤ p.y + w.agentClimb → p.y ≤ b + w.agentClimb → a ≤ b + w.agentClimb

/-- A firm step: between firm spots of neighbouring cells, with a difference in height of at most the climb, and with room over the higher floor
in both cells. -/
structure FirmStep (w : World) (a b : Spot) : Prop where
  beside : Beside a.x a.z b.x b.z
  climb : a.y ≤ b.y + w.agentClimb ∧ b.y ≤ a.y + w.agentClimb
  before : w.Firm a
  after : w.Firm b
  room : w.Clear a.x a.z (max a.y b.y) ∧ w.Clear b.x b.z (max a.y b.y)

/-- The ground around `p` is firm up to `n` cells: there is a set of firm spots, `p` among them, and from each of them that is nearer to `p` than
`n` cells there are firm steps to all four sides, to spots of the set. -/
def Spacious (w : World) (n : Nat) (p : Spot) : Prop :=
  ∃ S : Spot → Prop, S p ∧ (∀ q, S q → w.Firm q) ∧
    ∀ q, S q → octile ((q.x : Int) - p.x) ((q.z : Int) - p.z) < 2 * n → ∀ nx nz, Beside q.x q.z nx nz → ∃ y, S ⟨nx, nz, y⟩ ∧ w.FirmStep q ⟨nx, nz, y⟩

/-- The agent of the world is not larger, nor less climbing, than asked for and rounded to the grid. -/
structure Snug (w : World) (b : ConfigBuilder) : Prop where
  height : w.agentHeight * b.cellHeight < b.agentHeight + b.cellHeight
  climb : b.agentMaxClimb < (w.agentClimb + 1) * b.cellHeight
  radius : w.agentRadius * b.cellSize < b.agentRadius + b.cellSize

end World
end Rerecast
