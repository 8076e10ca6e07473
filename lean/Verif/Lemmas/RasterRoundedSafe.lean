import Verif.Lemmas.RasterRounded
import Verif.Lemmas.ClipRounded
import Verif.Lemmas.Float32Cut
/-! Rasterization in single precision does not abort if no corner lies close to a row line, and what it adds is close to the triangle. -/
set_option linter.unusedVariables false
namespace Rerecast
open Heightfield

/-- An axis of the grid: it starts at `m` and has `n` cells of size `cs`; all coordinates are within `M`. -/
structure GridAxis (m cs M : ℚ) (n : Nat) : Prop where
  fm : IsF32 m
  fcs : IsF32 cs
  hM : 1 / 2 ^ 100 ≤ M
  hm : |m| ≤ M
  hn : |m + n * cs| ≤ M
  c0 : 0 < cs
  c1 : cs ≤ M
  c2 : M ≤ 2 ^ 15 * cs

namespace GridAxis
variable {m cs M : ℚ} {n : Nat} (g : GridAxis m cs M n)
include g

theorem pos : 0 < M := lt_of_lt_of_le g.c0 g.c1

theorem wide : (n : ℚ) * cs ≤ 2 * M := by
  have h1 := abs_le.1 g.hm
  have h2 := abs_le.1 g.hn
  linarith

theorem close {k : Int} (h1 : -1 ≤ k) (h2 : k ≤ n) : |gridLineR roundF32 m cs k - (m + (k + 1) * cs)| ≤ 1 / 2 ^ 20 * M := by
  refine gridLine_close g.fm g.fcs g.hM g.hm g.c0.le g.c1 ?_
  have k1 : (-1 : ℚ) ≤ k := by exact_mod_cast h1
  have k2 : (k : ℚ) ≤ n := by exact_mod_cast h2
  have := g.wide
  have a1 := mul_le_mul_of_nonneg_right k1 g.c0.le
  have a2 := mul_le_mul_of_nonneg_right k2 g.c0.le
  have := g.c1
  have := g.pos
  rw [abs_le]
  constructor <;> linarith

theorem gap {j k : Int} (h1 : -1 ≤ j) (h2 : k ≤ n) (hjk : j < k) :
    gridLineR roundF32 m cs j + 1 / 2 ^ 16 * M ≤ gridLineR roundF32 m cs k := by
  have e1 := abs_le.1 (g.close h1 (by omega : j ≤ n))
  have e2 := abs_le.1 (g.close (by omega : -1 ≤ k) h2)
  have k1 : (j : ℚ) + 1 ≤ k := by exact_mod_cast hjk
  have a1 := mul_le_mul_of_nonneg_right k1 g.c0.le
  have := g.c2
  have := g.pos
  norm_num at *
  linarith

theorem within {k : Int} (h1 : -1 ≤ k) (h2 : k < n) : |gridLineR roundF32 m cs k| ≤ 5 / 4 * M := by
  have e1 := abs_le.1 (g.close h1 (by omega))
  have k1 : (-1 : ℚ) ≤ k := by exact_mod_cast h1
  have k2 : (k : ℚ) + 1 ≤ n := by exact_mod_cast h2
  have a1 := mul_le_mul_of_nonneg_right k1 g.c0.le
  have a2 := mul_le_mul_of_nonneg_right k2 g.c0.le
  have b1 := abs_le.1 g.hm
  have b2 := abs_le.1 g.hn
  have := g.pos
  rw [abs_le]
  norm_num at *
  constructor <;> linarith
end GridAxis

/-! ### Signs and crossings -/

theorem sideR_sign {axis : DivisionAxis} {off : ℚ} (ho : IsF32 off) {v : V3 ℚ} (hv : IsF32 (axis.coord v)) :
    (sideR roundF32 axis off v ≥ 0 ↔ axis.coord v ≤ off) ∧ (sideR roundF32 axis off v > 0 ↔ axis.coord v < off) :=
  round_sub_sign ho hv

theorem straddles_of_cross {axis : DivisionAxis} {off : ℚ} (ho : IsF32 off) {p a : V3 ℚ} (hp : IsF32 (axis.coord p)) (ha : IsF32 (axis.coord a))
    (h : CrossF (sideR roundF32 axis off) p a) : Straddles off (axis.coord p) (axis.coord a) := by
  unfold CrossF at h
  rw [ne_eq, decide_eq_decide, (sideR_sign ho hp).1, (sideR_sign ho ha).1] at h
  unfold Straddles
  by_cases h1 : axis.coord p ≤ off
  · left
    refine ⟨h1, ?_⟩
    by_contra hc
    exact h ⟨fun _ => h1, fun _ => not_lt.1 hc⟩
  · right
    refine ⟨not_le.1 h1, ?_⟩
    by_contra hc
    exact h ⟨fun x => absurd x hc, fun x => absurd x h1⟩

theorem f32_line (m cs : ℚ) (k : Int) : IsF32 (gridLineR roundF32 m cs k) := roundF32_isF32 _

theorem abs_le_of_between {b a f B : ℚ} (h : min b a ≤ f ∧ f ≤ max b a) (hb : |b| ≤ B) (ha : |a| ≤ B) : |f| ≤ B := by
  rw [abs_le] at *
  exact ⟨le_trans (le_min hb.1 ha.1) h.1, le_trans h.2 (max_le hb.2 ha.2)⟩

/-! ### Closeness -/

/-- `v` is within `d` of a point of `S` in every coordinate. -/
def NearS (S : V3 ℚ → Prop) (d : ℚ) (v : V3 ℚ) : Prop := ∃ q, S q ∧ |v.x - q.x| ≤ d ∧ |v.y - q.y| ≤ d ∧ |v.z - q.z| ≤ d

theorem NearS.mono {S : V3 ℚ → Prop} {d d' : ℚ} {v : V3 ℚ} (h : NearS S d v) (hd : d ≤ d') : NearS S d' v := by
  obtain ⟨q, h1, h2, h3, h4⟩ := h
  exact ⟨q, h1, h2.trans hd, h3.trans hd, h4.trans hd⟩

theorem near_self {S : V3 ℚ → Prop} {d : ℚ} (hd : 0 ≤ d) {v : V3 ℚ} (h : S v) : NearS S d v := ⟨v, h, by simpa, by simpa, by simpa⟩

theorem close_lerp {p a q b s d : ℚ} (h0 : 0 ≤ s) (h1 : s ≤ 1) (hp : |p - q| ≤ d) (ha : |a - b| ≤ d) :
    |p + (a - p) * s - (q + (b - q) * s)| ≤ d := by
  have e : p + (a - p) * s - (q + (b - q) * s) = (p - q) * (1 - s) + (a - b) * s := by ring
  rw [e]
  refine (abs_add_le _ _).trans ?_
  rw [abs_mul, abs_mul, abs_of_nonneg h0, abs_of_nonneg (by linarith : 0 ≤ 1 - s)]
  have k1 := mul_le_mul_of_nonneg_right hp (by linarith : 0 ≤ 1 - s)
  have k2 := mul_le_mul_of_nonneg_right ha h0
  nlinarith

theorem convex_near {S : V3 ℚ → Prop} (hS : ConvexPred S) (d : ℚ) : ConvexPred (NearS S d) := by
  rintro p a s ⟨q, h1, h2, h3, h4⟩ ⟨b, g1, g2, g3, g4⟩ h0 hs
  exact ⟨lerp q b s, hS q b s h1 g1 h0 hs, close_lerp h0 hs h2 g2, close_lerp h0 hs h3 g3, close_lerp h0 hs h4 g4⟩

theorem near_near {S : V3 ℚ → Prop} {d d' : ℚ} {v : V3 ℚ} (h : NearS (NearS S d) d' v) : NearS S (d + d') v := by
  obtain ⟨q, ⟨r, hr, r1, r2, r3⟩, h1, h2, h3⟩ := h
  have key : ∀ x y z : ℚ, |x - y| ≤ d' → |y - z| ≤ d → |x - z| ≤ d + d' := by
    intro x y z k1 k2
    have := abs_add_le (x - y) (y - z)
    rw [show x - y + (y - z) = x - z by ring] at this
    linarith
  exact ⟨r, hr, key _ _ _ h1 r1, key _ _ _ h2 r2, key _ _ _ h3 r3⟩

/-- All coordinates are `f32`s within `B`. -/
def Small (B : ℚ) (v : V3 ℚ) : Prop := (IsF32 v.x ∧ IsF32 v.y ∧ IsF32 v.z) ∧ |v.x| ≤ B ∧ |v.y| ≤ B ∧ |v.z| ≤ B

theorem near_lerpR {S : V3 ℚ → Prop} (hS : ConvexPred S) {d B : ℚ} {p a : V3 ℚ} (hp : NearS S d p) (ha : NearS S d a) (sp : Small B p) (sa : Small B a)
    {s : ℚ} (h0 : 0 ≤ s) (h1 : s ≤ 1) (hB : 1 / 2 ^ 100 ≤ B) : NearS S (d + B / 2 ^ 21) (lerpR roundF32 p a s) := by
  refine near_near ⟨lerp p a s, convex_near hS d p a s hp ha h0 h1, ?_, ?_, ?_⟩
  · exact mix_lerp sp.1.1 sa.1.1 h0 h1 sa.2.1 sp.2.1 hB
  · exact mix_lerp sp.1.2.1 sa.1.2.1 h0 h1 sa.2.2.1 sp.2.2.1 hB
  · exact mix_lerp sp.1.2.2 sa.1.2.2 h0 h1 sa.2.2.2 sp.2.2.2 hB

/-- The corners of a triangle. -/
def cornerList (t : V3 ℚ × V3 ℚ × V3 ℚ) : List (V3 ℚ) := [t.1, t.2.1, t.2.2]

theorem corner_inTriangle {t : V3 ℚ × V3 ℚ × V3 ℚ} {v : V3 ℚ} (h : v ∈ cornerList t) : InTriangle t v := by
  simp only [cornerList, List.mem_cons, List.not_mem_nil, or_false] at h
  rcases h with rfl | rfl | rfl
  · exact ⟨1, 0, 0, by norm_num, by norm_num, by norm_num, by norm_num, by ring, by ring, by ring⟩
  · exact ⟨0, 1, 0, by norm_num, by norm_num, by norm_num, by norm_num, by ring, by ring, by ring⟩
  · exact ⟨0, 0, 1, by norm_num, by norm_num, by norm_num, by norm_num, by ring, by ring, by ring⟩

/-- The coordinates of a point near a triangle are bounded. -/
theorem abs_of_near {t : V3 ℚ × V3 ℚ × V3 ℚ} {M d : ℚ} (hM : ∀ v ∈ cornerList t, |v.x| ≤ M ∧ |v.y| ≤ M ∧ |v.z| ≤ M) {v : V3 ℚ}
    (h : NearS (InTriangle t) d v) : |v.x| ≤ M + d ∧ |v.y| ≤ M + d ∧ |v.z| ≤ M + d := by
  obtain ⟨q, ⟨a, b, c, ha, hb, hc, hs, ex, ey, ez⟩, h1, h2, h3⟩ := h
  obtain ⟨x1, y1, z1⟩ := hM t.1 (by simp [cornerList])
  obtain ⟨x2, y2, z2⟩ := hM t.2.1 (by simp [cornerList])
  obtain ⟨x3, y3, z3⟩ := hM t.2.2 (by simp [cornerList])
  have key : ∀ u1 u2 u3 q v : ℚ, |u1| ≤ M → |u2| ≤ M → |u3| ≤ M → q = a * u1 + b * u2 + c * u3 → |v - q| ≤ d → |v| ≤ M + d := by
    intro u1 u2 u3 q v k1 k2 k3 e hv
    have hq : |q| ≤ M := by
      rw [e]
      refine (abs_add_three _ _ _).trans ?_
      rw [abs_mul, abs_mul, abs_mul, abs_of_nonneg ha, abs_of_nonneg hb, abs_of_nonneg hc]
      have m1 := mul_le_mul_of_nonneg_left k1 ha
      have m2 := mul_le_mul_of_nonneg_left k2 hb
      have m3 := mul_le_mul_of_nonneg_left k3 hc
      have : a * M + b * M + c * M = M := by rw [← add_mul, ← add_mul, hs, one_mul]
      linarith
    have := abs_add_le q (v - q)
    rw [show q + (v - q) = v by ring] at this
    linarith
  exact ⟨key _ _ _ _ _ x1 x2 x3 ex h1, key _ _ _ _ _ y1 y2 y3 ey h2, key _ _ _ _ _ z1 z2 z3 ez h3⟩

/-- The frame and the field's size. -/
structure SafeFrame (fr : Frame) (w h : Nat) (M : ℚ) : Prop where
  gx : GridAxis fr.aabb.min.x fr.cellSize M w
  gz : GridAxis fr.aabb.min.z fr.cellSize M h
  c0 : 1 / 2 ^ 20 ≤ fr.cellSize
  c1 : fr.cellSize ≤ 2 ^ 20
  h0 : 1 / 2 ^ 20 ≤ fr.cellHeight
  h1 : fr.cellHeight ≤ 2 ^ 20
  tall : fr.aabb.min.y ≤ fr.aabb.max.y
  low : fr.aabb.max.y - fr.aabb.min.y ≤ 65000 * fr.cellHeight
  fy : IsF32 fr.aabb.min.y
  by0 : |fr.aabb.min.y| ≤ M
  by1 : |fr.aabb.max.y| ≤ M

/-- The field and the triangle. -/
structure SafeCtx (c : RCtx) (M : ℚ) : Prop where
  frame : SafeFrame c.fr c.w c.h M
  hG : ¬ c.G
  hw : 1 ≤ c.w ∧ c.w ≤ 32767
  hh : 1 ≤ c.h ∧ c.h ≤ 32767
  corners : ∀ v ∈ cornerList c.tri, |v.x| ≤ M ∧ |v.y| ≤ M ∧ |v.z| ≤ M

/-- The computed row and column lines. -/
def RCtx.lz (c : RCtx) (k : Int) : ℚ := gridLineR roundF32 c.fr.aabb.min.z c.fr.cellSize k
def RCtx.lx (c : RCtx) (k : Int) : ℚ := gridLineR roundF32 c.fr.aabb.min.x c.fr.cellSize k

/-- No corner is left of the field. -/
def RCtx.InX (c : RCtx) : Prop := ∀ v ∈ cornerList c.tri, c.fr.aabb.min.x ≤ v.x

theorem f32_lz (c : RCtx) (k : Int) : IsF32 (c.lz k) := f32_line _ _ _
theorem f32_lx (c : RCtx) (k : Int) : IsF32 (c.lx k) := f32_line _ _ _

section
variable {c : RCtx} {M : ℚ}

theorem SafeCtx.pos (s : SafeCtx c M) : 0 < M := s.frame.gx.pos
theorem SafeCtx.tiny (s : SafeCtx c M) : 1 / 2 ^ 100 ≤ 2 * M := by
  have := s.frame.gx.hM
  have := s.pos
  linarith

/-! ### Columns -/

/-- The part of the triangle in row `z`, up to rounding. -/
def RCtx.RowSet (c : RCtx) (M : ℚ) (z : Int) (v : V3 ℚ) : Prop :=
  NearS (InTriangle c.tri) ((z + 1) * (M / 2 ^ 20)) v ∧ c.lz (z - 1) - 1 / 2 ^ 19 * M ≤ v.z ∧ v.z ≤ c.lz z + 1 / 2 ^ 19 * M

theorem convex_rowSet (c : RCtx) (M : ℚ) (z : Int) : ConvexPred (c.RowSet M z) :=
  (convex_near (convex_inTriangle _) _).and ((convex_ge_z _).and (convex_le_z _))

/-- A vertex of the rest of a row before column `x` is cut off. -/
structure XOk (c : RCtx) (M : ℚ) (z x : Int) (v : V3 ℚ) : Prop where
  f : IsF32 v.x ∧ IsF32 v.y ∧ IsF32 v.z
  near : NearS (c.RowSet M z) ((x + 1) * (M / 2 ^ 20)) v
  low : c.InX → 0 ≤ x → c.lx (x - 1) - 1 / 2 ^ 18 * M ≤ v.x

theorem XOk.small (s : SafeCtx c M) {z x : Int} (hz : z < c.h) (hx : x ≤ c.w) {v : V3 ℚ} (h : XOk c M z x v) : Small (2 * M) v := by
  have hM := s.pos
  obtain ⟨q, ⟨hq, -, -⟩, h1, h2, h3⟩ := h.near
  have hn : NearS (InTriangle c.tri) ((z + 1) * (M / 2 ^ 20) + (x + 1) * (M / 2 ^ 20)) v := near_near ⟨q, hq, h1, h2, h3⟩
  obtain ⟨a1, a2, a3⟩ := abs_of_near s.corners hn
  have k1 : (z : ℚ) + 1 ≤ 32768 := by
    have : z + 1 ≤ 32768 := by have := s.hh; omega
    exact_mod_cast this
  have k2 : (x : ℚ) + 1 ≤ 32768 := by
    have : x + 1 ≤ 32768 := by have := s.hw; omega
    exact_mod_cast this
  have m1 := mul_le_mul_of_nonneg_right k1 (by positivity : 0 ≤ M / 2 ^ 20)
  have m2 := mul_le_mul_of_nonneg_right k2 (by positivity : 0 ≤ M / 2 ^ 20)
  have : M + ((z + 1) * (M / 2 ^ 20) + (x + 1) * (M / 2 ^ 20)) ≤ 2 * M := by
    norm_num at *
    linarith
  exact ⟨h.f, a1.trans this, a2.trans this, a3.trans this⟩

/-- The rest of a row before column `x` is cut off. -/
structure XInv (c : RCtx) (M : ℚ) (z x : Int) (R : List (V3 ℚ)) : Prop where
  sweep : Sweep V3.x (c.lx x) 5 R
  each : ∀ v ∈ R, XOk c M z x v

/-- A vertex of the part of a row cut off for column `x`. -/
structure InCol (c : RCtx) (M : ℚ) (z x : Int) (v : V3 ℚ) : Prop where
  fy : IsF32 v.y
  near : NearS (c.RowSet M z) ((x + 2) * (M / 2 ^ 20)) v
  low : c.InX → 0 ≤ x → c.lx (x - 1) - 1 / 2 ^ 18 * M ≤ v.x
  high : v.x ≤ c.lx x + 1 / 2 ^ 18 * M

theorem xstep (s : SafeCtx c M) {z x : Int} (hz : z < c.h) (h1 : -1 ≤ x) (h2 : x < c.w) {R : List (V3 ℚ)} (h : XInv c M z x R) :
    (keepF1 (sideR roundF32 .X (c.lx x)) (cutR roundF32 .X (c.lx x)) R).length ≤ 7 ∧
    (keepF2 (sideR roundF32 .X (c.lx x)) (cutR roundF32 .X (c.lx x)) R).length ≤ 7 ∧
    (∀ v ∈ keepF1 (sideR roundF32 .X (c.lx x)) (cutR roundF32 .X (c.lx x)) R, InCol c M z x v) ∧
    XInv c M z (x + 1) (keepF2 (sideR roundF32 .X (c.lx x)) (cutR roundF32 .X (c.lx x)) R) := by
  have g := s.frame.gx
  have hM := s.pos
  have hgap : c.lx x + 1 / 2 ^ 16 * M ≤ c.lx (x + 1) := g.gap h1 (by omega : x + 1 ≤ c.w) (by omega)
  have hO := f32_lx c x
  have small : ∀ v ∈ R, Small (2 * M) v := fun v hv => (h.each v hv).small s hz (by omega)
  have hstr : ∀ p ∈ R, ∀ a ∈ R, CrossF (sideR roundF32 .X (c.lx x)) p a → Straddles (c.lx x) p.x a.x :=
    fun p hp a ha hc => straddles_of_cross (axis := .X) hO (small p hp).1.1 (small a ha).1.1 hc
  have hcut : ∀ p ∈ R, ∀ a ∈ R, CrossF (sideR roundF32 .X (c.lx x)) p a → |(cutR roundF32 .X (c.lx x) p a).x - c.lx x| ≤ 1 / 2 ^ 18 * M := by
    intro p hp a ha hc
    have : |(cutR roundF32 .X (c.lx x) p a).x - c.lx x| ≤ 1 / 2 ^ 19 * (2 * M) :=
      mix_cut hO (small p hp).1.1 (small a ha).1.1 (hstr p hp a ha hc) (small a ha).2.1 (small p hp).2.1 s.tiny
    norm_num at *
    linarith
  have hnear : ∀ p ∈ R, ∀ a ∈ R, CrossF (sideR roundF32 .X (c.lx x)) p a →
      NearS (c.RowSet M z) ((x + 2) * (M / 2 ^ 20)) (cutR roundF32 .X (c.lx x) p a) := by
    intro p hp a ha hc
    have hu := cutParam_unit hO (small p hp).1.1 (small a ha).1.1 (hstr p hp a ha hc)
    have := near_lerpR (convex_rowSet c M z) (h.each p hp).near (h.each a ha).near (small p hp) (small a ha) hu.1 hu.2 s.tiny
    have e : ((x : ℚ) + 1) * (M / 2 ^ 20) + 2 * M / 2 ^ 21 = (x + 2) * (M / 2 ^ 20) := by ring
    rw [e] at this
    exact this
  have more : ((x : ℚ) + 1) * (M / 2 ^ 20) ≤ (x + 2) * (M / 2 ^ 20) := mul_le_mul_of_nonneg_right (by linarith) (by positivity)
  obtain ⟨s1, s2, s3⟩ := h.sweep.step (c' := c.lx (x + 1)) (e := sideR roundF32 .X (c.lx x))
    (cut := cutR roundF32 .X (c.lx x)) (by linarith)
    (fun v hv => sideR_sign (axis := .X) hO (small v hv).1.1) (by
      intro p hp a ha hc
      have := (abs_le.1 (hcut p hp a ha hc)).2
      norm_num at *
      linarith)
  refine ⟨s1, by omega, fun v hv => ?_, s2, fun v hv => ?_⟩
  · rcases keepF1_side hv with ⟨hv, hs⟩ | ⟨p, hp, a, ha, hc, rfl⟩
    · have hle : v.x ≤ c.lx x := (sideR_sign (axis := .X) hO (small v hv).1.1).1.1 hs
      have : 0 ≤ 1 / 2 ^ 18 * M := by positivity
      exact ⟨(h.each v hv).f.2.1, (h.each v hv).near.mono more, (h.each v hv).low, by linarith⟩
    · have h3 := abs_le.1 (hcut p hp a ha hc)
      refine ⟨roundF32_isF32 _, hnear p hp a ha hc, fun _ hx => ?_, by linarith⟩
      have : c.lx (x - 1) + 1 / 2 ^ 16 * M ≤ c.lx x := g.gap (by omega : -1 ≤ x - 1) (by omega : x ≤ c.w) (by omega)
      have : 0 ≤ 1 / 2 ^ 16 * M := by positivity
      linarith
  · rcases keepF2_side hv with ⟨hv, hs⟩ | ⟨p, hp, a, ha, hc, rfl⟩
    · have hle : c.lx x ≤ v.x := by
        by_contra hc
        have := (sideR_sign (axis := .X) hO (small v hv).1.1).2.2 (not_le.1 hc)
        linarith
      have : 0 ≤ 1 / 2 ^ 18 * M := by positivity
      refine ⟨(h.each v hv).f, ?_, fun _ _ => by rw [add_sub_cancel_right]; linarith⟩
      push_cast
      rw [show (x : ℚ) + 1 + 1 = x + 2 by ring]
      exact (h.each v hv).near.mono more
    · have h3 := abs_le.1 (hcut p hp a ha hc)
      refine ⟨⟨roundF32_isF32 _, roundF32_isF32 _, roundF32_isF32 _⟩, ?_, fun _ _ => by rw [add_sub_cancel_right]; linarith⟩
      push_cast
      rw [show (x : ℚ) + 1 + 1 = x + 2 by ring]
      exact hnear p hp a ha hc

/-! ### Rows -/

/-- How a vertex lies to row line `k`: away from it, or, if `last`, not beyond the last one. -/
def OkAt (m cs M : ℚ) (n : Nat) (last : Bool) (k : Int) (v : V3 ℚ) : Prop :=
  if last = true ∧ k + 1 = n then v.z ≤ gridLineR roundF32 m cs k else 1 / 2 ^ 19 * M ≤ |gridLineR roundF32 m cs k - v.z|

/-- A vertex of the rest before row `z` is cut off. -/
structure ZOk (c : RCtx) (M : ℚ) (last : Bool) (z : Int) (v : V3 ℚ) : Prop where
  f : IsF32 v.x ∧ IsF32 v.y ∧ IsF32 v.z
  bx : |v.x| ≤ M
  bz : |v.z| ≤ M
  ok : ∀ k, z ≤ k → k < c.h → OkAt c.fr.aabb.min.z c.fr.cellSize M c.h last k v
  near : NearS (InTriangle c.tri) (z * (M / 2 ^ 20)) v
  low : c.lz (z - 1) - 1 / 2 ^ 19 * M ≤ v.z
  left : c.InX → c.fr.aabb.min.x ≤ v.x

theorem ZOk.small (s : SafeCtx c M) {last : Bool} {z : Int} (hz : z < c.h) {v : V3 ℚ} (h : ZOk c M last z v) : Small (2 * M) v := by
  have hM := s.pos
  obtain ⟨a1, a2, a3⟩ := abs_of_near s.corners h.near
  have k1 : (z : ℚ) ≤ 32768 := by
    have : z ≤ 32768 := by have := s.hh; omega
    exact_mod_cast this
  have m1 := mul_le_mul_of_nonneg_right k1 (by positivity : 0 ≤ M / 2 ^ 20)
  have : M + z * (M / 2 ^ 20) ≤ 2 * M := by
    norm_num at *
    linarith
  exact ⟨h.f, a1.trans this, a2.trans this, a3.trans this⟩

/-- The rest of a triangle before row `z` is cut off. -/
structure ZInv (c : RCtx) (M : ℚ) (last : Bool) (z : Int) (R : List (V3 ℚ)) : Prop where
  sweep : Sweep V3.z (c.lz z) 3 R
  xs : ∀ t, Twice (fun v => decide (v.x ≤ t)) R
  each : ∀ v ∈ R, ZOk c M last z v

theorem zcut (s : SafeCtx c M) {last : Bool} {z : Int} (h1 : 0 ≤ z) (h2 : z < c.h) {p a : V3 ℚ}
    (hp : ZOk c M last z p) (ha : ZOk c M last z a) (hc : CrossF (sideR roundF32 .Z (c.lz z)) p a) :
    ZOk c M last (z + 1) (cutR roundF32 .Z (c.lz z) p a) ∧
    (cutR roundF32 .Z (c.lz z) p a).z < c.lz (z + 1) ∧
    (min p.x a.x ≤ (cutR roundF32 .Z (c.lz z) p a).x ∧ (cutR roundF32 .Z (c.lz z) p a).x ≤ max p.x a.x) ∧
    (cutR roundF32 .Z (c.lz z) p a).z ≤ c.lz z + 1 / 2 ^ 19 * M := by
  have g := s.frame.gz
  have hM := s.pos
  have hO := f32_lz c z
  have hst : Straddles (c.lz z) p.z a.z := straddles_of_cross (axis := .Z) hO hp.f.2.2 ha.f.2.2 hc
  have hmode : ¬ (last = true ∧ z + 1 = c.h) := by
    intro hl
    have o1 := hp.ok z (le_refl _) h2
    have o2 := ha.ok z (le_refl _) h2
    unfold OkAt at o1 o2
    rw [if_pos hl] at o1 o2
    rcases hst with ⟨-, s⟩ | ⟨s, -⟩
    · exact absurd o2 (not_le.2 s)
    · exact absurd o1 (not_le.2 s)
  have hfar : 1 / 2 ^ 19 * M ≤ |c.lz z - a.z| := by
    have o2 := ha.ok z (le_refl _) h2
    unfold OkAt at o2
    rwa [if_neg hmode] at o2
  have hle := cutParam_le hO hp.f.2.2 ha.f.2.2 hst ha.bz hp.bz hfar
  have hu := cutParam_unit hO hp.f.2.2 ha.f.2.2 hst
  have bx := mix_between hp.f.1 ha.f.1 hu.1 hle
  have bz := mix_between hp.f.2.2 ha.f.2.2 hu.1 hle
  have hacc : |(cutR roundF32 .Z (c.lz z) p a).z - c.lz z| ≤ 1 / 2 ^ 19 * M :=
    mix_cut hO hp.f.2.2 ha.f.2.2 hst ha.bz hp.bz g.hM
  have hacc2 := (abs_le.1 hacc).2
  have hacc1 := (abs_le.1 hacc).1
  refine ⟨⟨⟨roundF32_isF32 _, roundF32_isF32 _, roundF32_isF32 _⟩, abs_le_of_between bx hp.bx ha.bx, abs_le_of_between bz hp.bz ha.bz, ?_, ?_, ?_, ?_⟩, ?_, bx, ?_⟩
  · intro k hk hkn
    have hgap : c.lz z + 1 / 2 ^ 16 * M ≤ c.lz k := g.gap (by omega) (by omega : k ≤ c.h) (by omega : z < k)
    have hd : (cutR roundF32 .Z (c.lz z) p a).z + 1 / 2 ^ 19 * M ≤ c.lz k := by
      norm_num at *
      linarith
    unfold OkAt
    split
    · have : 0 ≤ 1 / 2 ^ 19 * M := by positivity
      change _ ≤ c.lz k
      linarith
    · rw [le_abs]
      left
      change _ ≤ c.lz k - _
      linarith
  · have := near_lerpR (convex_inTriangle c.tri) hp.near ha.near (hp.small s h2) (ha.small s h2) hu.1 hu.2 s.tiny
    have e : (z : ℚ) * (M / 2 ^ 20) + 2 * M / 2 ^ 21 = ((z + 1 : Int) : ℚ) * (M / 2 ^ 20) := by push_cast; ring
    rw [e] at this
    exact this
  · rw [add_sub_cancel_right]
    linarith
  · intro hin
    exact le_trans (le_min (hp.left hin) (ha.left hin)) bx.1
  · have hgap : c.lz z + 1 / 2 ^ 16 * M ≤ c.lz (z + 1) := g.gap (by omega) (by omega : z + 1 ≤ c.h) (by omega : z < z + 1)
    norm_num at *
    linarith
  · linarith

theorem zstep (s : SafeCtx c M) {last : Bool} {z : Int} (h1 : 0 ≤ z) (h2 : z < c.h) {R : List (V3 ℚ)}
    (h : ZInv c M last z R) :
    (keepF1 (sideR roundF32 .Z (c.lz z)) (cutR roundF32 .Z (c.lz z)) R).length ≤ 5 ∧
    (keepF2 (sideR roundF32 .Z (c.lz z)) (cutR roundF32 .Z (c.lz z)) R).length ≤ 7 ∧
    (∀ t, Twice (fun v => decide (v.x ≤ t)) (keepF1 (sideR roundF32 .Z (c.lz z)) (cutR roundF32 .Z (c.lz z)) R)) ∧
    (∀ v ∈ keepF1 (sideR roundF32 .Z (c.lz z)) (cutR roundF32 .Z (c.lz z)) R,
      (IsF32 v.x ∧ IsF32 v.y ∧ IsF32 v.z) ∧ |v.x| ≤ M ∧ c.RowSet M z v ∧ (c.InX → c.fr.aabb.min.x ≤ v.x)) ∧
    ZInv c M last (z + 1) (keepF2 (sideR roundF32 .Z (c.lz z)) (cutR roundF32 .Z (c.lz z)) R) := by
  have hO := f32_lz c z
  have hM := s.pos
  have hgap : c.lz z + 1 / 2 ^ 16 * M ≤ c.lz (z + 1) := s.frame.gz.gap (by omega) (by omega : z + 1 ≤ c.h) (by omega : z < z + 1)
  obtain ⟨s1, s2, s3⟩ := h.sweep.step (c' := c.lz (z + 1)) (e := sideR roundF32 .Z (c.lz z))
    (cut := cutR roundF32 .Z (c.lz z)) (by linarith)
    (fun v hv => sideR_sign (axis := .Z) hO (h.each v hv).f.2.2)
    (fun p hp a ha hc => (zcut s h1 h2 (h.each p hp) (h.each a ha) hc).2.1)
  have tame : ∀ t, Cyc (Tame (fun v => decide (v.x ≤ t)) (sideR roundF32 .Z (c.lz z)) (cutR roundF32 .Z (c.lz z))) R := by
    intro t
    refine cyc_of_mem fun p hp a ha hc => ?_
    obtain ⟨-, -, ⟨b1, b2⟩, -⟩ := zcut s h1 h2 (h.each p hp) (h.each a ha) hc
    simp only [decide_eq_decide]
    generalize (cutR roundF32 .Z (c.lz z) p a).x = c at b1 b2
    by_cases hct : c ≤ t
    · rcases min_choice p.x a.x with e | e <;> rw [e] at b1
      · left; constructor <;> intro <;> linarith
      · right; constructor <;> intro <;> linarith
    · push Not at hct
      rcases max_choice p.x a.x with e | e <;> rw [e] at b2
      · left; constructor <;> intro <;> linarith
      · right; constructor <;> intro <;> linarith
  have more : (z : ℚ) * (M / 2 ^ 20) ≤ (z + 1) * (M / 2 ^ 20) := mul_le_mul_of_nonneg_right (by linarith) (by positivity)
  refine ⟨s1, by omega, fun t => twice_keepF1 (tame t) (h.xs t), ?_, s2, fun t => twice_keepF2 (tame t) (h.xs t), ?_⟩
  · intro v hv
    rcases keepF1_side hv with ⟨hv, hs⟩ | ⟨p, hp, a, ha, hc, rfl⟩
    · have hz := h.each v hv
      have hle : v.z ≤ c.lz z := (sideR_sign (axis := .Z) hO hz.f.2.2).1.1 hs
      have : 0 ≤ 1 / 2 ^ 19 * M := by positivity
      exact ⟨hz.f, hz.bx, ⟨hz.near.mono more, hz.low, by linarith⟩, hz.left⟩
    · obtain ⟨k1, k2, -, k4⟩ := zcut s h1 h2 (h.each p hp) (h.each a ha) hc
      refine ⟨k1.f, k1.bx, ⟨?_, ?_, k4⟩, k1.left⟩
      · have := k1.near
        push_cast at this
        exact this
      · have hlow := k1.low
        rw [add_sub_cancel_right] at hlow
        have : c.lz (z - 1) + 1 / 2 ^ 16 * M ≤ c.lz z := s.frame.gz.gap (by omega) (by omega : z ≤ c.h) (by omega : z - 1 < z)
        have : 0 ≤ 1 / 2 ^ 16 * M := by positivity
        linarith
  · intro v hv
    rcases keepF2_side hv with ⟨hv, hs⟩ | ⟨p, hp, a, ha, hc, rfl⟩
    · have hz := h.each v hv
      have hle : c.lz z ≤ v.z := by
        by_contra hc
        have := (sideR_sign (axis := .Z) hO hz.f.2.2).2.2 (not_le.1 hc)
        linarith
      have : 0 ≤ 1 / 2 ^ 19 * M := by positivity
      refine ⟨hz.f, hz.bx, hz.bz, fun k hk => hz.ok k (by omega), ?_, by rw [add_sub_cancel_right]; linarith, hz.left⟩
      push_cast
      exact hz.near.mono more
    · exact (zcut s h1 h2 (h.each p hp) (h.each a ha) hc).1
end

/-! ### Snapping -/

theorem snapSpanR_safe {fr : Frame} {w h : Nat} {M : ℚ} (s : SafeFrame fr w h M) (lo hi : ℚ) :
    ∃ r, snapSpanR roundF32 fr lo hi = .ok r ∧ ∀ mn mx, r = some (mn, mx) → mn < mx ∧ mx ≤ 65535 := by
  have hD : 0 ≤ fr.aabb.max.y - fr.aabb.min.y := by linarith [s.tall]
  have ch0 : 0 < fr.cellHeight := lt_of_lt_of_le (by norm_num) s.h0
  have hc := (abs_le.1 (rowOf_close hD s.h0 s.h1)).2
  have hq : (fr.aabb.max.y - fr.aabb.min.y) / fr.cellHeight ≤ 65000 := by
    rw [div_le_iff₀ ch0]
    exact s.low
  have hi0 : 0 ≤ roundF32 (1 / fr.cellHeight) := by
    have := roundF32_mono (a := 0) (b := 1 / fr.cellHeight) (by positivity)
    rwa [roundF32_zero] at this
  unfold snapSpanR
  dsimp only
  split
  · exact ⟨none, rfl, by intro _ _ h; cases h⟩
  · rename_i hn
    push Not at hn
    have hby : 0 ≤ roundF32 (fr.aabb.max.y - fr.aabb.min.y) := by
      have := roundF32_mono hD
      rwa [roundF32_zero] at this
    have hmx : max (roundF32 (lo - fr.aabb.min.y)) 0 ≤ roundF32 (fr.aabb.max.y - fr.aabb.min.y) := max_le hn.2 hby
    have hv := roundF32_mono (mul_le_mul_of_nonneg_right hmx hi0)
    have hfl : (roundF32 (max (roundF32 (lo - fr.aabb.min.y)) 0 * roundF32 (1 / fr.cellHeight))).floor < 65534 := by
      rw [Rat.floor_lt_iff]
      push_cast
      norm_num at *
      linarith
    unfold clampI
    rw [if_pos (by omega), bind_ok]
    have hle : ratAsI32 (((roundF32 (max (roundF32 (lo - fr.aabb.min.y)) 0 * roundF32 (1 / fr.cellHeight))).floor : Int) : ℚ) < 65534 := by
      unfold ratAsI32
      rw [ratTrunc_int]
      omega
    generalize ratAsI32 (((roundF32 (max (roundF32 (lo - fr.aabb.min.y)) 0 * roundF32 (1 / fr.cellHeight))).floor : Int) : ℚ) = A at *
    rw [if_pos (by omega), bind_ok]
    refine ⟨_, rfl, ?_⟩
    intro mn mx h
    cases h
    omega

theorem bounds_ok (f : V3 ℚ → ℚ) {buf : List (V3 ℚ)} {n : Nat} (hb : buf.length = 7) (hn : n ≤ 7) (h1 : 1 ≤ n) :
    ∃ r, bounds f buf n = .ok r := by
  obtain ⟨lo, hi, e, -⟩ := bounds_spec (f := f) (buf := buf) (n := n) (L := buf.take n) ⟨hb, by rw [List.length_take]; omega, rfl⟩
    (by intro h; have := congrArg List.length h; rw [List.length_take, hb, List.length_nil] at this; omega)
  exact ⟨_, e⟩

theorem foldlM_intRange {σ : Type} {f : σ → Int → Res σ} {P : Int → σ → Prop} {b : Int} : ∀ (n : Nat) (a : Int) (init : σ), (b + 1 - a).toNat = n →
    P a init → (∀ x s, a ≤ x → x ≤ b → P x s → ∃ s', f s x = .ok s' ∧ P (x + 1) s') →
    ∃ s' y, (intRange a b).foldlM f init = .ok s' ∧ P y s'
  | 0, a, init, hn, h0, _ => by
    rw [intRange_nil (by omega)]
    exact ⟨init, a, rfl, h0⟩
  | n + 1, a, init, hn, h0, step => by
    rw [intRange_cons (by omega), List.foldlM_cons]
    obtain ⟨s1, e1, p1⟩ := step a init (le_refl _) (by omega) h0
    rw [e1, bind_ok]
    exact foldlM_intRange n (a + 1) s1 (by omega) p1 fun x s hx hb hp => step x s (by omega) hb hp


/-- In single precision, every voxel of the snapped block is at a height of the range, up to rounding. -/
theorem snapSpanR_near {fr : Frame} {w h : Nat} {M : ℚ} (s : SafeFrame fr w h M) {lo hi : ℚ} (hlo : IsF32 lo) (hhi : IsF32 hi) (hle : lo ≤ hi) {mn mx : Nat}
    (hr : snapSpanR roundF32 fr lo hi = .ok (some (mn, mx))) : ∀ v : Nat, mn ≤ v → v < mx →
    ∃ y, lo ≤ y ∧ y ≤ hi ∧ fr.aabb.min.y + v * fr.cellHeight - (M + fr.cellHeight) / 2 ^ 20 ≤ y ∧
      y ≤ fr.aabb.min.y + (v + 1) * fr.cellHeight + (M + fr.cellHeight) / 2 ^ 20 := by
  have hM := s.gx.pos
  have ch0 : 0 < fr.cellHeight := lt_of_lt_of_le (by norm_num) s.h0
  have hby0 : 0 ≤ fr.aabb.max.y - fr.aabb.min.y := by linarith [s.tall]
  have hby1 : fr.aabb.max.y - fr.aabb.min.y ≤ 2 * M := by
    have := (abs_le.1 s.by0).1
    have := (abs_le.1 s.by1).2
    linarith
  have hi0 : 0 ≤ roundF32 (1 / fr.cellHeight) := by
    have := roundF32_mono (a := 0) (b := 1 / fr.cellHeight) (by positivity)
    rwa [roundF32_zero] at this
  unfold snapSpanR at hr
  dsimp only at hr
  split at hr
  · cases hr
  rename_i hn
  push Not at hn
  have hm : fr.aabb.min.y ≤ hi := (round_sub_sign hhi s.fy).1.1 hn.1
  -- the two clamped heights
  have e1 : max (roundF32 (lo - fr.aabb.min.y)) 0 = roundF32 (max (lo - fr.aabb.min.y) 0) := by
    rcases le_total (lo - fr.aabb.min.y) 0 with h | h
    · rw [max_eq_right h, roundF32_zero, max_eq_right]
      have := roundF32_mono h
      rwa [roundF32_zero] at this
    · rw [max_eq_left h, max_eq_left]
      have := roundF32_mono h
      rwa [roundF32_zero] at this
  have e2 : min (roundF32 (hi - fr.aabb.min.y)) (roundF32 (fr.aabb.max.y - fr.aabb.min.y)) =
      roundF32 (min (hi - fr.aabb.min.y) (fr.aabb.max.y - fr.aabb.min.y)) := by
    rcases le_total (hi - fr.aabb.min.y) (fr.aabb.max.y - fr.aabb.min.y) with h | h
    · rw [min_eq_left h, min_eq_left (roundF32_mono h)]
    · rw [min_eq_right h, min_eq_right (roundF32_mono h)]
  rw [e1, e2] at hr
  have hD1 : 0 ≤ max (lo - fr.aabb.min.y) 0 := le_max_right _ _
  have hD2 : 0 ≤ min (hi - fr.aabb.min.y) (fr.aabb.max.y - fr.aabb.min.y) := le_min (by linarith) hby0
  have c1 := abs_le.1 (rowOf_close hD1 s.h0 s.h1)
  have c2 := abs_le.1 (rowOf_close hD2 s.h0 s.h1)
  have hlo3 : lo - fr.aabb.min.y ≤ 3 * M := by
    have a1 := (abs_le.1 (round_sub hlo s.fy)).1
    have a2 := (abs_le.1 (round_any (fr.aabb.max.y - fr.aabb.min.y))).2
    rw [abs_of_nonneg hby0] at a2
    have hhM := s.gx.hM
    rcases le_total (lo - fr.aabb.min.y) 0 with h | h
    · linarith
    · rw [abs_of_nonneg h] at a1
      norm_num at *
      linarith
  have hD1' : max (lo - fr.aabb.min.y) 0 ≤ 3 * M := max_le hlo3 (by linarith)
  have hD1'' : max (lo - fr.aabb.min.y) 0 ≤ hi - fr.aabb.min.y := max_le (by linarith) (by linarith)
  have hD1l : lo - fr.aabb.min.y ≤ max (lo - fr.aabb.min.y) 0 := le_max_left _ _
  have hD2' : min (hi - fr.aabb.min.y) (fr.aabb.max.y - fr.aabb.min.y) ≤ 2 * M := (min_le_right _ _).trans hby1
  have hD2l : min (hi - fr.aabb.min.y) (fr.aabb.max.y - fr.aabb.min.y) ≤ hi - fr.aabb.min.y := min_le_left _ _
  have hP0 : 0 ≤ roundF32 (roundF32 (max (lo - fr.aabb.min.y) 0) * roundF32 (1 / fr.cellHeight)) := by
    have a := roundF32_mono hD1
    rw [roundF32_zero] at a
    have := roundF32_mono (mul_nonneg a hi0)
    rwa [roundF32_zero] at this
  generalize hPe : roundF32 (roundF32 (max (lo - fr.aabb.min.y) 0) * roundF32 (1 / fr.cellHeight)) = P at *
  generalize hQe : roundF32 (roundF32 (min (hi - fr.aabb.min.y) (fr.aabb.max.y - fr.aabb.min.y)) * roundF32 (1 / fr.cellHeight)) = Q at *
  generalize hD1e : max (lo - fr.aabb.min.y) 0 = D1 at *
  generalize hD2e : min (hi - fr.aabb.min.y) (fr.aabb.max.y - fr.aabb.min.y) = D2 at *
  -- the integers
  have hF0 : 0 ≤ P.floor := Rat.le_floor_iff.2 (by push_cast; exact hP0)
  unfold clampI ratAsI32 at hr
  rw [ratTrunc_int, ratTrunc_int, if_pos (by omega), bind_ok] at hr
  split at hr
  swap
  · cases hr
  rename_i hcl
  rw [bind_ok] at hr
  simp only [Except.ok.injEq, Option.some.injEq, Prod.mk.injEq] at hr
  obtain ⟨r1, r2⟩ := hr
  have hmn : (mn : Int) = P.floor := by omega
  have hPl : (mn : ℚ) ≤ P := by
    have := Rat.floor_le P
    rw [← hmn] at this
    exact_mod_cast this
  have hPu : P < (mn : ℚ) + 1 := by
    have := Rat.lt_floor_add_one P
    rw [← hmn] at this
    exact_mod_cast this
  -- in units of length
  have back : ∀ D : ℚ, D / fr.cellHeight * fr.cellHeight = D := fun D => by field_simp
  have u1 : (mn : ℚ) * fr.cellHeight ≤ D1 + (M + fr.cellHeight) / 2 ^ 20 := by
    have : (mn : ℚ) ≤ D1 / fr.cellHeight * (1 + 1 / 2 ^ 22) + 1 / 2 ^ 22 := by linarith
    have := mul_le_mul_of_nonneg_right this ch0.le
    rw [add_mul, mul_right_comm, back] at this
    norm_num at *
    linarith
  have u2 : D1 ≤ ((mn : ℚ) + 1) * fr.cellHeight + (M + fr.cellHeight) / 2 ^ 20 := by
    have : D1 / fr.cellHeight * (1 - 1 / 2 ^ 22) - 1 / 2 ^ 22 ≤ (mn : ℚ) + 1 := by linarith
    have := mul_le_mul_of_nonneg_right this ch0.le
    rw [sub_mul, mul_right_comm, back] at this
    norm_num at *
    linarith
  intro v hv1 hv2
  have hvlow : (v : ℚ) * fr.cellHeight ≤ hi - fr.aabb.min.y + (M + fr.cellHeight) / 2 ^ 20 := by
    by_cases hvm : v = mn
    · subst hvm
      linarith
    · have hlt : (v : Int) < Q.ceil := by omega
      have hvQ : (v : ℚ) < Q := by
        have := Rat.lt_ceil_iff.1 hlt
        exact_mod_cast this
      have : (v : ℚ) ≤ D2 / fr.cellHeight * (1 + 1 / 2 ^ 22) + 1 / 2 ^ 22 := by linarith
      have := mul_le_mul_of_nonneg_right this ch0.le
      rw [add_mul, mul_right_comm, back] at this
      norm_num at *
      linarith
  have hvm : ((mn : ℚ) + 1) * fr.cellHeight ≤ ((v : ℚ) + 1) * fr.cellHeight := by
    have : (mn : ℚ) ≤ v := by exact_mod_cast hv1
    exact mul_le_mul_of_nonneg_right (by linarith) ch0.le
  have hτ : 0 ≤ (M + fr.cellHeight) / 2 ^ 20 := by positivity
  have hvs : ((v : ℚ) + 1) * fr.cellHeight = v * fr.cellHeight + fr.cellHeight := by ring
  refine ⟨max lo (min hi (fr.aabb.min.y + v * fr.cellHeight)), le_max_left _ _, max_le hle (min_le_left _ _), ?_, ?_⟩
  · refine le_trans ?_ (le_max_right _ _)
    refine le_min ?_ ?_ <;> linarith
  · refine max_le ?_ ((min_le_right _ _).trans ?_) <;> linarith

end Rerecast
