import Verif.Lemmas.Tessellate
import Verif.Lemmas.Spiral
/-! Sides that two polygons have in common. -/
namespace Rerecast
variable {F : Type} {o : FloatOps F} {c : DetailConfig F}

/-- The point of sample number `k` of `n`, before its height is looked up. -/
def samplePoint (o : FloatOps F) (a b : Vec3 F) (n k : Nat) : Vec3 F :=
  Vec3.add o a (Vec3.scale o (Vec3.sub o b a) (o.div (o.ofInt k) (o.ofInt n)))

theorem isSample_agree {hp hp' : HeightPatch} {a b p : Vec3 F} {n k : Nat} (h : IsSample o c hp a b n k p)
    (he : c.height o hp (samplePoint o a b n k) = c.height o hp' (samplePoint o a b n k)) : IsSample o c hp' a b n k p := by
  obtain ⟨x, q, rfl, h2, h3⟩ := h
  exact ⟨x, _, rfl, he ▸ h2, h3⟩

theorem kept_agree {hp hp' : HeightPatch} {a b : Vec3 F} {n : Nat} {ks ks' : List Nat} (h : Kept o c hp a b n ks) (h' : Kept o c hp' a b n ks')
    (he : ∀ k ≤ n, c.height o hp (samplePoint o a b n k) = c.height o hp' (samplePoint o a b n k)) : ks = ks' := by
  obtain ⟨edge, ids, e1, e2, e3, rfl⟩ := h
  obtain ⟨edge', ids', f1, f2, f3, rfl⟩ := h'
  have : edge = edge' := by
    apply List.ext_getElem (by omega)
    intro k h1 h2
    refine isSample_unique (isSample_agree (e2 k _ (List.getElem?_eq_getElem h1)) (he k (by omega))) (f2 k _ (List.getElem?_eq_getElem h2))
  subst this
  rw [e3] at f3
  injection f3 with f3
  rw [f3]

theorem forall2_det {α β γ : Type} {R : β → γ → Prop} (hR : ∀ b x y, R b x → R b y → x = y) {P Q : α → Option γ} :
    ∀ {l l' : List α} {ks : List β}, List.Forall₂ (fun v k => ∃ p, P v = some p ∧ R k p) l ks →
      List.Forall₂ (fun v k => ∃ p, Q v = some p ∧ R k p) l' ks → l.map P = l'.map Q
  | _, _, _, .nil, .nil => rfl
  | _, _, _, .cons h1 t1, .cons h2 t2 => by
    obtain ⟨p, e1, r1⟩ := h1
    obtain ⟨q, e2, r2⟩ := h2
    rw [List.map_cons, List.map_cons, e1, e2, hR _ _ _ r1 r2, forall2_det hR t1 t2]

/-- The samples of a side, seen from its two polygons, if the side is sampled from `a` to `b`. -/
theorem seam_core {hp hp' : HeightPatch} {verts verts' : List (Vec3 F)} {nv nv' : Nat} {a b : Vec3 F} {l l' : List Nat}
    (h : OnSide o c hp verts nv a b l) (h' : OnSide o c hp' verts' nv' b a l') (h1 : swapEnds o a b = false) (h2 : swapEnds o b a = true)
    (hn : sideSteps o c a b nv = sideSteps o c a b nv')
    (he : ∀ n k, k ≤ n → n ≤ 31 → c.height o hp (samplePoint o a b n k) = c.height o hp' (samplePoint o a b n k)) :
    l.map (verts[·]?) = (l'.map (verts'[·]?)).reverse := by
  obtain ⟨n, ks, hk, h⟩ := h
  obtain ⟨n', ks', hk', h'⟩ := h'
  rcases h with ⟨_, p2, p3, _, _, p6⟩ | ⟨_, _, _, _, p5, _⟩
  · rcases h' with ⟨_, _, _, _, q5, _⟩ | ⟨_, q2, q3, _, _, q6⟩
    · rw [h2] at q5; cases q5
    · obtain rfl : n = n' := by rw [p3, q3, hn]
      have hn31 : n ≤ 31 := by rw [p3]; unfold sideSteps; dsimp only; omega
      have ek := kept_agree p6 q6 (fun k hk => he n k hk hn31)
      rw [← List.map_reverse]
      have r2 : List.Forall₂ (fun (v k : Nat) => ∃ p, verts'[v]? = some p ∧ IsSample o c hp' a b n k p) l'.reverse ks := by
        rw [ek]; exact List.rel_reverse q2
      have p2' : List.Forall₂ (fun (v k : Nat) => ∃ p, verts[v]? = some p ∧ IsSample o c hp' a b n k p) l ks := by
        rw [List.forall₂_iff_get] at p2 ⊢
        refine ⟨p2.1, fun i ha hb => ?_⟩
        obtain ⟨p, e1, e2⟩ := p2.2 i ha hb
        have := (hk _ (List.get_mem ks ⟨i, hb⟩)).2
        exact ⟨p, e1, isSample_agree e2 (he n _ this.le hn31)⟩
      exact forall2_det (R := fun k p => IsSample o c hp' a b n k p) (fun k x y hx hy => isSample_unique hx hy) p2' r2
  · rw [h1] at p5; cases p5

/-- The height of the first cell looked up, if it has one. -/
theorem height_direct {hp : HeightPatch} {q : Vec3 F} {x z h : Nat} (hl : lookupCell o q (o.div (o.lit 1) c.chfCellSize) hp = ((x : Int), (z : Int)))
    (hh : hp.Has x z h) : c.height o hp q = .ok h := by
  obtain ⟨_, h1, _, h2, h3, h4⟩ := hh
  unfold DetailConfig.height getHeight
  dsimp only
  rw [clampIndex_out (by omega), bind_ok, clampIndex_out (by omega), bind_ok]
  have e1 := congrArg Prod.fst hl
  have e2 := congrArg Prod.snd hl
  simp only [lookupCell] at e1 e2
  rw [e1, e2]
  have : hp.dataAt x z = .ok h := by
    unfold HeightPatch.dataAt idxI
    rw [if_neg (not_lt.2 (by positivity))]
    simp [idx, h4]
  rw [this, bind_ok, if_neg (show ¬ h = UNSET_HEIGHT from h3)]

/-- A patch of a region has the height of the only span of a cell, if that belongs to the region. -/
theorem height_one_layer {chf : CompactHeightfield} {bs region : Nat} {vs : List U16Vec3} {hp : HeightPatch} (hpatch : IsPatch chf bs region vs hp)
    (hr : region ≠ REGION_NONE) {x z i : Nat} {s : CompactSpan} (hat : chf.At (x + hp.xmin + bs) (z + hp.zmin + bs) i s) (hs : s.region = region)
    (hone : ∀ j t, chf.At (x + hp.xmin + bs) (z + hp.zmin + bs) j t → j = i) {q : Vec3 F}
    (hx : x < hp.width) (hz : z < hp.height)
    (hl : lookupCell o q (o.div (o.lit 1) c.chfCellSize) hp = ((x : Int), (z : Int))) : c.height o hp q = .ok s.y := by
  have hroot : hp.IsRoot chf bs region i :=
    ⟨_, _, s, hat, ⟨by omega, by omega, by omega, by omega⟩, hs, fun j t hj _ => by rw [hone j t hj]⟩
  rcases hpatch.2.2 with ⟨_, _, C, hC⟩ | ⟨h | h, _⟩
  · exact height_direct hl ((hC.height x z s.y).2 ⟨i, s, hC.roots i hroot, hat, rfl⟩)
  · exact absurd h hr
  · exact absurd hroot (h i)

end Rerecast
