import Verif.Lemmas.SceneList
import Verif.Lemmas.IntoCompact
import Verif.Lemmas.PipelineMesh
/-! The insertions of a triangle do not depend on the field, and a build depends only on the columns of the field (for C108). -/
set_option linter.unusedVariables false
namespace Rerecast
open Heightfield

/-! ### The insertions of a triangle -/

theorem insertAll_append (hf : Heightfield) (o o' : List Insertion) : hf.insertAll (o ++ o') = hf.insertAll o >>= fun g => g.insertAll o' := by
  unfold insertAll
  rw [List.foldlM_append]

/-- A step that performs insertions which do not depend on the field: `put s g` is the state `s` with the field `g`. -/
def Blind {S : Type} (P : Insertion → Prop) (get : S → Heightfield) (put : S → Heightfield → S) (f : S → Res S) (s s' : S) : Prop :=
  ∃ ops : List Insertion, (∀ i ∈ ops, P i) ∧ (get s).insertAll ops = .ok (get s') ∧
    ∀ g g', g.insertAll ops = .ok g' → f (put s g) = .ok (put s' g')

theorem blind_fold {S β : Type} {P : Insertion → Prop} {get : S → Heightfield} {put : S → Heightfield → S} {f : S → β → Res S} :
    ∀ (l : List β) (s s' : S), (∀ b ∈ l, ∀ s s', f s b = .ok s' → Blind P get put (fun s => f s b) s s') → l.foldlM f s = .ok s' →
      Blind P get put (fun s => l.foldlM f s) s s'
  | [], s, s', _, h => by
    cases h
    exact ⟨[], by simp, rfl, fun g g' hg => by cases hg; rfl⟩
  | b :: l, s, s', hf, h => by
    rw [List.foldlM_cons] at h
    obtain ⟨s1, h1, h2⟩ := bind_inv h
    obtain ⟨o1, p1, e1, k1⟩ := hf b (by simp) s s1 h1
    obtain ⟨o2, p2, e2, k2⟩ := blind_fold l s1 s' (fun b hb => hf b (by simp [hb])) h2
    refine ⟨o1 ++ o2, ?_, by rw [insertAll_append, e1, bind_ok, e2], fun g g' hg => ?_⟩
    · intro i hi
      rcases List.mem_append.1 hi with h | h
      · exact p1 i h
      · exact p2 i h
    · rw [insertAll_append] at hg
      obtain ⟨g1, hg1, hg2⟩ := bind_inv hg
      simp only [List.foldlM_cons]
      have := k1 g g1 hg1
      dsimp only at this
      rw [this, bind_ok]
      exact k2 g1 g' hg2

theorem mem_range_bounds {a b x : Int} (h : x ∈ intRange a b) : a ≤ x ∧ x ≤ b := by
  unfold intRange at h
  obtain ⟨i, hi, rfl⟩ := List.mem_map.1 h
  rw [List.mem_range] at hi
  omega

/-- What is known of the insertions of a triangle. -/
def Fair (w h : Nat) (area : Area) (i : Insertion) : Prop := i.x < w ∧ i.z < h ∧ i.min < i.max ∧ i.max ≤ 65535 ∧ i.area = area

theorem snapSpan_range {fr : Frame} {lo hi : ℚ} {mn mx : Nat} (h : snapSpan fr lo hi = .ok (some (mn, mx))) : mn < mx ∧ mx ≤ 65535 := by
  unfold snapSpan at h
  dsimp only at h
  split at h
  · cases h
  · obtain ⟨a, ha, h⟩ := bind_inv h
    obtain ⟨c, hc, h⟩ := bind_inv h
    cases h
    unfold clampI at ha hc
    split at ha
    · cases ha
      split at hc
      · cases hc
        omega
      · cases hc
    · cases ha

theorem colStep_blind {fr : Frame} {area : Area} {thr w h : Nat} {z x : Int} (hz : 0 ≤ z ∧ z < h) (hx : x < w) (st st' : ColState)
    (hok : colStep fr area thr z st x = .ok st') :
    Blind (Fair w h area) ColState.hf (fun s g => { s with hf := g }) (fun s => colStep fr area thr z s x) st st' := by
  unfold Blind
  unfold colStep at hok ⊢
  obtain ⟨⟨p1, nv, p2, nv2⟩, h1, hok⟩ := bind_inv hok
  dsimp only at hok ⊢
  simp only [h1, bind_ok]
  by_cases hc : nv < 3 ∨ x < 0
  · rw [if_pos hc] at hok
    cases hok
    refine ⟨[], by simp, rfl, fun g g' hg => ?_⟩
    cases hg
    rw [if_pos hc]
  · rw [if_neg hc] at hok
    obtain ⟨⟨lo, hi⟩, h2, hok⟩ := bind_inv hok
    obtain ⟨o, h3, hok⟩ := bind_inv hok
    simp only [if_neg hc, h2, h3, bind_ok]
    cases o with
    | none =>
      cases hok
      refine ⟨[], by simp, rfl, fun g g' hg => ?_⟩
      cases hg
      rfl
    | some q =>
      obtain ⟨mn, mx⟩ := q
      dsimp only at hok ⊢
      obtain ⟨hf, h4, hok⟩ := bind_inv hok
      cases hok
      obtain ⟨r1, r2⟩ := snapSpan_range h3
      refine ⟨[⟨x.toNat, z.toNat, thr, mn, mx, area⟩], ?_, ?_, fun g g' hg => ?_⟩
      · intro i hi
        rw [List.mem_singleton] at hi
        subst hi
        exact ⟨by dsimp only; omega, by dsimp only; omega, r1, r2, rfl⟩
      · show (_ >>= fun g => pure g) = _
        rw [bind_pure]
        exact h4
      · have hg : (g.insert ⟨x.toNat, z.toNat, thr, mn, mx, area⟩ >>= fun g => pure g) = .ok g' := hg
        rw [bind_pure] at hg
        have hg : g.addSpan x.toNat z.toNat thr ⟨mn, mx, area, none⟩ = .ok g' := hg
        rw [hg, bind_ok]

theorem rowStep_blind {fr : Frame} {area : Area} {thr w h : Nat} (hw : 1 ≤ w ∧ w ≤ 32767) {z : Int} (hz : z < h) (st st' : RowState)
    (hok : rowStep fr w area thr st z = .ok st') :
    Blind (Fair w h area) RowState.hf (fun s g => { s with hf := g }) (fun s => rowStep fr w area thr s z) st st' := by
  unfold Blind
  unfold rowStep at hok ⊢
  dsimp only at hok ⊢
  obtain ⟨⟨inRow, nvRow, p1, nvIn⟩, h1, hok⟩ := bind_inv hok
  dsimp only at hok ⊢
  simp only [h1, bind_ok]
  have none_case : st' = { st with inRow := inRow, nvRow := nvRow, nvIn := nvIn, inTri := p1, p1 := st.inTri } →
      ∃ ops : List Insertion, (∀ i ∈ ops, Fair w h area i) ∧ st.hf.insertAll ops = .ok st'.hf ∧
        ∀ g g', g.insertAll ops = .ok g' →
          (({ st with hf := g, inRow := inRow, nvRow := nvRow, nvIn := nvIn, inTri := p1, p1 := st.inTri } : RowState)) = { st' with hf := g' } := by
    rintro rfl
    refine ⟨[], by simp, rfl, fun g g' hg => ?_⟩
    cases hg
    rfl
  by_cases hc : nvRow < 3 ∨ z < 0
  · rw [if_pos hc] at hok
    cases hok
    obtain ⟨ops, a, b, c⟩ := none_case rfl
    refine ⟨ops, a, b, fun g g' hg => ?_⟩
    rw [if_pos hc]
    exact congrArg _ (c g g' hg)
  · rw [if_neg hc] at hok
    obtain ⟨⟨mnx, mxx⟩, h2, hok⟩ := bind_inv hok
    simp only [if_neg hc, h2, bind_ok]
    dsimp only at hok ⊢
    split at hok
    · rename_i hd
      cases hok
      obtain ⟨ops, a, b, c⟩ := none_case rfl
      refine ⟨ops, a, b, fun g g' hg => ?_⟩
      rw [if_pos hd]
      exact congrArg _ (c g g' hg)
    · rename_i hd
      obtain ⟨w1, h3, hok⟩ := bind_inv hok
      obtain ⟨x0, h4, hok⟩ := bind_inv hok
      obtain ⟨x1, h5, hok⟩ := bind_inv hok
      obtain ⟨c, h6, hok⟩ := bind_inv hok
      cases hok
      have hx1 : x1 < w := by
        have hwI : u16AsI16 w = (w : Int) := by unfold u16AsI16; rw [if_pos hw.2]
        rw [hwI] at h3
        unfold predI16 at h3
        unfold clampI at h5
        split at h3
        · cases h3
        · cases h3
          split at h5
          · cases h5
            omega
          · cases h5
      obtain ⟨ops, a, b, k⟩ := blind_fold (P := Fair w h area) (get := ColState.hf) (put := fun s g => { s with hf := g })
        (intRange x0 x1) _ _ (fun x hx s s' hs => colStep_blind (z := z) ⟨by omega, hz⟩ (by have := mem_range_bounds hx; omega) s s' hs) h6
      refine ⟨ops, a, b, fun g g' hg => ?_⟩
      have k := k g g' hg
      dsimp only at k
      simp only [if_neg hd, h3, h4, h5, bind_ok, k]

/-- The insertions of a triangle into a field of a given size do not depend on what is in the field. -/
theorem triangle_ops {fr : Frame} (hs : fr.Sane) {w h : Nat} (hw : 1 ≤ w ∧ w ≤ 32767) (hh : 1 ≤ h ∧ h ≤ 32767) (t : Triangle) (area : Area) (thr : Nat) :
    ∃ ops : List Insertion, (∀ i ∈ ops, Fair w h area i) ∧
      ∀ g g' : Heightfield, g.width = w → g.height = h → g.insertAll ops = .ok g' → rasterizeTriangle fr g t area thr = .ok g' := by
  obtain ⟨hf', done, e, -⟩ := rasterizeTriangle_spec (c := ⟨fr, w, h, area, thr, [], Heightfield.new w h, t, False⟩) hs hw hh (reached_new w h)
    (fun g => g.elim)
  dsimp only at e
  unfold rasterizeTriangle at e ⊢
  dsimp only at e ⊢
  by_cases hc : (!fr.aabb.intersects (triangleAabb t)) = true
  · refine ⟨[], by simp, fun g g' _ _ hg => ?_⟩
    cases hg
    rw [if_pos hc]
  · rw [if_neg hc] at e
    have e1 : (Heightfield.new w h).height = h := rfl
    have e2 : (Heightfield.new w h).width = w := rfl
    rw [e1, e2] at e
    obtain ⟨h1, k1, e⟩ := bind_inv e
    obtain ⟨z0, k2, e⟩ := bind_inv e
    obtain ⟨z1, k3, e⟩ := bind_inv e
    obtain ⟨st, k4, e⟩ := bind_inv e
    cases e
    have hz1 : z1 < h := by
      have hhI : u16AsI16 h = (h : Int) := by unfold u16AsI16; rw [if_pos hh.2]
      rw [hhI] at k1
      unfold predI16 at k1
      unfold clampI at k3
      split at k1
      · cases k1
      · cases k1
        split at k3
        · cases k3
          omega
        · cases k3
    obtain ⟨ops, a, b, k⟩ := blind_fold (P := Fair w h area) (get := RowState.hf) (put := fun s g => { s with hf := g })
      (intRange z0 z1) _ _ (fun z hz s s' hs => rowStep_blind hw (by have := mem_range_bounds hz; omega) s s' hs) k4
    refine ⟨ops, a, fun g g' gw gh hg => ?_⟩
    have k := k g g' hg
    dsimp only at k
    rw [if_neg hc, gw, gh]
    simp only [k1, k2, k3, bind_ok, k]

/-! ### Fields with the same columns -/

/-- Two fields of the same size with the same blocks in every column. -/
def SameColumns (hf hf' : Heightfield) : Prop :=
  ∃ cols cols', Rep hf cols ∧ Rep hf' cols' ∧ hf'.width = hf.width ∧ hf'.height = hf.height ∧
    ∀ c < hf.width * hf.height, solids (cols' c) = solids (cols c)

/-- Lists of triangles with the same members give the same columns, if all areas are the same. -/
theorem soup_same {fr : Frame} (hs : fr.Sane) {w h : Nat} (hw : 1 ≤ w ∧ w ≤ 32767) (hh : 1 ≤ h ∧ h ≤ 32767) (area : Area) (thr : Nat)
    {T T' : List Triangle} (hT : ∀ t, t ∈ T ↔ t ∈ T') :
    ∃ hf hf', (T.map fun t => (some t, some area)).foldlM (soupStep fr thr) (Heightfield.new w h) = .ok hf ∧
      (T'.map fun t => (some t, some area)).foldlM (soupStep fr thr) (Heightfield.new w h) = .ok hf' ∧ SameColumns hf hf' := by
  choose ops hfair hops using fun t => triangle_ops hs hw hh t area thr
  have run : ∀ (T : List Triangle) (pre : List Insertion) (g : Heightfield) (cols), Reached w h pre g cols →
      ∃ g' cols', (T.map fun t => (some t, some area)).foldlM (soupStep fr thr) g = .ok g' ∧ Reached w h (pre ++ T.flatMap ops) g' cols' := by
    intro T
    induction T with
    | nil => intro pre g cols hr; exact ⟨g, cols, rfl, by simpa using hr⟩
    | cons t T ih =>
      intro pre g cols hr
      obtain ⟨g1, cols1, e1, r1⟩ := reached_foldl (ops t) pre g cols hr fun i hi => ⟨(hfair t i hi).1, (hfair t i hi).2.1, Nat.le_of_lt (hfair t i hi).2.2.1⟩
      obtain ⟨g2, cols2, e2, r2⟩ := ih _ g1 cols1 r1
      refine ⟨g2, cols2, ?_, by rw [List.flatMap_cons, ← List.append_assoc]; exact r2⟩
      rw [List.map_cons, List.foldlM_cons]
      have : soupStep fr thr g (some t, some area) = .ok g1 := hops t g g1 hr.width hr.height e1
      rw [this, bind_ok]
      exact e2
  obtain ⟨hf, cols, e, r⟩ := run T [] _ _ (reached_new w h)
  obtain ⟨hf', cols', e', r'⟩ := run T' [] _ _ (reached_new w h)
  rw [List.nil_append] at r r'
  have fair : ∀ (T : List Triangle), ∀ i ∈ T.flatMap ops, Fair w h area i := by
    intro T i hi
    obtain ⟨t, _, hi⟩ := List.mem_flatMap.1 hi
    exact hfair t i hi
  have mem : ∀ i, i ∈ T.flatMap ops ↔ i ∈ T'.flatMap ops := by
    intro i
    simp only [List.mem_flatMap, hT]
  have rep : ∀ {T : List Triangle} {hf cols}, Reached w h (T.flatMap ops) hf cols → Rep hf cols := by
    intro T hf cols r
    refine ⟨by rw [r.width, r.height]; exact r.len, r.rep, by rw [r.width, r.height]; exact r.sep, ?_⟩
    rw [r.width, r.height]
    intro c hc s hs
    exact ⟨r.proper c hc s hs, r.bound _ (fun i hi => (fair T i hi).2.2.2.1) c hc s hs⟩
  refine ⟨hf, hf', e, e', cols, cols', rep r, rep r', by rw [r.width, r'.width], by rw [r.height, r'.height], ?_⟩
  rw [r.width, r.height]
  intro c hc
  have hg : geom (solids (cols' c)) = geom (solids (cols c)) := by
    refine geom_canonical _ _ (r'.sep c hc) (r.sep c hc) (r'.strict (fun i hi => (fair _ i hi).2.2.1) c hc) (r.strict (fun i hi => (fair _ i hi).2.2.1) c hc) ?_
    intro v
    rw [r.occ c hc, r'.occ c hc]
    simp only [mem]
  have ha : ∀ s ∈ solids (cols c), s.area = area := by
    intro s hs
    obtain ⟨i, hi, _, _, _, e⟩ := r.source c hc s hs
    rw [← e]; exact (fair _ i hi).2.2.2.2
  have ha' : ∀ s ∈ solids (cols' c), s.area = area := by
    intro s hs
    obtain ⟨i, hi, _, _, _, e⟩ := r'.source c hc s hs
    rw [← e]; exact (fair _ i hi).2.2.2.2
  generalize solids (cols c) = l at *
  generalize solids (cols' c) = l' at *
  clear * - hg ha ha'
  induction l' generalizing l with
  | nil =>
    cases l with
    | nil => rfl
    | cons s l => simp [geom] at hg
  | cons s' l' ih =>
    cases l with
    | nil => simp [geom] at hg
    | cons s l =>
      simp only [geom, List.map_cons, List.cons.injEq, Prod.mk.injEq] at hg
      obtain ⟨⟨g1, g2⟩, g3⟩ := hg
      rw [ih l (fun s hs => ha s (List.mem_cons_of_mem _ hs)) (fun s hs => ha' s (List.mem_cons_of_mem _ hs)) g3]
      have b1 := ha s (by simp)
      have b2 := ha' s' (by simp)
      obtain ⟨m1, x1, a1⟩ := s
      obtain ⟨m2, x2, a2⟩ := s'
      simp only at g1 g2 b1 b2
      rw [g1, g2, b1, b2]

theorem SameColumns.lowHanging {hf hf' : Heightfield} (h : SameColumns hf hf') (climb : Nat) :
    ∃ g g', hf.filterLowHangingWalkableObstacles climb = .ok g ∧ hf'.filterLowHangingWalkableObstacles climb = .ok g' ∧ SameColumns g g' := by
  obtain ⟨cols, cols', r, r', hw, hh, hc⟩ := h
  obtain ⟨f, e, k⟩ := filterLowHanging_spec r.rep r.size climb
  obtain ⟨f', e', k'⟩ := filterLowHanging_spec r'.rep r'.size climb
  refine ⟨_, _, e, e', _, _, r.reArea f, r'.reArea f', hw, hh, fun c hcl => ?_⟩
  have hcl : c < hf.width * hf.height := hcl
  rw [k c hcl, k' c (by rw [hw, hh]; exact hcl), hc c hcl]

theorem SameColumns.lowHeight {hf hf' : Heightfield} (h : SameColumns hf hf') (height : Nat) :
    ∃ g g', hf.filterWalkableLowHeightSpans height = .ok g ∧ hf'.filterWalkableLowHeightSpans height = .ok g' ∧ SameColumns g g' := by
  obtain ⟨cols, cols', r, r', hw, hh, hc⟩ := h
  obtain ⟨f, e, k⟩ := filterLowHeight_spec r.rep r.size height
  obtain ⟨f', e', k'⟩ := filterLowHeight_spec r'.rep r'.size height
  refine ⟨_, _, e, e', _, _, r.reArea f, r'.reArea f', hw, hh, fun c hcl => ?_⟩
  have hcl : c < hf.width * hf.height := hcl
  rw [k c hcl, k' c (by rw [hw, hh]; exact hcl), hc c hcl]

theorem SameColumns.ledge {hf hf' : Heightfield} (h : SameColumns hf hf') (height climb : Nat) :
    ∃ g g', hf.filterLedgeSpans height climb = .ok g ∧ hf'.filterLedgeSpans height climb = .ok g' ∧ SameColumns g g' := by
  obtain ⟨cols, cols', r, r', hw, hh, hc⟩ := h
  obtain ⟨f, e, k⟩ := filterLedge_spec r.rep r.size height climb
  obtain ⟨f', e', k'⟩ := filterLedge_spec r'.rep r'.size height climb
  refine ⟨_, _, e, e', _, _, r.reArea f, r'.reArea f', hw, hh, fun c hcl => ?_⟩
  have hcl : c < hf.width * hf.height := hcl
  obtain ⟨h1, h2, h3⟩ := col_div hcl
  have k := k _ h1 _ h2
  rw [hw, hh] at k'
  have k' := k' _ h1 _ h2
  rw [h3] at k k'
  have hn : nbrCols hf.width hf.height cols' (c % hf.width) (c / hf.width) = nbrCols hf.width hf.height cols (c % hf.width) (c / hf.width) := by
    funext d
    unfold nbrCols
    cases e : neighbourCell hf.width hf.height (c % hf.width) (c / hf.width) d with
    | none => rfl
    | some p =>
      simp only [Option.map_some, Option.some.injEq]
      refine hc _ ?_
      unfold neighbourCell at e
      have hlt : p.1 < hf.width ∧ p.2 < hf.height := by
        revert e
        split <;> intro e
        all_goals
          split at e
          · cases e; constructor <;> (dsimp only; omega)
          · cases e
      exact col_lt hlt.1 hlt.2
  rw [k, k', hn, hc c hcl]

theorem SameColumns.intoCompact {hf hf' : Heightfield} (h : SameColumns hf hf') (hsm : hf.spanCount < 2 ^ 32) (wh climb : Nat) :
    hf'.intoCompact wh climb = hf.intoCompact wh climb := by
  obtain ⟨cols, cols', r, r', hw, hh, hc⟩ := h
  have hup : ∀ c ≤ hf.width * hf.height, surfacesUpTo cols' c = surfacesUpTo cols c := by
    intro c hcl
    induction c with
    | zero => rfl
    | succ c ih => rw [surfacesUpTo_succ, surfacesUpTo_succ, ih (by omega), hc c (by omega)]
  have hN : (surfacesUpTo cols (hf.width * hf.height)).length < 2 ^ 32 := by
    rw [← walkableSpanCount_eq r]; have := walkable_le_spanCount hf; omega
  have hN' : (surfacesUpTo cols' (hf'.width * hf'.height)).length < 2 ^ 32 := by rw [hw, hh, hup _ (Nat.le_refl _)]; exact hN
  have hfill : hf'.fill = hf.fill := by
    by_cases hcnt : ∀ c < hf.width * hf.height, (surfaces (solids (cols c))).length ≤ 255
    · rw [fill_ok r hN hcnt, fill_ok r' hN' (by rw [hw, hh]; intro c hcl; rw [hc c hcl]; exact hcnt c hcl), hw, hh]
      unfold fillSpec
      rw [hup _ (Nat.le_refl _)]
      have : (List.range (hf.width * hf.height)).map (cellSpec cols') = (List.range (hf.width * hf.height)).map (cellSpec cols) := by
        apply List.map_congr_left
        intro c hcl
        have hcl := List.mem_range.1 hcl
        unfold cellSpec
        rw [hc c hcl, hup c (by omega)]
      rw [this]
    · push Not at hcnt
      obtain ⟨c, hcl, hlt⟩ := hcnt
      rw [fill_panic r hN ⟨c, hcl, hlt⟩, fill_panic r' hN' ⟨c, by rw [hw, hh]; exact hcl, by rw [hc c hcl]; exact hlt⟩]
  unfold Heightfield.intoCompact
  rw [hfill, hw, hh]
  have hcon : ∀ cells spans, connectAll hf' wh climb cells spans = connectAll hf wh climb cells spans := by
    intro cells spans
    unfold connectAll
    rw [hw, hh]
    have : connectDir hf' wh climb cells = connectDir hf wh climb cells := by
      funext x z i st dir
      unfold connectDir Heightfield.contains Heightfield.columnIndex
      rw [hw, hh]
    rw [this]
  simp only [hcon]

end Rerecast
