import Verif.Lemmas.Moved
/-! Rasterization of a moved triangle on a moved grid: rows, triangles and meshes. -/
namespace Rerecast

theorem bind_fault {α β : Type} (e : Fault) (f : α → Res β) : ((Except.error e : Res α) >>= f) = .error e := rfl

structure RowPair (fr : Frame) (d : V3 ℚ) (T : List (V3 ℚ)) (mv : V3 ℚ) (z1 z : Int) (st st' : RowState) : Prop where
  hf : st'.hf = st.hf
  l0 : st.inRow.length = 7 ∧ st'.inRow.length = 7
  l1 : st.p1.length = 7 ∧ st'.p1.length = 7
  l2 : st.p2.length = 7 ∧ st'.p2.length = 7
  rest : ∃ R, Buf st.inTri st.nvIn R ∧ Buf st'.inTri st'.nvIn (R.map (V3.moveBy d)) ∧ Unimodal R ∧ Rest .Z T R (gz fr z) ∧ (z ≤ z1 → mv ∈ R) ∧
    ∀ v ∈ R, fr.aabb.min.x ≤ v.x

theorem rowTail_pair {fr : Frame} (hcs : 0 < fr.cellSize) {d : V3 ℚ} (w : Nat) (area : Area) (thr : Nat) (z : Int) {st st' : RowState} (hhf : st'.hf = st.hf)
    {B : List (V3 ℚ)} (hB : Buf st.inRow st.nvRow B) (hB' : Buf st'.inRow st'.nvRow (B.map (V3.moveBy d))) (hU : Unimodal B) (h3 : 3 ≤ B.length)
    (h5 : B.length ≤ 5) (l1 : st.p1.length = 7 ∧ st'.p1.length = 7) (l2 : st.p2.length = 7 ∧ st'.p2.length = 7) (hx : ∀ v ∈ B, fr.aabb.min.x ≤ v.x) :
    Alike (fun s s' => (s'.hf = s.hf ∧ (s.inRow.length = 7 ∧ s'.inRow.length = 7) ∧ (s.p1.length = 7 ∧ s'.p1.length = 7) ∧ s.p2.length = 7 ∧ s'.p2.length = 7) ∧
        (s.inTri = st.inTri ∧ s.nvIn = st.nvIn) ∧ s'.inTri = st'.inTri ∧ s'.nvIn = st'.nvIn)
      (rowTail fr w area thr z st) (rowTail (fr.moveBy d) w area thr z st') := by
  have hne : B ≠ [] := by rintro rfl; simp at h3
  obtain ⟨lo, hi, e, e', ⟨u, hu, hul⟩, ⟨mv, hmvB, hmvx⟩⟩ := bounds_move (f := V3.x) (δ := d.x) (d := d) (fun v => rfl) hB hB' hne
  unfold rowTail
  rw [e, e', bind_ok, bind_ok]
  dsimp only
  have ex : ∀ q : ℚ, q + d.x - (fr.moveBy d).aabb.min.x = q - fr.aabb.min.x := by
    intro q
    simp only [Frame.moveBy, V3.moveBy]; ring
  have ec : (fr.moveBy d).cellSize = fr.cellSize := rfl
  rw [ex, ex, ec]
  split
  · exact Or.inr ⟨_, _, rfl, rfl, ⟨hhf, ⟨hB.len, hB'.len⟩, l1, l2⟩, ⟨rfl, rfl⟩, rfl, rfl⟩
  · rename_i hskip
    cases hw : predI16 (u16AsI16 w) with
    | error er => exact Or.inl ⟨er, rfl, rfl⟩
    | ok w1 =>
      rw [bind_ok, bind_ok]
      cases hx0 : clampI (ratAsI16 ((lo - fr.aabb.min.x) * (1 / fr.cellSize))) (-1) w1 with
      | error er => exact Or.inl ⟨er, rfl, rfl⟩
      | ok X0 =>
        rw [bind_ok, bind_ok]
        cases hx1 : clampI (ratAsI16 ((hi - fr.aabb.min.x) * (1 / fr.cellSize))) 0 w1 with
        | error er => exact Or.inl ⟨er, rfl, rfl⟩
        | ok X1 =>
          rw [bind_ok, bind_ok]
          have hmv : gx fr X1 ≤ mv.x := by
            obtain ⟨k1, k2⟩ := trunc_line (m := fr.aabb.min.x) (t := mv.x) hcs (hx mv hmvB)
            rw [hmvx] at k1 k2
            unfold clampI at hx1
            split at hx1
            · cases hx1
              have : gx fr (max 0 (min (ratAsI16 ((hi - fr.aabb.min.x) * (1 / fr.cellSize))) w1)) ≤
                  gx fr (ratAsI16 ((hi - fr.aabb.min.x) * (1 / fr.cellSize))) := gx_le hcs (by omega)
              rw [hmvx]
              exact le_trans this k2
            · cases hx1
          rcases colLoop_pair (d := d) (area := area) (thr := thr) (z := z) hcs h5 hmv _ X0 rfl ⟨st.hf, st.inRow, st.p1, st.p2, 0, st.nvRow⟩
            ⟨st'.hf, st'.inRow, st'.p1, st'.p2, 0, st'.nvRow⟩ ⟨hhf, l1, l2, B, hB, hB', hU, Rest.base _ _ _, fun _ => hmvB⟩ with
            ⟨er, g1, g2⟩ | ⟨s, s', g1, g2, h⟩
          · rw [g1, g2]; exact Or.inl ⟨er, rfl, rfl⟩
          · rw [g1, g2]
            exact Or.inr ⟨_, _, rfl, rfl, h, ⟨rfl, rfl⟩, rfl, rfl⟩

theorem rowStep_pair {fr : Frame} (hcs : 0 < fr.cellSize) {d : V3 ℚ} {w : Nat} {area : Area} {thr : Nat} {T : List (V3 ℚ)} (h3 : T.length ≤ 3)
    {mv : V3 ℚ} {z1 z : Int} (hmv : gz fr z1 ≤ mv.z) (hzz : z ≤ z1) {st st' : RowState} (hi : RowPair fr d T mv z1 z st st') :
    Alike (RowPair fr d T mv z1 (z + 1)) (rowStep fr w area thr st z) (rowStep (fr.moveBy d) w area thr st' z) := by
  obtain ⟨R, hR, hR', hU, hrest, hm, hx⟩ := hi.rest
  have hne : R ≠ [] := by rintro rfl; have := hm hzz; simp at this
  have hltz : gz fr z < gz fr (z + 1) := gz_lt hcs (by omega)
  have hRl : R.length ≤ 4 := by have := hrest.len; omega
  have hk1 : (keep1 (sideAff .Z (gz fr (z + 1))) R).length ≤ 5 := by
    have := keep1_length (e := sideAff .Z (gz fr (z + 1))) hU; omega
  have hk2 : (keep2 (sideAff .Z (gz fr (z + 1))) R).length ≤ 7 := by
    have := keep2_length (e := sideAff .Z (gz fr (z + 1))) hU; omega
  obtain ⟨p1, p1', p2, p2', m1, m2, e, e', b1, b2, b1', b2'⟩ := dividePoly_pair (n1 := st.nvRow) (n1' := st'.nvRow) (n2 := st.nvIn) (n2' := st'.nvIn) .Z
    (gz fr (z + 1)) d hR hR' hne hi.l0.1 hi.l1.1 hi.l0.2 hi.l1.2 (by omega) hk2
  rw [← gz_move] at e'
  rw [rowStep_eq _ _ _ _ _ _ e, rowStep_eq _ _ _ _ _ _ e']
  have mk : ∀ s s' : RowState, s'.hf = s.hf → (s.inRow.length = 7 ∧ s'.inRow.length = 7) → (s.p1.length = 7 ∧ s'.p1.length = 7) →
      (s.p2.length = 7 ∧ s'.p2.length = 7) → s.inTri = p2 → s'.inTri = p2' → s.nvIn = m2 → s'.nvIn = m2 → RowPair fr d T mv z1 (z + 1) s s' := by
    intro s s' a1 a2 a3 a4 a5 a6 a7 a8
    refine ⟨a1, a2, a3, a4, _, by rw [a5, a7]; exact b2, by rw [a6, a8]; exact b2', unimodal_keep2 hU, hrest.step hU hltz, fun hle => ?_, ?_⟩
    · apply mem_keep2_of (hm hzz)
      rw [sideAff_eval]
      have h2 := gz_le hcs hle
      show gz fr (z + 1) - mv.z ≤ 0
      linarith
    · exact keep2_convex (convex_ge_x _) hx
  split
  · exact Or.inr ⟨_, _, rfl, rfl, mk _ _ hi.hf ⟨b1.len, b1'.len⟩ ⟨hR.len, hR'.len⟩ hi.l2 rfl rfl rfl rfl⟩
  · rename_i hc
    push Not at hc
    rcases rowTail_pair (d := d) hcs w area thr z (st := { st with inRow := p1, nvRow := m1, nvIn := m2, inTri := p2, p1 := st.inTri })
      (st' := { st' with inRow := p1', nvRow := m1, nvIn := m2, inTri := p2', p1 := st'.inTri }) hi.hf b1 b1' (unimodal_keep1 hU)
      (by rw [← b1.count]; exact hc.1) hk1 ⟨hR.len, hR'.len⟩ hi.l2 (keep1_convex (convex_ge_x _) hx) with
      ⟨er, g1, g2⟩ | ⟨s, s', g1, g2, ⟨c1, c2, c3, c4⟩, ⟨c5, c6⟩, c7, c8⟩
    · exact Or.inl ⟨er, g1, g2⟩
    · exact Or.inr ⟨s, s', g1, g2, mk s s' c1 c2 c3 c4 c5 c7 c6 c8⟩

theorem rowLoop_pair {fr : Frame} (hcs : 0 < fr.cellSize) {d : V3 ℚ} {w : Nat} {area : Area} {thr : Nat} {T : List (V3 ℚ)} (h3 : T.length ≤ 3)
    {mv : V3 ℚ} {z1 : Int} (hmv : gz fr z1 ≤ mv.z) : ∀ (n : Nat) (z : Int), (z1 + 1 - z).toNat = n → ∀ st st', RowPair fr d T mv z1 z st st' →
    Alike (fun s s' => s'.hf = s.hf) ((intRange z z1).foldlM (rowStep fr w area thr) st) ((intRange z z1).foldlM (rowStep (fr.moveBy d) w area thr) st') := by
  intro n
  induction n with
  | zero =>
    intro z hn st st' hi
    rw [intRange_nil (by omega)]
    exact Or.inr ⟨_, _, rfl, rfl, hi.hf⟩
  | succ n ih =>
    intro z hn st st' hi
    rw [intRange_cons (by omega), List.foldlM_cons, List.foldlM_cons]
    rcases rowStep_pair (w := w) (area := area) (thr := thr) hcs h3 hmv (by omega) hi with ⟨er, g1, g2⟩ | ⟨s, s', g1, g2, h⟩
    · rw [g1, g2]; exact Or.inl ⟨er, rfl, rfl⟩
    · rw [g1, g2, bind_ok, bind_ok]
      exact ih (z + 1) (by omega) s s' h

theorem triangleAabb_move (d a b c : V3 ℚ) :
    triangleAabb (V3.moveBy d a, V3.moveBy d b, V3.moveBy d c) = ⟨V3.moveBy d (triangleAabb (a, b, c)).min, V3.moveBy d (triangleAabb (a, b, c)).max⟩ := by
  simp only [triangleAabb, V3.min, V3.max, V3.moveBy, min_add_add_right, max_add_add_right]

theorem intersects_move (d : V3 ℚ) (p q : Aabb3 ℚ) :
    Aabb3.intersects ⟨V3.moveBy d p.min, V3.moveBy d p.max⟩ ⟨V3.moveBy d q.min, V3.moveBy d q.max⟩ = p.intersects q := by
  simp only [Aabb3.intersects, V3.moveBy, add_le_add_iff_right, ge_iff_le]

/-- A moved triangle on a moved grid gives the same field. -/
theorem rasterizeTriangle_move {fr : Frame} (hcs : 0 < fr.cellSize) (d : V3 ℚ) (hf : Heightfield) (a b c : V3 ℚ) (area : Area) (thr : Nat)
    (hin : ∀ v ∈ [a, b, c], fr.aabb.min.x ≤ v.x ∧ fr.aabb.min.z ≤ v.z) :
    rasterizeTriangle (fr.moveBy d) hf (V3.moveBy d a, V3.moveBy d b, V3.moveBy d c) area thr = rasterizeTriangle fr hf (a, b, c) area thr := by
  have ht : triList (a, b, c) = [a, b, c] := rfl
  obtain ⟨zb, ⟨mv, hmv, hmvz⟩, -⟩ := triangleAabb_z (a, b, c)
  have hmaxz : fr.aabb.min.z ≤ (triangleAabb (a, b, c)).max.z := by
    rw [← hmvz]
    exact (hin mv hmv).2
  unfold rasterizeTriangle
  rw [triangleAabb_move]
  have hbox : (fr.moveBy d).aabb = ⟨V3.moveBy d fr.aabb.min, V3.moveBy d fr.aabb.max⟩ := rfl
  have ec : (fr.moveBy d).cellSize = fr.cellSize := rfl
  dsimp only
  rw [hbox, intersects_move, ec]
  have ez : ∀ q : ℚ, q + d.z - (fr.aabb.min.z + d.z) = q - fr.aabb.min.z := fun q => by ring
  simp only [V3.moveBy, ez]
  split
  · rfl
  · cases hh : predI16 (u16AsI16 hf.height) with
    | error er => rw [bind_fault, bind_fault]
    | ok h1 =>
      rw [bind_ok, bind_ok]
      cases hz0 : clampI (ratAsI16 (((triangleAabb (a, b, c)).min.z - fr.aabb.min.z) * (1 / fr.cellSize))) (-1) h1 with
      | error er => rw [bind_fault, bind_fault]
      | ok Z0 =>
        rw [bind_ok, bind_ok]
        cases hz1 : clampI (ratAsI16 (((triangleAabb (a, b, c)).max.z - fr.aabb.min.z) * (1 / fr.cellSize))) 0 h1 with
        | error er => rw [bind_fault, bind_fault]
        | ok Z1 =>
          rw [bind_ok, bind_ok]
          have hz1v : gz fr Z1 ≤ mv.z := by
            obtain ⟨k1, k2⟩ := trunc_line (m := fr.aabb.min.z) (t := mv.z) hcs (by rw [hmvz]; exact hmaxz)
            rw [hmvz] at k1 k2
            unfold clampI at hz1
            split at hz1
            · cases hz1
              have : gz fr (max 0 (min (ratAsI16 (((triangleAabb (a, b, c)).max.z - fr.aabb.min.z) * (1 / fr.cellSize))) h1)) ≤
                  gz fr (ratAsI16 (((triangleAabb (a, b, c)).max.z - fr.aabb.min.z) * (1 / fr.cellSize))) := gz_le hcs (by omega)
              rw [hmvz]
              exact le_trans this k2
            · cases hz1
          rcases rowLoop_pair (d := d) (w := hf.width) (area := area) (thr := thr) (T := [a, b, c]) hcs (by simp) hz1v _ Z0 rfl
            ⟨hf, ((zeroBuf.set 0 a).set 1 b).set 2 c, zeroBuf, zeroBuf, zeroBuf, 0, 3⟩
            ⟨hf, ((zeroBuf.set 0 (V3.moveBy d a)).set 1 (V3.moveBy d b)).set 2 (V3.moveBy d c), zeroBuf, zeroBuf, zeroBuf, 0, 3⟩
            ⟨rfl, ⟨rfl, rfl⟩, ⟨rfl, rfl⟩, ⟨rfl, rfl⟩, [a, b, c], ⟨rfl, rfl, rfl⟩, ⟨rfl, rfl, rfl⟩, unimodal_triple _ _ _, Rest.base _ _ _, fun _ => hmv,
              fun v hv => (hin v hv).1⟩ with ⟨er, g1, g2⟩ | ⟨s, s', g1, g2, h⟩
          · simp only [V3.moveBy] at g2
            rw [g1, g2, bind_fault]
          · simp only [V3.moveBy] at g2
            rw [g1, g2, bind_ok, bind_ok, h]

/-- A moved mesh on a moved grid gives the same field. -/
theorem rasterizeTriangles_move {fr : Frame} (hcs : 0 < fr.cellSize) (d : V3 ℚ) (m : TriMesh ℚ) (thr : Nat)
    (hin : ∀ v ∈ m.vertices, fr.aabb.min.x ≤ v.x ∧ fr.aabb.min.z ≤ v.z) (hf : Heightfield) :
    rasterizeTriangles (fr.moveBy d) hf (m.moved (V3.moveBy d)) thr = rasterizeTriangles fr hf m thr := by
  unfold rasterizeTriangles
  show (List.range m.indices.length).foldlM _ hf = _
  have step : ∀ hf i, rasterizeMeshStep (fr.moveBy d) (m.moved (V3.moveBy d)) thr hf i = rasterizeMeshStep fr m thr hf i := by
    intro hf i
    unfold rasterizeMeshStep
    show (idx m.indices i >>= _) = _
    cases idx m.indices i with
    | error er => rw [bind_fault, bind_fault]
    | ok t =>
      rw [bind_ok, bind_ok]
      have hv : ∀ k, idx (m.moved (V3.moveBy d)).vertices k = (match m.vertices[k]? with | some v => .ok (V3.moveBy d v) | none => .error .panic) := by
        intro k
        unfold idx TriMesh.moved
        simp only [List.getElem?_map]
        cases m.vertices[k]? <;> rfl
      have hv0 : ∀ k, idx m.vertices k = (match m.vertices[k]? with | some v => .ok v | none => .error .panic) := fun k => by unfold idx; cases m.vertices[k]? <;> rfl
      rw [hv, hv, hv, hv0, hv0, hv0]
      cases e1 : m.vertices[t.1]? with
      | none => dsimp only; rw [bind_fault, bind_fault]
      | some a =>
        dsimp only
        rw [bind_ok, bind_ok]
        cases e2 : m.vertices[t.2.1]? with
        | none => dsimp only; rw [bind_fault, bind_fault]
        | some b =>
          dsimp only
          rw [bind_ok, bind_ok]
          cases e3 : m.vertices[t.2.2]? with
          | none => dsimp only; rw [bind_fault, bind_fault]
          | some c =>
            dsimp only
            rw [bind_ok, bind_ok]
            show (idx m.areaTypes i >>= _) = _
            cases idx m.areaTypes i with
            | error er => rw [bind_fault, bind_fault]
            | ok area =>
              rw [bind_ok, bind_ok]
              apply rasterizeTriangle_move hcs
              intro v hv
              simp only [List.mem_cons, List.not_mem_nil, or_false] at hv
              rcases hv with rfl | rfl | rfl
              · exact hin _ (List.mem_of_getElem? e1)
              · exact hin _ (List.mem_of_getElem? e2)
              · exact hin _ (List.mem_of_getElem? e3)
  have : rasterizeMeshStep (fr.moveBy d) (m.moved (V3.moveBy d)) thr = rasterizeMeshStep fr m thr := by
    funext hf i
    exact step hf i
  rw [this]

end Rerecast
