import Verif.Lemmas.Jordan8
import Verif.Spec.Ears
import Verif.Lemmas.ContourPolys
/-! Contours that do not touch themselves are triangulated. -/
namespace Rerecast.Jordan
open List

variable {A : Fault → Prop}

/-- Corner `i` of the contour. -/
def cornerPt (verts : List U16Vec3) (i : Nat) : Point := pt (verts.getD i ⟨0, 0, 0⟩)

theorem pts_ring (verts : List U16Vec3) (ps : Ring) : pts verts ps = (ps.map Prod.fst).map (cornerPt verts) := by
  rw [List.map_map]; rfl

theorem inTri_plane {a b c q : U16Vec3} (hT : 0 < turn (pt a) (pt b) (pt c)) : InTri (pt a) (pt b) (pt c) (pt q) ↔ InPlaneTriangle q.plane a.plane b.plane c.plane := by
  constructor
  · rintro ⟨h1, h2, h3⟩
    obtain ⟨s, t, u, h4, h5, h6, h7, h8, h9⟩ := in_of_turns (by rw [turn_sum]; exact hT) h1 h2 h3
    exact ⟨s, t, u, h4, h5, h6, h7, h9, h8⟩
  · rintro ⟨s, t, u, hs, ht, hu, h1, e1, e2⟩
    have es : s = 1 - t - u := by linarith
    have e1' : (pt q).2 = s * (pt a).2 + t * (pt b).2 + u * (pt c).2 := e1
    have e2' : (pt q).1 = s * (pt a).1 + t * (pt b).1 + u * (pt c).1 := e2
    have k1 : turn (pt a) (pt b) (pt q) = u * turn (pt a) (pt b) (pt c) := by unfold turn; rw [e1', e2', es]; ring
    have k2 : turn (pt b) (pt c) (pt q) = s * turn (pt a) (pt b) (pt c) := by unfold turn; rw [e1', e2', es]; ring
    have k3 : turn (pt c) (pt a) (pt q) = t * turn (pt a) (pt b) (pt c) := by unfold turn; rw [e1', e2', es]; ring
    unfold InTri
    rw [k1, k2, k3]
    exact ⟨mul_nonneg hu hT.le, mul_nonneg hs hT.le, mul_nonneg ht hT.le⟩

theorem ear_to {verts : List U16Vec3} {ps : Ring} {t : Tri} (E : EarOf verts (ps.map Prod.fst) t) :
    Ear (pts verts ps) (cornerPt verts t.1) (cornerPt verts t.2.1) (cornerPt verts t.2.2) := by
  have hT : 0 < turn (cornerPt verts t.1) (cornerPt verts t.2.1) (cornerPt verts t.2.2) := cross_neg.1 E.turns
  refine ⟨?_, ?_, hT, ?_⟩
  · rw [pts_ring, sides_map]; exact List.mem_map.2 ⟨_, E.first, rfl⟩
  · rw [pts_ring, sides_map]; exact List.mem_map.2 ⟨_, E.second, rfl⟩
  · intro q hq n1 n2 n3 hin
    rw [pts_ring] at hq
    obtain ⟨x, hx, rfl⟩ := List.mem_map.1 hq
    exact E.free x hx (fun h => n1 (by rw [h])) (fun h => n2 (by rw [h])) (fun h => n3 (by rw [h])) ((inTri_plane hT).1 hin)

theorem ear_from {verts : List U16Vec3} {ps : Ring} (S : SimplePolygon (pts verts ps)) {t : Tri} (h1 : (t.1, t.2.1) ∈ sides (ps.map Prod.fst))
    (h2 : (t.2.1, t.2.2) ∈ sides (ps.map Prod.fst)) (E : Ear (pts verts ps) (cornerPt verts t.1) (cornerPt verts t.2.1) (cornerPt verts t.2.2)) :
    EarOf verts (ps.map Prod.fst) t := by
  have hnd := S.corners
  rw [pts_ring] at hnd
  refine ⟨h1, h2, cross_neg.2 E.pos, ?_⟩
  intro q hq n1 n2 n3 hin
  refine E.free (cornerPt verts q) (by rw [pts_ring]; exact List.mem_map.2 ⟨q, hq, rfl⟩) ?_ ?_ ?_ ((inTri_plane E.pos).2 hin)
  · intro h; exact n1 (List.inj_on_of_nodup_map hnd hq (mem_sides h1).1 h)
  · intro h; exact n2 (List.inj_on_of_nodup_map hnd hq (mem_sides h1).2 h)
  · intro h; exact n3 (List.inj_on_of_nodup_map hnd hq (mem_sides h2).2 h)

/-- At least as good for the code: the base is as short, if lengths are truncated. -/
def ShortTrunc (verts : List U16Vec3) (t t' : Tri) : Prop := t.base verts % 65536 ≤ t'.base verts % 65536

theorem ring_side {ps : Ring} {i : Nat} (hi : i < ps.length) : (ps[i].1, (ps[(i + 1) % ps.length]'(Nat.mod_lt _ (by omega))).1) ∈ sides (ps.map Prod.fst) := by
  have := sides_getElem? (ps.map Prod.fst) i (by simpa using hi)
  simp only [List.length_map, List.getElem_map] at this
  exact List.mem_of_getElem? this

theorem ringAt_get {verts : List U16Vec3} {ps : Ring} {k : Nat} (hk : k < ps.length) : ringAt verts ps k = verts.getD ps[k].1 ⟨0, 0, 0⟩ := by
  unfold ringAt; simp [List.getD_eq_getElem?_getD, hk]

theorem cutLen_base {verts : List U16Vec3} {ps : Ring} {i : Nat} (hi : i < ps.length) :
    cutLen verts ps i = Tri.base verts (ps[i].1, (ps[(i + 1) % ps.length]'(Nat.mod_lt _ (by omega))).1, (ps[((i + 1) % ps.length + 1) % ps.length]'(Nat.mod_lt _ (by omega))).1) % 65536 := by
  unfold cutLen Tri.base
  rw [ringAt_get hi, ringAt_get (Nat.mod_lt _ (show 0 < ps.length by omega))]
  rfl

/-- Every ear of the ring is at a flagged position. -/
theorem earOf_at {verts : List U16Vec3} {ps : Ring} (S : SimplePolygon (pts verts ps)) (hf : Flags verts ps) {t : Tri} (E : EarOf verts (ps.map Prod.fst) t) :
    ∃ j < ps.length, (ps.map Prod.snd)[(j + 1) % ps.length]? = some true ∧ cutLen verts ps j = t.base verts % 65536 := by
  obtain ⟨j, hj⟩ := List.mem_iff_getElem?.1 E.first
  have hlt : j < ps.length := by
    have := (List.getElem?_eq_some_iff.1 hj).1
    rw [sides_length] at this
    simpa using this
  have h1 : (j + 1) % ps.length < ps.length := Nat.mod_lt _ (by omega)
  rw [sides_getElem? _ _ (by simpa using hlt)] at hj
  simp only [List.length_map, List.getElem_map, Option.some.injEq, Prod.mk.injEq] at hj
  have hnd := S.corners
  rw [pts_ring] at hnd
  have h2 := sides_fst_inj (List.Nodup.of_map _ hnd) E.second (hj.2 ▸ ring_side h1)
  refine ⟨j, hlt, ?_, ?_⟩
  · rw [hf _ h1, ringAt_get h1]
    have := ear_to E
    refine ⟨cornerPt verts t.1, cornerPt verts t.2.2, ?_⟩
    · have e : pt (verts.getD ps[(j + 1) % ps.length].1 ⟨0, 0, 0⟩) = cornerPt verts t.2.1 := by rw [hj.2]; rfl
      rw [e]; exact this
  · rw [cutLen_base hlt, hj.1, hj.2, ← h2]

theorem cutLoop_simple {verts : List U16Vec3} : ∀ (fuel : Nat) (ps : Ring) (T : List Tri), RingOk A verts ps → SimplePolygon (pts verts ps) → ValAll (pts verts ps) 0 →
    (3 < ps.length → Flags verts ps) → (∀ t ∈ T, t.turn verts < 0) → ps.length ≤ fuel + 3 →
    Outs A (cutLoop verts fuel ps T) fun R => (∀ t ∈ R, t.turn verts < 0) ∧ ∃ T', R = T ++ T' ∧ CutsEars verts (ShortTrunc verts) (ps.map Prod.fst) T' := by
  have e : ∀ (ps : Ring) k (hk : k < ps.length), ringAt verts ps k = verts.getD ps[k].1 ⟨0, 0, 0⟩ := by
    intro ps k hk; unfold ringAt; simp [List.getD_eq_getElem?_getD, hk]
  have last : ∀ (ps : Ring) (T : List Tri), SimplePolygon (pts verts ps) → ValAll (pts verts ps) 0 → 3 ≤ ps.length → ¬ 3 < ps.length → (∀ t ∈ T, t.turn verts < 0) →
      Outs A (ringTri ps 0 1 2 >>= fun t => Except.ok (T ++ [t])) fun R => (∀ t ∈ R, t.turn verts < 0) ∧
        ∃ T', R = T ++ T' ∧ CutsEars verts (ShortTrunc verts) (ps.map Prod.fst) T' := by
    intro ps T S hk h3 hn hT
    unfold ringTri
    rw [idx_ok (show 0 < ps.length by omega), bind_ok, idx_ok (show 1 < ps.length by omega), bind_ok,
      idx_ok (show 2 < ps.length by omega)]
    refine Outs.ok ⟨?_, _, rfl, ?_⟩
    rotate_left
    · match ps, h3, hn with
      | [x, y, z], _, _ => exact CutsEars.last _ _ _
      | _ :: _ :: _ :: _ :: _, _, hn => exact absurd (by simp) hn
    intro t ht
    rw [List.mem_append, List.mem_singleton] at ht
    rcases ht with ht | rfl
    · exact hT t ht
    · unfold Tri.turn
      dsimp only
      rw [← e ps 0 (by omega), ← e ps 1 (by omega), ← e ps 2 (by omega), cross_neg]
      have hp : pts verts ps = [pt (ringAt verts ps 0), pt (ringAt verts ps 1), pt (ringAt verts ps 2)] := by
        match ps, h3, hn with
        | [x, y, z], _, _ => rfl
        | _ :: _ :: _ :: _ :: _, _, hn => exact absurd (by simp) hn
      rw [hp] at S hk
      have := (ear_three S hk).pos
      rw [turn_cyc] at this
      exact this
  intro fuel
  induction fuel with
  | zero =>
    intro ps T hok S hk hf hT hfuel
    have h3 := S.three
    rw [pts_length] at h3
    unfold cutLoop
    rw [if_neg (by omega)]
    exact last ps T S hk h3 (by omega) hT
  | succ fuel ih =>
    intro ps T hok S hk hf hT hfuel
    have h3 := S.three
    rw [pts_length] at h3
    unfold cutLoop
    split
    · rename_i hl
      have hf := hf hl
      have hex : ∃ i, i < ps.length ∧ (ps.map Prod.snd)[i]? = some true := by
        obtain ⟨a, b, c, E⟩ := exists_ear S hk
        obtain ⟨i, hi, e⟩ := at_side E.second
        have e1 := congrArg Prod.fst e
        dsimp only at e1
        exact ⟨i, hi, (hf i hi).2 ⟨a, c, e1 ▸ E⟩⟩
      refine (findEar_tip hok (by omega) hex).bind fun ear ⟨i, hear, hi, hflag, hmin⟩ => ?_
      subst hear
      simp only
      have h0 : 0 < ps.length := by omega
      have h1 : (i + 1) % ps.length < ps.length := Nat.mod_lt _ h0
      have h2 : ((i + 1) % ps.length + 1) % ps.length < ps.length := Nat.mod_lt _ h0
      have hmin : ∀ t', EarOf verts (ps.map Prod.fst) t' → ShortTrunc verts (ps[i].1, ps[(i + 1) % ps.length].1, ps[((i + 1) % ps.length + 1) % ps.length].1) t' := by
        intro t' E'
        obtain ⟨j, hj, hjf, hjl⟩ := earOf_at S hf E'
        have := hmin j hj hjf
        rw [hjl, cutLen_base hi] at this
        exact this
      obtain ⟨a, c, E⟩ := (hf _ h1).1 hflag
      have s1 := side_at (verts := verts) hi
      have s2 := side_at (verts := verts) h1
      have ea := sides_snd_inj' S.corners E.first s1
      have ec := sides_fst_inj S.corners E.second s2
      subst ea; subst ec
      unfold ringTri
      rw [idx_ok hi, bind_ok, idx_ok h1, bind_ok, idx_ok h2, bind_ok]
      simp only [bind_ok]
      have hpe : pts verts (ps.eraseIdx ((i + 1) % ps.length)) = (pts verts ps).eraseIdx ((i + 1) % ps.length) := eraseIdx_map _ _
      have hl1 : (i + 1) % ps.length < (pts verts ps).length := by rw [pts_length]; exact h1
      have E' := E
      rw [← pts_get h1] at E'
      obtain ⟨S', hk', htip⟩ := erase_ear S hk (by rw [pts_length]; omega) hl1 E'
      rw [← hpe] at S' hk' htip
      rw [pts_get h1] at htip
      have hle : (ps.eraseIdx ((i + 1) % ps.length)).length = ps.length - 1 := by rw [List.length_eraseIdx]; simp [h1]
      have hi1 : (i + 1) % ps.length = if i + 1 < ps.length then i + 1 else 0 := by
        split
        · rename_i h; exact Nat.mod_eq_of_lt h
        · rename_i h; rw [show i + 1 = ps.length by omega, Nat.mod_self]
      have hi2 : ((i + 1) % ps.length + 1) % ps.length = if (i + 1) % ps.length + 1 < ps.length then (i + 1) % ps.length + 1 else 0 := by
        split
        · rename_i h; exact Nat.mod_eq_of_lt h
        · rename_i h; rw [show (i + 1) % ps.length + 1 = ps.length by omega, Nat.mod_self]
      have hcut : Outs A (cutRing verts ps ((i + 1) % ps.length)) fun qs => 3 < qs.length → Flags verts qs := by
        by_cases h4 : 4 < ps.length
        · refine (cutRing_tip hok h1 h4 S' hk' ?_).mono fun qs h _ => h
          rw [hle]
          intro j hj n1 n2
          have ei0 : (i + 1) % ps.length ≥ ps.length - 1 ∨ (i + 1) % ps.length < ps.length - 1 := by omega
          have hprev : ((if (i + 1) % ps.length ≥ ps.length - 1 then 0 else (i + 1) % ps.length) + (ps.length - 1) - 1) % (ps.length - 1) =
              if (if (i + 1) % ps.length ≥ ps.length - 1 then 0 else (i + 1) % ps.length) = 0 then ps.length - 2 else (if (i + 1) % ps.length ≥ ps.length - 1 then 0 else (i + 1) % ps.length) - 1 := by
            have hlt : (if (i + 1) % ps.length ≥ ps.length - 1 then 0 else (i + 1) % ps.length) < ps.length - 1 := by split <;> omega
            generalize (if (i + 1) % ps.length ≥ ps.length - 1 then 0 else (i + 1) % ps.length) = w at *
            split
            · rename_i h; rw [Nat.mod_eq_of_lt (by omega)]; omega
            · rename_i h
              rw [show w + (ps.length - 1) - 1 = (w - 1) + (ps.length - 1) by omega, Nat.add_mod_right, Nat.mod_eq_of_lt (by omega)]
          rw [hprev] at n2
          rw [ringAt_eraseIdx, eraseIdx_map, List.getElem?_eraseIdx]
          have key : ∀ m, m < ps.length → m ≠ i → m ≠ (i + 1) % ps.length → m ≠ ((i + 1) % ps.length + 1) % ps.length →
              ((ps.map Prod.snd)[m]? = some true ↔ Tip (pts verts (ps.eraseIdx ((i + 1) % ps.length))) (pt (ringAt verts ps m))) := by
            intro m hm k1 k2 k3
            rw [hf m hm]
            refine htip _ (mem_sides (side_at hm)).1 ?_ ?_ ?_ <;> intro e
            · exact k1 (pt_inj S.corners hm hi e)
            · exact k2 (pt_inj S.corners hm h1 e)
            · exact k3 (pt_inj S.corners hm h2 e)
          have hw : (i + 1 < ps.length ∧ (i + 1) % ps.length = i + 1) ∨ (i + 1 = ps.length ∧ (i + 1) % ps.length = 0) := by
            rw [hi1]; split <;> omega
          have hv : ((i + 1) % ps.length + 1 < ps.length ∧ ((i + 1) % ps.length + 1) % ps.length = (i + 1) % ps.length + 1) ∨
              ((i + 1) % ps.length + 1 = ps.length ∧ ((i + 1) % ps.length + 1) % ps.length = 0) := by
            rw [hi2]; split <;> omega
          have hu : ((i + 1) % ps.length = ps.length - 1 ∧ (if (i + 1) % ps.length ≥ ps.length - 1 then 0 else (i + 1) % ps.length) = 0) ∨
              ((i + 1) % ps.length < ps.length - 1 ∧ (if (i + 1) % ps.length ≥ ps.length - 1 then 0 else (i + 1) % ps.length) = (i + 1) % ps.length) := by
            split <;> omega
          clear hprev ei0 hi1 hi2
          generalize hww : ((i + 1) % ps.length + 1) % ps.length = v at *
          generalize hw' : (i + 1) % ps.length = w at *
          generalize (if w ≥ ps.length - 1 then 0 else w) = u at *
          have n2' : (u = 0 → j ≠ ps.length - 2) ∧ (u ≠ 0 → j ≠ u - 1) := by
            constructor
            · intro h; rw [if_pos h] at n2; exact n2
            · intro h; rw [if_neg h] at n2; exact n2
          clear n2 S' hk' htip E E' S hk hf hex hpe s1 s2
          by_cases hc : j < w
          · rw [if_pos hc, if_pos hc]
            exact key j (by omega) (by omega) (by omega) (by omega)
          · rw [if_neg hc, if_neg hc]
            exact key (j + 1) (by omega) (by omega) (by omega) (by omega)
        · refine (cutRing_out hok h1 hl).mono fun qs hq h3' => ?_
          have := congrArg List.length hq
          rw [List.length_eraseIdx] at this
          simp [h1] at this
          omega
      refine (hcut.and_holds (cutRing_out hok h1 hl).holds).bind fun qs ⟨hfq, hq⟩ => ?_
      have hlq : qs.length = ps.length - 1 := by
        have := congrArg List.length hq
        rw [List.length_eraseIdx] at this
        simpa [h1] using this
      have hpq : pts verts qs = pts verts (ps.eraseIdx ((i + 1) % ps.length)) := pts_map (by rw [hq, eraseIdx_map])
      have hring : qs.map Prod.fst = (ps.map Prod.fst).erase ps[(i + 1) % ps.length].1 := by
        have hnd := S.corners
        rw [pts_ring] at hnd
        have := (List.Nodup.of_map _ hnd).erase_getElem ((i + 1) % ps.length) (by simpa using h1)
        rw [List.getElem_map] at this
        rw [hq, this]
      have hear : EarOf verts (ps.map Prod.fst) (ps[i].1, ps[(i + 1) % ps.length].1, ps[((i + 1) % ps.length + 1) % ps.length].1) := by
        refine ear_from S (ring_side hi) (ring_side h1) ?_
        have := E
        rw [e ps _ hi, e ps _ h1, e ps _ h2] at this
        exact this
      refine (ih qs _ (hok.congr ?_) (hpq ▸ S') (hpq ▸ hk') hfq ?_ (by omega)).mono ?_
      · intro x hx; rw [hq] at hx; exact List.mem_of_mem_eraseIdx hx
      rotate_left
      · rintro R ⟨hR, T', hRT, hcuts⟩
        refine ⟨hR, _ :: T', by rw [hRT, List.append_assoc]; rfl, ?_⟩
        rw [hring] at hcuts
        exact CutsEars.cut _ _ _ (by simpa using hl) hear hmin hcuts
      · intro t ht
        rw [List.mem_append, List.mem_singleton] at ht
        rcases ht with ht | rfl
        · exact hT t ht
        · unfold Tri.turn
          dsimp only
          rw [← e ps _ hi, ← e ps _ h1, ← e ps _ h2, cross_neg]
          exact E.pos
    · exact last ps T S hk h3 (by omega) hT

theorem triangulate_simple {verts : List U16Vec3} (hs : ∀ v ∈ verts, v.Small) (S : SimplePolygon (verts.map pt)) (hk : ValAll (verts.map pt) 0) :
    ∃ T, triangulate verts = .ok T ∧ TriOk verts.length T ∧ (∀ t ∈ T, t.turn verts < 0) ∧ CutsEars verts (ShortTrunc verts) (List.range verts.length) T := by
  have h3 : 3 ≤ verts.length := by have := S.three; simpa using this
  have main : Outs (fun _ => False) (triangulate verts) fun T => (∀ t ∈ T, t.turn verts < 0) ∧ CutsEars verts (ShortTrunc verts) (List.range verts.length) T := by
    unfold triangulate
    have hlen : ((List.range verts.length).map fun i => (i, false) : Ring).length = verts.length := by simp
    have hok : RingOk (fun _ => False) verts ((List.range verts.length).map fun i => (i, false)) := by
      refine ⟨?_, Or.inl hs⟩
      intro p hp
      obtain ⟨i, hi, rfl⟩ := List.mem_map.1 hp
      simpa using hi
    have hp : pts verts ((List.range verts.length).map fun i => (i, false)) = verts.map pt := by
      unfold pts
      rw [List.map_map]
      apply List.ext_getElem
      · simp
      · intro i h1 h2
        have : i < verts.length := by simpa using h2
        simp [List.getD_eq_getElem?_getD, this]
    have hflag : Outs (fun _ => False) (flagEars verts ((List.range verts.length).map fun i => (i, false))) fun qs =>
        qs.map Prod.fst = ((List.range verts.length).map fun i => (i, false) : Ring).map Prod.fst ∧ (3 < qs.length → Flags verts qs) := by
      by_cases hn : 3 < verts.length
      · exact (flagEars_tip hok (hp ▸ S) (hp ▸ hk) (by omega) (by simp)).mono fun qs h => ⟨h.1, fun _ => h.2⟩
      · refine (flagEars_out hok).mono fun qs h => ⟨h, fun h' => ?_⟩
        have := map_fst_length h
        omega
    refine hflag.bind fun qs ⟨hq, hf⟩ => ?_
    have hlq := map_fst_length hq
    have hpq : pts verts qs = verts.map pt := (pts_map hq).trans hp
    refine (cutLoop_simple _ qs [] (hok.congr (by rw [hq]; exact fun _ h => h)) (hpq ▸ S) (hpq ▸ hk) hf (by simp) (by omega)).mono ?_
    rintro R ⟨hR, T', rfl, hc⟩
    refine ⟨hR, ?_⟩
    have : qs.map Prod.fst = List.range verts.length := by
      rw [hq, List.map_map]
      exact List.map_id' _
    rw [this] at hc
    simpa using hc
  obtain ⟨T, hT, hturn⟩ := main.total (fun _ h => h)
  exact ⟨T, hT, (triangulate_out (A := fun _ => True) trivial h3 (Or.inr trivial)).holds T hT, hturn⟩

end Rerecast.Jordan
