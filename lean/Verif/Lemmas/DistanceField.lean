import Verif.Lemmas.Erosion
/-! Distance field: boundary marking, absence of overflow, blur. -/
set_option linter.unusedVariables false
namespace Rerecast
namespace CompactHeightfield
open Classical

noncomputable def areaEdge0 (chf : CompactHeightfield) (i : Nat) : Nat := if chf.AreaEdge i then 0 else 65535

section
variable {chf : CompactHeightfield} (hwf : chf.WellFormed)
include hwf

theorem sameAreaNeighbours_spec {i : Nat} {s : CompactSpan} (hs : chf.spans[i]? = some s) {a : Area} (ha : chf.areas[i]? = some a) :
    ∀ (ds : List Nat) (n : Nat),
    (∀ d ∈ ds, d < 4) → Total (chf.sameAreaNeighbours (chf.xOf i) (chf.zOf i) s a ds n) fun c =>
      c ≤ n + ds.length ∧ (c = n + ds.length ↔ ∀ d ∈ ds, ∃ k, chf.Link i d k ∧ chf.areas[k]? = chf.areas[i]?)
  | [], n, _ => Total.ok (by simp)
  | d :: ds, n, hd => by
    have hd4 := hd d (by simp)
    unfold sameAreaNeighbours
    cases hc : s.con d with
    | none =>
      refine Total.mono (sameAreaNeighbours_spec hs ha ds n fun d hd' => hd d (by simp [hd'])) ?_
      rintro c ⟨h1, h2⟩
      simp only [List.length_cons]
      refine ⟨by omega, ?_⟩
      constructor
      · intro h; omega
      · intro h
        obtain ⟨k, hk, _⟩ := h d (by simp)
        obtain ⟨s', con, hs', hc', _⟩ := nbr_con hwf ((nbr_iff_link hwf hd4).2 hk) hd4
        rw [hs] at hs'; cases hs'; rw [hc] at hc'; cases hc'
    | some con =>
      obtain ⟨k, hk, hkl, _, hn⟩ := nbr_of_con hwf hs hd4 hc
      obtain ⟨b, hb⟩ := area_get hwf hkl
      simp only [hn, bind_ok, idx_some hb]
      refine Total.mono (sameAreaNeighbours_spec hs ha ds _ fun d hd' => hd d (by simp [hd'])) ?_
      rintro c ⟨h1, h2⟩
      simp only [List.length_cons]
      by_cases hab : a = b
      · subst hab
        simp only [if_true] at h1 h2
        refine ⟨by omega, ?_⟩
        rw [show n + (ds.length + 1) = n + 1 + ds.length by omega, h2]
        constructor
        · intro h d' hd'
          rcases List.mem_cons.1 hd' with rfl | hd'
          · exact ⟨k, (nbr_iff_link hwf hd4).1 hk, by rw [hb, ha]⟩
          · exact h d' hd'
        · intro h d' hd'; exact h d' (by simp [hd'])
      · rw [if_neg hab] at h1 h2
        refine ⟨by omega, ?_⟩
        constructor
        · intro h; omega
        · intro h
          obtain ⟨k', hk', e'⟩ := h d (by simp)
          have e := (nbr_iff_link hwf hd4).2 hk'
          rw [hk] at e; cases e
          rw [hb, ha] at e'
          exact absurd (Option.some.inj e').symm hab

theorem distanceBoundary_spec : Total chf.distanceBoundary fun dist => Tab chf.spans.length dist chf.areaEdge0 := by
  unfold distanceBoundary
  rw [forSpans_eq hwf]
  refine Total.mono (foldlM_range_total (P := fun n dist => Tab chf.spans.length dist
    (fun i => if i < n ∧ chf.AreaEdge i then 0 else 65535)) _ _ ?_ ?_) ?_
  · exact ⟨by simp, fun i hi => by simp [hi]⟩
  · intro i hi dist ht
    obtain ⟨a, ha⟩ := area_get hwf hi
    have hs := List.getElem?_eq_getElem hi
    simp only [idx_some ha, idx_some hs, bind_ok]
    refine Total.bind (sameAreaNeighbours_spec hwf hs ha [0, 1, 2, 3] 0 (by decide)) ?_
    rintro c ⟨h1, h2⟩
    simp only [List.length_cons, List.length_nil] at h1 h2
    by_cases hc : c < 4
    · rw [if_pos hc]
      have he : chf.AreaEdge i := by
        refine ⟨hi, ?_⟩
        by_contra hcon
        push Not at hcon
        have : c = 4 := h2.2 fun d hd => by
          obtain ⟨k, h3⟩ := hcon d (by simp at hd; omega)
          exact ⟨k, h3⟩
        omega
      obtain ⟨h1, h2⟩ := ht.set hi 0
      refine ⟨_, h1, h2.congr ?_⟩
      intro j hj
      by_cases e : j = i
      · subst e; rw [Function.update_self, if_pos ⟨by omega, he⟩]
      · rw [Function.update_of_ne e]
        have : j < i ↔ j < i + 1 := by omega
        simp only [this]
    · rw [if_neg hc]
      refine Total.ok (ht.congr ?_)
      intro j hj
      by_cases e : j = i
      · subst e
        have hne : ¬ chf.AreaEdge j := by
          rintro ⟨_, ⟨d, hd, h⟩⟩
          refine h (h2.1 (by omega) d ?_)
          simp; omega
        simp [hne]
      · have : j < i ↔ j < i + 1 := by omega
        simp only [this]
  · intro dist ht
    refine ht.congr ?_
    intro i hi
    simp [areaEdge0, hi]

/-- A span that is not at the edge of its area has all four neighbours. -/
theorem nonEdge_nbr {i d : Nat} (hi : i < chf.spans.length) (h : ¬ chf.AreaEdge i) (hd : d < 4) : ∃ k, chf.nbr i d = some k := by
  by_contra hcon
  refine h ⟨hi, d, hd, ?_⟩
  rintro ⟨j, hj, _⟩
  exact hcon ⟨j, (nbr_iff_link hwf hd).2 hj⟩

/-- After the first sweep the distance is at most twice either coordinate. -/
theorem swept1_bound {f} {done : Nat → Prop} (h : Swept chf.preds1 chf.areaEdge0 done f)
    (hlt : ∀ i, done i → i < chf.spans.length) (hcl : ∀ i, done i → ∀ p ∈ chf.preds1 i, done p.1) :
    ∀ (n i : Nat), done i → (chf.xOf i ≤ n → f i ≤ 2 * chf.xOf i) ∧ (chf.zOf i ≤ n → f i ≤ 2 * chf.zOf i) := by
  have base : ∀ i, done i → chf.AreaEdge i → f i = 0 := by
    intro i hi he
    have := h.le i hi
    unfold areaEdge0 at this; rw [if_pos he] at this; omega
  intro n
  induction n with
  | zero =>
    intro i hi
    by_cases he : chf.AreaEdge i
    · rw [base i hi he]; simp
    · constructor
      · intro hx
        obtain ⟨a, ha⟩ := nonEdge_nbr hwf (hlt i hi) he (d := 0) (by omega)
        have := nbr_col hwf (by omega) ha; omega
      · intro hx
        obtain ⟨a, ha⟩ := nonEdge_nbr hwf (hlt i hi) he (d := 3) (by omega)
        have := nbr_col hwf (by omega) ha; omega
  | succ n ih =>
    intro i hi
    by_cases he : chf.AreaEdge i
    · rw [base i hi he]; simp
    · constructor
      · intro hx
        obtain ⟨a, ha⟩ := nonEdge_nbr hwf (hlt i hi) he (d := 0) (by omega)
        have hm : (a, 2) ∈ chf.preds1 i := by simp [preds1, mem_pairPreds, ha]
        have h1 := nbr_col hwf (by omega) ha
        have h2 := h.rel i hi _ hm
        have h3 := (ih a (hcl i hi _ hm)).1 (by omega)
        simp only at h2; omega
      · intro hx
        obtain ⟨a, ha⟩ := nonEdge_nbr hwf (hlt i hi) he (d := 3) (by omega)
        have hm : (a, 2) ∈ chf.preds1 i := by simp [preds1, mem_pairPreds, ha]
        have h1 := nbr_col hwf (by omega) ha
        have h2 := h.rel i hi _ hm
        have h3 := (ih a (hcl i hi _ hm)).2 (by omega)
        simp only at h2; omega

/-- The guard under which the `u16` sums cannot overflow. -/
theorem bound_small (hsm : chf.width ≤ 32767 ∨ chf.height ≤ 32767) {i v : Nat} (hi : i < chf.spans.length)
    (h1 : v ≤ 2 * chf.xOf i) (h2 : v ≤ 2 * chf.zOf i) : v ≤ 65532 := by
  have := xz_spec hwf hi
  omega

theorem pred_cost {i dA dB} {p : Nat × Nat} (hp : p ∈ chf.pairPreds i dA dB) : p.2 ≤ 3 := by
  rcases mem_pairPreds.1 hp with ⟨_, e⟩ | ⟨_, _, _, e⟩ <;> omega

theorem addOK_u16 {m a c : Nat} (h : a + c ≤ 65535) : AddOK addU16 m a c := ⟨a + c, by simp [addU16, h], rfl⟩

theorem distance_spec (hsm : chf.width ≤ 32767 ∨ chf.height ≤ 32767) :
    ∃ f1 f2 dist, chf.Chamfer chf.areaEdge0 f1 f2 ∧ chf.calculateDistanceField = .ok dist ∧ Tab chf.spans.length dist f2 ∧
      ∀ i < chf.spans.length, f1 i ≤ 65532 := by
  obtain ⟨d0, e0, t0⟩ := distanceBoundary_spec hwf
  obtain ⟨d1, e1, f1, t1, s1⟩ := sweep1_spec hwf (add := addU16) t0 (by
    intro pre i post f he hs p hp
    obtain ⟨h1, h2, h3⟩ := preds1_col hwf hp
    have hpp := range_before hwf h1 h2 h3 he
    have hlt : ∀ j, j ∈ pre → j < chf.spans.length := by
      intro j hj; apply List.mem_range.1; rw [he]; simp [hj]
    have hcl : ∀ j, j ∈ pre → ∀ q ∈ chf.preds1 j, q.1 ∈ pre := by
      intro j hj q hq
      obtain ⟨a, b, rfl⟩ := List.append_of_mem hj
      obtain ⟨g1, g2, g3⟩ := preds1_col hwf hq
      have := range_before hwf g1 g2 g3 (pre := a) (post := b ++ i :: post) (by rw [he]; simp)
      simp [this]
    have hb := swept1_bound hwf hs hlt hcl (chf.xOf p.1 + chf.zOf p.1) p.1 hpp
    have hb' := bound_small hwf hsm h2 (hb.1 (by omega)) (hb.2 (by omega))
    have hc : p.2 ≤ 3 := by
      rcases List.mem_append.1 hp with h | h
      · exact pred_cost hwf h
      · exact pred_cost hwf h
    exact addOK_u16 hwf (by omega))
  have hf1 : ∀ i < chf.spans.length, f1 i ≤ 65532 := by
    intro i hi
    have hb := swept1_bound hwf s1 (fun _ h => h) (fun j _ q hq => (preds1_col hwf hq).2.1) (chf.xOf i + chf.zOf i) i hi
    exact bound_small hwf hsm hi (hb.1 (by omega)) (hb.2 (by omega))
  obtain ⟨d2, e2, f2, t2, s2⟩ := sweep2_spec hwf (add := addU16) t1 (by
    intro pre i post f he hs p hp
    obtain ⟨h1, h2, h3⟩ := preds2_col hwf hp
    have hc : p.2 ≤ 3 := by
      rcases List.mem_append.1 hp with h | h
      · exact pred_cost hwf h
      · exact pred_cost hwf h
    have : f p.1 ≤ f1 p.1 := by
      by_cases hd : p.1 ∈ pre
      · exact hs.le _ hd
      · rw [hs.todo _ hd]; exact Nat.le_refl _
    have := hf1 _ h2
    exact addOK_u16 hwf (by omega))
  refine ⟨f1, f2, d2, ⟨s1, s2⟩, ?_, t2, hf1⟩
  unfold calculateDistanceField
  rw [e0, bind_ok, e1, bind_ok, e2]

/-- Value seen in direction `d` and diagonally after it. -/
def axisVal (chf : CompactHeightfield) (f : Nat → Nat) (i d : Nat) : Nat :=
  match chf.nbr i d with
  | none => f i
  | some a => f a
def diagVal (chf : CompactHeightfield) (f : Nat → Nat) (i d : Nat) : Nat :=
  match chf.nbr i d with
  | none => f i
  | some a => match chf.nbr a ((d + 1) % 4) with
    | none => f i
    | some b => f b

theorem blurDir_spec {field f} (ht : Tab chf.spans.length field f) {i d : Nat} (hi : i < chf.spans.length) (hd : d < 4) (acc : Nat) :
    chf.blurDir field (chf.xOf i) (chf.zOf i) chf.spans[i] (f i) acc d = .ok (acc + axisVal chf f i d + diagVal chf f i d) := by
  have hs := List.getElem?_eq_getElem hi
  unfold blurDir axisVal diagVal
  cases hn : chf.nbr i d with
  | none => rw [nbr_none hwf hs hd hn]; simp only; congr 1; omega
  | some a =>
    obtain ⟨s, con, hs', hcon, hal, hnc, hnb⟩ := nbr_con hwf hn hd
    rw [hs] at hs'; cases hs'
    have has := List.getElem?_eq_getElem hal
    simp only [hcon, hnb, bind_ok, ht.idx hal, idx_some has]
    cases hm : chf.nbr a ((d + 1) % 4) with
    | none => rw [nbr_none hwf has (by omega) hm]
    | some b =>
      obtain ⟨s2, con2, hs2, hcon2, hbl, hnc2, hnb2⟩ := nbr_con hwf hm (by omega)
      rw [has] at hs2; cases hs2
      simp only [hcon2, hnb2, bind_ok, ht.idx hbl]

def blurSum (chf : CompactHeightfield) (f : Nat → Nat) (i : Nat) : Nat :=
  f i + (axisVal chf f i 0 + diagVal chf f i 0) + (axisVal chf f i 1 + diagVal chf f i 1) +
    (axisVal chf f i 2 + diagVal chf f i 2) + (axisVal chf f i 3 + diagVal chf f i 3)

def blurVal (chf : CompactHeightfield) (f : Nat → Nat) (i : Nat) : Nat :=
  if f i ≤ 2 then f i else (blurSum chf f i + 5) / 9

theorem axisVal_le {f M} (hM : ∀ i < chf.spans.length, f i ≤ M) {i d} (hi : i < chf.spans.length) (hd : d < 4) :
    axisVal chf f i d ≤ M ∧ diagVal chf f i d ≤ M := by
  unfold axisVal diagVal
  cases hn : chf.nbr i d with
  | none => exact ⟨hM i hi, hM i hi⟩
  | some a =>
    simp only
    have ha := (nbr_lt hwf hd hn).2
    cases hm : chf.nbr a ((d + 1) % 4) with
    | none => exact ⟨hM a ha, hM i hi⟩
    | some b => exact ⟨hM a ha, hM b (nbr_lt hwf (by omega) hm).2⟩

theorem blurVal_le {f M} (hM : ∀ i < chf.spans.length, f i ≤ M) {i} (hi : i < chf.spans.length) :
    (blurSum chf f i + 5) / 9 ≤ M ∧ blurVal chf f i ≤ M := by
  have h0 := axisVal_le hwf hM hi (d := 0) (by omega)
  have h1 := axisVal_le hwf hM hi (d := 1) (by omega)
  have h2 := axisVal_le hwf hM hi (d := 2) (by omega)
  have h3 := axisVal_le hwf hM hi (d := 3) (by omega)
  have h := hM i hi
  unfold blurVal blurSum
  constructor
  · omega
  · split <;> omega

theorem boxBlur_spec {field f} (ht : Tab chf.spans.length field f) (hM : ∀ i < chf.spans.length, f i ≤ 65535) :
    Total (chf.boxBlur 1 field) fun r => Tab chf.spans.length r (blurVal chf f) := by
  unfold boxBlur
  rw [forSpans_eq hwf]
  refine Total.mono (foldlM_range_total (P := fun n dist => Tab chf.spans.length dist
    (fun i => if i < n then blurVal chf f i else 0)) _ _ ?_ ?_) ?_
  · refine ⟨by simp [ht.1], fun i hi => ?_⟩
    rw [List.getElem?_replicate, if_pos (by rw [ht.1]; exact hi)]; simp
  · intro i hi dist htd
    have hs := List.getElem?_eq_getElem hi
    have hfin : ∀ v, v = blurVal chf f i → Total (setIdx dist i v) fun d => Tab chf.spans.length d
        (fun i_1 => if i_1 < i + 1 then blurVal chf f i_1 else 0) := by
      rintro v rfl
      obtain ⟨h1, h2⟩ := htd.set hi (blurVal chf f i)
      refine ⟨_, h1, h2.congr ?_⟩
      intro j hj
      by_cases e : j = i
      · subst e; rw [Function.update_self, if_pos (by omega)]
      · rw [Function.update_of_ne e]
        have : j < i ↔ j < i + 1 := by omega
        simp only [this]
    simp only [idx_some hs, ht.idx hi, bind_ok]
    by_cases hle : f i ≤ min 65535 (1 * 2)
    · rw [if_pos hle]
      exact hfin _ (by unfold blurVal; rw [if_pos (by omega)])
    · rw [if_neg hle]
      simp only [List.foldlM_cons, List.foldlM_nil, blurDir_spec hwf ht hi (show 0 < 4 by omega),
        blurDir_spec hwf ht hi (show 1 < 4 by omega), blurDir_spec hwf ht hi (show 2 < 4 by omega),
        blurDir_spec hwf ht hi (show 3 < 4 by omega), bind_ok, pure_eq_ok]
      refine hfin _ ?_
      have := (blurVal_le hwf hM hi).1
      unfold blurVal
      rw [if_neg (by omega)]
      rw [show f i + axisVal chf f i 0 + diagVal chf f i 0 + axisVal chf f i 1 + diagVal chf f i 1 + axisVal chf f i 2 +
        diagVal chf f i 2 + axisVal chf f i 3 + diagVal chf f i 3 = blurSum chf f i by unfold blurSum; omega]
      omega
  · intro r hr
    exact hr.congr fun i hi => by simp [hi]

end

theorem maxUnwrap_spec : ∀ {l : List Nat}, l ≠ [] → ∃ m, maxUnwrap l = .ok m ∧ (∀ a ∈ l, a ≤ m) ∧ m ∈ l := by
  intro l hl
  cases l with
  | nil => exact absurd rfl hl
  | cons a l =>
    refine ⟨_, rfl, ?_, ?_⟩
    · have : ∀ (l : List Nat) (a : Nat), a ≤ l.foldl max a ∧ ∀ b ∈ l, b ≤ l.foldl max a := by
        intro l
        induction l with
        | nil => intro a; simp
        | cons c l ih =>
          intro a
          simp only [List.foldl_cons]
          have := ih (max a c)
          refine ⟨by omega, ?_⟩
          intro b hb
          rcases List.mem_cons.1 hb with rfl | hb
          · omega
          · exact this.2 b hb
      intro b hb
      rcases List.mem_cons.1 hb with rfl | hb
      · exact (this l b).1
      · exact (this l a).2 b hb
    · have : ∀ (l : List Nat) (a : Nat), l.foldl max a ∈ a :: l := by
        intro l
        induction l with
        | nil => intro a; simp
        | cons c l ih =>
          intro a
          simp only [List.foldl_cons]
          have := ih (max a c)
          rcases List.mem_cons.1 this with h | h
          · rw [h]; rcases Nat.le_total a c with h' | h' <;> simp [h']
          · simp [h]
      exact this l a

end CompactHeightfield
end Rerecast
