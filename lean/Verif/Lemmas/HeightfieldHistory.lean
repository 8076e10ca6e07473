import Verif.Lemmas.HeightfieldWF
import Verif.Lemmas.Column
import Verif.Lemmas.Grid
/-! Histories of insertions. -/
namespace Rerecast
open Heightfield

/-- Everything known about a heightfield reached by a valid history. -/
structure Reached (w h : Nat) (ops : List Insertion) (hf : Heightfield) (cols : Nat → List Entry) : Prop where
  width : hf.width = w
  height : hf.height = h
  len : hf.spans.length = w * h
  rep : HFRep hf cols
  sep : ∀ c < w * h, Separated (solids (cols c))
  proper : ∀ c < w * h, Proper (solids (cols c))
  occ : ∀ c < w * h, ∀ v, Occupied (solids (cols c)) v ↔
    ∃ i ∈ ops, i.x + i.z * w = c ∧ i.min ≤ v ∧ v < i.max
  strict : (∀ i ∈ ops, i.min < i.max) → ∀ c < w * h, ∀ s ∈ solids (cols c), s.min < s.max
  bound : ∀ B, (∀ i ∈ ops, i.max ≤ B) → ∀ c < w * h, ∀ s ∈ solids (cols c), s.max ≤ B
  source : ∀ c < w * h, ∀ s ∈ solids (cols c), ∃ i ∈ ops, i.x + i.z * w = c ∧ s.min ≤ i.min ∧ i.max ≤ s.max ∧ i.area = s.area

theorem insertCol_source (thr : Nat) (n : Solid) (hn : n.min ≤ n.max) (l : List Solid) (hl : Proper l) (hs : Separated l) :
    ∀ s ∈ insertCol thr n l, (∃ c ∈ l, s.min ≤ c.min ∧ c.max ≤ s.max ∧ c.area = s.area) ∨
      (s.min ≤ n.min ∧ n.max ≤ s.max ∧ n.area = s.area) := by
  intro s hsm
  rw [insertCol_closed thr n l n (Nat.le_refl _) (Nat.le_refl _) hn hl hs (Or.inl rfl) (Or.inl rfl)] at hsm
  simp only [List.mem_append, List.mem_cons, List.mem_filter] at hsm
  rcases hsm with ⟨h1, _⟩ | hm | ⟨h1, _⟩
  · exact Or.inl ⟨s, h1, Nat.le_refl _, Nat.le_refl _, rfl⟩
  · obtain ⟨a1, a2, _⟩ := absorb_foldl_min thr n.max _ n s hm
    obtain ⟨b1, b2, _⟩ := absorb_foldl_max thr n.max _ n s hm
    obtain ⟨_, _, c3⟩ := absorb_foldl_area thr n.max _ n s hm
    rcases c3 with c3 | ⟨c, hc, _, c3⟩
    · exact Or.inr ⟨a1, b1, c3.symm⟩
    · exact Or.inl ⟨c, (List.mem_filter.1 hc).1, a2 c hc, b2 c hc, c3.symm⟩
  · exact Or.inl ⟨s, h1, Nat.le_refl _, Nat.le_refl _, rfl⟩

theorem reached_new (w h : Nat) : Reached w h [] (Heightfield.new w h) (fun _ => []) where
  width := rfl
  height := rfl
  len := by simp [Heightfield.new]
  rep := hfRep_new w h
  sep := by intro c _; simp [Separated]
  proper := by intro c _ s hs; simp at hs
  occ := by intro c _ v; simp [Occupied]
  strict := by intro _ c _ s hs; simp at hs
  bound := by intro _ _ c _ s hs; simp at hs
  source := by intro c _ s hs; simp at hs


theorem Reached.step {w h ops hf cols} (hr : Reached w h ops hf cols) (i : Insertion)
    (hx : i.x < w) (hz : i.z < h) (hm : i.min ≤ i.max) :
    ∃ hf' cols', hf.insert i = .ok hf' ∧ Reached w h (ops ++ [i]) hf' cols' ∧
      solids (cols' (i.x + i.z * w)) = insertCol i.thr i.solid (solids (cols (i.x + i.z * w))) ∧
      ∀ c, c ≠ i.x + i.z * w → cols' c = cols c := by
  have hidx : hf.columnIndex i.x i.z = i.x + i.z * w := by simp [columnIndex, hr.width]
  have hlt := col_lt hx hz
  obtain ⟨hf', L', g1, g2, g3, g4, g5, g6⟩ := addSpan_spec hr.rep i.x i.z i.thr
    ⟨i.min, i.max, i.area, none⟩ (by rw [hidx, hr.len]; exact hlt)
  rw [hidx] at g5 g6
  have g6' : solids L' = insertCol i.thr i.solid (solids (cols (i.x + i.z * w))) := g6
  refine ⟨hf', fun c => if c = i.x + i.z * w then L' else cols c, g1, ?_, by simpa using g6', fun c hc => by simp [hc]⟩
  refine ⟨g2.trans hr.width, g3.trans hr.height, g4.trans hr.len, g5, ?_, ?_, ?_, ?_, ?_, ?_⟩
  · intro c hc
    by_cases h : c = i.x + i.z * w
    · subst h
      simp only [if_true]; rw [g6']
      exact insertCol_separated _ _ _ hm (hr.proper _ hlt) (hr.sep _ hlt)
    · simp only [h, if_false]; exact hr.sep c hc
  · intro c hc
    by_cases h : c = i.x + i.z * w
    · subst h
      simp only [if_true]; rw [g6']
      exact insertCol_proper _ _ _ hm (hr.proper _ hlt)
    · simp only [h, if_false]; exact hr.proper c hc
  · intro c hc v
    by_cases h : c = i.x + i.z * w
    · subst h
      simp only [if_true]
      rw [g6', insertCol_occupied, hr.occ _ hlt v]
      constructor
      · rintro (⟨h1, h2⟩ | ⟨j, hj, hjc, h1, h2⟩)
        · exact ⟨i, by simp, rfl, h1, h2⟩
        · exact ⟨j, by simp [hj], hjc, h1, h2⟩
      · rintro ⟨j, hj, hjc, h1, h2⟩
        simp at hj; rcases hj with hj | rfl
        · exact Or.inr ⟨j, hj, hjc, h1, h2⟩
        · exact Or.inl ⟨h1, h2⟩
    · simp only [h, if_false]
      rw [hr.occ c hc v]
      constructor
      · rintro ⟨j, hj, hjc, h1, h2⟩; exact ⟨j, by simp [hj], hjc, h1, h2⟩
      · rintro ⟨j, hj, hjc, h1, h2⟩
        simp at hj; rcases hj with hj | rfl
        · exact ⟨j, hj, hjc, h1, h2⟩
        · exact absurd hjc.symm h
  · intro hst c hc
    by_cases h : c = i.x + i.z * w
    · subst h
      simp only [if_true]; rw [g6']
      exact insertCol_strict _ _ _ (hst i (by simp)) (hr.strict (fun j hj => hst j (by simp [hj])) _ hlt)
    · simp only [h, if_false]
      exact hr.strict (fun j hj => hst j (by simp [hj])) c hc
  · intro B hB c hc
    by_cases h : c = i.x + i.z * w
    · subst h
      simp only [if_true]; rw [g6']
      exact insertCol_bound _ B _ _ (hB i (by simp)) (hr.bound B (fun j hj => hB j (by simp [hj])) _ hlt)
    · simp only [h, if_false]
      exact hr.bound B (fun j hj => hB j (by simp [hj])) c hc
  · intro c hc s hs
    by_cases h : c = i.x + i.z * w
    · subst h
      simp only [if_true] at hs; rw [g6'] at hs
      rcases insertCol_source _ _ hm _ (hr.proper _ hlt) (hr.sep _ hlt) s hs with ⟨b, hb, h1, h2, h3⟩ | ⟨h1, h2, h3⟩
      · obtain ⟨j, hj, hjc, k1, k2, k3⟩ := hr.source _ hlt b hb
        exact ⟨j, by simp [hj], hjc, Nat.le_trans h1 k1, Nat.le_trans k2 h2, k3.trans h3⟩
      · exact ⟨i, by simp, rfl, h1, h2, h3⟩
    · simp only [h, if_false] at hs
      obtain ⟨j, hj, r⟩ := hr.source c hc s hs
      exact ⟨j, by simp [hj], r⟩

theorem reached_foldl {w h} : ∀ (ops pre : List Insertion) (hf cols), Reached w h pre hf cols →
    ValidOps w h ops → ∃ hf' cols', hf.insertAll ops = .ok hf' ∧ Reached w h (pre ++ ops) hf' cols'
  | [], pre, hf, cols, hr, _ => ⟨hf, cols, rfl, by simpa using hr⟩
  | i :: ops, pre, hf, cols, hr, hv => by
    obtain ⟨hx, hz, hm⟩ := hv i (by simp)
    obtain ⟨hf1, cols1, g1, g2, _⟩ := hr.step i hx hz hm
    obtain ⟨hf2, cols2, k1, k2⟩ := reached_foldl ops (pre ++ [i]) hf1 cols1 g2
      (fun j hj => hv j (by simp [hj]))
    refine ⟨hf2, cols2, ?_, by simpa using k2⟩
    simp only [insertAll, List.foldlM_cons, g1, bind_ok]
    exact k1

theorem reached_of_valid {w h} (ops : List Insertion) (hv : ValidOps w h ops) :
    ∃ hf cols, (Heightfield.new w h).insertAll ops = .ok hf ∧ Reached w h ops hf cols := by
  simpa using reached_foldl ops [] _ _ (reached_new w h) hv

end Rerecast
