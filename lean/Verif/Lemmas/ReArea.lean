import Verif.Lemmas.HeightfieldWF
import Verif.Lemmas.Column
import Verif.Lemmas.Grid
import Verif.Model.PreFilter
/-! Heightfields that differ only in span areas. -/
set_option linter.unusedVariables false
namespace Rerecast
open Heightfield

/-- Replace the area of slot `k` by `f k`. -/
def Heightfield.reArea (hf : Heightfield) (f : Nat → Area) : Heightfield :=
  { hf with allocated := hf.allocated.mapIdx fun k o => o.map fun s => { s with area := f k } }

def recol (f : Nat → Area) (L : List Entry) : List Entry := L.map fun e => (e.1, { e.2 with area := f e.1 })

/-- Function update. -/
def upd (f : Nat → Area) (k : Nat) (a : Area) : Nat → Area := fun j => if j = k then a else f j

@[simp] theorem upd_same (f k a) : upd f k a k = a := by simp [upd]
theorem upd_ne {f : Nat → Area} {k j a} (h : j ≠ k) : upd f k a j = f j := by simp [upd, h]

@[simp] theorem reArea_width (hf : Heightfield) (f) : (hf.reArea f).width = hf.width := rfl
@[simp] theorem reArea_height (hf : Heightfield) (f) : (hf.reArea f).height = hf.height := rfl
@[simp] theorem reArea_spans (hf : Heightfield) (f) : (hf.reArea f).spans = hf.spans := rfl
@[simp] theorem reArea_alloc_length (hf : Heightfield) (f) :
    (hf.reArea f).allocated.length = hf.allocated.length := by simp [reArea]
@[simp] theorem reArea_spanKeyAt (hf : Heightfield) (f) (x z) :
    (hf.reArea f).spanKeyAt x z = hf.spanKeyAt x z := rfl
@[simp] theorem reArea_contains (hf : Heightfield) (f) (x z) :
    (hf.reArea f).contains x z = hf.contains x z := rfl

theorem reArea_alloc (hf : Heightfield) (f) (k : Nat) :
    (hf.reArea f).allocated[k]? = (hf.allocated[k]?).map fun o => o.map fun s => { s with area := f k } := by
  simp [reArea]

theorem reArea_alloc_some {hf : Heightfield} {f k} {s : Span} (h : hf.allocated[k]? = some (some s)) :
    (hf.reArea f).allocated[k]? = some (some { s with area := f k }) := by
  rw [reArea_alloc, h]; rfl

theorem reArea_span {hf : Heightfield} {f k} {s : Span} (h : hf.allocated[k]? = some (some s)) :
    (hf.reArea f).span k = .ok { s with area := f k } := span_eq_ok.2 (reArea_alloc_some h)

theorem reArea_setSpan {hf : Heightfield} {f k} {s : Span} {a} (h : hf.allocated[k]? = some (some s)) :
    (hf.reArea f).setSpan k { s with area := a } = .ok (hf.reArea (upd f k a)) := by
  rw [setSpan_ok (reArea_alloc_some h)]
  congr 1
  have : (hf.reArea f).allocated.set k (some { s with area := a }) = (hf.reArea (upd f k a)).allocated := by
    apply List.ext_getElem?
    intro j
    by_cases hj : k = j
    · subst hj
      rw [reArea_alloc_some h]
      have hlt : k < (hf.reArea f).allocated.length := by
        rw [List.getElem?_eq_some_iff] at h; simpa using h.1
      rw [List.getElem?_set_self hlt, upd_same]
    · rw [List.getElem?_set_ne hj, reArea_alloc, reArea_alloc, upd_ne (fun h => hj h.symm)]
  rw [this]; rfl

theorem reArea_seg {hf : Heightfield} (f) : ∀ {L : List Entry} {a b}, Seg hf.allocated a L b →
    Seg (hf.reArea f).allocated a (recol f L) b
  | [], _, _, h => h
  | (k, s) :: L, _, _, ⟨ha, nxt, hk, h1⟩ => ⟨ha, nxt, by rw [reArea_alloc_some hk], reArea_seg f h1⟩

@[simp] theorem recol_keys (f L) : keys (recol f L) = keys L := by simp [keys, recol]
@[simp] theorem recol_nil (f) : recol f [] = [] := rfl
@[simp] theorem recol_cons (f e L) : recol f (e :: L) = (e.1, { e.2 with area := f e.1 }) :: recol f L := rfl

theorem recol_congr {f g L} (h : ∀ k ∈ keys L, f k = g k) : recol f L = recol g L := by
  unfold recol
  apply List.map_congr_left
  intro e he
  rw [h e.1 (List.mem_map_of_mem he)]

theorem HFRep.reArea {hf : Heightfield} {cols} (hr : HFRep hf cols) (f) :
    HFRep (hf.reArea f) (fun c => recol f (cols c)) where
  seg := fun c head hc => reArea_seg f (hr.seg c head hc)
  nodup := fun c hc => by simpa using hr.nodup c hc
  disj := fun c hc c' hc' hne k => by simpa using hr.disj c hc c' hc' hne k
  noleak := by
    intro k s hk
    rw [reArea_alloc] at hk
    cases ho : hf.allocated[k]? with
    | none => rw [ho] at hk; simp at hk
    | some o =>
      cases o with
      | none => rw [ho] at hk; simp at hk
      | some s' => simpa using hr.noleak k s' ho

/-- The current areas of a heightfield. -/
def Heightfield.areaOf (hf : Heightfield) (k : Nat) : Area :=
  match hf.allocated[k]? with
  | some (some s) => s.area
  | _ => 0

theorem reArea_areaOf (hf : Heightfield) : hf.reArea hf.areaOf = hf := by
  have : (hf.reArea hf.areaOf).allocated = hf.allocated := by
    apply List.ext_getElem?
    intro k
    rw [reArea_alloc]
    cases ho : hf.allocated[k]? with
    | none => rfl
    | some o =>
      cases o with
      | none => rfl
      | some s => simp [areaOf, ho]
  cases hf; simp_all [Heightfield.reArea]

theorem recol_areaOf {hf : Heightfield} : ∀ {L : List Entry} {a b}, Seg hf.allocated a L b →
    recol hf.areaOf L = L
  | [], _, _, _ => rfl
  | (k, s) :: L, _, _, ⟨ha, nxt, hk, h1⟩ => by
    simp only [recol_cons, recol_areaOf h1]
    congr 2
    simp [areaOf, hk]

/-- A grid loop whose body only changes areas, one column at a time. -/
theorem grid_area_loop {hf : Heightfield} {cols} (hr : HFRep hf cols)
    (hsize : hf.spans.length = hf.width * hf.height)
    (step : Heightfield → Nat × Nat → Res Heightfield) (G : Nat → List Solid → List Solid)
    (hstep : ∀ f x z, x < hf.width → z < hf.height →
      ∃ f', step (hf.reArea f) (x, z) = .ok (hf.reArea f') ∧
        (∀ k, k ∉ keys (cols (x + z * hf.width)) → f' k = f k) ∧
        solids (recol f' (cols (x + z * hf.width))) =
          G (x + z * hf.width) (solids (recol f (cols (x + z * hf.width))))) :
    ∃ f', (gridCells hf.width hf.height).foldlM step hf = .ok (hf.reArea f') ∧
      ∀ c < hf.width * hf.height, solids (recol f' (cols c)) = G c (solids (cols c)) := by
  have hrecol : ∀ c < hf.width * hf.height, recol hf.areaOf (cols c) = cols c := fun c hc =>
    recol_areaOf (hr.seg c _ (List.getElem?_eq_getElem (hsize ▸ hc)))
  have := foldlM_total (f := step) (fun pre s => ∃ f, s = hf.reArea f ∧
      (∀ c < hf.width * hf.height, (c % hf.width, c / hf.width) ∈ pre →
        solids (recol f (cols c)) = G c (solids (cols c))) ∧
      (∀ c < hf.width * hf.height, (c % hf.width, c / hf.width) ∉ pre → recol f (cols c) = cols c))
    (gridCells hf.width hf.height) hf ⟨hf.areaOf, (reArea_areaOf hf).symm, by simp, fun c hc _ => hrecol c hc⟩ ?_
  · obtain ⟨s, h1, f, rfl, h2, _⟩ := this
    refine ⟨f, h1, fun c hc => h2 c hc ?_⟩
    obtain ⟨a, b, _⟩ := col_div hc
    exact mem_gridCells.2 ⟨a, b⟩
  · rintro pre ⟨x, z⟩ post s hl ⟨f, rfl, h1, h2⟩
    have hmem : (x, z) ∈ gridCells hf.width hf.height := by rw [hl]; simp
    obtain ⟨hx, hz⟩ := mem_gridCells.1 hmem
    have hlt := col_lt hx hz
    obtain ⟨f', g1, g2, g3⟩ := hstep f x z hx hz
    have hmod : (x + z * hf.width) % hf.width = x := by
      rw [Nat.add_mul_mod_self_right, Nat.mod_eq_of_lt hx]
    have hdiv : (x + z * hf.width) / hf.width = z := by
      rw [Nat.add_mul_div_right _ _ (by omega), Nat.div_eq_of_lt hx]; omega
    have hnotin : (x, z) ∉ pre := by
      have := gridCells_nodup hf.width hf.height
      rw [hl, List.nodup_append] at this
      intro hin; exact this.2.2 _ hin (x, z) (by simp) rfl
    have hframe : ∀ c < hf.width * hf.height, c ≠ x + z * hf.width → recol f' (cols c) = recol f (cols c) := by
      intro c hc hne
      apply recol_congr
      intro k hk
      exact g2 k (hr.disj c (by omega) _ (by omega) hne k hk)
    refine ⟨_, g1, f', rfl, ?_, ?_⟩
    · intro c hc hin
      by_cases hcc : c = x + z * hf.width
      · subst hcc
        rw [g3, h2 _ hlt (by rw [hmod, hdiv]; exact hnotin)]
      · rw [hframe c hc hcc]
        apply h1 c hc
        simp at hin
        rcases hin with hin | ⟨h3, h4⟩
        · exact hin
        · obtain ⟨_, _, h5⟩ := col_div hc
          rw [h3, h4] at h5; exact absurd h5.symm hcc
    · intro c hc hin
      simp at hin
      by_cases hcc : c = x + z * hf.width
      · subst hcc; exact absurd hdiv (hin.2 hmod)
      · rw [hframe c hc hcc]; exact h2 c hc hin.1

end Rerecast
