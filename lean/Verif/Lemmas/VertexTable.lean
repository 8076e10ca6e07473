import Verif.Lemmas.Outs
import Verif.Model.PolyMesh
/-! The vertex table of `into_polygon_mesh`. -/
set_option linter.unusedVariables false
namespace Rerecast
namespace VertexTable

/-- Entry `i` is on the chain that starts at `o`. -/
inductive Reach (t : VertexTable) : Option Nat → Nat → Prop
  | here (i : Nat) : Reach t (some i) i
  | next {i j : Nat} {o : Option Nat} (h : t.next[i]? = some o) (r : Reach t o j) : Reach t (some i) j

/-- Invariant of the table. -/
structure Ok (t : VertexTable) : Prop where
  first_len : t.first.length = 4096
  next_len : t.next.length = t.verts.length
  first_lt : ∀ b j : Nat, t.first[b]? = some (some j) → j < t.verts.length
  next_lt : ∀ i j : Nat, t.next[i]? = some (some j) → j < i
  chain : ∀ (i : Nat) (v : U16Vec3), t.verts[i]? = some v → ∃ o, t.first[vertexHash v.x v.z]? = some o ∧ t.Reach o i
  apart : ∀ (i j : Nat) (v w : U16Vec3), i < j → t.verts[i]? = some v → t.verts[j]? = some w → sameVertex v w = false

theorem vertexHash_lt (x z : Nat) : vertexHash x z < 4096 := Nat.mod_lt _ (by decide)

theorem sameVertex_iff {v w : U16Vec3} :
    sameVertex v w = true ↔ v.x = w.x ∧ v.z = w.z ∧ v.y ≤ w.y + 2 ∧ w.y ≤ v.y + 2 := by
  unfold sameVertex
  simp only [Bool.and_eq_true, beq_iff_eq, decide_eq_true_eq]
  tauto

theorem sameVertex_comm (v w : U16Vec3) : sameVertex v w = sameVertex w v := by
  rw [Bool.eq_iff_iff, sameVertex_iff, sameVertex_iff]
  constructor <;> rintro ⟨h1, h2, h3, h4⟩ <;> exact ⟨h1.symm, h2.symm, h4, h3⟩

theorem find_out {t : VertexTable} (h : t.Ok) (v : U16Vec3) : ∀ (fuel : Nat) (o : Option Nat), (∀ j, o = some j → j < t.verts.length ∧ j < fuel) →
    Total (t.find v fuel o) fun r => (∀ i, r = some i → ∃ w, t.verts[i]? = some w ∧ sameVertex w v = true) ∧
      (r = none → ∀ i w, t.Reach o i → t.verts[i]? = some w → sameVertex w v = false) := by
  intro fuel
  induction fuel with
  | zero =>
    intro o ho
    cases o with
    | none =>
      refine Total.ok ⟨by simp, fun _ i w hr => by cases hr⟩
    | some j => exact absurd (ho j rfl).2 (by omega)
  | succ fuel ih =>
    intro o ho
    cases o with
    | none => exact Total.ok ⟨by simp, fun _ i w hr => by cases hr⟩
    | some j =>
      obtain ⟨hj, hjf⟩ := ho j rfl
      unfold find
      rw [idx_ok hj, bind_ok]
      split
      · rename_i hs
        refine Total.ok ⟨fun i hi => ?_, by simp⟩
        injection hi with hi
        subst hi
        exact ⟨_, List.getElem?_eq_getElem hj, hs⟩
      · rename_i hs
        have hjn : j < t.next.length := by rw [h.next_len]; exact hj
        rw [idx_ok hjn, bind_ok]
        refine (ih t.next[j] ?_).mono ?_
        · intro k hk
          have := h.next_lt j k (by rw [List.getElem?_eq_getElem hjn, hk])
          omega
        · rintro r ⟨h1, h2⟩
          refine ⟨h1, fun hr i w hreach hw => ?_⟩
          cases hreach with
          | here =>
            rw [List.getElem?_eq_getElem hj] at hw
            injection hw with hw
            rw [← hw]; simpa using hs
          | next hn hr' =>
            rw [List.getElem?_eq_getElem hjn] at hn
            injection hn with hn
            exact h2 hr i w (hn ▸ hr') hw

theorem Reach.mono {t u : VertexTable} {o : Option Nat} {i : Nat} (h : ∀ (k : Nat) (n : Option Nat), t.next[k]? = some n → u.next[k]? = some n)
    (r : t.Reach o i) : u.Reach o i := by
  induction r with
  | here i => exact .here i
  | next hn _ ih => exact .next (h _ _ hn) ih

theorem ok_empty : Ok ⟨[], List.replicate 4096 none, []⟩ where
  first_len := List.length_replicate
  next_len := rfl
  first_lt := by intro b j h; rw [List.getElem?_replicate] at h; split at h <;> simp at h
  next_lt := fun i j h => by rw [List.getElem?_nil] at h; cases h
  chain := fun i v h => by rw [List.getElem?_nil] at h; cases h
  apart := fun i j v w _ h => by rw [List.getElem?_nil] at h; cases h

/-- Result of adding a vertex. -/
structure Added (t : VertexTable) (v : U16Vec3) (r : VertexTable × Nat) : Prop where
  ok : r.1.Ok
  grow : r.1.verts = t.verts ∨ (r.1.verts = t.verts ++ [v] ∧ ∀ w ∈ t.verts, sameVertex w v = false)
  found : ∃ w, r.1.verts[r.2]? = some w ∧ sameVertex w v = true

theorem add_out {A : Fault → Prop} {t : VertexTable} (h : t.Ok) (cap : Nat) (v : U16Vec3) (hc : (t.verts.length < cap ∧ cap ≤ 65535) ∨ A .panic) :
    Outs A (t.add cap v) (Added t v) := by
  unfold add
  have hb := vertexHash_lt v.x v.z
  have hb' : vertexHash v.x v.z < t.first.length := by rw [h.first_len]; exact hb
  simp only
  rw [idx_ok hb', bind_ok]
  refine (Outs.of_total (find_out h v (t.verts.length + 1) _ ?_)).bind ?_
  · intro j hj
    have := h.first_lt _ j (by rw [List.getElem?_eq_getElem hb', hj])
    omega
  · intro r ⟨h1, h2⟩
    cases r with
    | some i => exact Outs.ok ⟨h, Or.inl rfl, h1 i rfl⟩
    | none =>
      simp only
      have h2 := h2 rfl
      -- nothing in the table is the same
      have hnone : ∀ (i : Nat) (w : U16Vec3), t.verts[i]? = some w → sameVertex w v = false := by
        intro i w hw
        by_contra hs
        have hs : sameVertex w v = true := by simpa using hs
        obtain ⟨o, ho, hr⟩ := h.chain i w hw
        have e := sameVertex_iff.1 hs
        rw [e.1, e.2.1, List.getElem?_eq_getElem hb'] at ho
        injection ho with ho
        rw [h2 i w (ho ▸ hr) hw] at hs
        exact absurd hs (by decide)
      refine Outs.bind (P := fun _ => True) ?_ fun _ _ => ?_
      · unfold addU16
        rcases hc with hc | hc
        · rw [if_pos (by omega)]; exact Outs.ok trivial
        · split
          · exact Outs.ok trivial
          · exact Outs.error hc
      · split
        · rw [setIdx_ok hb', bind_ok]
          have hn : t.next.length = t.verts.length := h.next_len
          refine Outs.ok ⟨?_, Or.inr ⟨rfl, fun w hw => ?_⟩, ⟨v, by simp, ?_⟩⟩
          · refine ⟨by simp [h.first_len], by simp [hn], ?_, ?_, ?_, ?_⟩
            · intro b j hj
              rw [List.getElem?_set] at hj
              split at hj
              · first
                | (injection hj with hj; injection hj with hj; subst hj; simp; done)
                | (split at hj
                   · injection hj with hj; injection hj with hj; subst hj; simp
                   · simp at hj)
              · have := h.first_lt b j hj
                simp; omega
            · intro i j hj
              rw [List.getElem?_append] at hj
              split at hj
              · exact h.next_lt i j hj
              · rename_i hi
                have hi' : i = t.next.length := by
                  have := (List.getElem?_eq_some_iff.1 hj).1
                  simp at this; omega
                subst hi'
                simp only [Nat.sub_self, List.getElem?_cons_zero, Option.some.injEq] at hj
                have := h.first_lt _ j (by rw [List.getElem?_eq_getElem hb', hj])
                omega
            · intro i w hw
              have mono : ∀ (k : Nat) (n : Option Nat), t.next[k]? = some n →
                  (t.next ++ [t.first[vertexHash v.x v.z]])[k]? = some n := by
                intro k n hk
                rw [List.getElem?_append_left (List.getElem?_eq_some_iff.1 hk).1, hk]
              rw [List.getElem?_append] at hw
              split at hw
              · obtain ⟨o, ho, hr⟩ := h.chain i w hw
                by_cases he : vertexHash v.x v.z = vertexHash w.x w.z
                · refine ⟨some t.verts.length, ?_, ?_⟩
                  · rw [← he, List.getElem?_set_self hb']
                  · refine .next (o := t.first[vertexHash v.x v.z]) ?_ ?_
                    · simp [← hn]
                    · rw [← he, List.getElem?_eq_getElem hb'] at ho
                      injection ho with ho
                      subst ho
                      exact hr.mono mono
                · exact ⟨o, by rw [List.getElem?_set_ne he]; exact ho, hr.mono mono⟩
              · rename_i hi
                have hi' : i = t.verts.length := by
                  have := (List.getElem?_eq_some_iff.1 hw).1
                  simp at this; omega
                subst hi'
                simp only [Nat.sub_self, List.getElem?_cons_zero, Option.some.injEq] at hw
                subst hw
                exact ⟨some t.verts.length, by rw [List.getElem?_set_self hb'], .here _⟩
            · intro i j a b hij ha hb2
              rw [List.getElem?_append] at ha hb2
              have hja : j < t.verts.length + 1 := by
                split at hb2
                · omega
                · have := (List.getElem?_eq_some_iff.1 hb2).1
                  simp at this; omega
              rw [if_pos (by omega)] at ha
              split at hb2
              · exact h.apart i j a b hij ha hb2
              · have : j = t.verts.length := by omega
                subst this
                simp only [Nat.sub_self, List.getElem?_cons_zero, Option.some.injEq] at hb2
                subst hb2
                exact hnone i a ha
          · obtain ⟨i, hi⟩ := List.mem_iff_getElem?.1 hw
            exact hnone i w hi
          · rw [sameVertex_iff]; omega
        · rcases hc with hc | hc
          · omega
          · exact Outs.error hc

end VertexTable
end Rerecast
