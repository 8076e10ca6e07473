import Verif.Spec.Polygon
/-! Directed sides of cyclic lists. -/
set_option linter.unusedVariables false
namespace Rerecast

/-- The directed steps of an open path. -/
def path (p : List α) : List (α × α) := p.zip p.tail

theorem sides_cons (a : α) (l : List α) : sides (a :: l) = (a :: l).zip (l ++ [a]) := by
  simp [sides, List.rotate_cons_succ]

theorem path_cons_cons (a b : α) (l : List α) : path (a :: b :: l) = (a, b) :: path (b :: l) := rfl
theorem path_single (a : α) : path [a] = [] := rfl

theorem path_append : ∀ (a : α) (l : List α) (b : α) (m : List α),
    path (a :: l ++ b :: m) = path (a :: l) ++ ((a :: l).getLast (by simp), b) :: path (b :: m)
  | a, [], b, m => by simp [path_cons_cons, path_single]
  | a, c :: l, b, m => by
    have := path_append c l b m
    simp only [List.cons_append] at this ⊢
    rw [path_cons_cons, this, path_cons_cons]
    simp

theorem sides_eq_path (a : α) (l : List α) : sides (a :: l) = path (a :: l) ++ [((a :: l).getLast (by simp), a)] := by
  rw [sides_cons]
  have : ∀ (a b : α) (l : List α), (a :: l).zip (l ++ [b]) = path (a :: l) ++ [((a :: l).getLast (by simp), b)] := by
    intro a b l
    induction l generalizing a with
    | nil => simp [path_single]
    | cons c l ih => simp only [List.cons_append, List.zip_cons_cons, path_cons_cons, ih]; simp
  exact this a a l

theorem sides_rotate (p : List α) (k : Nat) : sides (p.rotate k) = (sides p).rotate k := by
  unfold sides
  rw [List.rotate_rotate, Nat.add_comm k 1, ← List.rotate_rotate]
  have := List.zipWith_rotate_distrib Prod.mk p (p.rotate 1) k (by simp)
  simpa [List.zip] using this.symm

theorem sides_rotate_perm (p : List α) (k : Nat) : (sides (p.rotate k)).Perm (sides p) := by
  rw [sides_rotate]; exact List.rotate_perm _ _

theorem sides_length (p : List α) : (sides p).length = p.length := by simp [sides]

theorem mem_sides {p : List α} {e : α × α} (h : e ∈ sides p) : e.1 ∈ p ∧ e.2 ∈ p := by
  have := List.of_mem_zip (show (e.1, e.2) ∈ p.zip (p.rotate 1) from h)
  exact ⟨this.1, by simpa using this.2⟩

theorem mem_path {p : List α} {e : α × α} (h : e ∈ path p) : ∃ i : Nat, p[i]? = some e.1 ∧ p[i + 1]? = some e.2 := by
  obtain ⟨i, hi⟩ := List.mem_iff_getElem?.1 h
  refine ⟨i, ?_⟩
  unfold path at hi
  rw [List.getElem?_zip_eq_some] at hi
  exact ⟨hi.1, by simpa using hi.2⟩

theorem mem_path_mem {p : List α} {e : α × α} (h : e ∈ path p) : e.1 ∈ p ∧ e.2 ∈ p := by
  obtain ⟨i, h1, h2⟩ := mem_path h
  exact ⟨List.mem_of_getElem? h1, List.mem_of_getElem? h2⟩

theorem sides_nodup {p : List α} (h : p.Nodup) : (sides p).Nodup := by
  unfold sides
  have : ∀ (l m : List α), l.Nodup → (l.zip m).Nodup := by
    intro l
    induction l with
    | nil => intro m _; simp
    | cons a l ih =>
      intro m hl
      cases m with
      | nil => simp
      | cons b m =>
        rw [List.nodup_cons] at hl
        rw [List.zip_cons_cons, List.nodup_cons]
        refine ⟨fun hm => hl.1 (List.of_mem_zip hm).1, ih m hl.2⟩
  exact this _ _ h

/-- Side `i` of a polygon. -/
theorem sides_getElem? (p : List α) (i : Nat) (hi : i < p.length) :
    (sides p)[i]? = some (p[i], p[(i + 1) % p.length]'(Nat.mod_lt _ (by omega))) := by
  unfold sides
  rw [List.getElem?_zip_eq_some]
  refine ⟨by simp [hi], ?_⟩
  rw [List.getElem?_rotate (by omega)]
  rw [List.getElem?_eq_getElem]

/-- Rotating so that position `i` comes first. -/
theorem rotate_eq_cons {p : List α} {i : Nat} (hi : i < p.length) : p.rotate i = p[i] :: (p.drop (i + 1) ++ p.take i) := by
  have h3 : (p.take i).length = i := by simp; omega
  have h := List.rotate_append_length_eq (p.take i) (p.drop i)
  rw [h3, List.take_append_drop] at h
  rw [h, ← List.cons_append, ← List.drop_eq_getElem_cons hi]

theorem eraseIdx_rotate {p : List α} {i : Nat} (hi : i < p.length) :
    p.drop (i + 1) ++ p.take i = (p.eraseIdx i).rotate i := by
  have h3 : (p.take i).length = i := by simp; omega
  have h := List.rotate_append_length_eq (p.take i) (p.drop (i + 1))
  rw [h3] at h
  rw [List.eraseIdx_eq_take_drop_succ, h]

theorem sum_append {f : α → Int} (l m : List α) : ((l ++ m).map f).sum = (l.map f).sum + (m.map f).sum := by simp

theorem sum_perm {f : α → Int} {l m : List α} (h : l.Perm m) : (l.map f).sum = (m.map f).sum := (h.map f).sum_eq

theorem allSides_cons (p : List α) (ps : List (List α)) : allSides (p :: ps) = sides p ++ allSides ps := by simp [allSides]
theorem allSides_append (ps qs : List (List α)) : allSides (ps ++ qs) = allSides ps ++ allSides qs := by simp [allSides]
theorem allSides_perm {ps qs : List (List α)} (h : ps.Perm qs) : (allSides ps).Perm (allSides qs) := h.flatMap_right _

end Rerecast
