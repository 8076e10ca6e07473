import Verif.Lemmas.Sweep
import Verif.Spec.Chamfer
/-! Consequences of the two sweeps: bounds along walks, and witnesses. -/
set_option linter.unusedVariables false
namespace Rerecast
namespace CompactHeightfield

/-- Moves of a sweep: directions followed and cost. -/
def upMoves : List (List Nat × Nat) := [([2], 2), ([1], 2), ([2, 1], 3), ([1, 0], 3)]
def downMoves : List (List Nat × Nat) := [([0], 2), ([3], 2), ([0, 3], 3), ([3, 2], 3)]

def cost (ms : List (List Nat × Nat)) : Nat := (ms.map Prod.snd).sum
def dirs (ms : List (List Nat × Nat)) : List Nat := ms.flatMap Prod.fst

/-- The outcome of both sweeps from the table `f0`. -/
structure Chamfer (chf : CompactHeightfield) (f0 f1 f2 : Nat → Nat) : Prop where
  s1 : Swept chf.preds1 f0 (· < chf.spans.length) f1
  s2 : Swept chf.preds2 f1 (· < chf.spans.length) f2

theorem mem_pairPreds {chf : CompactHeightfield} {i dA dB : Nat} {p : Nat × Nat} : p ∈ chf.pairPreds i dA dB ↔
    (chf.nbr i dA = some p.1 ∧ p.2 = 2) ∨ (∃ a, chf.nbr i dA = some a ∧ chf.nbr a dB = some p.1 ∧ p.2 = 3) := by
  obtain ⟨q, c⟩ := p
  unfold pairPreds
  cases h : chf.nbr i dA with
  | none => simp
  | some a =>
    simp only
    cases h' : chf.nbr a dB with
    | none =>
      simp only [List.mem_singleton, Prod.mk.injEq]
      constructor
      · rintro ⟨rfl, rfl⟩; left; exact ⟨rfl, rfl⟩
      · rintro (⟨e, e'⟩ | ⟨a', e1, e2, e3⟩)
        · cases e; exact ⟨rfl, e'⟩
        · cases e1; rw [h'] at e2; cases e2
    | some b =>
      simp only [List.mem_cons, List.not_mem_nil, or_false, Prod.mk.injEq]
      constructor
      · rintro (⟨rfl, rfl⟩ | ⟨rfl, rfl⟩)
        · left; exact ⟨rfl, rfl⟩
        · right; exact ⟨a, rfl, h', rfl⟩
      · rintro (⟨e, e'⟩ | ⟨a', e1, e2, e3⟩)
        · cases e; left; exact ⟨rfl, e'⟩
        · cases e1; rw [h'] at e2; cases e2; right; exact ⟨rfl, e3⟩

namespace Chamfer
variable {chf : CompactHeightfield} {f0 f1 f2 : Nat → Nat} (hc : chf.Chamfer f0 f1 f2)
include hc

theorem le01 (i : Nat) : f1 i ≤ f0 i := by
  by_cases h : i < chf.spans.length
  · exact hc.s1.le i h
  · rw [hc.s1.todo i h]; exact Nat.le_refl _
theorem le12 (i : Nat) : f2 i ≤ f1 i := by
  by_cases h : i < chf.spans.length
  · exact hc.s2.le i h
  · rw [hc.s2.todo i h]; exact Nat.le_refl _

variable (hwf : chf.WellFormed)
include hwf

theorem up {i k : Nat} {m : List Nat × Nat} (hm : m ∈ upMoves) (h : chf.Path i m.1 k) : f2 i ≤ f2 k + m.2 := by
  simp only [upMoves, List.mem_cons, List.not_mem_nil, or_false] at hm
  rcases hm with rfl | rfl | rfl | rfl <;> simp only [Path] at h
  · obtain ⟨j, h1, rfl⟩ := h
    have h1 := (nbr_iff_link hwf (by omega)).2 h1
    exact hc.s2.rel i (nbr_lt hwf (by omega) h1).1 (j, 2) (by simp [preds2, mem_pairPreds, h1])
  · obtain ⟨j, h1, rfl⟩ := h
    have h1 := (nbr_iff_link hwf (by omega)).2 h1
    exact hc.s2.rel i (nbr_lt hwf (by omega) h1).1 (j, 2) (by simp [preds2, mem_pairPreds, h1])
  · obtain ⟨j, h1, b, h2, rfl⟩ := h
    have h1 := (nbr_iff_link hwf (by omega)).2 h1
    have h2 := (nbr_iff_link hwf (by omega)).2 h2
    exact hc.s2.rel i (nbr_lt hwf (by omega) h1).1 (b, 3) (by simp [preds2, mem_pairPreds, h1, h2])
  · obtain ⟨j, h1, b, h2, rfl⟩ := h
    have h1 := (nbr_iff_link hwf (by omega)).2 h1
    have h2 := (nbr_iff_link hwf (by omega)).2 h2
    exact hc.s2.rel i (nbr_lt hwf (by omega) h1).1 (b, 3) (by simp [preds2, mem_pairPreds, h1, h2])

theorem down {i k : Nat} {m : List Nat × Nat} (hm : m ∈ downMoves) (h : chf.Path i m.1 k) : f1 i ≤ f1 k + m.2 := by
  simp only [downMoves, List.mem_cons, List.not_mem_nil, or_false] at hm
  rcases hm with rfl | rfl | rfl | rfl <;> simp only [Path] at h
  · obtain ⟨j, h1, rfl⟩ := h
    have h1 := (nbr_iff_link hwf (by omega)).2 h1
    exact hc.s1.rel i (nbr_lt hwf (by omega) h1).1 (j, 2) (by simp [preds1, mem_pairPreds, h1])
  · obtain ⟨j, h1, rfl⟩ := h
    have h1 := (nbr_iff_link hwf (by omega)).2 h1
    exact hc.s1.rel i (nbr_lt hwf (by omega) h1).1 (j, 2) (by simp [preds1, mem_pairPreds, h1])
  · obtain ⟨j, h1, b, h2, rfl⟩ := h
    have h1 := (nbr_iff_link hwf (by omega)).2 h1
    have h2 := (nbr_iff_link hwf (by omega)).2 h2
    exact hc.s1.rel i (nbr_lt hwf (by omega) h1).1 (b, 3) (by simp [preds1, mem_pairPreds, h1, h2])
  · obtain ⟨j, h1, b, h2, rfl⟩ := h
    have h1 := (nbr_iff_link hwf (by omega)).2 h1
    have h2 := (nbr_iff_link hwf (by omega)).2 h2
    exact hc.s1.rel i (nbr_lt hwf (by omega) h1).1 (b, 3) (by simp [preds1, mem_pairPreds, h1, h2])

end Chamfer

theorem path_append {chf : CompactHeightfield} : ∀ {ds ds' : List Nat} {i k : Nat},
    chf.Path i (ds ++ ds') k ↔ ∃ j, chf.Path i ds j ∧ chf.Path j ds' k
  | [], ds', i, k => by simp [Path]
  | d :: ds, ds', i, k => by
    simp only [List.cons_append, Path, path_append]
    constructor
    · rintro ⟨j, h1, m, h2, h3⟩; exact ⟨m, ⟨j, h1, h2⟩, h3⟩
    · rintro ⟨m, ⟨j, h1, h2⟩, h3⟩; exact ⟨j, h1, m, h2, h3⟩

theorem walkablePath_append {chf : CompactHeightfield} {G : Nat → Prop} : ∀ {ds ds' : List Nat} {i j k : Nat},
    chf.PathThrough G i ds j → chf.PathThrough G j ds' k → chf.PathThrough G i (ds ++ ds') k
  | [], ds', i, j, k, h1, h2 => by obtain ⟨rfl, _⟩ := h1; exact h2
  | d :: ds, ds', i, j, k, h1, h2 => by
    obtain ⟨h3, m, h4, h5⟩ := h1
    exact ⟨h3, m, h4, walkablePath_append h5 h2⟩

namespace Chamfer
variable {chf : CompactHeightfield} {f0 f1 f2 : Nat → Nat} (hc : chf.Chamfer f0 f1 f2) (hwf : chf.WellFormed)
include hc hwf

/-- Upper bound along any up-then-down route. -/
theorem route : ∀ (us ds : List (List Nat × Nat)), (∀ m ∈ us, m ∈ upMoves) → (∀ m ∈ ds, m ∈ downMoves) → ∀ {i k : Nat},
    chf.Path i (dirs us ++ dirs ds) k → f2 i ≤ f0 k + cost us + cost ds := by
  intro us
  induction us with
  | nil =>
    intro ds
    induction ds with
    | nil =>
      intro _ _ i k h
      simp only [dirs, List.flatMap_nil, List.append_nil, Path] at h
      subst h
      have := hc.le01 i; have := hc.le12 i
      omega
    | cons m ds ih =>
      intro h1 h2 i k h
      -- go through `f1`
      have key : ∀ (ds : List (List Nat × Nat)), (∀ m ∈ ds, m ∈ downMoves) → ∀ {i k : Nat}, chf.Path i (dirs ds) k →
          f1 i ≤ f1 k + cost ds := by
        intro ds
        induction ds with
        | nil => intro _ i k h; simp only [dirs, List.flatMap_nil, Path] at h; subst h; simp [cost]
        | cons m ds ih =>
          intro hd i k h
          simp only [dirs, List.flatMap_cons] at h
          obtain ⟨j, h3, h4⟩ := path_append.1 h
          have := hc.down hwf (hd m (by simp)) h3
          have := ih (fun m hm => hd m (by simp [hm])) h4
          simp only [cost, List.map_cons, List.sum_cons] at *
          omega
      have := key (m :: ds) h2 h
      have := hc.le12 i; have := hc.le01 k
      simp [cost] at *
      omega
  | cons m us ih =>
    intro ds h1 h2 i k h
    simp only [dirs, List.flatMap_cons, List.append_assoc] at h
    obtain ⟨j, h3, h4⟩ := path_append.1 h
    have := hc.up hwf (h1 m (by simp)) h3
    have := ih ds (fun m hm => h1 m (by simp [hm])) h2 h4
    simp only [cost, List.map_cons, List.sum_cons] at *
    omega

/-- A value below the initial one is the cost of a route to a span, plus that span's initial value. -/
theorem witness1 : ∀ (n i : Nat), f1 i ≤ n → i < chf.spans.length → ∃ k c, k < chf.spans.length ∧ chf.Reach i k c ∧ f1 i = f0 k + c := by
  intro n
  induction n with
  | zero =>
    intro i hn hi
    rcases hc.s1.real i hi with e | ⟨p, hp, e⟩
    · exact ⟨i, 0, hi, .refl i, e⟩
    · simp only [preds1, List.mem_append, mem_pairPreds] at hp
      rcases hp with (⟨_, e2⟩ | ⟨_, _, _, e2⟩) | (⟨_, e2⟩ | ⟨_, _, _, e2⟩) <;> omega
  | succ n ih =>
    intro i hn hi
    rcases hc.s1.real i hi with e | ⟨p, hp, e⟩
    · exact ⟨i, 0, hi, .refl i, e⟩
    · simp only [preds1, List.mem_append, mem_pairPreds] at hp
      rcases hp with (⟨h1, e2⟩ | ⟨a, h1, h2, e2⟩) | (⟨h1, e2⟩ | ⟨a, h1, h2, e2⟩)
      · obtain ⟨k, c, hk, hr, e3⟩ := ih p.1 (by omega) (nbr_lt hwf (by omega) h1).2
        exact ⟨k, c + 2, hk, .axis (by omega) ((nbr_iff_link hwf (by omega)).1 h1) hr, by omega⟩
      · obtain ⟨k, c, hk, hr, e3⟩ := ih p.1 (by omega) (nbr_lt hwf (by omega) h2).2
        exact ⟨k, c + 3, hk, .diag (d := 0) (d' := 3) (by omega) (by omega) (by omega) ((nbr_iff_link hwf (by omega)).1 h1)
          ((nbr_iff_link hwf (by omega)).1 h2) hr, by omega⟩
      · obtain ⟨k, c, hk, hr, e3⟩ := ih p.1 (by omega) (nbr_lt hwf (by omega) h1).2
        exact ⟨k, c + 2, hk, .axis (by omega) ((nbr_iff_link hwf (by omega)).1 h1) hr, by omega⟩
      · obtain ⟨k, c, hk, hr, e3⟩ := ih p.1 (by omega) (nbr_lt hwf (by omega) h2).2
        exact ⟨k, c + 3, hk, .diag (d := 3) (d' := 2) (by omega) (by omega) (by omega) ((nbr_iff_link hwf (by omega)).1 h1)
          ((nbr_iff_link hwf (by omega)).1 h2) hr, by omega⟩

theorem witness2 : ∀ (n i : Nat), f2 i ≤ n → i < chf.spans.length → ∃ k c, k < chf.spans.length ∧ chf.Reach i k c ∧ f2 i = f0 k + c := by
  intro n
  induction n with
  | zero =>
    intro i hn hi
    rcases hc.s2.real i hi with e | ⟨p, hp, e⟩
    · obtain ⟨k, c, h⟩ := hc.witness1 hwf _ i (Nat.le_refl _) hi
      exact ⟨k, c, h.1, h.2.1, by omega⟩
    · simp only [preds2, List.mem_append, mem_pairPreds] at hp
      rcases hp with (⟨_, e2⟩ | ⟨_, _, _, e2⟩) | (⟨_, e2⟩ | ⟨_, _, _, e2⟩) <;> omega
  | succ n ih =>
    intro i hn hi
    rcases hc.s2.real i hi with e | ⟨p, hp, e⟩
    · obtain ⟨k, c, h⟩ := hc.witness1 hwf _ i (Nat.le_refl _) hi
      exact ⟨k, c, h.1, h.2.1, by omega⟩
    · simp only [preds2, List.mem_append, mem_pairPreds] at hp
      rcases hp with (⟨h1, e2⟩ | ⟨a, h1, h2, e2⟩) | (⟨h1, e2⟩ | ⟨a, h1, h2, e2⟩)
      · obtain ⟨k, c, hk, hr, e3⟩ := ih p.1 (by omega) (nbr_lt hwf (by omega) h1).2
        exact ⟨k, c + 2, hk, .axis (by omega) ((nbr_iff_link hwf (by omega)).1 h1) hr, by omega⟩
      · obtain ⟨k, c, hk, hr, e3⟩ := ih p.1 (by omega) (nbr_lt hwf (by omega) h2).2
        exact ⟨k, c + 3, hk, .diag (d := 2) (d' := 1) (by omega) (by omega) (by omega) ((nbr_iff_link hwf (by omega)).1 h1)
          ((nbr_iff_link hwf (by omega)).1 h2) hr, by omega⟩
      · obtain ⟨k, c, hk, hr, e3⟩ := ih p.1 (by omega) (nbr_lt hwf (by omega) h1).2
        exact ⟨k, c + 2, hk, .axis (by omega) ((nbr_iff_link hwf (by omega)).1 h1) hr, by omega⟩
      · obtain ⟨k, c, hk, hr, e3⟩ := ih p.1 (by omega) (nbr_lt hwf (by omega) h2).2
        exact ⟨k, c + 3, hk, .diag (d := 1) (d' := 0) (by omega) (by omega) (by omega) ((nbr_iff_link hwf (by omega)).1 h1)
          ((nbr_iff_link hwf (by omega)).1 h2) hr, by omega⟩

end Chamfer

/-- Moves to any offset: up moves, then down moves, of total cost `octile dx dz`. -/
theorem moves_to (dx dz : Int) : ∃ us ds : List (List Nat × Nat), (∀ m ∈ us, m ∈ upMoves) ∧ (∀ m ∈ ds, m ∈ downMoves) ∧
    cost us + cost ds = octile dx dz ∧
    ((dirs us ++ dirs ds).map dirOffsetX).sum = dx ∧ ((dirs us ++ dirs ds).map dirOffsetZ).sum = dz := by
  have rep : ∀ (n : Nat) (m : List Nat × Nat), cost (List.replicate n m) = n * m.2 := by
    intro n m; simp [cost]
  have repd : ∀ (n : Nat) (m : List Nat × Nat) (g : Nat → Int),
      ((dirs (List.replicate n m)).map g).sum = n * (m.1.map g).sum := by
    intro n m g
    induction n with
    | zero => simp [dirs]
    | succ n ih =>
      simp only [dirs, List.replicate_succ, List.flatMap_cons, List.map_append, List.sum_append] at *
      rw [ih]; push_cast; rw [Int.add_mul]; omega
  have app : ∀ (a b : List (List Nat × Nat)), cost (a ++ b) = cost a + cost b := by
    intro a b; simp [cost]
  have appd : ∀ (a b : List (List Nat × Nat)), dirs (a ++ b) = dirs a ++ dirs b := by
    intro a b; simp [dirs]
  have mrep : ∀ (L : List (List Nat × Nat)) (n : Nat) (m : List Nat × Nat), m ∈ L → ∀ q ∈ List.replicate n m, q ∈ L := by
    intro L n m hm q hq; rw [List.eq_of_mem_replicate hq]; exact hm
  have mapp : ∀ (L : List (List Nat × Nat)) (a b : List (List Nat × Nat)), (∀ q ∈ a, q ∈ L) → (∀ q ∈ b, q ∈ L) → ∀ q ∈ a ++ b, q ∈ L := by
    intro L a b h1 h2 q hq
    rcases List.mem_append.1 hq with h | h
    · exact h1 q h
    · exact h2 q h
  -- number of diagonal and straight steps
  rcases Int.le_total 0 dx with hx | hx <;> rcases Int.le_total 0 dz with hz | hz
  · -- +x, +z
    rcases Int.le_total dz dx with h | h
    · refine ⟨List.replicate dz.toNat ([2, 1], 3) ++ List.replicate (dx - dz).toNat ([2], 2), [],
        mapp _ _ _ (mrep _ _ _ (by decide)) (mrep _ _ _ (by decide)), by simp, ?_, ?_, ?_⟩
      · rw [app, rep, rep]; simp only [cost, octile, List.map_nil, List.sum_nil]; omega
      · rw [appd]; simp only [List.map_append, List.sum_append, repd]; simp [dirs, dirOffsetX]; omega
      · rw [appd]; simp only [List.map_append, List.sum_append, repd]; simp [dirs, dirOffsetZ]; omega
    · refine ⟨List.replicate dx.toNat ([2, 1], 3) ++ List.replicate (dz - dx).toNat ([1], 2), [],
        mapp _ _ _ (mrep _ _ _ (by decide)) (mrep _ _ _ (by decide)), by simp, ?_, ?_, ?_⟩
      · rw [app, rep, rep]; simp only [cost, octile, List.map_nil, List.sum_nil]; omega
      · rw [appd]; simp only [List.map_append, List.sum_append, repd]; simp [dirs, dirOffsetX]; omega
      · rw [appd]; simp only [List.map_append, List.sum_append, repd]; simp [dirs, dirOffsetZ]; omega
  · -- +x, -z
    rcases Int.le_total (-dz) dx with h | h
    · refine ⟨List.replicate (dx + dz).toNat ([2], 2), List.replicate (-dz).toNat ([3, 2], 3),
        mrep _ _ _ (by decide), mrep _ _ _ (by decide), ?_, ?_, ?_⟩
      · rw [rep, rep]; simp only [octile]; omega
      · simp only [List.map_append, List.sum_append, repd]; simp [dirOffsetX]; omega
      · simp only [List.map_append, List.sum_append, repd]; simp [dirOffsetZ]; omega
    · refine ⟨[], List.replicate (-dz - dx).toNat ([3], 2) ++ List.replicate dx.toNat ([3, 2], 3), by simp,
        mapp _ _ _ (mrep _ _ _ (by decide)) (mrep _ _ _ (by decide)), ?_, ?_, ?_⟩
      · rw [app, rep, rep]; simp only [cost, octile, List.map_nil, List.sum_nil]; omega
      · rw [appd]; simp only [List.map_append, List.sum_append, repd]; simp [dirs, dirOffsetX]; omega
      · rw [appd]; simp only [List.map_append, List.sum_append, repd]; simp [dirs, dirOffsetZ]; omega
  · -- -x, +z
    rcases Int.le_total dz (-dx) with h | h
    · refine ⟨List.replicate dz.toNat ([1, 0], 3), List.replicate (-dx - dz).toNat ([0], 2),
        mrep _ _ _ (by decide), mrep _ _ _ (by decide), ?_, ?_, ?_⟩
      · rw [rep, rep]; simp only [octile]; omega
      · simp only [List.map_append, List.sum_append, repd]; simp [dirOffsetX]; omega
      · simp only [List.map_append, List.sum_append, repd]; simp [dirOffsetZ]; omega
    · refine ⟨List.replicate (dz + dx).toNat ([1], 2) ++ List.replicate (-dx).toNat ([1, 0], 3), [],
        mapp _ _ _ (mrep _ _ _ (by decide)) (mrep _ _ _ (by decide)), by simp, ?_, ?_, ?_⟩
      · rw [app, rep, rep]; simp only [cost, octile, List.map_nil, List.sum_nil]; omega
      · rw [appd]; simp only [List.map_append, List.sum_append, repd]; simp [dirs, dirOffsetX]; omega
      · rw [appd]; simp only [List.map_append, List.sum_append, repd]; simp [dirs, dirOffsetZ]; omega
  · -- -x, -z
    rcases Int.le_total (-dz) (-dx) with h | h
    · refine ⟨[], List.replicate (dz - dx).toNat ([0], 2) ++ List.replicate (-dz).toNat ([0, 3], 3), by simp,
        mapp _ _ _ (mrep _ _ _ (by decide)) (mrep _ _ _ (by decide)), ?_, ?_, ?_⟩
      · rw [app, rep, rep]; simp only [cost, octile, List.map_nil, List.sum_nil]; omega
      · rw [appd]; simp only [List.map_append, List.sum_append, repd]; simp [dirs, dirOffsetX]; omega
      · rw [appd]; simp only [List.map_append, List.sum_append, repd]; simp [dirs, dirOffsetZ]; omega
    · refine ⟨[], List.replicate (dx - dz).toNat ([3], 2) ++ List.replicate (-dx).toNat ([0, 3], 3), by simp,
        mapp _ _ _ (mrep _ _ _ (by decide)) (mrep _ _ _ (by decide)), ?_, ?_, ?_⟩
      · rw [app, rep, rep]; simp only [cost, octile, List.map_nil, List.sum_nil]; omega
      · rw [appd]; simp only [List.map_append, List.sum_append, repd]; simp [dirs, dirOffsetX]; omega
      · rw [appd]; simp only [List.map_append, List.sum_append, repd]; simp [dirs, dirOffsetZ]; omega

theorem path_offset {chf : CompactHeightfield} (hwf : chf.WellFormed) : ∀ {ds : List Nat} {i k : Nat}, (∀ d ∈ ds, d < 4) →
    chf.Path i ds k → (chf.xOf k : Int) = chf.xOf i + (ds.map dirOffsetX).sum ∧
      (chf.zOf k : Int) = chf.zOf i + (ds.map dirOffsetZ).sum
  | [], i, k, _, h => by simp only [Path] at h; subst h; simp
  | d :: ds, i, k, hd, h => by
    obtain ⟨j, h1, h2⟩ := h
    have hd4 : d < 4 := hd d (by simp)
    obtain ⟨e1, e2⟩ := path_offset hwf (fun d hd' => hd d (by simp [hd'])) h2
    have hn := nbr_col hwf hd4 ((nbr_iff_link hwf hd4).2 h1)
    have h4 : d = 0 ∨ d = 1 ∨ d = 2 ∨ d = 3 := by omega
    simp only [List.map_cons, List.sum_cons, e1, e2]
    rcases h4 with rfl | rfl | rfl | rfl <;> simp only [dirOffsetX, dirOffsetZ] <;> omega

end CompactHeightfield
end Rerecast
