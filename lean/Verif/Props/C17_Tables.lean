import Verif.Model.ButcherTables
import Verif.Props.C16_Butcher
import Verif.Props.C18_Orders

/-
C17: the shipped tables are well-formed.  The Feagin tables, whose entries are decimal expansions, are
in C57.
-/

namespace NB.C17

open Finset

/-- How many entries of row `i` the solver reads: the explicit loop reads `a[i][n]` for `n < i`
(/repo/nbody/nbody_solver_rk_butcher.cpp:144-147), the implicit one the whole row (119-122). -/
def rowReads {R : Type} (t : Tab R) (i : ℕ) : ℕ := if t.implicit then t.steps else i

/-- Every array access of the solver is inside its array. -/
def ReadsInside {R : Type} (t : Tab R) : Prop :=
  0 < t.steps ∧ t.steps ≤ t.rows.length ∧ t.steps ≤ t.b1.length ∧ t.steps ≤ t.b2.length ∧
  t.steps ≤ t.c.length ∧ ∀ i, i < t.steps → rowReads t i ≤ (t.rows.getD i []).length

/-- Weights sum to one, nodes are row sums. -/
def Consistent {R : Type} [CommRing R] (t : Tab R) : Prop :=
  (∑ i ∈ range t.steps, t.toBT.b1 i) = 1 ∧ (∑ i ∈ range t.steps, t.toBT.b2 i) = 1 ∧
  ∀ i, i < t.steps → t.toBT.c i = ∑ j ∈ range (rowReads t i), t.toBT.a i j

/-- An explicit table has no entry on or above the diagonal, and no zero row below the first. -/
def StrictlyLower {R : Type} [CommRing R] (t : Tab R) : Prop :=
  t.implicit = false → ∀ i, i < t.steps →
    (∀ n, n < (t.rows.getD i []).length → i ≤ n → t.toBT.a i n = 0) ∧
    (0 < i → ∃ j, j < i ∧ t.toBT.a i j ≠ 0)

/-- All of it. -/
def WellFormed {R : Type} [CommRing R] (t : Tab R) : Prop := ReadsInside t ∧ Consistent t ∧ StrictlyLower t

/-- What `ReadsInside` means for the accesses: a checked read of each entry succeeds and gives the value
used by the model of the solver. -/
theorem reads_ok {R : Type} [CommRing R] (t : Tab R) (h : ReadsInside t) (i : ℕ) (hi : i < t.steps) :
    rd t.b1 i = .ok (t.toBT.b1 i) ∧ rd t.b2 i = .ok (t.toBT.b2 i) ∧ rd t.c i = .ok (t.toBT.c i) ∧
    ∃ row, rd t.rows i = .ok row ∧ ∀ n, n < rowReads t i → rd row n = .ok (t.toBT.a i n) := by
  obtain ⟨_, h1, h2, h3, h4, h5⟩ := h
  have key : ∀ (l : List R) (m : ℕ), m < l.length → rd l m = .ok (l.getD m 0) := by
    intro l m hm
    simp [rd, List.getElem?_eq_getElem hm, List.getD_eq_getElem?_getD]
  refine ⟨key _ _ (by omega), key _ _ (by omega), key _ _ (by omega), t.rows.getD i [], ?_, ?_⟩
  · have : i < t.rows.length := by omega
    simp [rd, List.getElem?_eq_getElem this, List.getD_eq_getElem?_getD]
  · intro n hn
    exact key _ _ (lt_of_lt_of_le hn (h5 i hi))

section
variable (K : Type) [Field K] [CharZero K]

lemma map_wf (t : Tab ℚ) (h : WellFormed t) : WellFormed (t.map (Rat.cast : ℚ → K)) := by
  obtain ⟨⟨h0, h1, h2, h3, h4, h5⟩, ⟨c1, c2, c3⟩, hs⟩ := h
  have ea : ∀ i j, (t.map (Rat.cast : ℚ → K)).toBT.a i j = ((t.toBT.a i j : ℚ) : K) :=
    C18.map_toBT_a _ (by simp) t
  have eb1 : ∀ i, (t.map (Rat.cast : ℚ → K)).toBT.b1 i = ((t.toBT.b1 i : ℚ) : K) :=
    fun i => C18.getD_map (Rat.cast : ℚ → K) (by simp) _ i
  have eb2 : ∀ i, (t.map (Rat.cast : ℚ → K)).toBT.b2 i = ((t.toBT.b2 i : ℚ) : K) :=
    fun i => C18.getD_map (Rat.cast : ℚ → K) (by simp) _ i
  have ec : ∀ i, (t.map (Rat.cast : ℚ → K)).toBT.c i = ((t.toBT.c i : ℚ) : K) :=
    fun i => C18.getD_map (Rat.cast : ℚ → K) (by simp) _ i
  have er : ∀ i, rowReads (t.map (Rat.cast : ℚ → K)) i = rowReads t i := fun i => rfl
  have el : ∀ i, ((t.map (Rat.cast : ℚ → K)).rows.getD i []).length = (t.rows.getD i []).length := by
    intro i
    simp only [Tab.map, List.getD_eq_getElem?_getD, List.getElem?_map]
    cases t.rows[i]? <;> simp
  refine ⟨⟨h0, by simpa [Tab.map] using h1, by simpa [Tab.map] using h2, by simpa [Tab.map] using h3,
    by simpa [Tab.map] using h4, fun i hi => by rw [el, er]; exact h5 i hi⟩, ⟨?_, ?_, ?_⟩, ?_⟩
  · simp only [eb1, ← Rat.cast_sum]
    exact_mod_cast congrArg (Rat.cast : ℚ → K) c1
  · simp only [eb2, ← Rat.cast_sum]
    exact_mod_cast congrArg (Rat.cast : ℚ → K) c2
  · intro i hi
    simp only [ea, ec, ← Rat.cast_sum, er]
    exact congrArg (Rat.cast : ℚ → K) (c3 i hi)
  · intro himp i hi
    have := hs himp i hi
    refine ⟨fun n hn hin => ?_, fun h0 => ?_⟩
    · rw [el] at hn
      rw [ea, this.1 n hn hin, Rat.cast_zero]
    · obtain ⟨j, hj, hja⟩ := this.2 h0
      exact ⟨j, hj, by rw [ea]; exact_mod_cast hja⟩

instance (t : Tab ℚ) : Decidable (WellFormed t) := by
  unfold WellFormed ReadsInside Consistent StrictlyLower
  infer_instance

/-- **Well-formedness of the tables**, over any field of characteristic zero. -/
theorem rk4_wf : WellFormed (rk4Tab.map (Rat.cast : ℚ → K)) := map_wf K _ (by decide +kernel)
theorem rkck_wf : WellFormed (rkckTab.map (Rat.cast : ℚ → K)) := map_wf K _ (by decide +kernel)
theorem rkdp_wf : WellFormed (rkdpTab.map (Rat.cast : ℚ → K)) := map_wf K _ (by decide +kernel)
theorem rkdverk_wf : WellFormed (rkdverkTab.map (Rat.cast : ℚ → K)) := map_wf K _ (by decide +kernel)
theorem rkf_wf : WellFormed (rkfTab.map (Rat.cast : ℚ → K)) := map_wf K _ (by decide +kernel)
theorem rklc_wf : WellFormed (rklcTab.map (Rat.cast : ℚ → K)) := map_wf K _ (by decide +kernel)

/-- The same for the Gauss-Legendre table, whatever the value of `sqrt15`. -/
theorem rkgl_wf (q : K) : WellFormed (rkglTab K q) := by
  refine ⟨⟨by simp [rkglTab], by simp [rkglTab], by simp [rkglTab], by simp [rkglTab], by simp [rkglTab], ?_⟩,
    ⟨?_, ?_, ?_⟩, ?_⟩
  · intro i hi
    have hi' : i < 3 := hi
    interval_cases i <;> simp [rkglTab, rowReads]
  · simp [rkglTab, Tab.toBT, sum_range_succ]; norm_num
  · simp [rkglTab, Tab.toBT, sum_range_succ]; norm_num
  · intro i hi
    have hi' : i < 3 := hi
    interval_cases i <;> simp [rkglTab, Tab.toBT, rowReads, sum_range_succ] <;> ring
  · intro h; simp [rkglTab] at h

end

section
variable {V K : Type} [Field K] [LinearOrder K] [IsStrictOrderedRing K] [AddCommGroup V] [Module K V]

/-- With well-formedness, the hypothesis of C16 on the rows is discharged for every explicit table: an
unsubdivided `advise` of the solver is one step of the scheme `(a, b2, c)`. -/
theorem rk_table_step (t : Tab K) (hwf : WellFormed t) (hi : t.implicit = false) (F : ℕ → K → V → V)
    (nrm : V → K) (cf : RKConf K) (dt : K) (r : RKState V) (e : Eng V K)
    (hs : cf.maxRecursion = 0) (hc : cf.correction = true → r.ycorr = 0) :
    Spec.ERKStep F e.cc t.steps t.toBT.a t.toBT.b2 t.toBT.c e.time dt e.y
      (rkAdvise F nrm t.toBT cf dt r e).2.y :=
  (C16.rk_explicit_step F nrm t.toBT cf dt r e hi (fun i h0 hi' => (hwf.2.2 hi i hi').2 h0) (Or.inl hs) hc).1

/-- Concrete case: the thirteen-stage Fehlberg table. -/
example (F : ℕ → ℝ → ℝ → ℝ) (e : Eng ℝ ℝ) :
    Spec.ERKStep F e.cc 13 (rkfTab.map (Rat.cast : ℚ → ℝ)).toBT.a (rkfTab.map (Rat.cast : ℚ → ℝ)).toBT.b2
      (rkfTab.map (Rat.cast : ℚ → ℝ)).toBT.c e.time 1 e.y
      (rkAdvise F abs (rkfTab.map (Rat.cast : ℚ → ℝ)).toBT ⟨0, 8, 1, 1, false, 0⟩ 1 RKState.new e).2.y :=
  rk_table_step _ (rkf_wf ℝ) rfl F abs _ 1 _ e rfl (by simp)

end

end NB.C17
