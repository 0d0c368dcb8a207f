import Verif.Lemmas.Feagin10
import Verif.Lemmas.Feagin12
import Verif.Lemmas.Feagin14
import Verif.Spec.OrderWithin
import Verif.Props.C17_Tables
import Mathlib.Data.Rat.Cast.Order

/-
C57: the Feagin tables.  Their entries are decimal expansions with about 60 digits, so nothing holds exactly; everything holds
within a tolerance close to the printed precision.
-/

namespace NB.C57

open Spec Finset

/-- The rows lie one after the other in `data` and exhaust it, so that no row is shifted. -/
def RowsFit {R : Type} (steps : ℕ) (data : List R) : Prop :=
  (∀ i, i < steps → triangleOffset i + i ≤ data.length) ∧
  (∀ i, i < steps - 1 → 0 < i → triangleOffset (i + 1) = triangleOffset i + i) ∧
  triangleOffset (steps - 1) + (steps - 1) = data.length

/-- Weights sum to one and nodes are row sums, within `ε`. -/
def ConsistentWithin {K : Type} [Field K] [LinearOrder K] (ε : K) (t : Tab K) : Prop :=
  |(∑ i ∈ range t.steps, t.toBT.b1 i) - 1| ≤ ε ∧ |(∑ i ∈ range t.steps, t.toBT.b2 i) - 1| ≤ ε ∧
  ∀ i, i < t.steps → |t.toBT.c i - ∑ j ∈ range (C17.rowReads t i), t.toBT.a i j| ≤ ε

instance (t : Tab ℚ) : Decidable (C17.ReadsInside t) := by unfold C17.ReadsInside; infer_instance

instance (t : Tab ℚ) : Decidable (C17.StrictlyLower t) := by unfold C17.StrictlyLower; infer_instance

instance (ε : ℚ) (t : Tab ℚ) : Decidable (ConsistentWithin ε t) := by unfold ConsistentWithin; infer_instance

instance {R : Type} (s : ℕ) (d : List R) : Decidable (RowsFit s d) := by
  unfold RowsFit; infer_instance

/-! ### The tables are complete -/

/-- **The rows of the three triangles fit their arrays of coefficients.** -/
theorem rows_fit : RowsFit 17 feagin10Data ∧ RowsFit 25 feagin12Data ∧ RowsFit 35 feagin14Data := by
  refine ⟨?_, ?_, ?_⟩ <;> decide +kernel

/-- Every coefficient that the solver reads through the pointers is the coefficient at that place of `data`. -/
theorem row_entry {R : Type} (steps : ℕ) (data : List R) (h : RowsFit steps data) (i n : ℕ) (hi : i < steps) (hn : n < i) :
    ∃ row, rd (triangle steps data) i = .ok row ∧ rd row n = rd data (triangleOffset i + n) ∧
      triangleOffset i + n < data.length := by
  have hl := h.1 i hi
  refine ⟨(data.drop (triangleOffset i)).take i, ?_, ?_, by omega⟩
  · simp [rd, triangle, hi]
  · simp [rd, hn, List.getElem?_drop]

/-- **All reads of the solver are inside the arrays.** -/
theorem reads_inside : C17.ReadsInside feagin10Tab ∧ C17.ReadsInside feagin12Tab ∧ C17.ReadsInside feagin14Tab := by
  refine ⟨?_, ?_, ?_⟩ <;> decide +kernel

/-- **The tables are explicit, without empty rows.** -/
theorem strictly_lower : C17.StrictlyLower feagin10Tab ∧ C17.StrictlyLower feagin12Tab ∧ C17.StrictlyLower feagin14Tab := by
  refine ⟨?_, ?_, ?_⟩ <;> decide +kernel

section
variable (K : Type) [Field K] [LinearOrder K] [IsStrictOrderedRing K]

lemma cast_consistent {ε : ℚ} {t : Tab ℚ} (h : ConsistentWithin ε t) :
    ConsistentWithin (ε : K) (t.map (Rat.cast : ℚ → K)) := by
  have ea : ∀ i j, (t.map (Rat.cast : ℚ → K)).toBT.a i j = ((t.toBT.a i j : ℚ) : K) :=
    C18.map_toBT_a _ (by simp) t
  have eb1 : ∀ i, (t.map (Rat.cast : ℚ → K)).toBT.b1 i = ((t.toBT.b1 i : ℚ) : K) :=
    fun i => C18.getD_map (Rat.cast : ℚ → K) (by simp) _ i
  have eb2 : ∀ i, (t.map (Rat.cast : ℚ → K)).toBT.b2 i = ((t.toBT.b2 i : ℚ) : K) :=
    fun i => C18.getD_map (Rat.cast : ℚ → K) (by simp) _ i
  have ec : ∀ i, (t.map (Rat.cast : ℚ → K)).toBT.c i = ((t.toBT.c i : ℚ) : K) :=
    fun i => C18.getD_map (Rat.cast : ℚ → K) (by simp) _ i
  obtain ⟨h1, h2, h3⟩ := h
  refine ⟨?_, ?_, fun i hi => ?_⟩
  · simp only [eb1]
    exact_mod_cast h1
  · simp only [eb2]
    exact_mod_cast h2
  · simp only [ea, ec]
    exact_mod_cast h3 i hi

/-- **Weights sum to one and nodes are row sums**, up to the rounding of the printed digits. -/
theorem consistent : ConsistentWithin (((1 / 10 ^ 55 : ℚ)) : K) (feagin10Tab.map (Rat.cast : ℚ → K)) ∧
    ConsistentWithin (((1 / 10 ^ 55 : ℚ)) : K) (feagin12Tab.map (Rat.cast : ℚ → K)) ∧
    ConsistentWithin (((1 / 10 ^ 55 : ℚ)) : K) (feagin14Tab.map (Rat.cast : ℚ → K)) :=
  ⟨cast_consistent K (by decide +kernel), cast_consistent K (by decide +kernel), cast_consistent K (by decide +kernel)⟩

/-! ### The documented orders (README.md:25-27) -/

omit [IsStrictOrderedRing K] in
lemma within_b2 {ε : K} {p : ℕ} (t : Tab ℚ) (h : ∀ τ : RTree, τ.order ≤ p → |∑ i ∈ range t.steps, ((t.b2.getD i 0 : ℚ) : K) *
      τ.phi t.steps (fun i j => ((rowsA t.rows i j : ℚ) : K)) i - 1 / (τ.gamma : K)| ≤ ε) :
    HasOrderWithin ε t.steps (C18.bt K t).a (C18.bt K t).b2 p := by
  have ea : (C18.bt K t).a = fun i j => ((rowsA t.rows i j : ℚ) : K) := by
    funext i j; exact C18.map_toBT_a (Rat.cast : ℚ → K) (by simp) t i j
  have eb : (C18.bt K t).b2 = fun i => ((t.b2.getD i 0 : ℚ) : K) := by
    funext i; exact C18.getD_map (Rat.cast : ℚ → K) (by simp) _ _
  intro τ hτ
  rw [ea, eb]
  exact h τ hτ

omit [IsStrictOrderedRing K] in
lemma within_b1 {ε : K} {p : ℕ} (t : Tab ℚ) (h : ∀ τ : RTree, τ.order ≤ p → |∑ i ∈ range t.steps, ((t.b1.getD i 0 : ℚ) : K) *
      τ.phi t.steps (fun i j => ((rowsA t.rows i j : ℚ) : K)) i - 1 / (τ.gamma : K)| ≤ ε) :
    HasOrderWithin ε t.steps (C18.bt K t).a (C18.bt K t).b1 p :=
  within_b2 K { t with b2 := t.b1 } h

omit [LinearOrder K] [IsStrictOrderedRing K] in
lemma inv_cast (P : OA.Par) (h : P.N = Nat.pow 10 56) : (1 : K) / (P.N : K) = 1 / 10 ^ 56 := by
  rw [h]
  have : ((Nat.pow 10 56 : ℕ) : K) = 10 ^ 56 := Nat.cast_pow 10 56
  rw [this]

/-- **rkfeagin10 has order 10**: all order conditions hold within `10⁻⁵⁶`. -/
theorem feagin10_order : HasOrderWithin (1 / 10 ^ 56 : K) 17 (C18.bt K feagin10Tab).a (C18.bt K feagin10Tab).b2 10 := by
  refine within_b2 K feagin10Tab fun τ hτ => ?_
  rw [← inv_cast K OA.par10 rfl]
  exact OA.par10.within (21 * Nat.pow 10 61) (2 * Nat.pow 10 61) (by decide +kernel) (by decide +kernel) (by decide +kernel) OA.bounded10
    OA.modulus10 OA.pass10 τ hτ

/-- **rkfeagin12 has order 12.** -/
theorem feagin12_order : HasOrderWithin (1 / 10 ^ 56 : K) 25 (C18.bt K feagin12Tab).a (C18.bt K feagin12Tab).b2 12 := by
  refine within_b2 K feagin12Tab fun τ hτ => ?_
  rw [← inv_cast K OA.par12 rfl]
  exact OA.par12.within (42 * Nat.pow 10 65) (2 * Nat.pow 10 65) (by decide +kernel) (by decide +kernel) (by decide +kernel) OA.bounded12
    OA.modulus12 OA.pass12 τ hτ

/-- **rkfeagin14 has order 14.** -/
theorem feagin14_order : HasOrderWithin (1 / 10 ^ 56 : K) 35 (C18.bt K feagin14Tab).a (C18.bt K feagin14Tab).b2 14 := by
  refine within_b2 K feagin14Tab fun τ hτ => ?_
  rw [← inv_cast K OA.par14 rfl]
  exact OA.par14.within (5107 * Nat.pow 10 66) (2 * Nat.pow 10 66) (by decide +kernel) (by decide +kernel) (by decide +kernel) OA.bounded14
    OA.modulus14 OA.pass14 τ hτ

/-- **The embedded weights** have orders 8, 10 and 12, so that the difference of the two results is an estimate of the error. -/
theorem embedded_orders :
    HasOrderWithin (1 / 10 ^ 56 : K) 17 (C18.bt K feagin10Tab).a (C18.bt K feagin10Tab).b1 8 ∧
    HasOrderWithin (1 / 10 ^ 56 : K) 25 (C18.bt K feagin12Tab).a (C18.bt K feagin12Tab).b1 10 ∧
    HasOrderWithin (1 / 10 ^ 56 : K) 35 (C18.bt K feagin14Tab).a (C18.bt K feagin14Tab).b1 12 := by
  refine ⟨within_b1 K feagin10Tab fun τ hτ => ?_, within_b1 K feagin12Tab fun τ hτ => ?_,
    within_b1 K feagin14Tab fun τ hτ => ?_⟩
  · rw [← inv_cast K OA.par10 rfl]
    exact OA.par10.within (21 * Nat.pow 10 61) (2 * Nat.pow 10 61) (by decide +kernel) (by decide +kernel) (by decide +kernel)
      OA.bounded10' OA.modulus10' OA.pass10' τ hτ
  · rw [← inv_cast K OA.par12 rfl]
    exact OA.par12.within (42 * Nat.pow 10 65) (2 * Nat.pow 10 65) (by decide +kernel) (by decide +kernel) (by decide +kernel)
      OA.bounded12' OA.modulus12' OA.pass12' τ hτ
  · rw [← inv_cast K OA.par14 rfl]
    exact OA.par14.within (5107 * Nat.pow 10 66) (2 * Nat.pow 10 66) (by decide +kernel) (by decide +kernel) (by decide +kernel)
      OA.bounded14' OA.modulus14' OA.pass14' τ hτ

/-! ### and no more -/

/-- The tree without branches. -/
def tall : ℕ → RTree
  | 0 => .node []
  | n + 1 => .node [tall n]

lemma not_within {ε : ℚ} {p : ℕ} (t : Tab ℚ) (τ : RTree) (hτ : τ.order ≤ p)
    (h : ε < |∑ i ∈ range t.steps, t.toBT.b2 i * τ.phi t.steps t.toBT.a i - 1 / (τ.gamma : ℚ)|) :
    ¬ HasOrderWithin (ε : K) t.steps (C18.bt K t).a (C18.bt K t).b2 p := by
  intro hc
  have hc := hc τ hτ
  have ea : (C18.bt K t).a = fun i j => (Rat.castHom K) (t.toBT.a i j) := by
    funext i j; exact C18.map_toBT_a (Rat.cast : ℚ → K) (by simp) t i j
  have eb : (C18.bt K t).b2 = fun i => (Rat.castHom K) (t.toBT.b2 i) := by
    funext i; exact C18.getD_map (Rat.cast : ℚ → K) (by simp) _ _
  rw [ea, eb] at hc
  have e : (∑ i ∈ range t.steps, (Rat.castHom K) (t.toBT.b2 i) * τ.phi t.steps (fun i j => (Rat.castHom K) (t.toBT.a i j)) i
      - 1 / (τ.gamma : K)) = ((∑ i ∈ range t.steps, t.toBT.b2 i * τ.phi t.steps t.toBT.a i - 1 / (τ.gamma : ℚ) : ℚ) : K) := by
    change _ = (Rat.castHom K) _
    rw [map_sub, map_sum]
    simp only [map_mul, map_phi, map_div₀, map_one, map_natCast]
  rw [e, ← Rat.cast_abs, Rat.cast_le] at hc
  exact absurd hc (not_le.2 h)

/-- **The orders are exact**: at the next order some condition is missed by more than `10⁻⁹`. -/
theorem exact_orders :
    ¬ HasOrderWithin ((1 / 10 ^ 9 : ℚ) : K) 17 (C18.bt K feagin10Tab).a (C18.bt K feagin10Tab).b2 11 ∧
    ¬ HasOrderWithin ((1 / 10 ^ 9 : ℚ) : K) 25 (C18.bt K feagin12Tab).a (C18.bt K feagin12Tab).b2 13 ∧
    ¬ HasOrderWithin ((1 / 10 ^ 9 : ℚ) : K) 35 (C18.bt K feagin14Tab).a (C18.bt K feagin14Tab).b2 15 :=
  ⟨not_within K feagin10Tab (C18.bush 10) (by decide) (by decide +kernel),
    not_within K feagin12Tab (C18.bush 12) (by decide) (by decide +kernel),
    not_within K feagin14Tab (C18.bush 14) (by decide) (by decide +kernel)⟩

/-- The embedded weights are of lower order, so that the estimate of the error does not vanish identically. -/
theorem exact_embedded :
    ¬ HasOrderWithin ((1 / 10 ^ 10 : ℚ) : K) 17 (C18.bt K feagin10Tab).a (C18.bt K feagin10Tab).b1 9 ∧
    ¬ HasOrderWithin ((1 / 10 ^ 10 : ℚ) : K) 25 (C18.bt K feagin12Tab).a (C18.bt K feagin12Tab).b1 11 ∧
    ¬ HasOrderWithin ((1 / 10 ^ 10 : ℚ) : K) 35 (C18.bt K feagin14Tab).a (C18.bt K feagin14Tab).b1 13 :=
  ⟨not_within K { feagin10Tab with b2 := feagin10Tab.b1 } (tall 8) (by decide) (by decide +kernel),
    not_within K { feagin12Tab with b2 := feagin12Tab.b1 } (tall 10) (by decide) (by decide +kernel),
    not_within K { feagin14Tab with b2 := feagin14Tab.b1 } (tall 12) (by decide) (by decide +kernel)⟩

/-- The trees that the orders are about exist: the bush with 13 leaves has 14 vertices. -/
example : (C18.bush 13).order ≤ 14 ∧ (C18.bush 13).gamma = 14 ∧ (tall 13).order = 14 := by decide

/-! ### The solvers advance with these tables -/

/-- **An unsubdivided `advise` of a Feagin solver is one step of its scheme.** -/
theorem feagin_step {V : Type} [AddCommGroup V] [Module K V] (t : Tab ℚ)
    (ht : t = feagin10Tab ∨ t = feagin12Tab ∨ t = feagin14Tab) (F : ℕ → K → V → V) (nrm : V → K) (cf : RKConf K) (dt : K)
    (r : RKState V) (e : Eng V K) (hs : cf.maxRecursion = 0) (hc : cf.correction = true → r.ycorr = 0) :
    ERKStep F e.cc t.steps (C18.bt K t).a (C18.bt K t).b2 (C18.bt K t).c e.time dt e.y
      (rkAdvise F nrm (C18.bt K t) cf dt r e).2.y := by
  have hl : t.implicit = false ∧ C17.StrictlyLower t := by
    rcases ht with rfl | rfl | rfl
    · exact ⟨rfl, strictly_lower.1⟩
    · exact ⟨rfl, strictly_lower.2.1⟩
    · exact ⟨rfl, strictly_lower.2.2⟩
  refine (C16.rk_explicit_step F nrm (C18.bt K t) cf dt r e hl.1 (fun i h0 hi => ?_) (Or.inl hs) hc).1
  obtain ⟨j, hj, hja⟩ := (hl.2 hl.1 i hi).2 h0
  refine ⟨j, hj, ?_⟩
  rw [C18.map_toBT_a (Rat.cast : ℚ → K) (by simp) t i j]
  exact_mod_cast hja

end

end NB.C57
