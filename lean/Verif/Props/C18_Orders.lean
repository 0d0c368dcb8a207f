import Verif.Lemmas.OrderCheck
import Mathlib.Algebra.QuadraticAlgebra.Basic
import Mathlib.Data.Rat.Cast.CharZero
import Mathlib.Algebra.Algebra.Rat
import Mathlib.Tactic.NormNum
import Mathlib.Tactic.FieldSimp
import Mathlib.Tactic.Ring
import Mathlib.Tactic.LinearCombination
import Mathlib.Analysis.Real.Sqrt

/-
C18: orders of the Runge-Kutta solvers.  `rk_butcher` advances the state with the weights `b2`
(C16, `rk_explicit_step`), so the order of a solver is that of `(a, b2)`.
-/

namespace NB.C18

open Spec

section
variable (K : Type) [Field K] [CharZero K]

/-- A table of rationals as the solver over `K` sees it. -/
abbrev bt (t : Tab ℚ) : BT K := (t.map (Rat.cast : ℚ → K)).toBT

omit [CharZero K] in
lemma getD_map {R S : Type} [Zero R] [Zero S] (f : R → S) (h0 : f 0 = 0) (l : List R) (i : ℕ) :
    (l.map f).getD i 0 = f (l.getD i 0) := by
  simp only [List.getD_eq_getElem?_getD, List.getElem?_map]
  cases l[i]? <;> simp [h0]

omit [CharZero K] in
lemma map_toBT_a {R S : Type} [Zero R] [Zero S] (f : R → S) (h0 : f 0 = 0) (t : Tab R) (i j : ℕ) :
    (t.map f).toBT.a i j = f (t.toBT.a i j) := by
  simp only [Tab.toBT, Tab.map]
  rw [← getD_map f h0]
  congr 1
  simp only [List.getD_eq_getElem?_getD, List.getElem?_map]
  cases t.rows[i]? <;> rfl

/-- What the decision procedure gives for a table. -/
lemma order_b2 {R : Type} [CommRing R] [DecidableEq R] (f : R →+* K) (t : Tab R) (p : ℕ)
    (hA : t.rows.length = t.steps) (h : checkOrder t.rows (List.replicate t.steps 1) t.b2 p = true) :
    HasOrder t.steps (t.map f).toBT.a (t.map f).toBT.b2 p := by
  have := checkOrder_sound f t.rows t.b2 t.steps p hA h
  intro τ hτ
  have h2 := this τ hτ
  have ea : (t.map f).toBT.a = fun i j => f (rowsA t.rows i j) := by
    funext i j; rw [map_toBT_a f (map_zero f)]; rfl
  have eb : (t.map f).toBT.b2 = fun i => f (t.b2.getD i 0) := by
    funext i; exact getD_map f (map_zero f) _ _
  rw [ea, eb]; exact h2

lemma order_b1 {R : Type} [CommRing R] [DecidableEq R] (f : R →+* K) (t : Tab R) (p : ℕ)
    (hA : t.rows.length = t.steps) (h : checkOrder t.rows (List.replicate t.steps 1) t.b1 p = true) :
    HasOrder t.steps (t.map f).toBT.a (t.map f).toBT.b1 p :=
  order_b2 K f { t with b2 := t.b1 } p hA h

/-- A failing tree over the rationals fails over `K`. -/
lemma fails (t : Tab ℚ) (τ : RTree)
    (h : ∑ i ∈ Finset.range t.steps, t.toBT.b2 i * τ.phi t.steps t.toBT.a i ≠ 1 / (τ.gamma : ℚ)) :
    ¬ OrderCond t.steps (bt K t).a (bt K t).b2 τ := by
  intro hc
  unfold OrderCond at hc
  apply h
  have ea : (bt K t).a = fun i j => (Rat.castHom K) (t.toBT.a i j) := by
    funext i j; exact map_toBT_a (Rat.cast : ℚ → K) (by simp) t i j
  have eb : (bt K t).b2 = fun i => (Rat.castHom K) (t.toBT.b2 i) := by
    funext i; exact getD_map (Rat.cast : ℚ → K) (by simp) _ _
  rw [ea, eb] at hc
  apply (Rat.castHom K).injective
  rw [map_sum]
  simp only [map_mul, map_phi, map_div₀, map_one, map_natCast]
  exact hc

/-! ### Solvers with the documented order -/

/-- **rk4 has order 4** (README.md:19). -/
theorem rk4_order : HasOrder 4 (bt K rk4Tab).a (bt K rk4Tab).b2 4 :=
  order_b2 K (Rat.castHom K) rk4Tab 4 rfl (by decide +kernel)

/-- **rkdverk has order 5** (README.md:23). -/
theorem rkdverk_order : HasOrder 8 (bt K rkdverkTab).a (bt K rkdverkTab).b2 5 :=
  order_b2 K (Rat.castHom K) rkdverkTab 5 rfl (by decide +kernel)

/-- **rkf has order 8**, more than the documented 7 (README.md:24). -/
theorem rkf_order : HasOrder 13 (bt K rkfTab).a (bt K rkfTab).b2 8 :=
  order_b2 K (Rat.castHom K) rkfTab 8 rfl (by decide +kernel)

/-! ### Solvers whose order differs from the documented one -/

/-- The bush with `n` leaves. -/
def bush (n : ℕ) : RTree := .node (List.replicate n (.node []))

/-- **rkck advances with order 4** ... -/
theorem rkck_order_partial : HasOrder 6 (bt K rkckTab).a (bt K rkckTab).b2 4 :=
  order_b2 K (Rat.castHom K) rkckTab 4 rfl (by decide +kernel)

/-- ... **and not with the documented order 5** (README.md:21): the condition of the tree with four
leaves fails. -/
theorem rkck_violates : ¬ HasOrder 6 (bt K rkckTab).a (bt K rkckTab).b2 5 :=
  fun h => fails K rkckTab (bush 4) (by decide +kernel) (h (bush 4) (by decide))

/-- The other row of weights of the rkck table, used only for the error estimate, has order 5. -/
theorem rkck_order_b1 : HasOrder 6 (bt K rkckTab).a (bt K rkckTab).b1 5 :=
  order_b1 K (Rat.castHom K) rkckTab 5 rfl (by decide +kernel)

/-- **rkdp advances with order 4** ... -/
theorem rkdp_order_partial : HasOrder 7 (bt K rkdpTab).a (bt K rkdpTab).b2 4 :=
  order_b2 K (Rat.castHom K) rkdpTab 4 rfl (by decide +kernel)

/-- ... **and not with the documented order 5** (README.md:22). -/
theorem rkdp_violates : ¬ HasOrder 7 (bt K rkdpTab).a (bt K rkdpTab).b2 5 :=
  fun h => fails K rkdpTab (bush 4) (by decide +kernel) (h (bush 4) (by decide))

/-- The other row of weights of the rkdp table has order 5. -/
theorem rkdp_order_b1 : HasOrder 7 (bt K rkdpTab).a (bt K rkdpTab).b1 5 :=
  order_b1 K (Rat.castHom K) rkdpTab 5 rfl (by decide +kernel)

/-- **rklc advances with weights of order 2** ... -/
theorem rklc_order_partial : HasOrder 3 (bt K rklcTab).a (bt K rklcTab).b2 2 :=
  order_b2 K (Rat.castHom K) rklcTab 2 rfl (by decide +kernel)

/-- ... **not even 3**, while 4 is documented (README.md:29). -/
theorem rklc_violates : ¬ HasOrder 3 (bt K rklcTab).a (bt K rklcTab).b2 3 :=
  fun h => fails K rklcTab (bush 2) (by decide +kernel) (h (bush 2) (by decide))

/-- The other row of weights of the rklc table has order 4. -/
theorem rklc_order_b1 : HasOrder 3 (bt K rklcTab).a (bt K rklcTab).b1 4 :=
  order_b1 K (Rat.castHom K) rklcTab 4 rfl (by decide +kernel)

/-! ### Gauss-Legendre -/

/-- The `rkgl` table over the rationals with a formal square root of 15. -/
def rkglQ : Tab (QuadraticAlgebra ℚ 15 0) where
  steps := 3
  rows := [
    [⟨5/36, 0⟩, ⟨2/9, -1/15⟩, ⟨5/36, -1/30⟩],
    [⟨5/36, 1/24⟩, ⟨2/9, 0⟩, ⟨5/36, -1/24⟩],
    [⟨5/36, 1/30⟩, ⟨2/9, 1/15⟩, ⟨5/36, 0⟩]]
  b1 := [⟨5/18, 0⟩, ⟨4/9, 0⟩, ⟨5/18, 0⟩]
  b2 := [⟨-5/6, 0⟩, ⟨8/3, 0⟩, ⟨-5/6, 0⟩]
  c := [⟨1/2, -1/10⟩, ⟨1/2, 0⟩, ⟨1/2, 1/10⟩]
  implicit := true
  embedded := false

/-- The homomorphism sending the formal root to `q`. -/
noncomputable def hom15 (q : K) (hq : q ^ 2 = 15) : QuadraticAlgebra ℚ 15 0 →+* K :=
  (QuadraticAlgebra.lift (R := ℚ) (a := 15) (b := 0) (A := K)
    ⟨q, by rw [← pow_two, hq]; simp [Algebra.smul_def]⟩).toRingHom

lemma hom15_mk (q : K) (hq : q ^ 2 = 15) (x y : ℚ) : hom15 K q hq ⟨x, y⟩ = (x : K) + y * q := by
  simp [hom15, QuadraticAlgebra.lift, Algebra.smul_def]

lemma rkgl_map (q : K) (hq : q ^ 2 = 15) : rkglQ.map (hom15 K q hq) = rkglTab K q := by
  simp only [Tab.map, rkglQ, rkglTab, List.map, hom15_mk]
  congr 1 <;> simp <;> (try ring_nf) <;> (try simp)

/-- **rkgl advances with weights of order 2** ... -/
theorem rkgl_order_partial (q : K) (hq : q ^ 2 = 15) :
    HasOrder 3 (rkglTab K q).toBT.a (rkglTab K q).toBT.b2 2 := by
  rw [← rkgl_map K q hq]
  exact order_b2 K (hom15 K q hq) rkglQ 2 rfl (by decide +kernel)

/-- ... **not even 3**, while 6 is documented (README.md:28). -/
theorem rkgl_violates (q : K) (hq : q ^ 2 = 15) :
    ¬ HasOrder 3 (rkglTab K q).toBT.a (rkglTab K q).toBT.b2 3 := by
  intro h
  have h2 := h (bush 2) (by decide)
  simp only [OrderCond, bush, List.replicate, RTree.phi, RTree.phis, RTree.gamma, RTree.gammas, RTree.orders,
    RTree.order, Tab.toBT, rkglTab, Finset.sum_range_succ, Finset.range_zero, Finset.sum_empty] at h2
  simp at h2
  have : (0 : K) = 1 / 3 := by
    have e : ∀ q : K, q ^ 2 = 15 → (-5 / 6 : K) * ((1 / 2 - q / 10) * (1 / 2 - q / 10)) + 8 / 3 * (1 / 2 * (1 / 2))
      + -5 / 6 * ((1 / 2 + q / 10) * (1 / 2 + q / 10)) = 0 := by
      intro q hq
      linear_combination (-1 / 60 : K) * hq
    rw [← e q hq]
    linear_combination h2
  norm_num at this

/-- The other row of weights of the rkgl table has the documented order 6. -/
theorem rkgl_order_b1 (q : K) (hq : q ^ 2 = 15) :
    HasOrder 3 (rkglTab K q).toBT.a (rkglTab K q).toBT.b1 6 := by
  rw [← rkgl_map K q hq]
  exact order_b1 K (hom15 K q hq) rkglQ 6 rfl (by decide +kernel)

end

/-- The hypotheses on `q` are met by the real square root. -/
example : HasOrder 3 (rkglTab ℝ (Real.sqrt 15)).toBT.a (rkglTab ℝ (Real.sqrt 15)).toBT.b1 6 :=
  rkgl_order_b1 ℝ _ (Real.sq_sqrt (by norm_num))

/-- There are trees of every order, so that the order statements are about something: the bush with
three leaves and the chain of length four have order 4 and different densities. -/
example : (bush 3).order = 4 ∧ (bush 3).gamma = 4 ∧
    (RTree.node [.node [.node [.node []]]]).order = 4 ∧
    (RTree.node [.node [.node [.node []]]]).gamma = 24 := by decide

end NB.C18
