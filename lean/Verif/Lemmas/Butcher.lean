import Verif.Spec.RungeKutta
import Mathlib.Analysis.Normed.Module.Multilinear.Basic
import Mathlib.Analysis.Asymptotics.Lemmas
import Mathlib.Tactic.Lemma
import Mathlib.Tactic.Linarith
import Mathlib.Tactic.Positivity
import Mathlib.Tactic.Ring
import Mathlib.Tactic.Module
import Mathlib.Tactic.GCongr

/-
Butcher's theorem.  The values of a smooth function along a series over rooted trees are a series over rooted trees.
Children are kept in lists, so that no symmetry coefficients occur.
-/

namespace NB

open Finset Asymptotics Filter Topology
open Spec (RTree)

/-! ### Trees -/

lemma orders_eq (ts : List RTree) : RTree.orders ts = (ts.map RTree.order).sum := by
  induction ts with
  | nil => rfl
  | cons t ts ih => rw [RTree.orders, ih]; rfl

lemma gammas_eq (ts : List RTree) : RTree.gammas ts = (ts.map RTree.gamma).prod := by
  induction ts with
  | nil => rfl
  | cons t ts ih => rw [RTree.gammas, ih]; rfl

lemma phis_eq (s : ℕ) (a : ℕ → ℕ → ℝ) (i : ℕ) (ts : List RTree) :
    RTree.phis s a ts i = (ts.map fun t => ∑ j ∈ range s, a i j * RTree.phi s a t j).prod := by
  induction ts with
  | nil => rfl
  | cons t ts ih => rw [RTree.phis, ih]; rfl

lemma one_le_order (t : RTree) : 1 ≤ t.order := by
  cases t with
  | node ts => rw [RTree.order]; omega

lemma length_le_orders (ts : List RTree) : ts.length ≤ RTree.orders ts := by
  induction ts with
  | nil => exact Nat.zero_le _
  | cons t ts ih => rw [RTree.orders, List.length_cons]; have := one_le_order t; omega

lemma order_le_orders {ts : List RTree} {t : RTree} (h : t ∈ ts) : t.order ≤ RTree.orders ts := by
  rw [orders_eq]
  exact List.single_le_sum (fun _ _ => Nat.zero_le _) _ (List.mem_map_of_mem h)

open Classical in
/-- The trees with at most so many vertices. -/
noncomputable def treesUpTo : ℕ → Finset RTree
  | 0 => ∅
  | p + 1 => (range (p + 1)).biUnion fun m =>
      ((Fintype.piFinset fun _ : Fin m => treesUpTo p).filter fun r => ∑ i, (r i).order ≤ p).image
        fun r => RTree.node (List.ofFn r)

lemma order_node_ofFn {m : ℕ} (r : Fin m → RTree) : (RTree.node (List.ofFn r)).order = ∑ i, (r i).order + 1 := by
  rw [RTree.order, orders_eq, List.map_ofFn, List.sum_ofFn]
  rfl

lemma mem_treesUpTo {p : ℕ} {τ : RTree} : τ ∈ treesUpTo p ↔ τ.order ≤ p := by
  classical
  induction p generalizing τ with
  | zero =>
    have := one_le_order τ
    simp only [treesUpTo, notMem_empty, false_iff]
    omega
  | succ p ih =>
    simp only [treesUpTo, mem_biUnion, mem_range, mem_image, mem_filter, Fintype.mem_piFinset]
    constructor
    · rintro ⟨m, -, r, ⟨-, h⟩, rfl⟩
      rw [order_node_ofFn]
      omega
    · intro h
      cases τ with
      | node ts =>
        rw [RTree.order] at h
        have h1 := length_le_orders ts
        refine ⟨ts.length, by omega, ts.get, ⟨fun i => ih.2 ?_, ?_⟩, by rw [List.ofFn_get]⟩
        · have := order_le_orders (List.get_mem ts i)
          omega
        · have := order_node_ofFn ts.get
          rw [List.ofFn_get, RTree.order] at this
          omega

/-- A sum over trees, by the children of the root. -/
lemma sum_treesUpTo {G : Type} [AddCommMonoid G] (p : ℕ) (g : RTree → G) :
    ∑ τ ∈ treesUpTo (p + 1), g τ = ∑ m ∈ range (p + 1),
      ∑ r ∈ (Fintype.piFinset fun _ : Fin m => treesUpTo p) with ∑ i, (r i).order ≤ p, g (.node (List.ofFn r)) := by
  classical
  rw [treesUpTo, sum_biUnion]
  · refine sum_congr rfl fun m _ => ?_
    rw [sum_image]
    intro r _ r' _ h
    exact List.ofFn_injective (RTree.node.inj h)
  · intro m _ m' _ hne
    rw [Function.onFun, disjoint_left]
    rintro τ h h'
    obtain ⟨r, -, rfl⟩ := mem_image.1 h
    obtain ⟨r', -, e⟩ := mem_image.1 h'
    have := congrArg List.length (RTree.node.inj e)
    rw [List.length_ofFn, List.length_ofFn] at this
    exact hne this.symm

/-! ### Elementary differentials -/

section
variable {E : Type} [NormedAddCommGroup E] [NormedSpace ℝ E]

/-- Coefficients of Taylor expansions: a multilinear map for each degree and each place. -/
abbrev Coeffs (E : Type) [NormedAddCommGroup E] [NormedSpace ℝ E] : Type :=
  ∀ m : ℕ, E → ContinuousMultilinearMap ℝ (fun _ : Fin m => E) E

mutual
/-- The elementary differential of a tree. -/
noncomputable def elem (P : Coeffs E) (y : E) : RTree → E
  | .node ts => P (elems P y ts).length y fun i => (elems P y ts)[i]
/-- The elementary differentials of the trees of a forest. -/
noncomputable def elems (P : Coeffs E) (y : E) : List RTree → List E
  | [] => []
  | t :: ts => elem P y t :: elems P y ts
end

lemma elems_eq (P : Coeffs E) (y : E) (ts : List RTree) : elems P y ts = ts.map (elem P y) := by
  induction ts with
  | nil => rfl
  | cons t ts ih => rw [elems, ih]; rfl

lemma coeffs_congr (P : Coeffs E) (y : E) {k m : ℕ} (e : k = m) (g : Fin k → E) (g' : Fin m → E)
    (h : ∀ i : Fin k, g i = g' (Fin.cast e i)) : P k y g = P m y g' := by
  subst e
  exact congrArg _ (funext h)

lemma elem_ofFn (P : Coeffs E) (y : E) {m : ℕ} (r : Fin m → RTree) :
    elem P y (.node (List.ofFn r)) = P m y fun i => elem P y (r i) := by
  rw [elem]
  refine coeffs_congr P y (by rw [elems_eq]; simp) _ _ fun i => ?_
  simp only [elems_eq, Fin.getElem_fin, List.getElem_map, List.getElem_ofFn]
  rfl

/-- `f` has, at the places in `A`, the Taylor expansions given by `P`, to all orders, uniformly. -/
structure Jet (f : E → E) (A : Set E) (P : Coeffs E) : Prop where
  bound : ∀ m, ∃ B, ∀ y ∈ A, ‖P m y‖ ≤ B
  taylor : ∀ p : ℕ, ∃ C ρ : ℝ, 0 < ρ ∧ ∀ y ∈ A, ∀ v, ‖v‖ ≤ ρ →
    ‖f (y + v) - ∑ m ∈ range (p + 1), P m y (fun _ => v)‖ ≤ C * ‖v‖ ^ (p + 1)

variable {f : E → E} {A : Set E} {P : Coeffs E}

lemma Jet.value (hJ : Jet f A P) {y : E} (hy : y ∈ A) : P 0 y (fun _ => 0) = f y := by
  obtain ⟨C, ρ, hρ, h⟩ := hJ.taylor 0
  have := h y hy 0 (by simpa using hρ.le)
  simp only [zero_add, range_one, sum_singleton, add_zero, norm_zero, pow_one, mul_zero] at this
  have := norm_le_zero_iff.1 this
  exact (sub_eq_zero.1 this).symm

lemma elem_bound (hJ : Jet f A P) (τ : RTree) : ∃ B, 0 ≤ B ∧ ∀ y ∈ A, ‖elem P y τ‖ ≤ B := by
  have key : ∀ n (τ : RTree), τ.order ≤ n → ∃ B, 0 ≤ B ∧ ∀ y ∈ A, ‖elem P y τ‖ ≤ B := by
    intro n
    induction n with
    | zero => intro τ h; have := one_le_order τ; omega
    | succ n ih =>
      intro τ h
      cases τ with
      | node ts =>
        rw [RTree.order] at h
        obtain ⟨B, hB⟩ := hJ.bound ts.length
        choose! b hb using fun i : Fin ts.length => ih (ts.get i) (by
          have := order_le_orders (List.get_mem ts i); omega)
        refine ⟨max B 0 * ∏ i, b i, mul_nonneg (le_max_right _ _) (prod_nonneg fun i _ => (hb i).1), fun y hy => ?_⟩
        have e := elem_ofFn P y ts.get
        rw [List.ofFn_get] at e
        rw [e]
        refine (ContinuousMultilinearMap.le_opNorm _ _).trans ?_
        refine mul_le_mul ((hB y hy).trans (le_max_left _ _)) (prod_le_prod (fun i _ => norm_nonneg _)
          fun i _ => (hb i).2 y hy) (prod_nonneg fun i _ => norm_nonneg _) (le_max_right _ _)
  exact key _ τ le_rfl

/-! ### The value of a function along a series -/

variable {α : Type} {l : Filter α} {y : α → E} {h : α → ℝ}

lemma elem_isBigO (hJ : Jet f A P) (hy : ∀ᶠ q in l, y q ∈ A) (τ : RTree) :
    (fun q => elem P (y q) τ) =O[l] fun _ => (1 : ℝ) := by
  obtain ⟨B, -, hB⟩ := elem_bound hJ τ
  refine IsBigO.of_bound B (hy.mono fun q hq => ?_)
  simpa using hB _ hq

lemma pow_isBigO (hh : Tendsto h l (𝓝 0)) {m k : ℕ} (hmk : m ≤ k) : (fun q => h q ^ k) =O[l] fun q => h q ^ m := by
  have : (fun q => h q ^ m * h q ^ (k - m)) =O[l] fun q => h q ^ m * 1 := by
    refine (isBigO_refl _ _).mul ?_
    have := (hh.pow (k - m)).isBigO_one ℝ
    simpa using this
  refine (this.congr (fun q => ?_) fun q => mul_one _)
  rw [← pow_add]; congr 1; omega

/-- A term of a series. -/
lemma term_isBigO (hJ : Jet f A P) (hy : ∀ᶠ q in l, y q ∈ A) (hh : Tendsto h l (𝓝 0)) (τ : RTree) (c : ℝ) {m k : ℕ}
    (hmk : m ≤ k) : (fun q => (h q ^ k * c) • elem P (y q) τ) =O[l] fun q => h q ^ m := by
  have h1 : (fun q => (h q ^ k * c) • elem P (y q) τ) =O[l] fun q => (h q ^ m * 1) • (1 : ℝ) :=
    ((pow_isBigO hh hmk).mul (isBigO_const_const c one_ne_zero l)).smul (elem_isBigO hJ hy τ)
  refine h1.congr_right fun q => by simp

/-- The product over the children of the root. -/
def childProd (c : RTree → ℝ) : RTree → ℝ
  | .node ts => (ts.map c).prod

/-- **The value of a function along a series over trees.** -/
theorem value_of_series (hJ : Jet f A P) (hy : ∀ᶠ q in l, y q ∈ A) (hh : Tendsto h l (𝓝 0)) (p : ℕ) (c : RTree → ℝ)
    (v : α → E) (hv : (fun q => v q - ∑ τ ∈ treesUpTo p, (h q ^ τ.order * c τ) • elem P (y q) τ) =O[l]
      fun q => h q ^ (p + 1)) :
    (fun q => f (y q + v q) - ∑ τ ∈ treesUpTo (p + 1), (h q ^ (τ.order - 1) * childProd c τ) • elem P (y q) τ) =O[l]
      fun q => h q ^ (p + 1) := by
  set w : α → E := fun q => ∑ τ ∈ treesUpTo p, (h q ^ τ.order * c τ) • elem P (y q) τ with hw
  have hw1 : w =O[l] h := by
    refine IsBigO.fun_sum fun τ _ => ?_
    simpa using term_isBigO hJ hy hh τ (c τ) (m := 1) (one_le_order τ)
  have hv1 : v =O[l] h := by
    have h1 : (fun q => v q - w q) =O[l] h := by
      simpa using hv.trans (pow_isBigO hh (m := 1) (by omega))
    simpa using h1.add hw1
  have hv0 : Tendsto v l (𝓝 0) := hv1.trans_tendsto hh
  -- the remainder of Taylor's formula
  obtain ⟨C, ρ, hρ, hT⟩ := hJ.taylor p
  have h1 : (fun q => f (y q + v q) - ∑ m ∈ range (p + 1), P m (y q) (fun _ => v q)) =O[l] fun q => h q ^ (p + 1) := by
    refine IsBigO.trans (IsBigO.of_bound C ?_) (hv1.norm_left.pow (p + 1))
    have hs : ∀ᶠ q in l, ‖v q‖ ≤ ρ := by
      have := hv0.norm
      rw [norm_zero] at this
      exact (this.eventually (gt_mem_nhds hρ)).mono fun q hq => hq.le
    filter_upwards [hy, hs] with q hq hs
    rw [Real.norm_of_nonneg (by positivity)]
    exact hT _ hq _ hs
  -- from `v` to `w`
  have h2 : ∀ m ∈ range (p + 1), (fun q => P m (y q) (fun _ => v q) - P m (y q) (fun _ => w q)) =O[l]
      fun q => h q ^ (p + 1) := by
    intro m _
    obtain ⟨B, hB⟩ := hJ.bound m
    have hmax : (fun q => max ‖v q‖ ‖w q‖) =O[l] fun _ => (1 : ℝ) := by
      have hb : ∀ u : α → E, u =O[l] h → (fun q => ‖u q‖) =O[l] fun _ => (1 : ℝ) := fun u hu =>
        (hu.trans (hh.isBigO_one ℝ)).norm_left
      refine IsBigO.trans (IsBigO.of_bound 1 (Eventually.of_forall fun q => ?_)) ((hb v hv1).add (hb w hw1))
      rw [one_mul, Real.norm_of_nonneg (by positivity), Real.norm_of_nonneg (by positivity)]
      exact max_le (by linarith [norm_nonneg (w q)]) (by linarith [norm_nonneg (v q)])
    have h3 : (fun q => (max B 0 * m * max ‖v q‖ ‖w q‖ ^ (m - 1)) * ‖v q - w q‖) =O[l] fun q => 1 * h q ^ (p + 1) := by
      refine IsBigO.mul ?_ hv.norm_left
      have := (isBigO_const_const (max B 0 * m) (one_ne_zero (α := ℝ)) l).mul (hmax.pow (m - 1))
      simpa using this
    refine (IsBigO.trans (IsBigO.of_bound 1 (hy.mono fun q hq => ?_)) h3).congr_right fun q => one_mul _
    have h4 := (P m (y q)).norm_image_sub_le (fun _ => v q) (fun _ => w q)
    rw [one_mul, Real.norm_of_nonneg (by positivity)]
    refine h4.trans ?_
    have e1 : ‖(fun _ : Fin m => v q) - fun _ => w q‖ ≤ ‖v q - w q‖ :=
      (pi_norm_le_iff_of_nonneg (norm_nonneg _)).2 fun i => le_rfl
    have e2 : ‖fun _ : Fin m => v q‖ ≤ ‖v q‖ := (pi_norm_le_iff_of_nonneg (norm_nonneg _)).2 fun i => le_rfl
    have e3 : ‖fun _ : Fin m => w q‖ ≤ ‖w q‖ := (pi_norm_le_iff_of_nonneg (norm_nonneg _)).2 fun i => le_rfl
    rw [Fintype.card_fin]
    have e4 := (hB _ hq).trans (le_max_left B 0)
    gcongr
  -- the multilinear maps expanded
  have h3 : (fun q => ∑ m ∈ range (p + 1), P m (y q) (fun _ => w q) -
      ∑ τ ∈ treesUpTo (p + 1), (h q ^ (τ.order - 1) * childProd c τ) • elem P (y q) τ) =O[l] fun q => h q ^ (p + 1) := by
    have expand : ∀ q m, P m (y q) (fun _ => w q) = ∑ r ∈ (Fintype.piFinset fun _ : Fin m => treesUpTo p),
        (h q ^ (∑ i, (r i).order) * childProd c (.node (List.ofFn r))) • elem P (y q) (.node (List.ofFn r)) := by
      intro q m
      rw [hw]
      rw [ContinuousMultilinearMap.map_sum_finset]
      refine sum_congr rfl fun r _ => ?_
      rw [ContinuousMultilinearMap.map_smul_univ, elem_ofFn]
      congr 1
      rw [prod_mul_distrib, prod_pow_eq_pow_sum, childProd, List.map_ofFn, List.prod_ofFn]
      rfl
    have e : ∀ q, ∑ m ∈ range (p + 1), P m (y q) (fun _ => w q) -
        ∑ τ ∈ treesUpTo (p + 1), (h q ^ (τ.order - 1) * childProd c τ) • elem P (y q) τ =
        ∑ m ∈ range (p + 1), ∑ r ∈ (Fintype.piFinset fun _ : Fin m => treesUpTo p) with ¬ ∑ i, (r i).order ≤ p,
          (h q ^ (∑ i, (r i).order) * childProd c (.node (List.ofFn r))) • elem P (y q) (.node (List.ofFn r)) := by
      intro q
      rw [sum_treesUpTo, ← sum_sub_distrib]
      refine sum_congr rfl fun m _ => ?_
      rw [expand, ← sum_filter_add_sum_filter_not _ (fun r : Fin m → RTree => ∑ i, (r i).order ≤ p), add_comm,
        sub_eq_iff_eq_add]
      congr 1
      refine sum_congr rfl fun r _ => ?_
      rw [order_node_ofFn, Nat.add_sub_cancel]
    simp only [e]
    refine IsBigO.fun_sum fun m _ => IsBigO.fun_sum fun r hr => term_isBigO hJ hy hh _ _ ?_
    have := (mem_filter.1 hr).2
    omega
  have := (h1.add (IsBigO.fun_sum h2)).add h3
  refine this.congr_left fun q => ?_
  rw [sum_sub_distrib]
  abel

end

end NB
