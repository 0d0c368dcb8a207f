import Verif.Lemmas.Butcher
import Mathlib.Algebra.Polynomial.Eval.Degree
import Mathlib.Algebra.Polynomial.Roots
import Mathlib.Algebra.Polynomial.Taylor
import Mathlib.LinearAlgebra.Lagrange
import Mathlib.Tactic.LinearCombination
import Mathlib.Tactic.FieldSimp

/-
Equal steps of Stetter's scheme, expanded over rooted trees: the coefficients are polynomials in the number of steps,
even or odd as the tree has an even or odd number of vertices.  This is why the extrapolation of Bulirsch and Stoer
gains two orders with every level.
-/

namespace NB

open Finset Polynomial
open Spec (RTree)

/-- The coefficients of the pair after so many steps (of the length one). -/
noncomputable def leap : ℕ → (RTree → ℝ) × (RTree → ℝ)
  | 0 => (fun _ => 0, fun _ => 0)
  | i + 1 =>
    let u : RTree → ℝ := fun τ => (leap i).1 τ + childProd (fun c => (leap i).2 c + 1 / 2 * childProd (leap i).1 c) τ
    (u, fun τ => (leap i).2 τ + 1 / 2 * (childProd (leap i).1 τ + childProd u τ))

/-- Those of the state in the middle. -/
noncomputable def leapMid (i : ℕ) (τ : RTree) : ℝ := (leap i).2 τ + 1 / 2 * childProd (leap i).1 τ

lemma leap_succ_fst (i : ℕ) (τ : RTree) : (leap (i + 1)).1 τ = (leap i).1 τ + childProd (leapMid i) τ := rfl

lemma leap_succ_snd (i : ℕ) (τ : RTree) :
    (leap (i + 1)).2 τ = (leap i).2 τ + 1 / 2 * (childProd (leap i).1 τ + childProd (leap (i + 1)).1 τ) := rfl

/-! ### Sums of polynomials -/

/-- Of degree at most `d`, with the coefficient `a` there. -/
def Lead (d : ℕ) (a : ℝ) (p : ℝ[X]) : Prop := p.natDegree ≤ d ∧ p.coeff d = a

lemma Lead.add {d : ℕ} {a b : ℝ} {p q : ℝ[X]} (hp : Lead d a p) (hq : Lead d b q) : Lead d (a + b) (p + q) :=
  ⟨natDegree_add_le_of_degree_le hp.1 hq.1, by rw [coeff_add, hp.2, hq.2]⟩

lemma Lead.mul {d e : ℕ} {a b : ℝ} {p q : ℝ[X]} (hp : Lead d a p) (hq : Lead e b q) : Lead (d + e) (a * b) (p * q) :=
  ⟨natDegree_mul_le_of_le hp.1 hq.1, by rw [coeff_mul_add_eq_of_natDegree_le hp.1 hq.1, hp.2, hq.2]⟩

lemma Lead.smul {d : ℕ} {a : ℝ} {p : ℝ[X]} (c : ℝ) (hp : Lead d a p) : Lead d (c * a) (C c * p) :=
  ⟨(natDegree_C_mul_le c p).trans hp.1, by rw [coeff_C_mul, hp.2]⟩

lemma Lead.up {d : ℕ} {a : ℝ} {p : ℝ[X]} (hp : Lead d a p) : Lead (d + 1) 0 p :=
  ⟨hp.1.trans (Nat.le_succ d), coeff_eq_zero_of_natDegree_lt (Nat.lt_succ_of_le hp.1)⟩

lemma Lead.shift {d : ℕ} {a : ℝ} {p : ℝ[X]} (hp : Lead d a p) : Lead d a (p.comp (X + C 1)) := by
  rw [← taylor_apply]
  refine ⟨(natDegree_taylor p 1).le.trans hp.1, ?_⟩
  rcases hp.1.lt_or_eq with h | h
  · rw [← hp.2, coeff_eq_zero_of_natDegree_lt h, coeff_eq_zero_of_natDegree_lt (by rwa [natDegree_taylor])]
  · rw [← hp.2, ← h, coeff_taylor_natDegree, leadingCoeff]

/-- Every polynomial is the difference of another. -/
lemma antidifference (d : ℕ) : ∀ (a : ℝ) (g : ℝ[X]), Lead d a g →
    ∃ G : ℝ[X], Lead (d + 1) (a / (d + 1)) G ∧ G.eval 0 = 0 ∧ ∀ x, G.eval (x + 1) = G.eval x + g.eval x := by
  induction d with
  | zero =>
    intro a g hg
    refine ⟨C a * X, ⟨by simpa using natDegree_C_mul_X_pow_le a 1, by simp⟩, by simp, fun x => ?_⟩
    have : g = C a := by rw [eq_C_of_natDegree_le_zero hg.1, hg.2]
    rw [this]; simp; ring
  | succ d ih =>
    intro a g hg
    -- the difference of the highest power
    set H : ℝ[X] := C (a / (d + 2)) * X ^ (d + 2) with hH
    set D : ℝ[X] := C (a / (d + 2)) * ((X + 1) ^ (d + 2) - X ^ (d + 2)) with hD
    have hD1 : D.natDegree ≤ d + 1 ∧ D.coeff (d + 1) = a := by
      constructor
      · rw [natDegree_le_iff_coeff_eq_zero]
        intro N hN
        rw [hD, coeff_C_mul, coeff_sub, coeff_X_add_one_pow, coeff_X_pow]
        rcases Nat.lt_or_ge (d + 2) N with h | h
        · rw [Nat.choose_eq_zero_of_lt h, if_neg (by omega)]; simp
        · obtain rfl : N = d + 2 := by omega
          simp
      · rw [hD, coeff_C_mul, coeff_sub, coeff_X_add_one_pow, coeff_X_pow, if_neg (by omega), Nat.choose_succ_self_right]
        have : (d : ℝ) + 2 ≠ 0 := by positivity
        push_cast
        field_simp
        ring
    have hg' : ∃ b, Lead d b (g - D) := by
      refine ⟨_, ?_, rfl⟩
      rw [natDegree_le_iff_coeff_eq_zero]
      intro N hN
      rcases Nat.lt_or_ge (d + 1) N with h | h
      · rw [coeff_sub, coeff_eq_zero_of_natDegree_lt (hg.1.trans_lt h), coeff_eq_zero_of_natDegree_lt (hD1.1.trans_lt h),
          sub_zero]
      · obtain rfl : N = d + 1 := by omega
        rw [coeff_sub, hg.2, hD1.2, sub_self]
    obtain ⟨b, hb⟩ := hg'
    obtain ⟨G, h1, h2, h3⟩ := ih b _ hb
    refine ⟨G + H, ?_, ?_, fun x => ?_⟩
    · have hHL : Lead (d + 1 + 1) (a / (d + 2)) H :=
        ⟨natDegree_C_mul_X_pow_le _ _, by rw [hH, coeff_C_mul, coeff_X_pow, if_pos rfl, mul_one]⟩
      have := h1.up.add hHL
      rw [zero_add] at this
      convert this using 2
      push_cast
      ring
    · rw [eval_add, h2, hH]; simp
    · rw [eval_add, eval_add, h3, hH, eval_sub, hD]
      simp only [eval_mul, eval_C, eval_pow, eval_X, eval_sub, eval_add, eval_one]
      ring

/-- Even or odd about `-s/2`. -/
def Par (s : ℝ) (d : ℕ) (p : ℝ[X]) : Prop := ∀ x, p.eval (-x - s) = (-1) ^ d * p.eval x

/-- The antidifference of an even polynomial is odd, and conversely. -/
lemma par_antidifference {d : ℕ} {g G : ℝ[X]} (hg : Par 1 d g) (h0 : G.eval 0 = 0)
    (hG : ∀ x, G.eval (x + 1) = G.eval x + g.eval x) : Par 0 (d + 1) G := by
  have key : ∀ i : ℕ, G.eval (-(i : ℝ)) = (-1) ^ (d + 1) * G.eval (i : ℝ) := by
    intro i
    induction i with
    | zero => simp [h0]
    | succ i ih =>
      have h1 := hG (-(i : ℝ) - 1)
      rw [sub_add_cancel, ih, hg] at h1
      have h2 := hG (i : ℝ)
      push_cast
      rw [h2, show -((i : ℝ) + 1) = -(i : ℝ) - 1 by ring]
      rw [pow_succ] at h1 ⊢
      linear_combination -h1
  have : G.comp (-X) = C ((-1) ^ (d + 1)) * G := by
    refine eq_of_infinite_eval_eq _ _ (Set.infinite_of_injective_forall_mem (f := fun i : ℕ => (i : ℝ))
      Nat.cast_injective fun i => ?_)
    show eval _ _ = eval _ _
    rw [eval_comp, eval_neg, eval_X, key, eval_mul, eval_C]
  intro x
  have := congrArg (eval x) this
  rw [eval_comp, eval_neg, eval_X, eval_mul, eval_C] at this
  rw [sub_zero, this]

/-! ### The coefficients are polynomials -/

/-- What is known of the coefficients of a tree. -/
structure LeapPoly (τ : RTree) (u v w : ℝ[X]) : Prop where
  fst : ∀ i : ℕ, (leap i).1 τ = u.eval (i : ℝ)
  snd : ∀ i : ℕ, (leap i).2 τ = v.eval (i : ℝ)
  mid : ∀ i : ℕ, leapMid i τ = w.eval (i : ℝ)
  parU : Par 0 τ.order u
  parV : Par 0 τ.order v
  parW : Par 1 τ.order w
  leadU : Lead τ.order (1 / (τ.gamma : ℝ)) u
  leadV : Lead τ.order (1 / (τ.gamma : ℝ)) v
  leadW : Lead τ.order (1 / (τ.gamma : ℝ)) w

lemma Par.mul {s : ℝ} {d e : ℕ} {p q : ℝ[X]} (hp : Par s d p) (hq : Par s e q) : Par s (d + e) (p * q) := by
  intro x
  rw [eval_mul, eval_mul, hp, hq, pow_add]
  ring

/-- Products over the children. -/
lemma childs {ts : List RTree} (h : ∀ t ∈ ts, ∃ u v w, LeapPoly t u v w) :
    ∃ pu pw : ℝ[X], (∀ i : ℕ, (ts.map (leap i).1).prod = pu.eval (i : ℝ)) ∧
      (∀ i : ℕ, (ts.map (leapMid i)).prod = pw.eval (i : ℝ)) ∧ Par 0 (RTree.orders ts) pu ∧ Par 1 (RTree.orders ts) pw ∧
      Lead (RTree.orders ts) (1 / (RTree.gammas ts : ℝ)) pu ∧ Lead (RTree.orders ts) (1 / (RTree.gammas ts : ℝ)) pw := by
  induction ts with
  | nil =>
    refine ⟨1, 1, by simp, by simp, fun x => by simp [RTree.orders], fun x => by simp [RTree.orders], ?_, ?_⟩ <;>
      exact ⟨by simp [RTree.orders], by simp [RTree.orders, RTree.gammas]⟩
  | cons t ts ih =>
    obtain ⟨u, v, w, ht⟩ := h t (by simp)
    obtain ⟨pu, pw, h1, h2, h3, h4, h5, h6⟩ := ih fun t ht => h t (by simp [ht])
    have e : (1 / ((RTree.gammas (t :: ts) : ℕ) : ℝ)) = 1 / (t.gamma : ℝ) * (1 / (RTree.gammas ts : ℝ)) := by
      rw [RTree.gammas, Nat.cast_mul, one_div_mul_one_div]
    rw [e]
    refine ⟨u * pu, w * pw, fun i => ?_, fun i => ?_, ht.parU.mul h3, ht.parW.mul h4, ht.leadU.mul h5, ht.leadW.mul h6⟩
    · rw [List.map_cons, List.prod_cons, h1, ht.fst, eval_mul]
    · rw [List.map_cons, List.prod_cons, h2, ht.mid, eval_mul]

lemma eval_of_steps {g G : ℝ[X]} {a : ℕ → ℝ} (h0 : a 0 = 0) (hG0 : G.eval 0 = 0)
    (hG : ∀ x, G.eval (x + 1) = G.eval x + g.eval x) (ha : ∀ i, a (i + 1) = a i + g.eval (i : ℝ)) (i : ℕ) :
    a i = G.eval (i : ℝ) := by
  induction i with
  | zero => rw [h0, Nat.cast_zero, hG0]
  | succ i ih => rw [ha, ih, Nat.cast_succ, hG]

lemma leap_poly (τ : RTree) : ∃ u v w, LeapPoly τ u v w := by
  have key : ∀ n (τ : RTree), τ.order ≤ n → ∃ u v w, LeapPoly τ u v w := by
    intro n
    induction n with
    | zero => intro τ h; have := one_le_order τ; omega
    | succ n ih =>
      intro τ h
      cases τ with
      | node ts =>
        rw [RTree.order] at h
        obtain ⟨pu, pw, h1, h2, h3, h4, h5, h6⟩ := childs (ts := ts) fun t ht => ih t (by
          have := order_le_orders ht; omega)
        have hgam : 1 / (RTree.gammas ts : ℝ) / ((RTree.orders ts : ℝ) + 1) = 1 / ((RTree.node ts).gamma : ℝ) := by
          rw [RTree.gamma, Nat.cast_mul, Nat.cast_succ, div_div, mul_comm]
        have hpuv : Par 1 (RTree.orders ts) (C (1 / 2) * (pu + pu.comp (X + C 1))) := by
          intro x
          have e1 := h3 x
          have e2 := h3 (x + 1)
          simp only [eval_mul, eval_C, eval_add, eval_comp, eval_X] at *
          rw [sub_zero] at e1 e2
          rw [show -x - 1 = -(x + 1) by ring, e2, show -(x + 1) + 1 = -x by ring, e1]
          ring
        have hshift : Lead (RTree.orders ts) (1 / (RTree.gammas ts : ℝ)) (pu.comp (X + C 1)) := h5.shift
        have hlv : Lead (RTree.orders ts) (1 / (RTree.gammas ts : ℝ)) (C (1 / 2) * (pu + pu.comp (X + C 1))) := by
          have := (h5.add hshift).smul (1 / 2)
          convert this using 1
          ring
        obtain ⟨u, u1, u2, u3⟩ := antidifference _ _ pw h6
        obtain ⟨v, v1, v2, v3⟩ := antidifference _ _ _ hlv
        rw [hgam] at u1 v1
        have hU : ∀ i : ℕ, (leap i).1 (.node ts) = u.eval (i : ℝ) :=
          eval_of_steps rfl u2 u3 fun i => by rw [leap_succ_fst, childProd, h2]
        have hV : ∀ i : ℕ, (leap i).2 (.node ts) = v.eval (i : ℝ) :=
          eval_of_steps rfl v2 v3 fun i => by
            rw [leap_succ_snd, childProd, childProd, h1, h1]
            simp [eval_comp]
        have pV : Par 0 (RTree.orders ts + 1) v := par_antidifference hpuv v2 v3
        refine ⟨u, v, v + C (1 / 2) * pu, ⟨hU, hV, fun i => ?_, par_antidifference h4 u2 u3, pV, fun x => ?_, u1, v1, ?_⟩⟩
        · rw [leapMid, hV, childProd, h1, eval_add, eval_mul, eval_C]
        · have e1 := pV (x + 1)
          have e2 := h3 (x + 1)
          have e3 := v3 x
          simp only [eval_mul, eval_C, eval_add, eval_comp, eval_X] at *
          rw [sub_zero] at e1 e2
          rw [show -x - 1 = -(x + 1) by ring, e1, e2, e3, RTree.order, pow_succ]
          ring
        · have := v1.add ((h5.smul (1 / 2)).up)
          rwa [add_zero] at this
  exact key _ τ le_rfl

/-- **The mean of the pair after `n` steps** is, for every tree, a polynomial in `n ^ (-2)` apart from the power of
`n`: its degree is less than half the number of vertices, its constant is that of the solution. -/
lemma leap_mean (τ : RTree) : ∃ Q : ℝ[X], 2 * Q.natDegree < τ.order ∧ Q.eval 0 = 1 / (τ.gamma : ℝ) ∧
    ∀ n : ℕ, 0 < n → 1 / 2 * ((leap n).1 τ + (leap n).2 τ) = (n : ℝ) ^ τ.order * Q.eval (1 / ((n ^ 2 : ℕ) : ℝ)) := by
  obtain ⟨u, v, w, h⟩ := leap_poly τ
  have hd := one_le_order τ
  obtain ⟨d, hdd⟩ : ∃ d, d = τ.order := ⟨_, rfl⟩
  have hL : Lead τ.order (1 / (τ.gamma : ℝ)) (C (1 / 2) * (u + v)) := by
    have := (h.leadU.add h.leadV).smul (1 / 2)
    convert this using 1
    ring
  have hP : Par 0 τ.order (C (1 / 2) * (u + v)) := by
    intro x
    simp only [eval_mul, eval_C, eval_add]
    rw [h.parU, h.parV]
    ring
  have h0 : (C (1 / 2) * (u + v)).coeff 0 = 0 := by
    rw [coeff_zero_eq_eval_zero]
    have e1 := h.fst 0
    have e2 := h.snd 0
    rw [Nat.cast_zero] at e1 e2
    simp only [eval_mul, eval_C, eval_add]
    rw [← e1, ← e2]
    simp [leap]
  have hev : ∀ n : ℕ, 1 / 2 * ((leap n).1 τ + (leap n).2 τ) = (C (1 / 2) * (u + v)).eval (n : ℝ) := by
    intro n
    rw [h.fst, h.snd]; simp
  rw [← hdd] at hL hP hd ⊢
  generalize C (1 / 2) * (u + v) = s at hL hP h0 hev
  -- the coefficients of the other parity are zero
  have hcomp : s.comp (C (-1) * X) = C ((-1) ^ d) * s := by
    refine Polynomial.funext fun x => ?_
    rw [eval_comp, eval_mul, eval_C, eval_X, eval_mul, eval_C, ← hP, sub_zero, neg_one_mul]
  have hcoef : ∀ j, (-1 : ℝ) ^ j * s.coeff j = (-1) ^ d * s.coeff j := by
    intro j
    have := congrArg (fun p => p.coeff j) hcomp
    simp only [coeff_C_mul, comp_C_mul_X_coeff] at this
    rw [← this, mul_comm]
  have hodd : ∀ j, (j + d) % 2 = 1 → s.coeff j = 0 := by
    intro j hj
    have h1 := hcoef j
    rcases Nat.even_or_odd j with hj' | hj'
    · have : Odd d := by
        rw [Nat.odd_iff]; rw [Nat.even_iff] at hj'; omega
      rw [hj'.neg_one_pow, this.neg_one_pow] at h1
      linarith
    · have : Even d := by
        rw [Nat.even_iff]; rw [Nat.odd_iff] at hj'; omega
      rw [hj'.neg_one_pow, this.neg_one_pow] at h1
      linarith
  refine ⟨∑ m ∈ range ((d - 1) / 2 + 1), C (s.coeff (d - 2 * m)) * X ^ m, ?_, ?_, fun n hn => ?_⟩
  · have : (∑ m ∈ range ((d - 1) / 2 + 1), C (s.coeff (d - 2 * m)) * X ^ m).natDegree ≤ (d - 1) / 2 :=
      natDegree_sum_le_of_forall_le _ _ fun m hm => (natDegree_C_mul_X_pow_le _ _).trans (by
        have := mem_range.1 hm; omega)
    omega
  · rw [eval_finsetSum, sum_range_succ', sum_eq_zero]
    · simp [hL.2]
    · intro m _
      simp
  · have hn' : (n : ℝ) ≠ 0 := by exact_mod_cast hn.ne'
    rw [hev, eval_eq_sum_range' (Nat.lt_succ_of_le hL.1), eval_finsetSum, mul_sum]
    -- from `j` to `m` with `j = d - 2 m`
    have e1 : ∀ m ∈ range ((d - 1) / 2 + 1), (n : ℝ) ^ d * eval (1 / ((n ^ 2 : ℕ) : ℝ)) (C (s.coeff (d - 2 * m)) * X ^ m) =
        s.coeff (d - 2 * m) * (n : ℝ) ^ (d - 2 * m) := by
      intro m hm
      have hm' := mem_range.1 hm
      rw [eval_mul, eval_C, eval_pow, eval_X]
      have : (n : ℝ) ^ d = (n : ℝ) ^ (d - 2 * m) * ((n : ℝ) ^ 2) ^ m := by
        rw [← pow_mul, ← pow_add]; congr 1; omega
      rw [this]
      push_cast
      rw [div_pow, one_pow]
      have : ((n : ℝ) ^ 2) ^ m ≠ 0 := by positivity
      field_simp
    rw [sum_congr rfl e1]
    symm
    have hinj : Set.InjOn (fun m => d - 2 * m) (range ((d - 1) / 2 + 1) : Set ℕ) := by
      intro a ha b hb hab
      have ha' := mem_range.1 (mem_coe.1 ha)
      have hb' := mem_range.1 (mem_coe.1 hb)
      simp only at hab
      omega
    rw [← sum_image (f := fun j => s.coeff j * (n : ℝ) ^ j) hinj]
    refine sum_subset (fun j hj => ?_) fun j hj hj' => ?_
    · obtain ⟨m, -, rfl⟩ := mem_image.1 hj
      exact mem_range.2 (by omega)
    · by_cases hpar : (j + d) % 2 = 1
      · rw [hodd j hpar, zero_mul]
      · have hj1 := mem_range.1 hj
        by_cases hj0 : j = 0
        · rw [hj0, h0, zero_mul]
        · exact absurd (mem_image.2 ⟨(d - j) / 2, mem_range.2 (by omega), by omega⟩) hj'

/-- The extrapolation to zero of the values of a polynomial of low degree is its value at zero. -/
lemma extrap_poly {x : ℕ → ℝ} {s : Finset ℕ} (hx : Set.InjOn x s) {Q : ℝ[X]} (hQ : Q.natDegree < s.card) :
    ∑ i ∈ s, (Lagrange.basis s x i).eval 0 * Q.eval (x i) = Q.eval 0 := by
  have hdeg : Q.degree < s.card := by
    by_cases h : Q = 0
    · rw [h, degree_zero]; exact WithBot.bot_lt_coe _
    · exact (natDegree_lt_iff_degree_lt h).1 hQ
  have := Lagrange.eq_interpolate (v := x) hx hdeg
  conv_rhs => rw [this]
  rw [Lagrange.interpolate_apply, eval_finsetSum]
  refine sum_congr rfl fun i _ => ?_
  rw [eval_mul, eval_C, mul_comm]

end NB
