import Verif.Spec.RungeKutta
import Verif.Model.ButcherTables
import Mathlib.Algebra.BigOperators.Ring.Finset
import Mathlib.Algebra.BigOperators.Fin
import Mathlib.Data.List.Basic

/-
A decision procedure for the order conditions up to a given order, with its soundness proof.
`forests A n` lists, for every k ≤ n, the pairs (elementary weights, density) of all forests with `k`
vertices; `forests_complete` shows that no forest is missed.
-/

namespace NB

open Spec

section
variable {R : Type} [CommRing R]

/-- Scalar product of two lists. -/
def ldot : List R → List R → R
  | x :: xs, y :: ys => x * y + ldot xs ys
  | _, _ => 0

/-- Componentwise product. -/
def lmul (u v : List R) : List R := List.zipWith (· * ·) u v

/-- Weights of all forests with at most `n` vertices, indexed by the number of vertices. -/
def forests (A : List (List R)) (one : List R) : ℕ → List (List (List R × ℕ))
  | 0 => [[(one, 1)]]
  | n + 1 =>
    let L := forests A one n
    L ++ [(List.range (n + 1)).flatMap fun k =>
      ((L[k]?).getD []).flatMap fun f =>
        let av := A.map fun row => ldot row f.1
        ((L[n - k]?).getD []).map fun g => (lmul av g.1, (k + 1) * f.2 * g.2)]

/-- The order condition of every tree with `k + 1 ≤ p` vertices. -/
def checkOrder [DecidableEq R] (A : List (List R)) (one b : List R) (p : ℕ) : Bool :=
  match p with
  | 0 => true
  | p + 1 =>
    let L := forests A one p
    (List.range (p + 1)).all fun k =>
      ((L[k]?).getD []).all fun f => ((k + 1) * f.2 : ℕ) * ldot b f.1 == 1

/-! ### Soundness -/

omit [CommRing R] in
theorem getD_cons {α : Type} (x : α) (l : List α) (j : ℕ) (d : α) : (x :: l).getD (j + 1) d = l.getD j d := rfl

theorem ldot_eq (r v : List R) :
    ldot r v = ∑ j ∈ Finset.range v.length, r.getD j 0 * v.getD j 0 := by
  induction v generalizing r with
  | nil => cases r <;> simp [ldot]
  | cons y ys ih =>
    cases r with
    | nil => simp [ldot]
    | cons x xs =>
      rw [ldot, ih, List.length_cons, Finset.sum_range_succ', add_comm]
      simp

/-- Coefficients as read from the rows. -/
def rowsA (A : List (List R)) (i j : ℕ) : R := (A.getD i []).getD j 0

/-- The weights of a forest as a list. -/
def fvec (A : List (List R)) (s : ℕ) (ts : List RTree) : List R :=
  (List.range s).map fun i => RTree.phis s (rowsA A) ts i

theorem fvec_nil (A : List (List R)) (s : ℕ) : fvec A s [] = List.replicate s 1 := by
  apply List.ext_getElem <;> simp [fvec, RTree.phis]

theorem fvec_cons (A : List (List R)) (s : ℕ) (hA : A.length = s) (us ts : List RTree) :
    fvec A s (.node us :: ts) = lmul (A.map fun row => ldot row (fvec A s us)) (fvec A s ts) := by
  apply List.ext_getElem
  · simp [fvec, lmul, hA]
  · intro i h1 h2
    have hi : i < s := by simpa [fvec] using h1
    simp only [fvec, lmul, List.getElem_map, List.getElem_range, List.getElem_zipWith, RTree.phis, RTree.phi]
    congr 1
    rw [ldot_eq]
    simp only [List.length_map, List.length_range]
    refine Finset.sum_congr rfl fun j hj => ?_
    have hj' := Finset.mem_range.1 hj
    congr 1
    · simp [rowsA, List.getD_eq_getElem?_getD, List.getElem?_eq_getElem (hA.symm ▸ hi)]
    · simp [List.getD_eq_getElem?_getD, hj']

theorem forests_length (A : List (List R)) (one : List R) (n : ℕ) : (forests A one n).length = n + 1 := by
  induction n with
  | zero => rfl
  | succ n ih => simp [forests, ih]

theorem forests_prefix (A : List (List R)) (one : List R) (n k : ℕ) (h : k ≤ n) :
    (forests A one (n + 1))[k]? = (forests A one n)[k]? := by
  rw [forests]
  exact List.getElem?_append_left (by rw [forests_length]; omega)

theorem forests_stable (A : List (List R)) (one : List R) (k n : ℕ) (h : k ≤ n) :
    (forests A one n)[k]? = (forests A one k)[k]? := by
  induction n with
  | zero => have : k = 0 := by omega
            subst this; rfl
  | succ n ih =>
    rcases Nat.lt_or_eq_of_le h with h' | h'
    · rw [forests_prefix A one n k (by omega), ih (by omega)]
    · rw [h']

/-- No forest is missed. -/
theorem forests_complete (A : List (List R)) (s : ℕ) (hA : A.length = s) (ts : List RTree) (n : ℕ)
    (h : RTree.orders ts ≤ n) :
    (fvec A s ts, RTree.gammas ts) ∈ ((forests A (List.replicate s 1) n)[RTree.orders ts]?).getD [] := by
  induction hn : RTree.orders ts using Nat.strong_induction_on generalizing ts n with
  | _ m ih =>
    subst hn
    rw [forests_stable _ _ _ _ h]
    cases ts with
    | nil => simp [RTree.orders, RTree.gammas, forests, fvec_nil]
    | cons t ts =>
      obtain ⟨us⟩ := t
      simp only [RTree.orders, RTree.order, RTree.gammas, RTree.gamma]
      have e : RTree.orders us + 1 + RTree.orders ts = (RTree.orders us + RTree.orders ts) + 1 := by omega
      rw [e, forests]
      rw [List.getElem?_append_right (by rw [forests_length])]
      simp only [forests_length, Nat.sub_self, List.getElem?_cons_zero, Option.getD_some,
        List.mem_flatMap, List.mem_range, List.mem_map]
      refine ⟨RTree.orders us, by omega, (fvec A s us, RTree.gammas us), ?_, (fvec A s ts, RTree.gammas ts), ?_, ?_⟩
      · exact ih _ (by simp only [RTree.orders, RTree.order]; omega) us _ (by omega) rfl
      · have e2 : RTree.orders us + RTree.orders ts - RTree.orders us = RTree.orders ts := by omega
        rw [e2]
        exact ih _ (by simp only [RTree.orders, RTree.order]; omega) ts _ (by omega) rfl
      · rw [fvec_cons A s hA]

mutual
theorem map_phi {S : Type} [CommRing S] (f : R →+* S) (s : ℕ) (a : ℕ → ℕ → R) (t : RTree) (i : ℕ) :
    f (t.phi s a i) = t.phi s (fun i j => f (a i j)) i := by
  cases t with
  | node ts => simp only [RTree.phi]; exact map_phis f s a ts i
theorem map_phis {S : Type} [CommRing S] (f : R →+* S) (s : ℕ) (a : ℕ → ℕ → R) (ts : List RTree) (i : ℕ) :
    f (RTree.phis s a ts i) = RTree.phis s (fun i j => f (a i j)) ts i := by
  cases ts with
  | nil => simp [RTree.phis]
  | cons t ts =>
    simp only [RTree.phis, map_mul, map_sum]
    rw [map_phis f s a ts i]
    congr 1
    exact Finset.sum_congr rfl fun j _ => by rw [map_phi f s a t j]
end

mutual
theorem gamma_pos (t : RTree) : 0 < t.gamma := by
  cases t with
  | node ts => simp only [RTree.gamma]; exact Nat.mul_pos (Nat.succ_pos _) (gammas_pos ts)
theorem gammas_pos (ts : List RTree) : 0 < RTree.gammas ts := by
  cases ts with
  | nil => simp [RTree.gammas]
  | cons t ts => simp only [RTree.gammas]; exact Nat.mul_pos (gamma_pos t) (gammas_pos ts)
end

/-- **Soundness of the check.** -/
theorem checkOrder_sound [DecidableEq R] {K : Type} [Field K] [CharZero K] (f : R →+* K)
    (A : List (List R)) (b : List R) (s p : ℕ) (hA : A.length = s)
    (h : checkOrder A (List.replicate s 1) b p = true) :
    HasOrder s (fun i j => f (rowsA A i j)) (fun i => f (b.getD i 0)) p := by
  intro t ht
  obtain ⟨ts⟩ := t
  simp only [RTree.order] at ht
  cases p with
  | zero => omega
  | succ p =>
    have hm := forests_complete A s hA ts p (by omega)
    simp only [checkOrder, List.all_eq_true, List.mem_range, beq_iff_eq] at h
    have hk := h (RTree.orders ts) (by omega) _ hm
    simp only [ldot_eq, fvec, List.length_map, List.length_range] at hk
    have hk' := congrArg f hk
    rw [map_mul, map_natCast, map_sum, map_one] at hk'
    have hs : (∑ x ∈ Finset.range s, f (b.getD x 0 *
        ((List.range s).map fun i => RTree.phis s (rowsA A) ts i).getD x 0))
        = ∑ i ∈ Finset.range s, f (b.getD i 0) * RTree.phi s (fun i j => f (rowsA A i j)) (.node ts) i := by
      refine Finset.sum_congr rfl fun i hi => ?_
      have hi' := Finset.mem_range.1 hi
      rw [map_mul, RTree.phi, ← map_phis]
      congr 2
      simp [List.getD_eq_getElem?_getD, hi']
    rw [hs] at hk'
    unfold OrderCond
    have hg : ((RTree.gamma (.node ts) : ℕ) : K) ≠ 0 := by
      exact_mod_cast (gamma_pos _).ne'
    rw [eq_div_iff hg, mul_comm]
    simpa [RTree.gamma] using hk'

end

end NB
