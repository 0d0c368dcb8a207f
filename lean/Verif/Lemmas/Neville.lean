import Verif.Model.BulirschStoer
import Verif.Lemmas.SolverOps
import Mathlib.LinearAlgebra.Lagrange
import Mathlib.Order.Interval.Finset.Nat
import Mathlib.Tactic.FieldSimp
import Mathlib.Tactic.Module

namespace NB

/-- Value at 0 of the polynomial (with vector coefficients) that takes the value `v i` at the node `x i`
for each `i ∈ s`: the Lagrange form. -/
noncomputable def extrap {V K : Type} [Field K] [AddCommGroup V] [Module K V] (x : ℕ → K) (s : Finset ℕ)
    (v : ℕ → V) : V :=
  ∑ i ∈ s, (Lagrange.basis s x i).eval 0 • v i

section
variable {V K : Type} [Field K] [AddCommGroup V] [Module K V]

theorem basis_zero_eq {x : ℕ → K} {s : Finset ℕ} {i j m : ℕ} (hx : Set.InjOn x s) (hi : i ∈ s) (hj : j ∈ s)
    (hij : i ≠ j) (hm : m ∈ s) :
    (Lagrange.basis s x m).eval 0 =
      (if m = j then 0 else (Lagrange.basis (s.erase j) x m).eval 0 * (-x j / (x i - x j))) +
      (if m = i then 0 else (Lagrange.basis (s.erase i) x m).eval 0 * (-x i / (x j - x i))) := by
  have key := Lagrange.interpolate_eq_add_interpolate_erase (r := Pi.single m 1) hx hi hj hij
  have h1 : ∀ t : Finset ℕ, Lagrange.interpolate t x (Pi.single m 1) = if m ∈ t then Lagrange.basis t x m else 0 := by
    intro t
    rw [Lagrange.interpolate_apply]
    split_ifs with h
    · rw [Finset.sum_eq_single m]
      · simp
      · intro b _ hb; simp [Pi.single_apply, hb]
      · intro h'; exact absurd h h'
    · apply Finset.sum_eq_zero
      intro b hb
      have : b ≠ m := fun e => h (e ▸ hb)
      simp [Pi.single_apply, this]
  rw [h1, h1, h1, if_pos hm] at key
  have key := congrArg (Polynomial.eval 0) key
  rw [key]
  simp only [Polynomial.eval_add, Polynomial.eval_mul, Lagrange.basisDivisor, Finset.mem_erase, hm, and_true,
    Polynomial.eval_C, Polynomial.eval_sub, Polynomial.eval_X, zero_sub]
  by_cases h : m = j <;> by_cases h' : m = i
  · exact absurd (h'.symm.trans h) hij
  · simp [h, hij.symm]; ring
  · simp [h', hij]; ring
  · simp [h, h']; ring

theorem extrap_split {x : ℕ → K} {s : Finset ℕ} {i j : ℕ} (hx : Set.InjOn x s) (hi : i ∈ s) (hj : j ∈ s)
    (hij : i ≠ j) (v : ℕ → V) :
    extrap x s v = (-x j / (x i - x j)) • extrap x (s.erase j) v +
      (-x i / (x j - x i)) • extrap x (s.erase i) v := by
  unfold extrap
  rw [Finset.smul_sum, Finset.smul_sum]
  have h1 : ∀ (k : ℕ) (c : K), k ∈ s → ∑ m ∈ s.erase k, c • (Lagrange.basis (s.erase k) x m).eval 0 • v m =
      ∑ m ∈ s, (if m = k then (0 : K) else (Lagrange.basis (s.erase k) x m).eval 0 * c) • v m := by
    intro k c hk
    rw [← Finset.sum_erase_add _ _ hk, if_pos rfl, zero_smul, add_zero]
    refine Finset.sum_congr rfl fun m hm => ?_
    rw [if_neg (Finset.ne_of_mem_erase hm), smul_smul, mul_comm]
  rw [h1 j _ hj, h1 i _ hi, ← Finset.sum_add_distrib]
  refine Finset.sum_congr rfl fun m hm => ?_
  rw [← add_smul, basis_zero_eq hx hi hj hij hm]

theorem extrap_singleton (x : ℕ → K) (k : ℕ) (v : ℕ → V) : extrap x {k} v = v k := by
  simp [extrap]

/-- Neville's recurrence at 0 for nodes `1 / s i`. -/
theorem extrap_neville {s : ℕ → K} {k j : ℕ} (hjk : j < k)
    (hs0 : ∀ i, i ≤ k → s i ≠ 0) (hinj : ∀ i i', i ≤ k → i' ≤ k → s i = s i' → i = i') (v : ℕ → V) :
    extrap (fun i => 1 / s i) (Finset.Icc (k - (j + 1)) k) v =
      (s k / (s k - s (k - j - 1))) • extrap (fun i => 1 / s i) (Finset.Icc (k - j) k) v +
      (-s (k - j - 1) / (s k - s (k - j - 1))) •
        extrap (fun i => 1 / s i) (Finset.Icc (k - 1 - j) (k - 1)) v := by
  have hd : s k - s (k - j - 1) ≠ 0 := by
    intro h
    have := hinj k (k - j - 1) le_rfl (by omega) (sub_eq_zero.1 h)
    omega
  have h1 := hs0 k le_rfl
  have h2 := hs0 (k - j - 1) (by omega)
  rw [extrap_split (i := k) (j := k - j - 1) (s := Finset.Icc (k - (j + 1)) k)]
  · have e1 : (Finset.Icc (k - (j + 1)) k).erase (k - j - 1) = Finset.Icc (k - j) k := by
      ext a; simp only [Finset.mem_erase, Finset.mem_Icc]; omega
    have e2 : (Finset.Icc (k - (j + 1)) k).erase k = Finset.Icc (k - 1 - j) (k - 1) := by
      ext a; simp only [Finset.mem_erase, Finset.mem_Icc]; omega
    rw [e1, e2]
    have hd' : s (k - j - 1) - s k ≠ 0 := fun h => hd (by rw [← neg_sub, h, neg_zero])
    have c1 : -(1 / s (k - j - 1)) / (1 / s k - 1 / s (k - j - 1)) = s k / (s k - s (k - j - 1)) := by
      have : 1 / s k - 1 / s (k - j - 1) = -(s k - s (k - j - 1)) / (s k * s (k - j - 1)) := by field_simp; ring
      rw [this]; field_simp
    have c2 : -(1 / s k) / (1 / s (k - j - 1) - 1 / s k) = -s (k - j - 1) / (s k - s (k - j - 1)) := by
      have : 1 / s (k - j - 1) - 1 / s k = (s k - s (k - j - 1)) / (s k * s (k - j - 1)) := by field_simp
      rw [this]; field_simp
    simp only [c1, c2]
  · intro a ha b hb hab
    simp only [Finset.coe_Icc, Set.mem_Icc] at ha hb
    apply hinj a b ha.2 hb.2
    simpa using hab
  · simp; 
  · simp only [Finset.mem_Icc]; omega
  · omega

end

theorem rd_ok {α : Type*} {l : List α} {i : ℕ} {a : α} (h : l[i]? = some a) : rd l i = .ok a := by
  simp [rd, h]

theorem wr_ok {α : Type*} {l : List α} {i : ℕ} (a : α) (h : i < l.length) : wr l i a = .ok (l.set i a) := by
  simp [wr, h]

/-- Invariant rule for loops in `Res`: the body succeeds and preserves `P`. -/
theorem forN_res {σ : Type} {n : ℕ} {s : σ} {f : ℕ → σ → Res σ} (P : ℕ → σ → Prop) (h0 : P 0 s)
    (hs : ∀ i t, i < n → P i t → ∃ t', f i t = .ok t' ∧ P (i + 1) t') :
    ∃ t, forN n s f = .ok t ∧ P n t := by
  induction n with
  | zero => exact ⟨s, rfl, h0⟩
  | succ n ih =>
    obtain ⟨t, ht, hp⟩ := ih fun i t hi => hs i t (by omega)
    obtain ⟨t', ht', hp'⟩ := hs n t (Nat.lt_succ_self n) hp
    refine ⟨t', ?_, hp'⟩
    show (forN n s f >>= fun s' => f n s') = _
    rw [ht]; exact ht'

section
variable {V K : Type} [Field K] [LinearOrder K] [AddCommGroup V] [Module K V]

/-- One call of `update_table(k, …)` on a state whose current row is row `k - 1` of the scheme. -/
theorem nevilleUpdate_ok {N : ℕ} {ss : List ℕ} (hlen : ss.length = N) {s : ℕ → K}
    (hss : ∀ i (a : ℕ), ss[i]? = some a → s i = (a : K))
    (hs0 : ∀ i, i < N → s i ≠ 0) (hinj : ∀ i i', i < N → i' < N → s i = s i' → i = i')
    (v : ℕ → V) {k : ℕ} (hk : k < N) {q : Neville V} (ht : q.table.length = N) (hp : q.prev.length = N)
    (hrow : ∀ j, j < k → q.table[j]? = some (extrap (fun i => 1 / s i) (Finset.Icc (k - 1 - j) (k - 1)) v)) :
    ∃ q', nevilleUpdate K ss k (v k) q = .ok q' ∧ q'.table.length = N ∧ q'.prev.length = N ∧
      ∀ j, j ≤ k → q'.table[j]? = some (extrap (fun i => 1 / s i) (Finset.Icc (k - j) k) v) := by
  have hread : ∀ i, i < N → ∃ a, ss[i]? = some a ∧ s i = (a : K) := by
    intro i hi
    exact ⟨ss[i], by simp [hlen, hi], hss i _ (by simp [hlen, hi])⟩
  have hinit : (q.prev.set 0 (v k)).length = N ∧ ∀ j, j ≤ 0 → (q.prev.set 0 (v k))[j]? =
      some (extrap (fun i => 1 / s i) (Finset.Icc (k - j) k) v) := by
    refine ⟨by simpa using hp, fun j hj => ?_⟩
    obtain rfl : j = 0 := by omega
    have h0 : 0 < q.prev.length := by omega
    simp [h0, extrap_singleton]
  unfold nevilleUpdate
  dsimp only
  rw [wr_ok _ (by omega)]
  by_cases hk0 : k = 0
  · subst hk0
    exact ⟨⟨q.prev.set 0 (v 0), q.table⟩, rfl, hinit.1, ht, hinit.2⟩
  · obtain ⟨t, hrun, hlen', hcells⟩ := forN_res (n := k) (s := q.prev.set 0 (v k))
      (f := nevilleBody (K := K) ss k q.table)
      (fun n t => t.length = N ∧ ∀ j, j ≤ n → t[j]? =
        some (extrap (fun i => 1 / s i) (Finset.Icc (k - j) k) v)) hinit (by
        rintro j t hj ⟨hl, hc⟩
        obtain ⟨a1, ha1, hs1⟩ := hread k hk
        obtain ⟨a2, ha2, hs2⟩ := hread (k - j - 1) (by omega)
        have hold : t[j + 1]? = some t[j + 1] := by simp
        refine ⟨t.set (j + 1) (extrap (fun i => 1 / s i) (Finset.Icc (k - (j + 1)) k) v), ?_, by simpa using hl, ?_⟩
        · simp only [nevilleBody, rd_ok ha1, rd_ok ha2, rd_ok (hc j le_rfl), rd_ok (hrow j hj), rd_ok hold,
            bind, Except.bind]
          rw [wr_ok _ (by omega)]
          congr 2
          rw [vfmaddn_none]
          simp only [Finset.sum_range_succ, Finset.range_zero, Finset.sum_empty, zero_add, if_true,
            one_ne_zero, if_false]
          rw [extrap_neville hj (fun i hi => hs0 i (by omega))
            (fun i i' hi hi' => hinj i i' (by omega) (by omega)), hs1, hs2]
        · intro i hi
          by_cases hij : i = j + 1
          · subst hij; rw [List.getElem?_set_self (by omega)]
          · rw [List.getElem?_set_ne (by omega)]; exact hc i (by omega))
    refine ⟨⟨t, q.table⟩, ?_, hlen', ht, hcells⟩
    simp [hk0, hrun, bind, Except.bind, pure, Except.pure]

end
end NB
