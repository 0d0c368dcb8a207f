import Verif.Lemmas.Neville
import Mathlib.Algebra.Order.Field.Basic
import Mathlib.Data.List.Sort
import Mathlib.Tactic.NormNum

/-
C21: Neville extrapolation evaluates the interpolating polynomial at zero step.  Exact arithmetic.
-/

namespace NB.C21

variable {V K : Type} [Field K] [LinearOrder K] [IsStrictOrderedRing K] [AddCommGroup V] [Module K V]

variable (K) in
/-- The calls `update_table(0, v 0)`, …, `update_table(k, v k)` on an extrapolator constructed with the
substep counts `ss` and the given `order`. -/
def updates (order : ℕ) (ss : List ℕ) (k : ℕ) (v : ℕ → V) (q : Neville V) : Res (Neville V) :=
  forN (k + 1) q (fun i q => nevilleUpdate K (extrSteps order ss) i (v i) q)

lemma extrSteps_eq (order : ℕ) (ss : List ℕ) : extrSteps order ss = ss.map (fun s => s ^ order) := by
  unfold extrSteps
  split_ifs with h
  · rfl
  · have : order = 1 := by simpa using h
    subst this; simp

lemma updates_row {order : ℕ} (ho : order ≠ 0) {ss : List ℕ} (hpos : ∀ a ∈ ss, 0 < a)
    (hinc : ss.Pairwise (· < ·)) {n : ℕ → ℕ} (hn : ∀ i, i < ss.length → ss[i]? = some (n i)) {q : Neville V}
    (ht : q.table.length = ss.length) (hp : q.prev.length = ss.length) (v : ℕ → V) {k : ℕ}
    (hk : k < ss.length) :
    ∃ q', updates K order ss k v q = .ok q' ∧ q'.table.length = ss.length ∧ q'.prev.length = ss.length ∧
      ∀ j, j ≤ k → q'.table[j]? =
        some (extrap (fun i => 1 / (((n i) ^ order : ℕ) : K)) (Finset.Icc (k - j) k) v) := by
  have hmono : ∀ i i', i < i' → i' < ss.length → n i < n i' := by
    intro i i' h h'
    have h1 := hn i (by omega)
    have h2 := hn i' h'
    rw [List.getElem?_eq_getElem (by omega)] at h1 h2
    rw [← Option.some.inj h1, ← Option.some.inj h2]
    exact List.pairwise_iff_getElem.1 hinc i i' (by omega) h' h
  have hpos' : ∀ i, i < ss.length → 0 < n i := by
    intro i hi
    exact hpos _ (List.mem_of_getElem? (hn i hi))
  have hpow : ∀ i i', i < i' → i' < ss.length → n i ^ order < n i' ^ order := fun i i' h h' =>
    Nat.pow_lt_pow_left (hmono i i' h h') ho
  obtain ⟨q', hq, h1, h2, h3⟩ := forN_res (n := k + 1) (s := q)
    (f := fun i q => nevilleUpdate K (extrSteps order ss) i (v i) q)
    (fun m q => q.table.length = ss.length ∧ q.prev.length = ss.length ∧ ∀ j, j < m → q.table[j]? =
      some (extrap (fun i => 1 / (((n i) ^ order : ℕ) : K)) (Finset.Icc (m - 1 - j) (m - 1)) v))
    ⟨ht, hp, by simp⟩ (by
      rintro i q hi ⟨h1, h2, h3⟩
      obtain ⟨q', hq, g1, g2, g3⟩ := nevilleUpdate_ok (K := K) (N := ss.length) (ss := extrSteps order ss)
        (by simp [extrSteps_eq]) (s := fun i => (((n i) ^ order : ℕ) : K))
        (by
          intro i a h
          have hi : i < ss.length := by
            have := (List.getElem?_eq_some_iff.1 h).1
            simpa [extrSteps_eq] using this
          rw [extrSteps_eq, List.getElem?_map, hn i hi] at h
          rw [← Option.some.inj h])
        (by
          intro i hi
          have := Nat.pow_pos (n := order) (hpos' i hi)
          exact_mod_cast this.ne')
        (by
          intro i i' hi hi' h
          have h : n i ^ order = n i' ^ order := by exact_mod_cast h
          rcases Nat.lt_trichotomy i i' with hlt | heq | hgt
          · exact absurd h (hpow i i' hlt hi').ne
          · exact heq
          · exact absurd h (hpow i' i hgt hi).ne')
        v (k := i) (by omega) h1 h2 h3
      exact ⟨q', hq, g1, g2, fun j hj => g3 j (by omega)⟩)
  exact ⟨q', hq, h1, h2, fun j hj => h3 j (by omega)⟩

/-- After `update_table` on levels `0, …, k`, `extrapolate(k)` returns the value at `0` of the polynomial
that takes the value `v i` at `(1/n_i)^order` for `i ≤ k`, whatever the tables held before. -/
theorem neville_is_interpolation {order : ℕ} (ho : order ≠ 0) {ss : List ℕ} (hpos : ∀ a ∈ ss, 0 < a)
    (hinc : ss.Pairwise (· < ·)) {n : ℕ → ℕ} (hn : ∀ i, i < ss.length → ss[i]? = some (n i)) {q : Neville V}
    (ht : q.table.length = ss.length) (hp : q.prev.length = ss.length) (v : ℕ → V) {k : ℕ}
    (hk : k < ss.length) :
    (updates K order ss k v q >>= fun q' => nevilleExtrapolate q' k) =
      .ok (∑ i ∈ Finset.range (k + 1),
        (Lagrange.basis (Finset.range (k + 1)) (fun i => (1 / (n i : K)) ^ order) i).eval 0 • v i) := by
  obtain ⟨q', hq, _, _, h⟩ := updates_row (K := K) ho hpos hinc hn ht hp v hk
  rw [hq]
  show nevilleExtrapolate q' k = _
  rw [nevilleExtrapolate, rd_ok (h k le_rfl)]
  have : Finset.Icc (k - k) k = Finset.range (k + 1) := by ext a; simp [Nat.lt_succ_iff]
  rw [this]
  simp [extrap]

/-- The scalar case in terms of Mathlib's interpolating polynomial. -/
theorem neville_scalar {order : ℕ} (ho : order ≠ 0) {ss : List ℕ} (hpos : ∀ a ∈ ss, 0 < a)
    (hinc : ss.Pairwise (· < ·)) {n : ℕ → ℕ} (hn : ∀ i, i < ss.length → ss[i]? = some (n i)) {q : Neville K}
    (ht : q.table.length = ss.length) (hp : q.prev.length = ss.length) (v : ℕ → K) {k : ℕ}
    (hk : k < ss.length) :
    (updates K order ss k v q >>= fun q' => nevilleExtrapolate q' k) =
      .ok ((Lagrange.interpolate (Finset.range (k + 1)) (fun i => (1 / (n i : K)) ^ order) v).eval 0) := by
  rw [neville_is_interpolation ho hpos hinc hn ht hp v hk, Lagrange.interpolate_apply,
    Polynomial.eval_finset_sum]
  congr 1
  refine Finset.sum_congr rfl fun i _ => ?_
  simp [mul_comm]

lemma basis_moment {s : Finset ℕ} {x : ℕ → K} (hx : Set.InjOn x s) {d : ℕ} (hd : d < s.card) :
    ∑ i ∈ s, (Lagrange.basis s x i).eval 0 * x i ^ d = if d = 0 then 1 else 0 := by
  have h := Lagrange.eq_interpolate (f := (Polynomial.X : Polynomial K) ^ d) hx
    (by rw [Polynomial.degree_X_pow]; exact_mod_cast hd)
  have h := congrArg (Polynomial.eval 0) h
  rw [Lagrange.interpolate_apply, Polynomial.eval_finset_sum] at h
  simp only [Polynomial.eval_pow, Polynomial.eval_X, Polynomial.eval_mul, Polynomial.eval_C] at h
  rw [← zero_pow_eq, h]
  exact Finset.sum_congr rfl fun i _ => mul_comm _ _

/-- If the values are a polynomial of degree at most `k` in `(1/n)^order`, with vector coefficients
`c 0, …, c k`, the limit `c 0` for step size zero is returned exactly. -/
theorem neville_exact {order : ℕ} (ho : order ≠ 0) {ss : List ℕ} (hpos : ∀ a ∈ ss, 0 < a)
    (hinc : ss.Pairwise (· < ·)) {n : ℕ → ℕ} (hn : ∀ i, i < ss.length → ss[i]? = some (n i)) {q : Neville V}
    (ht : q.table.length = ss.length) (hp : q.prev.length = ss.length) {v : ℕ → V} {k : ℕ}
    (hk : k < ss.length) (c : ℕ → V)
    (hv : ∀ i, i ≤ k → v i = ∑ d ∈ Finset.range (k + 1), (((1 / (n i : K)) ^ order) ^ d) • c d) :
    (updates K order ss k v q >>= fun q' => nevilleExtrapolate q' k) = .ok (c 0) := by
  rw [neville_is_interpolation (K := K) ho hpos hinc hn ht hp v hk]
  congr 1
  have hx : Set.InjOn (fun i => (1 / (n i : K)) ^ order) (Finset.range (k + 1)) := by
    intro a ha b hb hab
    simp only [Finset.coe_range, Set.mem_Iio] at ha hb
    have hmono : ∀ i i', i < i' → i' < ss.length → n i < n i' := by
      intro i i' h h'
      have h1 := hn i (by omega)
      have h2 := hn i' h'
      rw [List.getElem?_eq_getElem (by omega)] at h1 h2
      rw [← Option.some.inj h1, ← Option.some.inj h2]
      exact List.pairwise_iff_getElem.1 hinc i i' (by omega) h' h
    simp only [one_div, inv_pow, inv_inj] at hab
    have hab : n a ^ order = n b ^ order := by exact_mod_cast hab
    rcases Nat.lt_trichotomy a b with h | h | h
    · exact absurd hab (Nat.pow_lt_pow_left (hmono a b h (by omega)) ho).ne
    · exact h
    · exact absurd hab (Nat.pow_lt_pow_left (hmono b a h (by omega)) ho).ne'
  have h1 : ∀ i ∈ Finset.range (k + 1),
      (Lagrange.basis (Finset.range (k + 1)) (fun i => (1 / (n i : K)) ^ order) i).eval 0 • v i =
      ∑ d ∈ Finset.range (k + 1),
        ((Lagrange.basis (Finset.range (k + 1)) (fun i => (1 / (n i : K)) ^ order) i).eval 0 *
          ((1 / (n i : K)) ^ order) ^ d) • c d := by
    intro i hi
    rw [hv i (by have := Finset.mem_range.1 hi; omega), Finset.smul_sum]
    exact Finset.sum_congr rfl fun d _ => smul_smul _ _ _
  rw [Finset.sum_congr rfl h1, Finset.sum_comm]
  simp only [← Finset.sum_smul]
  rw [Finset.sum_eq_single 0]
  · rw [basis_moment hx (by simp)]; simp
  · intro d hd hd0
    rw [basis_moment hx (by simpa using hd), if_neg hd0, zero_smul]
  · intro h; simp at h

/-- `estimate_error(k)` is the norm of the difference of the last two extrapolations: with all levels and
with levels `1, …, k` only. -/
theorem neville_error {order : ℕ} (ho : order ≠ 0) {ss : List ℕ} (hpos : ∀ a ∈ ss, 0 < a)
    (hinc : ss.Pairwise (· < ·)) {n : ℕ → ℕ} (hn : ∀ i, i < ss.length → ss[i]? = some (n i)) {q : Neville V}
    (ht : q.table.length = ss.length) (hp : q.prev.length = ss.length) (v : ℕ → V) {k : ℕ}
    (hk : k < ss.length) (hk0 : k ≠ 0) (nrm : V → K) (big : K) :
    (updates K order ss k v q >>= fun q' => nevilleError nrm big q' k) =
      .ok (nrm (∑ i ∈ Finset.range (k + 1),
          (Lagrange.basis (Finset.range (k + 1)) (fun i => (1 / (n i : K)) ^ order) i).eval 0 • v i -
        ∑ i ∈ Finset.Icc 1 k,
          (Lagrange.basis (Finset.Icc 1 k) (fun i => (1 / (n i : K)) ^ order) i).eval 0 • v i)) := by
  obtain ⟨q', hq, _, _, h⟩ := updates_row (K := K) ho hpos hinc hn ht hp v hk
  rw [hq]
  show nevilleError nrm big q' k = _
  have e1 : Finset.Icc (k - k) k = Finset.range (k + 1) := by ext a; simp [Nat.lt_succ_iff]
  have e2 : Finset.Icc (k - (k - 1)) k = Finset.Icc 1 k := by
    have : k - (k - 1) = 1 := by omega
    rw [this]
  simp only [nevilleError, hk0, if_false, rd_ok (h k le_rfl), rd_ok (h (k - 1) (by omega)), bind, Except.bind,
    pure, Except.pure, e1, e2, vfmadd]
  simp [extrap, sub_eq_add_neg]

/-- The hypotheses are met by the substep counts of the Bulirsch-Stoer solver; the values 3 + 5/n² are
extrapolated to 3, whatever the tables held. -/
example (junk : Fin 8 → ℚ) :
    (updates ℚ 2 [2, 4, 6, 8] 1 (fun i => if i = 0 then 3 + 5 / 4 else 3 + 5 / 16 : ℕ → ℚ)
      ⟨[junk 0, junk 1, junk 2, junk 3], [junk 4, junk 5, junk 6, junk 7]⟩ >>=
        fun q' => nevilleExtrapolate q' 1) = .ok 3 := by
  have := neville_exact (K := ℚ) (V := ℚ) (order := 2) (by decide) (ss := [2, 4, 6, 8])
    (by decide) (by decide) (n := fun i => 2 * (i + 1))
    (by intro i hi; simp at hi; rcases i with _ | _ | _ | _ | i <;> first | rfl | omega)
    (q := ⟨[junk 0, junk 1, junk 2, junk 3], [junk 4, junk 5, junk 6, junk 7]⟩) rfl rfl
    (v := fun i => if i = 0 then 3 + 5 / 4 else 3 + 5 / 16) (k := 1) (by decide)
    (fun d => if d = 0 then 3 else 5)
    (by
      intro i hi
      have : i = 0 ∨ i = 1 := by omega
      rcases this with rfl | rfl <;> simp [Finset.sum_range_succ] <;> norm_num)
  simpa using this

end NB.C21
