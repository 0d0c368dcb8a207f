import Verif.Lemmas.Neville
import Mathlib.Algebra.Order.Field.Basic
import Mathlib.Algebra.BigOperators.Field
import Mathlib.Tactic.Linarith
import Mathlib.Tactic.LinearCombination
import Mathlib.Tactic.NormNum
import Mathlib.Tactic.Positivity

/-
C22: the Berrut extrapolator.  The property as stated ("a combination of the stored values `0..k` whose
weights sum to one") fails: entry `k` is never used and `extrapolate(0)` is the zero vector.  What holds
is proved in `berrut_formula` and `berrut_constants_partial`.
-/

namespace NB.C22

variable {V K : Type} [Field K] [LinearOrder K] [IsStrictOrderedRing K] [AddCommGroup V] [Module K V]

/-- The alternating sum of the first `level` counts. -/
def altSum (K : Type) [Field K] (s : ℕ → ℕ) (level : ℕ) : K :=
  ∑ n ∈ Finset.range level, (-1) ^ (n + 1) * (s n : K)

omit [LinearOrder K] [IsStrictOrderedRing K] in
lemma foldl_add (l : List K) (a : K) : l.foldl (· + ·) a = a + l.sum := by
  induction l generalizing a with
  | nil => simp
  | cons x l ih => simp [ih, add_assoc]

omit [LinearOrder K] [IsStrictOrderedRing K] in
lemma weights_eq {ss : List ℕ} {s : ℕ → ℕ} (hs : ∀ i, i < ss.length → ss[i]? = some (s i)) {level : ℕ}
    (hl : level ≤ ss.length) :
    berrutWeights K ss level =
      .ok (buf level fun n => (-1) ^ (n + 1) * (s n : K) / altSum K s level) := by
  have h1 : forN level ([] : List K) (fun n w => do
      let s ← rd ss n
      pure (w ++ [(-1) ^ (n + 1) * (s : K)])) = .ok (buf level fun n => (-1) ^ (n + 1) * (s n : K)) := by
    clear * - hs hl
    induction level with
    | zero => rfl
    | succ n ih =>
      rw [forN, ih (by omega)]
      show (rd ss n >>= fun x => _) = _
      rw [rd_ok (hs n (by omega))]
      simp [buf, List.range_succ, bind, Except.bind, pure, Except.pure]
  unfold berrutWeights
  rw [h1]
  have hsum : (buf level fun n => (-1) ^ (n + 1) * (s n : K)).sum = altSum K s level := by
    unfold buf altSum
    rw [Finset.sum_eq_multiset_sum]
    rfl
  simp only [bind, Except.bind, pure, Except.pure, foldl_add, zero_add, hsum]
  simp [buf]

lemma tableSum_eq (a : V) {table : List V} {v : ℕ → V} (hv : ∀ i, i < table.length → table[i]? = some (v i))
    {w : ℕ → K} {n m : ℕ} (hn : n ≤ table.length) (hm : n ≤ m) :
    tableSum a table (buf m w) n = .ok (a + ∑ i ∈ Finset.range n, w i • v i) := by
  unfold tableSum
  rw [if_neg (by omega)]
  induction n with
  | zero => simp [forN, pure, Except.pure]
  | succ n ih =>
    rw [forN, ih (by omega) (by omega)]
    have hw : (buf m w)[n]? = some (w n) := by
      have : n < m := by omega
      simp [buf, this]
    show (rd (buf m w) n >>= fun c => rd table n >>= fun b => pure _) = _
    rw [rd_ok hw, rd_ok (hv n (by omega))]
    simp only [bind, Except.bind, pure, Except.pure, Finset.sum_range_succ]
    congr 1
    split_ifs with h
    · simp [h]
    · simp [vfmadd, add_assoc]

/-- What `extrapolate(level)` computes for `level ≥ 1`: the combination of the first `level` entries with
weights proportional to `(-1)^(n+1) s_n`. -/
theorem berrut_formula {ss : List ℕ} {s : ℕ → ℕ} (hs : ∀ i, i < ss.length → ss[i]? = some (s i))
    {table : List V} (ht : table.length = ss.length) {v : ℕ → V}
    (hv : ∀ i, i < table.length → table[i]? = some (v i)) {level : ℕ} (h0 : level ≠ 0)
    (hl : level ≤ ss.length) :
    berrutExtrapolate K ss table level =
      .ok (∑ n ∈ Finset.range level, ((-1) ^ (n + 1) * (s n : K) / altSum K s level) • v n) := by
  unfold berrutExtrapolate
  rw [weights_eq hs hl]
  simp only [bind, Except.bind, h0, if_false]
  rw [tableSum_eq (K := K) 0 hv (by omega) le_rfl, zero_add]

/-- The alternating sum of positive, strictly increasing counts does not vanish: its sign is that of the
last term. -/
lemma altSum_sign {s : ℕ → ℕ} {N : ℕ} (hinc : ∀ i, i + 1 < N → s i < s (i + 1)) (hpos : ∀ i, i < N → 0 < s i)
    (k : ℕ) (hk : k < N) :
    0 < (-1) ^ (k + 1) * altSum K s (k + 1) ∧ (-1) ^ (k + 1) * altSum K s (k + 1) ≤ (s k : K) := by
  induction k with
  | zero =>
    have : (0 : K) < (s 0 : K) := by exact_mod_cast hpos 0 hk
    simp [altSum]
    exact this.ne' |> fun h => by exact_mod_cast hpos 0 hk
  | succ k ih =>
    obtain ⟨h1, h2⟩ := ih (by omega)
    have hlt : (s k : K) < (s (k + 1) : K) := by exact_mod_cast hinc k hk
    have hsq : ((-1 : K) ^ (k + 1)) * (-1) ^ (k + 1) = 1 := by
      rw [← pow_add, ← two_mul, pow_mul]; norm_num
    have hstep : (-1 : K) ^ (k + 1 + 1) * altSum K s (k + 1 + 1) =
        (s (k + 1) : K) - (-1) ^ (k + 1) * altSum K s (k + 1) := by
      have : altSum K s (k + 1 + 1) = altSum K s (k + 1) + (-1) ^ (k + 1 + 1) * (s (k + 1) : K) := by
        rw [altSum, Finset.sum_range_succ]; rfl
      rw [this, pow_succ (-1 : K) (k + 1)]
      linear_combination (s (k + 1) : K) * hsq
    rw [hstep]
    constructor <;> linarith

/-- For `1 ≤ level ≤ count` the weights sum to one, so constants are reproduced.  Missing from the full
property: `level = 0` (see `berrut_zero`) and the use of entry `level` (see `berrut_ignores_entry`). -/
theorem berrut_constants_partial {ss : List ℕ} (hpos : ∀ a ∈ ss, 0 < a) (hinc : ss.Pairwise (· < ·))
    {table : List V} (ht : table.length = ss.length) {y : V} {level : ℕ}
    (hy : ∀ i, i < level → table[i]? = some y) (h0 : level ≠ 0) (hl : level ≤ ss.length) :
    berrutExtrapolate K ss table level = .ok y := by
  have hs : ∀ i, i < ss.length → ss[i]? = some (ss[i]?.getD 0) := by
    intro i hi; simp [hi]
  have hv : ∀ i, i < table.length → table[i]? = some (table[i]?.getD 0) := by
    intro i hi; simp [hi]
  rw [berrut_formula hs ht hv h0 hl]
  congr 1
  obtain ⟨k, rfl⟩ : ∃ k, level = k + 1 := ⟨level - 1, by omega⟩
  have hne : altSum K (fun i => ss[i]?.getD 0) (k + 1) ≠ 0 := by
    have := (altSum_sign (K := K) (s := fun i => ss[i]?.getD 0) (N := ss.length)
      (fun i hi => by
        have := List.pairwise_iff_getElem.1 hinc i (i + 1) (by omega) hi (by omega)
        simpa [hi, show i < ss.length by omega] using this)
      (fun i hi => by
        have : ss[i] ∈ ss := List.getElem_mem hi
        simpa [hi] using hpos _ this) k (by omega)).1
    intro h
    rw [h, mul_zero] at this
    exact lt_irrefl _ this
  rw [Finset.sum_congr rfl (fun n hn => by rw [hy n (Finset.mem_range.1 hn), Option.getD_some]),
    ← Finset.sum_smul, ← Finset.sum_div]
  rw [show (∑ i ∈ Finset.range (k + 1), (-1 : K) ^ (i + 1) * ((ss[i]?.getD 0 : ℕ) : K)) =
    altSum K (fun i => ss[i]?.getD 0) (k + 1) from rfl, div_self hne, one_smul]

/-- `extrapolate(level)` never looks at entry `level` (nor beyond): the value stored by the most recent
`update_table(level, …)` has no effect. -/
theorem berrut_ignores_entry {ss : List ℕ} {table : List V} (ht : table.length = ss.length) {level : ℕ}
    (hl : level < ss.length) (y : V) :
    (berrutUpdate level y table >>= fun t => berrutExtrapolate K ss t level) =
      berrutExtrapolate K ss table level := by
  have hs : ∀ i, i < ss.length → ss[i]? = some (ss[i]?.getD 0) := by
    intro i hi; simp [hi]
  rw [berrutUpdate, wr_ok _ (by omega)]
  show berrutExtrapolate K ss (table.set level y) level = _
  by_cases h0 : level = 0
  · subst h0; rfl
  · have hv : ∀ t : List V, ∀ i, i < t.length → t[i]? = some (t[i]?.getD 0) := by
      intro t i hi; simp [hi]
    rw [berrut_formula hs (by simpa using ht) (hv _) h0 hl.le, berrut_formula hs ht (hv _) h0 hl.le]
    congr 1
    refine Finset.sum_congr rfl fun n hn => ?_
    have : level ≠ n := by have := Finset.mem_range.1 hn; omega
    rw [List.getElem?_set_ne this]

/-- `extrapolate(0)` is the zero vector whatever is stored. -/
theorem berrut_zero (ss : List ℕ) (table : List V) : berrutExtrapolate K ss table 0 = .ok 0 := by
  simp [berrutExtrapolate, berrutWeights, forN, bind, Except.bind, pure, Except.pure]

/-- The property fails: after `update_table(0, 7)` the extrapolation at level 0 is 0, not 7; after
`update_table(1, 9)` with 7 at level 0, the extrapolation at level 1 is 7 although the data 7, 9 at 2 and
4 substeps are not constant. -/
theorem berrut_violates :
    (berrutUpdate 0 (7 : ℚ) [0, 0] >>= fun t => berrutExtrapolate ℚ [2, 4] t 0) = .ok 0 ∧
    (berrutUpdate 1 (9 : ℚ) [7, 0] >>= fun t => berrutExtrapolate ℚ [2, 4] t 1) = .ok 7 := by
  constructor
  · rw [berrut_ignores_entry (V := ℚ) (K := ℚ) (ss := [2, 4]) (table := [0, 0]) rfl (by decide), berrut_zero]
  · rw [berrut_ignores_entry (V := ℚ) (K := ℚ) (ss := [2, 4]) (table := [7, 0]) rfl (by decide)]
    exact berrut_constants_partial (V := ℚ) (K := ℚ) (y := (7 : ℚ)) (level := 1) (ss := [2, 4]) (by decide) (by decide) rfl
      (by intro i hi; obtain rfl : i = 0 := by omega
          rfl) (by decide) (by decide)

/-- The hypotheses of `berrut_constants_partial` are met with several levels. -/
example : berrutExtrapolate ℚ [2, 4, 6, 8] [(5 : ℚ), 5, 5, 0] 3 = .ok 5 :=
  berrut_constants_partial (V := ℚ) (K := ℚ) (ss := [2, 4, 6, 8]) (level := 3) (by decide) (by decide) rfl
    (by intro i hi; rcases i with _ | _ | _ | i <;> first | rfl | omega) (by decide) (by decide)

end NB.C22
