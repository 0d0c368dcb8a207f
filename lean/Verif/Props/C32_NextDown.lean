import Verif.Model.HeapIndex
import Mathlib.Tactic.Ring
import Mathlib.Tactic.NormNum
import Mathlib.Data.Nat.Bitwise

/-
C32  All variants of the heap successor function agree.
-/

namespace NB.C32
open NB

/-- The node after the subtree of `idx` in preorder, from the shape of the heap alone: with `j` the number
of steps to the right that end the path to `idx`, go up `j` times and then one to the right; the node after
a path of steps to the right only is the root. -/
def IsNext (idx next : ℕ) : Prop :=
  ∃ j q, idx = (2 * q) * 2 ^ j + (2 ^ j - 1) ∧ next = 2 * q + 1

lemma decompose (idx : ℕ) : ∃ j q, idx = (2 * q) * 2 ^ j + (2 ^ j - 1) := by
  induction idx using Nat.strong_induction_on with
  | _ n ih =>
    rcases Nat.even_or_odd' n with ⟨c, h | h⟩
    · exact ⟨0, c, by simp [h]⟩
    · obtain ⟨j, q, hc⟩ := ih c (by omega)
      refine ⟨j + 1, q, ?_⟩
      have h1 : 1 ≤ 2 ^ j := Nat.one_le_two_pow
      have e : 2 ^ (j + 1) = 2 * 2 ^ j := by ring
      have e2 : 2 * q * (2 * 2 ^ j) = 2 * (2 * q * 2 ^ j) := by ring
      rw [h, hc, e, e2]
      omega

lemma loop_eq (j q : ℕ) : nextDownLoop ((2 * q) * 2 ^ j + (2 ^ j - 1)) = 2 * q + 1 := by
  induction j with
  | zero =>
    unfold nextDownLoop
    simp [isRight_eq, left2right]
  | succ j ih =>
    have h1 : 1 ≤ 2 ^ j := Nat.one_le_two_pow
    have e : 2 ^ (j + 1) = 2 * 2 ^ j := by ring
    have e2 : 2 * q * (2 * 2 ^ j) = 2 * (2 * q * 2 ^ j) := by ring
    set X := 2 * q * 2 ^ j with hX
    unfold nextDownLoop
    have hodd : (2 * q * 2 ^ (j + 1) + (2 ^ (j + 1) - 1)) % 2 = 1 := by rw [e, e2]; omega
    have hpar : parentIdx (2 * q * 2 ^ (j + 1) + (2 ^ (j + 1) - 1)) = X + (2 ^ j - 1) := by
      rw [parentIdx, Nat.shiftRight_eq_div_pow, e, e2]; omega
    rw [if_pos (by rw [isRight_eq]; simpa using hodd), hpar]
    split
    · next hroot =>
      -- the parent is the root: there is nothing to the right
      unfold heapRoot at hroot ⊢
      rcases Nat.eq_zero_or_pos q with h | h
      · simp [h]
      · exfalso
        have h2 : 2 * 2 ^ j ≤ X := by rw [hX]; exact Nat.mul_le_mul_right _ (by omega)
        omega
    · exact ih

lemma ctzFrom_eq (x p : ℕ) (hb : x.testBit p = true) :
    ∀ n i, i ≤ p → p < i + n → (∀ k, i ≤ k → k < p → x.testBit k = false) → ctzFrom x n i = p := by
  intro n
  induction n with
  | zero => intro i h1 h2; omega
  | succ n ih =>
    intro i h1 h2 h3
    unfold ctzFrom
    rcases Nat.lt_or_ge i p with h | h
    · rw [h3 i (le_refl _) h]
      exact ih (i + 1) h (by omega) fun k hk => h3 k (by omega)
    · obtain rfl : i = p := by omega
      rw [hb]; rfl

lemma bit_idx (j q k : ℕ) (hk : k < j) : ((2 * q) * 2 ^ j + (2 ^ j - 1)).testBit k = true := by
  rw [mul_comm, Nat.testBit_two_pow_mul_add _ (by have := Nat.one_le_two_pow (n := j); omega) k, if_pos hk]
  simp [Nat.testBit_two_pow_sub_one, hk]

lemma bit_idx_self (j q : ℕ) : ((2 * q) * 2 ^ j + (2 ^ j - 1)).testBit j = false := by
  rw [mul_comm, Nat.testBit_two_pow_mul_add _ (by have := Nat.one_le_two_pow (n := j); omega) j,
    if_neg (lt_irrefl j)]
  simp

lemma testBit_bitNot (w x k : ℕ) (hk : k < w) : (bitNot w x).testBit k = !x.testBit k := by
  unfold bitNot
  rw [Nat.sub_sub, Nat.add_comm, Nat.testBit_two_pow_sub_succ (Nat.mod_lt _ (by positivity)),
    Nat.testBit_mod_two_pow]
  simp [hk]

lemma shift_idx (j q : ℕ) : ((2 * q) * 2 ^ j + (2 ^ j - 1)) >>> j = 2 * q := by
  have h1 : 1 ≤ 2 ^ j := Nat.one_le_two_pow
  rw [Nat.shiftRight_eq_div_pow, mul_comm, Nat.mul_add_div (by omega),
    Nat.div_eq_of_lt (by omega), Nat.add_zero]

/-- For every width of at least 32 bits, the low 32 bits of `~idx` are zero iff those of `idx` are all
ones, i.e. iff `idx` ends in at least 32 right steps. -/
lemma low_bits {w : ℕ} (hw : 32 ≤ w) (j q : ℕ) :
    bitNot w ((2 * q) * 2 ^ j + (2 ^ j - 1)) % 2 ^ 32 = 0 ↔ 32 ≤ j := by
  constructor
  · intro h
    by_contra hj
    have h1 := congrArg (fun x => x.testBit j) h
    simp only [Nat.testBit_mod_two_pow, Nat.zero_testBit] at h1
    rw [testBit_bitNot w _ j (by omega), bit_idx_self] at h1
    simp at h1
    omega
  · intro hj
    apply Nat.eq_of_testBit_eq
    intro k
    rw [Nat.testBit_mod_two_pow, Nat.zero_testBit]
    by_cases hk : k < 32
    · rw [testBit_bitNot w _ k (by omega), bit_idx j q k (by omega)]
      simp
    · simp [hk]

lemma ctz_idx {w : ℕ} (hw : 32 ≤ w) {j : ℕ} (hj : j < 32) (q : ℕ) :
    ctzFrom (bitNot w ((2 * q) * 2 ^ j + (2 ^ j - 1))) 32 0 = j := by
  apply ctzFrom_eq _ _ _ 32 0 (Nat.zero_le _) (by omega)
  · intro k _ hk
    rw [testBit_bitNot w _ k (by omega), bit_idx j q k hk]; rfl
  · rw [testBit_bitNot w _ j (by omega), bit_idx_self]; rfl

lemma j_lt {j q : ℕ} (h : (2 * q) * 2 ^ j + (2 ^ j - 1) < 2 ^ 32 - 1) : j < 32 := by
  by_contra hj
  have : 2 ^ 32 ≤ 2 ^ j := Nat.pow_le_pow_right (by norm_num) (by omega)
  omega

/-- The portable loop computes the next node in preorder after a subtree, for every index. -/
theorem loop_is_next (idx : ℕ) : IsNext idx (nextDownLoop idx) := by
  obtain ⟨j, q, rfl⟩ := decompose idx
  exact ⟨j, q, rfl, loop_eq j q⟩

/-- There is only one such node, so `IsNext` determines the result. -/
theorem next_unique {idx a b : ℕ} (ha : IsNext idx a) (hb : IsNext idx b) : a = b := by
  obtain ⟨j, q, h1, rfl⟩ := ha
  obtain ⟨j', q', h2, rfl⟩ := hb
  rw [← loop_eq j q, ← loop_eq j' q', ← h1, ← h2]

/-- **C32**: for every node index below `2^32 - 1` all variants of `next_down` return the same index. -/
theorem variants_agree {idx : ℕ} (h : idx < 2 ^ 32 - 1) :
    nextDownCtz idx = .ok (nextDownLoop idx) ∧ nextDownFfs idx = .ok (nextDownLoop idx) ∧
      nextDownOpencl idx = nextDownLoop idx := by
  obtain ⟨j, q, rfl⟩ := decompose idx
  have hj := j_lt h
  have hl64 := mt (low_bits (by norm_num : 32 ≤ 64) j q).1 (by omega)
  have hl32 := mt (low_bits (le_refl 32) j q).1 (by omega)
  rw [loop_eq]
  refine ⟨?_, ?_, ?_⟩
  · unfold nextDownCtz builtinCtz
    rw [if_neg hl64, ctz_idx (by norm_num) hj]
    show Except.ok (left2right _) = _
    rw [shift_idx]; rfl
  · unfold nextDownFfs cudaFfs
    rw [if_neg hl32, ctz_idx (le_refl 32) hj]
    simp only [Nat.add_eq_zero_iff, one_ne_zero, and_false, if_false, Nat.add_sub_cancel, shift_idx]
    rfl
  · unfold nextDownOpencl openclCtz
    rw [if_neg hl32, ctz_idx (le_refl 32) hj, Nat.mod_eq_of_lt hj, shift_idx]; rfl

/-- The limit is exact: the host variant is undefined for precisely the indices whose low 32 bits are all
ones, the first of which is `2^32 - 1`. -/
theorem ctz_undefined_iff (idx : ℕ) :
    nextDownCtz idx = .error .badArith ↔ idx % 2 ^ 32 = 2 ^ 32 - 1 := by
  obtain ⟨j, q, rfl⟩ := decompose idx
  have key : ((2 * q) * 2 ^ j + (2 ^ j - 1)) % 2 ^ 32 = 2 ^ 32 - 1 ↔ 32 ≤ j := by
    constructor
    · intro h
      by_contra hj
      have h1 := congrArg (fun x => x.testBit j) h
      simp only [Nat.testBit_mod_two_pow, Nat.testBit_two_pow_sub_one] at h1
      rw [bit_idx_self] at h1
      simp at h1
      omega
    · intro hj
      apply Nat.eq_of_testBit_eq
      intro k
      rw [Nat.testBit_mod_two_pow, Nat.testBit_two_pow_sub_one]
      by_cases hk : k < 32
      · rw [bit_idx j q k (by omega)]; simp
      · simp [hk]
  rw [key]
  unfold nextDownCtz builtinCtz
  by_cases hj : 32 ≤ j
  · rw [if_pos ((low_bits (by norm_num) j q).2 hj)]
    exact ⟨fun _ => hj, fun _ => rfl⟩
  · rw [if_neg (mt (low_bits (by norm_num) j q).1 hj)]
    constructor
    · intro h; cases h
    · intro h; exact absurd h hj

/-! Non-vacuity: inner and outer indices, among them the rightmost node of a level. -/

example : nextDownLoop 11 = 3 ∧ nextDownCtz 11 = .ok 3 ∧ nextDownFfs 11 = .ok 3 ∧ nextDownOpencl 11 = 3 := by
  have h : nextDownLoop 11 = 3 := loop_eq 2 1
  have := variants_agree (idx := 11) (by norm_num)
  rw [h] at this
  exact ⟨h, this⟩

example : nextDownLoop 7 = 1 ∧ nextDownCtz 7 = .ok 1 := by
  have h : nextDownLoop 7 = 1 := loop_eq 3 0
  have := variants_agree (idx := 7) (by norm_num)
  rw [h] at this
  exact ⟨h, this.1⟩

example : nextDownCtz (2 ^ 32 - 1) = .error .badArith := (ctz_undefined_iff _).2 (by norm_num)

end NB.C32
