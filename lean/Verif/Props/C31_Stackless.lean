import Verif.Props.C32_NextDown
import Verif.Model.SpaceHeap
import Mathlib.Tactic.Positivity

/-
C31  The stackless walk equals the stack-based walk and both end.
-/

namespace NB.C31
open NB

variable {σ : Type}

/-- The intended walk of a complete binary tree of height `h` below node `idx`: visit the node; if it is not
accepted, walk the left and then the right subtree. -/
def walk (step : ℕ → σ → Res (Bool × σ)) : ℕ → ℕ → σ → Res σ
  | 0, idx, s => do
    let (_, s') ← step idx s
    .ok s'
  | h + 1, idx, s => do
    let (accepted, s') ← step idx s
    if accepted then .ok s'
    else do
      let s'' ← walk step h (2 * idx) s'
      walk step h (2 * idx + 1) s''

lemma left_eq (idx : ℕ) : leftIdx idx = 2 * idx := by
  simp [leftIdx, Nat.shiftLeft_eq]; ring

lemma rght_eq (idx : ℕ) : rghtIdx idx = 2 * idx + 1 := by
  simp [rghtIdx, Nat.shiftLeft_eq]; ring

lemma push_ok (i : ℕ) {st : List ℕ} (h : st.length < 64) : push i st = .ok (i :: st) := if_pos h

lemma stack_open {size : ℕ} {step : ℕ → σ → Res (Bool × σ)} {idx : ℕ} {s s' : σ} {st : List ℕ}
    (hs : step idx s = .ok (false, s')) (hin : 2 * idx + 1 < size) (hst : st.length + 1 < 64) (fuel : ℕ) :
    stackWalk size step (fuel + 1) (idx :: st) s =
      stackWalk size step fuel (2 * idx :: (2 * idx + 1) :: st) s' := by
  simp only [stackWalk, hs, left_eq, rght_eq, bind, Except.bind, Bool.false_eq_true, if_false]
  simp only [hin, (by omega : 2 * idx < size), if_true, push_ok _ (by omega : st.length < 64)]
  rw [push_ok _ (by simpa using hst)]

lemma stack_leaf {size : ℕ} {step : ℕ → σ → Res (Bool × σ)} {idx : ℕ} {s s' : σ} {st : List ℕ} {a : Bool}
    (hs : step idx s = .ok (a, s')) (hin : size ≤ 2 * idx) (fuel : ℕ) :
    stackWalk size step (fuel + 1) (idx :: st) s = stackWalk size step fuel st s' := by
  simp only [stackWalk, hs, left_eq, rght_eq, bind, Except.bind]
  rw [if_neg (by omega : ¬ 2 * idx + 1 < size)]
  simp only []
  rw [if_neg (by omega : ¬ 2 * idx < size)]
  cases a <;> rfl

lemma stack_step {k : ℕ} (hk : k ≤ 63) (step : ℕ → σ → Res (Bool × σ)) :
    ∀ (h d idx : ℕ), d + h = k → 2 ^ d ≤ idx → idx < 2 ^ (d + 1) → ∀ (st : List ℕ), st.length ≤ d → ∀ s,
      ∃ c, c ≤ 2 ^ (h + 1) - 1 ∧ ∀ fuel, stackWalk (2 ^ (k + 1)) step (fuel + c) (idx :: st) s =
        (walk step h idx s).bind (stackWalk (2 ^ (k + 1)) step fuel st) := by
  intro h
  induction h with
  | zero =>
    intro d idx hd h1 h2 st hst s
    obtain rfl : d = k := by omega
    refine ⟨1, by norm_num, fun fuel => ?_⟩
    cases hs : step idx s with
    | error e => simp only [stackWalk, walk, hs]; rfl
    | ok r =>
      obtain ⟨a, s'⟩ := r
      have e : 2 ^ (d + 1) = 2 * 2 ^ d := by ring
      rw [stack_leaf hs (by omega)]
      simp only [walk, hs]
      rfl
  | succ h ih =>
    intro d idx hd h1 h2 st hst s
    have hpow : 1 ≤ 2 ^ (h + 1) := Nat.one_le_two_pow
    have epow : 2 ^ (h + 1 + 1) = 2 * 2 ^ (h + 1) := by ring
    cases hs : step idx s with
    | error e =>
      refine ⟨1, by omega, fun fuel => ?_⟩
      simp only [stackWalk, walk, hs]
      rfl
    | ok r =>
      obtain ⟨a, s'⟩ := r
      cases a with
      | true =>
        refine ⟨1, by omega, fun fuel => ?_⟩
        simp only [stackWalk, walk, hs]
        rfl
      | false =>
        have e1 : 2 ^ (d + 1) = 2 * 2 ^ d := by ring
        have e2 : 2 ^ (d + 1 + 1) = 2 * 2 ^ (d + 1) := by ring
        have hin : 2 * idx + 1 < 2 ^ (k + 1) := by
          have : 2 ^ (d + 2) ≤ 2 ^ (k + 1) := Nat.pow_le_pow_right (by norm_num) (by omega)
          rw [show d + 2 = d + 1 + 1 from rfl, e2] at this
          omega
        obtain ⟨c1, hc1, hw1⟩ := ih (d + 1) (2 * idx) (by omega) (by omega) (by omega) ((2 * idx + 1) :: st)
          (by simp; omega) s'
        cases hl : walk step h (2 * idx) s' with
        | error e =>
          refine ⟨c1 + 1, by omega, fun fuel => ?_⟩
          rw [← Nat.add_assoc, stack_open hs hin (by omega), hw1 fuel, hl]
          simp only [walk, hs, hl, bind, Except.bind, Bool.false_eq_true, if_false]
        | ok s'' =>
          obtain ⟨c2, hc2, hw2⟩ := ih (d + 1) (2 * idx + 1) (by omega) (by omega) (by omega) st (by omega) s''
          refine ⟨c2 + c1 + 1, by omega, fun fuel => ?_⟩
          rw [← Nat.add_assoc, ← Nat.add_assoc, stack_open hs hin (by omega), hw1 (fuel + c2), hl]
          simp only [walk, hs, hl, bind, Except.bind, Bool.false_eq_true, if_false]
          rw [hw2 fuel]
          rfl

lemma stackWalk_nil (size : ℕ) (step : ℕ → σ → Res (Bool × σ)) (fuel : ℕ) (s : σ) :
    stackWalk size step fuel [] s = .ok s := by
  cases fuel <;> rfl

/-- The stack-based walk of a heap of size `2^(k+1)` is the intended one and never holds more than 64
entries (which would be the outcome `stackOverflow` whatever `step` does), if it is given as many iterations
as the heap has nodes. -/
theorem stack_walk_correct {k : ℕ} (hk : k ≤ 63) (step : ℕ → σ → Res (Bool × σ)) (s : σ) {fuel : ℕ}
    (hf : 2 ^ (k + 1) - 1 ≤ fuel) :
    stackWalk (2 ^ (k + 1)) step fuel [heapRoot] s = walk step k heapRoot s := by
  obtain ⟨c, hc, hw⟩ := stack_step hk step k 0 1 (by omega) (by norm_num) (by norm_num) [] (by simp) s
  have := hw (fuel - c)
  rw [Nat.sub_add_cancel (by omega)] at this
  show stackWalk (2 ^ (k + 1)) step fuel [1] s = walk step k 1 s
  rw [this]
  cases walk step k 1 s with
  | error e => rfl
  | ok s' => exact stackWalk_nil _ _ _ _

/-- How the stackless walk goes on after a subtree. -/
def onward (nd : ℕ → Res ℕ) (size : ℕ) (step : ℕ → σ → Res (Bool × σ)) (fuel next : ℕ) (s : σ) : Res σ :=
  if next = 1 then .ok s else stacklessWalk nd size step fuel next s

lemma next_left (idx : ℕ) : nextDownLoop (2 * idx) = 2 * idx + 1 := by
  have := C32.loop_eq 0 idx
  simpa using this

lemma next_right (idx : ℕ) : nextDownLoop (2 * idx + 1) = nextDownLoop idx := by
  obtain ⟨j, q, e⟩ := C32.decompose idx
  have h1 : 1 ≤ 2 ^ j := Nat.one_le_two_pow
  have e1 : 2 ^ (j + 1) = 2 * 2 ^ j := by ring
  have e2 : 2 * q * (2 * 2 ^ j) = 2 * (2 * q * 2 ^ j) := by ring
  have : 2 * idx + 1 = (2 * q) * 2 ^ (j + 1) + (2 ^ (j + 1) - 1) := by rw [e, e1, e2]; omega
  rw [this, C32.loop_eq]
  rw [e, C32.loop_eq]

lemma stackless_step {k : ℕ} {nd : ℕ → Res ℕ} (hnd : ∀ i < 2 ^ (k + 1), nd i = .ok (nextDownLoop i))
    (step : ℕ → σ → Res (Bool × σ)) :
    ∀ (h d idx : ℕ), d + h = k → 2 ^ d ≤ idx → idx < 2 ^ (d + 1) → ∀ s,
      ∃ c, c ≤ 2 ^ (h + 1) - 1 ∧ ∀ fuel, stacklessWalk nd (2 ^ (k + 1)) step (fuel + c) idx s =
        (walk step h idx s).bind (onward nd (2 ^ (k + 1)) step fuel (nextDownLoop idx)) := by
  intro h
  induction h with
  | zero =>
    intro d idx hd h1 h2 s
    obtain rfl : d = k := by omega
    refine ⟨1, by norm_num, fun fuel => ?_⟩
    simp only [stacklessWalk, walk]
    cases hs : step idx s with
    | error e => rfl
    | ok r =>
      obtain ⟨a, s'⟩ := r
      have e : 2 ^ (d + 1) = 2 * 2 ^ d := by ring
      simp only [bind, Except.bind, nextUp, left_eq]
      rw [if_neg (by omega : ¬ 2 * idx < 2 ^ (d + 1)), hnd idx h2]
      cases a <;> rfl
  | succ h ih =>
    intro d idx hd h1 h2 s
    have hpow : 1 ≤ 2 ^ (h + 1) := Nat.one_le_two_pow
    have epow : 2 ^ (h + 1 + 1) = 2 * 2 ^ (h + 1) := by ring
    have hpd : 1 ≤ 2 ^ d := Nat.one_le_two_pow
    have e1 : 2 ^ (d + 1) = 2 * 2 ^ d := by ring
    have e2 : 2 ^ (d + 1 + 1) = 2 * 2 ^ (d + 1) := by ring
    have hbig : 2 ^ (d + 1 + 1) ≤ 2 ^ (k + 1) := Nat.pow_le_pow_right (by norm_num) (by omega)
    cases hs : step idx s with
    | error e =>
      refine ⟨1, by omega, fun fuel => ?_⟩
      simp only [stacklessWalk, walk, hs]
      rfl
    | ok r =>
      obtain ⟨a, s'⟩ := r
      cases a with
      | true =>
        refine ⟨1, by omega, fun fuel => ?_⟩
        simp only [stacklessWalk, walk, hs, bind, Except.bind, if_true, hnd idx (by omega)]
        rfl
      | false =>
        obtain ⟨c1, hc1, hw1⟩ := ih (d + 1) (2 * idx) (by omega) (by omega) (by omega) s'
        have first : ∀ fuel, stacklessWalk nd (2 ^ (k + 1)) step (fuel + 1) idx s =
            stacklessWalk nd (2 ^ (k + 1)) step fuel (2 * idx) s' := by
          intro fuel
          simp only [stacklessWalk, hs, bind, Except.bind, nextUp, left_eq, Bool.false_eq_true, if_false]
          rw [if_pos (by omega : 2 * idx < 2 ^ (k + 1))]
          exact if_neg (by unfold heapRoot; omega)
        cases hl : walk step h (2 * idx) s' with
        | error e =>
          refine ⟨c1 + 1, by omega, fun fuel => ?_⟩
          rw [← Nat.add_assoc, first, hw1 fuel]
          simp only [walk, hs, hl, bind, Except.bind, Bool.false_eq_true, if_false]
        | ok s'' =>
          obtain ⟨c2, hc2, hw2⟩ := ih (d + 1) (2 * idx + 1) (by omega) (by omega) (by omega) s''
          refine ⟨c2 + c1 + 1, by omega, fun fuel => ?_⟩
          rw [← Nat.add_assoc, ← Nat.add_assoc, first, hw1 (fuel + c2), hl, next_left]
          simp only [walk, hs, hl, bind, Except.bind, Bool.false_eq_true, if_false]
          rw [onward, if_neg (by omega), hw2 fuel, next_right]
          rfl

/-- The stackless walk of a heap of size `2^(k+1)` is the intended one, for every variant of `next_down`
that is right on the indices of the heap. -/
theorem stackless_walk_correct {k : ℕ} {nd : ℕ → Res ℕ}
    (hnd : ∀ i < 2 ^ (k + 1), nd i = .ok (nextDownLoop i)) (step : ℕ → σ → Res (Bool × σ)) (s : σ) {fuel : ℕ}
    (hf : 2 ^ (k + 1) - 1 ≤ fuel) :
    stacklessWalk nd (2 ^ (k + 1)) step fuel heapRoot s = walk step k heapRoot s := by
  obtain ⟨c, hc, hw⟩ := stackless_step hnd step k 0 1 (by omega) (by norm_num) (by norm_num) s
  have := hw (fuel - c)
  rw [Nat.sub_add_cancel (by omega)] at this
  show stacklessWalk nd (2 ^ (k + 1)) step fuel 1 s = walk step k 1 s
  rw [this]
  have h1 : nextDownLoop 1 = 1 := C32.loop_eq 1 0
  cases walk step k 1 s with
  | error e => rfl
  | ok s' => simp [Except.bind, onward, h1]

/-- **C31**: for every heap of size `2^(k+1)`, everything the walk may do at a node (in particular every
acceptance predicate), and every number of iterations not below the number of nodes, the stackless walk with
the host variant of `next_down` and the walk with a stack have the same outcome.  `k` is at most 30: with
`2^31` bodies the host variant is undefined at the last leaf (`stackless_limit`). -/
theorem stackless_eq_stack {k : ℕ} (hk : k ≤ 30) (step : ℕ → σ → Res (Bool × σ)) (s : σ) {fuel fuel' : ℕ}
    (hf : 2 ^ (k + 1) - 1 ≤ fuel) (hf' : 2 ^ (k + 1) - 1 ≤ fuel') :
    stacklessWalk nextDownCtz (2 ^ (k + 1)) step fuel heapRoot s =
      stackWalk (2 ^ (k + 1)) step fuel' [heapRoot] s := by
  rw [stack_walk_correct (by omega) step s hf', stackless_walk_correct _ step s hf]
  intro i hi
  have : 2 ^ (k + 1) ≤ 2 ^ 31 := Nat.pow_le_pow_right (by norm_num) (by omega)
  exact (C32.variants_agree (by omega)).1

/-- The same with the portable `next_down`, for every heap a stack of 64 entries can handle. -/
theorem stackless_portable_eq_stack {k : ℕ} (hk : k ≤ 63) (step : ℕ → σ → Res (Bool × σ)) (s : σ)
    {fuel fuel' : ℕ} (hf : 2 ^ (k + 1) - 1 ≤ fuel) (hf' : 2 ^ (k + 1) - 1 ≤ fuel') :
    stacklessWalk (fun i => .ok (nextDownLoop i)) (2 ^ (k + 1)) step fuel heapRoot s =
      stackWalk (2 ^ (k + 1)) step fuel' [heapRoot] s := by
  rw [stack_walk_correct hk step s hf', stackless_walk_correct (fun _ _ => rfl) step s hf]

/-- The trace of a walk that decides by `acc` at every node. -/
def record (acc : ℕ → Bool) (idx : ℕ) (trace : List ℕ) : Res (Bool × List ℕ) := .ok (acc idx, trace ++ [idx])

/-- The nodes at depth at most `h` below `idx`, in preorder, that are reached when accepted nodes are not
opened. -/
def reached (acc : ℕ → Bool) : ℕ → ℕ → List ℕ
  | 0, idx => [idx]
  | h + 1, idx => idx :: (if acc idx then [] else reached acc h (2 * idx) ++ reached acc h (2 * idx + 1))

lemma walk_record (acc : ℕ → Bool) (h idx : ℕ) (tr : List ℕ) :
    walk (record acc) h idx tr = .ok (tr ++ reached acc h idx) := by
  induction h generalizing idx tr with
  | zero => rfl
  | succ h ih =>
    simp only [walk, record, reached, bind, Except.bind]
    cases acc idx with
    | true => simp
    | false => simp [ih]

/-- **C31** in terms of traces: both walks visit the same nodes in the same order, namely the reached nodes
in preorder, left first, and then end; for every acceptance predicate. -/
theorem same_trace {k : ℕ} (hk : k ≤ 30) (acc : ℕ → Bool) {fuel : ℕ} (hf : 2 ^ (k + 1) - 1 ≤ fuel) :
    stackWalk (2 ^ (k + 1)) (record acc) fuel [heapRoot] [] = .ok (reached acc k 1) ∧
    stacklessWalk nextDownCtz (2 ^ (k + 1)) (record acc) fuel heapRoot [] = .ok (reached acc k 1) := by
  have h : stackWalk (2 ^ (k + 1)) (record acc) fuel [heapRoot] [] = .ok (reached acc k 1) := by
    rw [stack_walk_correct (by omega) _ _ hf, walk_record]; rfl
  exact ⟨h, (stackless_eq_stack hk _ _ hf hf).trans h⟩

/-- The limit of the host variant: if no node is accepted, the stackless walk of a heap of `2^31` bodies
computes `__builtin_ctz(0)` at its last leaf, while the walk with a stack is fine. -/
theorem stackless_limit : nextUp nextDownCtz (2 ^ 32 - 1) (2 ^ 32) = .error .badArith := by
  unfold nextUp
  rw [left_eq, if_neg (by norm_num)]
  exact (C32.ctz_undefined_iff _).2 (by norm_num)

/-! Non-vacuity: a heap of four bodies in which node 3 is accepted. -/

example : stacklessWalk nextDownCtz 8 (record fun i => i = 3) 7 heapRoot [] = .ok [1, 2, 4, 5, 3] :=
  (same_trace (k := 2) (by norm_num) (fun i => i = 3) (by norm_num)).2

end NB.C31
