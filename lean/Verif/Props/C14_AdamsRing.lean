import Verif.Lemmas.SolverOps
import Verif.Model.Solvers
import Mathlib.Data.Finset.Card
import Mathlib.Algebra.Order.Ring.Rat
import Mathlib.Tactic.NormNum

/-
C14: the Adams-Bashforth solver combines the derivatives of the last `rank` states in the right order.
Exact arithmetic.
-/

namespace NB.C14

variable {V K σ : Type} [Field K] [DecidableEq K] [AddCommGroup V] [Module K V]

/-- A run of the solver: state and engine after `j` calls, `j ≤ k`. -/
structure Run (F : ℕ → K → V → V) (starter : K → σ × Eng V K → Res (σ × Eng V K)) (rank : ℕ)
    (correction : Bool) (dts : ℕ → K) (k : ℕ) (st : ℕ → Adams V σ × Eng V K) : Prop where
  fresh : (st 0).1.mstep = 0 ∧ (st 0).1.corr = 0
  next : ∀ j, j < k →
    adamsAdvise F starter rank correction (dts j) (st j).1 (st j).2 = .ok (st (j + 1))

/-- The derivative at the beginning of step `j`. -/
def derivAt (F : ℕ → K → V → V) (st : ℕ → Adams V σ × Eng V K) (j : ℕ) : V :=
  F (st j).2.cc (st j).2.time (st j).2.y

omit [DecidableEq K] in
lemma upd_perm {m : ℕ} {z : ℕ → K} {p : ℕ → ℕ} {g : ℕ → K}
    (hp : ∀ i j, i < m → j < m → p i = p j → i = j) {n : ℕ} (hn : n < m) :
    foldN m z (fun n c => upd c (p n) (g n)) (p n) = g n := by
  induction m with
  | zero => omega
  | succ m ih =>
    simp only [foldN]
    by_cases h : n = m
    · subst h; simp
    · have hne : p n ≠ p m := fun e => h (hp n m hn (Nat.lt_succ_self m) e)
      rw [upd_ne _ _ hne]
      exact ih (fun i j hi hj => hp i j (by omega) (by omega)) (by omega)

lemma slot_inj {rank fnum : ℕ} (hf : fnum < rank) (i j : ℕ) (hi : i < rank) (hj : j < rank)
    (h : (rank + fnum - i) % rank = (rank + fnum - j) % rank) : i = j := by
  have h1 : ∀ a, a < rank → (rank + fnum - a) % rank = if a ≤ fnum then fnum - a else rank + fnum - a := by
    intro a ha
    split_ifs with h
    · rw [show rank + fnum - a = fnum - a + rank by omega, Nat.add_mod_right, Nat.mod_eq_of_lt (by omega)]
    · rw [Nat.mod_eq_of_lt (by omega)]
  rw [h1 i hi, h1 j hj] at h
  split_ifs at h <;> omega

omit [DecidableEq K] in
/-- The loop filling `coeff` pairs coefficient `n` with the slot of the `n`-th last derivative. -/
lemma coeff_sum {rank fnum : ℕ} (hf : fnum < rank) (a : ℕ → K) (dt : K) (f : ℕ → V) :
    ∑ i ∈ Finset.range rank, adamsCoeff rank fnum a dt i • f i =
      ∑ n ∈ Finset.range rank, (a n * dt) • f ((rank + fnum - n) % rank) := by
  have himg : (Finset.range rank).image (fun n => (rank + fnum - n) % rank) = Finset.range rank := by
    apply Finset.eq_of_subset_of_card_le
    · intro x hx
      obtain ⟨n, _, rfl⟩ := Finset.mem_image.1 hx
      exact Finset.mem_range.2 (Nat.mod_lt _ (by omega))
    · rw [Finset.card_image_of_injOn]
      intro i hi j hj h
      exact slot_inj hf i j (by simpa using hi) (by simpa using hj) h
  conv_lhs => rw [← himg]
  rw [Finset.sum_image (fun i hi j hj h => slot_inj hf i j (by simpa using hi) (by simpa using hj) h)]
  refine Finset.sum_congr rfl fun n hn => ?_
  rw [adamsCoeff, upd_perm (slot_inj hf) (Finset.mem_range.1 hn)]

lemma mod_slot {rank k n : ℕ} (hn : n < rank) (hk : n ≤ k) :
    (rank + k % rank - n) % rank = (k - n) % rank := by
  have hr : 0 < rank := by omega
  conv_rhs => rw [← Nat.div_add_mod k rank]
  by_cases h : n ≤ k % rank
  · rw [show rank + k % rank - n = k % rank - n + rank by omega, Nat.add_mod_right,
      Nat.add_sub_assoc h, Nat.mul_add_mod]
  · have hq : 1 ≤ k / rank := by
      by_contra hc
      have : k / rank = 0 := Nat.lt_one_iff.1 (Nat.lt_of_not_le hc)
      have hlt : k < rank := by
        rcases Nat.div_eq_zero_iff.1 this with h' | h' <;> omega
      rw [Nat.mod_eq_of_lt hlt] at h
      omega
    have : rank * (k / rank) + k % rank - n = rank * (k / rank - 1) + (rank + k % rank - n) := by
      have : rank * (k / rank) = rank * (k / rank - 1) + rank := by
        conv_lhs => rw [show k / rank = k / rank - 1 + 1 by omega, Nat.mul_add, Nat.mul_one]
      omega
    rw [this, Nat.mul_add_mod]

/-- The three things one call does, in terms of the ring of derivatives. -/
lemma advise_ok {F : ℕ → K → V → V} {starter : K → σ × Eng V K → Res (σ × Eng V K)} {rank : ℕ}
    {correction : Bool} {dt : K} {s r : Adams V σ × Eng V K} (hc : s.1.corr = 0)
    (h : adamsAdvise F starter rank correction dt s.1 s.2 = .ok r) :
    1 ≤ rank ∧ rank ≤ 5 ∧ ∃ al, adamsTable (K := K) rank = some al ∧
      r.1.mstep = s.1.mstep + 1 ∧ r.1.corr = 0 ∧
      r.1.f = upd s.1.f (s.1.mstep % rank) (F s.2.cc s.2.time s.2.y) ∧
      (rank < s.1.mstep → r.2 = ({ s.2 with
        y := s.2.y + ∑ i ∈ Finset.range rank, adamsCoeff rank (s.1.mstep % rank) (fun n => al.getD n 0) dt i • r.1.f i,
        cc := s.2.cc + 1 } : Eng V K).adviseTime dt) ∧
      (s.1.mstep ≤ rank → ∃ q, starter dt (s.1.starter, { s.2 with cc := s.2.cc + 1 }) = .ok q ∧
        r.1.starter = q.1 ∧ r.2 = q.2) := by
  unfold adamsAdvise at h
  by_cases h0 : rank = 0
  · simp [h0] at h
  rw [if_neg h0] at h
  by_cases h5 : 5 < rank
  · simp [h5] at h
  rw [if_neg h5] at h
  refine ⟨by omega, by omega, ?_⟩
  cases htab : adamsTable (K := K) rank with
  | none => simp [htab] at h
  | some al =>
    refine ⟨al, rfl, ?_⟩
    rw [htab] at h
    simp only [Eng.fc] at h
    by_cases hm : rank < s.1.mstep
    · rw [if_pos hm] at h
      cases correction with
      | true =>
        simp only [if_true] at h
        cases h
        have := vfmaddnCorr_eq rank s.2.y (upd s.1.f (s.1.mstep % rank) (F s.2.cc s.2.time s.2.y))
          (adamsCoeff rank (s.1.mstep % rank) (fun n => al.getD n 0) dt)
        rw [← hc] at this
        simp only [this]
        exact ⟨trivial, hc, trivial, fun _ => trivial, fun h => absurd hm (by omega)⟩
      | false =>
        simp only [Bool.false_eq_true, if_false] at h
        cases h
        simp only [vfmaddnInplace_eq]
        exact ⟨trivial, hc, trivial, fun _ => trivial, fun h => absurd hm (by omega)⟩
    · rw [if_neg hm] at h
      cases hs : starter dt (s.1.starter, { s.2 with cc := s.2.cc + 1 }) with
      | error x => rw [hs] at h; cases h
      | ok q =>
        rw [hs] at h
        cases h
        exact ⟨rfl, hc, rfl, fun h => absurd h hm, fun _ => ⟨q, rfl, rfl, rfl⟩⟩

/-- Ring invariant: after `j` calls, slot `m % rank` holds the derivative of step `m` for each of the last
`rank` steps `m`. -/
lemma ring_inv {F : ℕ → K → V → V} {starter : K → σ × Eng V K → Res (σ × Eng V K)} {rank : ℕ}
    {correction : Bool} {dts : ℕ → K} {k : ℕ} {st : ℕ → Adams V σ × Eng V K}
    (hrun : Run F starter rank correction dts k st) :
    ∀ j, j ≤ k → (st j).1.mstep = j ∧ (st j).1.corr = 0 ∧
      ∀ m, m < j → j ≤ m + rank → (st j).1.f (m % rank) = derivAt F st m := by
  intro j
  induction j with
  | zero => intro _; exact ⟨hrun.fresh.1, hrun.fresh.2, by omega⟩
  | succ j ih =>
    intro hj
    obtain ⟨h1, h2, h3⟩ := ih (by omega)
    obtain ⟨hr1, _, al, _, g1, g2, g3, _⟩ := advise_ok h2 (hrun.next j (by omega))
    refine ⟨by rw [g1, h1], g2, fun m hm hmr => ?_⟩
    rw [g3, h1]
    by_cases hmj : m = j
    · subst hmj; rw [upd_same]; rfl
    · have hne : m % rank ≠ j % rank := by
        intro he
        have h4 : (j - m) % rank = 0 := Nat.sub_mod_eq_zero_of_mod_eq he.symm
        rw [Nat.mod_eq_of_lt (by omega)] at h4
        omega
      rw [upd_ne _ _ hne]
      exact h3 m (by omega) (by omega)

/-- From step number `rank + 1` (counting from 0) on, each call adds `dt * Σ a_n f_{k-n}`, where `f_j` is
the derivative at the beginning of step `j` and `a` the coefficient row of that rank; with and without the
correction buffer, for every number of steps taken and for varying step sizes. -/
theorem adams_step_formula {F : ℕ → K → V → V} {starter : K → σ × Eng V K → Res (σ × Eng V K)} {rank : ℕ}
    {correction : Bool} {dts : ℕ → K} {k : ℕ} {st : ℕ → Adams V σ × Eng V K}
    (hrun : Run F starter rank correction dts (k + 1) st) (hk : rank < k) :
    ∃ al, adamsTable (K := K) rank = some al ∧ al.length = rank ∧
      (st (k + 1)).2.y = (st k).2.y + dts k • ∑ n ∈ Finset.range rank, al.getD n 0 • derivAt F st (k - n) := by
  obtain ⟨h1, h2, h3⟩ := ring_inv hrun k (by omega)
  obtain ⟨hr1, hr5, al, hal, g1, g2, g3, g4, _⟩ := advise_ok h2 (hrun.next k (by omega))
  obtain ⟨_, _, g6⟩ := ring_inv hrun (k + 1) le_rfl
  refine ⟨al, hal, ?_, ?_⟩
  · have : rank = 1 ∨ rank = 2 ∨ rank = 3 ∨ rank = 4 ∨ rank = 5 := by omega
    rcases this with rfl | rfl | rfl | rfl | rfl <;> (simp [adamsTable] at hal; subst hal; rfl)
  · rw [g4 (by omega)]
    simp only [Eng.adviseTime]
    rw [h1, coeff_sum (Nat.mod_lt _ (by omega)), Finset.smul_sum]
    congr 1
    refine Finset.sum_congr rfl fun n hn => ?_
    have hn := Finset.mem_range.1 hn
    rw [mod_slot hn (by omega), g6 (k - n) (by omega) (by omega), smul_smul, mul_comm]

/-- The first `rank + 1` calls are the starter's. -/
theorem adams_starter_steps {F : ℕ → K → V → V} {starter : K → σ × Eng V K → Res (σ × Eng V K)} {rank : ℕ}
    {correction : Bool} {dts : ℕ → K} {k : ℕ} {st : ℕ → Adams V σ × Eng V K}
    (hrun : Run F starter rank correction dts (k + 1) st) (hk : k ≤ rank) :
    starter (dts k) ((st k).1.starter, { (st k).2 with cc := (st k).2.cc + 1 }) =
      .ok ((st (k + 1)).1.starter, (st (k + 1)).2) := by
  obtain ⟨h1, h2, h3⟩ := ring_inv hrun k (by omega)
  obtain ⟨hr1, hr5, al, hal, g1, g2, g3, _, g5⟩ := advise_ok h2 (hrun.next k (by omega))
  obtain ⟨q, hq, e1, e2⟩ := g5 (by omega)
  rw [hq, e1, e2]

/-- Rank 0 divides by zero and ranks above 5 index outside the table; all others never fail when the
starter does not. -/
theorem adams_defined_iff (F : ℕ → K → V → V) (starter : K → σ × Eng V K → Res (σ × Eng V K))
    (hst : ∀ dt s, ∃ s', starter dt s = .ok s') (rank : ℕ) (correction : Bool) (dt : K)
    (s : Adams V σ) (e : Eng V K) :
    (∃ r, adamsAdvise F starter rank correction dt s e = .ok r) ↔ 1 ≤ rank ∧ rank ≤ 5 := by
  constructor
  · rintro ⟨r, hr⟩
    unfold adamsAdvise at hr
    by_cases h0 : rank = 0
    · simp [h0] at hr
    rw [if_neg h0] at hr
    by_cases h5 : 5 < rank
    · simp [h5] at hr
    omega
  · intro h
    have : ∃ al, adamsTable (K := K) rank = some al := by
      have : rank = 1 ∨ rank = 2 ∨ rank = 3 ∨ rank = 4 ∨ rank = 5 := by omega
      rcases this with rfl | rfl | rfl | rfl | rfl <;> exact ⟨_, rfl⟩
    obtain ⟨al, hal⟩ := this
    unfold adamsAdvise
    rw [if_neg (by omega), if_neg (by omega), hal]
    simp only [Eng.fc]
    by_cases hm : rank < s.mstep
    · rw [if_pos hm]
      cases correction <;> exact ⟨_, rfl⟩
    · rw [if_neg hm]
      obtain ⟨s', hs'⟩ := hst dt (s.starter, { e with cc := e.cc + 1 })
      rw [hs']
      exact ⟨_, rfl⟩

/-- `reset` makes the next call start afresh. -/
lemma adams_reset (s : Adams V σ) : s.reset.mstep = 0 ∧ s.reset.corr = 0 := ⟨rfl, rfl⟩

/-- Runs of every length exist: the hypotheses are met. -/
lemma run_exists (F : ℕ → K → V → V) (starter : K → σ × Eng V K → Res (σ × Eng V K))
    (hst : ∀ dt s, ∃ s', starter dt s = .ok s') {rank : ℕ} (h1 : 1 ≤ rank) (h5 : rank ≤ 5)
    (correction : Bool) (dts : ℕ → K) (f0 : ℕ → V) (s0 : σ) (e : Eng V K) (k : ℕ) :
    ∃ st, Run F starter rank correction dts k st ∧ (st 0).2 = e := by
  induction k with
  | zero => exact ⟨fun _ => (⟨f0, 0, 0, s0⟩, e), ⟨⟨rfl, rfl⟩, by omega⟩, rfl⟩
  | succ k ih =>
    obtain ⟨st, hrun, he⟩ := ih
    obtain ⟨r, hr⟩ := (adams_defined_iff F starter hst rank correction (dts k) (st k).1 (st k).2).2 ⟨h1, h5⟩
    refine ⟨fun j => if j = k + 1 then r else st j, ⟨?_, ?_⟩, ?_⟩
    · simpa using hrun.fresh
    · intro j hj
      by_cases hjk : j = k
      · subst hjk; simpa using hr
      · have : ¬ j = k + 1 := by omega
        simpa [this, hjk] using hrun.next j (by omega)
    · simpa using he

example : ∃ st : ℕ → Adams ℚ Unit × Eng ℚ ℚ,
    Run (fun _ _ y => -y) (fun dt s => .ok (s.1, eulerAdvise (fun _ _ y => -y) dt s.2)) 3 true
      (fun _ => 1 / 10) 7 st ∧ (st 0).2 = ⟨1, 0, 0, 0⟩ :=
  run_exists _ _ (fun _ _ => ⟨_, rfl⟩) (by decide) (by decide) _ _ (fun _ => 0) () _ _

end NB.C14
