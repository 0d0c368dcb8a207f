import Verif.Lemmas.Neville
import Mathlib.Algebra.Order.Field.Basic
import Mathlib.Tactic.Ring
import Mathlib.Tactic.Linarith

namespace NB

section
variable {V K : Type} [Field K] [LinearOrder K] [AddCommGroup V] [Module K V]

/-- Which parts of an engine a step reads: everything but the step counter. -/
def Eng.same (e e' : Eng V K) : Prop := e.y = e'.y ∧ e.time = e'.time ∧ e.cc = e'.cc

theorem stetter_reset_first (F : ℕ → K → V → V) (h : K) (s : Stetter V) (e : Eng V K) :
    stetterAdvise F h s.reset e = stetterAdvise F h Stetter.new e := by
  simp [stetterAdvise, Stetter.reset, Stetter.new]

theorem stetter_same (F : ℕ → K → V → V) (h : K) (s : Stetter V) {e e' : Eng V K} (he : e.same e') :
    (stetterAdvise F h s e).1 = (stetterAdvise F h s e').1 ∧
    (stetterAdvise F h s e).2.same (stetterAdvise F h s e').2 := by
  obtain ⟨y, t, st, c⟩ := e
  obtain ⟨y', t', st', c'⟩ := e'
  obtain ⟨rfl, rfl, rfl⟩ := he
  cases hf : (!s.allocated || !s.initiated) <;>
    simp [stetterAdvise, hf, Eng.fc, Eng.adviseTime, Eng.same]

theorem stetter_clock (F : ℕ → K → V → V) (h : K) (s : Stetter V) (e : Eng V K) :
    (stetterAdvise F h s e).2.time = e.time + h ∧ (stetterAdvise F h s e).2.step = e.step + 1 ∧
    (stetterAdvise F h s e).2.cc = e.cc + (if s.allocated && s.initiated then 2 else 3) ∧
    (stetterAdvise F h s e).1.allocated = true ∧ (stetterAdvise F h s e).1.initiated = true := by
  cases ha : s.allocated <;> cases hi : s.initiated <;>
    simp [stetterAdvise, ha, hi, Eng.fc, Eng.adviseTime]

/-- `n` steps from a reset solver: the result only depends on the state, time and evaluation count. -/
theorem stetter_steps (F : ℕ → K → V → V) (h : K) (s : Stetter V) {e e' : Eng V K} (he : e.same e') {n : ℕ}
    (hn : 0 < n) :
    let q := foldN n (s.reset, e) (fun _ q => stetterAdvise F h q.1 q.2)
    let q' := foldN n (Stetter.new, e') (fun _ q => stetterAdvise F h q.1 q.2)
    q.1 = q'.1 ∧ q.2.same q'.2 ∧ q.2.time = e.time + n * h ∧ q.2.step = e.step + n ∧
      q.2.cc = e.cc + (2 * n + 1) ∧ q.1.allocated = true ∧ q.1.initiated = true := by
  induction n with
  | zero => omega
  | succ n ih =>
    by_cases h0 : n = 0
    · subst h0
      simp only [foldN]
      obtain ⟨c1, c2, c3, c4, c5⟩ := stetter_clock F h s.reset e
      refine ⟨?_, ?_, ?_, ?_, ?_, c4, c5⟩
      · rw [stetter_reset_first]; exact (stetter_same F h _ he).1
      · rw [stetter_reset_first]; exact (stetter_same F h _ he).2
      · rw [c1]; simp
      · rw [c2]
      · rw [c3]; simp [Stetter.reset]
    · obtain ⟨i1, i2, i3, i4, i5, i6, i7⟩ := ih (by omega)
      simp only [foldN]
      obtain ⟨c1, c2, c3, c4, c5⟩ := stetter_clock F h
        (foldN n (s.reset, e) (fun _ q => stetterAdvise F h q.1 q.2)).1
        (foldN n (s.reset, e) (fun _ q => stetterAdvise F h q.1 q.2)).2
      refine ⟨?_, ?_, ?_, ?_, ?_, c4, c5⟩
      · rw [← i1]; exact (stetter_same F h _ i2).1
      · rw [← i1]; exact (stetter_same F h _ i2).2
      · rw [c1, i3]; push_cast; ring
      · rw [c2, i4]; ring
      · rw [c3, i5, i6, i7]; simp; ring

/-- Number of derivative evaluations made by levels `0, …, l - 1` of one Bulirsch-Stoer step. -/
def bsEvals (n : ℕ → ℕ) (l : ℕ) : ℕ := ∑ m ∈ Finset.range l, (2 * n m + 1)

/-- Level `l` of a Bulirsch-Stoer step: `n l` Stetter steps of size `dt / n l` from `(t0, y0)`, started
afresh; `c0` is the number of derivative evaluations made before the step. -/
def bsLevel (F : ℕ → K → V → V) (n : ℕ → ℕ) (dt t0 : K) (y0 : V) (c0 : ℕ) (l : ℕ) : V :=
  (foldN (n l) (Stetter.new, (⟨y0, t0, 0, c0 + bsEvals n l⟩ : Eng V K))
    (fun _ q => stetterAdvise F (dt / (n l : K)) q.1 q.2)).2.y

/-- The extrapolated value from levels in `s`: nodes `1 / n²`. -/
noncomputable def bsExtrap (n : ℕ → ℕ) (s : Finset ℕ) (v : ℕ → V) : V :=
  extrap (fun i => 1 / (((n i) ^ 2 : ℕ) : K)) s v

/-- The error estimate of level `l`. -/
noncomputable def bsErr (nrm : V → K) (n : ℕ → ℕ) (v : ℕ → V) (l : ℕ) : K :=
  nrm (bsExtrap (K := K) n (Finset.Icc 0 l) v - bsExtrap (K := K) n (Finset.Icc 1 l) v)

variable [IsStrictOrderedRing K]

omit [LinearOrder K] [IsStrictOrderedRing K] in
theorem extrSteps_two (ss : List ℕ) : extrSteps 2 ss = ss.map (fun s => s ^ 2) := by simp [extrSteps]

/-- One level. -/
theorem bsSubstep_ok (F : ℕ → K → V → V) {cf : BSConf K} {n : ℕ → ℕ}
    (hn : ∀ i, i < cf.steps.length → cf.steps[i]? = some (n i))
    (hpos : ∀ i, i < cf.steps.length → 0 < n i)
    (hinc : ∀ i j, i < j → j < cf.steps.length → n i < n j)
    (dt t0 : K) (y0 : V) (c0 s0 : ℕ) {l : ℕ} (hl : l < cf.steps.length) {s : BSState V × Eng V K}
    (ht : s.1.ext.table.length = cf.steps.length) (hp : s.1.ext.prev.length = cf.steps.length)
    (hcc : s.2.cc = c0 + bsEvals n l) (hst : s.2.step = s0 + ∑ m ∈ Finset.range l, n m)
    (hrow : ∀ j, j < l → s.1.ext.table[j]? =
      some (bsExtrap (K := K) n (Finset.Icc (l - 1 - j) (l - 1)) (bsLevel F n dt t0 y0 c0))) :
    ∃ s', bsSubstep F cf dt t0 y0 l s = .ok s' ∧
      s'.1.ext.table.length = cf.steps.length ∧ s'.1.ext.prev.length = cf.steps.length ∧
      s'.2.cc = c0 + bsEvals n (l + 1) ∧ s'.2.step = s0 + ∑ m ∈ Finset.range (l + 1), n m ∧
      s'.2.y = bsLevel F n dt t0 y0 c0 l ∧
      ∀ j, j ≤ l → s'.1.ext.table[j]? =
        some (bsExtrap (K := K) n (Finset.Icc (l - j) l) (bsLevel F n dt t0 y0 c0)) := by
  obtain ⟨h1, h2, h3, h4, h5, _, _⟩ := stetter_steps F (dt / (n l : K)) s.1.internal
    (e := { s.2 with y := y0, time := t0 }) (e' := ⟨y0, t0, 0, c0 + bsEvals n l⟩) ⟨rfl, rfl, hcc⟩ (hpos l hl)
  have hy : (foldN (n l) (s.1.internal.reset, ({ s.2 with y := y0, time := t0 } : Eng V K))
      (fun _ q => stetterAdvise F (dt / (n l : K)) q.1 q.2)).2.y = bsLevel F n dt t0 y0 c0 l := h2.1
  obtain ⟨q', hq, g1, g2, g3⟩ := nevilleUpdate_ok (K := K) (N := cf.steps.length) (ss := extrSteps 2 cf.steps)
    (by simp [extrSteps_two]) (s := fun i => (((n i) ^ 2 : ℕ) : K))
    (by
      intro i a h
      have hi : i < cf.steps.length := by
        have := (List.getElem?_eq_some_iff.1 h).1
        simpa [extrSteps_two] using this
      rw [extrSteps_two, List.getElem?_map, hn i hi] at h
      rw [← Option.some.inj h])
    (by
      intro i hi
      have := Nat.pow_pos (n := 2) (hpos i hi)
      exact_mod_cast this.ne')
    (by
      intro i i' hi hi' h
      have h : n i ^ 2 = n i' ^ 2 := by exact_mod_cast h
      rcases Nat.lt_trichotomy i i' with hlt | heq | hgt
      · exact absurd h (Nat.pow_lt_pow_left (hinc i i' hlt hi') (by decide)).ne
      · exact heq
      · exact absurd h (Nat.pow_lt_pow_left (hinc i' i hgt hi) (by decide)).ne')
    (bsLevel F n dt t0 y0 c0) hl (q := s.1.ext) ht hp hrow
  refine ⟨(⟨(foldN (n l) (s.1.internal.reset, ({ s.2 with y := y0, time := t0 } : Eng V K))
      (fun _ q => stetterAdvise F (dt / (n l : K)) q.1 q.2)).1, q'⟩,
      (foldN (n l) (s.1.internal.reset, ({ s.2 with y := y0, time := t0 } : Eng V K))
      (fun _ q => stetterAdvise F (dt / (n l : K)) q.1 q.2)).2), ?_, g1, g2, ?_, ?_, hy, g3⟩
  · unfold bsSubstep
    simp only [rd_ok (hn l hl), bind, Except.bind, pure, Except.pure, hy, hq]
  · rw [bsEvals, Finset.sum_range_succ, ← bsEvals]
    refine h5.trans ?_
    show s.2.cc + _ = _
    rw [hcc]; ring
  · rw [Finset.sum_range_succ]
    refine h4.trans ?_
    show s.2.step + _ = _
    rw [hst]; ring

/-- What the loop over the levels has done when it stops after `M` levels. -/
structure BSDone (F : ℕ → K → V → V) (nrm : V → K) (cf : BSConf K) (n : ℕ → ℕ) (dt t0 : K) (y0 : V)
    (c0 s0 l : ℕ) (r : BSState V × Eng V K) (M : ℕ) : Prop where
  le : M ≤ cf.maxLevel
  table : r.1.ext.table.length = cf.steps.length
  prev : r.1.ext.prev.length = cf.steps.length
  calls : r.2.cc = c0 + bsEvals n M
  steps : r.2.step = s0 + ∑ m ∈ Finset.range M, n m
  small : cf.maxLevel ≤ 2 → M = cf.maxLevel
  none : cf.maxLevel = 0 → r.2.y = y0
  last : M ≠ 0 → M ≤ 2 → r.2.y = bsLevel F n dt t0 y0 c0 (M - 1)
  big : 3 ≤ cf.maxLevel → 3 ≤ M ∧
    r.2.y = bsExtrap (K := K) n (Finset.Icc 0 (M - 1)) (bsLevel F n dt t0 y0 c0) ∧
    (bsErr nrm n (bsLevel F n dt t0 y0 c0) (M - 1) < cf.threshold ∨ M = cf.maxLevel) ∧
    ∀ l', 2 ≤ l' → l ≤ l' → l' < M - 1 → cf.threshold ≤ bsErr nrm n (bsLevel F n dt t0 y0 c0) l'

theorem bsLevels_ok (F : ℕ → K → V → V) (nrm : V → K) {cf : BSConf K} (hN : cf.steps.length = cf.maxLevel)
    {n : ℕ → ℕ} (hn : ∀ i, i < cf.steps.length → cf.steps[i]? = some (n i))
    (hpos : ∀ i, i < cf.steps.length → 0 < n i)
    (hinc : ∀ i j, i < j → j < cf.steps.length → n i < n j)
    (dt t0 : K) (y0 : V) (c0 s0 : ℕ) (rest : ℕ) :
    ∀ (l : ℕ) (s : BSState V × Eng V K), l + rest = cf.maxLevel → (3 ≤ l → rest ≠ 0) →
      s.1.ext.table.length = cf.steps.length → s.1.ext.prev.length = cf.steps.length →
      s.2.cc = c0 + bsEvals n l → s.2.step = s0 + ∑ m ∈ Finset.range l, n m →
      s.2.y = (if l = 0 then y0 else bsLevel F n dt t0 y0 c0 (l - 1)) →
      (∀ j, j < l → s.1.ext.table[j]? =
        some (bsExtrap (K := K) n (Finset.Icc (l - 1 - j) (l - 1)) (bsLevel F n dt t0 y0 c0))) →
      ∃ r, bsLevels F nrm cf dt t0 y0 rest l s = .ok r ∧
        ∃ M, BSDone F nrm cf n dt t0 y0 c0 s0 l r M := by
  induction rest with
  | zero =>
    intro l s hl h3 ht hp hcc hst hy hrow
    refine ⟨s, rfl, l, by omega, ht, hp, hcc, hst, by omega, ?_, ?_, ?_⟩
    · intro h; rw [hy, if_pos (by omega)]
    · intro h _; rw [hy, if_neg h]
    · intro h; exact absurd rfl (h3 (by omega))
  | succ rest ih =>
    intro l s hl h3 ht hp hcc hst hy hrow
    obtain ⟨s', hs', t1, t2, t3, t4, t5, t6⟩ := bsSubstep_ok F hn hpos hinc dt t0 y0 c0 s0 (l := l) (by omega)
      ht hp hcc hst hrow
    unfold bsLevels
    simp only [hs', bind, Except.bind]
    by_cases h2 : l < 2
    · rw [if_pos h2]
      obtain ⟨r, hr, M, d⟩ := ih (l + 1) s' (by omega) (by omega) t1 t2 t3 t4 (by simpa using t5)
        (fun j hj => t6 j (by omega))
      refine ⟨r, hr, M, { d with big := fun h => ?_ }⟩
      obtain ⟨a, b, c, e⟩ := d.big h
      exact ⟨a, b, c, fun l' q1 q2 q3 => e l' q1 (by omega) q3⟩
    · rw [if_neg h2]
      have herr : nevilleError nrm cf.big s'.1.ext l =
          .ok (bsErr nrm n (bsLevel F n dt t0 y0 c0) l) := by
        have e1 : l - l = 0 := by omega
        have e2 : l - (l - 1) = 1 := by omega
        have e3 : ¬ l = 0 := by omega
        simp only [nevilleError, e3, if_false, rd_ok (t6 l le_rfl), rd_ok (t6 (l - 1) (by omega)), bind,
          Except.bind, pure, Except.pure, e1, e2, vfmadd, bsErr]
        rw [neg_one_smul, ← sub_eq_add_neg]
      have hext : nevilleExtrapolate s'.1.ext l =
          .ok (bsExtrap (K := K) n (Finset.Icc 0 l) (bsLevel F n dt t0 y0 c0)) := by
        have e1 : l - l = 0 := by omega
        rw [nevilleExtrapolate, rd_ok (t6 l le_rfl), e1]
      simp only [herr, bind, Except.bind]
      by_cases hstop : bsErr nrm n (bsLevel F n dt t0 y0 c0) l < cf.threshold ∨ l = cf.maxLevel - 1
      · rw [if_pos hstop]
        simp only [hext, pure, Except.pure]
        refine ⟨_, rfl, l + 1, by omega, t1, t2, t3, t4, by omega, by omega, by omega, ?_⟩
        intro h
        refine ⟨by omega, rfl, ?_, by omega⟩
        rcases hstop with h | h
        · left; exact h
        · right; omega
      · rw [if_neg hstop]
        push Not at hstop
        obtain ⟨r, hr, M, d⟩ := ih (l + 1) s' (by omega) (by omega) t1 t2 t3 t4 (by simpa using t5)
          (fun j hj => t6 j (by omega))
        refine ⟨r, hr, M, { d with big := fun h => ?_ }⟩
        obtain ⟨a, b, c, e⟩ := d.big h
        refine ⟨a, b, c, fun l' q1 q2 q3 => ?_⟩
        by_cases hl' : l' = l
        · subst hl'; exact hstop.1
        · exact e l' q1 (by omega) q3

end
end NB
