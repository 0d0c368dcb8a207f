import Verif.Lemmas.BulirschStoer
import Mathlib.Tactic.IntervalCases
import Mathlib.Tactic.FinCases
import Mathlib.Data.Fin.VecNotation
import Mathlib.Algebra.Order.Ring.Rat

/-
C23: the Bulirsch-Stoer step.  Exact arithmetic, any derivative function (it may even depend on the
number of evaluations made so far), any threshold, any `max_level`.
-/

namespace NB.C23

/-- The published Bulirsch-Stoer sequence 2, 4, 6, 8, 12, 16, 24, …: powers of two and three halves of
them. -/
def bsCount (j : ℕ) : ℕ :=
  if j = 0 then 2 else if j % 2 = 1 then 2 ^ ((j + 3) / 2) else 3 * 2 ^ (j / 2)

lemma bsCount_rec (j : ℕ) (hj : 3 ≤ j) : bsCount j = 2 * bsCount (j - 2) := by
  unfold bsCount
  have h1 : ¬ j = 0 := by omega
  have h2 : ¬ j - 2 = 0 := by omega
  rw [if_neg h1, if_neg h2]
  by_cases h : j % 2 = 1
  · have h' : (j - 2) % 2 = 1 := by omega
    rw [if_pos h, if_pos h', show (j + 3) / 2 = (j - 2 + 3) / 2 + 1 by omega, pow_succ]; ring
  · have h' : ¬ (j - 2) % 2 = 1 := by omega
    rw [if_neg h, if_neg h', show j / 2 = (j - 2) / 2 + 1 by omega, pow_succ]; ring

/-- `init_steps(n, ebssub_bulirsch_stoer)` reads nothing outside its vector and returns the first `n`
numbers of the sequence. -/
theorem init_steps_bs (n : ℕ) : initSteps n true = .ok (buf n bsCount) := by
  unfold initSteps
  by_cases h0 : n = 0
  · subst h0; rfl
  by_cases h1 : n = 1
  · subst h1; rfl
  by_cases h2 : n = 2
  · subst h2; rfl
  have hb1 : 1 < n := by omega
  have hb2 : 2 < n := by omega
  simp only [h0, if_false, if_true, hb1, hb2]
  obtain ⟨m, rfl⟩ : ∃ m, n = m + 3 := ⟨n - 3, by omega⟩
  have : m + 3 - 3 = m := by omega
  rw [this]
  clear this h0 h1 h2 hb1 hb2
  induction m with
  | zero => rfl
  | succ m ih =>
    rw [forN, ih]
    have hr : (buf (m + 3) bsCount)[m + 3 - 2]? = some (bsCount (m + 3 - 2)) := by
      simp [buf]
    show (rd (buf (m + 3) bsCount) (m + 3 - 2) >>= fun x => pure _) = _
    rw [rd_ok hr]
    simp only [bind, Except.bind, pure, Except.pure]
    rw [← bsCount_rec (m + 3) (by omega)]
    have : m + 1 + 3 = (m + 3) + 1 := by omega
    rw [this]
    simp [buf, List.range_succ (n := m + 3)]

/-- The other sequence: `init_steps(n, ebssub_deuflhard)` is 2, 4, 6, 8, 10, … -/
theorem init_steps_deuflhard (n : ℕ) : initSteps n false = .ok (buf n fun j => 2 * (j + 1)) := by
  unfold initSteps
  by_cases h0 : n = 0
  · subst h0; rfl
  simp only [h0, if_false, Bool.false_eq_true]
  congr 1
  clear h0
  induction n with
  | zero => rfl
  | succ n ih => rw [foldN, ih]; simp [buf, List.range_succ]

/-- The sequence is positive and strictly increasing, as the extrapolation needs. -/
theorem bsCount_increasing : (∀ j, 0 < bsCount j) ∧ ∀ i j, i < j → bsCount i < bsCount j := by
  have hpos : ∀ j, 0 < bsCount j := by
    intro j; unfold bsCount; split_ifs <;> positivity
  refine ⟨hpos, ?_⟩
  have hstep : ∀ j, bsCount j < bsCount (j + 1) := by
    intro j
    induction j using Nat.strong_induction_on with
    | _ j ih =>
      by_cases h : j < 3
      · interval_cases j <;> decide
      · have h1 := bsCount_rec j (by omega)
        have h2 := bsCount_rec (j + 1) (by omega)
        have h3 := ih (j - 2) (by omega)
        have : j - 2 + 1 = j + 1 - 2 := by omega
        rw [this] at h3
        omega
  intro i j h
  exact strictMono_nat_of_lt_succ hstep h

section
variable {V K : Type} [Field K] [LinearOrder K] [IsStrictOrderedRing K] [AddCommGroup V] [Module K V]

/-- A configuration as the constructor makes it. -/
def Constructed (cf : BSConf K) : Prop := initSteps cf.maxLevel true = .ok cf.steps

/-- The extrapolator's tables have as many rows as there are levels (their contents are arbitrary: they
are not initialised). -/
def TablesOk (cf : BSConf K) (b : BSState V) : Prop :=
  b.ext.table.length = cf.maxLevel ∧ b.ext.prev.length = cf.maxLevel

/-- The step as a whole.  `M` is the number of levels computed. -/
theorem bs_step (F : ℕ → K → V → V) (nrm : V → K) {cf : BSConf K} (hcf : Constructed cf) (dt : K)
    {b : BSState V} (hb : TablesOk cf b) (e : Eng V K) :
    ∃ r M, bsAdvise F nrm cf dt b e = .ok r ∧ TablesOk cf r.1 ∧ M ≤ cf.maxLevel ∧ (cf.maxLevel ≤ 2 → M = cf.maxLevel) ∧
      -- the clock
      r.2.time = e.time + dt ∧
      r.2.step = e.step + (∑ m ∈ Finset.range M, bsCount m) + 1 ∧
      r.2.cc = e.cc + ∑ m ∈ Finset.range M, (2 * bsCount m + 1) ∧
      -- no levels: the state is unchanged
      (cf.maxLevel = 0 → r.2.y = e.y) ∧
      -- one or two levels: the last level, not extrapolated
      (cf.maxLevel = 1 ∨ cf.maxLevel = 2 →
        r.2.y = bsLevel F bsCount dt e.time e.y e.cc (cf.maxLevel - 1)) ∧
      -- otherwise: extrapolation of the `M` levels computed, `M` being the first acceptable or the last
      (3 ≤ cf.maxLevel → 3 ≤ M ∧
        r.2.y = bsExtrap (K := K) bsCount (Finset.Icc 0 (M - 1)) (bsLevel F bsCount dt e.time e.y e.cc) ∧
        (bsErr nrm bsCount (bsLevel F bsCount dt e.time e.y e.cc) (M - 1) < cf.threshold ∨
          M = cf.maxLevel) ∧
        ∀ l, 2 ≤ l → l < M - 1 →
          cf.threshold ≤ bsErr nrm bsCount (bsLevel F bsCount dt e.time e.y e.cc) l) := by
  have hsteps : cf.steps = buf cf.maxLevel bsCount := by
    have := hcf
    rw [Constructed, init_steps_bs] at this
    exact (Except.ok.inj this).symm
  have hlen : cf.steps.length = cf.maxLevel := by simp [hsteps, buf]
  obtain ⟨r, hr, M, d⟩ := bsLevels_ok F nrm hlen (n := bsCount)
    (fun i hi => by rw [hlen] at hi; simp [hsteps, buf, hi])
    (fun i _ => bsCount_increasing.1 i) (fun i j h _ => bsCount_increasing.2 i j h)
    dt e.time e.y e.cc e.step cf.maxLevel 0 (b, e) (by omega) (by omega) (hb.1.trans hlen.symm)
    (hb.2.trans hlen.symm) (by simp [bsEvals]) (by simp) (by simp) (by simp)
  refine ⟨(r.1, ({ r.2 with time := e.time } : Eng V K).adviseTime dt), M, by
    unfold bsAdvise; simp only [hr, bind, Except.bind, pure, Except.pure],
    ⟨d.table.trans hlen, d.prev.trans hlen⟩, d.le, d.small, rfl, ?_, d.calls, d.none, ?_, ?_⟩
  · simp [Eng.adviseTime, d.steps]
  · intro h
    have hM := d.small (by omega)
    have := d.last (by omega) (by omega)
    rw [hM] at this
    exact this
  · intro h
    obtain ⟨a, b, c, f⟩ := d.big h
    exact ⟨a, b, c, fun l h1 h2 => f l h1 (by omega) h2⟩

omit [IsStrictOrderedRing K] in
/-- With `max_level = 0` a step is lost: the state does not change while the time advances. -/
theorem bs_zero_levels_lose_step (F : ℕ → K → V → V) (nrm : V → K) {cf : BSConf K} (h : cf.maxLevel = 0)
    (dt : K) (b : BSState V) (e : Eng V K) :
    ∃ r, bsAdvise F nrm cf dt b e = .ok r ∧ r.2.y = e.y ∧ r.2.time = e.time + dt := by
  refine ⟨(b, { e with step := e.step + 1, time := e.time + dt }), ?_, rfl, rfl⟩
  unfold bsAdvise
  rw [h]
  rfl

/-- A level uses `n` equal substeps that together make up the whole step: its clock ends at `t0 + dt`. -/
theorem level_covers_step (F : ℕ → K → V → V) (dt : K) (e : Eng V K) (l : ℕ) :
    (foldN (bsCount l) (Stetter.new, e)
      (fun _ q => stetterAdvise F (dt / (bsCount l : K)) q.1 q.2)).2.time = e.time + dt := by
  have hpos := bsCount_increasing.1 l
  have := (stetter_steps F (dt / (bsCount l : K)) Stetter.new (e := e) (e' := e) ⟨rfl, rfl, rfl⟩ hpos).2.2.1
  have hne : ((bsCount l : ℕ) : K) ≠ 0 := by exact_mod_cast hpos.ne'
  rw [mul_div_cancel₀ _ hne] at this
  exact this

/-- A history of `advise` calls. -/
def bsRun (F : ℕ → K → V → V) (nrm : V → K) (cf : BSConf K) (s : BSState V × Eng V K) :
    List K → Res (BSState V × Eng V K)
  | [] => .ok s
  | dt :: dts => do
    let s ← bsAdvise F nrm cf dt s.1 s.2
    bsRun F nrm cf s dts

/-- No history of calls goes outside a table, and the clock is the sum of the steps. -/
theorem bs_run_safe (F : ℕ → K → V → V) (nrm : V → K) {cf : BSConf K} (hcf : Constructed cf)
    (dts : List K) : ∀ (b : BSState V) (e : Eng V K), TablesOk cf b →
    ∃ r, bsRun F nrm cf (b, e) dts = .ok r ∧ TablesOk cf r.1 ∧ r.2.time = e.time + dts.sum := by
  induction dts with
  | nil => intro b e hb; exact ⟨(b, e), rfl, hb, by simp⟩
  | cons dt dts ih =>
    intro b e hb
    obtain ⟨r, M, hr, hb', _, _, ht, _⟩ := bs_step F nrm hcf dt hb e
    obtain ⟨r', hr', hb'', ht'⟩ := ih r.1 r.2 hb'
    refine ⟨r', by simp only [bsRun, hr, bind, Except.bind]; exact hr', hb'', ?_⟩
    rw [ht', ht, List.sum_cons, add_assoc]

end

/-- The hypotheses are met: the constructor's configuration with three levels, arbitrary table contents. -/
example (junk : Fin 6 → ℚ) (s : Stetter ℚ) :
    Constructed (⟨3, 1, [2, 4, 6], 0⟩ : BSConf ℚ) ∧
    TablesOk (⟨3, 1, [2, 4, 6], 0⟩ : BSConf ℚ)
      (⟨s, ⟨[junk 0, junk 1, junk 2], [junk 3, junk 4, junk 5]⟩⟩ : BSState ℚ) :=
  ⟨by rw [Constructed, init_steps_bs]; rfl, rfl, rfl⟩

end NB.C23
