import Verif.Props.C35_RunLoop

/-
C36: the dump schedule of a run.
-/

namespace NB.C36

open RunSpec

lemma multiples_eq {m : ℕ} (hm : 0 < m) (n : ℕ) :
    multiples m n = (List.range (n / m)).map (fun j => (j + 1) * m) := by
  induction n with
  | zero => simp [multiples]
  | succ n ih =>
    by_cases h : m ∣ n + 1
    · rw [multiples_succ_dvd h, ih, succ_div_dvd h, List.range_succ, List.map_append]
      have : (n / m + 1) * m = n + 1 := by
        rw [← succ_div_dvd h]; exact Nat.div_mul_cancel h
      simp [this]
    · rw [multiples_succ_not_dvd h, ih, succ_div_not_dvd h]

section
variable {σ φ ω K : Type} [Field K] [LinearOrder K] [IsStrictOrderedRing K] [FloorSemiring K]
variable {E : RunEnv σ φ ω K} {c : RunConf K}

/-- The frames offered to a stream that accepts everything are exactly the scheduled ones: the data of the
start state if its time is at most 0, and of the states after every `period` steps. -/
theorem dumped_frames {E : RunEnv σ φ (List φ) K} (hE : E.write = fun f w => (true, w ++ [f]))
    (hclock : Clock E c.dt) (hdt : 0 < c.dt) (hs : c.hasStream = true) (hd : 0 < c.dumpDt) (s0 : σ) (fuel : ℕ)
    (hfuel : steps (E.time s0) c.maxTime c.dt ≤ fuel) :
    ∃ r, solverRun E c fuel s0 [] = .ok (0, r) ∧
      r.stream = frames E.getData (oneStep E c) s0 (E.time s0) c.dumpDt c.dt
        (steps (E.time s0) c.maxTime c.dt) := by
  obtain ⟨r, h1, _, h3, _⟩ := C35.run_steps hclock hdt s0 [] _ fuel hfuel
    (fun _ => by rw [hE]; exact C35.writeAll_record _ []) (fun h => absurd ⟨hs, hd⟩ h)
  exact ⟨r, h1, by rw [h3, List.nil_append]⟩

/-- Without a stream, or with a dump interval that is not positive, nothing is written. -/
theorem nothing_dumped (hclock : Clock E c.dt) (hdt : 0 < c.dt)
    (hno : c.hasStream = false ∨ c.dumpDt ≤ 0) (s0 : σ) (w : ω) (fuel : ℕ)
    (hfuel : steps (E.time s0) c.maxTime c.dt ≤ fuel) :
    ∃ r, solverRun E c fuel s0 w = .ok (0, r) ∧ r.stream = w := by
  have hn : ¬ (c.hasStream = true ∧ 0 < c.dumpDt) := by
    rintro ⟨h1, h2⟩
    rcases hno with h | h
    · rw [h] at h1; exact Bool.false_ne_true h1
    · exact absurd h2 (not_lt.2 h)
  obtain ⟨r, h1, _, h3, _⟩ := C35.run_steps hclock hdt s0 w w fuel hfuel (fun h => absurd h hn) (fun _ => rfl)
  exact ⟨r, h1, h3⟩

lemma due_split (s0 : σ) (n : ℕ) (pre post : List φ) (f : φ)
    (h : dueFrames E c s0 n = pre ++ f :: post) :
    ∃ k, k + 1 ≤ n ∧ period c.dumpDt c.dt ∣ k + 1 ∧ dueFrames E c s0 k = pre ∧
      f = E.getData ((oneStep E c)^[k + 1] s0) := by
  have hm := period_pos c.dumpDt c.dt
  set m := period c.dumpDt c.dt with hmdef
  have hlen : pre.length < n / m := by
    have := congrArg List.length h
    rw [dueFrames, ← hmdef, multiples_eq hm] at this
    simp at this
    omega
  have hpos : 0 < (pre.length + 1) * m := Nat.mul_pos (by omega) hm
  refine ⟨(pre.length + 1) * m - 1, ?_, ?_, ?_, ?_⟩
  · have := Nat.mul_le_mul_right m (Nat.succ_le_of_lt hlen)
    have h2 := Nat.div_mul_le_self n m
    simp only [Nat.succ_eq_add_one] at this
    omega
  · rw [Nat.sub_add_cancel hpos]; exact Dvd.intro_left _ rfl
  · have hdiv : ((pre.length + 1) * m - 1) / m = pre.length := by
      have e : (pre.length + 1) * m - 1 = pre.length * m + (m - 1) := by
        rw [Nat.add_mul]; omega
      rw [e, Nat.mul_comm, Nat.mul_add_div hm, Nat.div_eq_of_lt (by omega), Nat.add_zero]
    have h1 : pre = (dueFrames E c s0 n).take pre.length := by rw [h]; simp
    conv_rhs => rw [h1]
    rw [dueFrames, dueFrames, ← hmdef, multiples_eq hm, multiples_eq hm, hdiv, List.map_map, List.map_map,
      ← List.map_take, List.take_range, Nat.min_eq_left hlen.le]
  · have h1 : (dueFrames E c s0 n)[pre.length]? = some f := by rw [h]; simp
    rw [dueFrames, ← hmdef, multiples_eq hm] at h1
    simp [hlen] at h1
    rw [Nat.sub_add_cancel hpos]
    exact h1.symm

/-- When the write of one of the scheduled frames fails, the frames before it have been written, nothing
after it is written, and `run` returns -1 in the state of that frame. -/
theorem write_failure (hclock : Clock E c.dt) (hdt : 0 < c.dt) (hs : c.hasStream = true) (hd : 0 < c.dumpDt)
    (s0 : σ) (w w1 w2 : ω) (fuel : ℕ) (hfuel : steps (E.time s0) c.maxTime c.dt ≤ fuel)
    (pre post : List φ) (f : φ)
    (hf : frames E.getData (oneStep E c) s0 (E.time s0) c.dumpDt c.dt (steps (E.time s0) c.maxTime c.dt)
      = pre ++ f :: post)
    (hpre : writeAll E.write pre w = (true, w1)) (hfail : E.write f w1 = (false, w2)) :
    ∃ r, solverRun E c fuel s0 w = .ok (-1, r) ∧ r.stream = w2 ∧ E.getData r.s = f := by
  set n := steps (E.time s0) c.maxTime c.dt with hn
  rw [C35.frames_eq] at hf
  have hdump : dumping c := ⟨hs, hd⟩
  have main : ∀ (w0 : ω) (pre' : List φ),
      (writeAll E.write (if E.time s0 ≤ 0 then [E.getData s0] else []) w = (true, w0)) →
      dueFrames E c s0 n = pre' ++ f :: post → writeAll E.write pre' w0 = (true, w1) →
      ∃ r, solverRun E c fuel s0 w = .ok (-1, r) ∧ r.stream = w2 ∧ E.getData r.s = f := by
    intro w0 pre' h0 hdue hpre'
    obtain ⟨k, hk, hdvd, hdk, hfk⟩ := due_split s0 n pre' post f hdue
    rw [C35.run_start s0 w w0 fuel (fun _ => h0) (fun h => absurd hdump h)]
    have hlt : E.time s0 < c.maxTime := by
      by_contra hge
      have : n = 0 := by
        rw [hn]; unfold steps
        rw [Nat.ceil_eq_zero]
        exact div_nonpos_of_nonpos_of_nonneg (by linarith [not_lt.1 hge]) hdt.le
      omega
    have htk : E.time s0 + ((k + 1 : ℕ) : K) * c.dt < c.maxTime + c.dt := by
      refine lt_of_le_of_lt ?_ ((C35.steps_time hdt (E.time s0)).2 hlt)
      have : ((k + 1 : ℕ) : K) ≤ (n : K) := by exact_mod_cast hk
      have := mul_le_mul_of_nonneg_right this hdt.le
      rw [← hn]
      linarith
    have hadv := runLoop_advance hclock hdt s0 0 k (fuel - k) w0 w1
      (by rw [Nat.zero_add]; push_cast at htk; linarith)
      (fun _ => ⟨pre', by rw [Nat.zero_add, hdk]; simp [dueFrames, multiples], hpre'⟩)
      (fun h => absurd hdump h)
    rw [Nat.sub_add_cancel (by omega), Nat.zero_add] at hadv
    rw [hadv]
    obtain ⟨q1, q2, q3⟩ := (runBody_at hclock hdt s0 k w1).2 ⟨hdump, hdvd⟩
    rw [← hfk, hfail] at q1 q3
    simp only at q1 q3
    have hltk : E.time (runAt E c s0 k w1).s < c.maxTime := by
      have : (runAt E c s0 k w1).s = (oneStep E c)^[k] s0 := rfl
      rw [this, time_iterate hclock]
      push_cast at htk
      linarith
    obtain ⟨fu, hfu⟩ : ∃ fu, fuel - k = fu + 1 := ⟨fuel - k - 1, by omega⟩
    refine ⟨(runBody E c (runAt E c s0 k w1)).2, ?_, (q3 trivial).1, ?_⟩
    · rw [hfu, runLoop, if_pos hltk]
      simp [q1]
    · rw [(q3 trivial).2.1, hfk]
  by_cases ht : E.time s0 ≤ 0
  · rw [if_pos ht] at hf main
    cases pre with
    | nil =>
      simp only [List.nil_append, List.singleton_append, List.cons.injEq] at hf
      simp only [writeAll, Prod.mk.injEq, true_and] at hpre
      subst hpre
      refine ⟨⟨s0, w2, E.time s0, E.time s0, []⟩, ?_, rfl, hf.1⟩
      · unfold solverRun
        simp only
        rw [if_pos ⟨hs, hd, ht⟩, hf.1, hfail]
        rfl
    | cons g pre' =>
      simp only [List.singleton_append, List.cons_append, List.cons.injEq] at hf
      simp only [writeAll] at hpre
      by_cases hq : (E.write g w).1 = true
      · rw [if_pos hq] at hpre
        refine main (E.write g w).2 pre' ?_ hf.2 hpre
        simp only [writeAll, hf.1, hq, if_true]
      · rw [if_neg hq] at hpre; simp at hpre
  · rw [if_neg ht] at hf main
    exact main w pre rfl hf hpre

end

section
variable {K : Type} [Field K] [LinearOrder K] [IsStrictOrderedRing K] [FloorSemiring K]

/-- The period is the smallest positive number of steps that is not more than a tenth of a step short of the
requested interval. -/
lemma period_spec {per dt : K} (hdt : 0 < dt) :
    per - dt * (1 / 10) ≤ (period per dt : K) * dt ∧
    ((period per dt : K) * dt = dt ∨ (period per dt : K) * dt < per + dt * (9 / 10)) := by
  constructor
  · have h : per / dt - 1 / 10 ≤ (period per dt : K) :=
      (Nat.le_ceil _).trans (by exact_mod_cast le_max_right _ _)
    rw [sub_le_iff_le_add, div_le_iff₀ hdt, add_mul] at h
    linarith
  · by_cases h : ⌈per / dt - 1 / 10⌉₊ ≤ 1
    · left
      have : period per dt = 1 := by unfold period; omega
      rw [this]; simp
    · right
      have hp : period per dt = ⌈per / dt - 1 / 10⌉₊ := by unfold period; omega
      have h0 : 0 ≤ per / dt - 1 / 10 := by
        by_contra hneg
        have := Nat.ceil_eq_zero.2 (le_of_lt (not_le.1 hneg))
        omega
      have h1 := Nat.ceil_lt_add_one h0
      rw [← hp] at h1
      have h2 := mul_lt_mul_of_pos_right h1 hdt
      rw [add_mul, sub_mul, div_mul_cancel₀ _ hdt.ne'] at h2
      linarith

lemma dumpSteps_eq (t0 per dt : K) (n : ℕ) :
    ∃ a, (a = if t0 ≤ 0 then 0 else 1) ∧ dumpSteps t0 per dt n =
      (List.range' a (n / period per dt + 1 - a)).map (· * period per dt) := by
  have hm := period_pos per dt
  by_cases h : t0 ≤ 0
  · refine ⟨0, (if_pos h).symm, ?_⟩
    unfold dumpSteps
    rw [if_pos h, multiples_eq hm, Nat.sub_zero, ← List.range_eq_range', List.range_succ_eq_map]
    simp [List.map_map, Function.comp_def]
  · refine ⟨1, (if_neg h).symm, ?_⟩
    unfold dumpSteps
    rw [if_neg h, multiples_eq hm, List.nil_append, Nat.add_sub_cancel, List.range'_eq_map_range, List.map_map]
    apply List.map_congr_left
    intro j _
    simp [Nat.add_comm]

/-- The times of the scheduled frames.  The first is the start time if and only if that is at most 0; the
times increase; consecutive frames are at least `dump_dt - dt/10` apart, and less than `dump_dt + 9/10 dt`
unless every step is dumped; the same holds between the start of a continued run and its first frame; the
run ends less than that after its last frame. -/
theorem dump_times {t0 per dt : K} (hdt : 0 < dt) (n : ℕ) :
    let times := (dumpSteps t0 per dt n).map (fun (k : ℕ) => t0 + (k : K) * dt)
    let gap := fun a b : K => per - dt * (1 / 10) ≤ b - a ∧ (b - a = dt ∨ b - a < per + dt * (9 / 10))
    times.Pairwise (· < ·) ∧
    (∀ i t t', times[i]? = some t → times[i + 1]? = some t' → gap t t') ∧
    (times.head? = some t0 ↔ t0 ≤ 0) ∧
    (∀ t, times.head? = some t → t = t0 ∨ gap t0 t) ∧
    (∀ t ∈ times, t0 ≤ t ∧ t ≤ t0 + (n : K) * dt) ∧
    (∀ t, times.getLast? = some t →
      t0 + (n : K) * dt = t ∨ t0 + (n : K) * dt - t < per + dt * (9 / 10)) ∧
    (times = [] → 0 < t0 ∧ (n = 0 ∨ (n : K) * dt < per + dt * (9 / 10))) := by
  obtain ⟨a, ha, hl⟩ := dumpSteps_eq t0 per dt n
  set m := period per dt with hm
  have hmp : 0 < m := period_pos per dt
  have hmd : 0 < (m : K) * dt := mul_pos (by exact_mod_cast hmp) hdt
  obtain ⟨hs1, hs2⟩ := period_spec (per := per) hdt
  rw [← hm] at hs1 hs2
  -- what is left at the end is less than one period
  have hrest : ∀ r : ℕ, r < m → (r : K) * dt = 0 ∨ (r : K) * dt < per + dt * (9 / 10) := by
    intro r hr
    rcases hs2 with h | h
    · left
      have : (m : K) = 1 := by
        have := mul_right_cancel₀ hdt.ne' (h.trans (one_mul dt).symm)
        exact this
      have : m = 1 := by exact_mod_cast this
      have : r = 0 := by omega
      simp [this]
    · right
      have : (r : K) < m := by exact_mod_cast hr
      have := mul_lt_mul_of_pos_right this hdt
      linarith
  have hnm : n / m * m ≤ n := Nat.div_mul_le_self n m
  simp only
  rw [hl, List.map_map]
  have hval : ∀ j : ℕ, ((fun k : ℕ => t0 + (k : K) * dt) ∘ (· * m)) j = t0 + (j : K) * ((m : K) * dt) := by
    intro j; simp only [Function.comp]; push_cast; ring
  have hget : ∀ i t, ((List.range' a (n / m + 1 - a)).map ((fun k : ℕ => t0 + (k : K) * dt) ∘ (· * m)))[i]?
      = some t → i < n / m + 1 - a ∧ t = t0 + ((a + i : ℕ) : K) * ((m : K) * dt) := by
    intro i t h
    rw [List.getElem?_map] at h
    by_cases hi : i < n / m + 1 - a
    · rw [List.getElem?_range' hi] at h
      simp only [Option.map_some, Option.some.injEq, hval, Nat.one_mul] at h
      exact ⟨hi, h.symm⟩
    · rw [List.getElem?_eq_none (by simpa using hi)] at h
      simp at h
  have hlast : ∀ j, j ≤ n / m → t0 + (j : K) * ((m : K) * dt) ≤ t0 + (n : K) * dt := by
    intro j hj
    have h1 : j * m ≤ n := (Nat.mul_le_mul_right m hj).trans hnm
    have h2 : (j : K) * (m : K) ≤ n := by exact_mod_cast h1
    have := mul_le_mul_of_nonneg_right h2 hdt.le
    linarith
  have hhead : ∀ t, ((List.range' a (n / m + 1 - a)).map ((fun k : ℕ => t0 + (k : K) * dt) ∘ (· * m))).head?
      = some t → t = t0 + (a : K) * ((m : K) * dt) := by
    intro t h
    rw [List.head?_eq_getElem?] at h
    simpa using (hget _ _ h).2
  refine ⟨?_, ?_, ?_, ?_, ?_, ?_, ?_⟩
  · rw [List.pairwise_map]
    refine List.Pairwise.imp ?_ (List.pairwise_lt_range' (step := 1))
    intro i j hij
    rw [hval, hval]
    have : (i : K) < j := by exact_mod_cast hij
    have := mul_lt_mul_of_pos_right this hmd
    linarith
  · intro i t t' h h'
    obtain ⟨_, e⟩ := hget _ _ h
    obtain ⟨_, e'⟩ := hget _ _ h'
    have hd : t' - t = (m : K) * dt := by rw [e, e']; push_cast; ring
    rw [hd]
    exact ⟨hs1, hs2⟩
  · by_cases h0 : t0 ≤ 0
    · rw [if_pos h0] at ha
      subst ha
      simp [h0, List.range'_succ, hval]
    · rw [if_neg h0] at ha
      subst ha
      refine ⟨fun h => ?_, fun h => absurd h h0⟩
      have := hhead _ h
      rw [Nat.cast_one, one_mul] at this
      linarith
  · intro t h
    have := hhead _ h
    by_cases h0 : t0 ≤ 0
    · rw [if_pos h0] at ha
      subst ha
      left; simpa using this
    · rw [if_neg h0] at ha
      subst ha
      right
      have hd : t - t0 = (m : K) * dt := by rw [this]; push_cast; ring
      rw [hd]
      exact ⟨hs1, hs2⟩
  · intro t h
    obtain ⟨i, hi⟩ := List.getElem?_of_mem h
    obtain ⟨h1, h2⟩ := hget _ _ hi
    rw [h2]
    exact ⟨le_add_of_nonneg_right (mul_nonneg (Nat.cast_nonneg _) hmd.le), hlast _ (by omega)⟩
  · intro t h
    rw [List.getLast?_eq_getElem?] at h
    obtain ⟨h1, h2⟩ := hget _ _ h
    simp only [List.length_map, List.length_range'] at h1 h2
    have hj : a + (n / m + 1 - a - 1) = n / m := by omega
    rw [hj] at h2
    have hn : (n : K) = ((n / m : ℕ) : K) * m + ((n % m : ℕ) : K) := by
      have := Nat.div_add_mod' n m
      exact_mod_cast this.symm
    have hd : t0 + (n : K) * dt - t = ((n % m : ℕ) : K) * dt := by rw [h2, hn]; ring
    rw [hd]
    rcases hrest (n % m) (Nat.mod_lt _ hmp) with h | h
    · left
      rw [h] at hd
      exact sub_eq_zero.1 hd
    · exact .inr h
  · intro h
    have hlen := congrArg List.length h
    simp only [List.length_map, List.length_range', List.length_nil] at hlen
    have hq : ∀ q : ℕ, q + 1 - a = 0 → a ≠ 0 ∧ (a = 1 → q = 0) := by intro q h; omega
    have hq := hq _ hlen
    by_cases h0 : t0 ≤ 0
    · rw [if_pos h0] at ha
      exact absurd ha hq.1
    · rw [if_neg h0] at ha
      have hdiv : n / m = 0 := hq.2 ha
      have hlt : n < m := by
        rcases Nat.div_eq_zero_iff.1 hdiv with h | h
        · omega
        · exact h
      refine ⟨not_le.1 h0, ?_⟩
      rcases hrest n hlt with h | h
      · left
        rcases mul_eq_zero.1 h with h | h
        · exact_mod_cast h
        · exact absurd h hdt.ne'
      · exact .inr h

/-- When the dump interval is a whole number of steps, the frames are exactly that many steps apart. -/
theorem whole_interval {dt : K} (hdt : 0 < dt) (q : ℕ) (hq : 0 < q) : period ((q : K) * dt) dt = q := by
  unfold period
  rw [mul_div_assoc, div_self hdt.ne', mul_one]
  have h1 : ⌈(q : K) - 1 / 10⌉₊ = q := by
    rw [Nat.ceil_eq_iff (by omega)]
    have : ((q - 1 : ℕ) : K) = (q : K) - 1 := by rw [Nat.cast_sub hq]; simp
    rw [this]
    constructor
    · linarith [show (1 : K) / 10 < 1 by norm_num]
    · linarith [show (0 : K) < 1 / 10 by norm_num]
  rw [h1]; omega

end

/-- Steps of 1/10, dumps every 1/4 for 12 steps: the interval is not a whole number of steps, the frames are
three steps apart. -/
example : (dumpSteps (0 : ℚ) (1/4) (1/10) 12) = [0, 3, 6, 9, 12] ∧
    (dumpSteps (5 : ℚ) (1/4) (1/10) 12) = [3, 6, 9, 12] := by
  constructor <;> decide +kernel

/-- A run of `y' = y` with Euler's method; the stream has room for two frames. -/
def smallStream : RunEnv (Eng ℚ ℚ) ℚ (List ℚ) ℚ :=
  ⟨fun e => e.time, id, eulerAdvise fun _ _ (y : ℚ) => y, fun e => e.time,
    fun t l => if l.length < 2 then (true, l ++ [t]) else (false, l)⟩

/-- The third write fails; the hypotheses of `write_failure` are met. -/
example : ∃ r, solverRun smallStream ⟨1/4, 1, 1/4, 0, true, false⟩ 4 ⟨1, 0, 0, 0⟩ [] = .ok (-1, r) ∧
    r.stream = [0, 1/4] ∧ r.s.time = 1/2 :=
  write_failure (E := smallStream) (c := ⟨1/4, 1, 1/4, 0, true, false⟩) ⟨fun _ => rfl, fun _ => rfl⟩
    (by norm_num) rfl (by norm_num) ⟨1, 0, 0, 0⟩ [] [0, 1/4] [0, 1/4] 4
    (by decide +kernel) [0, 1/4] [3/4, 1] (1/2) (by decide +kernel) (by decide +kernel) (by decide +kernel)

end NB.C36
