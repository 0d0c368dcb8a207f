import Verif.Props.C12_LinearInvariants

/-
C13: one `advise(dt)` advances the time by exactly `dt` and the step counter by one.  For every solver
but two this is proved for every configuration and from every state; the two exceptions (Bulirsch-Stoer:
the step counter, Stormer: everything) are proved as what they are.
-/

namespace NB.C13

/-- What a user expects of `advise(dt)` turning the engine `e` into `e'`. -/
def Clock {V K : Type} [Add K] (dt : K) (e e' : Eng V K) : Prop :=
  e'.time = e.time + dt ∧ e'.step = e.step + 1

variable {V K : Type} [Field K] [LinearOrder K] [AddCommGroup V] [Module K V]

theorem euler_clock (F : ℕ → K → V → V) (dt : K) (e : Eng V K) :
    Clock dt e (eulerAdvise F dt e) ∧ (eulerAdvise F dt e).cc = e.cc + 1 := ⟨⟨rfl, rfl⟩, rfl⟩

theorem midpoint_clock (F : ℕ → K → V → V) (dt : K) (e : Eng V K) :
    Clock dt e (midpointAdvise F dt e) ∧ (midpointAdvise F dt e).cc = e.cc + 2 := ⟨⟨rfl, rfl⟩, rfl⟩

theorem rk4_clock (F : ℕ → K → V → V) (dt : K) (e : Eng V K) :
    Clock dt e (rk4Advise F dt e) ∧ (rk4Advise F dt e).cc = e.cc + 4 := ⟨⟨rfl, rfl⟩, rfl⟩

/-- The trapeze solver evaluates the derivative `refine + 2` times. -/
theorem trapeze_clock (F : ℕ → K → V → V) (refine : ℕ) (dt : K) (e : Eng V K) :
    Clock dt e (trapezeAdvise F refine dt e) ∧ (trapezeAdvise F refine dt e).cc = e.cc + (refine + 2) := by
  have h :
      let st := foldN (refine + 1) (vfmadd e.y (F e.cc e.time e.y) dt, { e with cc := e.cc + 1 })
        (trapezeIter F refine e.time dt (F e.cc e.time e.y))
      st.2.time = e.time ∧ st.2.step = e.step ∧ st.2.cc = e.cc + 1 + (refine + 1) := by
    refine foldN_inv (fun n (s : V × Eng V K) => s.2.time = e.time ∧ s.2.step = e.step ∧
      s.2.cc = e.cc + 1 + n) ⟨rfl, rfl, rfl⟩ ?_
    rintro i ⟨p, e'⟩ _ ⟨h1, h2, h3⟩
    simp only at h1 h2 h3
    simp only [trapezeIter, Eng.fc]
    split_ifs <;> exact ⟨h1, h2, by simp [h3]; ring⟩
  obtain ⟨h1, h2, h3⟩ := h
  refine ⟨⟨?_, ?_⟩, ?_⟩
  · simp only [trapezeAdvise, Eng.fc, Eng.adviseTime, h1]
  · simp only [trapezeAdvise, Eng.fc, Eng.adviseTime, h2]
  · simp only [trapezeAdvise, Eng.fc, Eng.adviseTime, h3]; ring

/-- Stetter's midpoint scheme, from any internal state. -/
theorem stetter_clock (F : ℕ → K → V → V) (dt : K) (s : Stetter V) (e : Eng V K) :
    Clock dt e (stetterAdvise F dt s e).2 ∧
    (stetterAdvise F dt s e).2.cc = e.cc + (if s.allocated && s.initiated then 2 else 3) :=
  ⟨⟨(NB.stetter_clock F dt s e).1, (NB.stetter_clock F dt s e).2.1⟩, (NB.stetter_clock F dt s e).2.2.1⟩

/-- Adams-Bashforth, from any internal state, provided the starter keeps the clock. -/
theorem adams_clock {σ : Type} (F : ℕ → K → V → V) {starter : K → σ × Eng V K → Res (σ × Eng V K)}
    (hst : ∀ dt s s', starter dt s = .ok s' → Clock dt s.2 s'.2)
    (rank : ℕ) (correction : Bool) (dt : K) (s : Adams V σ) (e : Eng V K) (r : Adams V σ × Eng V K)
    (hr : adamsAdvise F starter rank correction dt s e = .ok r) :
    Clock dt e r.2 ∧ r.1.mstep = s.mstep + 1 := by
  unfold adamsAdvise at hr
  by_cases h0 : rank = 0
  · simp [h0] at hr
  rw [if_neg h0] at hr
  by_cases h5 : 5 < rank
  · simp [h5] at hr
  rw [if_neg h5] at hr
  cases htab : adamsTable (K := K) rank with
  | none => simp [htab] at hr
  | some al =>
    rw [htab] at hr
    simp only [Eng.fc] at hr
    by_cases hm : rank < s.mstep
    · rw [if_pos hm] at hr
      cases correction with
      | true =>
        simp only [if_true] at hr
        cases hr
        exact ⟨⟨rfl, rfl⟩, rfl⟩
      | false =>
        simp only [Bool.false_eq_true, if_false] at hr
        cases hr
        exact ⟨⟨rfl, rfl⟩, rfl⟩
    · rw [if_neg hm] at hr
      cases hs : starter dt (s.starter, { e with cc := e.cc + 1 }) with
      | error x => rw [hs] at hr; cases hr
      | ok q =>
        rw [hs] at hr
        cases hr
        exact ⟨hst dt _ _ hs, rfl⟩

/-- Runge-Kutta with any table and configuration, from any internal state: adaptive subdivision does not
touch the engine's clock. -/
theorem rk_clock (F : ℕ → K → V → V) (nrm : V → K) (bt : BT K) (cf : RKConf K) (dt : K) (r : RKState V)
    (e : Eng V K) : Clock dt e (rkAdvise F nrm bt cf dt r e).2 := ⟨rfl, rfl⟩

/-- Bulirsch-Stoer: the time advances by `dt`, but the step counter by the number of substeps of all
levels computed, plus one. -/
theorem bs_clock [IsStrictOrderedRing K] (F : ℕ → K → V → V) (nrm : V → K) {cf : BSConf K}
    (hcf : C23.Constructed cf) (dt : K) {b : BSState V} (hb : C23.TablesOk cf b) (e : Eng V K) :
    ∃ r, bsAdvise F nrm cf dt b e = .ok r ∧ r.2.time = e.time + dt ∧
      (cf.maxLevel = 0 ∧ r.2.step = e.step + 1 ∨
        0 < cf.maxLevel ∧ ∃ M, 0 < M ∧ M ≤ cf.maxLevel ∧
          r.2.step = e.step + (∑ m ∈ Finset.range M, C23.bsCount m) + 1) := by
  obtain ⟨r, M, hr, _, hM, hsm, ht, hs, _, _, _, h3⟩ := C23.bs_step F nrm hcf dt hb e
  refine ⟨r, hr, ht, ?_⟩
  by_cases h0 : cf.maxLevel = 0
  · left
    obtain rfl : M = 0 := by omega
    exact ⟨h0, by simpa using hs⟩
  · right
    refine ⟨by omega, M, ?_, hM, hs⟩
    by_contra hM0
    obtain rfl : M = 0 := by omega
    rcases Nat.lt_or_ge cf.maxLevel 3 with hlt | hge
    · have := hsm (by omega); omega
    · have := (h3 hge).1; omega

/-- Stormer's `advise` does nothing at all: neither the state nor the clock changes. -/
theorem stormer_does_nothing (F : ℕ → K → V → V) (dt : K) (e : Eng V K) : stormerAdvise F dt e = e := rfl

/-- So it violates the property for every `dt ≠ 0`, and the step counter for every `dt`. -/
theorem stormer_violates (F : ℕ → K → V → V) (dt : K) (e : Eng V K) : ¬ Clock dt e (stormerAdvise F dt e) := by
  rintro ⟨_, h⟩
  simp [stormerAdvise] at h

/-- A history of `n` steps of any solver that keeps the clock. -/
theorem run_clock {σ : Type} (adv : K → σ × Eng V K → σ × Eng V K)
    (hadv : ∀ dt s, Clock dt s.2 (adv dt s).2) (dts : List K) (s : σ × Eng V K) :
    (dts.foldl (fun s dt => adv dt s) s).2.time = s.2.time + dts.sum ∧
    (dts.foldl (fun s dt => adv dt s) s).2.step = s.2.step + dts.length := by
  induction dts generalizing s with
  | nil => simp
  | cons dt dts ih =>
    obtain ⟨h1, h2⟩ := ih (adv dt s)
    obtain ⟨a, b⟩ := hadv dt s
    simp only [List.foldl_cons, h1, h2, a, b, List.sum_cons, List.length_cons]
    exact ⟨by ring, by ring⟩

/-- The hypothesis of `run_clock` is met by the Runge-Kutta solver. -/
example (F : ℕ → ℚ → ℚ → ℚ) (nrm : ℚ → ℚ) (bt : BT ℚ) (cf : RKConf ℚ) (e : Eng ℚ ℚ) :
    ([1, 1 / 2].foldl (fun s dt => rkAdvise F nrm bt cf dt s.1 s.2) (RKState.new, e)).2.time =
      e.time + 3 / 2 := by
  have := (run_clock (fun dt s => rkAdvise F nrm bt cf dt s.1 s.2)
    (fun dt s => rk_clock F nrm bt cf dt s.1 s.2) [1, 1 / 2] (RKState.new, e)).1
  rw [this]; norm_num

/-- The hypothesis of `adams_clock` is met by the RK4 starter. -/
example (F : ℕ → ℚ → ℚ → ℚ) (dt : ℚ) (s s' : Unit × Eng ℚ ℚ)
    (h : (fun (dt : ℚ) (s : Unit × Eng ℚ ℚ) => (.ok (s.1, rk4Advise F dt s.2) : Res _)) dt s = .ok s') :
    Clock dt s.2 s'.2 := by
  cases h
  exact (rk4_clock F dt s.2).1

end NB.C13
