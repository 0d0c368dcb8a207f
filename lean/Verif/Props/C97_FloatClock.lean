import Verif.Model.FloatClock
import Verif.Spec.Decimal
import Mathlib.Data.Int.Log
import Mathlib.Data.Rat.Floor
import Mathlib.Data.Set.Finite.Lemmas
import Mathlib.Order.Interval.Finset.Defs
import Mathlib.Data.Int.Interval
import Mathlib.Tactic.Linarith
import Mathlib.Tactic.NormNum
import Mathlib.Tactic.Ring
import Mathlib.Tactic.Positivity
import Mathlib.Tactic.FieldSimp

/-
C97: how long a run can be in the arithmetic of the machine.
-/

namespace NB.C97

open NB.Dec

/-- `fl` rounds to a nearest number of the type, whichever way it breaks ties, unless the result overflows. -/
def Rounds (p : ℕ) (lo hi : ℤ) (fl : ℚ → ℚ) : Prop :=
  ∀ x, |x| < ((2 : ℚ) ^ p - 1 / 2) * (2 : ℚ) ^ hi → IsNearest (IsFloat p lo hi) x (fl x)

/-- Between `2^p * 2^e` and the next number of the type there is a gap of `2^(e+1)`. -/
lemma above {p : ℕ} {lo hi e : ℤ} {y : ℚ} (hp : 1 ≤ p) (hy : IsFloat p lo hi y) (h : (2 : ℚ) ^ p * 2 ^ e < y) :
    (2 : ℚ) ^ p * 2 ^ e + 2 ^ (e + 1) ≤ y := by
  obtain ⟨m, f, hm, -, -, rfl⟩ := hy
  have hm1 : (m : ℚ) < 2 ^ p := by exact_mod_cast lt_of_le_of_lt (le_abs_self m) hm
  have hf0 : (0 : ℚ) < 2 ^ f := zpow_pos (by norm_num) _
  have hef : e < f := by
    have h1 : (2 : ℚ) ^ p * 2 ^ e < 2 ^ p * 2 ^ f := h.trans (mul_lt_mul_of_pos_right hm1 hf0)
    have h2 : (2 : ℚ) ^ e < 2 ^ f := lt_of_mul_lt_mul_left h1 (by positivity)
    exact (zpow_lt_zpow_iff_right₀ (by norm_num)).1 h2
  obtain ⟨d, hd⟩ : ∃ d : ℕ, f = e + 1 + d := ⟨(f - (e + 1)).toNat, by omega⟩
  obtain ⟨q, rfl⟩ : ∃ q, p = q + 1 := ⟨p - 1, by omega⟩
  have e0 : (0 : ℚ) < 2 ^ (e + 1) := zpow_pos (by norm_num) _
  have hB : (2 : ℚ) ^ (q + 1) * 2 ^ e = ((2 ^ q : ℤ) : ℚ) * 2 ^ (e + 1) := by
    rw [zpow_add_one₀ (by norm_num)]; push_cast; ring
  have hY : (m : ℚ) * 2 ^ f = ((m * 2 ^ d : ℤ) : ℚ) * 2 ^ (e + 1) := by
    rw [hd, zpow_add₀ (by norm_num)]; push_cast; rw [zpow_natCast]; ring
  rw [hB, hY] at h
  rw [hB, hY]
  have h3 : (2 ^ q : ℤ) < m * 2 ^ d := by
    have := lt_of_mul_lt_mul_right h e0.le
    exact_mod_cast this
  have h4 : ((2 ^ q : ℤ) : ℚ) + 1 ≤ ((m * 2 ^ d : ℤ) : ℚ) := by exact_mod_cast h3
  nlinarith

/-- A clock that has not passed `2^p * 2^e` does not pass it by a step below `2^e`. -/
lemma stays {p : ℕ} {lo hi e : ℤ} {fl : ℚ → ℚ} (hp : 1 ≤ p) (hlo : lo ≤ e + 1) (hhi : e + 1 ≤ hi)
    (hfl : Rounds p lo hi fl) {dt t : ℚ} (h0 : 0 ≤ dt) (hdt : dt < 2 ^ e) (ht0 : 0 ≤ t)
    (ht : t ≤ 2 ^ p * 2 ^ e) : 0 ≤ adviseTime fl dt t ∧ adviseTime fl dt t ≤ 2 ^ p * 2 ^ e := by
  unfold adviseTime
  have he : (0 : ℚ) < 2 ^ e := zpow_pos (by norm_num) _
  have hp2 : (2 : ℚ) ≤ 2 ^ p := by
    calc (2 : ℚ) = 2 ^ 1 := by norm_num
      _ ≤ 2 ^ p := pow_le_pow_right₀ (by norm_num) hp
  have hr : |t + dt| < ((2 : ℚ) ^ p - 1 / 2) * (2 : ℚ) ^ hi := by
    rw [abs_of_nonneg (by linarith)]
    have h1 : (2 : ℚ) ^ (e + 1) ≤ 2 ^ hi := zpow_le_zpow_right₀ (by norm_num) hhi
    rw [zpow_add_one₀ (by norm_num)] at h1
    have h2 : ((2 : ℚ) ^ p - 1 / 2) * (2 ^ e * 2) ≤ ((2 : ℚ) ^ p - 1 / 2) * (2 : ℚ) ^ hi :=
      mul_le_mul_of_nonneg_left h1 (by linarith)
    nlinarith
  obtain ⟨hy, hn⟩ := hfl _ hr
  have hB : IsFloat p lo hi ((2 : ℚ) ^ p * 2 ^ e) := by
    obtain ⟨q, rfl⟩ : ∃ q, p = q + 1 := ⟨p - 1, by omega⟩
    refine ⟨2 ^ q, e + 1, ?_, hlo, hhi, ?_⟩
    · rw [abs_of_pos (by positivity), pow_succ]
      have : (0 : ℤ) < 2 ^ q := by positivity
      linarith
    · rw [zpow_add_one₀ (by norm_num)]; push_cast; ring
  have hZ : IsFloat p lo hi 0 := ⟨0, e + 1, by simp, hlo, hhi, by simp⟩
  constructor
  · by_contra hneg
    rw [not_le] at hneg
    have := hn 0 hZ
    rw [abs_of_neg (by linarith), zero_sub, abs_neg, abs_of_nonneg (by linarith)] at this
    linarith
  · by_contra hgt
    rw [not_le] at hgt
    have h1 := above hp hy hgt
    rw [zpow_add_one₀ (by norm_num)] at h1
    have h2 := hn _ hB
    rw [abs_of_pos (a := fl (t + dt) - (t + dt)) (by linarith)] at h2
    rcases le_total (t + dt) (2 ^ p * 2 ^ e) with h3 | h3
    · rw [abs_of_nonneg (by linarith)] at h2; linarith
    · rw [abs_of_nonpos (by linarith)] at h2; linarith

section
variable {σ φ ω : Type} {E : RunEnv σ φ ω ℚ} {c : RunConf ℚ}

lemma body_time {fl : ℚ → ℚ} (hc : FloatClock E fl c.dt) (r : RunSt σ φ ω ℚ) :
    E.time (runBody E c r).2.s = adviseTime fl c.dt (E.time r.s) := by
  have hs : (runBody E c r).2.s = E.advise c.dt (if c.clampToBox then E.clamp r.s else r.s) := by
    unfold runBody
    simp only
    split_ifs <;> rfl
  rw [hs, hc.advise]
  split
  · rw [hc.clamp]
  · rfl

lemma body_ok (hwr : ∀ f w, (E.write f w).1 = true) (r : RunSt σ φ ω ℚ) : (runBody E c r).1 = true := by
  unfold runBody
  simp only [hwr, if_true]
  split_ifs <;> rfl

lemma loop_never {fl : ℚ → ℚ} (hc : FloatClock E fl c.dt) (hwr : ∀ f w, (E.write f w).1 = true) {B : ℚ}
    (hB : B < c.maxTime)
    (hst : ∀ t, 0 ≤ t → t ≤ B → 0 ≤ adviseTime fl c.dt t ∧ adviseTime fl c.dt t ≤ B) (fuel : ℕ)
    (r : RunSt σ φ ω ℚ) (h0 : 0 ≤ E.time r.s) (h : E.time r.s ≤ B) :
    runLoop E c fuel r = .error .noReturn := by
  induction fuel generalizing r with
  | zero => rw [runLoop, if_pos (by linarith)]
  | succ fuel ih =>
    rw [runLoop, if_pos (by linarith)]
    simp only [body_ok hwr, if_true]
    have := hst _ h0 h
    rw [← body_time hc] at this
    exact ih _ this.1 this.2

/-- In arithmetic of `p` bits, a run that is to take more than `2^(p+1)` steps never returns: the clock stops, because
the step becomes less than half of the distance of the numbers around the time.  That is so from any state whose
time is below `2^p` steps, for every solver, whichever way ties are rounded, and however many iterations are allowed. -/
theorem long_run_never_returns {p : ℕ} {lo hi : ℤ} {fl : ℚ → ℚ} (hp : 1 ≤ p) (hfl : Rounds p lo hi fl)
    (hc : FloatClock E fl c.dt) (hwr : ∀ f w, (E.write f w).1 = true)
    (hlo : (2 : ℚ) ^ lo ≤ c.dt) (hhi : c.dt < 2 ^ (hi - 1)) (s0 : σ) (w : ω) (h0 : 0 ≤ E.time s0)
    (h1 : E.time s0 ≤ 2 ^ p * c.dt) (hlong : 2 ^ (p + 1) * c.dt < c.maxTime) (fuel : ℕ) :
    solverRun E c fuel s0 w = .error .noReturn := by
  have hdt : 0 < c.dt := lt_of_lt_of_le (zpow_pos (by norm_num) _) hlo
  have l1 := Int.zpow_log_le_self (b := 2) (by norm_num) hdt
  have l2 := Int.lt_zpow_succ_log_self (b := 2) (by norm_num) c.dt
  generalize Int.log 2 c.dt = g at l1 l2
  push_cast at l1 l2
  have hg1 : lo < g + 1 := (zpow_lt_zpow_iff_right₀ (a := (2 : ℚ)) (by norm_num)).1 (hlo.trans_lt l2)
  have hg2 : g < hi - 1 := (zpow_lt_zpow_iff_right₀ (a := (2 : ℚ)) (by norm_num)).1 (l1.trans_lt hhi)
  have hp0 : (0 : ℚ) < 2 ^ p := by positivity
  have hB : (2 : ℚ) ^ p * 2 ^ (g + 1) < c.maxTime := by
    refine lt_of_le_of_lt ?_ hlong
    rw [zpow_add_one₀ (by norm_num), pow_succ]
    nlinarith
  have hst : ∀ t, 0 ≤ t → t ≤ (2 : ℚ) ^ p * 2 ^ (g + 1) →
      0 ≤ adviseTime fl c.dt t ∧ adviseTime fl c.dt t ≤ (2 : ℚ) ^ p * 2 ^ (g + 1) :=
    fun t ht0 ht => stays hp (by omega) (by omega) hfl hdt.le l2 ht0 ht
  have hs : E.time s0 ≤ (2 : ℚ) ^ p * 2 ^ (g + 1) := h1.trans (mul_le_mul_of_nonneg_left l2.le hp0.le)
  unfold solverRun
  simp only [hwr, if_true]
  split
  · exact loop_never hc hwr hB hst fuel _ h0 hs
  · exact loop_never hc hwr hB hst fuel _ h0 hs

/-- A clock below `2^(p-1)` steps is moved by at least half a step and at most one and a half. -/
lemma moves {p : ℕ} {lo hi : ℤ} {fl : ℚ → ℚ} (hp : 1 ≤ p) (hfl : Rounds p lo hi fl) {dt t : ℚ}
    (hlo : (2 : ℚ) ^ lo ≤ dt) (hhi : dt < 2 ^ hi) (ht0 : 0 ≤ t) (ht : t + dt < 2 ^ (p - 1) * dt) :
    t + dt / 2 ≤ adviseTime fl dt t ∧ adviseTime fl dt t ≤ t + 3 / 2 * dt := by
  unfold adviseTime
  have hdt : 0 < dt := lt_of_lt_of_le (zpow_pos (by norm_num) _) hlo
  have l1 := Int.zpow_log_le_self (b := 2) (by norm_num) hdt
  have l2 := Int.lt_zpow_succ_log_self (b := 2) (by norm_num) dt
  generalize Int.log 2 dt = g at l1 l2
  push_cast at l1 l2
  have hg1 : lo < g + 1 := (zpow_lt_zpow_iff_right₀ (a := (2 : ℚ)) (by norm_num)).1 (hlo.trans_lt l2)
  have hg2 : g < hi := (zpow_lt_zpow_iff_right₀ (a := (2 : ℚ)) (by norm_num)).1 (l1.trans_lt hhi)
  obtain ⟨q, rfl⟩ : ∃ q, p = q + 1 := ⟨p - 1, by omega⟩
  rw [Nat.add_sub_cancel] at ht
  have g0 : (0 : ℚ) < 2 ^ g := zpow_pos (by norm_num) _
  have q0 : (1 : ℚ) ≤ 2 ^ q := one_le_pow₀ (by norm_num)
  rw [zpow_add_one₀ (by norm_num)] at l2
  have hx : t + dt < 2 ^ (q + 1) * 2 ^ g := by rw [pow_succ]; nlinarith
  have hh : (2 : ℚ) ^ g * 2 ≤ 2 ^ hi := by
    rw [← zpow_add_one₀ (by norm_num)]; exact zpow_le_zpow_right₀ (by norm_num) (by omega)
  have hr : |t + dt| < ((2 : ℚ) ^ (q + 1) - 1 / 2) * (2 : ℚ) ^ hi := by
    rw [abs_of_nonneg (by linarith)]
    have h2 : ((2 : ℚ) ^ (q + 1) - 1 / 2) * (2 ^ g * 2) ≤ ((2 : ℚ) ^ (q + 1) - 1 / 2) * (2 : ℚ) ^ hi :=
      mul_le_mul_of_nonneg_left hh (by rw [pow_succ]; linarith)
    rw [pow_succ] at *
    nlinarith
  have hround := abs_sub_round ((t + dt) / 2 ^ g)
  generalize hm : round ((t + dt) / 2 ^ g) = m at hround
  have hm0 : (0 : ℤ) ≤ m := by
    have h1 := (abs_le.1 hround).2
    have h2 : 0 ≤ (t + dt) / 2 ^ g := div_nonneg (by linarith) g0.le
    have h3 : (-1 : ℚ) < m := by linarith
    have : (-1 : ℤ) < m := by exact_mod_cast h3
    omega
  have hm1 : m ≤ 2 ^ (q + 1) := by
    have h1 := (abs_le.1 hround).1
    have h2 : (t + dt) / 2 ^ g < 2 ^ (q + 1) := by rw [div_lt_iff₀ g0]; exact hx
    have h3 : (m : ℚ) < 2 ^ (q + 1) + 1 := by linarith
    have : m < 2 ^ (q + 1) + 1 := by exact_mod_cast h3
    omega
  have hF : IsFloat (q + 1) lo hi (m * 2 ^ g) := by
    rcases hm1.lt_or_eq with h | h
    · exact ⟨m, g, by rwa [abs_of_nonneg hm0], by omega, by omega, rfl⟩
    · refine ⟨2 ^ q, g + 1, ?_, by omega, by omega, ?_⟩
      · rw [abs_of_pos (by positivity), pow_succ]
        have : (0 : ℤ) < 2 ^ q := by positivity
        linarith
      · rw [h, zpow_add_one₀ (by norm_num)]; push_cast; ring
  have hd : |m * 2 ^ g - (t + dt)| ≤ dt / 2 := by
    have e : (m : ℚ) * 2 ^ g - (t + dt) = -(((t + dt) / 2 ^ g - m) * 2 ^ g) := by
      field_simp; ring
    rw [e, abs_neg, abs_mul, abs_of_pos g0]
    nlinarith
  have hn := abs_le.1 (((hfl _ hr).2 _ hF).trans hd)
  constructor <;> linarith [hn.1, hn.2]

lemma loop_returns {p : ℕ} {lo hi : ℤ} {fl : ℚ → ℚ} (hp : 1 ≤ p) (hfl : Rounds p lo hi fl)
    (hc : FloatClock E fl c.dt) (hwr : ∀ f w, (E.write f w).1 = true)
    (hlo : (2 : ℚ) ^ lo ≤ c.dt) (hhi : c.dt < 2 ^ hi) (hshort : c.maxTime + c.dt ≤ 2 ^ (p - 1) * c.dt) (n : ℕ) :
    ∀ r : RunSt σ φ ω ℚ, 0 ≤ E.time r.s → c.maxTime ≤ E.time r.s + n * (c.dt / 2) →
      E.time r.s < c.maxTime + 3 / 2 * c.dt →
      ∃ r', runLoop E c n r = .ok (0, r') ∧ c.maxTime ≤ E.time r'.s ∧ E.time r'.s < c.maxTime + 3 / 2 * c.dt := by
  induction n with
  | zero =>
    intro r _ h1 h2
    have h1' : c.maxTime ≤ E.time r.s := by simpa using h1
    exact ⟨r, by rw [runLoop, if_neg (not_lt.2 h1')], h1', h2⟩
  | succ n ih =>
    intro r h0 h1 h2
    by_cases h : E.time r.s < c.maxTime
    · have hdt : 0 < c.dt := lt_of_lt_of_le (zpow_pos (by norm_num) _) hlo
      have hmv := moves hp hfl hlo hhi h0 (by linarith)
      rw [← body_time hc] at hmv
      push_cast at h1
      obtain ⟨r', e1, e2⟩ := ih (runBody E c r).2 (by linarith [hmv.1]) (by linarith [hmv.1]) (by linarith [hmv.2])
      refine ⟨r', ?_, e2⟩
      rw [runLoop, if_pos h]
      simp only [body_ok hwr, if_true]
      exact e1
    · exact ⟨r, by rw [runLoop, if_neg h], not_lt.1 h, h2⟩

/-- In arithmetic of `p` bits, a run to a time of less than `2^(p-1)` steps returns 0, whatever the step is and
whichever way ties are rounded: every step moves the clock by at least half a step, so it makes at most twice as many
steps as without rounding, and it ends less than one and a half steps after the requested time. -/
theorem run_returns_partial {p : ℕ} {lo hi : ℤ} {fl : ℚ → ℚ} (hp : 1 ≤ p) (hfl : Rounds p lo hi fl)
    (hc : FloatClock E fl c.dt) (hwr : ∀ f w, (E.write f w).1 = true)
    (hlo : (2 : ℚ) ^ lo ≤ c.dt) (hhi : c.dt < 2 ^ hi) (hshort : c.maxTime + c.dt ≤ 2 ^ (p - 1) * c.dt) (n : ℕ)
    (s0 : σ) (w : ω) (h0 : 0 ≤ E.time s0) (hs : E.time s0 < c.maxTime)
    (hn : c.maxTime ≤ E.time s0 + n * (c.dt / 2)) :
    ∃ r', solverRun E c n s0 w = .ok (0, r') ∧ c.maxTime ≤ E.time r'.s ∧
      E.time r'.s < c.maxTime + 3 / 2 * c.dt := by
  have hdt : 0 < c.dt := lt_of_lt_of_le (zpow_pos (by norm_num) _) hlo
  have h3 : E.time s0 < c.maxTime + 3 / 2 * c.dt := by linarith
  unfold solverRun
  simp only [hwr, if_true]
  split
  · exact loop_returns hp hfl hc hwr hlo hhi hshort n _ h0 hn h3
  · exact loop_returns hp hfl hc hwr hlo hhi hshort n _ h0 hn h3

/-- A representable sum is not rounded. -/
lemma exact_sum {p : ℕ} {lo hi k : ℤ} {fl : ℚ → ℚ} (hfl : Rounds p lo hi fl) (hk : lo ≤ k) (hk' : k ≤ hi)
    {a m : ℕ} (h : a + m < 2 ^ p) :
    adviseTime fl (m * 2 ^ k) (a * 2 ^ k) = ((a + m : ℕ) : ℚ) * 2 ^ k := by
  unfold adviseTime
  have hx : (a : ℚ) * 2 ^ k + m * 2 ^ k = ((a + m : ℕ) : ℚ) * 2 ^ k := by push_cast; ring
  rw [hx]
  have hk0 : (0 : ℚ) < 2 ^ k := zpow_pos (by norm_num) _
  have hkk : (2 : ℚ) ^ k ≤ 2 ^ hi := zpow_le_zpow_right₀ (by norm_num) hk'
  have hle : ((a + m : ℕ) : ℚ) ≤ 2 ^ p - 1 := by
    have : a + m + 1 ≤ 2 ^ p := h
    have : ((a + m : ℕ) : ℚ) + 1 ≤ 2 ^ p := by exact_mod_cast this
    linarith
  have h0 : (0 : ℚ) ≤ ((a + m : ℕ) : ℚ) := Nat.cast_nonneg _
  have hn := hfl (((a + m : ℕ) : ℚ) * 2 ^ k) (by
    rw [abs_of_nonneg (mul_nonneg h0 hk0.le)]
    have : (0 : ℚ) < 2 ^ hi := zpow_pos (by norm_num) _
    nlinarith)
  have hF : IsFloat p lo hi (((a + m : ℕ) : ℚ) * 2 ^ k) :=
    ⟨((a + m : ℕ) : ℤ), k, by rw [abs_of_nonneg (by positivity)]; exact_mod_cast h, hk, hk', by push_cast; ring⟩
  have := hn.2 _ hF
  rw [sub_self, abs_zero] at this
  have := abs_eq_zero.1 (le_antisymm this (abs_nonneg _))
  linarith

lemma loop_exact {p : ℕ} {lo hi k : ℤ} {fl : ℚ → ℚ} (hfl : Rounds p lo hi fl) (hk : lo ≤ k) (hk' : k ≤ hi)
    (hc : FloatClock E fl c.dt) (hwr : ∀ f w, (E.write f w).1 = true) {m : ℕ} (hm : c.dt = m * 2 ^ k) (n : ℕ) :
    ∀ (a : ℕ) (r : RunSt σ φ ω ℚ), E.time r.s = a * 2 ^ k → a + n * m < 2 ^ p →
      (∀ j < n, ((a + j * m : ℕ) : ℚ) * 2 ^ k < c.maxTime) → c.maxTime ≤ ((a + n * m : ℕ) : ℚ) * 2 ^ k →
      ∃ r', runLoop E c n r = .ok (0, r') ∧ E.time r'.s = ((a + n * m : ℕ) : ℚ) * 2 ^ k := by
  induction n with
  | zero =>
    intro a r ht _ _ hmax
    have hmax' : c.maxTime ≤ a * 2 ^ k := by simpa using hmax
    exact ⟨r, by rw [runLoop, if_neg (by rw [ht]; exact not_lt.2 hmax')], by rw [ht]; simp⟩
  | succ n ih =>
    intro a r ht hp hlt hmax
    have h0 : E.time r.s < c.maxTime := by rw [ht]; simpa using hlt 0 (by omega)
    have e1 : ∀ j, a + m + j * m = a + (j + 1) * m := fun j => by ring
    obtain ⟨r', h1, h2⟩ := ih (a + m) (runBody E c r).2
      (by rw [body_time hc, ht, hm]
          refine exact_sum hfl hk hk' (lt_of_le_of_lt ?_ hp)
          have := e1 n
          have : 0 ≤ n * m := Nat.zero_le _
          omega)
      (by rw [e1]; exact hp) (fun j hj => by rw [e1]; exact hlt (j + 1) (by omega)) (by rw [e1]; exact hmax)
    refine ⟨r', ?_, by rw [h2, e1]⟩
    rw [runLoop, if_pos h0]
    simp only [body_ok hwr, if_true]
    exact h1

/-- As long as the multiples of the step are representable, the clock is exact: a run with the step `m * 2^k` from the
time `a * 2^k` returns 0 after the first `n` steps that reach the requested time, and the clock then shows
`a * 2^k + n * dt` to the last bit. -/
theorem short_run_exact {p : ℕ} {lo hi k : ℤ} {fl : ℚ → ℚ} (hfl : Rounds p lo hi fl) (hk : lo ≤ k) (hk' : k ≤ hi)
    (hc : FloatClock E fl c.dt) (hwr : ∀ f w, (E.write f w).1 = true) {m : ℕ} (hm : c.dt = m * 2 ^ k) (a n : ℕ)
    (s0 : σ) (w : ω) (ht : E.time s0 = a * 2 ^ k) (hp : a + n * m < 2 ^ p)
    (hlt : ∀ j < n, E.time s0 + j * c.dt < c.maxTime) (hmax : c.maxTime ≤ E.time s0 + n * c.dt) :
    ∃ r', solverRun E c n s0 w = .ok (0, r') ∧ E.time r'.s = E.time s0 + n * c.dt := by
  have e : ∀ j : ℕ, E.time s0 + j * c.dt = ((a + j * m : ℕ) : ℚ) * 2 ^ k := fun j => by
    rw [ht, hm]; push_cast; ring
  simp only [e] at hlt hmax ⊢
  unfold solverRun
  simp only [hwr, if_true]
  split
  · exact loop_exact hfl hk hk' hc hwr hm n a _ ht hp hlt hmax
  · exact loop_exact hfl hk hk' hc hwr hm n a _ ht hp hlt hmax

/-- A clock that counts steps of `2^k` from zero shows a number of at most `2^p` of them. -/
lemma power_step {p : ℕ} {lo hi k : ℤ} {fl : ℚ → ℚ} (hp : 1 ≤ p) (hfl : Rounds p lo hi fl) (hk : lo ≤ k)
    (hk' : k + 1 ≤ hi) (hev : fl (2 ^ p * 2 ^ k + 2 ^ k) = 2 ^ p * 2 ^ k) {a : ℕ} (ha : a ≤ 2 ^ p) :
    adviseTime fl (2 ^ k) (a * 2 ^ k) = ((min (a + 1) (2 ^ p) : ℕ) : ℚ) * 2 ^ k := by
  rcases Nat.lt_or_ge (a + 1) (2 ^ p) with h | h
  · rw [min_eq_left h.le]
    simpa using exact_sum hfl hk (by omega) (m := 1) h
  rw [min_eq_right h]
  rcases Nat.eq_or_lt_of_le ha with rfl | ha'
  · unfold adviseTime
    push_cast
    exact hev
  · have e : (a : ℚ) + 1 = 2 ^ p := by
      have : a + 1 = 2 ^ p := by omega
      exact_mod_cast this
    unfold adviseTime
    have hx : (a : ℚ) * 2 ^ k + 2 ^ k = 2 ^ p * 2 ^ k := by rw [← e]; ring
    rw [hx]
    have k0 : (0 : ℚ) < 2 ^ k := zpow_pos (by norm_num) _
    have hh : (2 : ℚ) ^ k * 2 ≤ 2 ^ hi := by
      rw [← zpow_add_one₀ (by norm_num)]; exact zpow_le_zpow_right₀ (by norm_num) hk'
    have hp2 : (2 : ℚ) ≤ 2 ^ p := by
      calc (2 : ℚ) = 2 ^ 1 := by norm_num
        _ ≤ 2 ^ p := pow_le_pow_right₀ (by norm_num) hp
    have hn := hfl ((2 : ℚ) ^ p * 2 ^ k) (by
      rw [abs_of_nonneg (by positivity)]
      nlinarith)
    have hF : IsFloat p lo hi ((2 : ℚ) ^ p * 2 ^ k) := by
      obtain ⟨q, rfl⟩ : ∃ q, p = q + 1 := ⟨p - 1, by omega⟩
      refine ⟨2 ^ q, k + 1, ?_, by omega, hk', ?_⟩
      · rw [abs_of_pos (by positivity), pow_succ]
        have : (0 : ℤ) < 2 ^ q := by positivity
        linarith
      · rw [zpow_add_one₀ (by norm_num)]; push_cast; ring
    have := hn.2 _ hF
    rw [sub_self, abs_zero] at this
    have := abs_eq_zero.1 (le_antisymm this (abs_nonneg _))
    push_cast
    linarith

lemma loop_power {p : ℕ} {lo hi k : ℤ} {fl : ℚ → ℚ} (hp : 1 ≤ p) (hfl : Rounds p lo hi fl) (hk : lo ≤ k)
    (hk' : k + 1 ≤ hi) (hev : fl (2 ^ p * 2 ^ k + 2 ^ k) = 2 ^ p * 2 ^ k)
    (hc : FloatClock E fl c.dt) (hdt : c.dt = 2 ^ k) (hwr : ∀ f w, (E.write f w).1 = true) (fuel : ℕ) :
    ∀ (a : ℕ) (r : RunSt σ φ ω ℚ), a ≤ 2 ^ p → E.time r.s = a * 2 ^ k →
      (2 ^ p * c.dt < c.maxTime → runLoop E c fuel r = .error .noReturn) ∧
      (c.maxTime ≤ 2 ^ p * c.dt → 2 ^ p ≤ a + fuel → ∃ r', runLoop E c fuel r = .ok (0, r')) := by
  have k0 : (0 : ℚ) < 2 ^ k := zpow_pos (by norm_num) _
  have hle : ∀ a : ℕ, a ≤ 2 ^ p → (a : ℚ) * 2 ^ k ≤ 2 ^ p * 2 ^ k := fun a ha =>
    mul_le_mul_of_nonneg_right (by exact_mod_cast ha) k0.le
  induction fuel with
  | zero =>
    intro a r ha ht
    refine ⟨fun h => ?_, fun h hf => ⟨r, ?_⟩⟩
    · rw [runLoop, if_pos]
      rw [ht]; rw [hdt] at h; exact (hle a ha).trans_lt h
    · rw [runLoop, if_neg]
      have : a = 2 ^ p := by omega
      rw [ht, this, not_lt]; rw [hdt] at h; push_cast; exact h
  | succ fuel ih =>
    intro a r ha ht
    have hb : E.time (runBody E c r).2.s = ((min (a + 1) (2 ^ p) : ℕ) : ℚ) * 2 ^ k := by
      rw [body_time hc, ht, hdt]; exact power_step hp hfl hk hk' hev ha
    have := ih (min (a + 1) (2 ^ p)) (runBody E c r).2 (min_le_right _ _) hb
    refine ⟨fun h => ?_, fun h hf => ?_⟩
    · rw [runLoop, if_pos]
      · simp only [body_ok hwr, if_true]
        exact this.1 h
      · rw [ht]; rw [hdt] at h; exact (hle a ha).trans_lt h
    · by_cases hlt : E.time r.s < c.maxTime
      · obtain ⟨r', hr'⟩ := this.2 h (by omega)
        refine ⟨r', ?_⟩
        rw [runLoop, if_pos hlt]
        simp only [body_ok hwr, if_true]
        exact hr'
      · exact ⟨r, by rw [runLoop, if_neg hlt]⟩

/-- For a step that is a power of two the limit is `2^p` steps exactly: from time 0 a run returns, for some number of
iterations, if and only if the requested time is at most `2^p` steps.  The tie at `2^p + 1` steps is rounded to the
even neighbour `2^p`, as the default mode of IEEE 754 does. -/
theorem power_of_two_limit {p : ℕ} {lo hi k : ℤ} {fl : ℚ → ℚ} (hp : 1 ≤ p) (hfl : Rounds p lo hi fl) (hk : lo ≤ k)
    (hk' : k + 1 ≤ hi) (hev : fl (2 ^ p * 2 ^ k + 2 ^ k) = 2 ^ p * 2 ^ k)
    (hc : FloatClock E fl c.dt) (hdt : c.dt = 2 ^ k) (hwr : ∀ f w, (E.write f w).1 = true) (s0 : σ) (w : ω)
    (h0 : E.time s0 = 0) :
    (∃ fuel r', solverRun E c fuel s0 w = .ok (0, r')) ↔ c.maxTime ≤ 2 ^ p * c.dt := by
  have key : ∀ fuel (r : RunSt σ φ ω ℚ), r.s = s0 →
      (2 ^ p * c.dt < c.maxTime → runLoop E c fuel r = .error .noReturn) ∧
      (c.maxTime ≤ 2 ^ p * c.dt → 2 ^ p ≤ 0 + fuel → ∃ r', runLoop E c fuel r = .ok (0, r')) := fun fuel r hr =>
    loop_power hp hfl hk hk' hev hc hdt hwr fuel 0 r (Nat.zero_le _) (by rw [hr, h0]; simp)
  constructor
  · rintro ⟨fuel, r', h⟩
    by_contra hgt
    rw [not_le] at hgt
    unfold solverRun at h
    simp only [hwr, if_true] at h
    split at h
    · rw [(key fuel _ rfl).1 hgt] at h; cases h
    · rw [(key fuel _ rfl).1 hgt] at h; cases h
  · intro h
    refine ⟨2 ^ p, ?_⟩
    unfold solverRun
    simp only [hwr, if_true]
    split
    · exact (key (2 ^ p) _ rfl).2 h (by omega)
    · exact (key (2 ^ p) _ rfl).2 h (by omega)

end

/-- There is such a rounding. -/
lemma rounds_exists {p : ℕ} {lo hi : ℤ} (h : lo ≤ hi) : ∃ fl, Rounds p lo hi fl := by
  have hfin : {x | IsFloat p lo hi x}.Finite := by
    refine ((((Finset.Icc (-(2 ^ p : ℤ)) (2 ^ p)) ×ˢ Finset.Icc lo hi).finite_toSet).image
      (fun q : ℤ × ℤ => (q.1 : ℚ) * 2 ^ q.2)).subset ?_
    rintro x ⟨m, e, hm, h1, h2, rfl⟩
    have := abs_lt.1 hm
    exact ⟨(m, e), by simp; omega, rfl⟩
  have hne : {x | IsFloat p lo hi x}.Nonempty := ⟨0, 0, lo, by simp, le_refl _, h, by simp⟩
  have hex : ∀ x : ℚ, ∃ y, IsNearest (IsFloat p lo hi) x y := fun x => by
    obtain ⟨y, hy, hmin⟩ := Set.exists_min_image _ (fun y => |y - x|) hfin hne
    exact ⟨y, hy, hmin⟩
  choose fl hfl using hex
  exact ⟨fl, fun x _ => hfl x⟩

/-- A program that only keeps time. -/
def timer (fl : ℚ → ℚ) : RunEnv ℚ ℚ (List ℚ) ℚ := ⟨id, id, fun dt t => fl (t + dt), id, fun f w => (true, w ++ [f])⟩

/-- Single precision: a run to the time 2^26 with the step 1 never returns. -/
example (fuel : ℕ) : ∃ fl, Rounds 24 (-149) 104 fl ∧
    solverRun (timer fl) ⟨1, 2 ^ 26, 1, 1, true, false⟩ fuel 0 [] = .error .noReturn := by
  obtain ⟨fl, hfl⟩ := rounds_exists (p := 24) (lo := -149) (hi := 104) (by norm_num)
  refine ⟨fl, hfl, long_run_never_returns (p := 24) (by norm_num) hfl ⟨fun _ => rfl, fun _ => rfl⟩ (fun _ _ => rfl)
    ?_ ?_ 0 [] ?_ ?_ ?_ fuel⟩ <;> simp [timer] <;> norm_num [zpow_neg]

/-- Single precision: 3000 steps of 3/8 are counted exactly. -/
example : ∃ fl, Rounds 24 (-149) 104 fl ∧
    ∃ r', solverRun (timer fl) ⟨3 / 8, 1125, 1, 1, true, false⟩ 3000 0 [] = .ok (0, r') ∧ r'.s = 1125 := by
  obtain ⟨fl, hfl⟩ := rounds_exists (p := 24) (lo := -149) (hi := 104) (by norm_num)
  obtain ⟨r', h1, h2⟩ := short_run_exact (c := ⟨3 / 8, 1125, 1, 1, true, false⟩) (k := -3) hfl (by norm_num)
    (by norm_num) (E := timer fl) ⟨fun _ => rfl, fun _ => rfl⟩ (fun _ _ => rfl) (m := 3)
    (by norm_num [zpow_neg]) 0 3000 0 [] (by simp [timer]) (by norm_num)
    (fun j hj => by
      have : (j : ℚ) < 3000 := by exact_mod_cast hj
      simp only [timer, id]
      linarith)
    (by simp only [timer, id]; norm_num)
  refine ⟨fl, hfl, r', h1, ?_⟩
  simp only [timer, id] at h2
  rw [h2]
  norm_num

/-- Single precision: a run to the time 1000 with a step of a tenth, which is rounded at nearly every step, returns. -/
example : ∃ fl, Rounds 24 (-149) 104 fl ∧
    ∃ r', solverRun (timer fl) ⟨13421773 / 134217728, 1000, 1, 1, true, false⟩ 20000 0 [] = .ok (0, r') ∧
      1000 ≤ r'.s ∧ r'.s < 1000 + 3 / 2 * (13421773 / 134217728) := by
  obtain ⟨fl, hfl⟩ := rounds_exists (p := 24) (lo := -149) (hi := 104) (by norm_num)
  refine ⟨fl, hfl, run_returns_partial (p := 24) (c := ⟨13421773 / 134217728, 1000, 1, 1, true, false⟩) (E := timer fl)
    (by norm_num) hfl ⟨fun _ => rfl, fun _ => rfl⟩ (fun _ _ => rfl) ?_ ?_ ?_ 20000 0 [] ?_ ?_ ?_⟩ <;>
    simp only [timer, id] <;> norm_num [zpow_neg]

/-- Single precision with the step 1 and the tie rounded to even: a run returns exactly if it is to go to a time up
to 16777216. -/
example (T : ℚ) : ∃ fl, Rounds 24 (-149) 104 fl ∧
    ((∃ fuel r', solverRun (timer fl) ⟨1, T, 1, 1, true, false⟩ fuel 0 [] = .ok (0, r')) ↔ T ≤ 16777216) := by
  obtain ⟨fl, hfl⟩ := rounds_exists (p := 24) (lo := -149) (hi := 104) (by norm_num)
  have hfl' : Rounds 24 (-149) 104 (fun x => if x = 16777217 then 16777216 else fl x) := by
    intro x hx
    by_cases h : x = 16777217
    · subst h
      simp only [if_true]
      refine ⟨⟨8388608, 1, by norm_num, by norm_num, by norm_num, by norm_num⟩, fun u hu => ?_⟩
      by_contra hlt
      rw [not_le] at hlt
      have e1 : |(16777216 : ℚ) - 16777217| = 1 := by norm_num
      rw [e1] at hlt
      have := abs_lt.1 hlt
      have := above (e := 0) (by norm_num) hu (by norm_num; linarith)
      norm_num at this
      linarith
    · simp only [h, if_false]
      exact hfl x hx
  refine ⟨_, hfl', ?_⟩
  have := power_of_two_limit (p := 24) (k := 0) (c := ⟨1, T, 1, 1, true, false⟩)
    (E := timer (fun x => if x = 16777217 then 16777216 else fl x)) (by norm_num) hfl' (by norm_num) (by norm_num)
    (by norm_num) ⟨fun _ => rfl, fun _ => rfl⟩ (by norm_num) (fun _ _ => rfl) (0 : ℚ) [] rfl
  rw [this]
  norm_num

end NB.C97
