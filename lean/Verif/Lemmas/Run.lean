import Verif.Model.Run
import Verif.Spec.Run
import Mathlib.Tactic.Linarith
import Mathlib.Tactic.FieldSimp
import Mathlib.Tactic.Ring
import Mathlib.Tactic.Push
import Mathlib.Tactic.NormNum
import Mathlib.Tactic.NormNum.OfScientific

namespace NB

open RunSpec

section
variable {K : Type} [Field K] [LinearOrder K] [IsStrictOrderedRing K] [FloorSemiring K]

lemma period_pos (per dt : K) : 0 < period per dt := by
  unfold period; omega

lemma succ_div_dvd {m k : ℕ} (h : m ∣ k + 1) : (k + 1) / m = k / m + 1 := Nat.succ_div_of_dvd h

lemma succ_div_not_dvd {m k : ℕ} (h : ¬ m ∣ k + 1) : (k + 1) / m = k / m := Nat.succ_div_of_not_dvd h

/-- The test of the loop after step `k + 1` fires exactly at the multiples of the period. -/
lemma period_test {t0 dt per : K} (hdt : 0 < dt) (k : ℕ) :
    (t0 + ((period per dt * (k / period per dt) : ℕ) : K) * dt + per - dt * 0.1
      ≤ t0 + ((k + 1 : ℕ) : K) * dt) ↔ period per dt ∣ k + 1 := by
  set m := period per dt with hm
  have hmp : 0 < m := period_pos per dt
  have hle : m * (k / m) ≤ k := Nat.mul_div_le k m
  obtain ⟨r, hr⟩ : ∃ r, k + 1 = m * (k / m) + (r + 1) := ⟨k - m * (k / m), by omega⟩
  have hrm : r < m := by
    have h1 := Nat.mod_lt k hmp
    have h2 := Nat.div_add_mod k m
    omega
  have h1 : (t0 + ((m * (k / m) : ℕ) : K) * dt + per - dt * 0.1 ≤ t0 + ((k + 1 : ℕ) : K) * dt) ↔
      per / dt - 1 / 10 ≤ ((r + 1 : ℕ) : K) := by
    rw [hr, Nat.cast_add]
    rw [sub_le_iff_le_add (a := per / dt), div_le_iff₀ hdt, add_mul, add_mul,
      show (0.1 : K) = 1 / 10 by norm_num]
    constructor <;> intro h <;> linarith
  rw [h1, ← Nat.ceil_le]
  have h2 : (⌈per / dt - 1 / 10⌉₊ ≤ r + 1) ↔ m ≤ r + 1 := by
    rw [hm]; unfold period; omega
  rw [h2]
  constructor
  · intro h
    have : r + 1 = m := by omega
    rw [hr, this]
    exact Dvd.dvd.add ⟨_, rfl⟩ (dvd_refl m)
  · intro h
    have h3 : m ∣ r + 1 := by
      rw [hr] at h
      exact (Nat.dvd_add_right ⟨_, rfl⟩).1 h
    exact Nat.le_of_dvd (by omega) h3

lemma multiples_succ_dvd {m k : ℕ} (h : m ∣ k + 1) : multiples m (k + 1) = multiples m k ++ [k + 1] := by
  unfold multiples
  rw [List.range'_concat, List.filter_append]
  simp [Nat.add_comm 1 k, h]

lemma multiples_succ_not_dvd {m k : ℕ} (h : ¬ m ∣ k + 1) : multiples m (k + 1) = multiples m k := by
  unfold multiples
  rw [List.range'_concat, List.filter_append]
  simp [Nat.add_comm 1 k, h]

lemma mem_multiples {m n k : ℕ} : k ∈ multiples m n ↔ 1 ≤ k ∧ k ≤ n ∧ m ∣ k := by
  unfold multiples
  simp [List.mem_range']
  constructor
  · rintro ⟨⟨i, h1, h2⟩, h3⟩; exact ⟨by omega, by omega, h3⟩
  · rintro ⟨h1, h2, h3⟩; exact ⟨⟨k - 1, by omega, by omega⟩, h3⟩

end

section
variable {φ ω : Type}

lemma writeAll_append (write : φ → ω → Bool × ω) (l₁ l₂ : List φ) (w : ω) :
    writeAll write (l₁ ++ l₂) w =
      if (writeAll write l₁ w).1 then writeAll write l₂ (writeAll write l₁ w).2
      else (false, (writeAll write l₁ w).2) := by
  induction l₁ generalizing w with
  | nil => simp [writeAll]
  | cons f l ih =>
    simp only [List.cons_append, writeAll]
    by_cases h : (write f w).1 = true
    · simp only [h, if_true]; exact ih _
    · simp [h]

end

section
variable {σ φ ω K : Type}

/-- One iteration of the simulation: clamp if requested, then advance. -/
def oneStep (E : RunEnv σ φ ω K) (c : RunConf K) (s : σ) : σ :=
  E.advise c.dt (if c.clampToBox then E.clamp s else s)

end

section
variable {σ φ ω K : Type} [Field K] [LinearOrder K] [IsStrictOrderedRing K] [FloorSemiring K]

/-- The clock moves by `dt` in `advise` and is not touched by `clamp`. -/
structure Clock (E : RunEnv σ φ ω K) (dt : K) : Prop where
  clamp : ∀ s, E.time (E.clamp s) = E.time s
  advise : ∀ s, E.time (E.advise dt s) = E.time s + dt

variable {E : RunEnv σ φ ω K} {c : RunConf K}

lemma time_oneStep (h : Clock E c.dt) (s : σ) : E.time (oneStep E c s) = E.time s + c.dt := by
  unfold oneStep
  rw [h.advise]
  split
  · rw [h.clamp]
  · rfl

lemma time_iterate (h : Clock E c.dt) (s : σ) (k : ℕ) :
    E.time ((oneStep E c)^[k] s) = E.time s + (k : K) * c.dt := by
  induction k with
  | zero => simp
  | succ k ih => rw [Function.iterate_succ_apply', time_oneStep h, ih]; push_cast; ring

/-- The dump condition is active. -/
def dumping (c : RunConf K) : Prop := c.hasStream = true ∧ 0 < c.dumpDt

instance (c : RunConf K) : Decidable (dumping c) := inferInstanceAs (Decidable (_ ∧ _))

/-- The frames due in steps `1, …, k`. -/
def dueFrames (E : RunEnv σ φ ω K) (c : RunConf K) (s0 : σ) (k : ℕ) : List φ :=
  (multiples (period c.dumpDt c.dt) k).map (fun k => E.getData ((oneStep E c)^[k] s0))

/-- The loop variables after `k` steps when the stream is `w`. -/
def runAt (E : RunEnv σ φ ω K) (c : RunConf K) (s0 : σ) (k : ℕ) (w : ω) : RunSt σ φ ω K where
  s := (oneStep E c)^[k] s0
  stream := w
  lastCheck := if 0 < c.checkDt then
      E.time s0 + ((period c.checkDt c.dt * (k / period c.checkDt c.dt) : ℕ) : K) * c.dt
    else E.time s0
  lastDump := if dumping c then
      E.time s0 + ((period c.dumpDt c.dt * (k / period c.dumpDt c.dt) : ℕ) : K) * c.dt
    else E.time s0
  checks := if 0 < c.checkDt then
      (multiples (period c.checkDt c.dt) k).map (fun k => E.getData ((oneStep E c)^[k] s0))
    else []

/-- One iteration of the loop. -/
lemma runBody_at (h : Clock E c.dt) (hdt : 0 < c.dt) (s0 : σ) (k : ℕ) (w : ω) :
    ((¬ dumping c ∨ ¬ period c.dumpDt c.dt ∣ k + 1) →
      runBody E c (runAt E c s0 k w) = (true, runAt E c s0 (k + 1) w)) ∧
    ((dumping c ∧ period c.dumpDt c.dt ∣ k + 1) →
      let q := E.write (E.getData ((oneStep E c)^[k + 1] s0)) w
      (runBody E c (runAt E c s0 k w)).1 = q.1 ∧
      (q.1 = true → runBody E c (runAt E c s0 k w) = (true, runAt E c s0 (k + 1) q.2)) ∧
      (q.1 = false → (runBody E c (runAt E c s0 k w)).2.stream = q.2 ∧
        (runBody E c (runAt E c s0 k w)).2.s = (oneStep E c)^[k + 1] s0 ∧
        (runBody E c (runAt E c s0 k w)).2.checks = (runAt E c s0 (k + 1) w).checks)) := by
  have hstep : E.advise c.dt (if c.clampToBox then E.clamp ((oneStep E c)^[k] s0) else (oneStep E c)^[k] s0)
      = (oneStep E c)^[k + 1] s0 := by
    rw [Function.iterate_succ_apply']; rfl
  have htime := time_iterate h s0 (k + 1)
  -- the check
  have hcheck : ∀ r : RunSt σ φ ω K, r.lastCheck = (runAt E c s0 k w).lastCheck →
      r.checks = (runAt E c s0 k w).checks →
      (if 0 < c.checkDt ∧ r.lastCheck + c.checkDt - c.dt * 0.1 ≤ E.time ((oneStep E c)^[k + 1] s0) then
        { r with checks := r.checks ++ [E.getData ((oneStep E c)^[k + 1] s0)],
                 lastCheck := E.time ((oneStep E c)^[k + 1] s0) }
      else r) =
      { r with checks := (runAt E c s0 (k + 1) w).checks, lastCheck := (runAt E c s0 (k + 1) w).lastCheck } := by
    intro r h1 h2
    by_cases hc : 0 < c.checkDt
    · have hkey := period_test (t0 := E.time s0) (per := c.checkDt) hdt k
      simp only [runAt, hc, if_true, true_and] at h1 h2 ⊢
      rw [h1, h2, htime]
      by_cases hd : period c.checkDt c.dt ∣ k + 1
      · rw [if_pos (hkey.2 hd), multiples_succ_dvd hd, List.map_append, Nat.mul_div_cancel' hd]
        rfl
      · rw [if_neg (fun h => hd (hkey.1 h)), multiples_succ_not_dvd hd, succ_div_not_dvd hd, ← h1, ← h2]
    · simp only [runAt, hc, if_false, false_and] at h1 h2 ⊢
      rw [← h1, ← h2]
  have hbody : runBody E c (runAt E c s0 k w) =
      (let r : RunSt σ φ ω K := { runAt E c s0 (k + 1) w with lastDump := (runAt E c s0 k w).lastDump }
       if c.hasStream ∧ 0 < c.dumpDt ∧
          r.lastDump + c.dumpDt - c.dt * 0.1 ≤ E.time ((oneStep E c)^[k + 1] s0) then
        let w := E.write (E.getData ((oneStep E c)^[k + 1] s0)) r.stream
        if w.1 then (true, { r with stream := w.2, lastDump := E.time ((oneStep E c)^[k + 1] s0) })
        else (false, { r with stream := w.2 })
      else (true, r)) := by
    unfold runBody
    have e1 : (runAt E c s0 k w).s = (oneStep E c)^[k] s0 := rfl
    simp only [e1, hstep]
    have := hcheck { runAt E c s0 k w with s := (oneStep E c)^[k + 1] s0 } rfl rfl
    simp only at this
    rw [this]
    rfl
  have hlast : (runAt E c s0 k w).lastDump = if dumping c then
      E.time s0 + ((period c.dumpDt c.dt * (k / period c.dumpDt c.dt) : ℕ) : K) * c.dt
    else E.time s0 := by simp [runAt]
  have hkey := period_test (t0 := E.time s0) (per := c.dumpDt) hdt k
  constructor
  · intro hn
    rw [hbody]
    have hcond : ¬ (c.hasStream = true ∧ 0 < c.dumpDt ∧
        (runAt E c s0 k w).lastDump + c.dumpDt - c.dt * 0.1 ≤ E.time ((oneStep E c)^[k + 1] s0)) := by
      rintro ⟨h1, h2, h3⟩
      have hd : dumping c := ⟨h1, h2⟩
      rcases hn with hn | hn
      · exact hn hd
      · rw [hlast, if_pos hd, htime, hkey] at h3
        exact hn h3
    simp only
    rw [if_neg hcond]
    have : (runAt E c s0 k w).lastDump = (runAt E c s0 (k + 1) w).lastDump := by
      rcases hn with hn | hn
      · simp [runAt, hn]
      · simp only [runAt]
        rw [succ_div_not_dvd hn]
    rw [this]
  · rintro ⟨hd, hdvd⟩
    have hcond : (c.hasStream = true ∧ 0 < c.dumpDt ∧
        (runAt E c s0 k w).lastDump + c.dumpDt - c.dt * 0.1 ≤ E.time ((oneStep E c)^[k + 1] s0)) := by
      refine ⟨hd.1, hd.2, ?_⟩
      rw [hlast, if_pos hd, htime, hkey]
      exact hdvd
    rw [hbody]
    simp only
    rw [if_pos hcond]
    have hs : (runAt E c s0 (k + 1) w).stream = w := rfl
    rw [hs]
    refine ⟨?_, ?_, ?_⟩
    · split <;> simp_all
    · intro hq
      rw [if_pos hq]
      simp only [runAt, hd, if_true]
      rw [htime, Nat.mul_div_cancel' hdvd]
    · intro hq
      have hq' : ¬ (E.write (E.getData ((oneStep E c)^[k + 1] s0)) w).1 = true := by rw [hq]; exact Bool.false_ne_true
      rw [if_neg hq']
      exact ⟨rfl, rfl, rfl⟩

lemma runLoop_stop {E : RunEnv σ φ ω K} {c : RunConf K} {r : RunSt σ φ ω K} (fuel : ℕ)
    (h : ¬ E.time r.s < c.maxTime) : runLoop E c fuel r = .ok (0, r) := by
  cases fuel <;> rw [runLoop, if_neg h]

/-- From step `k` to step `k + j` when all frames due on the way are written. -/
lemma runLoop_advance (h : Clock E c.dt) (hdt : 0 < c.dt) (s0 : σ) (k j fuel : ℕ) (w w' : ω)
    (ht : E.time s0 + ((k + j : ℕ) : K) * c.dt < c.maxTime + c.dt)
    (hw : dumping c → ∃ l, dueFrames E c s0 (k + j) = dueFrames E c s0 k ++ l ∧
      writeAll E.write l w = (true, w'))
    (hw' : ¬ dumping c → w' = w) :
    runLoop E c (fuel + j) (runAt E c s0 k w) = runLoop E c fuel (runAt E c s0 (k + j) w') := by
  induction j generalizing k w with
  | zero =>
    have : w' = w := by
      by_cases hd : dumping c
      · obtain ⟨l, h1, h2⟩ := hw hd
        have : l = [] := by simpa using h1
        subst this
        simpa [writeAll] using h2.symm
      · exact hw' hd
    subst this; rfl
  | succ j ih =>
    have hlt : E.time (runAt E c s0 k w).s < c.maxTime := by
      have : (runAt E c s0 k w).s = (oneStep E c)^[k] s0 := rfl
      rw [this, time_iterate h]
      push_cast at ht
      have : 0 ≤ (j : K) * c.dt := mul_nonneg (Nat.cast_nonneg j) hdt.le
      linarith
    have hkj : k + (j + 1) = (k + 1) + j := by omega
    obtain ⟨hb1, hb2⟩ := runBody_at h hdt s0 k w
    rw [← Nat.add_assoc, runLoop, if_pos hlt]
    by_cases hc : dumping c ∧ period c.dumpDt c.dt ∣ k + 1
    · obtain ⟨l, h1, h2⟩ := hw hc.1
      obtain ⟨q1, q2, q3⟩ := hb2 hc
      have hk : dueFrames E c s0 (k + 1) =
          dueFrames E c s0 k ++ [E.getData ((oneStep E c)^[k + 1] s0)] := by
        unfold dueFrames; rw [multiples_succ_dvd hc.2, List.map_append]; rfl
      -- the first due frame is the head of `l`
      have hpre : ∃ l', l = E.getData ((oneStep E c)^[k + 1] s0) :: l' ∧
          dueFrames E c s0 ((k + 1) + j) = dueFrames E c s0 (k + 1) ++ l' := by
        have hmon : ∀ i, ∃ l', dueFrames E c s0 ((k + 1) + i) = dueFrames E c s0 (k + 1) ++ l' := by
          intro i
          induction i with
          | zero => exact ⟨[], by simp⟩
          | succ i ih =>
            obtain ⟨l', hl'⟩ := ih
            rw [← Nat.add_assoc]
            by_cases hd : period c.dumpDt c.dt ∣ (k + 1 + i) + 1
            · refine ⟨l' ++ [E.getData ((oneStep E c)^[k + 1 + i + 1] s0)], ?_⟩
              rw [← List.append_assoc, ← hl']
              unfold dueFrames; rw [multiples_succ_dvd hd, List.map_append]; rfl
            · refine ⟨l', ?_⟩
              rw [← hl']
              unfold dueFrames; rw [multiples_succ_not_dvd hd]
        obtain ⟨l', hl'⟩ := hmon j
        refine ⟨l', ?_, hl'⟩
        rw [hkj, hl', hk, List.append_assoc] at h1
        have := List.append_cancel_left h1
        simpa using this.symm
      obtain ⟨l', hl, hl'⟩ := hpre
      subst hl
      simp only [writeAll] at h2
      by_cases hq : (E.write (E.getData ((oneStep E c)^[k + 1] s0)) w).1 = true
      · rw [if_pos hq] at h2
        have hbq := q2 hq
        simp only [hbq, if_true]
        rw [hkj]
        exact ih (k + 1) _ (by rw [← hkj]; exact ht) (fun _ => ⟨l', hl', h2⟩) (fun hn => absurd hc.1 hn)
      · rw [if_neg hq] at h2
        simp at h2
    · have hn : ¬ dumping c ∨ ¬ period c.dumpDt c.dt ∣ k + 1 := by
        by_cases h1 : dumping c
        · exact .inr fun h2 => hc ⟨h1, h2⟩
        · exact .inl h1
      simp only [hb1 hn, if_true]
      rw [hkj]
      refine ih (k + 1) w (by rw [← hkj]; exact ht) (fun hd => ?_) hw'
      obtain ⟨l, h1, h2⟩ := hw hd
      refine ⟨l, ?_, h2⟩
      rw [← hkj, h1]
      congr 1
      unfold dueFrames
      rcases hn with hn | hn
      · exact absurd hd hn
      · rw [multiples_succ_not_dvd hn]

end

end NB
