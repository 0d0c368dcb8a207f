import Verif.Lemmas.Run

/-
Runs cut in two, in any arithmetic.
-/

namespace NB

open RunSpec

section
variable {σ φ ω K : Type}

/-- The same simulation with a stream that accepts and remembers everything. -/
def RunEnv.record (E : RunEnv σ φ ω K) : RunEnv σ φ (List φ) K where
  time := E.time
  clamp := E.clamp
  advise := E.advise
  getData := E.getData
  write := fun f w => (true, w ++ [f])

@[simp] lemma oneStep_record (E : RunEnv σ φ ω K) (c : RunConf K) : oneStep E.record c = oneStep E c := rfl

/-- Configurations that differ at most in the interval of the checks. -/
structure SameRun (c c' : RunConf K) : Prop where
  dt : c.dt = c'.dt
  maxTime : c.maxTime = c'.maxTime
  dumpDt : c.dumpDt = c'.dumpDt
  hasStream : c.hasStream = c'.hasStream
  clampToBox : c.clampToBox = c'.clampToBox

/-- States that cannot be told apart by a run whose frames are seen through `pr`. -/
structure Alike {ψ : Type} (pr : φ → ψ) (E : RunEnv σ φ ω K) (c : RunConf K) (R : σ → σ → Prop) : Prop where
  time : ∀ {a b}, R a b → E.time a = E.time b
  data : ∀ {a b}, R a b → pr (E.getData a) = pr (E.getData b)
  step : ∀ {a b}, R a b → R (oneStep E c a) (oneStep E c b)

variable [Zero K] [Add K] [Sub K] [Mul K] [LT K] [LE K] [DecidableLT K] [DecidableLE K] [OfScientific K]

/-- The test of line 91 of /repo/nbody/nbody_solver.cpp. -/
def dueDump (c : RunConf K) (last t : K) : Prop :=
  c.hasStream = true ∧ 0 < c.dumpDt ∧ last + c.dumpDt - c.dt * 0.1 ≤ t

instance (c : RunConf K) (last t : K) : Decidable (dueDump c last t) :=
  inferInstanceAs (Decidable (_ ∧ _))

lemma body_cases (E : RunEnv σ φ ω K) (c : RunConf K) (r : RunSt σ φ ω K) :
    (runBody E c r).2.s = oneStep E c r.s ∧
    (¬ dueDump c r.lastDump (E.time (oneStep E c r.s)) →
      (runBody E c r).1 = true ∧ (runBody E c r).2.stream = r.stream ∧
      (runBody E c r).2.lastDump = r.lastDump) ∧
    (dueDump c r.lastDump (E.time (oneStep E c r.s)) →
      (runBody E c r).1 = (E.write (E.getData (oneStep E c r.s)) r.stream).1 ∧
      (runBody E c r).2.stream = (E.write (E.getData (oneStep E c r.s)) r.stream).2 ∧
      ((E.write (E.getData (oneStep E c r.s)) r.stream).1 = true →
        (runBody E c r).2.lastDump = E.time (oneStep E c r.s))) := by
  have hs : E.advise c.dt (if c.clampToBox then E.clamp r.s else r.s) = oneStep E c r.s := rfl
  set r1 : RunSt σ φ ω K :=
    if 0 < c.checkDt ∧ r.lastCheck + c.checkDt - c.dt * 0.1 ≤ E.time (oneStep E c r.s) then
      { r with s := oneStep E c r.s, checks := r.checks ++ [E.getData (oneStep E c r.s)],
               lastCheck := E.time (oneStep E c r.s) }
    else { r with s := oneStep E c r.s } with hr1
  have e1 : r1.s = oneStep E c r.s := by rw [hr1]; split <;> rfl
  have e2 : r1.stream = r.stream := by rw [hr1]; split <;> rfl
  have e3 : r1.lastDump = r.lastDump := by rw [hr1]; split <;> rfl
  have hb : runBody E c r =
      (if dueDump c r1.lastDump (E.time (oneStep E c r.s)) then
        (if (E.write (E.getData (oneStep E c r.s)) r1.stream).1 then
          (true, { r1 with stream := (E.write (E.getData (oneStep E c r.s)) r1.stream).2,
                           lastDump := E.time (oneStep E c r.s) })
         else (false, { r1 with stream := (E.write (E.getData (oneStep E c r.s)) r1.stream).2 }))
      else (true, r1)) := by
    unfold runBody dueDump
    simp only [hs]
    rfl
  rw [hb, e2, e3]
  by_cases hd : dueDump c r.lastDump (E.time (oneStep E c r.s))
  · simp only [hd, if_true, not_true, false_implies, true_and, forall_const]
    by_cases hw : (E.write (E.getData (oneStep E c r.s)) r.stream).1 = true
    · simp [hw, e1]
    · simp [hw, e1]
  · simp [hd, e1, e2, e3]

/-- The recording loop never fails. -/
lemma body_record (E : RunEnv σ φ ω K) (c : RunConf K) (r : RunSt σ φ (List φ) K) :
    (runBody E.record c r).1 = true ∧ (runBody E.record c r).2.s = oneStep E c r.s ∧
    (¬ dueDump c r.lastDump (E.time (oneStep E c r.s)) →
      (runBody E.record c r).2.stream = r.stream ∧ (runBody E.record c r).2.lastDump = r.lastDump) ∧
    (dueDump c r.lastDump (E.time (oneStep E c r.s)) →
      (runBody E.record c r).2.stream = r.stream ++ [E.getData (oneStep E c r.s)] ∧
      (runBody E.record c r).2.lastDump = E.time (oneStep E c r.s)) := by
  obtain ⟨h1, h2, h3⟩ := body_cases E.record c r
  refine ⟨?_, h1, fun h => (h2 h).2, fun h => ⟨(h3 h).2.1, (h3 h).2.2 rfl⟩⟩
  by_cases h : dueDump c r.lastDump (E.time (oneStep E c r.s))
  · exact (h3 h).1
  · exact (h2 h).1

lemma loop_stop {E : RunEnv σ φ ω K} {c : RunConf K} {r : RunSt σ φ ω K} (fuel : ℕ)
    (h : ¬ E.time r.s < c.maxTime) : runLoop E c fuel r = .ok (0, r) := by
  cases fuel <;> rw [runLoop, if_neg h]

lemma loop_record_step {E : RunEnv σ φ ω K} {c : RunConf K} {r : RunSt σ φ (List φ) K} {fuel : ℕ}
    (h : E.time r.s < c.maxTime) :
    runLoop E.record c (fuel + 1) r = runLoop E.record c fuel (runBody E.record c r).2 := by
  rw [runLoop, if_pos (show E.record.time r.s < c.maxTime from h)]
  simp only [(body_record E c r).1, if_true]

/-- More room for iterations does not change a result. -/
lemma loop_more {E : RunEnv σ φ ω K} {c : RunConf K} {fuel : ℕ} {r : RunSt σ φ ω K} {z : ℤ × RunSt σ φ ω K}
    (h : runLoop E c fuel r = .ok z) (m : ℕ) : runLoop E c (fuel + m) r = .ok z := by
  induction fuel generalizing r with
  | zero =>
    by_cases ht : E.time r.s < c.maxTime
    · rw [runLoop, if_pos ht] at h; cases h
    · rw [loop_stop _ ht] at h ⊢; exact h
  | succ fuel ih =>
    by_cases ht : E.time r.s < c.maxTime
    · rw [Nat.add_right_comm]
      rw [runLoop, if_pos ht] at h ⊢
      simp only at h ⊢
      split
      · rename_i hb
        rw [if_pos hb] at h
        exact ih h
      · rename_i hb
        rw [if_neg hb] at h
        exact h
    · rw [loop_stop _ ht] at h ⊢; exact h

lemma run_more {E : RunEnv σ φ ω K} {c : RunConf K} {fuel : ℕ} {s0 : σ} {w : ω} {z : ℤ × RunSt σ φ ω K} (m : ℕ)
    (h : solverRun E c fuel s0 w = .ok z) : solverRun E c (fuel + m) s0 w = .ok z := by
  unfold solverRun at h ⊢
  simp only at h ⊢
  split
  · rename_i hd
    rw [if_pos hd] at h
    split
    · rename_i hw
      rw [if_pos hw] at h
      exact loop_more h m
    · rename_i hw
      rw [if_neg hw] at h
      exact h
  · rename_i hd
    rw [if_neg hd] at h
    exact loop_more h m

lemma loop_record_zero {E : RunEnv σ φ ω K} {c : RunConf K} {fuel : ℕ} {r : RunSt σ φ (List φ) K}
    {z : ℤ × RunSt σ φ (List φ) K} (h : runLoop E.record c fuel r = .ok z) : z.1 = 0 := by
  induction fuel generalizing r with
  | zero =>
    by_cases ht : E.time r.s < c.maxTime
    · rw [runLoop, if_pos (show E.record.time r.s < c.maxTime from ht)] at h; cases h
    · rw [loop_stop _ (show ¬ E.record.time r.s < c.maxTime from ht)] at h; cases h; rfl
  | succ fuel ih =>
    by_cases ht : E.time r.s < c.maxTime
    · rw [loop_record_step ht] at h; exact ih h
    · rw [loop_stop _ (show ¬ E.record.time r.s < c.maxTime from ht)] at h; cases h; rfl

/-- Loops from states that cannot be told apart add the same frames. -/
lemma loop_alike {ψ : Type} {pr : φ → ψ} {E : RunEnv σ φ ω K} {c c' : RunConf K} {R : σ → σ → Prop}
    (hR : Alike pr E c R)
    (hc : SameRun c c') {fuel : ℕ} {r r' : RunSt σ φ (List φ) K} {q : RunSt σ φ (List φ) K}
    (hs : R r.s r'.s) (hl : r.lastDump = r'.lastDump) (h : runLoop E.record c fuel r = .ok (0, q)) :
    ∃ q' L L', runLoop E.record c' fuel r' = .ok (0, q') ∧ R q.s q'.s ∧
      q.stream = r.stream ++ L ∧ q'.stream = r'.stream ++ L' ∧ L.map pr = L'.map pr := by
  have hstep : oneStep E c' = oneStep E c := by
    funext s; unfold oneStep; rw [hc.dt, hc.clampToBox]
  have hdue : ∀ l t, dueDump c' l t ↔ dueDump c l t := by
    intro l t; unfold dueDump; rw [hc.dt, hc.hasStream, hc.dumpDt]
  induction fuel generalizing r r' with
  | zero =>
    by_cases ht : E.time r.s < c.maxTime
    · rw [runLoop, if_pos (show E.record.time r.s < c.maxTime from ht)] at h; cases h
    · rw [loop_stop _ (show ¬ E.record.time r.s < c.maxTime from ht)] at h
      cases h
      have ht' : ¬ E.record.time r'.s < c'.maxTime := by
        show ¬ E.time r'.s < c'.maxTime
        rw [← hR.time hs, ← hc.maxTime]; exact ht
      exact ⟨r', [], [], loop_stop _ ht', hs, by simp, by simp, rfl⟩
  | succ fuel ih =>
    by_cases ht : E.time r.s < c.maxTime
    · have ht' : E.time r'.s < c'.maxTime := by rw [← hR.time hs, ← hc.maxTime]; exact ht
      rw [loop_record_step ht] at h
      rw [loop_record_step ht']
      obtain ⟨_, a2, a3, a4⟩ := body_record E c r
      obtain ⟨_, b2, b3, b4⟩ := body_record E c' r'
      rw [hstep] at b2 b3 b4
      have hs' := hR.step hs
      have et := hR.time hs'
      have ed := hR.data hs'
      by_cases hd : dueDump c r.lastDump (E.time (oneStep E c r.s))
      · have hd' : dueDump c' r'.lastDump (E.time (oneStep E c r'.s)) := by rw [hdue, ← hl, ← et]; exact hd
        obtain ⟨a5, a6⟩ := a4 hd
        obtain ⟨b5, b6⟩ := b4 hd'
        obtain ⟨q', L, L', q1, q2, q3, q4, q5⟩ := ih (r := (runBody E.record c r).2)
          (r' := (runBody E.record c' r').2)
          (by rw [a2, b2]; exact hs') (by rw [a6, b6, et]) h
        refine ⟨q', E.getData (oneStep E c r.s) :: L, E.getData (oneStep E c r'.s) :: L', q1, q2, ?_, ?_, ?_⟩
        · rw [q3, a5]; simp
        · rw [q4, b5]; simp
        · rw [List.map_cons, List.map_cons, ed, q5]
      · have hd' : ¬ dueDump c' r'.lastDump (E.time (oneStep E c r'.s)) := by rw [hdue, ← hl, ← et]; exact hd
        obtain ⟨a5, a6⟩ := a3 hd
        obtain ⟨b5, b6⟩ := b3 hd'
        obtain ⟨q', L, L', q1, q2, q3, q4, q5⟩ := ih (r := (runBody E.record c r).2)
          (r' := (runBody E.record c' r').2)
          (by rw [a2, b2]; exact hs') (by rw [a6, b6, hl]) h
        exact ⟨q', L, L', q1, q2, by rw [q3, a5], by rw [q4, b5], q5⟩
    · rw [loop_stop _ (show ¬ E.record.time r.s < c.maxTime from ht)] at h
      cases h
      have ht' : ¬ E.record.time r'.s < c'.maxTime := by
        show ¬ E.time r'.s < c'.maxTime
        rw [← hR.time hs, ← hc.maxTime]; exact ht
      exact ⟨r', [], [], loop_stop _ ht', hs, by simp, by simp, rfl⟩

/-- A loop with a later end passes through the end of the shorter one. -/
lemma loop_longer {E : RunEnv σ φ ω K} {c : RunConf K} {T : K} (hT : ∀ x, x < c.maxTime → x < T) {fuel : ℕ}
    {r q : RunSt σ φ (List φ) K} (h : runLoop E.record c fuel r = .ok (0, q)) :
    ∃ j, ∀ m, runLoop E.record { c with maxTime := T } (m + j) r = runLoop E.record { c with maxTime := T } m q := by
  induction fuel generalizing r with
  | zero =>
    by_cases ht : E.time r.s < c.maxTime
    · rw [runLoop, if_pos (show E.record.time r.s < c.maxTime from ht)] at h; cases h
    · rw [loop_stop _ (show ¬ E.record.time r.s < c.maxTime from ht)] at h
      cases h; exact ⟨0, fun m => rfl⟩
  | succ fuel ih =>
    by_cases ht : E.time r.s < c.maxTime
    · rw [loop_record_step ht] at h
      obtain ⟨j, hj⟩ := ih h
      refine ⟨j + 1, fun m => ?_⟩
      rw [← Nat.add_assoc, loop_record_step (c := { c with maxTime := T }) (hT _ ht)]
      exact hj m
    · rw [loop_stop _ (show ¬ E.record.time r.s < c.maxTime from ht)] at h
      cases h; exact ⟨0, fun m => rfl⟩

/-- Either nothing is written, or the rest of the loop after the last frame is a loop that starts with that
frame. -/
lemma loop_last {E : RunEnv σ φ ω K} {c : RunConf K} {fuel : ℕ} {r q : RunSt σ φ (List φ) K}
    (h : runLoop E.record c fuel r = .ok (0, q)) :
    q.stream = r.stream ∨
    ∃ (k fuel' : ℕ) (p : RunSt σ φ (List φ) K), p.s = (oneStep E c)^[k + 1] r.s ∧ p.lastDump = E.time p.s ∧
      p.stream = q.stream ∧ q.stream.getLast? = some (E.getData p.s) ∧
      runLoop E.record c fuel' p = .ok (0, q) := by
  induction fuel generalizing r with
  | zero =>
    by_cases ht : E.time r.s < c.maxTime
    · rw [runLoop, if_pos (show E.record.time r.s < c.maxTime from ht)] at h; cases h
    · rw [loop_stop _ (show ¬ E.record.time r.s < c.maxTime from ht)] at h
      cases h; exact .inl rfl
  | succ fuel ih =>
    by_cases ht : E.time r.s < c.maxTime
    · rw [loop_record_step ht] at h
      obtain ⟨_, a2, a3, a4⟩ := body_record E c r
      rcases ih h with h1 | ⟨k, fuel', p, p1, p2, p3, p4, p5⟩
      · by_cases hd : dueDump c r.lastDump (E.time (oneStep E c r.s))
        · obtain ⟨a5, a6⟩ := a4 hd
          exact .inr ⟨0, fuel, (runBody E.record c r).2, a2, by rw [a6, a2], h1.symm,
            by rw [h1, a5, a2]; simp, h⟩
        · exact .inl (by rw [h1, (a3 hd).1])
      · refine .inr ⟨k + 1, fuel', p, ?_, p2, p3, p4, p5⟩
        rw [p1, a2, ← Function.iterate_succ_apply]
    · rw [loop_stop _ (show ¬ E.record.time r.s < c.maxTime from ht)] at h
      cases h; exact .inl rfl

/-- The frames a run hands to its stream, and the state it ends in. -/
def Offers (E : RunEnv σ φ ω K) (c : RunConf K) (s0 : σ) (L : List φ) (s1 : σ) : Prop :=
  ∃ fuel q, solverRun E.record c fuel s0 [] = .ok (0, q) ∧ q.stream = L ∧ q.s = s1

/-- What `run` writes before the loop. -/
def firstFrames (E : RunEnv σ φ ω K) (c : RunConf K) (s0 : σ) : List φ :=
  if c.hasStream = true ∧ 0 < c.dumpDt ∧ E.time s0 ≤ 0 then [E.getData s0] else []

lemma run_record (E : RunEnv σ φ ω K) (c : RunConf K) (fuel : ℕ) (s0 : σ) :
    solverRun E.record c fuel s0 [] =
      runLoop E.record c fuel ⟨s0, firstFrames E c s0, E.time s0, E.time s0, []⟩ := by
  unfold solverRun firstFrames
  show (if c.hasStream = true ∧ 0 < c.dumpDt ∧ E.time s0 ≤ 0 then _ else _) = _
  split <;> rfl

/-- The frames offered decide what a run does with any stream. -/
lemma loop_writes {E : RunEnv σ φ ω K} {c : RunConf K} {fuel : ℕ} {r q : RunSt σ φ (List φ) K} {L : List φ}
    (h : runLoop E.record c fuel r = .ok (0, q)) (hL : q.stream = r.stream ++ L) {r' : RunSt σ φ ω K} {w' : ω}
    (hs : r'.s = r.s) (hl : r'.lastDump = r.lastDump) (hw : writeAll E.write L r'.stream = (true, w')) :
    ∃ q', runLoop E c fuel r' = .ok (0, q') ∧ q'.stream = w' ∧ q'.s = q.s := by
  induction fuel generalizing r r' L with
  | zero =>
    by_cases ht : E.time r.s < c.maxTime
    · rw [runLoop, if_pos (show E.record.time r.s < c.maxTime from ht)] at h; cases h
    · rw [loop_stop _ (show ¬ E.record.time r.s < c.maxTime from ht)] at h
      cases h
      have : L = [] := by simpa using hL
      subst this
      cases hw
      exact ⟨r', loop_stop _ (by rw [hs]; exact ht), rfl, hs⟩
  | succ fuel ih =>
    by_cases ht : E.time r.s < c.maxTime
    · rw [loop_record_step ht] at h
      rw [runLoop, if_pos (by rw [hs]; exact ht)]
      obtain ⟨_, a2, a3, a4⟩ := body_record E c r
      obtain ⟨b1, b2, b3⟩ := body_cases E c r'
      rw [hs, hl] at b2 b3
      rw [hs] at b1
      by_cases hd : dueDump c r.lastDump (E.time (oneStep E c r.s))
      · obtain ⟨a5, a6⟩ := a4 hd
        obtain ⟨b4, b5, b6⟩ := b3 hd
        obtain ⟨q0, L', _, g1, _, g2, _⟩ := loop_alike (pr := id) (R := Eq) ⟨fun h => by rw [h], fun h => by rw [h], fun h => by rw [h]⟩
          (c' := c) ⟨rfl, rfl, rfl, rfl, rfl⟩ (r' := (runBody E.record c r).2) rfl rfl h
        have hL' : L = E.getData (oneStep E c r.s) :: L' := by
          have := hL
          rw [g2, a5, List.append_assoc] at this
          exact (List.append_cancel_left this).symm
        subst hL'
        simp only [writeAll] at hw
        by_cases hq : (E.write (E.getData (oneStep E c r.s)) r'.stream).1 = true
        · rw [if_pos hq] at hw
          simp only [b4, hq, if_true]
          exact ih h g2 (by rw [b1, a2]) (by rw [b6 hq, a6]) (by rw [b5]; exact hw)
        · rw [if_neg hq] at hw; simp at hw
      · obtain ⟨a5, a6⟩ := a3 hd
        obtain ⟨b4, b5, b6⟩ := b2 hd
        simp only [b4, if_true]
        exact ih h (by rw [hL, a5]) (by rw [b1, a2]) (by rw [b6, a6]) (by rw [b5]; exact hw)
    · rw [loop_stop _ (show ¬ E.record.time r.s < c.maxTime from ht)] at h
      cases h
      have : L = [] := by simpa using hL
      subst this
      cases hw
      exact ⟨r', loop_stop _ (by rw [hs]; exact ht), rfl, hs⟩

/-- Frames are only added. -/
lemma loop_grows {E : RunEnv σ φ ω K} {c : RunConf K} {fuel : ℕ} {r q : RunSt σ φ (List φ) K}
    (h : runLoop E.record c fuel r = .ok (0, q)) : ∃ L, q.stream = r.stream ++ L := by
  obtain ⟨_, L, _, _, _, g2, _⟩ := loop_alike (pr := id) (R := Eq) ⟨fun h => by rw [h], fun h => by rw [h], fun h => by rw [h]⟩
    (c' := c) ⟨rfl, rfl, rfl, rfl, rfl⟩ (r' := r) rfl rfl h
  exact ⟨L, g2⟩

lemma loop_frames {E : RunEnv σ φ ω K} {c : RunConf K} {fuel : ℕ} {r q : RunSt σ φ (List φ) K}
    (h : runLoop E.record c fuel r = .ok (0, q)) {f : φ} (hf : f ∈ q.stream) :
    f ∈ r.stream ∨ ∃ k, f = E.getData ((oneStep E c)^[k] r.s) := by
  induction fuel generalizing r with
  | zero =>
    by_cases ht : E.time r.s < c.maxTime
    · rw [runLoop, if_pos (show E.record.time r.s < c.maxTime from ht)] at h; cases h
    · rw [loop_stop _ (show ¬ E.record.time r.s < c.maxTime from ht)] at h; cases h; exact .inl hf
  | succ fuel ih =>
    by_cases ht : E.time r.s < c.maxTime
    · rw [loop_record_step ht] at h
      obtain ⟨_, b2, b3, b4⟩ := body_record E c r
      rcases ih h with g | ⟨k, g⟩
      · by_cases hd : dueDump c r.lastDump (E.time (oneStep E c r.s))
        · rw [(b4 hd).1] at g
          rcases List.mem_append.1 g with g | g
          · exact .inl g
          · exact .inr ⟨1, by simpa using g⟩
        · rw [(b3 hd).1] at g; exact .inl g
      · rw [b2] at g
        exact .inr ⟨k + 1, by rw [g, Function.iterate_succ_apply]⟩
    · rw [loop_stop _ (show ¬ E.record.time r.s < c.maxTime from ht)] at h; cases h; exact .inl hf

/-- Every frame of a run is that of a state it passes through. -/
lemma offers_frames {E : RunEnv σ φ ω K} {c : RunConf K} {s0 s1 : σ} {L : List φ} (h : Offers E c s0 L s1)
    {f : φ} (hf : f ∈ L) : ∃ k, f = E.getData ((oneStep E c)^[k] s0) := by
  obtain ⟨fuel, q, h1, h2, _⟩ := h
  rw [run_record] at h1
  rw [← h2] at hf
  rcases loop_frames h1 hf with g | g
  · unfold firstFrames at g
    split at g
    · exact ⟨0, by simpa using g⟩
    · simp at g
  · exact g

/-- A run whose frames are accepted by the stream ends well. -/
lemma offers_run {E : RunEnv σ φ ω K} {c : RunConf K} {s0 s1 : σ} {L : List φ} (h : Offers E c s0 L s1)
    {w w' : ω} (hw : writeAll E.write L w = (true, w')) :
    ∃ fuel0, ∀ fuel, fuel0 ≤ fuel → ∃ q, solverRun E c fuel s0 w = .ok (0, q) ∧ q.stream = w' ∧ q.s = s1 := by
  obtain ⟨fuel0, q, h1, h2, h3⟩ := h
  refine ⟨fuel0, fun fuel hf => ?_⟩
  rw [run_record] at h1
  obtain ⟨m, rfl⟩ := Nat.exists_eq_add_of_le hf
  have h1' := loop_more h1 m
  obtain ⟨L', hL'⟩ := loop_grows h1
  simp only at hL'
  rw [← h2, hL', writeAll_append] at hw
  by_cases hd : c.hasStream = true ∧ 0 < c.dumpDt ∧ E.time s0 ≤ 0
  · have hf : firstFrames E c s0 = [E.getData s0] := by unfold firstFrames; rw [if_pos hd]
    rw [hf] at hw h1' hL'
    by_cases hq : (E.write (E.getData s0) w).1 = true
    · simp only [writeAll, hq, if_true] at hw
      obtain ⟨q', g1, g2, g3⟩ := loop_writes (r' := ⟨s0, (E.write (E.getData s0) w).2, E.time s0, E.time s0, []⟩)
        h1' hL' rfl rfl hw
      refine ⟨q', ?_, g2, g3.trans h3⟩
      unfold solverRun
      simp only
      rw [if_pos hd, if_pos hq]
      exact g1
    · simp only [writeAll, hq] at hw
      simp at hw
  · have hf : firstFrames E c s0 = [] := by unfold firstFrames; rw [if_neg hd]
    rw [hf] at hw h1' hL'
    simp only [writeAll, if_true] at hw
    obtain ⟨q', g1, g2, g3⟩ := loop_writes (r' := ⟨s0, w, E.time s0, E.time s0, []⟩) h1' hL' rfl rfl hw
    refine ⟨q', ?_, g2, g3.trans h3⟩
    unfold solverRun
    simp only
    rw [if_neg hd]
    exact g1

/-- A run to an earlier end, continued from its last frame. -/
lemma offers_resume {ψ : Type} {pr : φ → ψ} {E : RunEnv σ φ ω K} {c c' : RunConf K} {T : K} {R : σ → σ → Prop}
    (hR : Alike pr E c R) (hT : ∀ x, x < c.maxTime → x < T)
    (hc : SameRun { c with maxTime := T } c') {s0 s1 s' : σ} {L1 : List φ} {f : φ} (h1 : Offers E c s0 L1 s1)
    (hf : L1.getLast? = some f) (hpos : ¬ E.time s' ≤ 0)
    (hres : ∀ k, E.getData ((oneStep E c)^[k] s0) = f → R ((oneStep E c)^[k] s0) s') :
    (∀ L s2, Offers E c' s' L s2 → ∃ s3 L', R s3 s2 ∧ L'.map pr = L.map pr ∧
      Offers E { c with maxTime := T } s0 (L1 ++ L') s3) ∧
    (∀ L2 s3, Offers E { c with maxTime := T } s0 L2 s3 →
      ∃ L L' s2, R s3 s2 ∧ L2 = L1 ++ L' ∧ L'.map pr = L.map pr ∧ Offers E c' s' L s2) := by
  obtain ⟨fuel1, q, g1, g2, g3⟩ := h1
  rw [run_record] at g1
  have hff : firstFrames E { c with maxTime := T } s0 = firstFrames E c s0 := rfl
  -- the rest of the first run after its last frame
  have hp : ∃ (fuel' : ℕ) (p : RunSt σ φ (List φ) K), R p.s s' ∧ p.lastDump = E.time p.s ∧
      p.stream = L1 ∧ runLoop E.record c fuel' p = .ok (0, q) := by
    rcases loop_last g1 with e | ⟨k, fuel', p, p1, p2, p3, p4, p5⟩
    · exfalso
      rw [g2] at e
      simp only at e
      rw [e] at hf
      unfold firstFrames at hf
      split at hf
      · rename_i hd
        have : R s0 s' := hres 0 (by simpa using hf)
        rw [← hR.time this] at hpos
        exact hpos hd.2.2
      · simp at hf
    · refine ⟨fuel', p, ?_, p2, by rw [p3, g2], p5⟩
      rw [p1]
      refine hres (k + 1) ?_
      rw [← g2, p4, p1] at hf
      simpa using hf
  obtain ⟨fuel', p, hp1, hp2, hp3, hp4⟩ := hp
  obtain ⟨j0, hj0⟩ := loop_longer hT g1
  obtain ⟨jp, hjp⟩ := loop_longer hT hp4
  have hR' : Alike pr E { c with maxTime := T } R := ⟨hR.time, hR.data, hR.step⟩
  have hRs : Alike pr E c' (fun a b => R b a) := by
    refine ⟨fun h => (hR.time h).symm, fun h => (hR.data h).symm, fun {a b} h => ?_⟩
    have e : oneStep E c' = oneStep E c := by
      funext s; unfold oneStep; rw [← hc.dt, ← hc.clampToBox]
    rw [e]; exact hR.step h
  have hff' : firstFrames E c' s' = [] := by
    unfold firstFrames; rw [if_neg (fun h => hpos h.2.2)]
  constructor
  · rintro L s2 ⟨fuel2, q2, k1, k2, k3⟩
    rw [run_record, hff'] at k1
    obtain ⟨q', L0, L', m1, m2, m3, m4, m5⟩ := loop_alike (r' := p) hRs
      ⟨hc.dt.symm, hc.maxTime.symm, hc.dumpDt.symm, hc.hasStream.symm, hc.clampToBox.symm⟩ hp1
      (by rw [hp2]; exact (hR.time hp1).symm) k1
    have hL : L0 = L := by rw [← k2, m3]; rfl
    subst hL
    have m1' := loop_more m1 jp
    rw [hjp fuel2] at m1'
    refine ⟨q'.s, L', by rw [← k3]; exact m2, m5.symm, fuel2 + j0, q', ?_, by rw [m4, hp3], rfl⟩
    rw [run_record, hff]
    exact (hj0 fuel2).trans m1'
  · rintro L2 s3 ⟨fuel2, q2, k1, k2, k3⟩
    rw [run_record, hff] at k1
    have k1' := loop_more k1 j0
    rw [hj0 fuel2] at k1'
    have kp := (hjp fuel2).trans k1'
    obtain ⟨q', L', L, m1, m2, m3, m4, m5⟩ := loop_alike (r' := ⟨s', [], E.time s', E.time s', []⟩) hR' hc hp1
      (by rw [hp2]; exact hR.time hp1) kp
    refine ⟨L, L', q'.s, by rw [← k3]; exact m2, by rw [← k2, m3, hp3], m5, fuel2 + jp, q', ?_, by rw [m4]; rfl,
      rfl⟩
    rw [run_record, hff']
    exact m1

end

end NB
