import Verif.Lemmas.BulirschStoer
import Mathlib.Tactic.Abel

/-
C24: time reversibility of Stetter's midpoint scheme.

Specification (Stetter's symmetric two-state method): one step of size `h` from `(u, v)` at time `t` gives
`u' = u + h f(t + h/2, v + h/2 f(t, u))`, `v' = v + h/2 (f(t, u) + f(t + h, u'))`.
-/

namespace NB.C24

section
variable {V K : Type} [Field K] [AddCommGroup V] [Module K V]

/-- The pair after one step of the scheme. -/
def IsStep (f : K → V → V) (t h : K) (u v u' v' : V) : Prop :=
  u' = u + h • f (t + h / 2) (v + (h / 2) • f t u) ∧ v' = v + (h / 2) • (f t u + f (t + h) u')

/-- The invariant of the solver between calls: `m_fu[0]` holds the derivative at the current `u`. -/
def Ready (f : K → V → V) (s : Stetter V) (e : Eng V K) : Prop :=
  s.allocated = true ∧ s.initiated = true ∧ s.fu0 = f e.time s.u

variable [DecidableEq K]

/-- The pair `(m_u, m_v)` at the beginning of a call: the stored one, or `(y, y)` after a reset. -/
def startPair (s : Stetter V) (e : Eng V K) : V × V :=
  if s.allocated && s.initiated then (s.u, s.v) else (e.y, e.y)

/-- **`advise` performs one step of the scheme** and establishes the invariant; the state visible to the user
is the mean of the pair. -/
theorem stetter_is_scheme (f : K → V → V) (dt : K) (s : Stetter V) (e : Eng V K)
    (h : (s.allocated && s.initiated) = true → s.fu0 = f e.time s.u) :
    let r := stetterAdvise (fun _ => f) dt s e
    IsStep f e.time dt (startPair s e).1 (startPair s e).2 r.1.u r.1.v ∧ Ready f r.1 r.2 ∧
    r.2.y = (1 / 2 : K) • (r.1.u + r.1.v) ∧ r.2.time = e.time + dt := by
  intro r
  rcases hb : (s.allocated && s.initiated) with _ | _
  · have hf : (!s.allocated || !s.initiated) = true := by
      revert hb; cases s.allocated <;> cases s.initiated <;> simp
    simp only [r, stetterAdvise, hf, if_true, startPair, hb, Bool.false_eq_true, if_false, Eng.fc, Eng.adviseTime,
      vfmadd, vfmaddnInplace_eq, vfmaddn_none, Finset.sum_range_succ, Finset.range_zero, Finset.sum_empty, zero_add,
      Ready, IsStep]
    refine ⟨⟨by simp, ?_⟩, ⟨trivial, trivial, trivial⟩, ?_, trivial⟩
    · simp [smul_add]
    · simp
  · have hf : (!s.allocated || !s.initiated) = false := by
      revert hb; cases s.allocated <;> cases s.initiated <;> simp
    have hfu := h hb
    have hb' : s.allocated = true ∧ s.initiated = true := by simpa using hb
    simp only [r, stetterAdvise, hf, startPair, hb, if_true, Bool.false_eq_true, if_false, Eng.fc, Eng.adviseTime,
      vfmadd, vfmaddnInplace_eq, vfmaddn_none, Finset.sum_range_succ, Finset.range_zero, Finset.sum_empty, zero_add,
      Ready, IsStep]
    refine ⟨⟨by rw [hfu], ?_⟩, ⟨trivial, hb'.2, trivial⟩, ?_, trivial⟩
    · simp [smul_add, hfu]
    · simp

omit [DecidableEq K] in
/-- **The scheme is symmetric**: a step forth and a step back compose to the identity, for every right hand
side (also one that depends on time). -/
theorem scheme_reversible [CharZero K] (f : K → V → V) (t h : K) (u v u₁ v₁ u₂ v₂ : V)
    (h₁ : IsStep f t h u v u₁ v₁) (h₂ : IsStep f (t + h) (-h) u₁ v₁ u₂ v₂) : u₂ = u ∧ v₂ = v := by
  obtain ⟨hu₁, hv₁⟩ := h₁
  obtain ⟨hu₂, hv₂⟩ := h₂
  have e1 : t + h + -h / 2 = t + h / 2 := by ring
  have e2 : t + h + -h = t := by ring
  have e3 : v₁ + (-h / 2) • f (t + h) u₁ = v + (h / 2) • f t u := by
    rw [hv₁, neg_div, neg_smul, smul_add]; abel
  have hu : u₂ = u := by
    rw [hu₂, e1, e3, hu₁, neg_smul]; abel
  refine ⟨hu, ?_⟩
  rw [hv₂, hu, e2, neg_div, neg_smul]
  rw [hv₁, add_comm (f (t + h) u₁)]; abel

/-- **One step followed by one step with the opposite `dt` restores the internal pair and the time**, for
every derivative function, from any state between calls (including right after construction or reset). -/
theorem stetter_reversible [CharZero K] (f : K → V → V) (dt : K) (s : Stetter V) (e : Eng V K)
    (h : (s.allocated && s.initiated) = true → s.fu0 = f e.time s.u) :
    let r₁ := stetterAdvise (fun _ => f) dt s e
    let r₂ := stetterAdvise (fun _ => f) (-dt) r₁.1 r₁.2
    r₂.1.u = (startPair s e).1 ∧ r₂.1.v = (startPair s e).2 ∧ r₂.2.time = e.time := by
  intro r₁ r₂
  obtain ⟨h1, h2, _, ht⟩ := stetter_is_scheme f dt s e h
  obtain ⟨h3, _, _, ht'⟩ := stetter_is_scheme f (-dt) r₁.1 r₁.2 (fun _ => h2.2.2)
  have hp : startPair r₁.1 r₁.2 = (r₁.1.u, r₁.1.v) := by
    have : (r₁.1.allocated && r₁.1.initiated) = true := by rw [h2.1, h2.2.1]; rfl
    unfold startPair; rw [if_pos this]
  rw [hp, ht] at h3
  have := scheme_reversible f e.time dt _ _ _ _ _ _ h1 h3
  refine ⟨this.1, this.2, ?_⟩
  rw [ht', ht]; ring

/-- `n` calls of `advise(dt)`. -/
def steps (f : K → V → V) (dt : K) : ℕ → Stetter V × Eng V K → Stetter V × Eng V K
  | 0, x => x
  | n + 1, x => let r := steps f dt n x; stetterAdvise (fun _ => f) dt r.1 r.2

lemma steps_succ' (f : K → V → V) (dt : K) (n : ℕ) (x : Stetter V × Eng V K) :
    steps f dt (n + 1) x = steps f dt n (stetterAdvise (fun _ => f) dt x.1 x.2) := by
  induction n with
  | zero => rfl
  | succ n ih => rw [steps, ih]; rfl

/-- `Ready` states with the same pair and time behave the same. -/
lemma steps_congr (f : K → V → V) (dt : K) (n : ℕ) (x y : Stetter V × Eng V K) (hx : Ready f x.1 x.2)
    (hy : Ready f y.1 y.2) (hu : x.1.u = y.1.u) (hv : x.1.v = y.1.v) (ht : x.2.time = y.2.time) :
    Ready f (steps f dt n x).1 (steps f dt n x).2 ∧ Ready f (steps f dt n y).1 (steps f dt n y).2 ∧
    (steps f dt n x).1.u = (steps f dt n y).1.u ∧ (steps f dt n x).1.v = (steps f dt n y).1.v ∧
    (steps f dt n x).2.time = (steps f dt n y).2.time := by
  induction n with
  | zero => exact ⟨hx, hy, hu, hv, ht⟩
  | succ n ih =>
    obtain ⟨rx, ry, iu, iv, it⟩ := ih
    simp only [steps]
    obtain ⟨⟨a1, a2⟩, a3, _, a4⟩ := stetter_is_scheme f dt _ _ (fun _ => rx.2.2)
    obtain ⟨⟨b1, b2⟩, b3, _, b4⟩ := stetter_is_scheme f dt _ _ (fun _ => ry.2.2)
    have px : startPair (steps f dt n x).1 (steps f dt n x).2 = ((steps f dt n x).1.u, (steps f dt n x).1.v) := by
      unfold startPair; rw [rx.1, rx.2.1]; rfl
    have py : startPair (steps f dt n y).1 (steps f dt n y).2 = ((steps f dt n y).1.u, (steps f dt n y).1.v) := by
      unfold startPair; rw [ry.1, ry.2.1]; rfl
    rw [px] at a1 a2
    rw [py] at b1 b2
    simp only at a1 a2 b1 b2
    have hu' : (stetterAdvise (fun _ => f) dt (steps f dt n x).1 (steps f dt n x).2).1.u =
        (stetterAdvise (fun _ => f) dt (steps f dt n y).1 (steps f dt n y).2).1.u := by
      rw [a1, b1, iu, iv, it]
    exact ⟨a3, b3, hu', by rw [a2, b2, hu', iu, iv, it], by rw [a4, b4, it]⟩

/-- **Any number of steps can be undone**: `n` steps with `dt` followed by `n` steps with `-dt` return to the
initial pair and time, for every derivative function. -/
theorem stetter_n_steps_reversible [CharZero K] (f : K → V → V) (dt : K) (n : ℕ) (s : Stetter V) (e : Eng V K)
    (h : Ready f s e) :
    let r := steps f (-dt) n (steps f dt n (s, e))
    r.1.u = s.u ∧ r.1.v = s.v ∧ r.2.time = e.time := by
  induction n generalizing s e with
  | zero => exact ⟨rfl, rfl, rfl⟩
  | succ n ih =>
    intro r
    have hs := stetter_is_scheme f dt s e (fun _ => h.2.2)
    have hp : startPair s e = (s.u, s.v) := by unfold startPair; rw [h.1, h.2.1]; rfl
    have ih' := ih (stetterAdvise (fun _ => f) dt s e).1 (stetterAdvise (fun _ => f) dt s e).2 hs.2.1
    have hr : r = stetterAdvise (fun _ => f) (-dt)
        (steps f (-dt) n (steps f dt n (stetterAdvise (fun _ => f) dt s e))).1
        (steps f (-dt) n (steps f dt n (stetterAdvise (fun _ => f) dt s e))).2 := by
      simp only [r]
      rw [steps_succ' f dt n]
      rfl
    have hready : ∀ (m : ℕ) (d : K) (x : Stetter V × Eng V K), Ready f x.1 x.2 →
        Ready f (steps f d m x).1 (steps f d m x).2 := fun m d x hx => (steps_congr f d m x x hx hx rfl rfl rfl).1
    have hr1 := hready n (-dt) _ (hready n dt _ hs.2.1)
    have c := steps_congr f (-dt) 1 _ _ hr1 hs.2.1 ih'.1 ih'.2.1 ih'.2.2
    have rev := stetter_reversible f dt s e (fun _ => h.2.2)
    rw [hp] at rev
    rw [hr]
    exact ⟨c.2.2.1.trans rev.1, c.2.2.2.1.trans rev.2.1, c.2.2.2.2.trans rev.2.2⟩

end

/-- A non-trivial case: `y' = y²`, from a fresh solver; the pair moves and comes back. -/
example : (stetterAdvise (V := ℚ) (K := ℚ) (fun _ _ y => y * y) 1 Stetter.new ⟨1, 0, 0, 0⟩).1.u ≠ 1 := by
  decide +kernel

example :
    let r₁ := stetterAdvise (V := ℚ) (K := ℚ) (fun _ _ y => y * y) 1 Stetter.new ⟨1, 0, 0, 0⟩
    let r₂ := stetterAdvise (V := ℚ) (K := ℚ) (fun _ _ y => y * y) (-1) r₁.1 r₁.2
    r₂.1.u = 1 ∧ r₂.1.v = 1 ∧ r₂.2.time = 0 :=
  stetter_reversible (V := ℚ) (K := ℚ) (fun _ y => y * y) 1 Stetter.new ⟨1, 0, 0, 0⟩ (by simp [Stetter.new])

end NB.C24
