import Verif.Model.Sim
import Verif.Lemmas.Forgetful
import Verif.Lemmas.ResumeMain

/-
The program with its simulation (Model/Sim.lean): what survives a step, and what decides it.
-/

namespace NB

open StreamSpec RunSpec

section
variable {S C D ε : Type} [Add S] [Sub S] [Mul S] [Neg S] [Div S] [Zero S] [FOps S]
variable {X : SimEnv S D ε}

/-- Solvers whose step of size `dt` is decided by the state alone: not those that remember derivatives (Adams, Stetter)
or roundings (`correction`), nor implicit ones, which start from the stages of the last step. -/
def DecidedByState (X : SimEnv S D ε) (dt : S) : SolverDesc D → Prop
  | .euler _ | .midpoint _ | .rk4 _ | .bs _ _ _ => True
  | .trapeze _ _ => FOps.eqb (dt / FOps.lit 2) 0 = false
  | .rk kind rs st => (X.table kind).implicit = false ∧ rs.correction = false ∧
      ∀ l, l ≤ rs.maxRecursion → Spec.LiveRows (X.table kind) (Spec.subDt (rkConf X rs st) dt l)
  | .adams _ _ _ _ | .midpointSt _ => False

/-- The engine computes the derivative from the state alone: `nbody_engine_ah` and the tree engines with a build rate
above 1 do not. -/
def Memoryless (X : SimEnv S D ε) (e : EngineDesc D) : Prop :=
  ∀ step step' mass y m m', (X.deriv e step mass y m).1 = (X.deriv e step' mass y m').1

/-- The derivative of an engine without memory. -/
def SimEnv.deriv0 (X : SimEnv S D ε) (z : SimSt S C D ε) (y : ℕ → S) : ℕ → S := (X.fcompute z y X.fresh).1

lemma eval_memoryless {α : Type} {d : (ℕ → S) → ε → (ℕ → S) × ε} {d0 : (ℕ → S) → ℕ → S} {nrm : (ℕ → S) → S} {n : ℕ}
    (h : ∀ y m, (d y m).1 = d0 y) (p : Act S α) (V : Spec.Buffers S) (m : ε) :
    (evalMem d nrm n p V m).1 = (Spec.eval d0 nrm n p V).1 ∧
      (evalMem d nrm n p V m).2.1 = (Spec.eval d0 nrm n p V).2 := by
  induction p generalizing V m with
  | ret a => exact ⟨rfl, rfl⟩
  | call c k ih =>
    have e : (callMem d n V m c).1 = Spec.call d0 n V c := by
      cases c with
      | fcompute y f => show Spec.put V f (d (V y) m).1 = _; rw [h]; rfl
      | fmaddn a b c d k => cases b <;> rfl
      | _ => rfl
    unfold evalMem Spec.eval
    rw [e]
    exact ih _ _
  | norm b k ih => exact ih _ _ _

/-- States that differ at most in the box size, in what memory holds besides the state of the engine, and in the
members of the solver. -/
structure SameSim (X : SimEnv S D ε) (a b : SimSt S C D ε) : Prop where
  engine : a.engine = b.engine
  solver : a.solver = b.solver
  count : a.data.count = b.data.count
  mass : a.data.mass = b.data.mass
  color : a.data.color = b.data.color
  time : a.data.time = b.data.time
  step : a.data.step = b.data.step
  state : Spec.Same (6 * a.data.count) (a.bufs (X.layout 0 .y)) (b.bufs (X.layout 0 .y))

omit [Add S] [Sub S] [Mul S] [Neg S] [Div S] [FOps S] in
lemma sim_local (z : SimSt S C D ε) : Spec.Local (6 * z.data.count) (X.deriv0 z) (X.fmaxabs z) := by
  have key : ∀ {x x' : ℕ → S}, Spec.Same (6 * z.data.count) x x' →
      (List.range (6 * z.data.count)).map x = (List.range (6 * z.data.count)).map x' := by
    intro x x' e
    exact List.map_congr_left fun j hj => e j (by simpa using hj)
  exact ⟨fun e j _ => by unfold SimEnv.deriv0 SimEnv.fcompute; rw [key e], fun e => by unfold SimEnv.fmaxabs; rw [key e]⟩

/-- One step from equal states. -/
lemma sim_advise {dt : S} {a b : SimSt S C D ε} (hinj : Function.Injective (X.layout 0)) (h : SameSim X a b)
    (hmem : Memoryless X a.engine) (hd : DecidedByState X dt a.solver) :
    SameSim X (X.advise dt a) (X.advise dt b) := by
  have hfa : ∀ y m, (X.fcompute a y m).1 = X.deriv0 a y := by
    intro y m; funext j; unfold SimEnv.deriv0 SimEnv.fcompute; simp only; rw [hmem]
  have hfb : ∀ y m, (X.fcompute b y m).1 = X.deriv0 a y := by
    intro y m; funext j; unfold SimEnv.deriv0 SimEnv.fcompute; simp only
    rw [← h.engine, ← h.mass, ← h.count, hmem]
  have hm : X.fmaxabs b = X.fmaxabs a := by
    funext y; unfold SimEnv.fmaxabs; rw [h.count]
  have hloc := sim_local (X := X) a
  suffices key : ∀ V W : Spec.Buffers S, Spec.Same (6 * a.data.count) (V (X.layout 0 .y)) (W (X.layout 0 .y)) →
      ∀ m m' : ℕ → Members,
      let r := Spec.eval (X.deriv0 a) (X.fmaxabs a) a.data.count (a.solver.calls X 0 dt m) V
      let r' := Spec.eval (X.deriv0 a) (X.fmaxabs a) a.data.count (a.solver.calls X 0 dt m') W
      r.1.2 = r'.1.2 ∧ Spec.Same (6 * a.data.count) (r.2 (X.layout 0 .y)) (r'.2 (X.layout 0 .y)) by
    obtain ⟨k1, k2⟩ := key a.bufs b.bufs h.state a.members b.members
    obtain ⟨a1, a2⟩ := eval_memoryless hfa (nrm := X.fmaxabs a) (n := a.data.count)
      (a.solver.calls X 0 dt a.members) a.bufs a.memory
    obtain ⟨b1, b2⟩ := eval_memoryless hfb (nrm := X.fmaxabs b) (n := b.data.count)
      (b.solver.calls X 0 dt b.members) b.bufs b.memory
    rw [hm, ← h.count, ← h.solver] at b1 b2
    refine ⟨h.engine, h.solver, h.count, h.mass, h.color, ?_, ?_, ?_⟩
    · show a.data.time + dt = b.data.time + dt
      rw [h.time]
    · show wrap64 (a.data.step + _) = wrap64 (b.data.step + _)
      rw [a1, hm, ← h.count, ← h.solver, b1, ← k1, h.step]
    · show Spec.Same (6 * a.data.count) _ _
      unfold SimEnv.advise
      simp only
      rw [a2, hm, ← h.count, ← h.solver, b2]
      exact k2
  have hdet : ∀ {p p' : Act S Unit} {V W : Spec.Buffers S} {m m' : ℕ → Members},
      Spec.Det (X.deriv0 a) (X.fmaxabs a) a.data.count (6 * a.data.count) (X.layout 0) (X.layout 0)
        (Spec.only .y) (Spec.only .y) p p' →
      Spec.Same (6 * a.data.count) (V (X.layout 0 .y)) (W (X.layout 0 .y)) →
      let r := Spec.eval (X.deriv0 a) (X.fmaxabs a) a.data.count
        (do p; pure (m, 1) : Act S ((ℕ → Members) × ℕ)) V
      let r' := Spec.eval (X.deriv0 a) (X.fmaxabs a) a.data.count
        (do p'; pure (m', 1) : Act S ((ℕ → Members) × ℕ)) W
      r.1.2 = r'.1.2 ∧ Spec.Same (6 * a.data.count) (r.2 (X.layout 0 .y)) (r'.2 (X.layout 0 .y)) := by
    intro p p' V W m m' hp e
    simp only [Spec.eval_bind]
    exact ⟨rfl, (hp V W (by rintro s rfl; exact e)).2 .y rfl⟩
  intro V W e m m'
  cases hs : a.solver with
  | adams _ _ _ _ => rw [hs] at hd; exact hd.elim
  | midpointSt _ => rw [hs] at hd; exact hd.elim
  | euler st => exact hdet (Spec.det_euler hloc hinj hinj dt) e
  | midpoint st => exact hdet (Spec.det_midpoint hloc hinj hinj dt) e
  | rk4 st => exact hdet (Spec.det_rk4 hloc hinj hinj dt) e
  | trapeze refine st => rw [hs] at hd; exact hdet (Spec.det_trapeze hloc hinj hinj refine hd) e
  | rk kind rs st =>
    rw [hs] at hd
    exact hdet (Spec.det_rk hloc hinj hinj hd.1 hd.2.1 _ _ hd.2.2) e
  | bs maxLevel threshold st =>
    unfold SolverDesc.calls
    simp only [Spec.eval_bind]
    obtain ⟨g1, g2⟩ := Spec.bs_state (n := a.data.count) hloc hinj hinj maxLevel (X.toCoord threshold)
      (match initSteps maxLevel true with | .ok s => s | .error _ => []) dt
      ⟨(m 0).stetter, (m 0).swapped⟩ ⟨(m' 0).stetter, (m' 0).swapped⟩ e
    exact ⟨congrArg (· + 1) g1, g2⟩

omit [Add S] [Sub S] [Mul S] [Neg S] [Div S] [Zero S] [FOps S] in
lemma same_unpack {n first : ℕ} (hk : first + 2 < 6) {x x' : ℕ → S} (e : Spec.Same (6 * n) x x') :
    unpackState n first x = unpackState n first x' := by
  unfold unpackState
  refine List.map_congr_left fun i hi => ?_
  have hi' : i < n := by simpa using hi
  have h0 : first * n + n + n + n ≤ 6 * n := by nlinarith
  rw [e _ (by nlinarith), e _ (by nlinarith), e _ (by nlinarith)]

omit [Add S] [Sub S] [Mul S] [Neg S] [Div S] [FOps S] in
/-- Unpacking and packing again. -/
lemma pack_unpack {d : DataObj S C} {x : ℕ → S} (h1 : d.vrt = unpackState d.count 0 x)
    (h2 : d.vel = unpackState d.count 3 x) : Spec.Same (6 * d.count) x (packState d) := by
  intro j hj
  have hn : 0 < d.count := by omega
  have hm := Nat.mod_lt j hn
  have hq : j / d.count < 6 := by rw [Nat.div_lt_iff_lt_mul hn]; exact hj
  have hj' := Nat.div_add_mod j d.count
  unfold packState
  simp only [h1, h2]
  generalize hq' : j / d.count = q at *
  generalize hm' : j % d.count = i at *
  have hl : ∀ f, (unpackState d.count f x)[i]? =
      some ⟨x (f * d.count + i), x ((f + 1) * d.count + i), x ((f + 2) * d.count + i)⟩ := by
    intro f
    unfold unpackState
    rw [List.getElem?_map, List.getElem?_range hm]
    rfl
  have hx : x j = x (q * d.count + i) := by rw [← hj', Nat.mul_comm]
  rw [hx]
  have hc : q = 0 ∨ q = 1 ∨ q = 2 ∨ q = 3 ∨ q = 4 ∨ q = 5 := by omega
  rcases hc with rfl | rfl | rfl | rfl | rfl | rfl <;> simp [hl]

variable [Raw S] [Raw C] {K σ : Type} [LT S] [LE S] [DecidableLT S] [DecidableLE S] [OfScientific S]

/-- What no step changes. -/
structure Keeps (a b : SimSt S C D ε) : Prop where
  engine : b.engine = a.engine
  solver : b.solver = a.solver
  count : b.data.count = a.data.count
  mass : b.data.mass = a.data.mass
  color : b.data.color = a.data.color
  box : b.data.box = a.data.box

omit [LT S] [LE S] [DecidableLT S] [DecidableLE S] [OfScientific S] in
lemma sim_keeps (M : MainEnv S C D K σ) (c : RunConf S) (z : SimSt S C D ε) (k : ℕ) :
    Keeps z ((oneStep (M.withSim X).runEnv c)^[k] z) := by
  induction k with
  | zero => exact ⟨rfl, rfl, rfl, rfl, rfl, rfl⟩
  | succ k ih =>
    rw [Function.iterate_succ_apply']
    generalize (oneStep (M.withSim X).runEnv c)^[k] z = y at ih
    unfold oneStep
    cases c.clampToBox
    · exact ⟨ih.1, ih.2, ih.3, ih.4, ih.5, ih.6⟩
    · exact ⟨ih.1, ih.2, ih.3, ih.4, ih.5, ih.6⟩

omit [LT S] [LE S] [DecidableLT S] [DecidableLE S] [OfScientific S] in
/-- Without clamping, equal states cannot be told apart by a run. -/
lemma sim_alike (M : MainEnv S C D K σ) {c : RunConf S} (hc : c.clampToBox = false) {s : SolverDesc D}
    {e : EngineDesc D}
    (hinj : Function.Injective (X.layout 0)) (hmem : Memoryless X e) (hd : DecidedByState X c.dt s) :
    Alike noBox (M.withSim X).runEnv c (fun a b => SameSim X a b ∧ a.engine = e ∧ a.solver = s) := by
  refine ⟨fun h => h.1.time, fun {a b} h => ?_, fun {a b} h => ?_⟩
  · show noBox (X.getData a) = noBox (X.getData b)
    unfold noBox SimEnv.getData
    rw [same_unpack (first := 0) (by omega) h.1.state, same_unpack (first := 3) (by omega) h.1.state, h.1.count,
      h.1.mass, h.1.color, h.1.time, h.1.step]
  · unfold oneStep
    simp only [hc, Bool.false_eq_true, if_false]
    refine ⟨sim_advise hinj h.1 (by rw [h.2.1]; exact hmem) (by rw [h.2.2]; exact hd), h.2⟩

end

end NB
