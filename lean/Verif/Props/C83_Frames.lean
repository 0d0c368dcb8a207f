import Verif.Lemmas.SimRun
import Verif.Spec.Frame
import Verif.Props.C36_DumpSchedule
import Verif.Props.C82_Order

/-
C83: the frames a run writes lie near the true motion of the bodies.
-/

namespace NB.C83

open Finset
open _root_.Spec (Buffers Motion Near BodiesNear)
open C69 (newtonDeriv)
open C74 (Apart maxAbs)
open C81 (stepsProg)
open C82 (OffCutoff Order BasicOrder)
open RunSpec (dumpSteps frames multiples period writeAll)

section
variable {C D ε : Type}

/-- What `run` (/repo/nbody/nbody_solver.cpp:55-105) uses of the simulation, with a stream that keeps every frame it is
given. -/
noncomputable def recording (X : SimEnv ℝ D ε) : RunEnv (SimSt ℝ C D ε) (Snap ℝ C) (List (Snap ℝ C)) ℝ where
  time z := z.data.time
  clamp := X.clamp
  advise := X.advise
  getData := X.getData
  write f w := (true, w ++ [f])

/-- The engine `e` computes, for bodies of the given masses, the derivative of softened gravity up to `θ` in every
coordinate, whatever it remembers, and the norm of the largest coordinate.  (`J`: what it can remember.) -/
structure Gravitates (X : SimEnv ℝ D ε) (e : EngineDesc D) (mass : List ℝ) (θ : ℝ) : Prop where
  nonneg : 0 ≤ θ
  deriv : ∃ J : ε → Prop, J X.fresh ∧ ∀ st (y : List ℝ) m, y.length = 6 * mass.length → J m →
    J (X.deriv e st mass y m).2 ∧ ∀ j, j < 6 * mass.length →
      |(X.deriv e st mass y m).1.getD j 0 - newtonDeriv mass.length (fun i => mass.getD i 0) (fun j => y.getD j 0) j| ≤ θ
  norm : ∀ y : List ℝ, y.length = 6 * mass.length → C09.IsMaxAbs (6 * mass.length) (fun j => y.getD j 0) (X.nrm y)

/-- The solvers of the factory other than Adams-Bashforth, and the order `p` of their errors up to `η`
(C82). -/
inductive BasicDesc (X : SimEnv ℝ D ε) (n : ℕ) : SolverDesc D → (p : ℕ) → (η : ℝ) → Prop
  | euler (st : StepSettings D) : BasicDesc X n (.euler st) 1 0
  | midpoint (st : StepSettings D) : BasicDesc X n (.midpoint st) 2 0
  | rk4 (st : StepSettings D) : BasicDesc X n (.rk4 st) 4 0
  | trapeze (refine : ℕ) (st : StepSettings D) : BasicDesc X n (.trapeze refine st) 2 0
  | stetter (st : StepSettings D) : BasicDesc X n (.midpointSt st) 2 0
  | rk (kind : RKKind) (rs : RKSettings D) (st : StepSettings D) {p : ℕ} {η : ℝ}
      (hg : OrderTable p η (X.table kind) (rkConf X rs st)) : BasicDesc X n (.rk kind rs st) p η
  | bs (maxLevel : ℕ) (threshold : D) (st : StepSettings D) (steps : List ℕ) (hs : initSteps maxLevel true = .ok steps) (big : ℝ)
      {p : ℕ} (hb : BSOrder (maxAbs (6 * n)) ⟨maxLevel, X.toCoord threshold, steps, big⟩ p) :
      BasicDesc X n (.bs maxLevel threshold st) p 0

/-- The solvers of the factory, and the order of their errors. -/
inductive Desc (X : SimEnv ℝ D ε) (n : ℕ) : SolverDesc D → (p : ℕ) → (η : ℝ) → Prop
  | basic {s : SolverDesc D} {p : ℕ} {η : ℝ} (hs : BasicDesc X n s p η) : Desc X n s p η
  | adams (rank : ℕ) (hr1 : 1 ≤ rank) (hr5 : rank ≤ 5) (correction : Bool) (st : StepSettings D) {starter : SolverDesc D}
      {p₀ p : ℕ} {η : ℝ} (hs : BasicDesc X n starter p₀ η) (hr : p ≤ rank) (hp : p ≤ p₀ + 1) :
      Desc X n (.adams starter rank correction st) p η

lemma basic_program {X : SimEnv ℝ D ε} {n : ℕ} {s : SolverDesc D} {p : ℕ} {η : ℝ} (hs : BasicDesc X n s p η) (l : ℕ) :
    ∃ (φ : Type) (rd : (ℕ → Members) → φ) (step : φ → ℝ → Act ℝ φ) (fl₀ : φ), AsProgram X l s φ rd step fl₀ ∧
      BasicOrder n (X.layout l) (fun _ => True) φ step fl₀ p η := by
  cases hs with
  | euler st => exact ⟨_, _, _, _, .euler l st, .euler fun _ _ => trivial⟩
  | midpoint st => exact ⟨_, _, _, _, .midpoint l st, .midpoint fun _ _ => trivial⟩
  | rk4 st => exact ⟨_, _, _, _, .rk4 l st, .rk4 fun _ _ => trivial⟩
  | trapeze refine st => exact ⟨_, _, _, _, .trapeze l refine st, .trapeze refine fun _ _ => trivial⟩
  | stetter st => exact ⟨_, _, _, _, .stetter l st, .stetter fun _ _ => trivial⟩
  | rk kind rs st hg => exact ⟨_, _, _, _, .rk l kind rs st, .rk _ _ hg fun _ _ => trivial⟩
  | bs maxLevel threshold st steps hs big hb =>
    exact ⟨_, _, _, _, .bs l maxLevel threshold st steps hs, .bs _ hb fun _ _ => trivial⟩

lemma adams_row {rank : ℕ} (h1 : 1 ≤ rank) (h5 : rank ≤ 5) :
    ∃ al : List ℝ, adamsRow (S := ℝ) rank = some al ∧ adamsTable (K := ℝ) rank = some al := by
  interval_cases rank <;> simp [adamsRow, adamsTable]

/-- A solver of the factory as a program, and the same but for what Adams-Bashforth does when its buffers are made. -/
lemma desc_program {X : SimEnv ℝ D ε} {n : ℕ} (hX : Function.Injective (X.layout 0)) (hA : Apart (X.layout 0) (X.layout 1))
    {s : SolverDesc D} {p : ℕ} {η : ℝ} (hs : Desc X n s p η) :
    ∃ (φ : Type) (rd : (ℕ → Members) → φ) (whole step : φ → ℝ → Act ℝ φ) (fl₀ : φ) (Z : Buffers ℝ → Prop) (S : List ℝ → Prop),
      AsProgram X 0 s φ rd whole fl₀ ∧ Order n (X.layout 0) (fun _ => True) φ step fl₀ Z p η S ∧
      (∀ N d, S (List.replicate N d)) ∧
      ∀ F nrm m dts V, ∃ V' : Buffers ℝ, Z V' ∧ V' (X.layout 0 .y) = V (X.layout 0 .y) ∧
        (_root_.Spec.tally F nrm m (stepsProg whole dts fl₀) ⟨0, V⟩).2.bufs (X.layout 0 .y) =
        (_root_.Spec.tally F nrm m (stepsProg step dts fl₀) ⟨0, V'⟩).2.bufs (X.layout 0 .y) := by
  cases hs with
  | basic hs =>
    obtain ⟨φ, rd, step, fl₀, h1, h2⟩ := basic_program hs 0
    exact ⟨φ, rd, step, step, fl₀, _, _, h1, .basic h2, fun _ _ => trivial, fun _ _ _ _ V => ⟨V, trivial, rfl, rfl⟩⟩
  | adams rank hr1 hr5 correction st hs hr hp =>
    obtain ⟨φ, rd, step, fl₀, h1, h2⟩ := basic_program hs 1
    obtain ⟨al, ha1, ha2⟩ := adams_row hr1 hr5
    exact ⟨_, _, _, _, _, _, _, .adams 0 rank correction st al ha1 h1,
      .adams rank al ha2 correction (fun _ _ => trivial) _ hA h2 hr hp, fun N d => ⟨d, fun x hx => List.eq_of_mem_replicate hx⟩,
      fun F nrm m dts V => adams_first hX F nrm m fl₀ dts V⟩

lemma range_getD (n : ℕ) (y : ℕ → ℝ) {j : ℕ} (hj : j < n) : ((List.range n).map y).getD j 0 = y j := by
  simp [List.getD, hj]

lemma newton_congr {n : ℕ} {M Y Y' : ℕ → ℝ} (h : ∀ j, j < 6 * n → Y j = Y' j) {j : ℕ} (hj : j < 6 * n) :
    newtonDeriv n M Y j = newtonDeriv n M Y' j := by
  have e : firstN (6 * n) Y = firstN (6 * n) Y' := funext fun i => h i i.isLt
  have := congrFun ((gravity_firstN n M Y).trans ((congrArg (gravity n M) e).trans (gravity_firstN n M Y').symm)) ⟨j, hj⟩
  exact this

/-- BodiesNear in the lists and bodies in the state buffer. -/
lemma unpack_near {n : ℕ} {Y : ℕ → ℝ} {q v : ℕ → Fin 3 → ℝ} {d : ℝ} (h : Near n Y q v d) :
    BodiesNear n (unpackState n 0 Y) (unpackState n 3 Y) q v d := by
  refine ⟨by simp [unpackState], by simp [unpackState], fun i hi => ?_⟩
  refine ⟨⟨Y (0 * n + i), Y ((0 + 1) * n + i), Y ((0 + 2) * n + i)⟩, ⟨Y (3 * n + i), Y ((3 + 1) * n + i), Y ((3 + 2) * n + i)⟩,
    by simp [unpackState, hi], by simp [unpackState, hi], ⟨?_, ?_, ?_⟩, ?_, ?_, ?_⟩
  · simpa using (h i hi 0).1
  · simpa using (h i hi 1).1
  · simpa using (h i hi 2).1
  · simpa using (h i hi 0).2
  · simpa using (h i hi 1).2
  · simpa using (h i hi 2).2

lemma pack_near {d : DataObj ℝ C} {q v : ℕ → Fin 3 → ℝ} {r : ℝ} (h : BodiesNear d.count d.vrt d.vel q v r) :
    Near d.count (packState d) q v r := by
  intro i hi k
  obtain ⟨a, b, ha, hb, ⟨h1, h2, h3⟩, h4, h5, h6⟩ := h.2.2 i hi
  have hm : ∀ m : ℕ, (m * d.count + i) % d.count = i := fun m => by
    rw [Nat.mul_comm, Nat.mul_add_mod, Nat.mod_eq_of_lt hi]
  have hd : ∀ m : ℕ, (m * d.count + i) / d.count = m := fun m => by
    rw [Nat.mul_comm, Nat.mul_add_div (by omega), Nat.div_eq_of_lt hi, Nat.add_zero]
  unfold packState
  simp only [hm, hd]
  fin_cases k <;> simp [ha, hb, h1, h2, h3, h4, h5, h6]

/-- The bodies after `N` steps without `clamp`, from a bound for the scheme. -/
lemma near_after {X : SimEnv ℝ D ε} {n : ℕ} {M : ℕ → ℝ} (hn : 0 < n) (hX : Function.Injective (X.layout 0))
    {s : SolverDesc D} {φ σ : Type} {rd : (ℕ → Members) → φ} {whole step : φ → ℝ → Act ℝ φ} {fl₀ : φ} {Z : Buffers ℝ → Prop}
    {S : List ℝ → Prop} (hprog : AsProgram X 0 s φ rd whole fl₀) (hS : ∀ N d, S (List.replicate N d))
    (hV : ∀ F nrm m dts V, ∃ V' : Buffers ℝ, Z V' ∧ V' (X.layout 0 .y) = V (X.layout 0 .y) ∧
        (_root_.Spec.tally F nrm m (stepsProg whole dts fl₀) ⟨0, V⟩).2.bufs (X.layout 0 .y) =
        (_root_.Spec.tally F nrm m (stepsProg step dts fl₀) ⟨0, V'⟩).2.bufs (X.layout 0 .y))
    {adv : Rhs → ℝ → σ × Eng (ℕ → ℝ) ℝ → Res (σ × Eng (ℕ → ℝ) ℝ)} {R : φ → σ → Buffers ℝ → Prop} {I : σ → Prop}
    (hsol : ∀ F, C74.Solver F (maxAbs (6 * n)) (X.layout 0) (fun _ => True) φ σ step (adv (_root_.Spec.still F)) R)
    (hI : ∀ V, Z V → ∃ x, R fl₀ x V ∧ I x) {T K δ₀ η : ℝ} {p : ℕ} {q v : ℝ → ℕ → Fin 3 → ℝ} (hK : 0 ≤ K)
    (key : ∀ (F : Rhs) (θ : ℝ), 0 ≤ θ → Within (firstN (6 * n)) (gravity n M) θ F →
      ∀ (dts : List ℝ) (δ : ℝ), 0 ≤ δ → δ ≤ δ₀ → (∀ d ∈ dts, 0 < d ∧ d ≤ δ) → S dts → dts.sum ≤ T →
      ∀ s e x, I s → C74.runScheme (adv F) dts (s, e) = .ok x →
      ‖firstN (6 * n) x.2.y - stateOf n q v dts.sum‖ ≤ K * (‖firstN (6 * n) e.y - stateOf n q v 0‖ + δ ^ p + η + θ)) :
    ∀ (e : EngineDesc D) (d : DataObj ℝ C) (θ r : ℝ), Gravitates X e d.mass θ → d.count = n →
      d.mass.length = n → (∀ i, i < n → d.mass.getD i 0 = M i) → BodiesNear n d.vrt d.vel (q 0) (v 0) r →
      ∀ (dt : ℝ) (N : ℕ), 0 < dt → dt ≤ δ₀ → N * dt ≤ T →
      Near n (((X.advise dt)^[N] (X.start e s d)).bufs (X.layout 0 .y)) (q (N * dt)) (v (N * dt)) (K * (r + dt ^ p + η + θ)) := by
  intro e d θ r hE hc hm hM hb dt N hdt hdt' hNT
  obtain ⟨hθ, ⟨J, hJ, hder⟩, hnrm⟩ := hE
  have hG : ∀ Y : ℕ → ℝ, ∀ j, j < 6 * n → newtonDeriv n (fun i => d.mass.getD i 0) Y j = newtonDeriv n M Y j := by
    intro Y j hj
    have : ∀ i, _root_.Spec.accel 1e-8 n (C02.pos n Y) (fun i => d.mass.getD i 0) i = _root_.Spec.accel 1e-8 n (C02.pos n Y) M i := by
      intro i
      funext k
      unfold _root_.Spec.accel
      exact Finset.sum_congr rfl fun j hj => by
        dsimp only
        rw [hM j (Finset.mem_range.1 (Finset.mem_of_mem_erase hj))]
    unfold newtonDeriv
    simp only [this]
  obtain ⟨F, hF, k', hFt⟩ := steps_tally (C := C) (n := n) (mass := d.mass) (e := e) hprog
    (A := fun Y G => ∀ j, j < 6 * n → |G j - newtonDeriv n M Y j| ≤ θ) (J := J) (nrm := maxAbs (6 * n))
    (fun st y m hJm => by
      have h := hder st ((List.range (6 * n)).map y) m (by simp [hm]) hJm
      rw [hm] at h
      refine ⟨fun j hj => ?_, h.1⟩
      rw [← hG y j hj, newton_congr (Y' := fun j => ((List.range (6 * n)).map y).getD j 0) (fun j hj => (range_getD _ y hj).symm) hj]
      exact h.2 j hj)
    (fun y => by
      have h := hnrm ((List.range (6 * n)).map y) (by simp [hm])
      rw [hm] at h
      refine C74.maxAbs_eq (by omega) ?_
      obtain ⟨⟨j, hj, ej⟩, h2⟩ := h
      have ej : X.nrm ((List.range (6 * n)).map y) = |((List.range (6 * n)).map y).getD j 0| := ej
      rw [range_getD _ y hj] at ej
      exact ⟨⟨j, hj, ej⟩, fun i hi => by
        have := h2 i hi
        dsimp only at this
        rwa [range_getD _ y hi] at this⟩)
    (dflt := newtonDeriv n M) (fun y j _ => by rw [sub_self, abs_zero]; exact hθ) dt N (X.start e s d) 0 rfl rfl hc rfl hJ
  rw [show rd (X.start e s d).members = fl₀ from hprog.fresh] at hFt
  obtain ⟨V', hZ, hy, hV'⟩ := hV F (maxAbs (6 * n)) n (List.replicate N dt) (X.start e s d).bufs
  obtain ⟨x, hx, hIx⟩ := hI V' hZ
  obtain ⟨x', e', b1, -, b3⟩ := C81.stepsProg_scheme (n := n) hX (hsol F) (List.replicate N dt) fl₀ x
    ⟨V' (X.layout 0 .y), 0, 0, 0⟩ ⟨0, V'⟩ hx ⟨rfl, rfl⟩
  have hsum : (List.replicate N dt).sum = N * dt := by rw [List.sum_replicate, nsmul_eq_mul]
  have h1 := key (_root_.Spec.still F) θ hθ (fun k t Y => by
      rw [← gravity_firstN, pi_norm_le_iff_of_nonneg hθ]
      rintro ⟨j, hj⟩
      rw [Real.norm_eq_abs]
      exact hF k Y j hj) (List.replicate N dt) dt hdt.le hdt'
    (fun d hd => by rw [List.eq_of_mem_replicate hd]; exact ⟨hdt, le_rfl⟩) (hS N dt) (by rw [hsum]; exact hNT) x _ _ hIx b1
  rw [hsum, ← b3.y, ← hV', hFt] at h1
  rw [C78.near_iff hn]
  refine h1.trans (mul_le_mul_of_nonneg_left ?_ hK)
  have h2 : Near n (packState d) (q 0) (v 0) r := by
    have := pack_near (d := d) (q := q 0) (v := v 0) (r := r) (by rw [hc]; exact hb)
    rwa [hc] at this
  rw [C78.near_iff hn] at h2
  have e1 : V' (X.layout 0 .y) = packState d := by
    rw [hy]
    simp [SimEnv.start, _root_.Spec.put]
  show ‖firstN (6 * n) (V' (X.layout 0 .y)) - stateOf n q v 0‖ + dt ^ p + η + θ ≤ _
  rw [e1]
  linarith

/-- The table of an order is a consistent table. -/
lemma good_table {p : ℕ} {η : ℝ} {bt : BT ℝ} {cf : RKConf ℝ} (h : OrderTable p η bt cf) (hη : η ≤ 1) : GoodTable η bt cf := by
  refine ⟨h.subdivisions, ?_, hη, fun e => (h.explicit e).2, fun e => ⟨(h.implicit e).1, (h.implicit e).2.1⟩⟩
  have := h.order (.node []) h.positive
  simpa [Spec.RTree.phi, Spec.RTree.phis, Spec.RTree.gamma, Spec.RTree.gammas, Spec.RTree.orders] using this

lemma basic_fresh {n : ℕ} {h : Slot → Handle} {H : ℕ → Prop} {φ : Type} {step : φ → ℝ → Act ℝ φ} {fl₀ : φ} {p : ℕ} {η : ℝ}
    (hs : BasicOrder n h H φ step fl₀ p η) (hη : η ≤ 1) : C78.BasicFresh h H φ step fl₀ η := by
  cases hs with
  | euler hH => exact .euler hH
  | midpoint hH => exact .midpoint hH
  | rk4 hH => exact .rk4 hH
  | trapeze refine hH => exact .trapeze refine hH
  | stetter hH => exact .stetter hH
  | rk bt cf hg hH => exact .rk bt cf (good_table hg hη) hH
  | bs cf hb hH => exact .bs cf hb.constructed hb.levels hH

lemma order_fresh {n : ℕ} {h : Slot → Handle} {H : ℕ → Prop} {φ : Type} {step : φ → ℝ → Act ℝ φ} {fl₀ : φ} {Z : Buffers ℝ → Prop}
    {p : ℕ} {η : ℝ} {S : List ℝ → Prop} (hs : Order n h H φ step fl₀ Z p η S) (hη : η ≤ 1) : C78.Fresh h H φ step fl₀ Z η := by
  cases hs with
  | basic hb => exact .basic (basic_fresh hb hη)
  | adams rank al hal correction hH hst ha hS hr hp => exact .adams rank al hal correction hH hst ha (basic_fresh hS hη)

/-- The order that counts: `p`, but 1 if two bodies come to the distance at which the softening sets in. -/
def Applies (n : ℕ) (T : ℝ) (q : ℝ → ℕ → Fin 3 → ℝ) (p : ℕ) (η : ℝ) (r : ℕ) : Prop := (r = p ∧ OffCutoff n T q) ∨ (r = 1 ∧ η ≤ 1)

lemma desc_near {X : SimEnv ℝ D ε} {n : ℕ} {M : ℕ → ℝ} (hn : 0 < n) (hX : Function.Injective (X.layout 0))
    (hA : Apart (X.layout 0) (X.layout 1)) {s : SolverDesc D} {p r : ℕ} {η : ℝ} (hs : Desc X n s p η) {T : ℝ} (hT : 0 ≤ T)
    {q v : ℝ → ℕ → Fin 3 → ℝ} (hq : Motion 1e-8 n M T q v) (hr : Applies n T q p η r) :
    ∃ K δ₀ : ℝ, 0 ≤ K ∧ 0 < δ₀ ∧ ∀ (e : EngineDesc D) (d : DataObj ℝ C) (θ ρ : ℝ), Gravitates X e d.mass θ → d.count = n →
      d.mass.length = n → (∀ i, i < n → d.mass.getD i 0 = M i) → BodiesNear n d.vrt d.vel (q 0) (v 0) ρ →
      ∀ (dt : ℝ) (N : ℕ), 0 < dt → dt ≤ δ₀ → N * dt ≤ T →
      Near n (((X.advise dt)^[N] (X.start e s d)).bufs (X.layout 0 .y)) (q (N * dt)) (v (N * dt)) (K * (ρ + dt ^ r + η + θ)) := by
  obtain ⟨φ, rd, whole, step, fl₀, Z, S, hprog, hord, hS, hV⟩ := desc_program hX hA hs
  rcases hr with ⟨rfl, hoff⟩ | ⟨rfl, hη⟩
  · obtain ⟨σ, adv, R, I, hsol, hI, hconv, -⟩ := C82.fresh_order (n := n) (M := M) hord
    obtain ⟨K, δ₀, hK, hδ₀, key⟩ := hconv T _ _ hT (motion_solves hq) (motion_smooth hq hoff)
    exact ⟨K, δ₀, hK, hδ₀, near_after hn hX hprog hS hV hsol hI hK key⟩
  · obtain ⟨σ, adv, R, I, hsol, hI, hconv⟩ := C78.fresh_converges (n := n) (M := M) (order_fresh hord hη)
    obtain ⟨K, δ₀, hK, hδ₀, key⟩ := hconv T _ hT (motion_solves hq)
    exact ⟨K, δ₀, hK, hδ₀, near_after hn hX hprog hS hV hsol hI hK fun F θ hθ hF dts δ hδ hδ' hd _ hsum s e x hI hx => by
      rw [pow_one]
      exact key F θ hθ hF dts δ hδ hδ' hd hsum s e x hI hx⟩

/-- Inside the box `clamp` changes nothing. -/
lemma clamp_inside {X : SimEnv ℝ D ε} {z : SimSt ℝ C D ε}
    (h : ∀ j, j < 3 * z.data.count → |z.bufs (X.layout 0 .y) j| ≤ z.data.box) : X.clamp z = z := by
  have e : _root_.Spec.call (fun _ _ => 0) z.data.count z.bufs (.clamp (X.layout 0 .y) (FOps.lit z.data.box)) = z.bufs := by
    funext a j
    simp only [_root_.Spec.call, _root_.Spec.put]
    by_cases h1 : a = X.layout 0 .y
    · rw [if_pos h1, h1]
      by_cases h2 : j < 3 * z.data.count
      · have := abs_le.1 (h j h2)
        rw [if_pos h2]
        have e1 : ¬ ((z.data.box : ℝ) < z.bufs (X.layout 0 .y) j) := not_lt.2 this.2
        have e2 : ¬ (z.bufs (X.layout 0 .y) j < -(z.data.box : ℝ)) := not_lt.2 this.1
        simp only [_root_.Spec.wrap, real_lt, real_lit, e1, e2, decide_false, Bool.false_eq_true, if_false]
      · rw [if_neg h2]
    · rw [if_neg h1]
  unfold SimEnv.clamp
  rw [e]

lemma advise_data (X : SimEnv ℝ D ε) (dt : ℝ) (N : ℕ) (z : SimSt ℝ C D ε) :
    ((X.advise dt)^[N] z).data.count = z.data.count ∧ ((X.advise dt)^[N] z).data.mass = z.data.mass ∧
    ((X.advise dt)^[N] z).data.color = z.data.color ∧ ((X.advise dt)^[N] z).data.box = z.data.box ∧
    ((X.advise dt)^[N] z).data.time = z.data.time + N * dt := by
  induction N with
  | zero => simp
  | succ N ih =>
    rw [Function.iterate_succ_apply']
    obtain ⟨h1, h2, h3, h4, h5⟩ := ih
    refine ⟨h1, h2, h3, h4, ?_⟩
    show ((X.advise dt)^[N] z).data.time + dt = _
    rw [h5]
    push_cast
    ring

/-- **The frames of a run are near the motion.**  Take a motion of the bodies and a solver of the factory.  There are `K` and
`δ₀` such that every run with that solver, on any engine that computes gravity up to `θ`, with a step `dt ≤ δ₀`, from data that
give the bodies within `ρ` of the beginning of the motion, until a time that the motion covers, ends properly, and every
frame it has written, every state it has checked and the state it ends in give the bodies within
`K (ρ + dt ^ r + η + θ)` of where the motion has them at the time of the frame.  Frames are written at the start if the time of
the data is at most 0, and then every so many steps as C36 has it. -/
theorem frames_near {X : SimEnv ℝ D ε} {n : ℕ} {M : ℕ → ℝ} (hn : 0 < n) (hX : Function.Injective (X.layout 0))
    (hA : Apart (X.layout 0) (X.layout 1)) {s : SolverDesc D} {p r : ℕ} {η : ℝ} (hs : Desc X n s p η) {T : ℝ} (hT : 0 ≤ T)
    {q v : ℝ → ℕ → Fin 3 → ℝ} (hq : Motion 1e-8 n M T q v) (hr : Applies n T q p η r) :
    ∃ K δ₀ : ℝ, 0 ≤ K ∧ 0 < δ₀ ∧ ∀ (e : EngineDesc D) (d : DataObj ℝ C) (θ ρ : ℝ), Gravitates X e d.mass θ → d.count = n →
      d.mass.length = n → (∀ i, i < n → d.mass.getD i 0 = M i) → BodiesNear n d.vrt d.vel (q 0) (v 0) ρ →
      ∀ c : RunConf ℝ, 0 < c.dt → c.dt ≤ δ₀ → c.maxTime + c.dt ≤ d.time + T →
      (c.clampToBox = true → ∀ t ∈ Set.Icc 0 T, ∀ i, i < n → ∀ k, |q t i k| + K * (ρ + c.dt ^ r + η + θ) ≤ d.box) →
      ∀ fuel, RunSpec.steps d.time c.maxTime c.dt ≤ fuel →
      ∃ x, solverRun (recording X) c fuel (X.start e s d) [] = .ok (0, x) ∧
        x.stream.map (·.time) = (if c.hasStream = true ∧ 0 < c.dumpDt then
          (dumpSteps d.time c.dumpDt c.dt (RunSpec.steps d.time c.maxTime c.dt)).map (fun k : ℕ => d.time + k * c.dt) else []) ∧
        (X.getData x.s).time = d.time + RunSpec.steps d.time c.maxTime c.dt * c.dt ∧
        ∀ f ∈ x.stream ++ x.checks ++ [X.getData x.s], f.count = n ∧ f.mass = d.mass ∧ f.color = d.color ∧
          0 ≤ f.time - d.time ∧ f.time - d.time ≤ T ∧
          BodiesNear n f.vrt f.vel (q (f.time - d.time)) (v (f.time - d.time)) (K * (ρ + c.dt ^ r + η + θ)) := by
  obtain ⟨K, δ₀, hK, hδ₀, key⟩ := desc_near (C := C) hn hX hA hs hT hq hr
  refine ⟨K, δ₀, hK, hδ₀, fun e d θ ρ hE hc hm hM hb c hdt hdt' hmax hbox fuel hfuel => ?_⟩
  have near := fun N => key e d θ ρ hE hc hm hM hb c.dt N hdt hdt'
  obtain ⟨B, hB⟩ : ∃ B, B = K * (ρ + c.dt ^ r + η + θ) := ⟨_, rfl⟩
  rw [← hB] at hbox ⊢
  simp only [← hB] at near
  set N := RunSpec.steps d.time c.maxTime c.dt with hNdef
  -- the steps that are made end within the motion
  have hcover : ∀ k, k ≤ N → (k : ℝ) * c.dt ≤ T := by
    intro k hk
    rcases Nat.eq_zero_or_pos k with rfl | hk0
    · simpa using hT
    · have h1 : (k : ℝ) < (c.maxTime - d.time) / c.dt + 1 := by
        have h2 : (k : ℝ) ≤ N := by exact_mod_cast hk
        refine h2.trans_lt ?_
        refine Nat.ceil_lt_add_one ?_
        by_contra h3
        have h4 : N = 0 := Nat.ceil_eq_zero.2 (not_le.1 h3).le
        omega
      have h2 : (k : ℝ) * c.dt < (c.maxTime - d.time) + c.dt := by
        have := mul_lt_mul_of_pos_right h1 hdt
        rwa [add_mul, div_mul_cancel₀ _ hdt.ne', one_mul] at this
      linarith
  -- no step is changed by the box
  have hone : ∀ k, k ≤ N → (oneStep (recording X) c)^[k] (X.start e s d) = (X.advise c.dt)^[k] (X.start e s d) := by
    intro k
    induction k with
    | zero => intro _; rfl
    | succ k ih =>
      intro hk
      rw [Function.iterate_succ_apply', Function.iterate_succ_apply', ih (by omega)]
      show X.advise c.dt (if c.clampToBox then X.clamp _ else _) = _
      cases hcl : c.clampToBox with
      | false => rfl
      | true =>
        rw [if_pos rfl, clamp_inside]
        obtain ⟨h1, -, -, h4, -⟩ := advise_data X c.dt k (X.start e s d)
        rw [h1, h4]
        intro j hj
        have hj : j < 3 * d.count := hj
        rw [hc] at hj
        obtain ⟨i, a, hi, rfl⟩ : ∃ (i : ℕ) (a : Fin 3), i < n ∧ j = a * n + i :=
          ⟨j % n, ⟨j / n, Nat.div_lt_of_lt_mul (by rwa [Nat.mul_comm] at hj)⟩, Nat.mod_lt _ hn, by
            show j = j / n * n + j % n
            rw [Nat.mul_comm]
            exact (Nat.div_add_mod j n).symm⟩
        have hk' := hcover k (by omega)
        have h5 := (near k hk' i hi a).1
        have h6 := hbox hcl (k * c.dt) ⟨by positivity, hk'⟩ i hi a
        have h7 := abs_sub_abs_le_abs_sub (((X.advise c.dt)^[k] (X.start e s d)).bufs (X.layout 0 .y) (a * n + i)) (q (k * c.dt) i a)
        show _ ≤ (d.box : ℝ)
        linarith
  have hclock : Clock (recording (C := C) X) c.dt := ⟨fun _ => rfl, fun _ => rfl⟩
  -- the frames
  have hframe : ∀ k, k ≤ N → ∀ f, f = X.getData ((oneStep (recording X) c)^[k] (X.start e s d)) →
      f.time = d.time + k * c.dt ∧ f.count = n ∧ f.mass = d.mass ∧ f.color = d.color ∧
      0 ≤ f.time - d.time ∧ f.time - d.time ≤ T ∧ BodiesNear n f.vrt f.vel (q (f.time - d.time)) (v (f.time - d.time)) B := by
    rintro k hk f rfl
    rw [hone k hk]
    obtain ⟨h1, h2, h3, -, h5⟩ := advise_data X c.dt k (X.start e s d)
    have ht : (X.getData ((X.advise c.dt)^[k] (X.start e s d))).time = d.time + k * c.dt := h5
    have hk' := hcover k hk
    have e1 : d.time + k * c.dt - d.time = k * c.dt := by ring
    have h1 : ((X.advise c.dt)^[k] (X.start e s d)).data.count = n := h1.trans hc
    rw [ht, e1]
    refine ⟨rfl, h1, h2, h3, by positivity, hk', ?_⟩
    have := unpack_near (near k hk')
    rw [← h1] at this ⊢
    exact this
  have hmult : ∀ m k, k ∈ multiples m N → k ≤ N := by
    intro m k hk
    unfold multiples at hk
    rw [List.mem_filter, List.mem_range'_1] at hk
    omega
  have hdump : ∀ k ∈ dumpSteps d.time c.dumpDt c.dt N, k ≤ N := by
    intro k hk
    unfold dumpSteps at hk
    rw [List.mem_append] at hk
    rcases hk with hk | hk
    · split_ifs at hk with h1
      · rw [List.mem_singleton.1 hk]; omega
      · cases hk
    · exact hmult _ _ hk
  obtain ⟨x, h1, h2, h3, -, -, -, h7⟩ := C35.run_steps hclock hdt (X.start e s d) []
    (if c.hasStream = true ∧ 0 < c.dumpDt then
      frames (recording X).getData (oneStep (recording X) c) (X.start e s d) d.time c.dumpDt c.dt N else []) fuel hfuel
    (fun h => by rw [if_pos h]; exact C35.writeAll_record _ []) (fun h => if_neg h)
  have h2 : x.s = (oneStep (recording X) c)^[N] (X.start e s d) := h2
  have h7 : x.checks = (if 0 < c.checkDt then (multiples (period c.checkDt c.dt) N).map
      (fun k => X.getData ((oneStep (recording X) c)^[k] (X.start e s d))) else []) := h7
  refine ⟨x, h1, ?_, ?_, fun f hf => ?_⟩
  · rw [h3]
    split_ifs
    · unfold frames
      rw [List.map_map]
      exact List.map_congr_left fun k hk => (hframe k (hdump k hk) _ rfl).1
    · rfl
  · rw [h2]
    exact (hframe N le_rfl _ rfl).1
  · have : ∃ k, k ≤ N ∧ f = X.getData ((oneStep (recording X) c)^[k] (X.start e s d)) := by
      rw [List.mem_append, List.mem_append] at hf
      rcases hf with (hf | hf) | hf
      · rw [h3] at hf
        split_ifs at hf
        · obtain ⟨k, hk, rfl⟩ := List.mem_map.1 hf
          exact ⟨k, hdump k hk, rfl⟩
        · cases hf
      · rw [h7] at hf
        split_ifs at hf
        · obtain ⟨k, hk, rfl⟩ := List.mem_map.1 hf
          exact ⟨k, hmult _ k hk, rfl⟩
        · cases hf
      · rw [List.mem_singleton.1 hf, h2]
        exact ⟨N, le_rfl, rfl⟩
    obtain ⟨k, hk, hf⟩ := this
    exact (hframe k hk f hf).2

/-- **As near as you like.**  With a table whose order conditions hold exactly, on an engine that computes gravity exactly, from
data that give the beginning of the motion, all frames of a run are within `τ` of the motion once the step is small enough. -/
theorem frames_converge {X : SimEnv ℝ D ε} {n : ℕ} {M : ℕ → ℝ} (hn : 0 < n) (hX : Function.Injective (X.layout 0))
    (hA : Apart (X.layout 0) (X.layout 1)) {s : SolverDesc D} {p : ℕ} (hs : Desc X n s p 0) {T : ℝ} (hT : 0 ≤ T)
    {q v : ℝ → ℕ → Fin 3 → ℝ} (hq : Motion 1e-8 n M T q v) {τ : ℝ} (hτ : 0 < τ) :
    ∃ δ : ℝ, 0 < δ ∧ ∀ (e : EngineDesc D) (d : DataObj ℝ C), Gravitates X e d.mass 0 → d.count = n →
      d.mass.length = n → (∀ i, i < n → d.mass.getD i 0 = M i) → BodiesNear n d.vrt d.vel (q 0) (v 0) 0 →
      ∀ c : RunConf ℝ, 0 < c.dt → c.dt ≤ δ → c.maxTime + c.dt ≤ d.time + T →
      (c.clampToBox = true → ∀ t ∈ Set.Icc 0 T, ∀ i, i < n → ∀ k, |q t i k| + τ ≤ d.box) →
      ∃ fuel₀, ∀ fuel, fuel₀ ≤ fuel → ∃ x, solverRun (recording X) c fuel (X.start e s d) [] = .ok (0, x) ∧
        c.maxTime ≤ (X.getData x.s).time ∧
        ∀ f ∈ x.stream ++ x.checks ++ [X.getData x.s],
          BodiesNear n f.vrt f.vel (q (f.time - d.time)) (v (f.time - d.time)) τ := by
  obtain ⟨K, δ₀, hK, hδ₀, key⟩ := frames_near (C := C) hn hX hA hs hT hq (.inr ⟨rfl, zero_le_one⟩)
  have hK1 : 0 < K + 1 := by linarith
  refine ⟨min δ₀ (τ / (K + 1)), by positivity, fun e d hE hc hm hM hb c hdt hdt' hmax hbox =>
    ⟨RunSpec.steps d.time c.maxTime c.dt, fun fuel hfuel => ?_⟩⟩
  have hτ' : K * (0 + c.dt ^ 1 + 0 + 0) ≤ τ := by
    have h1 : c.dt ≤ τ / (K + 1) := hdt'.trans (min_le_right _ _)
    rw [le_div_iff₀ hK1] at h1
    nlinarith
  obtain ⟨x, h1, -, h3, h4⟩ := key e d 0 0 hE hc hm hM hb c hdt (hdt'.trans (min_le_left _ _)) hmax
    (fun h t ht i hi k => by have := hbox h t ht i hi k; linarith) fuel hfuel
  refine ⟨x, h1, ?_, fun f hf => ?_⟩
  · rw [h3]
    exact (C35.steps_time (c := c) hdt d.time).1
  · obtain ⟨-, -, -, -, -, hl1, hl2, h5⟩ := h4 f hf
    refine ⟨hl1, hl2, fun i hi => ?_⟩
    obtain ⟨a, b, ha, hb, ⟨p1, p2, p3⟩, p4, p5, p6⟩ := h5 i hi
    exact ⟨a, b, ha, hb, ⟨p1.trans hτ', p2.trans hτ', p3.trans hτ'⟩, p4.trans hτ', p5.trans hτ', p6.trans hτ'⟩

/-- An engine whose derivatives are those of the Barnes–Hut engines (C81) computes gravity up to a multiple of `1 / ratio`. -/
theorem tree_gravitates {X : SimEnv ℝ D ε} {e : EngineDesc D} {mass : List ℝ} (hpos : ∀ i < mass.length, 0 < mass.getD i 0) {ratio : ℝ}
    (hr : 1 ≤ ratio) {J : ε → Prop} (hJ : J X.fresh)
    (hder : ∀ st (y : List ℝ) m, y.length = 6 * mass.length → J m → J (X.deriv e st mass y m).2 ∧
      C81.Computes mass.length (fun i => mass.getD i 0) ratio (fun j => y.getD j 0) (fun j => (X.deriv e st mass y m).1.getD j 0))
    (hnrm : ∀ y : List ℝ, y.length = 6 * mass.length → C09.IsMaxAbs (6 * mass.length) (fun j => y.getD j 0) (X.nrm y)) :
    Gravitates X e mass (16 / ratio * ((∑ j ∈ range mass.length, mass.getD j 0) * 1e8)) := by
  have hQ : 0 ≤ 16 / ratio * ((∑ j ∈ range mass.length, mass.getD j 0) * 1e8) := by
    have : 0 ≤ ∑ j ∈ range mass.length, mass.getD j 0 := Finset.sum_nonneg fun j hj => (hpos j (Finset.mem_range.1 hj)).le
    have : 0 < ratio := by linarith
    positivity
  refine ⟨hQ, ⟨J, hJ, fun st y m hy hm => ⟨(hder st y m hy hm).1, fun j hj => ?_⟩⟩, hnrm⟩
  have h := C81.computes_within hpos hr (hder st y m hy hm).2
  rw [← gravity_firstN, pi_norm_le_iff_of_nonneg hQ] at h
  have := h ⟨j, hj⟩
  rw [Real.norm_eq_abs] at this
  exact this

end

/-! ### A case -/

/-- Two bodies, exact gravity. -/
noncomputable def sim : SimEnv ℝ ℝ Unit where
  toCoord x := x
  deriv _ _ mass y m := ((List.range (6 * mass.length)).map
    (newtonDeriv mass.length (fun i => mass.getD i 0) fun j => y.getD j 0), m)
  fresh := ()
  nrm y := maxAbs y.length fun j => y.getD j 0
  table _ := C18.bt ℝ rkdpTab
  layout l := if l = 0 then C82.even else C82.odd
  junk _ _ := 77

lemma sim_gravitates (e : EngineDesc ℝ) {mass : List ℝ} (hm : mass ≠ []) : Gravitates sim e mass 0 := by
  refine ⟨le_rfl, ⟨fun _ => True, trivial, fun st y m _ _ => ⟨trivial, fun j hj => ?_⟩⟩, fun y hy => ?_⟩
  · show |((List.range (6 * mass.length)).map _).getD j 0 - _| ≤ 0
    rw [range_getD _ _ hj, sub_self, abs_zero]
  · show C09.IsMaxAbs _ _ (maxAbs y.length _)
    have : 0 < mass.length := List.length_pos_of_ne_nil hm
    obtain ⟨k, hk⟩ : ∃ k, 6 * mass.length = k + 1 := ⟨6 * mass.length - 1, by omega⟩
    rw [hy, hk]
    exact C74.maxAbs_spec _ k

/-- The two bodies of C78 at the beginning, at time 0, in a box of size 5. -/
noncomputable def two : DataObj ℝ Unit :=
  ⟨2, 0, 0, 5, [⟨1, 0, 0⟩, ⟨-1, 0, 0⟩], [(), ()], [⟨0, 1, 0⟩, ⟨0, -1, 0⟩], [4, 4], [1, 1]⟩

lemma two_begin : BodiesNear 2 two.vrt two.vel (C78.orbitPos 0) (C78.orbitVel 0) 0 := by
  refine ⟨rfl, rfl, fun i hi => ?_⟩
  interval_cases i
  · exact ⟨_, _, rfl, rfl, by simp [C78.orbitPos], by simp [C78.orbitVel]⟩
  · exact ⟨_, _, rfl, rfl, by simp [C78.orbitPos], by simp [C78.orbitVel]⟩

/-- Their year with Adams of rank 5 started by rkdp, clamped to the box, a frame every tenth: every frame is within `K dt ^ 5` of the
circle. -/
example (correction : Bool) (e : EngineDesc ℝ) (rs : RKSettings ℝ) (hsub : 0 < rs.subdivisions) (st : StepSettings ℝ) :
    ∃ K δ₀ : ℝ, 0 < δ₀ ∧ ∀ dt, 0 < dt → dt ≤ δ₀ → ∃ fuel₀, ∀ fuel, fuel₀ ≤ fuel →
      ∃ x, solverRun (recording sim) ⟨dt, 2 * Real.pi, 1 / 10, 0, true, true⟩ fuel
        (sim.start e (.adams (.rk .rkdp rs st) 5 correction st) two) [] = .ok (0, x) ∧
        ∀ f ∈ x.stream, BodiesNear 2 f.vrt f.vel (C78.orbitPos f.time) (C78.orbitVel f.time) (K * dt ^ 5) := by
  have hd : Desc sim 2 (.adams (.rk .rkdp rs st) 5 correction st) 5 0 :=
    .adams 5 (by norm_num) le_rfl correction st (.rk .rkdp rs st (C82.explicit_tables _ hsub).2.2.1) le_rfl le_rfl
  obtain ⟨K, δ₀, hK, hδ₀, key⟩ := frames_near (C := Unit) (by norm_num) (X := sim) (n := 2) (M := fun _ => 4) (r := 5)
    C82.even_injective C82.even_odd hd (T := 2 * Real.pi + 1) (by positivity) (C78.orbit _) (.inl ⟨rfl, C82.orbit_off _⟩)
  refine ⟨K, min δ₀ (min 1 (1 / (K + 1))), by positivity, fun dt hdt hdt' => ⟨RunSpec.steps 0 (2 * Real.pi) dt, fun fuel hfuel => ?_⟩⟩
  have h1 : dt ≤ 1 := hdt'.trans ((min_le_right _ _).trans (min_le_left _ _))
  have hsmall : K * dt ^ 5 ≤ 1 := by
    have h2 : dt ≤ 1 / (K + 1) := hdt'.trans ((min_le_right _ _).trans (min_le_right _ _))
    rw [le_div_iff₀ (by linarith)] at h2
    have h3 : dt ^ 5 ≤ dt := pow_le_of_le_one hdt.le h1 (by norm_num)
    nlinarith
  obtain ⟨x, h2, -, -, h4⟩ := key e two 0 0 (sim_gravitates e (by simp [two])) rfl rfl
    (fun i hi => by interval_cases i <;> rfl) two_begin ⟨dt, 2 * Real.pi, 1 / 10, 0, true, true⟩ hdt
    (hdt'.trans (min_le_left _ _)) (by show 2 * Real.pi + dt ≤ (0 : ℝ) + _; linarith) (fun _ t _ i hi k => by
      have hq : |C78.orbitPos t i k| ≤ 1 := by
        unfold C78.orbitPos
        have := Real.abs_cos_le_one t
        have := Real.abs_sin_le_one t
        interval_cases i <;> fin_cases k <;> simp [*]
      show |C78.orbitPos t i k| + K * (0 + dt ^ 5 + 0 + 0) ≤ ((5 : ℕ) : ℝ)
      push_cast
      linarith) fuel hfuel
  refine ⟨x, h2, fun f hf => ?_⟩
  have := (h4 f (by simp [hf])).2.2.2.2.2
  simpa [two] using this

/-- The same as near as you like, with any solver without rounding in its table. -/
example (e : EngineDesc ℝ) (st : StepSettings ℝ) {τ : ℝ} (hτ : 0 < τ) : ∃ δ : ℝ, 0 < δ ∧ ∀ dt, 0 < dt → dt ≤ δ → ∃ fuel₀, ∀ fuel, fuel₀ ≤ fuel →
    ∃ x, solverRun (recording sim) ⟨dt, 2, 1 / 10, 0, true, false⟩ fuel (sim.start e (.trapeze 3 st) two) [] = .ok (0, x) ∧
      ∀ f ∈ x.stream, BodiesNear 2 f.vrt f.vel (C78.orbitPos f.time) (C78.orbitVel f.time) τ := by
  obtain ⟨δ, hδ, key⟩ := frames_converge (C := Unit) (by norm_num) (X := sim) (n := 2) (M := fun _ => 4)
    C82.even_injective C82.even_odd (.basic (.trapeze 3 st)) (T := 3) (by norm_num) (C78.orbit _) hτ
  refine ⟨min δ 1, by positivity, fun dt hdt hdt' => ?_⟩
  obtain ⟨fuel₀, h⟩ := key e two (sim_gravitates e (by simp [two])) rfl rfl
    (fun i hi => by interval_cases i <;> rfl) two_begin ⟨dt, 2, 1 / 10, 0, true, false⟩ hdt (hdt'.trans (min_le_left _ _))
    (by have := hdt'.trans (min_le_right _ _); show 2 + dt ≤ (0 : ℝ) + 3; linarith) (fun h => by cases h)
  refine ⟨fuel₀, fun fuel hfuel => ?_⟩
  obtain ⟨x, h2, -, h4⟩ := h fuel hfuel
  exact ⟨x, h2, fun f hf => by simpa [two] using h4 f (by simp [hf])⟩

end NB.C83
