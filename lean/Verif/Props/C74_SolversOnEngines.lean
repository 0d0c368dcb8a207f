import Verif.Lemmas.BSMachine2
import Verif.Props.C16_Butcher
import Verif.Props.C23_BulirschStoer
import Verif.Props.C73_GpuMaxAbs

/-
C74: solvers on engines.  The programs of calls that the solvers make, run on any direct-sum engine with any number
of threads or devices, take the bodies where the schemes say.
-/

namespace NB.C74

open _root_.Spec (Buffers Allowed Implements eval)
open C69 (newtonDeriv)
open C09 (IsMaxAbs)

/-! ### The engines -/

lemma seqFor_eq {S : Type} : (seqFor : Loop S) = orderedFor List.range := by
  funext n body m
  unfold seqFor orderedFor
  induction n with
  | zero => rfl
  | succ n ih =>
    rw [forN_succ, ih, List.range_succ, List.foldlM_append]
    simp

lemma seqFor_isParLoop {S : Type} : IsParLoop (seqFor : Loop S) := by
  rw [seqFor_eq]
  exact orderedFor_isParLoop fun _ => List.Perm.refl _

/-- The largest absolute value among `N` numbers. -/
noncomputable def maxAbs (N : ℕ) (x : ℕ → ℝ) : ℝ := foldN N 0 fun j r => max r |x j|

lemma maxAbs_spec (x : ℕ → ℝ) (N : ℕ) : IsMaxAbs (N + 1) x (maxAbs (N + 1) x) := by
  induction N with
  | zero =>
    refine ⟨⟨0, by omega, ?_⟩, fun k hk => ?_⟩
    · exact max_eq_right (abs_nonneg _)
    · have : k = 0 := by omega
      subst this
      exact le_max_right _ _
  | succ N ih =>
    obtain ⟨⟨k, hk, h1⟩, h2⟩ := ih
    have e : maxAbs (N + 1 + 1) x = max (maxAbs (N + 1) x) |x (N + 1)| := rfl
    rw [e]
    refine ⟨?_, fun j hj => ?_⟩
    · rcases max_choice (maxAbs (N + 1) x) |x (N + 1)| with h | h
      · exact ⟨k, by omega, h.trans h1⟩
      · exact ⟨N + 1, by omega, h⟩
    · rcases Nat.lt_succ_iff_lt_or_eq.1 hj with h | rfl
      · exact le_trans (h2 j h) (le_max_left _ _)
      · exact le_max_right _ _

lemma maxAbs_eq {N : ℕ} (hN : 0 < N) {x : ℕ → ℝ} {r : ℝ} (h : IsMaxAbs N x r) : r = maxAbs N x := by
  obtain ⟨N, rfl⟩ : ∃ k, N = k + 1 := ⟨N - 1, by omega⟩
  exact C09.isMaxAbs_unique h (maxAbs_spec x N)

/-- The direct-sum engines for `n` bodies of masses `M` with buffers `H`; `Rep V m` says that the memory `m` (of
the host or of all devices) holds the contents `V`. -/
inductive Direct (n : ℕ) (M : ℕ → ℝ) (H : ℕ → Prop) : EngineOps ℝ (Mem ℝ) → (Buffers ℝ → Mem ℝ → Prop) → Prop
  /-- The sequential engine. -/
  | simple (hm : ℕ) : Direct n M H (simpleOps (fcompute seqFor n hm) seqFor n) (HostHolds n hm H M)
  /-- The OpenMP engine, every execution. -/
  | openmp (hm : ℕ) {loop : Loop ℝ} (hl : IsParLoop loop) {bot : ℝ} (hb : bot ≤ 0) {sched : Mem ℝ → Red}
      (hs : ∀ m, (sched m).Valid (6 * n)) :
      Direct n M H (openmpOps (fcompute loop n hm) loop n bot sched) (HostHolds n hm H M)
  /-- The blocked engine, every execution. -/
  | block (hm : ℕ) {loop : Loop ℝ} (hl : IsParLoop loop) {bot : ℝ} (hb : bot ≤ 0) {sched : Mem ℝ → Red}
      (hs : ∀ m, (sched m).Valid (6 * n)) (h64 : 64 ∣ n) :
      Direct n M H (openmpOps (blockFcompute loop blockSize n hm) loop n bot sched) (HostHolds n hm H M)
  /-- The OpenCL engine: any number of devices in one context or several, every execution. -/
  | opencl (g : Gpu) (w hm hs : ℕ) (hn : g.n = n) (hf : g.Fits w) {launch : Launch ℝ (DenseReg ℝ)}
      (hla : IsLaunch launch) {loop : Loop ℝ} (hl : IsParLoop loop) (out hb : ℕ) (ho : ¬ H out) (hh : ¬ H hb)
      (hoh : out ≠ hb) (junk : ℝ) (h4 : 4 ∣ 6 * g.n / g.B) :
      Direct n M H (openclOps g launch loop hm hs out hb junk) (g.Holds w hm hs H M)
  /-- The CUDA engine: any number of devices, every execution. -/
  | cuda (g : Gpu) (w hm hs : ℕ) (hn : g.n = n) (hf : g.Fits w) {launch : Launch ℝ (DenseReg ℝ)}
      (hla : IsLaunch launch) {loop : Loop ℝ} (hl : IsParLoop loop) {order : Mem ℝ → ℕ → MinMax}
      (ho : ∀ m d, d < g.D → C73.Complete (6 * w) (order m d)) :
      Direct n M H (cudaOps g launch loop hm hs order) (g.Holds w hm hs H M)

lemma derives_fcompute {n hm : ℕ} {H : ℕ → Prop} {M : ℕ → ℝ} (hM : ∀ i, i < n → M i ≠ 0) {loop : Loop ℝ}
    (hl : IsParLoop loop) : Derives n hm H M (newtonDeriv n M) (fcompute loop n hm) := by
  intro V m y f hy hf hyf hh
  obtain ⟨F, h1, h2, h3⟩ := C02.fcompute_is_newton hyf (hh.handles f hf).symm (hh.buffers y hy) hh.masses
    (Mem.shape_buf (hh.buffers f hf)) hM
  exact ⟨F, C03.fcompute_parallel_eq_sequential hl hyf (hh.handles f hf).symm h1, C69.newtonDeriv_of h2 h3⟩

lemma derives_block {n hm : ℕ} {H : ℕ → Prop} {M : ℕ → ℝ} {loop : Loop ℝ} (hl : IsParLoop loop) (h64 : 64 ∣ n) :
    Derives n hm H M (newtonDeriv n M) (blockFcompute loop blockSize n hm) := by
  intro V m y f hy hf hyf hh
  obtain ⟨F, h1, h2, h3⟩ := C04.block_is_newton hl h64 hyf (hh.handles f hf).symm (hh.buffers y hy) hh.masses
    (Mem.shape_buf (hh.buffers f hf))
  exact ⟨F, h1, C69.newtonDeriv_of h2 h3⟩

lemma openmp_implements {n hm : ℕ} {H : ℕ → Prop} {M : ℕ → ℝ} (hn : 0 < n) {loop : Loop ℝ} (hl : IsParLoop loop)
    {fc : Handle → Handle → Mem ℝ → Res (Mem ℝ)} (hfc : Derives n hm H M (newtonDeriv n M) fc) {bot : ℝ}
    (hb : bot ≤ 0) {sched : Mem ℝ → Red} (hs : ∀ m, (sched m).Valid (6 * n)) :
    Implements (openmpOps fc loop n bot sched) n H (newtonDeriv n M) (maxAbs (6 * n)) (HostHolds n hm H M) := by
  refine ⟨fun c V s hp hH hh => hostCall_holds hl hfc c hH hp hh, fun h V s hh hr => ⟨s, ?_, hr⟩⟩
  obtain ⟨r, h1, h2⟩ := C09.fmaxabs_openmp_is_max (N := 6 * n) (A := V h) (by omega) (le_refl _) hb (hs s)
  unfold openmpOps
  simp only [hr.buffers h hh]
  rw [h1, res_ok_bind, maxAbs_eq (by omega) h2]
  rfl

/-- Every direct-sum engine computes the derivative of softened gravity, the vector operations and the norm. -/
theorem direct_implements {n : ℕ} {M : ℕ → ℝ} {H : ℕ → Prop} (hn : 0 < n) (hM : ∀ i, i < n → M i ≠ 0)
    {E : EngineOps ℝ (Mem ℝ)} {Rep : Buffers ℝ → Mem ℝ → Prop} (hE : Direct n M H E Rep) :
    Implements E n H (newtonDeriv n M) (maxAbs (6 * n)) Rep := by
  cases hE with
  | simple hm =>
    refine ⟨fun c V s hp hH hh => hostCall_holds seqFor_isParLoop (derives_fcompute hM seqFor_isParLoop) c hH hp hh,
      fun h V s hh hr => ⟨s, ?_, hr⟩⟩
    obtain ⟨r, h1, h2⟩ := C09.fmaxabs_is_max (n := 6 * n) (by omega) (le_refl _) (hr.buffers h hh)
    show (fmaxabs (6 * n) h s >>= fun r => pure (r, s)) = _
    rw [h1, res_ok_bind, maxAbs_eq (by omega) h2]
    rfl
  | openmp hm hl hb hs => exact openmp_implements hn hl (derives_fcompute hM hl) hb hs
  | block hm hl hb hs h64 => exact openmp_implements hn hl (derives_block hl h64) hb hs
  | @opencl g w hm hs e hf launch hla loop hl out hb ho hh hoh junk h4 =>
    subst e
    refine ⟨fun c V s hp hH hr => Gpu.call_holds hf hla hl (fun Y j hj =>
      (C69.dense_newton hf.block (by rw [hf.count]; exact Dvd.dvd.mul_left hf.groups _) M Y j hj).symm) c hH hp hr,
      fun h V s hx hr => ⟨s, ?_, hr⟩⟩
    obtain ⟨r, h1, h2⟩ := C73.opencl_is_max hf hl hr hx (out := out) (hb := hb) (fun e => ho (e ▸ hx)) (fun e => hh (e ▸ hx)) hoh junk h4
    show g.fmaxabsOpenCL loop out hb junk h s = _
    rw [h1, maxAbs_eq (by omega) h2]
  | cuda g w hm hs e hf hla hl ho =>
    subst e
    refine ⟨fun c V s hp hH hr => Gpu.call_holds hf hla hl (fun Y j hj =>
      (C69.dense_newton hf.block (by rw [hf.count]; exact Dvd.dvd.mul_left hf.groups _) M Y j hj).symm) c hH hp hr,
      fun h V s hx hr => ⟨s, ?_, hr⟩⟩
    obtain ⟨r, h1, h2⟩ := C73.cuda_is_max hf hr hx (ho s)
    show (g.fmaxabsCuda _ h s >>= fun r => pure (r, s)) = _
    rw [h1, res_ok_bind, maxAbs_eq (by omega) h2]
    rfl

/-- **Engines are interchangeable for whole programs**, also for those that decide by the norm what to do next:
from memories that hold the same contents, two engines give the same result and end holding the same contents. -/
theorem engines_agree {n : ℕ} {M : ℕ → ℝ} {H : ℕ → Prop} (hn : 0 < n) (hM : ∀ i, i < n → M i ≠ 0)
    {E E' : EngineOps ℝ (Mem ℝ)} {Rep Rep' : Buffers ℝ → Mem ℝ → Prop} (hE : Direct n M H E Rep)
    (hE' : Direct n M H E' Rep') {α : Type} (p : Act ℝ α) (hp : Allowed H p) (V : Buffers ℝ) (m m' : Mem ℝ)
    (h : Rep V m) (h' : Rep' V m') :
    ∃ (a : α) (W : Buffers ℝ) (k k' : Mem ℝ), p.run E m = .ok (a, k) ∧ p.run E' m' = .ok (a, k') ∧
      Rep W k ∧ Rep' W k' := by
  obtain ⟨k, h1, h2⟩ := Spec.run_eval (direct_implements hn hM hE) hp h
  obtain ⟨k', h3, h4⟩ := Spec.run_eval (direct_implements hn hM hE') hp h'
  exact ⟨_, _, k, k', h1, h3, h2, h4⟩

/-! ### Any arithmetic -/

section
variable {S : Type} [Add S] [Sub S] [Mul S] [Neg S] [Div S] [Zero S] [FOps S]

/-- For any arithmetic, floating point included: what a program computes on OpenCL devices, decisions by the norm
included, does not depend on the number of devices, on their contexts, on the execution, or on what the new
buffers of `fmaxabs` contain; only on the bodies and the group size. -/
theorem opencl_devices_agree (n B : ℕ) (M : ℕ → S) : ∃ (deriv : (ℕ → S) → ℕ → S) (nrm : (ℕ → S) → S),
    ∀ (g : Gpu) (w hm hs : ℕ) (H : ℕ → Prop) (V : Buffers S) (m : Mem S) (launch : Launch S (DenseReg S))
      (loop : Loop S) (out hb : ℕ) (junk : S) (α : Type) (p : Act S α), g.n = n → g.B = B → g.Fits w →
      IsLaunch launch → IsParLoop loop → ¬ H out → ¬ H hb → out ≠ hb → 4 ∣ 6 * n / B → g.Holds w hm hs H M V m →
      Allowed H p →
      ∃ m', p.run (openclOps g launch loop hm hs out hb junk) m = .ok ((eval deriv nrm n p V).1, m') ∧
        g.Holds w hm hs H M (eval deriv nrm n p V).2 m' := by
  refine ⟨fun Y => denseVal n B Y M, fun x => match maxElement (buf (6 * n / B) (blockMax B x)) with
    | .ok r => r
    | .error _ => 0, ?_⟩
  rintro g w hm hs H V m launch loop out hb junk α p rfl rfl hf hla hl ho hh hoh h4 hr hp
  refine Spec.run_eval (Rep := g.Holds w hm hs H M) ⟨fun c V s hp hH hr =>
    Gpu.call_holds hf hla hl (fun _ _ _ => rfl) c hH hp hr, fun h V s hx hr => ⟨s, ?_, hr⟩⟩ hp hr
  show g.fmaxabsOpenCL loop out hb junk h s = _
  rw [Gpu.fmaxabsOpenCL_run hf hl hr hx (out := out) (hb := hb) (fun e => ho (e ▸ hx)) (fun e => hh (e ▸ hx)) hoh junk h4]
  obtain ⟨q, hq0, hq, hq', -⟩ := Gpu.blocks_eq hf
  have hpos : 0 < 6 * g.n / g.B := by rw [hq']; exact Nat.mul_pos (Gpu.devices_pos hf) hq0
  obtain ⟨k, hk⟩ : ∃ k, 6 * g.n / g.B = k + 1 := ⟨6 * g.n / g.B - 1, by omega⟩
  cases hx : maxElement (buf (6 * g.n / g.B) (blockMax g.B (V h))) with
  | ok r => rfl
  | error e =>
    rw [hk] at hx
    unfold buf at hx
    rw [List.range_succ_eq_map] at hx
    cases hx

end

/-! ### The solvers -/

/-- Steps of sizes `dts` made one after another on an engine.  A solver is a program for every step size, which
starts from and gives back the members `φ` of the solver that are not buffers. -/
def runSteps {φ σ : Type} (E : EngineOps ℝ σ) (step : φ → ℝ → Act ℝ φ) (dts : List ℝ) (x : φ × σ) :
    Res (φ × σ) :=
  dts.foldlM (fun x dt => (step x.1 dt).run E x.2) x

/-- The steps of a scheme made one after another, on values. -/
def runScheme {σ : Type} (adv : ℝ → σ × Eng (ℕ → ℝ) ℝ → Res (σ × Eng (ℕ → ℝ) ℝ)) (dts : List ℝ)
    (x : σ × Eng (ℕ → ℝ) ℝ) : Res (σ × Eng (ℕ → ℝ) ℝ) :=
  dts.foldlM (fun x dt => adv dt x) x

/-- A scheme without members of its own. -/
def plain (adv : ℝ → Eng (ℕ → ℝ) ℝ → Eng (ℕ → ℝ) ℝ) (dt : ℝ) (x : Unit × Eng (ℕ → ℝ) ℝ) :
    Res (Unit × Eng (ℕ → ℝ) ℝ) := .ok ((), adv dt x.2)

/-- The starter has buffers of its own; the state of the engine is common. -/
structure Apart (h hst : Slot → Handle) : Prop where
  inj : Function.Injective hst
  state : hst .y = h .y
  apart : ∀ s u, s ≠ .y → hst u ≠ h s

/-- The solvers of the library other than Adams-Bashforth, as programs with buffers `h`, the schemes of
Model/Solvers.lean, and the relation between buffers and members of a solver on the one hand and the members in the scheme on
the other.  `F k` is the derivative an engine computes when it is asked for the `k`-th time, `N` the norm. -/
inductive Basic (F : ℕ → (ℕ → ℝ) → ℕ → ℝ) (N : (ℕ → ℝ) → ℝ) (h : Slot → Handle) (H : ℕ → Prop) :
    (φ σ : Type) → (φ → ℝ → Act ℝ φ) → (ℝ → σ × Eng (ℕ → ℝ) ℝ → Res (σ × Eng (ℕ → ℝ) ℝ)) →
    (φ → σ → Buffers ℝ → Prop) → Prop
  | euler (hH : ∀ s, Spec.basicSlots 1 false s → H (h s)) :
      Basic F N h H Unit Unit (fun _ dt => eulerCalls h dt) (plain (eulerAdvise (Spec.still F))) (fun _ _ _ => True)
  | midpoint (hH : ∀ s, Spec.basicSlots 2 true s → H (h s)) :
      Basic F N h H Unit Unit (fun _ dt => midpointCalls h dt) (plain (midpointAdvise (Spec.still F)))
        (fun _ _ _ => True)
  | rk4 (hH : ∀ s, Spec.basicSlots 4 true s → H (h s)) :
      Basic F N h H Unit Unit (fun _ dt => rk4Calls h dt) (plain (rk4Advise (Spec.still F))) (fun _ _ _ => True)
  | trapeze (refine : ℕ) (hH : ∀ s, Spec.basicSlots 2 true s → H (h s)) :
      Basic F N h H Unit Unit (fun _ dt => trapezeCalls h refine dt) (plain (trapezeAdvise (Spec.still F) refine))
        (fun _ _ _ => True)
  | stetter (hH : ∀ s, Spec.stetterSlots s → H (h s)) :
      Basic F N h H StetterFlags (Stetter (ℕ → ℝ)) (fun fl dt => stetterCalls h dt fl)
        (fun dt x => .ok (stetterAdvise (Spec.still F) dt x.1 x.2)) (Spec.StetterRel h)
  | rk (bt : BT ℝ) (cf : RKConf ℝ) (hH : ∀ s, Spec.rkSlots bt cf s → H (h s)) :
      Basic F N h H Bool (RKState (ℕ → ℝ)) (fun allocated dt => do rkCalls h bt cf dt allocated; pure true)
        (fun dt x => .ok (rkAdvise (Spec.still F) N bt cf dt x.1 x.2))
        (fun allocated r V => allocated = r.allocated ∧ Spec.RkBefore h cf r V)
  | bs (cf : BSConf ℝ) (hcf : cf.steps.length = cf.maxLevel) (hH : ∀ s, Spec.bsSlots cf.maxLevel s → H (h s)) :
      Basic F N h H BSFlags (BSState (ℕ → ℝ))
        (fun fl dt => do let r ← bsCalls h cf.maxLevel cf.threshold cf.steps dt fl; pure r.1)
        (fun dt x => bsAdvise (Spec.still F) N cf dt x.1 x.2) (Spec.BSRel h cf.maxLevel)

/-- The solvers of the library: those, and Adams-Bashforth started by any of those.  ("euler" is the default starter of the
factory, C50, which never returns when it is asked to start Adams-Bashforth by itself.) -/
inductive Solver (F : ℕ → (ℕ → ℝ) → ℕ → ℝ) (N : (ℕ → ℝ) → ℝ) (h : Slot → Handle) (H : ℕ → Prop) :
    (φ σ : Type) → (φ → ℝ → Act ℝ φ) → (ℝ → σ × Eng (ℕ → ℝ) ℝ → Res (σ × Eng (ℕ → ℝ) ℝ)) →
    (φ → σ → Buffers ℝ → Prop) → Prop
  | basic {φ σ : Type} {step : φ → ℝ → Act ℝ φ} {adv : ℝ → σ × Eng (ℕ → ℝ) ℝ → Res (σ × Eng (ℕ → ℝ) ℝ)}
      {R : φ → σ → Buffers ℝ → Prop} (hb : Basic F N h H φ σ step adv R) : Solver F N h H φ σ step adv R
  | adams (rank : ℕ) (al : List ℝ) (hal : adamsTable (K := ℝ) rank = some al) (correction : Bool)
      (hH : ∀ s, Spec.adamsSlots rank correction s → H (h s)) (hst : Slot → Handle) (ha : Apart h hst)
      {φ σ : Type} {st : φ → ℝ → Act ℝ φ} {sa : ℝ → σ × Eng (ℕ → ℝ) ℝ → Res (σ × Eng (ℕ → ℝ) ℝ)}
      {R : φ → σ → Buffers ℝ → Prop} (hS : Basic F N hst H φ σ st sa R) :
      Solver F N h H (ℕ × φ) (Adams (ℕ → ℝ) σ) (fun x dt => adamsCalls h al correction (st x.2 dt) x.2 dt x.1)
        (fun dt x => adamsAdvise (Spec.still F) sa rank correction dt x.1 x.2)
        (fun x s V => x.1 = s.mstep ∧ Spec.AdamsRel h correction (R x.2) s V)

lemma adams_length {rank : ℕ} {al : List ℝ} (h : adamsTable (K := ℝ) rank = some al) :
    al.length = rank ∧ al ≠ [] := by
  unfold adamsTable at h
  split_ifs at h with h1 h2 h3 h4 h5 <;> (cases h; subst_vars; exact ⟨rfl, by simp⟩)

section
variable {F : ℕ → (ℕ → ℝ) → ℕ → ℝ} {N : (ℕ → ℝ) → ℝ} {n : ℕ} {h : Slot → Handle} {H : ℕ → Prop} {φ σ : Type}
  {step : φ → ℝ → Act ℝ φ} {adv : ℝ → σ × Eng (ℕ → ℝ) ℝ → Res (σ × Eng (ℕ → ℝ) ℝ)} {R : φ → σ → Buffers ℝ → Prop}

lemma Basic.allowed (hs : Basic F N h H φ σ step adv R) (hh : Function.Injective h) (fl : φ) (dt : ℝ) :
    Allowed H (step fl dt) := by
  cases hs with
  | euler hH => exact Spec.euler_allowed hh hH dt
  | midpoint hH => exact Spec.midpoint_allowed hh hH dt
  | rk4 hH => exact Spec.rk4_allowed hh hH dt
  | trapeze refine hH => exact Spec.trapeze_allowed hh hH refine dt
  | stetter hH => exact Spec.stetter_allowed hh hH dt fl
  | rk bt cf hH => exact Allowed.bind (Spec.rk_allowed hh hH dt fl) fun _ => Allowed.pure _
  | bs cf hcf hH => exact Allowed.bind (Spec.bs_allowed hh hH cf.steps cf.threshold dt fl) fun _ => Allowed.pure _

/-- A solver uses no other buffers than its own. -/
lemma Basic.own (hs : Basic F N h H φ σ step adv R) : Basic F N h (fun a => ∃ u, h u = a) φ σ step adv R := by
  cases hs with
  | euler hH => exact .euler fun s _ => ⟨s, rfl⟩
  | midpoint hH => exact .midpoint fun s _ => ⟨s, rfl⟩
  | rk4 hH => exact .rk4 fun s _ => ⟨s, rfl⟩
  | trapeze refine hH => exact .trapeze refine fun s _ => ⟨s, rfl⟩
  | stetter hH => exact .stetter fun s _ => ⟨s, rfl⟩
  | rk bt cf hH => exact .rk bt cf fun s _ => ⟨s, rfl⟩
  | bs cf hcf hH => exact .bs cf hcf fun s _ => ⟨s, rfl⟩

/-- What a solver keeps for the next step is in its own buffers. -/
lemma Basic.keeps (hs : Basic F N h H φ σ step adv R) {V W : Buffers ℝ} (e : ∀ u, u ≠ .y → V (h u) = W (h u)) {fl : φ} {x : σ}
    (hr : R fl x V) : R fl x W := by
  cases hs with
  | euler hH => trivial
  | midpoint hH => trivial
  | rk4 hH => trivial
  | trapeze refine hH => trivial
  | stetter hH => exact hr.of_eq (fun i => (e _ (by simp)).symm) fun i => (e _ (by simp)).symm
  | rk bt cf hH =>
    exact ⟨hr.1, fun i => (e (.k i) (by simp)) ▸ hr.2.k i, (e .t (by simp)) ▸ hr.2.t,
      fun h => (e .ycorr (by simp)) ▸ (e .tcorr (by simp)) ▸ hr.2.corr h, hr.2.zero⟩
  | bs cf hcf hH =>
    exact ⟨hr.internal.of_eq (fun i => (e _ (by simp)).symm) fun i => (e _ (by simp)).symm,
      hr.ext.of_eq fun a i => (e _ (by cases a <;> exact Slot.noConfusion)).symm⟩

lemma Basic.eval (hs : Basic F N h H φ σ step adv R) (hh : Function.Injective h) (fl : φ) (dt : ℝ) (x : σ)
    (e : Eng (ℕ → ℝ) ℝ) (X : Spec.Tally ℝ) (hr : R fl x X.bufs) (he : Spec.At h X e) :
    ∃ x' e', adv dt (x, e) = .ok (x', e') ∧
      R (Spec.tally F N n (step fl dt) X).1 x' (Spec.tally F N n (step fl dt) X).2.bufs ∧
      Spec.At h (Spec.tally F N n (step fl dt) X).2 e' := by
  cases hs with
  | euler hH => exact ⟨(), _, rfl, trivial, Spec.euler_eval hh dt X e he⟩
  | midpoint hH => exact ⟨(), _, rfl, trivial, Spec.midpoint_eval hh dt X e he⟩
  | rk4 hH => exact ⟨(), _, rfl, trivial, Spec.rk4_eval hh dt X e he⟩
  | trapeze refine hH => exact ⟨(), _, rfl, trivial, Spec.trapeze_eval hh refine dt X e he⟩
  | stetter hH =>
    obtain ⟨h1, h2⟩ := Spec.stetter_eval (derivs := F) (nrm := N) (n := n) hh dt fl x X e hr he
    exact ⟨_, _, rfl, h1, h2⟩
  | rk bt cf hH =>
    obtain ⟨rfl, hr⟩ := hr
    obtain ⟨h1, h2, h3⟩ := Spec.rk_eval (derivs := F) (nrm := N) (n := n) hh bt cf dt x e X hr he
    refine ⟨_, _, rfl, ?_⟩
    rw [Spec.tally_bind]
    exact ⟨⟨h3.symm, h1.before h3 cf⟩, h2⟩
  | bs cf hcf hH =>
    obtain ⟨b', e', h1, h2, h3⟩ := Spec.bs_eval (derivs := F) (nrm := N) (n := n) hh hcf dt fl x X e hr he
    refine ⟨b', e', h1, ?_⟩
    rw [Spec.tally_bind]
    exact ⟨h2, h3⟩

lemma solver_allowed (hh : Function.Injective h) (hs : Solver F N h H φ σ step adv R) (fl : φ) (dt : ℝ) :
    Allowed H (step fl dt) := by
  cases hs with
  | basic hb => exact hb.allowed hh fl dt
  | adams rank al hal correction hH hst ha hS =>
    obtain ⟨e, hne⟩ := adams_length hal
    exact Spec.adams_allowed hh hne (by rw [e]; exact hH) (hS.allowed ha.inj fl.2 dt) fl.2 dt fl.1

lemma solver_step (hh : Function.Injective h) (hs : Solver F N h H φ σ step adv R) (fl : φ) (dt : ℝ) (x : σ)
    (e : Eng (ℕ → ℝ) ℝ) (X : Spec.Tally ℝ) (hr : R fl x X.bufs) (he : Spec.At h X e) :
    ∃ x' e', adv dt (x, e) = .ok (x', e') ∧
      R (Spec.tally F N n (step fl dt) X).1 x' (Spec.tally F N n (step fl dt) X).2.bufs ∧
      Spec.At h (Spec.tally F N n (step fl dt) X).2 e' := by
  cases hs with
  | basic hb => exact hb.eval hh fl dt x e X hr he
  | @adams rank al hal correction hH hst ha φ' σ' st sa R' hS =>
    obtain ⟨h0, hr⟩ := hr
    obtain ⟨k, keep⟩ := fl
    obtain rfl : k = x.mstep := h0
    obtain ⟨s', e', h1, h2, h3, h4⟩ := Spec.adams_eval (derivs := F) (nrm := N) (n := n) (st := st keep dt) (keep := keep)
      (starter := sa) (Hs := fun a => ∃ u, hst u = a) (R := R') hh hal
      correction dt x X e ⟨hS.own.allowed ha.inj keep dt,
        fun s hs => fun ⟨u, hu⟩ => ha.apart s u hs hu,
        fun V W x hVW hx => hS.keeps (fun u hu => hVW _ ⟨u, rfl⟩ fun e => hu (ha.inj (e.trans ha.state.symm))) hx,
        fun X e hx he => by
          obtain ⟨x', e', q1, q2, q3⟩ := hS.eval (n := n) ha.inj keep dt x.starter e X hx
            ⟨by rw [ha.state]; exact he.y, he.count⟩
          exact ⟨(x', e'), q1, q2, by rw [← ha.state]; exact q3.y, q3.count⟩⟩ hr he
    exact ⟨s', e', h1, ⟨h2, h3⟩, h4⟩

end

/-- **Every solver on every engine.**  Whatever the sizes of the steps, the solver runs to the end on the engine,
and the buffers then hold what the scheme gives for softened gravity: the state of the bodies, and whatever the
solver keeps for the next step. -/
theorem every_solver_on_every_engine {n : ℕ} {M : ℕ → ℝ} {H : ℕ → Prop} (hn : 0 < n) (hM : ∀ i, i < n → M i ≠ 0)
    {E : EngineOps ℝ (Mem ℝ)} {Rep : Buffers ℝ → Mem ℝ → Prop} (hE : Direct n M H E Rep)
    {h : Slot → Handle} (hh : Function.Injective h) {φ σ : Type} {step : φ → ℝ → Act ℝ φ}
    {adv : ℝ → σ × Eng (ℕ → ℝ) ℝ → Res (σ × Eng (ℕ → ℝ) ℝ)} {R : φ → σ → Buffers ℝ → Prop}
    (hs : Solver (fun _ => newtonDeriv n M) (maxAbs (6 * n)) h H φ σ step adv R) (dts : List ℝ) :
    ∀ (fl : φ) (x : σ) (e : Eng (ℕ → ℝ) ℝ) (V : Buffers ℝ) (m : Mem ℝ), R fl x V → V (h .y) = e.y → Rep V m →
    ∃ fl' x' e' V' m', runSteps E step dts (fl, m) = .ok (fl', m') ∧ runScheme adv dts (x, e) = .ok (x', e') ∧
      Rep V' m' ∧ R fl' x' V' ∧ V' (h .y) = e'.y := by
  induction dts with
  | nil => intro fl x e V m hr he hm; exact ⟨fl, x, e, V, m, rfl, rfl, hm, hr, he⟩
  | cons dt dts ih =>
    intro fl x e V m hr he hm
    obtain ⟨m1, a1, a2⟩ := Spec.run_eval (direct_implements hn hM hE) (solver_allowed hh hs fl dt) hm
    obtain ⟨x1, e1, b1, b2, b3⟩ := solver_step (n := n) hh hs fl dt x e ⟨e.cc, V⟩ hr ⟨he, rfl⟩
    obtain ⟨t1, t2⟩ := Spec.tally_eval (deriv := newtonDeriv n M) (nrm := maxAbs (6 * n)) (n := n) (step fl dt) ⟨e.cc, V⟩
    rw [t1, t2] at b2
    obtain ⟨fl', x', e', V', m', c1, c2, c3⟩ := ih _ x1 e1 _ m1 b2 (by rw [← t2]; exact b3.y) a2
    refine ⟨fl', x', e', V', m', ?_, ?_, c3⟩
    · unfold runSteps
      rw [List.foldlM_cons, a1]
      exact c1
    · unfold runScheme
      rw [List.foldlM_cons, b1]
      exact c2

/-- **Trajectories do not depend on the engine.** -/
theorem same_trajectory {n : ℕ} {M : ℕ → ℝ} {H : ℕ → Prop} (hn : 0 < n) (hM : ∀ i, i < n → M i ≠ 0)
    {E E' : EngineOps ℝ (Mem ℝ)} {Rep Rep' : Buffers ℝ → Mem ℝ → Prop} (hE : Direct n M H E Rep)
    (hE' : Direct n M H E' Rep') {h : Slot → Handle} (hh : Function.Injective h) {φ σ : Type}
    {step : φ → ℝ → Act ℝ φ} {adv : ℝ → σ × Eng (ℕ → ℝ) ℝ → Res (σ × Eng (ℕ → ℝ) ℝ)}
    {R : φ → σ → Buffers ℝ → Prop}
    (hs : Solver (fun _ => newtonDeriv n M) (maxAbs (6 * n)) h H φ σ step adv R) (dts : List ℝ) :
    ∀ (fl : φ) (V : Buffers ℝ) (m m' : Mem ℝ), Rep V m → Rep' V m' →
    ∃ fl' W k k', runSteps E step dts (fl, m) = .ok (fl', k) ∧ runSteps E' step dts (fl, m') = .ok (fl', k') ∧
      Rep W k ∧ Rep' W k' := by
  induction dts with
  | nil => intro fl V m m' h1 h2; exact ⟨fl, V, m, m', rfl, rfl, h1, h2⟩
  | cons dt dts ih =>
    intro fl V m m' h1 h2
    obtain ⟨a, W, k, k', a1, a2, a3, a4⟩ := engines_agree hn hM hE hE' (step fl dt) (solver_allowed hh hs fl dt)
      V m m' h1 h2
    obtain ⟨fl', W', l, l', b1, b2, b3⟩ := ih a W k k' a3 a4
    refine ⟨fl', W', l, l', ?_, ?_, b3⟩
    · unfold runSteps
      rw [List.foldlM_cons, a1]
      exact b1
    · unfold runSteps
      rw [List.foldlM_cons, a2]
      exact b2

/-- One step after another: `P dt` leads from each state to the next. -/
def Chain (P : ℝ → (ℕ → ℝ) → (ℕ → ℝ) → Prop) : List ℝ → (ℕ → ℝ) → (ℕ → ℝ) → Prop
  | [], y, y' => y = y'
  | dt :: dts, y, y' => ∃ z, P dt y z ∧ Chain P dts z y'

lemma scheme_chain_of {σ : Type} {adv : ℝ → σ × Eng (ℕ → ℝ) ℝ → Res (σ × Eng (ℕ → ℝ) ℝ)}
    {P : ℝ → (ℕ → ℝ) → (ℕ → ℝ) → Prop} {I : σ → Prop}
    (hP : ∀ dt x e q, I x → adv dt (x, e) = .ok q → I q.1 ∧ P dt e.y q.2.y) (dts : List ℝ) :
    ∀ x e q, I x → runScheme adv dts (x, e) = .ok q → Chain P dts e.y q.2.y := by
  induction dts with
  | nil => intro x e q _ h; cases h; rfl
  | cons dt dts ih =>
    intro x e q hx h
    unfold runScheme at h
    rw [List.foldlM_cons] at h
    cases hq : adv dt (x, e) with
    | error er => rw [hq] at h; cases h
    | ok q1 =>
      rw [hq] at h
      obtain ⟨h1, h2⟩ := hP dt x e q1 hx hq
      exact ⟨q1.2.y, h2, ih q1.1 q1.2 q h1 h⟩

lemma scheme_chain {σ : Type} {adv : ℝ → σ × Eng (ℕ → ℝ) ℝ → Res (σ × Eng (ℕ → ℝ) ℝ)}
    {P : ℝ → (ℕ → ℝ) → (ℕ → ℝ) → Prop} (hP : ∀ dt x e q, adv dt (x, e) = .ok q → P dt e.y q.2.y) (dts : List ℝ) :
    ∀ x e q, runScheme adv dts (x, e) = .ok q → Chain P dts e.y q.2.y := by
  induction dts with
  | nil => intro x e q h; cases h; rfl
  | cons dt dts ih =>
    intro x e q h
    unfold runScheme at h
    rw [List.foldlM_cons] at h
    cases hq : adv dt (x, e) with
    | error er => rw [hq] at h; cases h
    | ok q1 =>
      rw [hq] at h
      exact ⟨q1.2.y, hP dt x e q1 hq, ih q1.1 q1.2 q h⟩

section
variable {n : ℕ} {M : ℕ → ℝ} {H : ℕ → Prop} {E : EngineOps ℝ (Mem ℝ)} {Rep : Buffers ℝ → Mem ℝ → Prop}
  {h : Slot → Handle}

/-- **RK4 on every engine**: step after step the classic scheme for softened gravity. -/
theorem rk4_on_every_engine (hn : 0 < n) (hM : ∀ i, i < n → M i ≠ 0) (hE : Direct n M H E Rep)
    (hh : Function.Injective h) (hH : ∀ s, Spec.basicSlots 4 true s → H (h s)) (dts : List ℝ) (V : Buffers ℝ)
    (m : Mem ℝ) (hm : Rep V m) :
    ∃ V' m', runSteps E (fun (_ : Unit) dt => rk4Calls h dt) dts ((), m) = .ok ((), m') ∧ Rep V' m' ∧
      Chain (fun dt y y' => Spec.ERKStep (fun _ _ => newtonDeriv n M) 0 4 C16.classicA C16.classicB C16.classicC
        (0 : ℝ) dt y y') dts (V (h .y)) (V' (h .y)) := by
  obtain ⟨fl, x, e, V', m', h1, h2, h3, -, h5⟩ := every_solver_on_every_engine hn hM hE hh (.basic (.rk4 hH)) dts ()
    () ⟨V (h .y), 0, 0, 0⟩ V m trivial rfl hm
  refine ⟨V', m', h1, h3, ?_⟩
  rw [h5]
  refine scheme_chain (fun dt x e q hq => ?_) dts () _ _ h2
  cases hq
  exact C16.rk4_is_erk (fun _ _ => newtonDeriv n M) dt e

/-- **The table-driven solvers on every engine**, explicit and without subdivision: step after step the scheme of
the table for softened gravity. -/
theorem explicit_on_every_engine (hn : 0 < n) (hM : ∀ i, i < n → M i ≠ 0) (hE : Direct n M H E Rep)
    (hh : Function.Injective h) (bt : BT ℝ) (cf : RKConf ℝ) (hi : bt.implicit = false)
    (hrows : C16.RowsNonzero bt) (hsub : cf.maxRecursion = 0 ∨ bt.embedded = false) (hc : cf.correction = false)
    (hH : ∀ s, Spec.rkSlots bt cf s → H (h s)) (dts : List ℝ) (V : Buffers ℝ) (m : Mem ℝ) (hm : Rep V m) :
    ∃ fl V' m', runSteps E (fun allocated dt => do rkCalls h bt cf dt allocated; pure true) dts (false, m) =
        .ok (fl, m') ∧ Rep V' m' ∧
      Chain (fun dt y y' => Spec.ERKStep (fun _ _ => newtonDeriv n M) 0 bt.steps bt.a bt.b2 bt.c (0 : ℝ) dt y y') dts
        (V (h .y)) (V' (h .y)) := by
  obtain ⟨fl, x, e, V', m', h1, h2, h3, -, h5⟩ := every_solver_on_every_engine hn hM hE hh (.basic (.rk bt cf hH)) dts
    false ⟨false, fun i => V (h (.k i)), V (h .t), V (h .ycorr), V (h .tcorr)⟩ ⟨V (h .y), 0, 0, 0⟩ V m
    ⟨rfl, fun _ => rfl, rfl, fun _ => ⟨rfl, rfl⟩, fun _ e => by rw [hc] at e; cases e⟩ rfl hm
  refine ⟨fl, V', m', h1, h3, ?_⟩
  rw [h5]
  refine scheme_chain (fun dt x e q hq => ?_) dts _ _ _ h2
  cases hq
  exact (C16.rk_explicit_step (fun _ _ => newtonDeriv n M) _ bt cf dt x e hi hrows hsub
    (fun e => by rw [hc] at e; cases e)).1

/-- What a step of Bulirsch-Stoer is to do for the derivative `F` and the norm `N`: extrapolate the first levels, up
to the first whose error is below the threshold (or all of them).  `t` and `cc` are a clock and a counter of calls
that `F` does not look at. -/
def BSStep (F : (ℕ → ℝ) → ℕ → ℝ) (N : (ℕ → ℝ) → ℝ) (cf : BSConf ℝ) (dt : ℝ) (y y' : ℕ → ℝ) : Prop :=
  ∃ (t : ℝ) (cc M : ℕ), 3 ≤ M ∧ M ≤ cf.maxLevel ∧
    y' = bsExtrap (K := ℝ) C23.bsCount (Finset.Icc 0 (M - 1)) (bsLevel (fun _ _ => F) C23.bsCount dt t y cc) ∧
    (bsErr N C23.bsCount (bsLevel (fun _ _ => F) C23.bsCount dt t y cc) (M - 1) < cf.threshold ∨
      M = cf.maxLevel) ∧
    ∀ l, 2 ≤ l → l < M - 1 →
      cf.threshold ≤ bsErr N C23.bsCount (bsLevel (fun _ _ => F) C23.bsCount dt t y cc) l

/-- **Bulirsch-Stoer on every engine**: step after step the extrapolation for softened gravity, whatever the
tables hold at first. -/
theorem bs_on_every_engine (hn : 0 < n) (hM : ∀ i, i < n → M i ≠ 0) (hE : Direct n M H E Rep)
    (hh : Function.Injective h) {cf : BSConf ℝ} (hcf : C23.Constructed cf) (h3 : 3 ≤ cf.maxLevel)
    (hH : ∀ s, Spec.bsSlots cf.maxLevel s → H (h s)) (dts : List ℝ) (V : Buffers ℝ) (m : Mem ℝ) (hm : Rep V m) :
    ∃ fl V' m', runSteps E (fun fl dt => do let r ← bsCalls h cf.maxLevel cf.threshold cf.steps dt fl; pure r.1) dts
        (⟨⟨false, false, false⟩, false⟩, m) = .ok (fl, m') ∧ Rep V' m' ∧
      Chain (BSStep (newtonDeriv n M) (maxAbs (6 * n)) cf) dts (V (h .y)) (V' (h .y)) := by
  have hlen : cf.steps.length = cf.maxLevel := by
    have := hcf
    rw [C23.Constructed, C23.init_steps_bs] at this
    rw [← Except.ok.inj this]
    simp [buf]
  obtain ⟨fl, x, e, V', m', h1, h2, h3', -, h5⟩ := every_solver_on_every_engine hn hM hE hh (.basic (.bs cf hlen hH)) dts
    ⟨⟨false, false, false⟩, false⟩
    ⟨⟨false, false, V (h (.stack 0)), V (h (.stack 1)), V (h (.k 0)), V (h (.k 1))⟩,
      ⟨buf cf.maxLevel fun j => V (h (.table j)), buf cf.maxLevel fun j => V (h (.prev j))⟩⟩ ⟨V (h .y), 0, 0, 0⟩ V m
    ⟨⟨rfl, rfl, rfl, rfl, rfl, rfl⟩, rfl, rfl⟩ rfl hm
  refine ⟨fl, V', m', h1, h3', ?_⟩
  rw [h5]
  refine scheme_chain_of (I := C23.TablesOk cf) (fun dt x e q hx hq => ?_) dts _ _ _
    ⟨by simp [buf], by simp [buf]⟩ h2
  obtain ⟨r, L, hr, ht, hL, -, -, -, -, -, -, hbig⟩ := C23.bs_step (fun _ _ => newtonDeriv n M) (maxAbs (6 * n)) hcf dt
    hx e
  have hq : bsAdvise (fun _ _ => newtonDeriv n M) (maxAbs (6 * n)) cf dt x e = .ok q := hq
  rw [hr] at hq
  cases hq
  obtain ⟨a, b, c⟩ := hbig h3
  exact ⟨ht, e.time, e.cc, L, a, hL, b, c⟩

end

/-! ### Where it fails -/

section
variable {S : Type} [Add S] [Sub S] [Mul S] [Neg S] [Div S] [Zero S] [FOps S]

/-- A program that never asks for the norm. -/
def Quiet {α : Type} : Act S α → Prop
  | .ret _ => True
  | .call _ k => Quiet k
  | .norm _ _ => False

omit [Add S] [Sub S] [Mul S] [Neg S] [Div S] [Zero S] [FOps S] in
lemma Quiet.bind {α β : Type} {p : Act S α} {f : α → Act S β} (hp : Quiet p) (hf : ∀ a, Quiet (f a)) :
    Quiet (p >>= f) := by
  induction p with
  | ret a => exact hf a
  | call c k ih => exact ih hp
  | norm h k ih => exact hp.elim

omit [Add S] [Sub S] [Mul S] [Neg S] [Div S] [Zero S] [FOps S] in
lemma Quiet.forN {σ : Type} {N : ℕ} {s : σ} {f : ℕ → σ → Act S σ} (hf : ∀ i s, Quiet (f i s)) :
    Quiet (forN N s f) := by
  induction N with
  | zero => exact trivial
  | succ N ih => rw [forN_succ]; exact Quiet.bind ih (hf N)

omit [Add S] [Sub S] [Mul S] [Neg S] [Div S] [FOps S] in
lemma run_bind {α β σ : Type} (E : EngineOps S σ) (p : Act S α) (f : α → Act S β) : ∀ s,
    (p >>= f).run E s = (p.run E s >>= fun r => (f r.1).run E r.2) := by
  induction p with
  | ret a => intro s; rfl
  | call c k ih =>
    intro s
    show (E.call c s >>= fun s => (k >>= f).run E s) = ((E.call c s >>= fun s => k.run E s) >>= fun r => (f r.1).run E r.2)
    cases E.call c s with
    | error e => rfl
    | ok s' => exact ih s'
  | norm h k ih =>
    intro s
    show (E.maxabs h s >>= fun r => (k (r.1.getD 0) >>= f).run E r.2) =
      ((E.maxabs h s >>= fun r => (k (r.1.getD 0)).run E r.2) >>= fun r => (f r.1).run E r.2)
    cases E.maxabs h s with
    | error e => rfl
    | ok r => exact ih _ _

omit [Add S] [Sub S] [Mul S] [Neg S] [Div S] [FOps S] in
lemma Quiet.run_eq {α σ : Type} {E E' : EngineOps S σ} (hc : E.call = E'.call) {p : Act S α} (hp : Quiet p) :
    ∀ s, p.run E s = p.run E' s := by
  induction p with
  | ret a => intro s; rfl
  | call c k ih =>
    intro s
    show (E.call c s >>= fun s => k.run E s) = (E'.call c s >>= fun s => k.run E' s)
    rw [hc]
    cases E'.call c s with
    | error e => rfl
    | ok s' => exact ih hp s'
  | norm h k ih => exact hp.elim

/-- **An embedded solver on OpenCL devices with a number of blocks that is no multiple of 4**: the first step
throws, in any arithmetic, whatever the bodies are. -/
theorem opencl_embedded_throws {g : Gpu} {w hm hs : ℕ} {H : ℕ → Prop} {M : ℕ → S} {V : Buffers S} {m : Mem S}
    (hf : g.Fits w) {launch : Launch S (DenseReg S)} (hla : IsLaunch launch) {loop : Loop S} (hl : IsParLoop loop)
    (hr : g.Holds w hm hs H M V m) {h : Slot → Handle} (hh : Function.Injective h) {bt : BT S} {cf : RKConf S}
    (hH : ∀ s, Spec.rkSlots bt cf s → H (h s)) (he : bt.embedded = true) (h4 : ¬ 4 ∣ 6 * g.n / g.B) (dt : S)
    (out hb : ℕ) (junk : S) (allocated : Bool) :
    (rkCalls h bt cf dt allocated).run (openclOps g launch loop hm hs out hb junk) m = .error .thrown := by
  -- an engine with the same calls whose norm is always zero
  let E' : EngineOps S (Mem S) := ⟨g.call launch loop hm hs, fun _ m => .ok (some 0, m)⟩
  have hE' : Implements E' g.n H (fun Y => denseVal g.n g.B Y M) (fun _ => 0) (g.Holds w hm hs H M) :=
    ⟨fun c V s hp hH hr => Gpu.call_holds hf hla hl (fun _ _ _ => rfl) c hH hp hr, fun h V s _ hr => ⟨s, rfl, hr⟩⟩
  have quiet : ∀ {α : Type} (p : Act S α), Quiet p → Allowed H p → ∀ V s, g.Holds w hm hs H M V s →
      ∃ a V' s', p.run (openclOps g launch loop hm hs out hb junk) s = .ok (a, s') ∧ g.Holds w hm hs H M V' s' := by
    intro α p hq ha V s hr
    obtain ⟨s', h1, h2⟩ := Spec.run_eval hE' ha hr
    exact ⟨_, _, s', (hq.run_eq (E := openclOps g launch loop hm hs out hb junk) (E' := E') rfl s).trans h1, h2⟩
  have hst : Quiet (if bt.implicit then rkImplicitCalls h bt cf (!allocated) (h .y) dt
      else rkExplicitCalls h bt cf (h .y) dt) := by
    split_ifs
    · unfold rkImplicitCalls
      refine Quiet.bind ?_ fun _ => Quiet.forN fun _ _ => Quiet.forN fun _ _ => trivial
      split_ifs
      · exact Quiet.bind trivial fun _ => Quiet.forN fun _ _ => trivial
      · exact trivial
    · refine Quiet.forN fun i _ => ?_
      unfold rkStageCalls
      split_ifs
      · exact trivial
      · refine Quiet.bind ?_ fun _ => trivial
        exact trivial
      · refine Quiet.bind ?_ fun _ => trivial
        exact trivial
  unfold rkCalls
  rw [run_bind]
  obtain ⟨a1, V1, m1, e1, r1⟩ := quiet (if !allocated && cf.correction then do
      Act.op (.fill (h .ycorr) 0)
      Act.op (.fill (h .tcorr) 0)
    else pure () : Act S Unit) (by split_ifs <;> trivial) (by
      have := Spec.rk_allowed hh hH dt allocated
      unfold rkCalls at this
      split_ifs with hc
      · simp only [Bool.and_eq_true] at hc
        exact Allowed.bind (Allowed.op trivial (by simpa [Spec.mentions] using hH .ycorr hc.2)) fun _ =>
          Allowed.op trivial (by simpa [Spec.mentions] using hH .tcorr hc.2)
      · exact Allowed.pure _) V m hr
  rw [e1, res_ok_bind]
  dsimp only
  unfold rkLoopCalls
  rw [forN_succ, run_bind]
  show ((Act.ret () : Act S Unit).run _ m1 >>= _) = _
  show (Except.ok ((), m1) >>= _) = _
  rw [res_ok_bind]
  dsimp only
  rw [run_bind]
  obtain ⟨a2, V2, m2, e2, r2⟩ := quiet _ hst (Spec.rkStages_allowed hh hH (s := .y) trivial (hH .y trivial) (!allocated) dt)
    V1 m1 r1
  rw [e2, res_ok_bind]
  dsimp only
  rw [run_bind]
  have herr : (rkErrorCalls h bt).run (openclOps g launch loop hm hs out hb junk) m2 = .error .thrown := by
    unfold rkErrorCalls
    rw [if_pos he, run_bind]
    obtain ⟨a3, V3, m3, e3, r3⟩ := quiet (Act.op (.fmaddn (h .t) none (kbufs h bt.steps)
      (buf bt.steps fun n => bt.b2 n - bt.b1 n) bt.steps)) trivial (by
        have := Spec.rkError_allowed (h := h) hH
        unfold rkErrorCalls at this
        rw [if_pos he] at this
        exact ⟨this.1, trivial⟩) V2 m2 r2
    rw [e3, res_ok_bind]
    have ht : H (h .t) := hH .t trivial
    have := C73.opencl_throws (r3.has hf ht) hf.block (Gpu.devices_pos hf) h4 loop out hb junk
    show (g.fmaxabsOpenCL loop out hb junk (h .t) m3 >>= _) = _
    rw [this]
    rfl
  rw [herr]
  rfl

end

/-! ### Cases -/

/-- A layout of buffers. -/
def layout : Slot → ℕ
  | .y => 1
  | .t => 2
  | .tmpk => 9
  | .k i => if i < 6 then 3 + i else 100 + 4 * i
  | .stack i => 101 + 4 * i
  | .ycorr => 20
  | .tcorr => 21
  | .y0 => 22
  | .diff => 23
  | .table i => 102 + 4 * i
  | .prev i => 103 + 4 * i

lemma layout_injective : Function.Injective layout := by
  intro s u e
  cases s <;> cases u <;> simp only [layout] at e <;> (try split_ifs at e) <;>
    first
      | rfl
      | (exfalso; omega)
      | (congr 1; omega)

lemma layout_basic (N : ℕ) (hN : N ≤ 6) (b : Bool) (s : Slot) (hs : Spec.basicSlots N b s) :
    1 ≤ layout s ∧ layout s < 10 := by
  cases s <;> simp only [Spec.basicSlots, layout] at hs ⊢ <;> (try split_ifs) <;> omega

/-- The buffers of a table-driven solver of at most six stages, without correction and subdivision. -/
lemma layout_rk (bt : BT ℝ) (hb : bt.steps ≤ 6) (cf : RKConf ℝ) (h0 : cf.maxRecursion = 0)
    (hc : cf.correction = false) (s : Slot) (hs : Spec.rkSlots bt cf s) : 1 ≤ layout s ∧ layout s < 10 := by
  cases s <;> simp only [Spec.rkSlots, layout, h0, hc, Bool.false_eq_true] at hs ⊢ <;> (try split_ifs) <;> omega

/-- Two OpenCL devices: a hundred steps of RK4. -/
example (launch : Launch ℝ (DenseReg ℝ)) (loop : Loop ℝ) (hla : IsLaunch launch) (hl : IsParLoop loop)
    (V : Buffers ℝ) (hM : ∀ i, i < 4 → V 0 i ≠ 0) :
    ∃ V' m', runSteps (openclOps C69.twoCl launch loop 0 10 20 21 7) (fun (_ : Unit) dt => rk4Calls layout dt)
        (List.replicate 100 (1 / 100)) ((), C69.sample 2 V) = .ok ((), m') ∧
      C69.twoCl.Holds 2 0 10 (fun h => 1 ≤ h ∧ h < 10) (V 0) V' m' ∧
      Chain (fun dt y y' => Spec.ERKStep (fun _ _ => newtonDeriv 4 (V 0)) 0 4 C16.classicA C16.classicB C16.classicC
        (0 : ℝ) dt y y') (List.replicate 100 (1 / 100)) (V 1) (V' 1) :=
  rk4_on_every_engine (by decide) hM
    (Direct.opencl C69.twoCl 2 0 10 rfl C69.twoCl_fits hla hl 20 21 (by decide) (by decide) (by decide) 7 (by decide))
    layout_injective (layout_basic 4 (by decide) true) _ V _
    (C69.sample_holds V rfl (by decide) (by decide) (Or.inl rfl) (fun _ => rfl) (by decide))

/-- A layout for three stages and two levels of subdivision. -/
def layout3 : Slot → ℕ
  | .y => 1
  | .t => 2
  | .tmpk => 3
  | .k i => if i < 3 then 4 + i else 100 + 4 * i
  | .stack i => if i < 2 then 7 + i else 101 + 4 * i
  | .ycorr => 90
  | .tcorr => 91
  | .y0 => 92
  | .diff => 93
  | .table i => 102 + 4 * i
  | .prev i => 103 + 4 * i

lemma layout3_injective : Function.Injective layout3 := by
  intro s u e
  cases s <;> cases u <;> simp only [layout3] at e <;> (try split_ifs at e) <;>
    first
      | rfl
      | (exfalso; omega)
      | (congr 1; omega)

/-- Two CUDA devices and the blocked engine, 64 bodies, an embedded solver that subdivides (its norm decides when):
the same trajectory. -/
example (launch : Launch ℝ (DenseReg ℝ)) (loop : Loop ℝ) (hla : IsLaunch launch) (hl : IsParLoop loop)
    (V : Buffers ℝ) (hM : V 0 = fun _ => 1) (bt : BT ℝ) (hb : bt.steps ≤ 3) (dts : List ℝ) (sched : Mem ℝ → Red)
    (hs : ∀ m, (sched m).Valid (6 * 64)) (th : ℝ) :
    let cf : RKConf ℝ := ⟨2, 8, th, 1, false, 1 / 1000⟩
    ∃ fl' W k k',
      runSteps (cudaOps C69.twoCuda launch loop 0 10 fun _ _ => C73.comb 191)
        (fun a dt => do rkCalls layout3 bt cf dt a; pure true) dts (false, C69.sample 2 V) = .ok (fl', k) ∧
      runSteps (openmpOps (blockFcompute loop blockSize 64 0) loop 64 (-1) sched)
        (fun a dt => do rkCalls layout3 bt cf dt a; pure true) dts
        (false, fun h => some (buf (if h = 0 then 64 else 384) (V h))) = .ok (fl', k') ∧
      C69.twoCuda.Holds 32 0 10 (fun h => 1 ≤ h ∧ h < 10) (V 0) W k ∧
      HostHolds 64 0 (fun h => 1 ≤ h ∧ h < 10) (V 0) W k' := by
  intro cf
  refine same_trajectory (by decide) (fun i _ => by rw [hM]; norm_num)
    (Direct.cuda C69.twoCuda 32 0 10 rfl C69.twoCuda_fits hla hl fun _ _ _ => C73.comb_complete 191)
    (Direct.block 0 hl (by norm_num) hs (by decide)) layout3_injective (.basic (.rk bt cf fun s hs' => ?_)) dts false V _ _
    (C69.sample_holds V rfl (by decide) (by decide) (Or.inl rfl) (fun _ => rfl) (by decide))
    ⟨fun a ha => ?_, rfl, fun a ha => Nat.ne_of_gt ha.1⟩
  · show 1 ≤ layout3 s ∧ layout3 s < 10
    cases s <;> simp only [Spec.rkSlots, layout3, cf, Bool.false_eq_true] at hs' ⊢ <;> (try split_ifs) <;> omega
  · exact congrArg (fun k => some (buf k (V a))) (if_neg (Nat.ne_of_gt ha.1))

/-- One OpenCL device, 64 bodies, groups of 64 (the defaults): the first step of any embedded solver throws. -/
example (launch : Launch ℝ (DenseReg ℝ)) (loop : Loop ℝ) (hla : IsLaunch launch) (hl : IsParLoop loop)
    (V : Buffers ℝ) (bt : BT ℝ) (hb : bt.steps ≤ 6) (he : bt.embedded = true) (cf : RKConf ℝ)
    (h0 : cf.maxRecursion = 0) (hc : cf.correction = false) (dt : ℝ) :
    (rkCalls layout bt cf dt false).run (openclOps C73.defaultCl launch loop 0 10 20 21 7) (C69.sample 1 V) =
      .error .thrown :=
  opencl_embedded_throws C73.defaultCl_fits hla hl
    (C69.sample_holds (g := C73.defaultCl) (w := 64) V rfl (by decide) (by decide) (Or.inl rfl) (fun _ => rfl) (by decide))
    layout_injective (layout_rk bt hb cf h0 hc) he (by decide) dt 20 21 7 false

/-- Adams of order 2 with RK4 as starter on the sequential engine: the starter has buffers of its own. -/
example (V : Buffers ℝ) (hM : ∀ i, i < 3 → V 0 i ≠ 0) (dts : List ℝ) :
    ∃ st m', runSteps (simpleOps (fcompute seqFor 3 0) seqFor 3)
      (fun (x : ℕ × Unit) dt => adamsCalls (fun s => 2 * layout s) [3 / 2, -1 / 2] false
        (rk4Calls (fun s => if s = .y then 2 else 2 * layout s + 1) dt) x.2 dt x.1) dts
      ((0, ()), fun h => some (buf (if h = 0 then 3 else 18) (V h))) = .ok (st, m') := by
  obtain ⟨fl, x, e, V', m', h1, -⟩ := every_solver_on_every_engine (by decide) hM
    (Direct.simple (n := 3) (M := V 0) (H := fun h => h ≠ 0) 0)
    (h := fun s => 2 * layout s) (fun s u e => layout_injective (by
      have e : 2 * layout s = 2 * layout u := e
      omega))
    (Solver.adams 2 [3 / 2, -1 / 2] rfl false (fun s hs => by
        have : 1 ≤ layout s := by
          cases s <;> simp only [layout] <;> (try split_ifs) <;> omega
        show 2 * layout s ≠ 0
        omega) (fun s => if s = .y then 2 else 2 * layout s + 1) ⟨fun s u e => by
          have e : (if s = .y then 2 else 2 * layout s + 1) = (if u = .y then 2 else 2 * layout u + 1) := e
          split_ifs at e with h1 h2 h2
          · rw [h1, h2]
          · omega
          · omega
          · exact layout_injective (by omega), rfl, fun s u hs e => by
          have e : (if u = .y then 2 else 2 * layout u + 1) = 2 * layout s := e
          split_ifs at e with h1
          · exact hs (layout_injective (by show layout s = 1; omega))
          · omega⟩ (.rk4 fun s _ => by
          show (if s = .y then 2 else 2 * layout s + 1) ≠ 0
          split_ifs <;> omega)) dts (0, ())
    ⟨fun i => V (2 * layout (.k i)), V 40, 0, ()⟩ ⟨V 2, 0, 0, 0⟩ V (fun h => some (buf (if h = 0 then 3 else 18) (V h)))
    ⟨rfl, fun _ => rfl, fun e => (by cases e), trivial⟩ rfl
    ⟨fun h hh => congrArg (fun k => some (buf k (V h))) (if_neg hh), rfl, fun h hh => hh⟩
  exact ⟨fl, m', h1⟩

/-- Bulirsch-Stoer with three levels on the engine with threads, four bodies. -/
example (loop : Loop ℝ) (hl : IsParLoop loop) (sched : Mem ℝ → Red) (hs : ∀ m, (sched m).Valid (6 * 4))
    (V : Buffers ℝ) (hM : ∀ i, i < 4 → V 0 i ≠ 0) (dts : List ℝ) :
    ∃ fl V' m', runSteps (openmpOps (fcompute loop 4 0) loop 4 (-1) sched)
        (fun fl dt => do let r ← bsCalls layout 3 (1 / 1000) [2, 4, 6] dt fl; pure r.1) dts
        (⟨⟨false, false, false⟩, false⟩, fun h => some (buf (if h = 0 then 4 else 24) (V h))) = .ok (fl, m') ∧
      HostHolds 4 0 (fun h => h ≠ 0) (V 0) V' m' ∧
      Chain (BSStep (newtonDeriv 4 (V 0)) (maxAbs 24) ⟨3, 1 / 1000, [2, 4, 6], 0⟩) dts (V 1) (V' 1) :=
  bs_on_every_engine (cf := ⟨3, 1 / 1000, [2, 4, 6], 0⟩) (by decide) hM
    (Direct.openmp 0 hl (by norm_num) hs) layout_injective
    (by rw [C23.Constructed, C23.init_steps_bs]; rfl) (by decide) (fun s _ => by
      show layout s ≠ 0
      cases s <;> simp only [layout] <;> (try split_ifs) <;> omega) dts V _
    ⟨fun h hh => congrArg (fun k => some (buf k (V h))) (if_neg hh), rfl, fun h hh => hh⟩

end NB.C74
