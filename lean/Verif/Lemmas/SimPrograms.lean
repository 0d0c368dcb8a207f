import Verif.Model.Sim
import Verif.Lemmas.SolverCalls

/-
The solvers of the simulation (Model/Sim.lean) are the programs of Model/SolverCalls.lean, each with flags of its own.
-/

namespace NB

section
variable {S C D ε : Type} [Add S] [Sub S] [Mul S] [Neg S] [Div S] [Zero S] [FOps S]

/-- A solver of the factory at nesting level `l` as a program: the type of its flags, how they are read off the
members, the step, and the flags of a new solver. -/
inductive AsProgram (X : SimEnv S D ε) : ℕ → SolverDesc D → (φ : Type) → ((ℕ → Members) → φ) → (φ → S → Act S φ) → φ → Prop
  | euler (l : ℕ) (st : StepSettings D) : AsProgram X l (.euler st) Unit (fun _ => ()) (fun _ dt => eulerCalls (X.layout l) dt) ()
  | midpoint (l : ℕ) (st : StepSettings D) :
      AsProgram X l (.midpoint st) Unit (fun _ => ()) (fun _ dt => midpointCalls (X.layout l) dt) ()
  | rk4 (l : ℕ) (st : StepSettings D) : AsProgram X l (.rk4 st) Unit (fun _ => ()) (fun _ dt => rk4Calls (X.layout l) dt) ()
  | trapeze (l refine : ℕ) (st : StepSettings D) :
      AsProgram X l (.trapeze refine st) Unit (fun _ => ()) (fun _ dt => trapezeCalls (X.layout l) refine dt) ()
  | stetter (l : ℕ) (st : StepSettings D) :
      AsProgram X l (.midpointSt st) StetterFlags (fun m => (m l).stetter) (fun fl dt => stetterCalls (X.layout l) dt fl)
        ⟨false, false, false⟩
  | rk (l : ℕ) (kind : RKKind) (rs : RKSettings D) (st : StepSettings D) :
      AsProgram X l (.rk kind rs st) Bool (fun m => (m l).allocated)
        (fun allocated dt => do rkCalls (X.layout l) (X.table kind) (rkConf X rs st) dt allocated; pure true) false
  | bs (l maxLevel : ℕ) (threshold : D) (st : StepSettings D) (steps : List ℕ) (hs : initSteps maxLevel true = .ok steps) :
      AsProgram X l (.bs maxLevel threshold st) BSFlags (fun m => ⟨(m l).stetter, (m l).swapped⟩)
        (fun fl dt => do let r ← bsCalls (X.layout l) maxLevel (X.toCoord threshold) steps dt fl; pure r.1)
        ⟨⟨false, false, false⟩, false⟩
  | adams (l rank : ℕ) (correction : Bool) (st : StepSettings D) (al : List S) (hal : adamsRow rank = some al)
      {starter : SolverDesc D} {φ : Type} {rd : (ℕ → Members) → φ} {step : φ → S → Act S φ} {fl₀ : φ}
      (hs : AsProgram X (l + 1) starter φ rd step fl₀) :
      AsProgram X l (.adams starter rank correction st) (ℕ × φ) (fun m => ((m l).step, rd m))
        (fun fl dt => do
          (if correction && fl.1 == 0 then Act.op (.fill (X.layout l .ycorr) 0) else pure () : Act S Unit)
          adamsCalls (X.layout l) al correction (step fl.2 dt) fl.2 dt fl.1)
        (0, fl₀)

omit [Add S] [Sub S] [Mul S] [Neg S] [Div S] [Zero S] [FOps S] in
lemma act_assoc {α β γ : Type} (p : Act S α) (f : α → Act S β) (g : β → Act S γ) :
    (p >>= f) >>= g = p >>= fun a => f a >>= g := by
  induction p with
  | ret a => rfl
  | call c k ih => exact congrArg (Act.call c) ih
  | norm h k ih => exact congrArg (Act.norm h) (funext fun r => ih r)

omit [Add S] [Sub S] [Mul S] [Neg S] [Div S] [Zero S] [FOps S] in
lemma act_pure {α : Type} (p : Act S α) : (p >>= fun a => pure a) = p := by
  induction p with
  | ret a => rfl
  | call c k ih => exact congrArg (Act.call c) ih
  | norm h k ih => exact congrArg (Act.norm h) (funext fun r => ih r)

omit [Add S] [Sub S] [Mul S] [Neg S] [Div S] [Zero S] [FOps S] in
lemma act_unit (p : Act S Unit) : (p >>= fun _ => pure ()) = p := act_pure p

/-- The starter of an Adams solver sees only the members of its own level and the levels below. -/
lemma AsProgram.deeper {X : SimEnv S D ε} {l : ℕ} {s : SolverDesc D} {φ : Type} {rd : (ℕ → Members) → φ}
    {step : φ → S → Act S φ} {fl₀ : φ} (h : AsProgram X l s φ rd step fl₀) :
    ∀ m m' : ℕ → Members, (∀ i, l ≤ i → m i = m' i) → rd m = rd m' := by
  induction h with
  | euler | midpoint | rk4 | trapeze => intros; rfl
  | stetter l | rk l | bs l => intro m m' e; dsimp only; rw [e l le_rfl]
  | adams l rank correction st al hal hs ih =>
    intro m m' e
    dsimp only
    rw [e l le_rfl, ih m m' fun i hi => e i (by omega)]

/-- New flags. -/
lemma AsProgram.fresh {X : SimEnv S D ε} {l : ℕ} {s : SolverDesc D} {φ : Type} {rd : (ℕ → Members) → φ}
    {step : φ → S → Act S φ} {fl₀ : φ} (h : AsProgram X l s φ rd step fl₀) : rd (fun _ => Members.new) = fl₀ := by
  induction h with
  | euler | midpoint | rk4 | trapeze | stetter | rk | bs => rfl
  | adams l rank correction st al hal hs ih => exact congrArg (Prod.mk 0) ih

lemma adams_after {α β : Type} (h : Slot → Handle) (al : List S) (correction : Bool) (starter : Act S α) (keep : α) (dt : S)
    (step : ℕ) (g : α → β) :
    (adamsCalls h al correction starter keep dt step >>= fun r => pure (r.1, g r.2)) =
      adamsCalls h al correction (starter >>= fun a => pure (g a)) (g keep) dt step := by
  unfold adamsCalls
  simp only [act_assoc]
  congr 1
  funext _
  split
  · simp only [act_assoc]; rfl
  · simp only [act_assoc]; rfl

/-- The calls of the solver, and what they leave of the flags. -/
lemma AsProgram.calls {X : SimEnv S D ε} {l : ℕ} {s : SolverDesc D} {φ : Type} {rd : (ℕ → Members) → φ}
    {step : φ → S → Act S φ} {fl₀ : φ} (h : AsProgram X l s φ rd step fl₀) (dt : S) :
    ∀ m, (s.calls X l dt m >>= fun r => pure (rd r.1)) = step (rd m) dt := by
  induction h with
  | euler l st | midpoint l st | rk4 l st | trapeze l refine st =>
    intro m
    simp only [SolverDesc.calls, act_assoc]
    exact act_unit _
  | stetter l st =>
    intro m
    simp only [SolverDesc.calls, act_assoc]
    refine Eq.trans ?_ (act_pure _)
    congr 1
    funext fl
    show Act.ret (upd m l { m l with stetter := fl } l).stetter = Act.ret fl
    rw [upd, if_pos rfl]
  | rk l kind rs st =>
    intro m
    simp only [SolverDesc.calls, act_assoc]
    congr 1
    funext _
    show Act.ret (upd m l { m l with allocated := true } l).allocated = Act.ret true
    rw [upd, if_pos rfl]
  | bs l maxLevel threshold st steps hs =>
    intro m
    simp only [SolverDesc.calls, act_assoc, hs]
    congr 1
    funext r
    let x : Members := { m l with stetter := r.1.internal, swapped := r.1.swapped }
    show Act.ret (⟨(upd m l x l).stetter, (upd m l x l).swapped⟩ : BSFlags) = Act.ret r.1
    rw [upd, if_pos rfl]
  | adams l rank correction st al hal hs ih =>
    rename_i starter φ rd step fl₀
    intro m
    simp only [SolverDesc.calls, hal, act_assoc]
    congr 1
    funext _
    rw [← ih m]
    rw [← adams_after (X.layout l) al correction (starter.calls X (l + 1) dt m) (m, 1) dt (m l).step (fun r => rd r.1)]
    congr 1
    funext r
    show Act.ret ((upd r.2.1 l { m l with step := r.1 } l).step, rd (upd r.2.1 l { m l with step := r.1 })) =
      Act.ret (r.1, rd r.2.1)
    rw [hs.deeper (upd r.2.1 l { m l with step := r.1 }) r.2.1 fun i hi => by rw [upd, if_neg (by omega)], upd, if_pos rfl]

omit [Div S] in
lemma evalMem_after {α β : Type} (d : (ℕ → S) → ε → (ℕ → S) × ε) (nrm : (ℕ → S) → S) (n : ℕ) (p : Act S α) (g : α → β)
    (V : Spec.Buffers S) (m : ε) :
    evalMem d nrm n (p >>= fun a => pure (g a)) V m = (g (evalMem d nrm n p V m).1, (evalMem d nrm n p V m).2) := by
  induction p generalizing V m with
  | ret a => rfl
  | call c k ih => exact ih _ _
  | norm h k ih => exact ih _ _ _

end

end NB
