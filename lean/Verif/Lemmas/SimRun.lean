import Verif.Lemmas.SimPrograms
import Verif.Lemmas.Oracle
import Verif.Props.C81_TreeSolvers

/-
Many steps of the simulation (Model/Sim.lean) are one program on the machine of Spec/Program.lean, with some sequence of
derivatives.
-/

namespace NB

open C81 (stepsProg)

section
variable {S ε : Type} [Add S] [Sub S] [Mul S] [Neg S] [Zero S] [FOps S]

open Classical in
/-- What an engine with a memory does is explained by some derivatives, all of them permitted; those asked for later can be
any. -/
lemma evalMem_tally {α : Type} {d : (ℕ → S) → ε → (ℕ → S) × ε} {nrm : (ℕ → S) → S} {n : ℕ} {A : (ℕ → S) → (ℕ → S) → Prop}
    {J : ε → Prop} (hd : ∀ y m, J m → A y (d y m).1 ∧ J (d y m).2) (p : Act S α) :
    ∀ (V : Spec.Buffers S) (m : ε) (k : ℕ), J m → J (evalMem d nrm n p V m).2.2 ∧
      ∃ k', k ≤ k' ∧ ∀ G : ℕ → (ℕ → S) → ℕ → S, (∀ i y, A y (G i y)) → ∃ F : ℕ → (ℕ → S) → ℕ → S, (∀ i y, A y (F i y)) ∧
        (∀ i, k' ≤ i → F i = G i) ∧
        ∀ F', (∀ i, k ≤ i → i < k' → F' i = F i) →
          Spec.tally F' nrm n p ⟨k, V⟩ = ((evalMem d nrm n p V m).1, ⟨k', (evalMem d nrm n p V m).2.1⟩) := by
  induction p with
  | ret a => exact fun V m k hm => ⟨hm, k, le_rfl, fun G hG => ⟨G, hG, fun _ _ => rfl, fun _ _ => rfl⟩⟩
  | norm h q ih => exact fun V m k hm => ih (nrm (V h)) V m k hm
  | call c q ih =>
    intro V m k hm
    by_cases hc : Spec.cost c = 0
    · have e1 : callMem d n V m c = (Spec.call (fun _ _ => 0) n V c, m) := by
        cases c with
        | fcompute => cases hc
        | _ => rfl
      have e2 : evalMem d nrm n (.call c q) V m = evalMem d nrm n q (Spec.call (fun _ _ => 0) n V c) m := by
        show evalMem d nrm n q (callMem d n V m c).1 (callMem d n V m c).2 = _
        rw [e1]
      rw [e2]
      obtain ⟨h1, k', h2, h3⟩ := ih (Spec.call (fun _ _ => 0) n V c) m k hm
      refine ⟨h1, k', h2, fun G hG => ?_⟩
      obtain ⟨F, a1, a3, a4⟩ := h3 G hG
      refine ⟨F, a1, a3, fun F' hF' => ?_⟩
      rw [← a4 F' hF']
      show Spec.tally F' nrm n q ⟨k + Spec.cost c, Spec.call (F' k) n V c⟩ = _
      rw [hc, Spec.call_noderiv hc]
      rfl
    · cases c with
      | fcompute y f =>
        have e2 : evalMem d nrm n (.call (.fcompute y f) q) V m = evalMem d nrm n q (Spec.put V f (d (V y) m).1) (d (V y) m).2 := rfl
        rw [e2]
        obtain ⟨b1, b2⟩ := hd (V y) m hm
        obtain ⟨h1, k', h2, h3⟩ := ih (Spec.put V f (d (V y) m).1) (d (V y) m).2 (k + 1) b2
        refine ⟨h1, k', by omega, fun G hG => ?_⟩
        obtain ⟨F, a1, a3, a4⟩ := h3 G hG
        refine ⟨fun i Y => if i = k ∧ Y = V y then (d (V y) m).1 else F i Y, fun i Y => ?_, fun i hi => ?_,
          fun F' hF' => ?_⟩
        · dsimp only
          split_ifs with h
          · rw [h.2]; exact b1
          · exact a1 i Y
        · funext Y
          dsimp only
          rw [if_neg (by omega), a3 i hi]
        · have e3 : F' k (V y) = (d (V y) m).1 := by rw [hF' k le_rfl (by omega)]; exact if_pos ⟨rfl, rfl⟩
          rw [← a4 F' fun i hi hi' => by
            rw [hF' i (by omega) hi']
            funext Y
            dsimp only
            rw [if_neg (by omega)]]
          show Spec.tally F' nrm n q ⟨k + 1, Spec.put V f (F' k (V y))⟩ = _
          rw [e3]
      | _ => exact absurd rfl hc

end

section
variable {C D ε : Type}

/-- The steps of a run of the simulation. -/
lemma steps_tally {X : SimEnv ℝ D ε} {n : ℕ} {mass : List ℝ} {e : EngineDesc D} {s : SolverDesc D} {φ : Type}
    {rd : (ℕ → Members) → φ} {step : φ → ℝ → Act ℝ φ} {fl₀ : φ} (hs : AsProgram X 0 s φ rd step fl₀)
    {A : (ℕ → ℝ) → (ℕ → ℝ) → Prop} {J : ε → Prop} {nrm : (ℕ → ℝ) → ℝ}
    (hd : ∀ st y m, J m → A y (fun j => (X.deriv e st mass ((List.range (6 * n)).map y) m).1.getD j 0) ∧
      J (X.deriv e st mass ((List.range (6 * n)).map y) m).2)
    (hnrm : ∀ y, X.nrm ((List.range (6 * n)).map y) = nrm y) {dflt : (ℕ → ℝ) → ℕ → ℝ} (h0 : ∀ y, A y (dflt y)) (dt : ℝ)
    (N : ℕ) : ∀ (z : SimSt ℝ C D ε) (k : ℕ), z.engine = e → z.solver = s → z.data.count = n → z.data.mass = mass → J z.memory →
    ∃ F : ℕ → (ℕ → ℝ) → ℕ → ℝ, (∀ i y, A y (F i y)) ∧ ∃ k',
      Spec.tally F nrm n (stepsProg step (List.replicate N dt) (rd z.members)) ⟨k, z.bufs⟩ =
        (rd ((X.advise dt)^[N] z).members, ⟨k', ((X.advise dt)^[N] z).bufs⟩) := by
  induction N with
  | zero => exact fun z k _ _ _ _ _ => ⟨fun _ => dflt, fun _ => h0, k, rfl⟩
  | succ N ih =>
    intro z k he hsol hn hm hJ
    have hz := congrArg (fun s => AsProgram X 0 s φ rd step fl₀) hsol
    have hs' : AsProgram X 0 z.solver φ rd step fl₀ := hz ▸ hs
    have hcalls := hs'.calls dt z.members
    have heq : (rd (X.advise dt z).members, (X.advise dt z).bufs, (X.advise dt z).memory) =
        evalMem (X.fcompute z) (X.fmaxabs z) z.data.count (step (rd z.members) dt) z.bufs z.memory := by
      rw [← hcalls, evalMem_after]
      rfl
    have hnrm' : X.fmaxabs z = nrm := by
      funext y
      show X.nrm ((List.range (6 * z.data.count)).map y) = _
      rw [hn, hnrm]
    have hd' : ∀ y m, J m → A y (X.fcompute z y m).1 ∧ J (X.fcompute z y m).2 := by
      intro y m hJm
      unfold SimEnv.fcompute
      rw [he, hn, hm]
      exact hd _ _ _ hJm
    obtain ⟨b1, k1, b2, b3⟩ := evalMem_tally (nrm := nrm) (n := n) hd' (step (rd z.members) dt) z.bufs z.memory k hJ
    rw [hnrm', hn] at heq
    obtain ⟨G, hG, k', hG'⟩ := ih (X.advise dt z) k1 he hsol hn hm (by
      have := congrArg (fun x => x.2.2) heq
      dsimp only at this
      rw [this]; exact b1)
    obtain ⟨F, a1, a3, a4⟩ := b3 G hG
    refine ⟨F, a1, k', ?_⟩
    have e2 : Spec.tally F nrm n (stepsProg step (List.replicate (N + 1) dt) (rd z.members)) ⟨k, z.bufs⟩ =
        Spec.tally F nrm n (stepsProg step (List.replicate N dt) (Spec.tally F nrm n (step (rd z.members) dt) ⟨k, z.bufs⟩).1)
          (Spec.tally F nrm n (step (rd z.members) dt) ⟨k, z.bufs⟩).2 := Spec.tally_bind _ _ _
    rw [e2, a4 F fun _ _ _ => rfl, ← heq, Function.iterate_succ_apply, ← hG']
    exact Spec.tally_congr _ _ fun i hi => a3 i hi

end

/-! ### Adams: clearing the correction at step 0 -/

section
variable {φ : Type} {h : Slot → Handle} {al : List ℝ} {correction : Bool} {st : φ → ℝ → Act ℝ φ}

/-- `advise` of Adams-Bashforth with the clearing of the correction when its buffers are made
(/repo/nbody/nbody_solver_adams.cpp:45-54), as in `SolverDesc.calls`. -/
def adamsWhole (h : Slot → Handle) (al : List ℝ) (correction : Bool) (st : φ → ℝ → Act ℝ φ) (fl : ℕ × φ) (dt : ℝ) : Act ℝ (ℕ × φ) := do
  (if correction && fl.1 == 0 then Act.op (.fill (h .ycorr) 0) else pure () : Act ℝ Unit)
  adamsCalls h al correction (st fl.2 dt) fl.2 dt fl.1

lemma adams_next {β : Type} (starter : Act ℝ φ) (keep : φ) (dt : ℝ) (k : ℕ) {f g : ℕ × φ → Act ℝ β}
    (e : ∀ r, f (k + 1, r) = g (k + 1, r)) :
    (adamsCalls h al correction starter keep dt k >>= f) = (adamsCalls h al correction starter keep dt k >>= g) := by
  unfold adamsCalls
  simp only [act_assoc]
  congr 1
  funext _
  congr 1
  funext r
  exact e r

lemma adams_later (dts : List ℝ) : ∀ (k : ℕ) (keep : φ), 0 < k →
    stepsProg (adamsWhole h al correction st) dts (k, keep) =
      stepsProg (fun x dt => adamsCalls h al correction (st x.2 dt) x.2 dt x.1) dts (k, keep) := by
  induction dts with
  | nil => intros; rfl
  | cons dt dts ih =>
    intro k keep hk
    have e : adamsWhole h al correction st (k, keep) dt = adamsCalls h al correction (st keep dt) keep dt k := by
      unfold adamsWhole
      have : (correction && (k == 0)) = false := by
        rw [beq_eq_false_iff_ne.2 (by omega), Bool.and_false]
      simp only [this]
      rfl
    show (adamsWhole h al correction st (k, keep) dt >>= _) = _
    rw [e]
    exact adams_next _ _ _ _ fun r => ih (k + 1) r (by omega)

lemma adams_first (hh : Function.Injective h) (F : ℕ → (ℕ → ℝ) → ℕ → ℝ) (nrm : (ℕ → ℝ) → ℝ) (n : ℕ) (keep : φ) (dts : List ℝ)
    (V : Spec.Buffers ℝ) : ∃ V' : Spec.Buffers ℝ, (correction = true → V' (h .ycorr) = 0) ∧ V' (h .y) = V (h .y) ∧
      (Spec.tally F nrm n (stepsProg (adamsWhole h al correction st) dts (0, keep)) ⟨0, V⟩).2.bufs (h .y) =
      (Spec.tally F nrm n (stepsProg (fun x dt => adamsCalls h al correction (st x.2 dt) x.2 dt x.1) dts (0, keep))
        ⟨0, V'⟩).2.bufs (h .y) := by
  have hne : h .y ≠ h .ycorr := fun e => by cases hh e
  refine ⟨if correction then Spec.put V (h .ycorr) 0 else V, fun hc => ?_, ?_, ?_⟩
  · rw [if_pos hc]; simp [Spec.put]
  · split_ifs
    · simp [Spec.put, hne]
    · rfl
  cases dts with
  | nil =>
    show V (h .y) = (if correction then Spec.put V (h .ycorr) 0 else V) (h .y)
    split_ifs
    · simp [Spec.put, hne]
    · rfl
  | cons dt dts =>
    have e : stepsProg (adamsWhole h al correction st) (dt :: dts) (0, keep) =
        ((if correction && (0 : ℕ) == 0 then Act.op (.fill (h .ycorr) 0) else pure () : Act ℝ Unit) >>= fun _ =>
          stepsProg (fun x dt => adamsCalls h al correction (st x.2 dt) x.2 dt x.1) (dt :: dts) (0, keep)) := by
      show (adamsWhole h al correction st (0, keep) dt >>= _) = _
      unfold adamsWhole
      rw [act_assoc]
      congr 1
      funext _
      exact adams_next _ _ _ _ fun r => adams_later dts 1 r (by omega)
    rw [e]
    cases correction with
    | true => rfl
    | false => rfl

end

end NB
