import Verif.Lemmas.SolverCalls

/-
Programs on engines that compute the derivative differently each time: some sequence of derivatives explains what
happens.
-/

namespace Spec

open NB

section
variable {S : Type} [Add S] [Sub S] [Mul S] [Neg S] [Zero S] [FOps S]

/-- Derivatives computed earlier do not matter. -/
theorem tally_congr {α : Type} {derivs derivs' : Nat → (Nat → S) → Nat → S} {nrm : (Nat → S) → S} {n : Nat}
    (p : Act S α) : ∀ X : Tally S, (∀ i, X.count ≤ i → derivs i = derivs' i) →
    tally derivs nrm n p X = tally derivs' nrm n p X := by
  induction p with
  | ret a => intro X _; rfl
  | call c k ih =>
    intro X h
    simp only [tally]
    rw [h X.count (Nat.le_refl _)]
    exact ih _ fun i hi => h i (Nat.le_trans (Nat.le_add_right _ _) hi)
  | norm a k ih => intro X h; exact ih _ X h

theorem call_noderiv {derivs : (Nat → S) → Nat → S} {n : Nat} {V : Buffers S} {c : Call S} (h : cost c = 0) :
    Spec.call derivs n V c = Spec.call (fun _ _ => 0) n V c := by
  cases c with
  | fcompute => cases h
  | fmaddn a b => cases b <;> rfl
  | _ => rfl

open Classical in
/-- A program on such an engine: it runs to the end, and there are derivatives `derivs k`, all of them permitted, with
which the machine gets the same. -/
theorem run_tally {α σ : Type} {E : EngineOps S σ} {n : Nat} {H : Nat → Prop} {A : (Nat → S) → (Nat → S) → Prop}
    {nrm : (Nat → S) → S} {Rep : Buffers S → σ → Prop} (hE : Approximates E n H A nrm Rep)
    {dflt : (Nat → S) → Nat → S} (hd : ∀ y, A y (dflt y)) {p : Act S α} (hp : Allowed H p) :
    ∀ (k : Nat) {V : Buffers S} {s : σ}, Rep V s →
    ∃ derivs s', (∀ i y, A y (derivs i y)) ∧ p.run E s = .ok ((tally derivs nrm n p ⟨k, V⟩).1, s') ∧
      Rep (tally derivs nrm n p ⟨k, V⟩).2.bufs s' := by
  induction p with
  | ret a => intro k V s hr; exact ⟨fun _ => dflt, s, fun _ => hd, rfl, hr⟩
  | call c q ih =>
    intro k V s hr
    by_cases hc : cost c = 0
    · obtain ⟨s1, h1, h2⟩ := hE.call c V s hc hp.1.1 hp.1.2 hr
      obtain ⟨derivs, s2, h3, h4, h5⟩ := ih hp.2 k h2
      have e : tally derivs nrm n (.call c q) ⟨k, V⟩ = tally derivs nrm n q ⟨k, Spec.call (fun _ _ => 0) n V c⟩ := by
        show tally derivs nrm n q ⟨k + cost c, Spec.call (derivs k) n V c⟩ = _
        rw [hc, call_noderiv hc]
        rfl
      refine ⟨derivs, s2, h3, ?_, by rw [e]; exact h5⟩
      rw [Act.run, h1, e]
      exact h4
    · cases c with
      | fcompute y f =>
        obtain ⟨F, s1, h0, h1, h2⟩ := hE.compute y f V s hp.1.1 (hp.1.2 y (by simp [mentions]))
          (hp.1.2 f (by simp [mentions])) hr
        obtain ⟨derivs, s2, h3, h4, h5⟩ := ih hp.2 (k + 1) h2
        set derivs' : Nat → (Nat → S) → Nat → S := fun i Y =>
          if i = k then (if Y = V y then F else dflt Y) else derivs i Y with hd'
        have e : tally derivs' nrm n (.call (.fcompute y f) q) ⟨k, V⟩ = tally derivs nrm n q ⟨k + 1, put V f F⟩ := by
          show tally derivs' nrm n q ⟨k + 1, put V f (derivs' k (V y))⟩ = _
          have : derivs' k (V y) = F := by simp [hd']
          rw [this]
          refine tally_congr q _ fun i hi => ?_
          funext Y
          have hik : ¬ i = k := by
            intro h
            subst h
            exact absurd hi (Nat.not_succ_le_self i)
          simp only [hd', if_neg hik]
        refine ⟨derivs', s2, fun i Y => ?_, ?_, by rw [e]; exact h5⟩
        · simp only [hd']
          split
          · split
            · rename_i h; rw [h]; exact h0
            · exact hd Y
          · exact h3 i Y
        · rw [Act.run, h1, e]
          exact h4
      | _ => exact absurd rfl hc
  | norm h q ih =>
    intro k V s hr
    obtain ⟨s1, h1, h2⟩ := hE.norm h V s hp.1 hr
    obtain ⟨derivs, s2, h3, h4, h5⟩ := ih (nrm (V h)) (hp.2 _) k h2
    exact ⟨derivs, s2, h3, by rw [Act.run, h1]; exact h4, h5⟩

omit [Add S] [Sub S] [Mul S] [Neg S] [FOps S] in
theorem run_bind {α β σ : Type} (E : EngineOps S σ) (p : Act S α) (f : α → Act S β) : ∀ s : σ,
    (p >>= f).run E s = (p.run E s >>= fun x => (f x.1).run E x.2) := by
  induction p with
  | ret a => intro s; rfl
  | call c q ih =>
    intro s
    show (E.call c s >>= fun s => (q >>= f).run E s) = ((E.call c s >>= fun s => q.run E s) >>= _)
    cases E.call c s with
    | error e => rfl
    | ok s1 => exact ih s1
  | norm h q ih =>
    intro s
    show (E.maxabs h s >>= fun r => (q (r.1.getD 0) >>= f).run E r.2) =
      ((E.maxabs h s >>= fun r => (q (r.1.getD 0)).run E r.2) >>= _)
    cases E.maxabs h s with
    | error e => rfl
    | ok r => exact ih _ r.2

end

end Spec
