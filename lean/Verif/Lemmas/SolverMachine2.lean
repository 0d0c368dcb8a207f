import Verif.Lemmas.SolverMachine

/-
Continuation of Lemmas/SolverMachine.lean: whole steps, and the buffers the programs use.
-/

namespace Spec

open NB

variable {h : Slot → Handle} {deriv : (ℕ → ℝ) → ℕ → ℝ} {derivs : ℕ → (ℕ → ℝ) → ℕ → ℝ} {nrm : (ℕ → ℝ) → ℝ} {n : ℕ}

/-- The buffers before a step: before the first one the corrections have not been set. -/
structure RkBefore (h : Slot → Handle) (cf : RKConf ℝ) (r : RKState (ℕ → ℝ)) (V : Buffers ℝ) : Prop where
  k : ∀ i, V (h (.k i)) = r.k i
  t : V (h .t) = r.tbuf
  corr : r.allocated = true ∨ cf.correction = false → V (h .ycorr) = r.ycorr ∧ V (h .tcorr) = r.tcorr
  zero : r.allocated = false → cf.correction = true → r.ycorr = 0 ∧ r.tcorr = 0

theorem RkRel.before {r : RKState (ℕ → ℝ)} {V : Buffers ℝ} (hr : RkRel h r V) (ha : r.allocated = true)
    (cf : RKConf ℝ) : RkBefore h cf r V :=
  ⟨hr.k, hr.t, fun _ => ⟨hr.ycorr, hr.tcorr⟩, fun e => by rw [ha] at e; cases e⟩

theorem rk_eval (hh : Function.Injective h) (bt : BT ℝ) (cf : RKConf ℝ) (dt : ℝ) (r : RKState (ℕ → ℝ))
    (e : Eng (ℕ → ℝ) ℝ) (X : Tally ℝ) (hr : RkBefore h cf r X.bufs) (he : At h X e) :
    RkRel h (rkAdvise (still derivs) nrm bt cf dt r e).1
      (tally derivs nrm n (rkCalls h bt cf dt r.allocated) X).2.bufs ∧
    At h (tally derivs nrm n (rkCalls h bt cf dt r.allocated) X).2 (rkAdvise (still derivs) nrm bt cf dt r e).2 ∧
    (rkAdvise (still derivs) nrm bt cf dt r e).1.allocated = true := by
  unfold rkCalls rkAdvise
  rw [tally_bind]
  obtain ⟨W, hW, h1, h2⟩ : ∃ W, (tally derivs nrm n (if !r.allocated && cf.correction then do
      Act.op (.fill (h .ycorr) 0)
      Act.op (.fill (h .tcorr) 0)
    else pure () : Act ℝ Unit) X).2 = W ∧ RkRel h r W.bufs ∧ At h W e := by
    refine ⟨_, rfl, ?_⟩
    by_cases hc : (!r.allocated && cf.correction) = true
    · rw [if_pos hc]
      simp only [Bool.and_eq_true, Bool.not_eq_true'] at hc
      obtain ⟨z1, z2⟩ := hr.zero hc.1 hc.2
      have hz : (fun _ => 0 : ℕ → ℝ) = 0 := rfl
      simp only [tally_bind, tally_op]
      refine ⟨⟨fun j => ?_, ?_, ?_, ?_⟩, ?_, he.count⟩ <;>
        simp [Spec.call, put_slot hh, hr.k, hr.t, z1, z2, he.y, hz]
    · rw [if_neg hc]
      have : r.allocated = true ∨ cf.correction = false := by
        cases ha : r.allocated <;> cases hb : cf.correction <;> simp_all
      obtain ⟨z1, z2⟩ := hr.corr this
      exact ⟨⟨hr.k, hr.t, z1, z2⟩, he⟩
  rw [hW]
  obtain ⟨⟨a, b, c⟩, d⟩ := loop_eval (derivs := derivs) (nrm := nrm) (n := n) hh bt cf cf.maxRecursion (!r.allocated) 1
    dt .y ⟨r, e.cc, e.time, e.y⟩ W trivial ⟨h1, h2.y, h2.count⟩ rfl
  exact ⟨a, ⟨b, c⟩, d⟩

theorem trapeze_eval (hh : Function.Injective h) (refine : ℕ) (dt : ℝ) (X : Tally ℝ) (e : Eng (ℕ → ℝ) ℝ)
    (he : At h X e) :
    At h (tally derivs nrm n (trapezeCalls h refine dt) X).2 (trapezeAdvise (still derivs) refine dt e) := by
  have hl : [dt / FOps.lit 2, dt / FOps.lit 2] = buf 2 (fun _ => dt / 2) := by
    simp [buf, List.range_succ]
  obtain ⟨c, V⟩ := X
  obtain ⟨hy, hc⟩ := he
  dsimp only at hy hc
  subst hc
  unfold trapezeCalls trapezeAdvise
  rw [hl]
  simp only [tally_bind, tally_op, tally_forN, Eng.fc, Eng.adviseTime]
  have key := foldN_rel (N := refine + 1)
    (fun (p : (ℕ → ℝ) × Eng (ℕ → ℝ) ℝ) (q : Unit × Tally ℝ) => q.2.bufs (h .t) = p.1 ∧ At h q.2 p.2 ∧
      q.2.bufs (h (.k 0)) = derivs e.cc e.y)
    (s := (vfmadd e.y (derivs e.cc e.y) dt, { e with cc := e.cc + 1 }))
    (u := ((), ⟨e.cc + cost (S := ℝ) (.fcompute (h .y) (h (.k 0))) + cost (.fmadd (h .t) (h .y) (h (.k 0)) dt),
      Spec.call (derivs (e.cc + cost (S := ℝ) (.fcompute (h .y) (h (.k 0))))) n
        (Spec.call (derivs e.cc) n V (.fcompute (h .y) (h (.k 0)))) (.fmadd (h .t) (h .y) (h (.k 0)) dt)⟩))
    (f := trapezeIter (still derivs) refine e.time dt (derivs e.cc e.y))
    (g := fun i p => tally derivs nrm n (do
      Act.op (.fcompute (h .t) (h (.k 1)))
      (if i = refine then Act.op (.fmaddnInplace (h .y) (kbufs h 2) (buf 2 fun _ => dt / 2) 2)
      else Act.op (.fmaddn (h .t) (some (h .y)) (kbufs h 2) (buf 2 fun _ => dt / 2) 2) : Act ℝ Unit)) p.2)
    (by
      refine ⟨?_, ⟨?_, rfl⟩, ?_⟩ <;> simp [Spec.call, put_slot hh, hy, vfmadd_fun])
    (by
      rintro i ⟨p, e'⟩ ⟨_, c', W⟩ hi ⟨h1, ⟨h2, h4⟩, h3⟩
      dsimp only at h1 h2 h3 h4
      subst h4
      have hk : ∀ x : ℕ → ℝ, x = derivs e'.cc p → ∀ j, j < 2 → put W (h (.k 1)) x (h (.k j)) =
          (fun i => if i = 0 then derivs e.cc e.y else derivs e'.cc p) j := by
        intro x hx j hj
        have : j = 0 ∨ j = 1 := by omega
        rcases this with rfl | rfl <;> simp [put_slot hh, h3, hx]
      have hcall : Spec.call (derivs e'.cc) n W (.fcompute (h .t) (h (.k 1))) =
        put W (h (.k 1)) (derivs e'.cc (W (h .t))) := rfl
      unfold trapezeIter
      simp only [tally_bind, tally_op, Eng.fc, hcall]
      split_ifs with hi'
      · simp only [tally_op]
        rw [inplace_call hh (le_refl _) _ .y (by simp)]
        refine ⟨by simp [put_slot hh, h1], ⟨?_, rfl⟩, by simp [put_slot hh, h3]⟩
        dsimp only
        rw [put_same]
        exact vfmaddnInplace_congr (by simp [put_slot hh, h2]) (hk _ (by rw [h1])) fun _ _ => rfl
      · simp only [tally_op]
        rw [sum_call hh (le_refl _) _ .t .y (by simp) (by simp)]
        refine ⟨?_, ⟨by simp [put_slot hh, h2], rfl⟩, by simp [put_slot hh, h3]⟩
        rw [put_same]
        have e1 : put W (h (.k 1)) (derivs e'.cc (W (h .t))) (h .t) = p := by simp [put_slot hh, h1]
        have e2 : put W (h (.k 1)) (derivs e'.cc (W (h .t))) (h .y) = e'.y := by simp [put_slot hh, h2]
        rw [e1, e2]
        have hk' := hk (derivs e'.cc (W (h .t))) (by rw [h1])
        simp only [vfmaddn, vfmaddnLoop, foldN, hk' 0 (by omega), hk' 1 (by omega)])
  simp only [tally_bind, tally_op] at key
  exact ⟨key.2.1.y, key.2.1.count⟩

/-- The buffers of the solver of Stetter. -/
structure StetterRel (h : Slot → Handle) (fl : StetterFlags) (s : Stetter (ℕ → ℝ)) (V : Buffers ℝ) : Prop where
  allocated : fl.allocated = s.allocated
  initiated : fl.initiated = s.initiated
  u : V (h (.stack 0)) = s.u
  v : V (h (.stack 1)) = s.v
  fu0 : V (stetterFu h fl 0) = s.fu0
  fu1 : V (stetterFu h fl 1) = s.fu1

theorem two_inplace {a b0 b1 : ℕ} (h0 : b0 ≠ a) (h1 : b1 ≠ a) (V : Buffers ℝ) (c : ℝ) :
    Spec.call deriv n V (.fmaddnInplace a [b0, b1] [c, c] 2) =
      put V a (vfmaddnInplace 2 (V a) (fun i => if i = 0 then V b0 else V b1) fun _ => c) := by
  have := addTerms_eq (a := a) (b := fun i => if i = 0 then b0 else b1) (c := fun _ => c)
    (fun j => by split_ifs <;> assumption) V 2
  refine Eq.trans this ?_
  refine congrArg _ ?_
  exact vfmaddnInplace_congr rfl (fun j _ => by split_ifs <;> rfl) fun _ _ => rfl

theorem two_zero {a b0 b1 : ℕ} (h0 : b0 ≠ a) (h1 : b1 ≠ a) (V : Buffers ℝ) (c : ℝ) :
    Spec.call deriv n V (.fmaddn a none [b0, b1] [c, c] 2) =
      put V a (vfmaddn 2 (V a) none (fun i => if i = 0 then V b0 else V b1) fun _ => c) := by
  have := addTerms_eq (a := a) (b := fun i => if i = 0 then b0 else b1) (c := fun _ => c)
    (fun j => by split_ifs <;> assumption) (put V a fun _ => 0) 2
  refine Eq.trans this ?_
  rw [put_put, put_same]
  congr 1
  rw [← vfmaddnInplace_zero]
  refine vfmaddnInplace_congr rfl (fun j _ => ?_) fun _ _ => rfl
  split_ifs
  · exact put_ne _ _ h0
  · exact put_ne _ _ h1

theorem stetter_eval (hh : Function.Injective h) (dt : ℝ) (fl : StetterFlags) (s : Stetter (ℕ → ℝ))
    (X : Tally ℝ) (e : Eng (ℕ → ℝ) ℝ) (hr : StetterRel h fl s X.bufs) (he : At h X e) :
    StetterRel h (tally derivs nrm n (stetterCalls h dt fl) X).1 (stetterAdvise (still derivs) dt s e).1
      (tally derivs nrm n (stetterCalls h dt fl) X).2.bufs ∧
    At h (tally derivs nrm n (stetterCalls h dt fl) X).2 (stetterAdvise (still derivs) dt s e).2 := by
  obtain ⟨r0, r1, r2, r3, r4, r5⟩ := hr
  obtain ⟨c, V⟩ := X
  obtain ⟨hy, hcc⟩ := he
  dsimp only at hy hcc r2 r3 r4 r5
  subst hcc
  obtain ⟨fa, fi, fs⟩ := fl
  have hl1 : (FOps.lit 1 : ℝ) / FOps.lit 2 = 1 / 2 := by simp
  -- the buffers of m_fu
  obtain ⟨a, b, hab, hfa, hfb⟩ : ∃ a b : ℕ, a ≠ b ∧ stetterFu h ⟨fa, fi, fs⟩ 0 = h (.k a) ∧
      stetterFu h ⟨fa, fi, fs⟩ 1 = h (.k b) := by
    cases fs
    · exact ⟨0, 1, by decide, rfl, rfl⟩
    · exact ⟨1, 0, by decide, rfl, rfl⟩
  have hn0 : stetterFu h ⟨true, true, !fs⟩ 0 = h (.k b) := by
    rw [← hfb]; cases fs <;> rfl
  have hn1 : stetterFu h ⟨true, true, !fs⟩ 1 = h (.k a) := by
    rw [← hfa]; cases fs <;> rfl
  unfold stetterCalls
  rw [hfa] at r4 ⊢
  rw [hfb] at r5 ⊢
  dsimp only at r0 r1
  subst r0 r1
  obtain ⟨W, hW, w1, w2, w3, w4, w5⟩ : ∃ W, (tally derivs nrm n (if !s.allocated || !s.initiated then do
      Act.op (.copy (h (.stack 0)) (h .y))
      Act.op (.copy (h (.stack 1)) (h .y))
      Act.op (.fcompute (h (.stack 0)) (h (.k a)))
    else pure () : Act ℝ Unit) ⟨e.cc, V⟩).2 = W ∧
      W.bufs (h (.stack 0)) = (if !s.allocated || !s.initiated then e.y else s.u) ∧
      W.bufs (h (.stack 1)) = (if !s.allocated || !s.initiated then e.y else s.v) ∧
      W.bufs (h (.k a)) = (if !s.allocated || !s.initiated then derivs e.cc e.y else s.fu0) ∧ W.bufs (h .y) = e.y ∧
      W.count = (if !s.allocated || !s.initiated then e.cc + 1 else e.cc) := by
    refine ⟨_, rfl, ?_⟩
    by_cases hc : (!s.allocated || !s.initiated) = true
    · simp only [hc, if_true, tally_bind, tally_op]
      simp [Spec.call, cost, put_slot hh, hy]
    · simp only [hc]
      exact ⟨r2, r3, r4, hy, rfl⟩
  rw [tally_bind, hW]
  simp only [tally_bind, tally_op, tally_pure, hl1]
  rw [two_zero (fun e => by simpa using hh e) (fun e => by simpa using hh e),
    two_inplace (fun e => by simpa using hh e) (fun e => by simpa using hh e)]
  unfold stetterAdvise
  by_cases hc : (!s.allocated || !s.initiated) = true
  · simp only [hc, if_true] at w1 w2 w3 w5
    simp only [hc, if_true, Eng.fc]
    refine ⟨⟨rfl, rfl, ?_, ?_, ?_, ?_⟩, ?_, by simp [cost, w5, Eng.fc, Eng.adviseTime]⟩
    · simp [Spec.call, cost, w5, put_slot hh, w1, w2, w3, vfmadd_fun]
    · simp [Spec.call, cost, w5, put_slot hh, w1, w2, w3, vfmadd_fun, hab]
    · rw [hn0]
      simp [Spec.call, cost, w5, put_slot hh, w1, w2, w3, vfmadd_fun, hab]
    · rw [hn1]
      simp [Spec.call, cost, w5, put_slot hh, w1, w2, w3, vfmadd_fun, hab]
    · simp [Spec.call, cost, w5, put_slot hh, w1, w2, w3, w4, vfmadd_fun, hab, Eng.adviseTime]
  · have hi : s.initiated = true := by
      cases e : s.initiated
      · simp [e] at hc
      · rfl
    simp only [hc] at w1 w2 w3 w5
    simp only [hc]
    refine ⟨⟨rfl, hi.symm, ?_, ?_, ?_, ?_⟩, ?_, by simp [cost, w5, Eng.fc, Eng.adviseTime]⟩
    · simp [Spec.call, cost, w5, put_slot hh, w1, w2, w3, vfmadd_fun, Eng.fc]
    · simp [Spec.call, cost, w5, put_slot hh, w1, w2, w3, vfmadd_fun, hab, Eng.fc]
    · rw [hn0]
      simp [Spec.call, cost, w5, put_slot hh, w1, w2, w3, vfmadd_fun, hab, Eng.fc]
    · rw [hn1]
      simp [Spec.call, cost, w5, put_slot hh, w1, w2, w3, vfmadd_fun, hab]
    · simp [Spec.call, cost, w5, put_slot hh, w1, w2, w3, w4, vfmadd_fun, hab, Eng.adviseTime, Eng.fc]

/-! ### Adams -/

/-- The buffers of the solver of Adams; `R` relates the buffers of its starter. -/
structure AdamsRel {σ : Type} (h : Slot → Handle) (correction : Bool) (R : σ → Buffers ℝ → Prop)
    (s : Adams (ℕ → ℝ) σ) (V : Buffers ℝ) : Prop where
  f : ∀ i, V (h (.k i)) = s.f i
  corr : correction = true → V (h .ycorr) = s.corr
  starter : R s.starter V

/-- A starter with members `keep` that works on buffers `Hs` of its own and on the state of the engine. -/
structure StarterOk {α σ : Type} (derivs : ℕ → (ℕ → ℝ) → ℕ → ℝ) (nrm : (ℕ → ℝ) → ℝ) (n : ℕ) (h : Slot → Handle)
    (Hs : ℕ → Prop) (R : α → σ → Buffers ℝ → Prop) (st : Act ℝ α) (keep : α) (x : σ)
    (adv : σ × Eng (ℕ → ℝ) ℝ → Res (σ × Eng (ℕ → ℝ) ℝ)) : Prop where
  own : Allowed Hs st
  others : ∀ s, s ≠ .y → ¬ Hs (h s)
  keeps : ∀ V W x, (∀ a, Hs a → a ≠ h .y → V a = W a) → R keep x V → R keep x W
  step : ∀ X e, R keep x X.bufs → At h X e → ∃ q, adv (x, e) = .ok q ∧
    R (tally derivs nrm n st X).1 q.1 (tally derivs nrm n st X).2.bufs ∧
    At h (tally derivs nrm n st X).2 q.2

theorem adams_eval {α σ : Type} (hh : Function.Injective h) {rank : ℕ} {al : List ℝ}
    (hal : adamsTable (K := ℝ) rank = some al) (correction : Bool) {Hs : ℕ → Prop} {R : α → σ → Buffers ℝ → Prop}
    {st : Act ℝ α} {keep : α} {starter : ℝ → σ × Eng (ℕ → ℝ) ℝ → Res (σ × Eng (ℕ → ℝ) ℝ)} (dt : ℝ)
    (s : Adams (ℕ → ℝ) σ) (X : Tally ℝ) (e : Eng (ℕ → ℝ) ℝ)
    (hs : StarterOk derivs nrm n h Hs R st keep s.starter (starter dt))
    (hr : AdamsRel h correction (R keep) s X.bufs) (he : At h X e) :
    ∃ s' e', adamsAdvise (still derivs) starter rank correction dt s e = .ok (s', e') ∧
      (tally derivs nrm n (adamsCalls h al correction st keep dt s.mstep) X).1.1 = s'.mstep ∧
      AdamsRel h correction (R (tally derivs nrm n (adamsCalls h al correction st keep dt s.mstep) X).1.2) s'
        (tally derivs nrm n (adamsCalls h al correction st keep dt s.mstep) X).2.bufs ∧
      At h (tally derivs nrm n (adamsCalls h al correction st keep dt s.mstep) X).2 e' := by
  obtain ⟨c, V⟩ := X
  obtain ⟨hy, hcc⟩ := he
  dsimp only at hy hcc hr
  subst hcc
  have hlen : al.length = rank ∧ rank ≠ 0 ∧ ¬ 5 < rank := by
    unfold adamsTable at hal
    split_ifs at hal <;> simp only [Option.some.injEq] at hal <;> subst hal <;> subst_vars <;> decide
  obtain ⟨hl, h0, h5⟩ := hlen
  unfold adamsAdvise adamsCalls
  rw [if_neg h0, if_neg h5, hal, hl]
  simp only [tally_bind, tally_op, tally_pure, Eng.fc]
  -- the buffers after the derivative
  have w0 : ∀ i, Spec.call (derivs e.cc) n V (.fcompute (h .y) (h (.k (s.mstep % rank)))) (h (.k i)) =
      upd s.f (s.mstep % rank) (derivs e.cc e.y) i := by
    intro i
    simp [Spec.call, put_slot hh, upd, hr.f, hy]
  have w1 : Spec.call (derivs e.cc) n V (.fcompute (h .y) (h (.k (s.mstep % rank)))) (h .y) = e.y := by
    simp [Spec.call, put_slot hh, hy]
  have w2 : correction = true →
      Spec.call (derivs e.cc) n V (.fcompute (h .y) (h (.k (s.mstep % rank)))) (h .ycorr) = s.corr := by
    intro hc
    simp [Spec.call, put_slot hh, hr.corr hc]
  have w3 : R keep s.starter (Spec.call (derivs e.cc) n V (.fcompute (h .y) (h (.k (s.mstep % rank))))) := by
    refine hs.keeps V _ _ ?_ hr.starter
    intro a ha _
    refine (put_ne _ _ ?_).symm
    rintro rfl
    exact hs.others _ (by simp) ha
  have w4 : e.cc + cost (S := ℝ) (.fcompute (h .y) (h (.k (s.mstep % rank)))) = e.cc + 1 := rfl
  rw [w4]
  generalize Spec.call (derivs e.cc) n V (.fcompute (h .y) (h (.k (s.mstep % rank)))) = W at w0 w1 w2 w3
  have hk : (fun j => W (h (.k j))) = upd s.f (s.mstep % rank) (derivs e.cc e.y) := funext w0
  by_cases hst : rank < s.mstep
  · simp only [hst, if_true]
    have hco : (foldN rank (fun _ => (0 : ℝ)) fun n coeff =>
        upd coeff ((rank + s.mstep % rank - n) % rank) (al.getD n 0 * dt)) =
        adamsCoeff rank (s.mstep % rank) (fun n => al.getD n 0) dt := rfl
    cases correction
    · simp only [Bool.false_eq_true, if_false, tally_bind, tally_op, tally_pure]
      rw [inplace_call hh (le_refl _) _ .y (by simp), hk, w1, hco]
      refine ⟨_, _, rfl, rfl, ⟨?_, fun hc => absurd hc (by simp), ?_⟩, ?_⟩
      · intro i
        simp [put_slot hh, w0]
      · refine hs.keeps W _ _ ?_ w3
        intro a _ ha
        exact (put_ne _ _ ha).symm
      · exact ⟨by dsimp only; rw [put_same]; rfl, rfl⟩
    · simp only [if_true, tally_bind, tally_op, tally_pure]
      rw [corr_call hh (le_refl _) _ .y .ycorr (by simp) (by simp) (by simp), hk, w1, w2 rfl, hco]
      refine ⟨_, _, rfl, rfl, ⟨?_, fun _ => ?_, ?_⟩, ?_⟩
      · intro i
        simp [put_slot hh, w0]
      · simp [put_slot hh]
      · refine hs.keeps W _ _ ?_ w3
        intro a hHa ha
        rw [put_ne _ _ ha, put_ne]
        rintro rfl
        exact hs.others .ycorr (by simp) hHa
      · exact ⟨by dsimp only; rw [put_same]; rfl, rfl⟩
  · simp only [hst, if_false]
    obtain ⟨q, q1, q2, q3⟩ := hs.step ⟨e.cc + 1, W⟩ { e with cc := e.cc + 1 } w3 ⟨w1, rfl⟩
    rw [q1]
    refine ⟨_, _, rfl, rfl, ⟨?_, fun hc => ?_, q2⟩, q3⟩
    · intro i
      rw [tally_other hs.own (hs.others (.k i) (by simp))]
      exact w0 i
    · rw [tally_other hs.own (hs.others .ycorr (by simp))]
      exact w2 hc

/-! ### The buffers the programs use -/

set_option linter.unusedSectionVars false

section
variable {S : Type} [Add S] [Sub S] [Mul S] [Div S] [Zero S] [FOps S] {H : ℕ → Prop}

/-- Injectivity as needed for proper calls. -/
theorem slot_ne (hh : Function.Injective h) {s u : Slot} (e : s ≠ u) : h s ≠ h u := fun e' => e (hh e')

theorem kbufs_mem {N : ℕ} {x : ℕ} (hx : x ∈ kbufs h N) : ∃ i, i < N ∧ x = h (.k i) := by
  obtain ⟨i, hi, rfl⟩ := List.mem_map.1 hx
  exact ⟨i, List.mem_range.1 hi, rfl⟩

theorem kbufs_length (N : ℕ) : (kbufs h N).length = N := by simp [kbufs]

theorem buf_len (N : ℕ) (c : ℕ → S) : (buf N c).length = N := by simp [buf]

/-- Buffers of the Euler solver, of the midpoint solver, of RK4 and of the trapezoidal solver: the state, `N`
derivatives and, if `t` is set, one buffer more. -/
def basicSlots (N : ℕ) (t : Bool) : Slot → Prop
  | .y => True
  | .k i => i < N
  | .t => t = true
  | _ => False

theorem euler_allowed (hh : Function.Injective h) (hH : ∀ s, basicSlots 1 false s → H (h s)) (dt : S) :
    Allowed H (eulerCalls h dt) := by
  have hy := hH .y trivial
  have hk := hH (.k 0) (by simp [basicSlots])
  exact Allowed.bind (Allowed.op (slot_ne hh (by simp)) (by simp [mentions, hy, hk])) fun _ =>
    Allowed.op trivial (by simp [mentions, hy, hk])

theorem midpoint_allowed (hh : Function.Injective h) (hH : ∀ s, basicSlots 2 true s → H (h s)) (dt : S) :
    Allowed H (midpointCalls h dt) := by
  have hy := hH .y trivial
  have ht := hH .t rfl
  have hk : ∀ i, i < 2 → H (h (.k i)) := fun i hi => hH (.k i) hi
  refine Allowed.bind (Allowed.op (slot_ne hh (by simp)) (by simp [mentions, hy, hk])) fun _ => ?_
  refine Allowed.bind (Allowed.op trivial (by simp [mentions, hy, ht, hk])) fun _ => ?_
  refine Allowed.bind (Allowed.op (slot_ne hh (by simp)) (by simp [mentions, ht, hk])) fun _ => ?_
  exact Allowed.op trivial (by simp [mentions, hy, hk])

theorem mem_inplace {a N : ℕ} {c : List S} {k : ℕ} (ha : H a) (hk : ∀ i, i < N → H (h (.k i))) :
    ∀ x ∈ mentions (.fmaddnInplace a (kbufs h N) c k), H x := by
  intro x hx
  simp only [mentions, List.mem_cons] at hx
  rcases hx with rfl | hx
  · exact ha
  · obtain ⟨i, hi, rfl⟩ := kbufs_mem hx
    exact hk i hi

theorem mem_sum {a b N : ℕ} {c : List S} {k : ℕ} (ha : H a) (hb : H b) (hk : ∀ i, i < N → H (h (.k i))) :
    ∀ x ∈ mentions (.fmaddn a (some b) (kbufs h N) c k), H x := by
  intro x hx
  simp only [mentions, List.mem_cons] at hx
  rcases hx with rfl | rfl | hx
  · exact ha
  · exact hb
  · obtain ⟨i, hi, rfl⟩ := kbufs_mem hx
    exact hk i hi

theorem mem_zero {a N : ℕ} {c : List S} {k : ℕ} (ha : H a) (hk : ∀ i, i < N → H (h (.k i))) :
    ∀ x ∈ mentions (.fmaddn a none (kbufs h N) c k), H x := by
  intro x hx
  simp only [mentions, List.mem_cons] at hx
  rcases hx with rfl | hx
  · exact ha
  · obtain ⟨i, hi, rfl⟩ := kbufs_mem hx
    exact hk i hi

theorem mem_corr {a b N : ℕ} {c : List S} {k : ℕ} (ha : H a) (hb : H b) (hk : ∀ i, i < N → H (h (.k i))) :
    ∀ x ∈ mentions (.fmaddnCorr a b (kbufs h N) c k), H x := by
  intro x hx
  simp only [mentions, List.mem_cons] at hx
  rcases hx with rfl | rfl | hx
  · exact ha
  · exact hb
  · obtain ⟨i, hi, rfl⟩ := kbufs_mem hx
    exact hk i hi

theorem rk4_allowed (hh : Function.Injective h) (hH : ∀ s, basicSlots 4 true s → H (h s)) (dt : S) :
    Allowed H (rk4Calls h dt) := by
  have hy := hH .y trivial
  have ht := hH .t rfl
  have hk : ∀ i, i < 4 → H (h (.k i)) := fun i hi => hH (.k i) hi
  refine Allowed.bind (Allowed.op (slot_ne hh (by simp)) (by simp [mentions, hy, hk])) fun _ => ?_
  refine Allowed.bind (Allowed.op trivial (by simp [mentions, hy, ht, hk])) fun _ => ?_
  refine Allowed.bind (Allowed.op (slot_ne hh (by simp)) (by simp [mentions, ht, hk])) fun _ => ?_
  refine Allowed.bind (Allowed.op trivial (by simp [mentions, hy, ht, hk])) fun _ => ?_
  refine Allowed.bind (Allowed.op (slot_ne hh (by simp)) (by simp [mentions, ht, hk])) fun _ => ?_
  refine Allowed.bind (Allowed.op trivial (by simp [mentions, hy, ht, hk])) fun _ => ?_
  refine Allowed.bind (Allowed.op (slot_ne hh (by simp)) (by simp [mentions, ht, hk])) fun _ => ?_
  exact Allowed.op ⟨by rw [kbufs_length], by simp⟩ (mem_inplace hy hk)

theorem trapeze_allowed (hh : Function.Injective h) (hH : ∀ s, basicSlots 2 true s → H (h s)) (refine : ℕ)
    (dt : S) : Allowed H (trapezeCalls h refine dt) := by
  have hy := hH .y trivial
  have ht := hH .t rfl
  have hk : ∀ i, i < 2 → H (h (.k i)) := fun i hi => hH (.k i) hi
  refine Allowed.bind (Allowed.op (slot_ne hh (by simp)) (by simp [mentions, hy, hk])) fun _ => ?_
  refine Allowed.bind (Allowed.op trivial (by simp [mentions, hy, ht, hk])) fun _ => ?_
  refine Allowed.forN fun i _ _ => ?_
  refine Allowed.bind (Allowed.op (slot_ne hh (by simp)) (by simp [mentions, ht, hk])) fun _ => ?_
  split_ifs
  · exact Allowed.op ⟨by rw [kbufs_length], by simp⟩ (mem_inplace hy hk)
  · exact Allowed.op ⟨by rw [kbufs_length], by simp⟩ (mem_sum ht hy hk)

/-- Buffers of Stetter's solver. -/
def stetterSlots : Slot → Prop
  | .y => True
  | .k i => i < 2
  | .stack i => i < 2
  | .t => True
  | .tmpk => True
  | _ => False

theorem stetter_allowed (hh : Function.Injective h) (hH : ∀ s, stetterSlots s → H (h s)) (dt : S)
    (fl : StetterFlags) : Allowed H (stetterCalls h dt fl) := by
  have hy := hH .y trivial
  have ht := hH .t trivial
  have hm := hH .tmpk trivial
  have hk : ∀ i, i < 2 → H (h (.k i)) := fun i hi => hH (.k i) hi
  have hs : ∀ i, i < 2 → H (h (.stack i)) := fun i hi => hH (.stack i) hi
  have hf : ∀ i, ∃ j, j < 2 ∧ stetterFu h fl i = h (.k (if fl.swapped then 1 - i else i)) ∧ (i < 2 → j =
      (if fl.swapped then 1 - i else i)) := fun i => by
    by_cases hi : i < 2
    · refine ⟨if fl.swapped then 1 - i else i, ?_, rfl, fun _ => rfl⟩
      split_ifs <;> omega
    · exact ⟨0, by omega, rfl, fun h => absurd h hi⟩
  have hfu : ∀ i, i < 2 → H (stetterFu h fl i) := by
    intro i hi
    obtain ⟨j, hj, e, e'⟩ := hf i
    rw [e, ← e' hi]
    exact hk j hj
  have hfn : ∀ i s, (∀ j, s ≠ .k j) → h s ≠ stetterFu h fl i := fun i s hs => slot_ne hh (hs _)
  unfold stetterCalls
  refine Allowed.bind ?_ fun _ => ?_
  · split_ifs
    · refine Allowed.bind (Allowed.op (slot_ne hh (by simp)) (by simp [mentions, hy, hs])) fun _ => ?_
      refine Allowed.bind (Allowed.op (slot_ne hh (by simp)) (by simp [mentions, hy, hs])) fun _ => ?_
      exact Allowed.op (hfn _ _ (by simp)) (by simp [mentions, hs, hfu])
    · exact Allowed.pure _
  refine Allowed.bind (Allowed.op trivial (by simp [mentions, hs, ht, hfu])) fun _ => ?_
  refine Allowed.bind (Allowed.op (slot_ne hh (by simp)) (by simp [mentions, ht, hm])) fun _ => ?_
  refine Allowed.bind (Allowed.op trivial (by simp [mentions, hs, hm])) fun _ => ?_
  refine Allowed.bind (Allowed.op (hfn _ _ (by simp)) (by simp [mentions, hs, hfu])) fun _ => ?_
  refine Allowed.bind (Allowed.op ⟨by simp, by simp⟩ (by simp [mentions, hs, hfu])) fun _ => ?_
  refine Allowed.bind (Allowed.op ⟨by simp, by simp⟩ (by simp [mentions, hs, hy])) fun _ => ?_
  exact Allowed.pure _

/-- Buffers of the solver of Adams besides those of its starter. -/
def adamsSlots (rank : ℕ) (correction : Bool) : Slot → Prop
  | .y => True
  | .k i => i < rank
  | .ycorr => correction = true
  | _ => False

theorem adams_allowed (hh : Function.Injective h) {al : List S} (hal : al ≠ []) {correction : Bool}
    (hH : ∀ s, adamsSlots al.length correction s → H (h s)) {α : Type} {st : Act S α} (hst : Allowed H st) (keep : α)
    (dt : S) (step : ℕ) : Allowed H (adamsCalls h al correction st keep dt step) := by
  have hy := hH .y trivial
  have hk : ∀ i, i < al.length → H (h (.k i)) := fun i hi => hH (.k i) hi
  have hpos : 0 < al.length := List.length_pos_of_ne_nil hal
  refine Allowed.bind (Allowed.op (slot_ne hh (by simp))
    (by simp [mentions, hy, hk _ (Nat.mod_lt _ hpos)])) fun _ => ?_
  refine Allowed.bind ?_ fun _ => Allowed.pure _
  split_ifs with h1 h2
  · exact Allowed.bind (Allowed.op ⟨by rw [kbufs_length], by rw [buf_len]⟩ (mem_corr hy (hH .ycorr h2) hk))
      fun _ => Allowed.pure _
  · exact Allowed.bind (Allowed.op ⟨by rw [kbufs_length], by rw [buf_len]⟩ (mem_inplace hy hk))
      fun _ => Allowed.pure _
  · exact hst

/-- Buffers of the Runge-Kutta solver. -/
def rkSlots (bt : BT S) (cf : RKConf S) : Slot → Prop
  | .y => True
  | .k i => i < bt.steps
  | .stack i => i < cf.maxRecursion
  | .t => True
  | .tmpk => True
  | .ycorr => cf.correction = true
  | .tcorr => cf.correction = true
  | _ => False

theorem rkStages_allowed (hh : Function.Injective h) {bt : BT S} {cf : RKConf S}
    (hH : ∀ s, rkSlots bt cf s → H (h s)) {s : Slot} (hs : IsState s) (hHs : H (h s)) (first : Bool) (dt : S) :
    Allowed H (if bt.implicit then rkImplicitCalls h bt cf first (h s) dt else rkExplicitCalls h bt cf (h s) dt) := by
  have hst : s ≠ .t := by rintro rfl; exact hs
  have hsk : ∀ j, s ≠ .k j := by rintro j rfl; exact hs
  have hsm : s ≠ .tmpk := by rintro rfl; exact hs
  have ht := hH .t trivial
  have hm := hH .tmpk trivial
  have hk : ∀ i, i < bt.steps → H (h (.k i)) := fun i hi => hH (.k i) hi
  split_ifs
  · refine Allowed.bind ?_ fun _ => Allowed.forN fun _ _ _ => ?_
    · split_ifs
      · refine Allowed.bind (Allowed.op (slot_ne hh hsm) (by simp [mentions, hHs, hm])) fun _ => ?_
        refine Allowed.forN fun i _ hi => ?_
        refine Allowed.bind (Allowed.op trivial (by simp [mentions, hHs, hm, ht])) fun _ => ?_
        exact Allowed.op (slot_ne hh (by simp)) (by simp [mentions, ht, hk i hi])
      · exact Allowed.pure _
    · refine Allowed.forN fun i _ hi => ?_
      refine Allowed.bind (Allowed.op ⟨by rw [kbufs_length], by rw [buf_len]⟩ (mem_sum ht hHs hk)) fun _ => ?_
      exact Allowed.op (slot_ne hh (by simp)) (by simp [mentions, ht, hk i hi])
  · refine Allowed.forN fun i _ hi => ?_
    unfold rkStageCalls
    split_ifs with h0 hc
    · exact Allowed.op (slot_ne hh (hsk i)) (by simp [mentions, hHs, hk i hi])
    · have hyc := hH .ycorr hc
      have htc := hH .tcorr hc
      refine Allowed.bind ?_ fun _ => Allowed.op (slot_ne hh (by simp)) (by simp [mentions, ht, hk i hi])
      refine Allowed.bind (Allowed.op (slot_ne hh (by simp)) (by simp [mentions, hyc, htc])) fun _ => ?_
      refine Allowed.bind (Allowed.op (slot_ne hh hst.symm) (by simp [mentions, hHs, ht])) fun _ => ?_
      exact Allowed.op ⟨by rw [kbufs_length]; omega, by rw [buf_len]⟩ (mem_corr ht htc hk)
    · refine Allowed.bind ?_ fun _ => Allowed.op (slot_ne hh (by simp)) (by simp [mentions, ht, hk i hi])
      exact Allowed.op ⟨by rw [kbufs_length]; omega, by rw [buf_len]⟩ (mem_sum ht hHs hk)

theorem rkError_allowed {bt : BT S} {cf : RKConf S} (hH : ∀ s, rkSlots bt cf s → H (h s)) :
    Allowed H (rkErrorCalls h bt) := by
  have ht := hH .t trivial
  have hk : ∀ i, i < bt.steps → H (h (.k i)) := fun i hi => hH (.k i) hi
  unfold rkErrorCalls
  split_ifs
  · exact Allowed.bind (Allowed.op ⟨by rw [kbufs_length], by rw [buf_len]⟩ (mem_zero ht hk)) fun _ =>
      Allowed.maxabs ht
  · exact Allowed.pure _

theorem rkAdvance_allowed {bt : BT S} {cf : RKConf S} (hH : ∀ s, rkSlots bt cf s → H (h s)) {y : ℕ}
    (hy : H y) (dt : S) : Allowed H (rkAdvanceCalls h bt cf y dt) := by
  have hk : ∀ i, i < bt.steps → H (h (.k i)) := fun i hi => hH (.k i) hi
  unfold rkAdvanceCalls
  split_ifs with hc
  · exact Allowed.op ⟨by rw [kbufs_length], by rw [buf_len]⟩ (mem_corr hy (hH .ycorr hc) hk)
  · exact Allowed.op ⟨by rw [kbufs_length], by rw [buf_len]⟩ (mem_inplace hy hk)

theorem rkLoop_allowed (hh : Function.Injective h) {bt : BT S} {cf : RKConf S}
    (hH : ∀ s, rkSlots bt cf s → H (h s)) : ∀ (fuel : ℕ), fuel ≤ cf.maxRecursion → ∀ (first : Bool) (count : ℕ)
    (dt : S) (s : Slot), IsState s → H (h s) → (∀ j, s = .stack j → j + fuel < cf.maxRecursion) →
    Allowed H (rkLoopCalls h bt cf fuel first count dt (h s)) := by
  intro fuel
  induction fuel with
  | zero =>
    intro _ first count dt s hs hHs _
    unfold rkLoopCalls
    refine Allowed.forN fun _ _ _ => Allowed.bind (rkStages_allowed hh hH hs hHs _ _) fun _ =>
      Allowed.bind (rkError_allowed hH) fun _ => ?_
    exact rkAdvance_allowed hH hHs dt
  | succ fuel ih =>
    intro hf first count dt s hs hHs hlev
    unfold rkLoopCalls
    refine Allowed.forN fun _ _ _ => Allowed.bind (rkStages_allowed hh hH hs hHs _ _) fun _ =>
      Allowed.bind (rkError_allowed hH) fun _ => ?_
    dsimp only
    split_ifs
    · have hcur : H (h (.stack (cf.maxRecursion - (fuel + 1)))) := hH (.stack _) (by
        show cf.maxRecursion - (fuel + 1) < cf.maxRecursion
        omega)
      have hne : s ≠ .stack (cf.maxRecursion - (fuel + 1)) := by
        rintro rfl
        have := hlev _ rfl
        omega
      refine Allowed.bind (Allowed.op (slot_ne hh hne.symm) (by simp [mentions, hHs, hcur])) fun _ => ?_
      refine Allowed.bind (ih (by omega) _ _ _ _ trivial hcur ?_) fun _ =>
        Allowed.op (slot_ne hh hne) (by simp [mentions, hHs, hcur])
      intro j e
      simp only [Slot.stack.injEq] at e
      omega
    · exact rkAdvance_allowed hH hHs dt

theorem rk_allowed (hh : Function.Injective h) {bt : BT S} {cf : RKConf S}
    (hH : ∀ s, rkSlots bt cf s → H (h s)) (dt : S) (allocated : Bool) : Allowed H (rkCalls h bt cf dt allocated) := by
  unfold rkCalls
  refine Allowed.bind ?_ fun _ => rkLoop_allowed hh hH _ (le_refl _) _ _ _ _ trivial (hH .y trivial) (by simp)
  split_ifs with hc
  · simp only [Bool.and_eq_true] at hc
    exact Allowed.bind (Allowed.op trivial (by simp [mentions, hH .ycorr hc.2])) fun _ =>
      Allowed.op trivial (by simp [mentions, hH .tcorr hc.2])
  · exact Allowed.pure _

end

end Spec
