import Verif.Lemmas.SolverCalls

/-
The programs of the solvers (Model/SolverCalls.lean) on the machine compute what Model/Solvers.lean says.
-/

namespace Spec

open NB

variable {h : Slot → Handle} {deriv : (ℕ → ℝ) → ℕ → ℝ} {derivs : ℕ → (ℕ → ℝ) → ℕ → ℝ} {nrm : (ℕ → ℝ) → ℝ} {n : ℕ}

theorem put_slot (hh : Function.Injective h) (V : Buffers ℝ) (s u : Slot) (x : ℕ → ℝ) :
    put V (h s) x (h u) = if u = s then x else V (h u) := by
  unfold put
  by_cases e : u = s
  · rw [if_pos e, if_pos (by rw [e])]
  · rw [if_neg e, if_neg fun e' => e (hh e')]

/-- A derivative that depends on the state, and on how often it has been asked for. -/
abbrev still (derivs : ℕ → (ℕ → ℝ) → ℕ → ℝ) : ℕ → ℝ → (ℕ → ℝ) → ℕ → ℝ := fun k _ x => derivs k x

/-- The machine is where the scheme says: the state of the bodies, and the number of derivatives asked for. -/
structure At (h : Slot → Handle) (X : Tally ℝ) (e : Eng (ℕ → ℝ) ℝ) : Prop where
  y : X.bufs (h .y) = e.y
  count : X.count = e.cc

theorem vfmadd_fun (x y : ℕ → ℝ) (c : ℝ) : (fun j => x j + y j * c) = vfmadd x y c := by
  funext j
  simp only [vfmadd, Pi.add_apply, Pi.smul_apply, smul_eq_mul]
  ring

theorem euler_eval (hh : Function.Injective h) (dt : ℝ) (X : Tally ℝ) (e : Eng (ℕ → ℝ) ℝ) (he : At h X e) :
    At h (tally derivs nrm n (eulerCalls h dt) X).2 (eulerAdvise (still derivs) dt e) := by
  constructor <;>
    simp [eulerCalls, tally_bind, cost, Spec.call, put_slot hh, eulerAdvise, Eng.fc, Eng.adviseTime, vfmadd_fun, he.y,
      he.count]

theorem midpoint_eval (hh : Function.Injective h) (dt : ℝ) (X : Tally ℝ) (e : Eng (ℕ → ℝ) ℝ) (he : At h X e) :
    At h (tally derivs nrm n (midpointCalls h dt) X).2 (midpointAdvise (still derivs) dt e) := by
  constructor <;>
    simp [midpointCalls, tally_bind, cost, Spec.call, put_slot hh, midpointAdvise, Eng.fc, Eng.adviseTime, vfmadd_fun, he.y,
      he.count]

theorem inplace_call (hh : Function.Injective h) {N i : ℕ} (hi : i ≤ N) (V : Buffers ℝ) (s : Slot)
    (hs : ∀ j, .k j ≠ s) (c : ℕ → ℝ) :
    Spec.call deriv n V (.fmaddnInplace (h s) (kbufs h N) (buf i c) i) =
      put V (h s) (vfmaddnInplace i (V (h s)) (fun j => V (h (.k j))) c) := by
  simp only [Spec.call]
  rw [terms_eq h hi, addTerms_eq fun j e => hs j (hh e)]

theorem sum_call (hh : Function.Injective h) {N i : ℕ} (hi : i ≤ N) (V : Buffers ℝ) (s u : Slot)
    (hs : ∀ j, .k j ≠ s) (hu : u ≠ s) (c : ℕ → ℝ) :
    Spec.call deriv n V (.fmaddn (h s) (some (h u)) (kbufs h N) (buf i c) i) =
      put V (h s) (vfmaddn i (V (h s)) (some (V (h u))) (fun j => V (h (.k j))) c) := by
  simp only [Spec.call]
  rw [terms_eq h hi, sumFrom_eq (fun e => hu (hh e)) fun j e => hs j (hh e)]

theorem vfmaddnInplace_zero (i : ℕ) (b : ℕ → ℕ → ℝ) (c : ℕ → ℝ) (a : ℕ → ℝ) :
    vfmaddnInplace i (0 : ℕ → ℝ) b c = vfmaddn i a none b c := by
  rw [vfmaddnInplace_eq, vfmaddn_none, zero_add]

theorem zero_call (hh : Function.Injective h) {N i : ℕ} (hi : i ≤ N) (V : Buffers ℝ) (s : Slot)
    (hs : ∀ j, .k j ≠ s) (c : ℕ → ℝ) :
    Spec.call deriv n V (.fmaddn (h s) none (kbufs h N) (buf i c) i) =
      put V (h s) (vfmaddn i (V (h s)) none (fun j => V (h (.k j))) c) := by
  simp only [Spec.call]
  rw [terms_eq h hi, addTerms_eq fun j e => hs j (hh e), put_put, put_same]
  have : (fun j => put V (h s) (fun _ => 0) (h (.k j))) = fun j => V (h (.k j)) := by
    funext j
    exact put_ne _ _ fun e => hs j (hh e)
  rw [this]
  exact congrArg _ (vfmaddnInplace_zero i _ c _)

theorem corr_call (hh : Function.Injective h) {N i : ℕ} (hi : i ≤ N) (V : Buffers ℝ) (s u : Slot)
    (hs : ∀ j, .k j ≠ s) (hu : ∀ j, .k j ≠ u) (hst : s ≠ u) (c : ℕ → ℝ) :
    Spec.call deriv n V (.fmaddnCorr (h s) (h u) (kbufs h N) (buf i c) i) =
      put (put V (h u) (vfmaddnCorr i (V (h s)) (V (h u)) (fun j => V (h (.k j))) c).2) (h s)
        (vfmaddnCorr i (V (h s)) (V (h u)) (fun j => V (h (.k j))) c).1 := by
  simp only [Spec.call]
  rw [terms_eq h hi, addCorrecteds_eq (fun e => hst (hh e)) (fun j e => hs j (hh e)) fun j e => hu j (hh e)]

theorem vfmaddnInplace_congr {N : ℕ} {a a' : ℕ → ℝ} {b b' : ℕ → ℕ → ℝ} {c c' : ℕ → ℝ} (ha : a = a')
    (hb : ∀ j, j < N → b j = b' j) (hc : ∀ j, j < N → c j = c' j) :
    vfmaddnInplace N a b c = vfmaddnInplace N a' b' c' := by
  rw [vfmaddnInplace_eq, vfmaddnInplace_eq, ha]
  congr 1
  exact Finset.sum_congr rfl fun j hj => by rw [hb j (Finset.mem_range.1 hj), hc j (Finset.mem_range.1 hj)]

theorem rk4_eval (hh : Function.Injective h) (dt : ℝ) (X : Tally ℝ) (e : Eng (ℕ → ℝ) ℝ) (he : At h X e) :
    At h (tally derivs nrm n (rk4Calls h dt) X).2 (rk4Advise (still derivs) dt e) := by
  have hl : [dt / FOps.lit 6, dt / FOps.lit 3, dt / FOps.lit 3, dt / FOps.lit 6] =
    buf 4 (fun i => if i = 0 then dt / 6 else if i = 1 then dt / 3 else if i = 2 then dt / 3 else dt / 6) := by
    simp [buf, List.range_succ]
  unfold rk4Calls
  rw [hl]
  simp only [tally_bind, tally_op]
  rw [inplace_call hh (le_refl 4) _ .y (by simp)]
  refine ⟨?_, by simp [rk4Advise, Eng.fc, Eng.adviseTime, cost, he.count]⟩
  dsimp only
  rw [put_same]
  simp only [rk4Advise, Eng.fc, Eng.adviseTime]
  refine vfmaddnInplace_congr ?_ ?_ fun _ _ => rfl
  · simp [Spec.call, put_slot hh, he.y]
  · intro j hj
    have : j = 0 ∨ j = 1 ∨ j = 2 ∨ j = 3 := by omega
    rcases this with rfl | rfl | rfl | rfl <;> simp [Spec.call, cost, put_slot hh, he.y, he.count, vfmadd_fun]

/-! ### Runge-Kutta -/

/-- The buffers hold what the value model says the solver's members hold. -/
structure RkRel (h : Slot → Handle) (r : RKState (ℕ → ℝ)) (V : Buffers ℝ) : Prop where
  k : ∀ i, V (h (.k i)) = r.k i
  t : V (h .t) = r.tbuf
  ycorr : V (h .ycorr) = r.ycorr
  tcorr : V (h .tcorr) = r.tcorr

/-- The buffers `sub_step` advances. -/
def IsState : Slot → Prop
  | .y => True
  | .stack _ => True
  | _ => False

/-- The machine is where the scheme is inside a step that advances the buffer `s`, with members `p.1`, `p.2`
derivatives computed, and the state `y`. -/
structure RkAt (h : Slot → Handle) (s : Slot) (p : RKState (ℕ → ℝ) × ℕ) (y : ℕ → ℝ) (X : Tally ℝ) : Prop where
  rel : RkRel h p.1 X.bufs
  y : X.bufs (h s) = y
  count : X.count = p.2

theorem stage_eval (hh : Function.Injective h) {bt : BT ℝ} {cf : RKConf ℝ} {s : Slot} (hs : IsState s)
    {p : RKState (ℕ → ℝ) × ℕ} {y : ℕ → ℝ} {X : Tally ℝ} (hr : RkAt h s p y X) (t dt : ℝ)
    {i : ℕ} (hi : i < bt.steps) :
    RkAt h s (rkStageExplicit (still derivs) bt cf y t dt i p) y
      (tally derivs nrm n (rkStageCalls h bt cf (h s) dt i) X).2 := by
  obtain ⟨r, cc⟩ := p
  obtain ⟨c, V⟩ := X
  obtain ⟨hr, hy, hcc⟩ := hr
  dsimp only at hr hy hcc
  subst hy hcc
  have hst : s ≠ .t := by rintro rfl; exact hs
  have hsk : ∀ j, s ≠ .k j := by rintro j rfl; exact hs
  have hstc : s ≠ .tcorr := by rintro rfl; exact hs
  have hsyc : s ≠ .ycorr := by rintro rfl; exact hs
  unfold rkStageCalls rkStageExplicit
  by_cases h0 : i = 0
  · rw [if_pos h0, if_pos h0]
    subst h0
    refine ⟨?_, ?_, rfl⟩
    · constructor
      · intro j
        simp [Spec.call, put_slot hh, upd, hr.k]
      · simp [Spec.call, put_slot hh, hr.t]
      · simp [Spec.call, put_slot hh, hr.ycorr]
      · simp [Spec.call, put_slot hh, hr.tcorr]
    · simp [Spec.call, put_slot hh, hsk]
  · rw [if_neg h0, if_neg h0]
    by_cases hc : cf.correction = true
    · simp only [hc, if_true, tally_bind, tally_op]
      rw [corr_call hh (le_of_lt hi) _ .t .tcorr (by simp) (by simp) (by simp)]
      refine ⟨?_, ?_, by simp [cost]⟩
      · constructor
        · intro j
          simp [Spec.call, cost, put_slot hh, upd, hr.k, hr.ycorr, hstc]
        all_goals simp [Spec.call, put_slot hh, hr.k, hr.ycorr, hstc]
      · simp [Spec.call, put_slot hh, hsk, hst, hstc]
    · have hc' : cf.correction = false := by simpa using hc
      simp only [hc', Bool.false_eq_true, if_false, tally_bind, tally_op]
      rw [sum_call hh (le_of_lt hi) _ .t s (by simp) hst]
      refine ⟨?_, ?_, by simp [cost]⟩
      · constructor
        · intro j
          simp [Spec.call, cost, put_slot hh, upd, hr.k, hr.t]
        all_goals simp [Spec.call, put_slot hh, hr.k, hr.t, hr.ycorr, hr.tcorr]
      · simp [Spec.call, put_slot hh, hsk, hst]

theorem foldN_rel {σ τ : Type} (P : σ → τ → Prop) {N : ℕ} {s : σ} {u : τ} {f : ℕ → σ → σ} {g : ℕ → τ → τ}
    (h0 : P s u) (hs : ∀ i s u, i < N → P s u → P (f i s) (g i u)) : P (foldN N s f) (foldN N u g) := by
  induction N with
  | zero => exact h0
  | succ N ih => exact hs N _ _ (Nat.lt_succ_self N) (ih fun i s u hi => hs i s u (by omega))

theorem explicit_eval (hh : Function.Injective h) {bt : BT ℝ} {cf : RKConf ℝ} {s : Slot} (hs : IsState s)
    {p : RKState (ℕ → ℝ) × ℕ} {y : ℕ → ℝ} {X : Tally ℝ} (hr : RkAt h s p y X) (t dt : ℝ) :
    RkAt h s (rkExplicit (still derivs) bt cf y t dt p) y
      (tally derivs nrm n (rkExplicitCalls h bt cf (h s) dt) X).2 := by
  unfold rkExplicitCalls rkExplicit
  rw [tally_forN]
  refine foldN_rel (fun (p : RKState (ℕ → ℝ) × ℕ) (q : Unit × Tally ℝ) => RkAt h s p y q.2) hr ?_
  rintro i p ⟨_, W⟩ hi h1
  exact stage_eval hh hs h1 t dt hi

theorem first_eval (hh : Function.Injective h) {bt : BT ℝ} {s : Slot} (hs : IsState s)
    {p : RKState (ℕ → ℝ) × ℕ} {y : ℕ → ℝ} {X : Tally ℝ} (hr : RkAt h s p y X) (t dt : ℝ) :
    RkAt h s (rkFirstApproach (still derivs) bt y t dt p) y
      (tally derivs nrm n (rkFirstCalls h bt (h s) dt) X).2 := by
  obtain ⟨r, cc⟩ := p
  obtain ⟨c, V⟩ := X
  obtain ⟨hr, hy, hcc⟩ := hr
  dsimp only at hr hy hcc
  subst hy hcc
  have hst : s ≠ .t := by rintro rfl; exact hs
  have hsk : ∀ j, s ≠ .k j := by rintro j rfl; exact hs
  have hsm : s ≠ .tmpk := by rintro rfl; exact hs
  unfold rkFirstCalls rkFirstApproach
  rw [tally_bind, tally_forN, tally_op]
  have key := foldN_rel (N := bt.steps) (fun (p : RKState (ℕ → ℝ) × ℕ) (q : Unit × Tally ℝ) =>
    RkAt h s p (V (h s)) q.2 ∧ q.2.bufs (h .tmpk) = derivs c (V (h s)))
    (s := (r, c + 1)) (u := ((), ⟨c + 1, Spec.call (derivs c) n V (.fcompute (h s) (h .tmpk))⟩))
    (f := fun i s' =>
      let tb := vfmadd (V (h s)) (derivs c (V (h s))) (dt * bt.c i)
      ({ s'.1 with tbuf := tb, k := upd s'.1.k i (still derivs s'.2 (t + bt.c i * dt) tb) }, s'.2 + 1))
    (g := fun i p => tally derivs nrm n (do
      Act.op (.fmadd (h .t) (h s) (h .tmpk) (dt * bt.c i))
      Act.op (.fcompute (h .t) (h (.k i)))) p.2)
    (by
      refine ⟨⟨⟨fun j => ?_, ?_, ?_, ?_⟩, ?_, rfl⟩, ?_⟩ <;>
        simp [Spec.call, put_slot hh, hr.k, hr.t, hr.ycorr, hr.tcorr, hsm])
    (by
      rintro i ⟨p, c'⟩ ⟨_, c'', W⟩ hi ⟨⟨h1, h2, h4⟩, h3⟩
      dsimp only at h1 h2 h3 h4
      subst h4
      simp only [tally_bind, tally_op]
      refine ⟨⟨⟨fun j => ?_, ?_, ?_, ?_⟩, ?_, by simp [cost]⟩, ?_⟩ <;>
        simp [Spec.call, cost, put_slot hh, h1.k, h1.ycorr, h1.tcorr, h2, h3, hst, hsk, upd, vfmadd_fun])
  exact key.1

theorem refine_eval (hh : Function.Injective h) {bt : BT ℝ} {s : Slot} (hs : IsState s)
    {p : RKState (ℕ → ℝ) × ℕ} {y : ℕ → ℝ} {X : Tally ℝ} (hr : RkAt h s p y X) (t dt : ℝ) :
    RkAt h s (rkRefine (still derivs) bt y t dt p) y
      (tally derivs nrm n (rkRefineCalls h bt (h s) dt) X).2 := by
  have hst : s ≠ .t := by rintro rfl; exact hs
  have hsk : ∀ j, s ≠ .k j := by rintro j rfl; exact hs
  unfold rkRefineCalls rkRefine
  rw [tally_forN]
  refine foldN_rel (fun (p : RKState (ℕ → ℝ) × ℕ) (q : Unit × Tally ℝ) => RkAt h s p y q.2) hr ?_
  rintro i ⟨p, c⟩ ⟨_, c', W⟩ hi ⟨h1, h2, h3⟩
  dsimp only at h1 h2 h3
  subst h3
  simp only [tally_bind, tally_op]
  rw [sum_call hh (le_refl _) _ .t s (by simp) hst]
  refine ⟨⟨fun j => ?_, ?_, ?_, ?_⟩, ?_, by simp [cost]⟩ <;>
    simp [Spec.call, cost, put_slot hh, h1.k, h1.t, h1.ycorr, h1.tcorr, h2, hst, hsk, upd]

theorem implicit_eval (hh : Function.Injective h) {bt : BT ℝ} {cf : RKConf ℝ} {s : Slot} (hs : IsState s)
    {p : RKState (ℕ → ℝ) × ℕ} {y : ℕ → ℝ} {X : Tally ℝ} (hr : RkAt h s p y X) (first : Bool) (t dt : ℝ) :
    RkAt h s (rkImplicit (still derivs) bt cf first y t dt p) y
      (tally derivs nrm n (rkImplicitCalls h bt cf first (h s) dt) X).2 := by
  unfold rkImplicitCalls rkImplicit
  rw [tally_bind, tally_forN]
  refine foldN_rel (fun (p : RKState (ℕ → ℝ) × ℕ) (q : Unit × Tally ℝ) => RkAt h s p y q.2) ?_ ?_
  · cases first
    · exact hr
    · exact first_eval hh hs hr t dt
  · rintro i p ⟨_, W⟩ hi h1
    exact refine_eval hh hs h1 t dt

theorem stages_allocated (F : ℕ → ℝ → (ℕ → ℝ) → ℕ → ℝ) (bt : BT ℝ) (cf : RKConf ℝ) (first : Bool) (y : ℕ → ℝ)
    (t dt : ℝ) (r : RKState (ℕ → ℝ)) (cc : ℕ) :
    (rkStages F bt cf first y t dt (r, cc)).1.allocated = r.allocated := by
  have h1 : ∀ (s : RKState (ℕ → ℝ) × ℕ), (rkExplicit F bt cf y t dt s).1.allocated = s.1.allocated := by
    intro s
    refine foldN_inv (P := fun _ (p : RKState (ℕ → ℝ) × ℕ) => p.1.allocated = s.1.allocated) rfl ?_
    intro i p _ hp
    unfold rkStageExplicit
    split_ifs
    · exact hp
    · exact hp
    · exact hp
  have h2 : ∀ (s : RKState (ℕ → ℝ) × ℕ), (rkFirstApproach F bt y t dt s).1.allocated = s.1.allocated := by
    intro s
    exact foldN_inv (P := fun _ (p : RKState (ℕ → ℝ) × ℕ) => p.1.allocated = s.1.allocated) rfl fun i p _ hp => hp
  have h3 : ∀ (s : RKState (ℕ → ℝ) × ℕ), (rkRefine F bt y t dt s).1.allocated = s.1.allocated := by
    intro s
    exact foldN_inv (P := fun _ (p : RKState (ℕ → ℝ) × ℕ) => p.1.allocated = s.1.allocated) rfl fun i p _ hp => hp
  unfold rkStages
  split_ifs
  · unfold rkImplicit
    refine foldN_inv (P := fun _ (p : RKState (ℕ → ℝ) × ℕ) => p.1.allocated = r.allocated) ?_ fun i p _ hp => by rw [h3]; exact hp
    split_ifs
    · exact h2 _
    · rfl
  · exact h1 _

theorem stages_eval (hh : Function.Injective h) {bt : BT ℝ} {cf : RKConf ℝ} {s : Slot} (hs : IsState s)
    {p : RKState (ℕ → ℝ) × ℕ} {y : ℕ → ℝ} {X : Tally ℝ} (hr : RkAt h s p y X) (first : Bool) (t dt : ℝ) :
    RkAt h s (rkStages (still derivs) bt cf first y t dt p) y
      (tally derivs nrm n (if bt.implicit then rkImplicitCalls h bt cf first (h s) dt
        else rkExplicitCalls h bt cf (h s) dt) X).2 := by
  unfold rkStages
  cases bt.implicit
  · exact explicit_eval hh hs hr t dt
  · exact implicit_eval hh hs hr first t dt

theorem error_eval (hh : Function.Injective h) {bt : BT ℝ} {s : Slot} (hs : IsState s)
    {p : RKState (ℕ → ℝ) × ℕ} {y : ℕ → ℝ} {X : Tally ℝ} (hr : RkAt h s p y X) :
    (tally derivs nrm n (rkErrorCalls h bt) X).1 = (rkError nrm bt p.1).2 ∧
    RkAt h s ({ p.1 with tbuf := (rkError nrm bt p.1).1 }, p.2) y (tally derivs nrm n (rkErrorCalls h bt) X).2 := by
  obtain ⟨r, cc⟩ := p
  obtain ⟨c, V⟩ := X
  obtain ⟨hr, hy, hcc⟩ := hr
  dsimp only at hr hy hcc
  subst hy hcc
  have hst : s ≠ .t := by rintro rfl; exact hs
  unfold rkErrorCalls rkError
  cases bt.embedded
  · exact ⟨rfl, ⟨hr.k, hr.t, hr.ycorr, hr.tcorr⟩, rfl, rfl⟩
  · simp only [if_true, tally_bind, tally_op, tally_maxabs]
    rw [zero_call hh (le_refl _) _ .t (by simp), put_same]
    refine ⟨?_, ⟨fun j => ?_, ?_, ?_, ?_⟩, ?_, by simp [cost]⟩ <;>
      simp [put_slot hh, hr.k, hr.t, hr.ycorr, hr.tcorr, hst]

theorem advance_eval (hh : Function.Injective h) {bt : BT ℝ} {cf : RKConf ℝ} {s : Slot} (hs : IsState s)
    {p : RKState (ℕ → ℝ) × ℕ} {y : ℕ → ℝ} {X : Tally ℝ} (hr : RkAt h s p y X) (dt : ℝ) :
    RkAt h s ({ p.1 with ycorr := (rkAdvance bt cf dt p.1 y).2 }, p.2) (rkAdvance bt cf dt p.1 y).1
      (tally derivs nrm n (rkAdvanceCalls h bt cf (h s) dt) X).2 := by
  obtain ⟨r, cc⟩ := p
  obtain ⟨c, V⟩ := X
  obtain ⟨hr, hy, hcc⟩ := hr
  dsimp only at hr hy hcc
  subst hy hcc
  have hst : s ≠ .t := by rintro rfl; exact hs
  have hsk : ∀ j, s ≠ .k j := by rintro j rfl; exact hs
  have hstc : s ≠ .tcorr := by rintro rfl; exact hs
  have hsyc : s ≠ .ycorr := by rintro rfl; exact hs
  unfold rkAdvanceCalls rkAdvance
  cases hc : cf.correction
  · simp only [Bool.false_eq_true, if_false, tally_op]
    rw [inplace_call hh (le_refl _) _ s fun j => (hsk j).symm]
    refine ⟨⟨fun j => ?_, ?_, ?_, ?_⟩, ?_, by simp [cost]⟩ <;>
      simp [put_slot hh, hr.k, hr.t, hr.ycorr, hr.tcorr, hst.symm, (hsk _).symm, hstc.symm, hsyc.symm]
  · simp only [if_true, tally_op]
    rw [corr_call hh (le_refl _) _ s .ycorr (fun j => (hsk j).symm) (by simp) hsyc]
    refine ⟨⟨fun j => ?_, ?_, ?_, ?_⟩, ?_, by simp [cost]⟩ <;>
      simp [put_slot hh, hr.k, hr.t, hr.ycorr, hr.tcorr, hst.symm, (hsk _).symm, hstc.symm, hsyc.symm]

theorem RkRel.put {r : RKState (ℕ → ℝ)} {V : Buffers ℝ} (hr : RkRel h r V) (hh : Function.Injective h) {s : Slot}
    (hs : IsState s) (x : ℕ → ℝ) : RkRel h r (put V (h s) x) := by
  have hst : s ≠ .t := by rintro rfl; exact hs
  have hsk : ∀ j, s ≠ .k j := by rintro j rfl; exact hs
  have hstc : s ≠ .tcorr := by rintro rfl; exact hs
  have hsyc : s ≠ .ycorr := by rintro rfl; exact hs
  refine ⟨fun j => ?_, ?_, ?_, ?_⟩ <;>
    simp [put_slot hh, hr.k, hr.t, hr.ycorr, hr.tcorr, hst.symm, (hsk _).symm, hstc.symm, hsyc.symm]

/-- What the loop of `sub_step` does in one turn when it is not subdivided. -/
theorem turn_eval (hh : Function.Injective h) {bt : BT ℝ} {cf : RKConf ℝ} {s : Slot} (hs : IsState s)
    {p : RKState (ℕ → ℝ) × ℕ} {y : ℕ → ℝ} {X : Tally ℝ} (hr : RkAt h s p y X) (first : Bool) (t dt : ℝ)
    {β : Type} (rest : ℝ → Act ℝ β) :
    ∃ W, tally derivs nrm n (do
        (if bt.implicit then rkImplicitCalls h bt cf first (h s) dt else rkExplicitCalls h bt cf (h s) dt : Act ℝ Unit)
        let err ← rkErrorCalls h bt
        rest err) X =
      tally derivs nrm n (rest (rkError nrm bt (rkStages (still derivs) bt cf first y t dt p).1).2) W ∧
    RkAt h s ({ (rkStages (still derivs) bt cf first y t dt p).1 with
      tbuf := (rkError nrm bt (rkStages (still derivs) bt cf first y t dt p).1).1 },
      (rkStages (still derivs) bt cf first y t dt p).2) y W := by
  have a1 := stages_eval (derivs := derivs) (nrm := nrm) (n := n) (bt := bt) (cf := cf) hh hs hr first t dt
  obtain ⟨b1, b2⟩ := error_eval (derivs := derivs) (nrm := nrm) (n := n) (bt := bt) hh hs a1
  refine ⟨_, ?_, b2⟩
  rw [tally_bind, tally_bind, b1]

theorem loop_eval (hh : Function.Injective h) (bt : BT ℝ) (cf : RKConf ℝ) : ∀ (fuel : ℕ) (first : Bool) (count : ℕ)
    (dt : ℝ) (s : Slot) (st : SubSt (ℕ → ℝ) ℝ) (X : Tally ℝ), IsState s → RkAt h s (st.r, st.cc) st.y X →
    first = !st.r.allocated →
    RkAt h s ((rkSubStep (still derivs) nrm bt cf fuel count dt st).r,
        (rkSubStep (still derivs) nrm bt cf fuel count dt st).cc) (rkSubStep (still derivs) nrm bt cf fuel count dt st).y
      (tally derivs nrm n (rkLoopCalls h bt cf fuel first count dt (h s)) X).2 ∧
    (rkSubStep (still derivs) nrm bt cf fuel count dt st).r.allocated = true := by
  intro fuel
  induction fuel with
  | zero =>
    rintro first count dt s st X hs hr rfl
    unfold rkLoopCalls rkSubStep
    rw [tally_forN]
    refine foldN_rel (fun (p : SubSt (ℕ → ℝ) ℝ) (q : Unit × Tally ℝ) => RkAt h s (p.r, p.cc) p.y q.2 ∧
      p.r.allocated = true) ⟨⟨⟨hr.rel.k, hr.rel.t, hr.rel.ycorr, hr.rel.tcorr⟩, hr.y, hr.count⟩, rfl⟩ ?_
    rintro i p ⟨_, W⟩ hi ⟨h1, h3⟩
    dsimp only at h1 h3
    obtain ⟨W', e, a1⟩ := turn_eval (derivs := derivs) (nrm := nrm) (n := n) (bt := bt) (cf := cf) hh hs h1
      (!st.r.allocated) p.t dt (fun _ => rkAdvanceCalls h bt cf (h s) dt)
    have b1 := advance_eval (derivs := derivs) (nrm := nrm) (n := n) (bt := bt) (cf := cf) hh hs a1 dt
    dsimp only
    rw [e]
    exact ⟨b1, by rw [stages_allocated]; exact h3⟩
  | succ fuel ihf =>
    rintro first count dt s st X hs hr rfl
    unfold rkLoopCalls rkSubStep
    rw [tally_forN]
    refine foldN_rel (fun (p : SubSt (ℕ → ℝ) ℝ) (q : Unit × Tally ℝ) => RkAt h s (p.r, p.cc) p.y q.2 ∧
      p.r.allocated = true) ⟨⟨⟨hr.rel.k, hr.rel.t, hr.rel.ycorr, hr.rel.tcorr⟩, hr.y, hr.count⟩, rfl⟩ ?_
    rintro i p ⟨_, W⟩ hi ⟨h1, h3⟩
    dsimp only at h1 h3
    obtain ⟨W', e, a1⟩ := turn_eval (derivs := derivs) (nrm := nrm) (n := n) (bt := bt) (cf := cf) hh hs h1
      (!st.r.allocated) p.t dt (fun err =>
        if (bt.embedded && FOps.lt cf.minStep dt) && FOps.lt cf.threshold err then do
          let cur := h (.stack (cf.maxRecursion - (fuel + 1)))
          Act.op (.copy cur (h s))
          rkLoopCalls h bt cf fuel false cf.subdivisions (dt / FOps.lit cf.subdivisions) cur
          Act.op (.copy (h s) cur)
        else rkAdvanceCalls h bt cf (h s) dt)
    dsimp only
    rw [e]
    simp only [real_lt]
    split_ifs with hc
    · obtain ⟨c1, c3⟩ := ihf false cf.subdivisions (dt / FOps.lit cf.subdivisions)
        (.stack (cf.maxRecursion - (fuel + 1)))
        { r := { (rkStages (still derivs) bt cf (!st.r.allocated) p.y p.t dt (p.r, p.cc)).1 with
            tbuf := (rkError nrm bt (rkStages (still derivs) bt cf (!st.r.allocated) p.y p.t dt (p.r, p.cc)).1).1 }
          cc := (rkStages (still derivs) bt cf (!st.r.allocated) p.y p.t dt (p.r, p.cc)).2
          t := p.t, y := p.y }
        ⟨W'.count + 0, put W'.bufs (h (.stack (cf.maxRecursion - (fuel + 1)))) (W'.bufs (h s))⟩ trivial
        ⟨a1.rel.put hh (by trivial) _, by dsimp only; rw [put_same]; exact a1.y, a1.count⟩
        (by rw [stages_allocated, h3]; rfl)
      rw [tally_bind, tally_bind]
      refine ⟨⟨RkRel.put c1.rel hh hs _, ?_, c1.count⟩, c3⟩
      show put _ _ _ _ = _
      rw [put_same]
      exact c1.y
    · have b1 := advance_eval (derivs := derivs) (nrm := nrm) (n := n) (bt := bt) (cf := cf) hh hs a1 dt
      exact ⟨b1, by rw [stages_allocated]; exact h3⟩

end Spec
