import Verif.Lemmas.BSMachine

/-
Bulirsch-Stoer on the machine of Spec/Program.lean: the levels and the step.
-/

set_option linter.unusedSectionVars false

namespace Spec

open NB

variable {h : Slot → Handle} {deriv : (ℕ → ℝ) → ℕ → ℝ} {derivs : ℕ → (ℕ → ℝ) → ℕ → ℝ} {nrm : (ℕ → ℝ) → ℝ} {n : ℕ}

/-- The buffers of the solver of Bulirsch and Stoer with `N` levels. -/
structure BSRel (h : Slot → Handle) (N : ℕ) (fl : BSFlags) (b : BSState (ℕ → ℝ)) (V : Buffers ℝ) : Prop where
  internal : StetterRel h fl.internal b.internal V
  ext : TabRel h N fl.swapped b.ext V

theorem StetterRel.reset {fl : StetterFlags} {s : Stetter (ℕ → ℝ)} {V : Buffers ℝ} (hr : StetterRel h fl s V) :
    StetterRel h fl.reset s.reset V := ⟨hr.1, rfl, hr.3, hr.4, hr.5, hr.6⟩

/-- Other contents with the same buffers of the inner solver. -/
theorem StetterRel.of_eq {fl : StetterFlags} {s : Stetter (ℕ → ℝ)} {V W : Buffers ℝ} (hr : StetterRel h fl s V)
    (hs : ∀ i, W (h (.stack i)) = V (h (.stack i))) (hk : ∀ i, W (h (.k i)) = V (h (.k i))) : StetterRel h fl s W :=
  ⟨hr.1, hr.2, (hs 0).trans hr.3, (hs 1).trans hr.4, (hk _).trans hr.5, (hk _).trans hr.6⟩

theorem TabRel.of_eq {N : ℕ} {sw : Bool} {s : Neville (ℕ → ℝ)} {V W : Buffers ℝ} (hr : TabRel h N sw s V)
    (hs : ∀ a i, W (h (tabSlot a i)) = V (h (tabSlot a i))) : TabRel h N sw s W :=
  ⟨by rw [hr.1]; congr 1; funext j; rw [hs], by rw [hr.2]; congr 1; funext j; rw [hs]⟩

theorem stetter_other (hh : Function.Injective h) (dt : ℝ) (fl : StetterFlags) (X : Tally ℝ) {u : Slot}
    (hu : ¬ stetterSlots u) : (tally derivs nrm n (stetterCalls h dt fl) X).2.bufs (h u) = X.bufs (h u) :=
  tally_other (H := fun a => ∃ u, stetterSlots u ∧ h u = a) (stetter_allowed hh (fun s hs => ⟨s, hs, rfl⟩) dt fl)
    (fun ⟨_, hw, e⟩ => hu (hh e ▸ hw)) X

theorem tabSlot_stetter (a : Bool) (j : ℕ) : ¬ stetterSlots (tabSlot a j) := by
  cases a <;> exact id

/-- One level. -/
theorem substep_eval (hh : Function.Injective h) {N : ℕ} {cf : BSConf ℝ} (hN : cf.steps.length = N) (dt t0 : ℝ)
    {level : ℕ} (hl : level < N) {fl : BSFlags} {b : BSState (ℕ → ℝ)} {X : Tally ℝ} {e : Eng (ℕ → ℝ) ℝ}
    (hr : BSRel h N fl b X.bufs) (he : X.count = e.cc) :
    ∃ r, bsSubstep (still derivs) cf dt t0 (X.bufs (h .y0)) level (b, e) = .ok r ∧
      BSRel h N (tally derivs nrm n (bsSubstepCalls h cf.steps dt level fl) X).1 r.1
        (tally derivs nrm n (bsSubstepCalls h cf.steps dt level fl) X).2.bufs ∧
      At h (tally derivs nrm n (bsSubstepCalls h cf.steps dt level fl) X).2 r.2 ∧
      (tally derivs nrm n (bsSubstepCalls h cf.steps dt level fl) X).2.bufs (h .y0) = X.bufs (h .y0) := by
  obtain ⟨cc, V⟩ := X
  dsimp only at hr he ⊢
  subst he
  have hget : rd cf.steps level = .ok (cf.steps.getD level 0) := rd_ok (by
    rw [List.getD_eq_getElem?_getD, List.getElem?_eq_getElem (by omega)]; rfl)
  obtain ⟨c, hc⟩ : ∃ c, c = cf.steps.getD level 0 := ⟨_, rfl⟩
  unfold bsSubstep bsSubstepCalls
  rw [hget, ← hc]
  simp only [tally_bind, tally_op, tally_pure, tally_forN, res_ok_bind]
  have key := foldN_rel (N := c) (fun (p : Stetter (ℕ → ℝ) × Eng (ℕ → ℝ) ℝ) (q : StetterFlags × Tally ℝ) =>
      StetterRel h q.1 p.1 q.2.bufs ∧ At h q.2 p.2 ∧ q.2.bufs (h .y0) = V (h .y0) ∧
        ∀ a i, q.2.bufs (h (tabSlot a i)) = V (h (tabSlot a i)))
    (s := (b.internal.reset, { e with y := V (h .y0), time := t0 }))
    (u := (fl.internal.reset, ⟨e.cc + cost (S := ℝ) (.copy (h .y) (h .y0)),
      Spec.call (derivs e.cc) n V (.copy (h .y) (h .y0))⟩))
    (f := fun _ q => stetterAdvise (still derivs) (dt / (c : ℝ)) q.1 q.2)
    (g := fun _ q => tally derivs nrm n (stetterCalls h (dt / FOps.lit c) q.1) q.2)
    (by
      refine ⟨hr.internal.reset.of_eq (fun i => ?_) (fun i => ?_), ⟨?_, rfl⟩, ?_, ?_⟩
      · simp [Spec.call, put_slot hh]
      · simp [Spec.call, put_slot hh]
      · simp [Spec.call, put_slot hh]
      · simp [Spec.call, put_slot hh]
      · intro a i
        have : tabSlot a i ≠ .y := tabSlot_ne (by simp)
        simp [Spec.call, put_slot hh, this])
    (by
      rintro i ⟨p, e⟩ ⟨q, W⟩ hi ⟨h1, h2, h3, h4⟩
      have := stetter_eval (derivs := derivs) (nrm := nrm) (n := n) hh (dt / (c : ℝ)) q p W e h1 h2
      have hlit : (FOps.lit c : ℝ) = (c : ℝ) := by simp
      simp only [hlit]
      refine ⟨this.1, this.2, ?_, ?_⟩
      · rw [stetter_other hh _ _ _ (by exact id)]
        exact h3
      · intro a i
        rw [stetter_other hh _ _ _ (tabSlot_stetter a i)]
        exact h4 a i)
  revert key
  generalize foldN c (b.internal.reset, _) _ = p
  generalize foldN c (fl.internal.reset, _) _ = q
  obtain ⟨p, e'⟩ := p
  obtain ⟨q, W⟩ := q
  rintro ⟨h1, h2, h3, h4⟩
  obtain ⟨s', hs', h5, h7, h6⟩ := neville_eval (derivs := derivs) (nrm := nrm) (n := n) hh (N := N)
    (ss := extrSteps 2 cf.steps) (by simp [extrSteps, hN]) hl (X := W) (hr.ext.of_eq h4)
  dsimp only at h2 ⊢
  rw [← h2.y, hs']
  have hu : ∀ u : Slot, ((∀ i, u ≠ .table i) ∧ ∀ i, u ≠ .prev i) →
      (tally derivs nrm n (nevilleCalls h (extrSteps 2 cf.steps) (!fl.swapped) level) W).2.bufs (h u) = W.bufs (h u) :=
    fun u hu => h6 u fun j => (tabSlot_ne hu).symm
  refine ⟨_, rfl, ⟨?_, h5⟩, ?_, ?_⟩
  · exact h1.of_eq (fun i => hu _ (by simp)) (fun i => hu _ (by simp))
  · exact ⟨(hu .y (by simp)).trans h2.y, h7.trans h2.count⟩
  · rw [← h3]; exact hu .y0 (by simp)

/-- The loop over the levels. -/
theorem levels_eval (hh : Function.Injective h) {N : ℕ} {cf : BSConf ℝ} (hN : cf.steps.length = N) (dt t0 : ℝ) :
    ∀ (rest level : ℕ), level + rest = N → ∀ (fl : BSFlags) (c : ℕ) (b : BSState (ℕ → ℝ)) (X : Tally ℝ)
      (e : Eng (ℕ → ℝ) ℝ), BSRel h N fl b X.bufs → At h X e →
    ∃ r, bsLevels (still derivs) nrm cf dt t0 (X.bufs (h .y0)) rest level (b, e) = .ok r ∧
      BSRel h N (tally derivs nrm n (bsLevelCalls h cf.maxLevel cf.threshold cf.steps dt rest level (fl, c)) X).1.1 r.1
        (tally derivs nrm n (bsLevelCalls h cf.maxLevel cf.threshold cf.steps dt rest level (fl, c)) X).2.bufs ∧
      At h (tally derivs nrm n (bsLevelCalls h cf.maxLevel cf.threshold cf.steps dt rest level (fl, c)) X).2 r.2 := by
  intro rest
  induction rest with
  | zero => intro level _ fl c b X e hr he; exact ⟨(b, e), rfl, hr, he⟩
  | succ rest ih =>
    intro level hl fl c b X e hr he
    obtain ⟨r, h1, h2, h3, h4⟩ := substep_eval (derivs := derivs) (nrm := nrm) (n := n) hh hN dt t0
      (show level < N by omega) (e := e) hr he.count
    rw [bsLevels, bsLevelCalls, h1, res_ok_bind, tally_bind]
    revert h2 h3 h4
    generalize tally derivs nrm n (bsSubstepCalls h cf.steps dt level fl) X = q
    obtain ⟨fl', cc, W⟩ := q
    obtain ⟨b', e'⟩ := r
    intro h2 h3 h4
    dsimp only at h2 h3 h4 ⊢
    by_cases hlev : level < 2
    · rw [if_pos hlev, if_pos hlev, ← h4]
      exact ih (level + 1) (by omega) _ _ _ _ _ h2 h3
    · rw [if_neg hlev, if_neg hlev]
      have hta : rd b'.ext.table level = .ok (W (h (tabSlot fl'.swapped level))) := by
        rw [h2.ext.table, rd_buf (by omega)]
      have htb : rd b'.ext.table (level - 1) = .ok (W (h (tabSlot fl'.swapped (level - 1)))) := by
        rw [h2.ext.table, rd_buf (by omega)]
      unfold nevilleError nevilleExtrapolate
      rw [if_neg (by omega), hta, htb]
      have hm : nrm (Spec.call (derivs cc) n W (.fmadd (h .diff) (h (tabSlot fl'.swapped level))
          (h (tabSlot fl'.swapped (level - 1))) (-FOps.lit 1)) (h .diff)) =
          nrm (vfmadd (W (h (tabSlot fl'.swapped level))) (W (h (tabSlot fl'.swapped (level - 1)))) (-1 : ℝ)) := by
        simp only [Spec.call, put_slot hh, if_true]
        congr 1
        funext j
        simp [vfmadd]
      have hW : ∀ u : Slot, u ≠ .diff → Spec.call (derivs cc) n W (.fmadd (h .diff) (h (tabSlot fl'.swapped level))
          (h (tabSlot fl'.swapped (level - 1))) (-FOps.lit 1)) (h u) = W (h u) := fun u hu => by
        simp only [Spec.call, put_slot hh, if_neg hu]
      simp only [bsTable_eq]
      rw [tally_bind, tally_op, tally_bind, tally_maxabs]
      have hcost : cc + cost (S := ℝ) (.fmadd (h .diff) (h (tabSlot fl'.swapped level))
          (h (tabSlot fl'.swapped (level - 1))) (-FOps.lit 1)) = cc := rfl
      rw [hcost]
      dsimp only
      rw [hm, res_ok_bind, res_ok_bind, show ∀ x : ℝ, (pure x : Res ℝ) = .ok x from fun _ => rfl, res_ok_bind]
      revert hW
      generalize Spec.call (derivs cc) n W (.fmadd (h .diff) (h (tabSlot fl'.swapped level))
          (h (tabSlot fl'.swapped (level - 1))) (-FOps.lit 1)) = W'
      intro hW
      generalize nrm (vfmadd (W (h (tabSlot fl'.swapped level))) (W (h (tabSlot fl'.swapped (level - 1)))) (-1 : ℝ)) = d
      have h5 : BSRel h N fl' b' W' :=
        ⟨h2.internal.of_eq (fun i => hW _ (by simp)) (fun i => hW _ (by simp)),
          h2.ext.of_eq fun a i => hW _ (tabSlot_ne (by simp))⟩
      by_cases hd : d < cf.threshold ∨ level = cf.maxLevel - 1
      · have hd' : (FOps.lt d cf.threshold || level == cf.maxLevel - 1) = true := by
          simpa using hd
        rw [if_pos hd, if_pos hd']
        simp only [res_ok_bind, tally_bind, tally_op, tally_pure]
        refine ⟨_, rfl, ⟨h5.internal.of_eq (fun i => ?_) (fun i => ?_), h5.ext.of_eq fun a i => ?_⟩, ?_, h3.count⟩
        · simp [Spec.call, put_slot hh]
        · simp [Spec.call, put_slot hh]
        · have : tabSlot a i ≠ .y := tabSlot_ne (by simp)
          simp [Spec.call, put_slot hh, this]
        · simp only [Spec.call, put_slot hh, if_true]
          exact hW _ (tabSlot_ne (by simp))
      · have hd' : ¬ (FOps.lt d cf.threshold || level == cf.maxLevel - 1) = true := by
          simpa using hd
        rw [if_neg hd, if_neg hd', ← h4, ← hW .y0 (by simp)]
        exact ih (level + 1) (by omega) _ _ _ ⟨cc, W'⟩ _ h5 ⟨(hW .y (by simp)).trans h3.y, h3.count⟩

/-- The step. -/
theorem bs_eval (hh : Function.Injective h) {cf : BSConf ℝ} (hN : cf.steps.length = cf.maxLevel) (dt : ℝ)
    (fl : BSFlags) (b : BSState (ℕ → ℝ)) (X : Tally ℝ) (e : Eng (ℕ → ℝ) ℝ) (hr : BSRel h cf.maxLevel fl b X.bufs)
    (he : At h X e) :
    ∃ b' e', bsAdvise (still derivs) nrm cf dt b e = .ok (b', e') ∧
      BSRel h cf.maxLevel (tally derivs nrm n (bsCalls h cf.maxLevel cf.threshold cf.steps dt fl) X).1.1 b'
        (tally derivs nrm n (bsCalls h cf.maxLevel cf.threshold cf.steps dt fl) X).2.bufs ∧
      At h (tally derivs nrm n (bsCalls h cf.maxLevel cf.threshold cf.steps dt fl) X).2 e' := by
  obtain ⟨cc, V⟩ := X
  obtain ⟨he, hcc⟩ := he
  dsimp only at hr he hcc
  subst hcc
  unfold bsAdvise bsCalls
  simp only [tally_bind, tally_op]
  obtain ⟨W, hW⟩ : ∃ W, W = Spec.call (derivs e.cc) n V (.copy (h .y0) (h .y)) := ⟨_, rfl⟩
  have hV : ∀ u : Slot, W (h u) = if u = .y0 then V (h .y) else V (h u) := fun u => by
    rw [hW]; simp only [Spec.call, put_slot hh]
  obtain ⟨r, h1, h2, h3⟩ := levels_eval (derivs := derivs) (nrm := nrm) (n := n) hh hN dt e.time cf.maxLevel 0
    (by omega) fl 0 b ⟨e.cc + cost (S := ℝ) (.copy (h .y0) (h .y)), W⟩ e
    ⟨hr.internal.of_eq (fun i => by dsimp only; rw [hV]; simp) (fun i => by dsimp only; rw [hV]; simp),
      hr.ext.of_eq fun a i => by
      dsimp only
      rw [hV, if_neg (tabSlot_ne (by simp))]⟩ ⟨by dsimp only; rw [hV]; simpa using he, rfl⟩
  dsimp only at h1
  rw [hV .y0, if_pos rfl, he] at h1
  rw [← hW]
  simp only [h1, res_ok_bind]
  exact ⟨_, _, rfl, h2, ⟨h3.y, h3.count⟩⟩

section
variable {S : Type} [Add S] [Sub S] [Mul S] [Neg S] [Div S] [Zero S] [FOps S] {H : ℕ → Prop}

/-- Buffers of the solver of Bulirsch and Stoer with `N` levels. -/
def bsSlots (N : ℕ) : Slot → Prop
  | .y0 => True
  | .table i => i < N
  | .prev i => i < N
  | .diff => True
  | s => stetterSlots s

theorem bsSlots_tab {N : ℕ} (hH : ∀ s, bsSlots N s → H (h s)) (a : Bool) {i : ℕ} (hi : i < N) : H (h (tabSlot a i)) := by
  cases a
  · exact hH (.table i) hi
  · exact hH (.prev i) hi

theorem bsSlots_stetter {N : ℕ} {s : Slot} (hs : stetterSlots s) : bsSlots N s := by
  cases s <;> first | exact hs | exact hs.elim

theorem neville_allowed (hh : Function.Injective h) {N : ℕ} (hH : ∀ s, bsSlots N s → H (h s)) (ss : List ℕ) (sw : Bool)
    {k : ℕ} (hk : k < N) : Allowed H (nevilleCalls (S := S) h ss sw k) := by
  have hy := hH .y trivial
  have ht := fun a i hi => bsSlots_tab hH a (i := i) hi
  unfold nevilleCalls
  simp only [bsTable_eq, bsPrev_eq]
  refine Allowed.bind (Allowed.op (slot_ne hh (tabSlot_ne (by simp))) (by
    simp [mentions, hy, ht _ 0 (by omega)])) fun _ => ?_
  refine Allowed.forN fun j _ hj => ?_
  refine Allowed.op ⟨?_, ?_⟩ ?_
  · simp
  · simp
  · simp only [mentions, List.mem_cons, List.not_mem_nil, or_false]
    rintro x (rfl | rfl | rfl) <;> exact ht _ _ (by omega)

theorem bsSubstep_allowed (hh : Function.Injective h) {N : ℕ} (hH : ∀ s, bsSlots N s → H (h s)) (steps : List ℕ)
    (dt : S) {level : ℕ} (hl : level < N) (fl : BSFlags) : Allowed H (bsSubstepCalls h steps dt level fl) := by
  unfold bsSubstepCalls
  refine Allowed.bind (Allowed.op (slot_ne hh (by simp)) ?_) fun _ => ?_
  · simp only [mentions, List.mem_cons, List.not_mem_nil, or_false]
    rintro x (rfl | rfl)
    · exact hH .y trivial
    · exact hH .y0 trivial
  refine Allowed.bind (Allowed.forN fun i s _ => stetter_allowed hh (fun s hs => hH s (bsSlots_stetter hs)) _ s) fun _ => ?_
  exact Allowed.bind (neville_allowed hh hH _ _ hl) fun _ => Allowed.pure _

theorem bsLevel_allowed (hh : Function.Injective h) {N : ℕ} (hH : ∀ s, bsSlots N s → H (h s)) (steps : List ℕ)
    (maxLevel : ℕ) (threshold dt : S) : ∀ (rest level : ℕ), level + rest = N → ∀ s : BSFlags × ℕ,
    Allowed H (bsLevelCalls h maxLevel threshold steps dt rest level s) := by
  intro rest
  induction rest with
  | zero => intro _ _ s; exact Allowed.pure _
  | succ rest ih =>
    intro level hl s
    rw [bsLevelCalls]
    refine Allowed.bind (bsSubstep_allowed hh hH steps dt (by omega) s.1) fun fl => ?_
    dsimp only
    split_ifs with h1
    · exact ih _ (by omega) _
    · have ht := fun a i hi => bsSlots_tab hH a (i := i) hi
      have hd := hH .diff trivial
      simp only [bsTable_eq]
      refine Allowed.bind (Allowed.op trivial ?_) fun _ => Allowed.bind (Allowed.maxabs hd) fun r => ?_
      · simp only [mentions, List.mem_cons, List.not_mem_nil, or_false]
        rintro x (rfl | rfl | rfl)
        · exact hd
        · exact ht _ _ (by omega)
        · exact ht _ _ (by omega)
      split_ifs
      · refine Allowed.bind (Allowed.op (slot_ne hh (tabSlot_ne (by simp)).symm) ?_) fun _ => Allowed.pure _
        simp only [mentions, List.mem_cons, List.not_mem_nil, or_false]
        rintro x (rfl | rfl)
        · exact hH .y trivial
        · exact ht _ _ (by omega)
      · exact ih _ (by omega) _

theorem bs_allowed (hh : Function.Injective h) {N : ℕ} (hH : ∀ s, bsSlots N s → H (h s)) (steps : List ℕ)
    (threshold dt : S) (fl : BSFlags) : Allowed H (bsCalls h N threshold steps dt fl) := by
  unfold bsCalls
  refine Allowed.bind (Allowed.op (slot_ne hh (by simp)) ?_) fun _ => bsLevel_allowed hh hH steps N threshold dt N 0 (by omega) _
  simp only [mentions, List.mem_cons, List.not_mem_nil, or_false]
  rintro x (rfl | rfl)
  · exact hH .y0 trivial
  · exact hH .y trivial

end

end Spec
