import Verif.Lemmas.Determined
import Mathlib.Tactic.Linarith

/-
Solvers whose step is decided by the state of the engine alone.
-/

set_option linter.constructorNameAsVariable false
set_option linter.unusedSectionVars false

namespace Spec

open NB NB.Act

section
variable {S : Type} [Add S] [Sub S] [Mul S] [Neg S] [Div S] [Zero S] [FOps S]
variable {deriv : (ℕ → S) → ℕ → S} {nrm : (ℕ → S) → S} {n N : ℕ} (hloc : Local N deriv nrm)
variable {h h' : Slot → Handle} (hh : Function.Injective h) (hh' : Function.Injective h')

/-- The state alone. -/
def only (s : Slot) : Slot → Prop := fun u => u = s

omit [Add S] [Sub S] [Mul S] [Neg S] [Div S] [Zero S] [FOps S] in
lemma kbufs_map (h : Slot → Handle) (k : ℕ) : kbufs h k = ((List.range k).map Slot.k).map h := by
  simp [kbufs, List.map_map, Function.comp_def]

include hloc hh hh'

lemma det_euler (dt : S) : Det deriv nrm n N h h' (only .y) (only .y) (eulerCalls h dt) (eulerCalls h' dt) := by
  unfold eulerCalls
  refine (Det.bind (det_fcompute hh hh' hloc (A := only .y) rfl) fun _ => det_fmaddInplace hh hh' ?_ ?_ _).weaken (fun _ h => h) ?_
  · exact .inr rfl
  · exact .inl rfl
  · exact fun s hs => .inr hs

lemma det_midpoint (dt : S) :
    Det deriv nrm n N h h' (only .y) (only .y) (midpointCalls h dt) (midpointCalls h' dt) := by
  unfold midpointCalls
  refine (Det.bind (det_fcompute hh hh' hloc (A := only .y) rfl) fun _ => Det.bind (det_fmadd hh hh' ?_ ?_ _) fun _ =>
    Det.bind (det_fcompute hh hh' hloc ?_) fun _ => det_fmaddInplace hh hh' ?_ ?_ _).weaken (fun _ h => h) ?_
  all_goals simp [also, only]

lemma det_rk4 (dt : S) : Det deriv nrm n N h h' (only .y) (only .y) (rk4Calls h dt) (rk4Calls h' dt) := by
  unfold rk4Calls
  simp only [kbufs_map]
  refine (Det.bind (det_fcompute hh hh' hloc (A := only .y) rfl) fun _ => Det.bind (det_fmadd hh hh' ?_ ?_ _) fun _ =>
    Det.bind (det_fcompute hh hh' hloc ?_) fun _ => Det.bind (det_fmadd hh hh' ?_ ?_ _) fun _ =>
    Det.bind (det_fcompute hh hh' hloc ?_) fun _ => Det.bind (det_fmadd hh hh' ?_ ?_ _) fun _ =>
    Det.bind (det_fcompute hh hh' hloc ?_) fun _ => det_fmaddnInplace hh hh' ?_ ?_ _ _).weaken (fun _ h => h) ?_
  all_goals simp [also, only, List.range_succ]

lemma det_trapeze (refine : ℕ) {dt : S} (hne : FOps.eqb (dt / FOps.lit 2) 0 = false) :
    Det deriv nrm n N h h' (only .y) (only .y) (trapezeCalls h refine dt) (trapezeCalls h' refine dt) := by
  unfold trapezeCalls
  simp only [kbufs_map]
  let P : Slot → Prop := fun s => s = .y ∨ s = .k 0 ∨ s = .t
  refine Det.bind (det_fcompute hh hh' hloc (A := only .y) rfl) fun _ => Det.bind (det_fmadd hh hh' (a := .t) ?_ ?_ _) fun _ => ?_
  · simp [also, only]
  · simp [also, only]
  refine (Det.forN (fun _ => P) fun i _ => ?_).weaken ?_ ?_
  · refine (Det.bind (B := also P (.k 1)) (det_fcompute hh hh' hloc (by simp [P])) fun _ => ?_).weaken (fun _ h => h)
      (fun _ h => h)
    by_cases hi : i = refine
    · rw [if_pos hi, if_pos hi]
      exact (det_fmaddnInplace hh hh' (by simp [also, P]) (by simp [also, P, List.range_succ]) _ _).weaken
        (fun _ h => h) (fun _ h => .inr h)
    · rw [if_neg hi, if_neg hi]
      refine (det_fmaddn_some hh hh' (by simp [also, P]) ?_ ?_).weaken (fun _ h => h) (fun _ h => .inr (.inr h))
      · simp [also, P, List.range_succ]
      · exact ⟨(.k 0, dt / FOps.lit 2), by simp [List.range_succ], hne⟩
  · simp only [also, only, P]; tauto
  · simp only [only, P]; tauto

/-! ### Explicit Runge-Kutta -/

/-- Every stage after the first uses one of those before it. -/
def LiveRows (bt : BT S) (dt : S) : Prop :=
  ∀ i, 0 < i → i < bt.steps → ∃ j, j < i ∧ FOps.eqb (dt * bt.a i j) 0 = false

/-- The step at the subdivision level `l`. -/
def subDt (cf : RKConf S) (dt : S) : ℕ → S
  | 0 => dt
  | l + 1 => subDt cf dt l / FOps.lit cf.subdivisions

omit [Add S] [Sub S] [Mul S] [Neg S] [Zero S] hloc hh hh' in
lemma subDt_succ (cf : RKConf S) (dt : S) (l : ℕ) :
    subDt cf (dt / FOps.lit cf.subdivisions) l = subDt cf dt (l + 1) := by
  induction l with
  | zero => rfl
  | succ l ih => rw [subDt, ih]; rfl

/-- What is known before stage `i`. -/
def known (P : Slot → Prop) (i : ℕ) : Slot → Prop := fun s => P s ∨ ∃ j < i, s = .k j

lemma det_stages {bt : BT S} {cf : RKConf S} (hc : cf.correction = false) {P : Slot → Prop} {y : Slot} (hy : P y)
    {dt : S} (hl : LiveRows bt dt) :
    Det deriv nrm n N h h' P (known P bt.steps) (rkExplicitCalls h bt cf (h y) dt)
      (rkExplicitCalls h' bt cf (h' y) dt) := by
  unfold rkExplicitCalls
  refine (Det.forN (fun i => known P i) fun i hi => ?_).weaken ?_ (fun _ h => h)
  · unfold rkStageCalls
    by_cases h0 : i = 0
    · rw [if_pos h0, if_pos h0]
      refine (det_fcompute hh hh' hloc (A := known P i) (.inl hy)).weaken (fun _ h => h) ?_
      rintro s (hs | ⟨j, hj, rfl⟩)
      · exact .inr (.inl hs)
      · obtain rfl : j = i := by omega
        exact .inl rfl
    · rw [if_neg h0, if_neg h0]
      simp only [hc, Bool.false_eq_true, if_false, kbufs_map]
      have hz : ∀ t ∈ (((List.range bt.steps).map Slot.k).zip (buf i fun n => dt * bt.a i n)).take i,
          ∃ j < i, t.1 = .k j := by
        intro t ht
        obtain ⟨m, hm, rfl⟩ := List.getElem_of_mem ht
        simp only [List.length_take, List.length_zip, List.length_map, List.length_range] at hm
        exact ⟨m, by omega, by simp⟩
      refine (Det.bind (det_fmaddn_some hh hh' (A := known P i) (a := .t) (.inl hy) ?_ ?_) fun _ =>
        det_fcompute hh hh' hloc (.inl rfl)).weaken (fun _ h => h) ?_
      · intro t ht
        exact .inr (hz t ht)
      · obtain ⟨j, hj, hne⟩ := hl i (by omega) hi
        refine ⟨(.k j, dt * bt.a i j), ?_, hne⟩
        rw [List.mem_iff_getElem]
        refine ⟨j, by simp [buf]; omega, by simp [buf]⟩
      · rintro s (hs | ⟨j, hj, rfl⟩)
        · exact .inr (.inr (.inl hs))
        · by_cases hji : j = i
          · subst hji; exact .inl rfl
          · exact .inr (.inr (.inr ⟨j, by omega, rfl⟩))
  · rintro s (hs | ⟨j, hj, _⟩)
    · exact hs
    · omega

lemma det_rkError {bt : BT S} {P : Slot → Prop} :
    Det deriv nrm n N h h' (known P bt.steps) (known P bt.steps) (rkErrorCalls h bt) (rkErrorCalls h' bt) := by
  unfold rkErrorCalls
  refine Det.ite _ (fun _ => ?_) fun _ => Det.pure _
  simp only [kbufs_map]
  refine (Det.bind (det_fmaddn_none hh hh' (a := .t) ?_ _ _) fun _ => det_maxabs hloc (.inl rfl)).weaken (fun _ h => h)
    (fun _ h => .inr h)
  intro b hb
  obtain ⟨j, hj, rfl⟩ := List.mem_map.1 hb
  exact .inr ⟨j, by simpa using hj, rfl⟩

lemma det_rkAdvance {bt : BT S} {cf : RKConf S} (hc : cf.correction = false) {P : Slot → Prop} {y : Slot} (hy : P y)
    {dt : S} :
    Det deriv nrm n N h h' (known P bt.steps) P (rkAdvanceCalls h bt cf (h y) dt) (rkAdvanceCalls h' bt cf (h' y) dt) := by
  unfold rkAdvanceCalls
  simp only [hc, Bool.false_eq_true, if_false, kbufs_map]
  refine (det_fmaddnInplace hh hh' (A := known P bt.steps) (.inl hy) ?_ _ _).weaken (fun _ h => h) fun _ h => .inl h
  intro b hb
  obtain ⟨j, hj, rfl⟩ := List.mem_map.1 hb
  exact .inr ⟨j, by simpa using hj, rfl⟩

lemma det_rkLoop {bt : BT S} (he : bt.implicit = false) {cf : RKConf S} (hc : cf.correction = false) (fuel : ℕ)
    (first first' : Bool) (count : ℕ) {P : Slot → Prop} {y : Slot} (hy : P y) {dt : S}
    (hl : ∀ l, l ≤ fuel → LiveRows bt (subDt cf dt l)) :
    Det deriv nrm n N h h' P P (rkLoopCalls h bt cf fuel first count dt (h y))
      (rkLoopCalls h' bt cf fuel first' count dt (h' y)) := by
  induction fuel generalizing first first' count P y dt with
  | zero =>
    unfold rkLoopCalls
    refine Det.forN (fun _ => P) fun _ _ => ?_
    simp only [he, Bool.false_eq_true, if_false]
    exact Det.bind (det_stages hloc hh hh' hc hy (hl 0 le_rfl)) fun _ => Det.bind (det_rkError hloc hh hh') fun _ =>
      det_rkAdvance hloc hh hh' hc hy
  | succ fuel ih =>
    unfold rkLoopCalls
    refine Det.forN (fun _ => P) fun _ _ => ?_
    simp only [he, Bool.false_eq_true, if_false]
    refine Det.bind (det_stages hloc hh hh' hc hy (hl 0 (Nat.zero_le _))) fun _ => Det.bind (det_rkError hloc hh hh') fun err => ?_
    refine Det.ite _ (fun _ => ?_) fun _ => det_rkAdvance hloc hh hh' hc hy
    refine (Det.bind (det_copy hh hh' (A := known P bt.steps)
      (a := .stack (cf.maxRecursion - (fuel + 1))) (.inl hy)) fun _ =>
      Det.bind (ih false false cf.subdivisions (.inl rfl) fun l hl' => ?_) fun _ =>
        det_copy hh hh' (.inl rfl)).weaken (fun _ h => h) (fun _ h => .inr (.inr (.inl h)))
    rw [subDt_succ]
    exact hl _ (by omega)

lemma det_rk {bt : BT S} (he : bt.implicit = false) {cf : RKConf S} (hc : cf.correction = false) (al al' : Bool) {dt : S}
    (hl : ∀ l, l ≤ cf.maxRecursion → LiveRows bt (subDt cf dt l)) :
    Det deriv nrm n N h h' (only .y) (only .y) (rkCalls h bt cf dt al) (rkCalls h' bt cf dt al') := by
  unfold rkCalls
  simp only [hc, Bool.and_false, Bool.false_eq_true, if_false]
  exact Det.bind (Det.pure ()) fun _ => det_rkLoop hloc hh hh' he hc _ _ _ _ (P := only .y) rfl hl

/-! ### Bulirsch-Stoer -/

omit hloc hh hh'

/-- `m_fu[0]` and `m_fu[1]` change places. -/
def swapFu (b : Bool) (s : Slot) : Slot :=
  if b then (if s = .k 0 then .k 1 else if s = .k 1 then .k 0 else s) else s

/-- `m_table` and `m_table_prev` change places. -/
def swapTable (b : Bool) : Slot → Slot
  | .table i => if b then .prev i else .table i
  | .prev i => if b then .table i else .prev i
  | s => s

lemma swapFu_inj (b : Bool) : Function.Injective (swapFu b) := by
  intro s u e
  unfold swapFu at e
  cases b
  · simpa using e
  · simp only [if_true] at e
    split_ifs at e <;> simp_all

lemma swapTable_inj (b : Bool) : Function.Injective (swapTable b) := by
  intro s u e
  cases b <;> cases s <;> cases u <;> simp_all [swapTable]

/-- The calls of one Stetter step. -/
def stetterUnit (g : Slot → Handle) (dt : S) (first : Bool) : Act S Unit := do
  (if first then do
    op (.copy (g (.stack 0)) (g .y))
    op (.copy (g (.stack 1)) (g .y))
    op (.fcompute (g (.stack 0)) (g (.k 0)))
  else pure () : Act S Unit)
  op (.fmadd (g .t) (g (.stack 1)) (g (.k 0)) (dt / FOps.lit 2))
  op (.fcompute (g .t) (g .tmpk))
  op (.fmaddInplace (g (.stack 0)) (g .tmpk) dt)
  op (.fcompute (g (.stack 0)) (g (.k 1)))
  op (.fmaddnInplace (g (.stack 1)) ([Slot.k 0, .k 1].map g) [dt / FOps.lit 2, dt / FOps.lit 2] 2)
  op (.fmaddn (g .y) none ([Slot.stack 0, .stack 1].map g)
    [FOps.lit 1 / FOps.lit 2, FOps.lit 1 / FOps.lit 2] 2)

lemma stetter_unit (h : Slot → Handle) (dt : S) (fl : StetterFlags) :
    stetterCalls h dt fl = (do
      stetterUnit (fun s => h (swapFu fl.swapped s)) dt (!fl.allocated || !fl.initiated)
      pure ⟨true, true, !fl.swapped⟩) := by
  obtain ⟨a, i, w⟩ := fl
  cases a <;> cases i <;> cases w <;> rfl

/-- What a Stetter step needs. -/
def stetterNeeds (P : Slot → Prop) (first : Bool) : Slot → Prop := fun s =>
  P s ∨ s = .y ∨ (first = false ∧ (s = .stack 0 ∨ s = .stack 1 ∨ s = .k 0))

include hloc hh hh' in
lemma det_stetterUnit (dt : S) (first : Bool) (P : Slot → Prop) :
    Det deriv nrm n N h h' (stetterNeeds P first)
      (fun s => P s ∨ s = .y ∨ s = .stack 0 ∨ s = .stack 1 ∨ s = .k 1) (stetterUnit h dt first)
      (stetterUnit h' dt first) := by
  unfold stetterUnit
  refine Det.bind (B := fun s => P s ∨ s = .y ∨ s = .stack 0 ∨ s = .stack 1 ∨ s = .k 0) ?_ fun _ => ?_
  · refine Det.ite _ (fun hf => ?_) fun hf => ?_
    · refine (Det.bind (det_copy hh hh' (A := stetterNeeds P first) (.inr (.inl rfl))) fun _ =>
        Det.bind (det_copy hh hh' ?_) fun _ => det_fcompute hh hh' hloc ?_).weaken (fun _ h => h) ?_
      · simp [also, stetterNeeds]
      · simp [also]
      · intro s hs; simp only [also, stetterNeeds]; tauto
    · refine (Det.pure ()).weaken (fun _ h => h) ?_
      intro s hs; simp only [stetterNeeds, hf]; tauto
  · refine (Det.bind (det_fmadd hh hh'
      (A := fun s => P s ∨ s = .y ∨ s = .stack 0 ∨ s = .stack 1 ∨ s = .k 0) (a := .t) ?_ ?_ _) fun _ =>
      Det.bind (det_fcompute hh hh' hloc (f := .tmpk) (.inl rfl)) fun _ =>
      Det.bind (det_fmaddInplace hh hh' ?_ (.inl rfl) _) fun _ =>
      Det.bind (det_fcompute hh hh' hloc (f := .k 1) ?_) fun _ =>
      Det.bind (det_fmaddnInplace hh hh' ?_ ?_ _ _) fun _ =>
      det_fmaddn_none hh hh' ?_ _ _).weaken (fun _ h => h) ?_
    all_goals simp [also]
    intro s hs
    tauto

include hloc hh hh' in
/-- A Stetter integration from the beginning is decided by the state. -/
lemma stetter_loop (P : Slot → Prop) (hP : ∀ i, ¬ P (.k i)) (dt : S) (cnt : ℕ) (fl fl' : StetterFlags)
    {V W : Buffers S} (e : Agree N h h' (also P .y) V W) :
    Agree N h h' (also P .y)
      (eval deriv nrm n (forN cnt fl.reset (fun _ fl => stetterCalls h dt fl)) V).2
      (eval deriv nrm n (forN cnt fl'.reset (fun _ fl => stetterCalls h' dt fl)) W).2 := by
  have hfix : ∀ b s, (P s ∨ s = .y ∨ s = .stack 0 ∨ s = .stack 1) → swapFu b s = s := by
    intro b s hs
    unfold swapFu
    have h0 : s ≠ .k 0 := by rintro rfl; rcases hs with h | h | h | h <;> first | exact hP _ h | cases h
    have h1 : s ≠ .k 1 := by rintro rfl; rcases hs with h | h | h | h <;> first | exact hP _ h | cases h
    simp [h0, h1]
  suffices key : ∀ cnt,
      let a := eval deriv nrm n (forN cnt fl.reset (fun _ fl => stetterCalls h dt fl)) V
      let b := eval deriv nrm n (forN cnt fl'.reset (fun _ fl => stetterCalls h' dt fl)) W
      (!a.1.allocated || !a.1.initiated) = (!b.1.allocated || !b.1.initiated) ∧
      Agree N (fun s => h (swapFu a.1.swapped s)) (fun s => h' (swapFu b.1.swapped s))
        (stetterNeeds P (!a.1.allocated || !a.1.initiated)) a.2 b.2 by
    obtain ⟨_, k2⟩ := key cnt
    intro s hs
    have hs' : P s ∨ s = .y ∨ s = .stack 0 ∨ s = .stack 1 := by
      rcases hs with h | h
      · exact .inr (.inl h)
      · exact .inl h
    have := k2 s (by rcases hs with h | h; exacts [.inr (.inl h), .inl h])
    simpa only [hfix _ s hs'] using this
  intro cnt
  induction cnt with
  | zero =>
    refine ⟨by simp [forN, eval, StetterFlags.reset, pure], ?_⟩
    intro s hs
    have hs' : also P .y s := by
      rcases hs with h | h | ⟨h, _⟩
      · exact .inr h
      · exact .inl h
      · simp [forN, eval, StetterFlags.reset, pure] at h
    have hs'' : P s ∨ s = .y ∨ s = .stack 0 ∨ s = .stack 1 := by
      rcases hs' with h | h
      · exact .inr (.inl h)
      · exact .inl h
    simp only [hfix _ s hs'']
    exact e s hs'
  | succ cnt ih =>
    obtain ⟨i1, i2⟩ := ih
    simp only [forN, eval_bind]
    set a := eval deriv nrm n (forN cnt fl.reset (fun _ fl => stetterCalls h dt fl)) V
    set b := eval deriv nrm n (forN cnt fl'.reset (fun _ fl => stetterCalls h' dt fl)) W
    have ep : ∀ (a : StetterFlags) V, eval deriv nrm n (pure a : Act S StetterFlags) V = (a, V) := fun _ _ => rfl
    rw [stetter_unit, stetter_unit, eval_bind, eval_bind, ← i1, ep, ep]
    have hd := det_stetterUnit (n := n) hloc
      (hh.comp (swapFu_inj a.1.swapped)) (hh'.comp (swapFu_inj b.1.swapped)) dt (!a.1.allocated || !a.1.initiated) P
      a.2 b.2 i2
    refine ⟨rfl, ?_⟩
    intro s hs
    have key : ∀ c, swapFu (!c) (.k 0) = swapFu c (.k 1) := by decide
    rcases hs with h1 | h1 | ⟨_, h1 | h1 | h1⟩
    · have := hd.2 s (.inl h1)
      simpa only [Function.comp_def, hfix _ s (.inl h1)] using this
    · have := hd.2 s (.inr (.inl h1))
      simpa only [Function.comp_def, hfix _ s (.inr (.inl h1))] using this
    · have := hd.2 s (.inr (.inr (.inl h1)))
      simpa only [Function.comp_def, hfix _ s (.inr (.inr (.inl h1)))] using this
    · have := hd.2 s (.inr (.inr (.inr (.inl h1))))
      simpa only [Function.comp_def, hfix _ s (.inr (.inr (.inr h1)))] using this
    · subst h1
      have := hd.2 (.k 1) (.inr (.inr (.inr (.inr rfl))))
      simpa only [Function.comp_def, ← key] using this

/-- What is known of the tables at a level. -/
def bsKnown (level : ℕ) : Slot → Prop := fun s => s = .y ∨ s = .y0 ∨ ∃ j < level, s = .table j

include hloc hh hh' in
lemma det_neville (ss : List ℕ) (sw sw' : Bool) (k : ℕ) :
    Det deriv nrm n N (fun s => h (swapTable sw s)) (fun s => h' (swapTable sw' s))
      (fun s => s = .y ∨ s = .y0 ∨ ∃ j < k, s = .prev j) (bsKnown (k + 1)) (nevilleCalls h ss sw k)
      (nevilleCalls (S := S) h' ss sw' k) := by
  have e1 : ∀ (g : Slot → Handle) b j, bsTable g b j = g (swapTable b (.table j)) := fun g b j => rfl
  have e2 : ∀ (g : Slot → Handle) b j, bsPrev g b j = g (swapTable b (.prev j)) := fun g b j => rfl
  have g1 := hh.comp (swapTable_inj sw)
  have g2 := hh'.comp (swapTable_inj sw')
  unfold nevilleCalls
  simp only [e1, e2]
  refine Det.bind (det_copy g1 g2 (a := .table 0) (b := .y) (.inl rfl)) fun _ => ?_
  refine (Det.forN (fun i s => s = .y ∨ s = .y0 ∨ (∃ j < k, s = .prev j) ∨ ∃ j < i + 1, s = .table j)
    fun j hj => ?_).weaken ?_ ?_
  · refine (det_fmaddn_none g1 g2 (a := .table (j + 1)) (bs := [.table j, .prev j]) ?_ _ _).weaken
      (fun _ h => h) ?_
    · intro b hb
      rcases List.mem_cons.1 hb with rfl | hb
      · exact .inr (.inr (.inr ⟨j, by omega, rfl⟩))
      · obtain rfl : b = .prev j := by simpa using hb
        exact .inr (.inr (.inl ⟨j, hj, rfl⟩))
    · rintro s (h | h | h | ⟨i, hi, rfl⟩)
      · exact .inr (.inl h)
      · exact .inr (.inr (.inl h))
      · exact .inr (.inr (.inr (.inl h)))
      · by_cases hij : i = j + 1
        · subst hij; exact .inl rfl
        · exact .inr (.inr (.inr (.inr ⟨i, by omega, rfl⟩)))
  · rintro s (h | h | h | ⟨i, hi, rfl⟩)
    · exact .inr (.inl h)
    · exact .inr (.inr (.inl h))
    · exact .inr (.inr (.inr h))
    · obtain rfl : i = 0 := by omega
      exact .inl rfl
  · rintro s (h | h | h)
    · exact .inl h
    · exact .inr (.inl h)
    · exact .inr (.inr (.inr h))

include hloc hh hh' in
lemma bs_substep (steps : List ℕ) (dt : S) (level : ℕ) (s s' : BSFlags) {V W : Buffers S}
    (e : Agree N (fun u => h (swapTable s.swapped u)) (fun u => h' (swapTable s'.swapped u)) (bsKnown level) V W) :
    let a := eval deriv nrm n (bsSubstepCalls h steps dt level s) V
    let b := eval deriv nrm n (bsSubstepCalls h' steps dt level s') W
    Agree N (fun u => h (swapTable a.1.swapped u)) (fun u => h' (swapTable b.1.swapped u)) (bsKnown (level + 1))
      a.2 b.2 := by
  unfold bsSubstepCalls
  simp only [eval_bind]
  set V1 := (eval deriv nrm n (op (.copy (h .y) (h .y0))) V).2 with hV1
  set W1 := (eval deriv nrm n (op (.copy (h' .y) (h' .y0))) W).2 with hW1
  let P : Slot → Prop := fun u => u = .y0 ∨ ∃ j < level, u = .prev j
  have hsw : ∀ b j, swapTable (!b) (.prev j) = swapTable b (.table j) := by
    intro b j; cases b <;> rfl
  have g1 := hh.comp (swapTable_inj (!s.swapped))
  have g2 := hh'.comp (swapTable_inj (!s'.swapped))
  have e0 : Agree N (h ∘ swapTable (!s.swapped)) (h' ∘ swapTable (!s'.swapped)) P V W := by
    rintro u (rfl | ⟨j, hj, rfl⟩)
    · exact e .y0 (.inr (.inl rfl))
    · simp only [Function.comp_def, hsw]
      exact e (.table j) (.inr (.inr ⟨j, hj, rfl⟩))
  have e1 : Agree N (h ∘ swapTable (!s.swapped)) (h' ∘ swapTable (!s'.swapped)) (also P .y) V1 W1 :=
    (det_copy (deriv := deriv) (nrm := nrm) (n := n) (N := N) g1 g2 (a := .y) (b := .y0) (A := P) (.inl rfl) V W e0).2
  have e2 := stetter_loop (n := n) hloc g1 g2 P
    (by rintro i (h | ⟨j, _, h⟩) <;> cases h) (dt / FOps.lit (steps.getD level 0)) (steps.getD level 0)
    s.internal s'.internal e1
  have hst : ∀ (g : Slot → Handle) b (d : S) fl, stetterCalls (g ∘ swapTable b) d fl = stetterCalls g d fl := by
    intro g b d fl; rfl
  simp only [hst] at e2
  have e3 := (det_neville (n := n) hloc hh hh' (extrSteps 2 steps) (!s.swapped)
    (!s'.swapped) level _ _ (e2.mono (by
      rintro u (rfl | rfl | h1)
      · exact .inl rfl
      · exact .inr (.inl rfl)
      · exact .inr (.inr h1)))).2
  exact e3

include hloc hh hh' in
lemma bs_levels (maxLevel : ℕ) (threshold : S) (steps : List ℕ) (dt : S) (rest level : ℕ) (s s' : BSFlags × ℕ)
    (hs : s.2 = s'.2) {V W : Buffers S}
    (e : Agree N (fun u => h (swapTable s.1.swapped u)) (fun u => h' (swapTable s'.1.swapped u)) (bsKnown level) V W) :
    let a := eval deriv nrm n (bsLevelCalls h maxLevel threshold steps dt rest level s) V
    let b := eval deriv nrm n (bsLevelCalls h' maxLevel threshold steps dt rest level s') W
    a.1.2 = b.1.2 ∧ Same N (a.2 (h .y)) (b.2 (h' .y)) := by
  induction rest generalizing level s s' V W with
  | zero => exact ⟨hs, e .y (.inl rfl)⟩
  | succ rest ih =>
    simp only [bsLevelCalls, eval_bind]
    have e1 := bs_substep (n := n) hloc hh hh' steps dt level s.1 s'.1 e
    set a := eval deriv nrm n (bsSubstepCalls h steps dt level s.1) V
    set b := eval deriv nrm n (bsSubstepCalls h' steps dt level s'.1) W
    have hs2 : (a.1, s.2 + steps.getD level 0).2 = (b.1, s'.2 + steps.getD level 0).2 := by simp [hs]
    by_cases hl : level < 2
    · simp only [if_pos hl]
      exact ih (level + 1) (a.1, s.2 + steps.getD level 0) (b.1, s'.2 + steps.getD level 0) hs2 e1
    · simp only [if_neg hl, eval_bind]
      have g1 := hh.comp (swapTable_inj a.1.swapped)
      have g2 := hh'.comp (swapTable_inj b.1.swapped)
      have e2 := (det_fmadd (deriv := deriv) (nrm := nrm) (n := n) (N := N) g1 g2 (a := .diff) (b := .table level)
        (c := .table (level - 1)) (A := bsKnown (level + 1)) (.inr (.inr ⟨level, by omega, rfl⟩))
        (.inr (.inr ⟨level - 1, by omega, rfl⟩)) (-FOps.lit 1) _ _ e1).2
      have e3 := det_maxabs (n := n) hloc (h := h ∘ swapTable a.1.swapped)
        (h' := h' ∘ swapTable b.1.swapped) (a := .diff) (A := also (bsKnown (level + 1)) .diff) (.inl rfl) _ _ e2
      have em := e3.1
      change (eval deriv nrm n (maxabs (h .diff)) (eval deriv nrm n (op (.fmadd (h .diff) (bsTable h a.1.swapped level)
        (bsTable h a.1.swapped (level - 1)) (-FOps.lit 1))) a.2).2).1 = (eval deriv nrm n (maxabs (h' .diff)) (eval deriv nrm n
        (op (.fmadd (h' .diff) (bsTable h' b.1.swapped level)
        (bsTable h' b.1.swapped (level - 1)) (-FOps.lit 1))) b.2).2).1 at em
      rw [← em]
      have e4 := e3.2
      split
      · refine ⟨hs2, ?_⟩
        exact (det_copy (deriv := deriv) (nrm := nrm) (n := n) (N := N) g1 g2 (a := .y) (b := .table level)
          (A := also (bsKnown (level + 1)) .diff) (.inr (.inr (.inr ⟨level, by omega, rfl⟩))) _ _ e4).2 .y (.inl rfl)
      · exact ih (level + 1) (a.1, s.2 + steps.getD level 0) (b.1, s'.2 + steps.getD level 0) hs2
          (e4.mono fun _ h => .inr h)

include hloc hh hh' in
/-- A step of Bulirsch-Stoer is decided by the state. -/
lemma bs_state (maxLevel : ℕ) (threshold : S) (steps : List ℕ) (dt : S) (s s' : BSFlags) {V W : Buffers S}
    (e : Same N (V (h .y)) (W (h' .y))) :
    let a := eval deriv nrm n (bsCalls h maxLevel threshold steps dt s) V
    let b := eval deriv nrm n (bsCalls h' maxLevel threshold steps dt s') W
    a.1.2 = b.1.2 ∧ Same N (a.2 (h .y)) (b.2 (h' .y)) := by
  unfold bsCalls
  simp only [eval_bind]
  have g1 := hh.comp (swapTable_inj s.swapped)
  have g2 := hh'.comp (swapTable_inj s'.swapped)
  have e1 := (det_copy (deriv := deriv) (nrm := nrm) (n := n) (N := N) g1 g2 (a := .y0) (b := .y) (A := only .y) rfl V W
    (by rintro u rfl; exact e)).2
  exact bs_levels hloc hh hh' maxLevel threshold steps dt maxLevel 0 (s, 0) (s', 0) rfl (e1.mono (by
    rintro u (rfl | rfl | ⟨j, hj, _⟩)
    · exact .inr rfl
    · exact .inl rfl
    · omega))

end

end Spec
