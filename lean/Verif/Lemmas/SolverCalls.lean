import Verif.Spec.Program
import Verif.Lemmas.Prog
import Verif.Lemmas.SolverOps
import Verif.Model.RealScalar
import Mathlib.Data.Real.Basic
import Mathlib.Tactic.Ring

/-
Programs of calls on the machine, and what the solvers' programs compute.
-/

namespace Spec

open NB

section
variable {S : Type} [Add S] [Sub S] [Mul S] [Neg S] [Zero S] [FOps S]
variable {deriv : (Nat → S) → Nat → S} {nrm : (Nat → S) → S} {n : Nat}

@[simp] theorem eval_pure {α : Type} (a : α) (V : Buffers S) :
    eval deriv nrm n (pure a : Act S α) V = (a, V) := rfl

@[simp] theorem eval_op (c : Call S) (V : Buffers S) :
    eval deriv nrm n (Act.op c) V = ((), Spec.call deriv n V c) := rfl

@[simp] theorem eval_maxabs (h : Nat) (V : Buffers S) :
    eval deriv nrm n (Act.maxabs h) V = (nrm (V h), V) := rfl

theorem eval_bind {α β : Type} (p : Act S α) (f : α → Act S β) : ∀ V : Buffers S,
    eval deriv nrm n (p >>= f) V = eval deriv nrm n (f (eval deriv nrm n p V).1) (eval deriv nrm n p V).2 := by
  induction p with
  | ret a => intro V; rfl
  | call c k ih => intro V; exact ih _
  | norm h k ih => intro V; exact ih _ _

theorem eval_forN {σ : Type} (N : Nat) (s : σ) (f : Nat → σ → Act S σ) (V : Buffers S) :
    eval deriv nrm n (forN N s f) V = foldN N (s, V) (fun i p => eval deriv nrm n (f i p.1) p.2) := by
  induction N with
  | zero => rfl
  | succ N ih => rw [forN_succ, eval_bind, foldN, ih]

variable {derivs : Nat → (Nat → S) → Nat → S}

@[simp] theorem tally_pure {α : Type} (a : α) (X : Tally S) :
    tally derivs nrm n (pure a : Act S α) X = (a, X) := rfl

@[simp] theorem tally_op (c : Call S) (X : Tally S) :
    tally derivs nrm n (Act.op c) X = ((), ⟨X.count + cost c, Spec.call (derivs X.count) n X.bufs c⟩) := rfl

@[simp] theorem tally_maxabs (h : Nat) (X : Tally S) :
    tally derivs nrm n (Act.maxabs h) X = (nrm (X.bufs h), X) := rfl

theorem tally_bind {α β : Type} (p : Act S α) (f : α → Act S β) : ∀ X : Tally S,
    tally derivs nrm n (p >>= f) X = tally derivs nrm n (f (tally derivs nrm n p X).1) (tally derivs nrm n p X).2 := by
  induction p with
  | ret a => intro X; rfl
  | call c k ih => intro X; exact ih _
  | norm h k ih => intro X; exact ih _ _

theorem tally_forN {σ : Type} (N : Nat) (s : σ) (f : Nat → σ → Act S σ) (X : Tally S) :
    tally derivs nrm n (forN N s f) X = foldN N (s, X) (fun i p => tally derivs nrm n (f i p.1) p.2) := by
  induction N with
  | zero => rfl
  | succ N ih => rw [forN_succ, tally_bind, foldN, ih]

/-- With one derivative for all times, the number of derivatives does not matter. -/
theorem tally_eval {α : Type} (p : Act S α) : ∀ X : Tally S,
    (tally (fun _ => deriv) nrm n p X).1 = (eval deriv nrm n p X.bufs).1 ∧
    (tally (fun _ => deriv) nrm n p X).2.bufs = (eval deriv nrm n p X.bufs).2 := by
  induction p with
  | ret a => intro X; exact ⟨rfl, rfl⟩
  | call c k ih => intro X; exact ih _
  | norm h k ih => intro X; exact ih _ _

end

section
variable {S : Type}

theorem Allowed.pure {α : Type} {H : Nat → Prop} (a : α) : Allowed H (pure a : Act S α) := trivial

theorem Allowed.op {H : Nat → Prop} {c : Call S} (h : Proper c) (h' : ∀ x ∈ mentions c, H x) :
    Allowed H (Act.op c) := ⟨⟨h, h'⟩, trivial⟩

theorem Allowed.maxabs {H : Nat → Prop} {h : Nat} (hh : H h) : Allowed H (Act.maxabs h : Act S S) :=
  ⟨hh, fun _ => trivial⟩

theorem Allowed.bind {α β : Type} {H : Nat → Prop} {p : Act S α} {f : α → Act S β} (hp : Allowed H p)
    (hf : ∀ a, Allowed H (f a)) : Allowed H (p >>= f) := by
  induction p with
  | ret a => exact hf a
  | call c k ih => exact ⟨hp.1, ih hp.2⟩
  | norm h k ih => exact ⟨hp.1, fun r => ih r (hp.2 r)⟩

theorem Allowed.forN {σ : Type} {H : Nat → Prop} {N : Nat} {s : σ} {f : Nat → σ → Act S σ}
    (hf : ∀ i s, i < N → Allowed H (f i s)) : Allowed H (forN N s f) := by
  induction N with
  | zero => exact trivial
  | succ N ih =>
    rw [forN_succ]
    exact Allowed.bind (ih fun i s hi => hf i s (by omega)) fun s => hf N s (by omega)

theorem Allowed.mono {α : Type} {H H' : Nat → Prop} (hH : ∀ h, H h → H' h) {p : Act S α} (hp : Allowed H p) :
    Allowed H' p := by
  induction p with
  | ret a => trivial
  | call c k ih => exact ⟨⟨hp.1.1, fun h hh => hH h (hp.1.2 h hh)⟩, ih hp.2⟩
  | norm h k ih => exact ⟨hH h hp.1, fun r => ih r (hp.2 r)⟩

end

section
variable {S : Type}

theorem put_same (V : Buffers S) (a : Nat) (x : Nat → S) : put V a x a = x := if_pos rfl

theorem put_ne (V : Buffers S) {a b : Nat} (x : Nat → S) (h : b ≠ a) : put V a x b = V b := if_neg h

theorem put_put (V : Buffers S) (a : Nat) (x y : Nat → S) : put (put V a x) a y = put V a y := by
  funext h
  unfold put
  split <;> rfl

theorem put_self (V : Buffers S) (a : Nat) : put V a (V a) = V := by
  funext h
  unfold put
  split
  · rename_i e; rw [e]
  · rfl

theorem put_comm (V : Buffers S) {a b : Nat} (h : a ≠ b) (x y : Nat → S) :
    put (put V a x) b y = put (put V b y) a x := by
  funext k
  unfold put
  by_cases h1 : k = b
  · rw [if_pos h1, if_neg (by omega), if_pos h1]
  · rw [if_neg h1]
    by_cases h2 : k = a
    · rw [if_pos h2, if_pos h2]
    · rw [if_neg h2, if_neg h2, if_neg h1]

end

section
variable {S : Type} [Add S] [Sub S] [Mul S] [Neg S] [Zero S] [FOps S]

omit [Sub S] [Neg S] in
theorem foldl_addTerm_other {a x : Nat} (hx : x ≠ a) (ts : List (Nat × S)) :
    ∀ V : Buffers S, ts.foldl (addTerm a) V x = V x := by
  induction ts with
  | nil => intro V; rfl
  | cons t ts ih =>
    intro V
    rw [List.foldl_cons, ih]
    unfold addTerm
    split
    · rfl
    · exact put_ne _ _ hx

omit [Sub S] [Neg S] in
theorem sumFrom_other {a b x : Nat} (hx : x ≠ a) (ts : List (Nat × S)) :
    ∀ V : Buffers S, sumFrom a b V ts x = V x := by
  induction ts with
  | nil => intro V; rfl
  | cons t ts ih =>
    intro V
    unfold sumFrom
    split
    · exact ih V
    · rw [foldl_addTerm_other hx]; exact put_ne _ _ hx

omit [Neg S] in
theorem foldl_addCorrected_other {a corr x : Nat} (hx : x ≠ a) (hc : x ≠ corr) (ts : List (Nat × S)) :
    ∀ V : Buffers S, ts.foldl (addCorrected a corr) V x = V x := by
  induction ts with
  | nil => intro V; rfl
  | cons t ts ih =>
    intro V
    rw [List.foldl_cons, ih]
    unfold addCorrected
    split
    · rfl
    · rw [put_ne _ _ hx, put_ne _ _ hc]

/-- A call changes nothing it does not mention. -/
theorem call_other {deriv : (Nat → S) → Nat → S} {n : Nat} (V : Buffers S) (c : Call S) {x : Nat}
    (hx : x ∉ mentions c) : Spec.call deriv n V c x = V x := by
  cases c with
  | fmaddn a b c d k =>
    cases b with
    | none =>
      simp only [mentions, List.mem_cons, not_or] at hx
      simp only [Spec.call]
      rw [foldl_addTerm_other hx.1, put_ne _ _ hx.1]
    | some b =>
      simp only [mentions, List.mem_cons, not_or] at hx
      exact sumFrom_other hx.1 _ _
  | fmaddnInplace a b c k =>
    simp only [mentions, List.mem_cons, not_or] at hx
    exact foldl_addTerm_other hx.1 _ _
  | fmaddnCorr a corr b c k =>
    simp only [mentions, List.mem_cons, not_or] at hx
    exact foldl_addCorrected_other hx.1 hx.2.1 _ _
  | _ =>
    simp only [mentions, List.mem_cons, not_or, List.not_mem_nil, not_false_eq_true, and_true] at hx
    simp only [Spec.call]
    first
      | exact put_ne _ _ hx
      | exact put_ne _ _ hx.1
      | exact put_ne _ _ hx.2

/-- A program changes nothing outside the buffers it is allowed. -/
theorem eval_other {α : Type} {H : Nat → Prop} {deriv : (Nat → S) → Nat → S} {nrm : (Nat → S) → S} {n : Nat}
    {p : Act S α} (hp : Allowed H p) {x : Nat} (hx : ¬ H x) : ∀ V : Buffers S,
    (eval deriv nrm n p V).2 x = V x := by
  induction p with
  | ret a => intro V; rfl
  | call c k ih =>
    intro V
    rw [eval, ih hp.2, call_other _ _ fun hm => hx (hp.1.2 x hm)]
  | norm h k ih => intro V; exact ih _ (hp.2 _) V

theorem tally_other {α : Type} {H : Nat → Prop} {derivs : Nat → (Nat → S) → Nat → S} {nrm : (Nat → S) → S} {n : Nat}
    {p : Act S α} (hp : Allowed H p) {x : Nat} (hx : ¬ H x) : ∀ X : Tally S,
    (tally derivs nrm n p X).2.bufs x = X.bufs x := by
  induction p with
  | ret a => intro X; rfl
  | call c k ih =>
    intro X
    rw [tally, ih hp.2]
    exact call_other _ _ fun hm => hx (hp.1.2 x hm)
  | norm h k ih => intro X; exact ih _ (hp.2 _) X

/-- **Simulation**: a program run on an engine that implements the machine gives what the machine gives. -/
theorem run_eval {α σ : Type} {E : EngineOps S σ} {n : Nat} {H : Nat → Prop} {deriv : (Nat → S) → Nat → S}
    {nrm : (Nat → S) → S} {Rep : Buffers S → σ → Prop} (hE : Implements E n H deriv nrm Rep) {p : Act S α}
    (hp : Allowed H p) : ∀ {V : Buffers S} {s : σ}, Rep V s →
    ∃ s', p.run E s = .ok ((eval deriv nrm n p V).1, s') ∧ Rep (eval deriv nrm n p V).2 s' := by
  induction p with
  | ret a => intro V s hr; exact ⟨s, rfl, hr⟩
  | call c k ih =>
    intro V s hr
    obtain ⟨s1, h1, h2⟩ := hE.call c V s hp.1.1 hp.1.2 hr
    obtain ⟨s2, h3, h4⟩ := ih hp.2 h2
    exact ⟨s2, by rw [Act.run, h1]; exact h3, h4⟩
  | norm h k ih =>
    intro V s hr
    obtain ⟨s1, h1, h2⟩ := hE.norm h V s hp.1 hr
    obtain ⟨s2, h3, h4⟩ := ih (nrm (V h)) (hp.2 _) h2
    exact ⟨s2, by rw [Act.run, h1]; exact h3, h4⟩

end

/-! ### Sums of terms -/

theorem terms_eq {S : Type} (h : Slot → Handle) {N i : Nat} (hi : i ≤ N) (c : Nat → S) :
    ((kbufs h N).zip (buf i c)).take i = (List.range i).map fun j => (h (.k j), c j) := by
  apply List.ext_getElem?
  intro j
  by_cases hj : j < i
  · have hjN : j < N := by omega
    simp [kbufs, buf, List.zip, hj, hjN]
  · rw [List.getElem?_eq_none (by simp [kbufs, buf]; omega), List.getElem?_eq_none (by simp; omega)]

section
variable {a corr : Nat} {b : Nat → Nat} {c : Nat → ℝ}

theorem addTerms_eq (hb : ∀ j, b j ≠ a) (V : Buffers ℝ) (i : Nat) :
    ((List.range i).map fun j => (b j, c j)).foldl (addTerm a) V =
      put V a (vfmaddnInplace i (V a) (fun j => V (b j)) c) := by
  induction i with
  | zero => exact (put_self V a).symm
  | succ i ih =>
    rw [List.range_succ, List.map_append, List.foldl_append, ih]
    simp only [List.map_cons, List.map_nil, List.foldl_cons, List.foldl_nil, addTerm, vfmaddnInplace, foldN,
      real_eqb, decide_eq_true_eq]
    by_cases h0 : c i = 0
    · simp only [h0, if_true]
    · simp only [h0, if_false]
      rw [put_put, put_same, put_ne _ _ (hb i)]
      congr 1
      funext j
      simp only [vfmadd, Pi.add_apply, Pi.smul_apply, smul_eq_mul]
      ring

/-- `sumFrom` as a loop with a flag. -/
noncomputable def sumStep (a b : Nat) (p : Buffers ℝ × Bool) (t : Nat × ℝ) : Buffers ℝ × Bool :=
  if t.2 = 0 then p
  else (put p.1 a fun j => p.1 (if p.2 then a else b) j + p.1 t.1 j * t.2, true)

theorem sumStep_true (a b : Nat) (ts : List (Nat × ℝ)) : ∀ V : Buffers ℝ,
    ts.foldl (sumStep a b) (V, true) = (ts.foldl (addTerm a) V, true) := by
  induction ts with
  | nil => intro V; rfl
  | cons t ts ih =>
    intro V
    rw [List.foldl_cons, List.foldl_cons]
    have : sumStep a b (V, true) t = (addTerm a V t, true) := by
      simp only [sumStep, addTerm, real_eqb, decide_eq_true_eq, if_true]
      split_ifs <;> rfl
    rw [this, ih]

theorem sumFrom_loop (a b : Nat) (ts : List (Nat × ℝ)) : ∀ V : Buffers ℝ,
    sumFrom a b V ts = (ts.foldl (sumStep a b) (V, false)).1 := by
  induction ts with
  | nil => intro V; rfl
  | cons t ts ih =>
    intro V
    rw [List.foldl_cons]
    unfold sumFrom
    simp only [real_eqb, decide_eq_true_eq]
    by_cases h : t.2 = 0
    · rw [if_pos h, ih]
      have : sumStep a b (V, false) t = (V, false) := if_pos h
      rw [this]
    · have : sumStep a b (V, false) t = (put V a fun j => V b j + V t.1 j * t.2, true) := if_neg h
      rw [if_neg h, this, sumStep_true]

theorem sumFrom_eq {y : Nat} (hya : y ≠ a) (hb : ∀ j, b j ≠ a) (V : Buffers ℝ) (i : Nat) :
    sumFrom a y V ((List.range i).map fun j => (b j, c j)) =
      put V a (vfmaddn i (V a) (some (V y)) (fun j => V (b j)) c) := by
  rw [sumFrom_loop]
  have key : ∀ i, ((List.range i).map fun j => (b j, c j)).foldl (sumStep a y) (V, false) =
      (put V a (vfmaddnLoop i (V a) (V y) false (fun j => V (b j)) c).1,
        (vfmaddnLoop i (V a) (V y) false (fun j => V (b j)) c).2) := by
    intro i
    induction i with
    | zero => exact Prod.ext (put_self V a).symm rfl
    | succ i ih =>
      rw [List.range_succ, List.map_append, List.foldl_append, ih]
      simp only [List.map_cons, List.map_nil, List.foldl_cons, List.foldl_nil]
      rw [show vfmaddnLoop (i + 1) (V a) (V y) false (fun j => V (b j)) c =
        (fun s : (ℕ → ℝ) × Bool => if c i = 0 then s else if s.2 then (vfmadd s.1 (V (b i)) (c i), true)
          else (vfmadd (V y) (V (b i)) (c i), true)) (vfmaddnLoop i (V a) (V y) false (fun j => V (b j)) c) from rfl]
      generalize vfmaddnLoop i (V a) (V y) false (fun j => V (b j)) c = s
      obtain ⟨x, f⟩ := s
      simp only [sumStep]
      by_cases h0 : c i = 0
      · simp only [h0, if_true]
      · simp only [h0, if_false]
        have hm : ∀ z : ℕ → ℝ, (fun j => z j + V (b i) j * c i) = vfmadd z (V (b i)) (c i) := by
          intro z
          funext j
          simp only [vfmadd, Pi.add_apply, Pi.smul_apply, smul_eq_mul]
          ring
        cases f
        · simp only [Bool.false_eq_true, if_false, put_put, put_ne _ _ hya, put_ne _ _ (hb i), hm]
        · simp only [if_true, put_put, put_same, put_ne _ _ (hb i), hm]
  rw [key i]
  rfl

theorem addCorrecteds_eq (hac : a ≠ corr) (hb : ∀ j, b j ≠ a) (hb' : ∀ j, b j ≠ corr) (V : Buffers ℝ) (i : Nat) :
    ((List.range i).map fun j => (b j, c j)).foldl (addCorrected a corr) V =
      put (put V corr (vfmaddnCorr i (V a) (V corr) (fun j => V (b j)) c).2) a
        (vfmaddnCorr i (V a) (V corr) (fun j => V (b j)) c).1 := by
  induction i with
  | zero =>
    show V = put (put V corr (V corr)) a (V a)
    rw [put_self, put_self]
  | succ i ih =>
    rw [List.range_succ, List.map_append, List.foldl_append, ih]
    simp only [List.map_cons, List.map_nil, List.foldl_cons, List.foldl_nil]
    rw [show vfmaddnCorr (i + 1) (V a) (V corr) (fun j => V (b j)) c =
      (fun s : (ℕ → ℝ) × (ℕ → ℝ) => if c i = 0 then s else summationK s.1 (c i • V (b i)) s.2)
        (vfmaddnCorr i (V a) (V corr) (fun j => V (b j)) c) from rfl]
    generalize vfmaddnCorr i (V a) (V corr) (fun j => V (b j)) c = s
    obtain ⟨x, y⟩ := s
    simp only [addCorrected, real_eqb, decide_eq_true_eq]
    by_cases h0 : c i = 0
    · simp only [h0, if_true]
    · simp only [h0, if_false, put_same, put_ne _ _ hac.symm, put_ne _ _ (hb i), put_ne _ _ (hb' i)]
      have h1 : (fun j => x j + (V (b i) j * c i - y j)) = (summationK x (c i • V (b i)) y).1 := by
        funext j
        simp only [summationK, Pi.add_apply, Pi.sub_apply, Pi.smul_apply, smul_eq_mul]
        ring
      have h2 : (fun j => x j + (V (b i) j * c i - y j) - x j - (V (b i) j * c i - y j)) =
          (summationK x (c i • V (b i)) y).2 := by
        funext j
        simp only [summationK, Pi.add_apply, Pi.sub_apply, Pi.smul_apply, smul_eq_mul]
        ring
      rw [h1, h2, put_comm _ hac, put_put, put_put]

end

end Spec
