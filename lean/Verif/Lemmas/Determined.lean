import Verif.Lemmas.SolverMachine2

/-
Which buffers decide what a program does.  A program is run twice, with two layouts of the buffers; only the
buffers in `A` agree before.
-/

set_option linter.constructorNameAsVariable false
set_option linter.unusedSectionVars false

namespace Spec

open NB NB.Act

section
variable {S : Type} [Add S] [Sub S] [Mul S] [Neg S] [Zero S] [FOps S]
variable {deriv : (ℕ → S) → ℕ → S} {nrm : (ℕ → S) → S} {n N : ℕ}

/-- The first `N` numbers are the same. -/
def Same (N : ℕ) (x x' : ℕ → S) : Prop := ∀ j, j < N → x j = x' j

/-- The buffers in `A` agree in their first `N` numbers. -/
def Agree (N : ℕ) (h h' : Slot → Handle) (A : Slot → Prop) (V W : Buffers S) : Prop :=
  ∀ s, A s → Same N (V (h s)) (W (h' s))

/-- Derivative and norm look at the first `N` numbers only. -/
structure Local (N : ℕ) (deriv : (ℕ → S) → ℕ → S) (nrm : (ℕ → S) → S) : Prop where
  deriv : ∀ {x x'}, Same N x x' → Same N (deriv x) (deriv x')
  nrm : ∀ {x x'}, Same N x x' → nrm x = nrm x'

/-- If the buffers in `A` agree before, then the results are the same and the buffers in `B` agree afterwards. -/
def Det (deriv : (ℕ → S) → ℕ → S) (nrm : (ℕ → S) → S) (n N : ℕ) (h h' : Slot → Handle) (A B : Slot → Prop) {α : Type}
    (p p' : Act S α) : Prop :=
  ∀ V W, Agree N h h' A V W → (eval deriv nrm n p V).1 = (eval deriv nrm n p' W).1 ∧
    Agree N h h' B (eval deriv nrm n p V).2 (eval deriv nrm n p' W).2

/-- One more buffer. -/
def also (A : Slot → Prop) (s : Slot) : Slot → Prop := fun u => u = s ∨ A u

variable {h h' : Slot → Handle} {A B C : Slot → Prop} {α β : Type}

omit [Add S] [Sub S] [Mul S] [Neg S] [Zero S] [FOps S] in
lemma Agree.mono {V W : Buffers S} (g : Agree N h h' A V W) (hs : ∀ s, B s → A s) : Agree N h h' B V W :=
  fun s hb => g s (hs s hb)

omit [Add S] [Sub S] [Mul S] [Neg S] [Zero S] [FOps S] in
lemma Agree.put {V W : Buffers S} (hh : Function.Injective h) (hh' : Function.Injective h')
    (g : Agree N h h' A V W) (s : Slot) {x x' : ℕ → S} (e : Same N x x') :
    Agree N h h' (also A s) (Spec.put V (h s) x) (Spec.put W (h' s) x') := by
  intro u hu
  unfold Spec.put
  by_cases hus : u = s
  · rw [if_pos (congrArg h hus), if_pos (congrArg h' hus)]; exact e
  · rw [if_neg (fun e => hus (hh e)), if_neg (fun e => hus (hh' e))]
    exact g u (hu.resolve_left hus)

omit [Add S] [Sub S] [Mul S] [Neg S] [Zero S] [FOps S] in
lemma Agree.put_mem {V W : Buffers S} (hh : Function.Injective h) (hh' : Function.Injective h')
    (g : Agree N h h' A V W) {s : Slot} {x x' : ℕ → S} (e : Same N x x') :
    Agree N h h' A (Spec.put V (h s) x) (Spec.put W (h' s) x') :=
  (g.put hh hh' s e).mono fun _ hu => .inr hu

lemma Det.weaken {p p' : Act S α} (g : Det deriv nrm n N h h' A B p p') {A' B' : Slot → Prop} (ha : ∀ s, A s → A' s)
    (hb : ∀ s, B' s → B s) : Det deriv nrm n N h h' A' B' p p' := by
  intro V W e
  obtain ⟨g1, g2⟩ := g V W (e.mono ha)
  exact ⟨g1, g2.mono hb⟩

lemma Det.pure (a : α) : Det deriv nrm n N h h' A A (Pure.pure a : Act S α) (Pure.pure a) := fun _ _ e => ⟨rfl, e⟩

lemma Det.bind {p p' : Act S α} {k k' : α → Act S β} (g : Det deriv nrm n N h h' A B p p')
    (gk : ∀ a, Det deriv nrm n N h h' B C (k a) (k' a)) : Det deriv nrm n N h h' A C (p >>= k) (p' >>= k') := by
  intro V W e
  obtain ⟨g1, g2⟩ := g V W e
  rw [eval_bind, eval_bind]
  simp only [g1]
  exact gk _ _ _ g2

lemma Det.ite {p q p' q' : Act S α} (b : Bool) (g1 : b = true → Det deriv nrm n N h h' A B p p')
    (g2 : b = false → Det deriv nrm n N h h' A B q q') :
    Det deriv nrm n N h h' A B (if b = true then p else q) (if b = true then p' else q') := by
  cases b
  · simpa using g2 rfl
  · simpa using g1 rfl

lemma Det.forN {k : ℕ} {f f' : ℕ → Unit → Act S Unit} (P : ℕ → Slot → Prop)
    (g : ∀ i, i < k → Det deriv nrm n N h h' (P i) (P (i + 1)) (f i ()) (f' i ())) :
    Det deriv nrm n N h h' (P 0) (P k) (forN k () f) (forN k () f') := by
  induction k with
  | zero => exact Det.pure _
  | succ k ih =>
    show Det deriv nrm n N h h' (P 0) (P (k + 1)) (NB.forN k () f >>= fun s => f k s)
      (NB.forN k () f' >>= fun s => f' k s)
    exact Det.bind (ih fun i hi => g i (by omega)) fun _ => g k (by omega)

variable (hh : Function.Injective h) (hh' : Function.Injective h')
include hh hh'

lemma det_fcompute (hloc : Local N deriv nrm) {y f : Slot} (hy : A y) :
    Det deriv nrm n N h h' A (also A f) (op (.fcompute (h y) (h f))) (op (.fcompute (h' y) (h' f))) := by
  intro V W e
  rw [eval_op, eval_op]
  exact ⟨rfl, e.put hh hh' f (hloc.deriv (e y hy))⟩

lemma det_copy {a b : Slot} (hb : A b) :
    Det deriv nrm n N h h' A (also A a) (op (.copy (h a) (h b))) (op (.copy (h' a) (h' b))) := by
  intro V W e
  rw [eval_op, eval_op]
  exact ⟨rfl, e.put hh hh' a (e b hb)⟩

lemma det_fmaddInplace {a b : Slot} (ha : A a) (hb : A b) (c : S) :
    Det deriv nrm n N h h' A A (op (.fmaddInplace (h a) (h b) c)) (op (.fmaddInplace (h' a) (h' b) c)) := by
  intro V W e
  rw [eval_op, eval_op]
  refine ⟨rfl, ?_⟩
  simp only [Spec.call]
  exact e.put_mem hh hh' fun j hj => by rw [e a ha j hj, e b hb j hj]

lemma det_fmadd {a b c : Slot} (hb : A b) (hc : A c) (d : S) :
    Det deriv nrm n N h h' A (also A a) (op (.fmadd (h a) (h b) (h c) d)) (op (.fmadd (h' a) (h' b) (h' c) d)) := by
  intro V W e
  rw [eval_op, eval_op]
  refine ⟨rfl, ?_⟩
  simp only [Spec.call]
  exact e.put hh hh' a fun j hj => by rw [e b hb j hj, e c hc j hj]

omit hh hh' in
lemma det_maxabs (hloc : Local N deriv nrm) {a : Slot} (ha : A a) : Det deriv nrm n N h h' A A (maxabs (h a)) (maxabs (h' a)) := by
  intro V W e
  refine ⟨?_, e⟩
  show nrm (V (h a)) = nrm (W (h' a))
  exact hloc.nrm (e a ha)

/-- Terms with known buffers. -/
lemma agree_terms {a : Slot} (ha : A a) {ts : List (Slot × S)} (ht : ∀ t ∈ ts, A t.1) {V W : Buffers S}
    (e : Agree N h h' A V W) :
    Agree N h h' A ((ts.map fun t => (h t.1, t.2)).foldl (addTerm (h a)) V)
      ((ts.map fun t => (h' t.1, t.2)).foldl (addTerm (h' a)) W) := by
  induction ts generalizing V W with
  | nil => exact e
  | cons t ts ih =>
    simp only [List.map_cons, List.foldl_cons]
    refine ih (fun t ht' => ht t (by simp [ht'])) ?_
    unfold addTerm
    simp only
    split
    · exact e
    · exact e.put_mem hh hh' fun j hj => by rw [e a ha j hj, e t.1 (ht t (by simp)) j hj]

/-- Sums with at least one term. -/
lemma agree_sum {a b : Slot} (hb : A b) {ts : List (Slot × S)} (ht : ∀ t ∈ ts, A t.1)
    (hne : ∃ t ∈ ts, FOps.eqb t.2 0 = false) {V W : Buffers S} (e : Agree N h h' A V W) :
    Agree N h h' (also A a) (sumFrom (h a) (h b) V (ts.map fun t => (h t.1, t.2)))
      (sumFrom (h' a) (h' b) W (ts.map fun t => (h' t.1, t.2))) := by
  induction ts with
  | nil => obtain ⟨t, h1, _⟩ := hne; simp at h1
  | cons t ts ih =>
    simp only [List.map_cons, sumFrom]
    by_cases h0 : FOps.eqb t.2 0 = true
    · rw [if_pos h0, if_pos h0]
      refine ih (fun t ht' => ht t (by simp [ht'])) ?_
      obtain ⟨u, h1, h2⟩ := hne
      rcases List.mem_cons.1 h1 with rfl | h1
      · rw [h0] at h2; cases h2
      · exact ⟨u, h1, h2⟩
    · rw [if_neg h0, if_neg h0]
      refine agree_terms hh hh' (.inl rfl) (fun t ht' => .inr (ht t (by simp [ht']))) ?_
      exact e.put hh hh' a fun j hj => by rw [e b hb j hj, e t.1 (ht t (by simp)) j hj]

omit hh hh' in
lemma zip_map (g : Slot → Handle) (ss : List Slot) (c : List S) (k : ℕ) :
    ((ss.map g).zip c).take k = ((ss.zip c).take k).map fun t => (g t.1, t.2) := by
  rw [List.zip_map_left, List.map_take]; rfl

lemma det_fmaddnInplace {a : Slot} (ha : A a) {bs : List Slot} (hb : ∀ b ∈ bs, A b) (c : List S) (k : ℕ) :
    Det deriv nrm n N h h' A A (op (.fmaddnInplace (h a) (bs.map h) c k)) (op (.fmaddnInplace (h' a) (bs.map h') c k)) := by
  intro V W e
  rw [eval_op, eval_op]
  refine ⟨rfl, ?_⟩
  simp only [Spec.call, zip_map]
  exact agree_terms hh hh' ha (fun t ht => hb _ (List.of_mem_zip (List.mem_of_mem_take ht)).1) e

lemma det_fmaddn_none {a : Slot} {bs : List Slot} (hb : ∀ b ∈ bs, A b) (c : List S) (k : ℕ) :
    Det deriv nrm n N h h' A (also A a) (op (.fmaddn (h a) none (bs.map h) c k))
      (op (.fmaddn (h' a) none (bs.map h') c k)) := by
  intro V W e
  rw [eval_op, eval_op]
  refine ⟨rfl, ?_⟩
  simp only [Spec.call, zip_map]
  exact agree_terms hh hh' (.inl rfl)
    (fun t ht => .inr (hb _ (List.of_mem_zip (List.mem_of_mem_take ht)).1)) (e.put hh hh' a fun _ _ => rfl)

lemma det_fmaddn_some {a b : Slot} (hb : A b) {bs : List Slot} {c : List S} {k : ℕ}
    (hbs : ∀ t ∈ (bs.zip c).take k, A t.1) (hne : ∃ t ∈ (bs.zip c).take k, FOps.eqb t.2 0 = false) :
    Det deriv nrm n N h h' A (also A a) (op (.fmaddn (h a) (some (h b)) (bs.map h) c k))
      (op (.fmaddn (h' a) (some (h' b)) (bs.map h') c k)) := by
  intro V W e
  rw [eval_op, eval_op]
  refine ⟨rfl, ?_⟩
  simp only [Spec.call, zip_map]
  exact agree_sum hh hh' hb hbs hne e

end

end Spec
