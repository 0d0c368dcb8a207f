import Verif.Lemmas.ParEngine

/-
C03: the OpenMP engine equals the simple engine for every thread schedule.  The scalar type is
arbitrary and no arithmetic law is used, so the equality is bit for bit.

`loop` ranges over all functions that return the outcome of *some* interleaving of the iterations'
memory accesses (`IsParLoop`), so the theorems cover every schedule.
-/

namespace NB.C03

variable {S : Type}

/-- General determinism: if no iteration writes what another one reads or writes, then no interleaving
reaches a bad access or gets stuck, and every finished interleaving has produced exactly the memory of
the sequential loop. -/
theorem parallel_for_deterministic {n : Nat} {body : Nat → Prog S Unit} (hb : Independent n body)
    {m m' : Mem S} (hs : seqFor n body m = .ok m') {k : Nat} {c : ParState S}
    (hr : ParRun n k (ParState.start body m) c) :
    ¬ c.Faulty n ∧ (c.Done n → c.mem = m') ∧ (¬ c.Done n → ∃ c', ParStep n c c') := by
  obtain ⟨R, W, hw, hd⟩ := hb.ex
  have hinv := parRun_inv hd hr (⟨hw, hs⟩ : ParInv n R W m' (ParState.start body m))
  have hnf : ¬ c.Faulty n := fun hf => faulty_seq hf m' hinv.eq
  refine ⟨hnf, ?_, ?_⟩
  · intro hdn
    have := hinv.eq
    rw [seqFor_ret hdn] at this
    exact Except.ok.inj this
  · intro hnd
    unfold ParState.Done at hnd
    push Not at hnd
    obtain ⟨i, hi, hne⟩ := hnd
    obtain ⟨cm, ct⟩ := c
    cases ht : ct i with
    | ret a => exact absurd ht hne
    | read h j kk =>
      cases hc : cm.cell h j with
      | none => exact absurd ⟨i, hi, Or.inl ⟨h, j, kk, ht, hc⟩⟩ hnf
      | some v => exact ⟨_, ParStep.read cm ct i hi h j kk ht v hc⟩
    | write h j v kk =>
      cases hc : cm.cell h j with
      | none => exact absurd ⟨i, hi, Or.inr ⟨h, j, v, kk, ht, hc⟩⟩ hnf
      | some w => exact ⟨_, ParStep.write cm ct i hi h j v kk ht w hc⟩

/-- No parallel loop can run forever. -/
theorem parallel_for_terminates (n : Nat) :
    WellFounded (fun c c' : ParState S => ParStep n c' c) := parStep_wf n

variable {loop : Loop S}

/-- `fcompute`: provided the output buffer is neither the state nor the mass buffer. -/
theorem fcompute_parallel_eq_sequential
    [Add S] [Sub S] [Mul S] [Neg S] [Div S] [Zero S] [One S] [FOps S] (hl : IsParLoop loop)
    {n : Nat} {hm y f : Handle} (hyf : y ≠ f) (hmf : hm ≠ f) {m m' : Mem S}
    (h : fcompute seqFor n hm y f m = .ok m') : fcompute loop n hm y f m = .ok m' := by
  unfold fcompute at h ⊢
  split_ifs at h ⊢
  · exact h
  · exact h
  · exact parLoop_eq_seq hl (fcomputeBody_independent hyf hmf) h

theorem clamp_parallel_eq_sequential [Add S] [Sub S] [Mul S] [Neg S] [FOps S] (hl : IsParLoop loop)
    {n : Nat} {y : Handle} {b : S} {m m' : Mem S}
    (h : clamp seqFor n y b m = .ok m') : clamp loop n y b m = .ok m' := by
  unfold clamp at h ⊢
  split_ifs at h ⊢
  · exact h
  · exact parLoop_eq_seq hl clampBody_independent h

theorem copy_parallel_eq_sequential (hl : IsParLoop loop)
    {n : Nat} {a b : Handle} {m m' : Mem S}
    (h : copyBuffer seqFor n a b m = .ok m') : copyBuffer loop n a b m = .ok m' := by
  unfold copyBuffer at h ⊢
  split_ifs at h ⊢
  · exact h
  · exact h
  · exact parLoop_eq_seq hl copyBody_independent h

theorem fill_parallel_eq_sequential (hl : IsParLoop loop) {a : Handle} {v : S} {m m' : Mem S}
    (h : fillBuffer seqFor a v m = .ok m') : fillBuffer loop a v m = .ok m' := by
  unfold fillBuffer at h ⊢
  cases hma : m a with
  | none => simp only [hma] at h; exact h
  | some l => simp only [hma] at h; exact parLoop_eq_seq hl fillBody_independent h

/-- `fmadd_inplace`, also when the buffers alias. -/
theorem fmadd_inplace_parallel_eq_sequential [Add S] [Mul S] (hl : IsParLoop loop)
    {n : Nat} {a b : Handle} {c : S} {m m' : Mem S}
    (h : fmaddInplace seqFor n a b c m = .ok m') : fmaddInplace loop n a b c m = .ok m' := by
  unfold fmaddInplace at h ⊢
  split_ifs at h ⊢
  · exact h
  · exact h
  · exact parLoop_eq_seq hl fmaddInplaceBody_independent h

/-- `fmadd`, also when the buffers alias. -/
theorem fmadd_parallel_eq_sequential [Add S] [Mul S] (hl : IsParLoop loop)
    {n : Nat} {a b c : Handle} {d : S} {m m' : Mem S}
    (h : fmadd seqFor n a b c d m = .ok m') : fmadd loop n a b c d m = .ok m' := by
  unfold fmadd at h ⊢
  split_ifs at h ⊢
  · exact h
  · exact h
  · exact h
  · exact parLoop_eq_seq hl fmaddBody_independent h

/-- `fmaddn_corr`, also when the buffers alias. -/
theorem fmaddn_corr_parallel_eq_sequential [Add S] [Sub S] [Mul S] [Zero S] [FOps S]
    (hl : IsParLoop loop) {n : Nat} {a corr : Handle} {b : List Handle} {c : Option (List S)}
    {csize : Nat} {m m' : Mem S} (h : fmaddnCorr seqFor n a corr b c csize m = .ok m') :
    fmaddnCorr loop n a corr b c csize m = .ok m' := by
  unfold fmaddnCorr at h ⊢
  cases c with
  | none => split_ifs at h ⊢ <;> exact h
  | some c =>
    simp only at h ⊢
    split_ifs at h ⊢ <;> first
      | exact h
      | exact parLoop_eq_seq hl fmaddnCorrBody_independent h

lemma fmaddnInplaceTerms_parallel [Add S] [Mul S] [Zero S] [FOps S] (hl : IsParLoop loop)
    {n : Nat} {a : Handle} (ts : List (Handle × S)) :
    ∀ {m m' : Mem S}, fmaddnInplaceTerms seqFor n a ts m = .ok m' →
      fmaddnInplaceTerms loop n a ts m = .ok m' := by
  induction ts with
  | nil => intro m m' h; exact h
  | cons t ts ih =>
    intro m m' h
    obtain ⟨b, c⟩ := t
    simp only [fmaddnInplaceTerms] at h ⊢
    split_ifs at h ⊢
    · exact ih h
    · cases h1 : fmaddInplace seqFor n a b c m with
      | error e => rw [h1] at h; cases h
      | ok m1 =>
        rw [h1] at h
        rw [fmadd_inplace_parallel_eq_sequential hl h1]
        exact ih h

/-- `fmaddn_inplace` built on the parallel `fmadd_inplace`. -/
theorem fmaddn_inplace_parallel_eq_sequential [Add S] [Mul S] [Zero S] [FOps S] (hl : IsParLoop loop)
    {n : Nat} {a : Handle} {b : List Handle} {c : Option (List S)} {csize : Nat} {m m' : Mem S}
    (h : fmaddnInplace seqFor n a b c csize m = .ok m') :
    fmaddnInplace loop n a b c csize m = .ok m' := by
  unfold fmaddnInplace at h ⊢
  cases c with
  | none => exact h
  | some c =>
    simp only at h ⊢
    split_ifs at h ⊢
    · exact h
    · exact fmaddnInplaceTerms_parallel hl _ h

lemma fmaddnTerms_parallel [Add S] [Mul S] [Zero S] [FOps S] (hl : IsParLoop loop)
    {n : Nat} {a b : Handle} (ts : List (Handle × S)) :
    ∀ {ini : Bool} {m m' : Mem S}, fmaddnTerms seqFor n a b ini ts m = .ok m' →
      fmaddnTerms loop n a b ini ts m = .ok m' := by
  induction ts with
  | nil => intro ini m m' h; exact h
  | cons t ts ih =>
    intro ini m m' h
    obtain ⟨c, d⟩ := t
    simp only [fmaddnTerms] at h ⊢
    split_ifs at h ⊢
    · exact ih h
    · cases h1 : fmadd seqFor n a a c d m with
      | error e => rw [h1] at h; cases h
      | ok m1 =>
        rw [h1] at h
        rw [fmadd_parallel_eq_sequential hl h1]
        exact ih h
    · cases h1 : fmadd seqFor n a b c d m with
      | error e => rw [h1] at h; cases h
      | ok m1 =>
        rw [h1] at h
        rw [fmadd_parallel_eq_sequential hl h1]
        exact ih h

/-- `fmaddn` built on the parallel `fmadd`. -/
theorem fmaddn_parallel_eq_sequential [Add S] [Mul S] [Zero S] [FOps S] (hl : IsParLoop loop)
    {n : Nat} {a : Handle} {b : Option Handle} {c : List Handle} {d : Option (List S)} {dsize : Nat}
    {m m' : Mem S} (h : fmaddn seqFor n a b c d dsize m = .ok m') :
    fmaddn loop n a b c d dsize m = .ok m' := by
  unfold fmaddn at h ⊢
  cases d with
  | none => exact h
  | some d =>
    simp only at h ⊢
    split_ifs at h ⊢
    · exact h
    · cases b with
      | some b => exact fmaddnTerms_parallel hl _ h
      | none =>
        simp only at h ⊢
        cases h1 : fillBuffer seqFor a 0 m with
        | error e => rw [h1] at h; cases h
        | ok m1 =>
          rw [h1] at h
          rw [fill_parallel_eq_sequential hl h1]
          exact fmaddnTerms_parallel hl _ h

/-- Parallel loops exist: the sequential order and the reverse order are two of the executions the
theorems quantify over. -/
example : IsParLoop (orderedFor (S := S) (fun n => List.range n)) ∧
    IsParLoop (orderedFor (S := S) (fun n => (List.range n).reverse)) :=
  ⟨orderedFor_isParLoop fun _ => List.Perm.refl _,
   orderedFor_isParLoop fun _ => List.reverse_perm _⟩

/-- The independence hypothesis cannot be dropped: two iterations that both write element 0 give a
result that depends on the schedule. -/
theorem race_is_visible :
    ∃ (body : Nat → Prog Nat Unit) (m m1 m2 : Mem Nat),
      seqFor 2 body m = .ok m1 ∧
      orderedFor (fun n => (List.range n).reverse) 2 body m = .ok m2 ∧ m1 ≠ m2 := by
  let m : Mem Nat := fun _ => some [7]
  refine ⟨fun i => Prog.put 0 0 i, m, (m.setCell 0 0 0).setCell 0 0 1,
    (m.setCell 0 0 1).setCell 0 0 0, rfl, rfl, ?_⟩
  intro h
  have := congrFun h 0
  simp [Mem.setCell, m] at this

end NB.C03
