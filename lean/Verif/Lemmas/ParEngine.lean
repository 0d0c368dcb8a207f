import Verif.Lemmas.EngineSimple

/-
Independence of the iterations of every parallel loop of the OpenMP engine.
-/

namespace NB

variable {S : Type}

/-- Reduce `Within` of a straight-line program to its individual accesses. -/
macro "within" : tactic => `(tactic|
  repeat' first
    | exact Prog.Within.pure _
    | refine Prog.Within.get ?_
    | refine Prog.Within.put ?_
    | refine Prog.Within.bind ?_ (fun _ => ?_))

/-- Independent iterations: every parallel execution agrees with the sequential one. -/
theorem parLoop_eq_seq {loop : Loop S} (hl : IsParLoop loop) {n : Nat} {body : Nat → Prog S Unit}
    (hb : Independent n body) {m m' : Mem S} (hs : seqFor n body m = .ok m') :
    loop n body m = .ok m' := by
  obtain ⟨R, W, hw, hd⟩ := hb.ex
  have hinv : ParInv n R W m' (ParState.start body m) := ⟨hw, hs⟩
  cases h : loop n body m with
  | error e =>
    obtain ⟨k, c, hr, hf⟩ := (hl n body m).2 e h
    exact absurd (parRun_inv hd hr hinv).eq (faulty_seq hf m')
  | ok m'' =>
    obtain ⟨k, c, hr, hdn, hm⟩ := (hl n body m).1 m'' h
    have := (parRun_inv hd hr hinv).eq
    rw [seqFor_ret hdn] at this
    rw [← hm]; exact this

section
variable [Add S] [Sub S] [Mul S] [Neg S] [Div S] [Zero S] [One S] [FOps S]

theorem fcomputeBody_independent {n : Nat} {hm y f : Handle} (hyf : y ≠ f) (hmf : hm ≠ f) :
    Independent n (fcomputeBody (S := S) n hm y f) := by
  refine ⟨⟨fun _ h _ => h ≠ f, fun i h j => h = f ∧ bodyOf n j = i, ?_, ?_⟩⟩
  · intro i hi
    unfold fcomputeBody
    have b0 : bodyOf n i = i := by simpa using bodyOf_add (n := n) 0 hi
    have b1 : bodyOf n (n + i) = i := by simpa using bodyOf_add (n := n) 1 hi
    have b2 : bodyOf n (2 * n + i) = i := bodyOf_add 2 hi
    have b3 : bodyOf n (3 * n + i) = i := bodyOf_add 3 hi
    have b4 : bodyOf n (4 * n + i) = i := bodyOf_add 4 hi
    have b5 : bodyOf n (5 * n + i) = i := bodyOf_add 5 hi
    within
    all_goals first
      | exact hyf
      | exact hmf
      | exact ⟨rfl, by assumption⟩
      | skip
    apply Prog.Within.forN
    intro j t hj
    split
    · within
    · within <;> first
        | exact hyf
        | exact hmf
  · rintro i j h k hi hj hij ⟨rfl, hb⟩
    exact ⟨fun h => h rfl, fun h => hij (hb.symm.trans h.2)⟩

omit [Mul S] [Div S] [Zero S] [One S] in
theorem clampCoord_within {y : Handle} {b d : S} {j : Nat} {R W : Handle → Nat → Prop}
    (hR : R y j) (hW : W y j) : (clampCoord y b d j).Within R W := by
  unfold clampCoord
  within
  all_goals first
    | assumption
    | (split <;> within <;> assumption)

omit [Div S] [Zero S] [One S] in
theorem clampBody_independent {n : Nat} {y : Handle} {b : S} :
    Independent n (clampBody n y b) := by
  refine ⟨⟨fun i _ j => bodyOf n j = i, fun i _ j => bodyOf n j = i, ?_, ?_⟩⟩
  · intro i hi
    unfold clampBody
    have b0 : bodyOf n i = i := by simpa using bodyOf_add (n := n) 0 hi
    have b1 : bodyOf n (n + i) = i := by simpa using bodyOf_add (n := n) 1 hi
    have b2 : bodyOf n (2 * n + i) = i := bodyOf_add 2 hi
    refine Prog.Within.bind ?_ (fun _ => Prog.Within.bind ?_ (fun _ => ?_)) <;>
      apply clampCoord_within <;> assumption
  · rintro i j h k hi hj hij hb
    exact ⟨fun h => hij (hb.symm.trans h), fun h => hij (hb.symm.trans h)⟩

end

/-- Loops whose iteration `i` touches only elements number `i`. -/
theorem elementwise_independent {n : Nat} {body : Nat → Prog S Unit}
    (h : ∀ i, i < n → (body i).Within (fun _ j => j = i) (fun _ j => j = i)) :
    Independent n body :=
  ⟨⟨fun i _ j => j = i, fun i _ j => j = i, h, fun _ _ _ _ _ _ hij hb =>
    ⟨fun h => hij (hb.symm.trans h), fun h => hij (hb.symm.trans h)⟩⟩⟩

theorem copyBody_independent {n : Nat} {a b : Handle} : Independent n (copyBody (S := S) a b) :=
  elementwise_independent fun _ _ => by unfold copyBody; within <;> rfl

theorem fillBody_independent {n : Nat} {a : Handle} {v : S} : Independent n (fillBody a v) :=
  elementwise_independent fun _ _ => by unfold fillBody; within; rfl

theorem fmaddInplaceBody_independent [Add S] [Mul S] {n : Nat} {a b : Handle} {c : S} :
    Independent n (fmaddInplaceBody a b c) :=
  elementwise_independent fun _ _ => by unfold fmaddInplaceBody; within <;> rfl

theorem fmaddBody_independent [Add S] [Mul S] {n : Nat} {a b c : Handle} {d : S} :
    Independent n (fmaddBody a b c d) :=
  elementwise_independent fun _ _ => by unfold fmaddBody; within <;> rfl

theorem fmaddnCorrBody_independent [Add S] [Sub S] [Mul S] [Zero S] [FOps S] {n : Nat}
    {a corr : Handle} {ts : List (Handle × S)} :
    Independent n (fun i => fmaddnCorrTerms a corr i ts) := by
  apply elementwise_independent
  intro i _
  induction ts with
  | nil => trivial
  | cons t ts ih =>
    unfold fmaddnCorrTerms
    refine Prog.Within.bind ?_ fun _ => ih
    split
    · exact Prog.Within.pure _
    · within <;> rfl

/-! ### Some executions exist: the sequential order is one of the interleavings -/

theorem ParRun.trans {n k l : Nat} {a b c : ParState S} (h1 : ParRun n k a b) (h2 : ParRun n l b c) :
    ParRun n (k + l) a c := by
  induction h2 with
  | refl => exact h1
  | step _ hs ih => exact ParRun.step (ih h1) hs

/-- Running iteration `i` on its own, without interruption. -/
theorem parRun_solo {n i : Nat} (hi : i < n) (p : Prog S Unit) :
    ∀ (m : Mem S) (t : Nat → Prog S Unit), t i = p →
      (∀ r, p.run m = .ok r → ∃ k, ParRun n k ⟨m, t⟩ ⟨r.2, fun i' => if i' = i then .ret () else t i'⟩) ∧
      (∀ e, p.run m = .error e → ∃ k c, ParRun n k ⟨m, t⟩ c ∧ c.Faulty n) := by
  induction p with
  | ret a =>
    intro m t ht
    refine ⟨?_, ?_⟩
    · intro r hr
      cases hr
      refine ⟨0, ?_⟩
      have : (fun i' => if i' = i then .ret () else t i') = t := by
        funext i'
        split
        · subst_vars; exact ht.symm
        · rfl
      rw [this]; exact ParRun.refl _
    · intro e he; cases he
  | read h j k ih =>
    intro m t ht
    cases hc : m.cell h j with
    | none =>
      refine ⟨?_, ?_⟩
      · intro r hr; simp [Prog.run, hc] at hr
      · intro e _
        exact ⟨0, _, ParRun.refl _, i, hi, Or.inl ⟨h, j, k, ht, hc⟩⟩
    | some v =>
      have hstep := ParStep.read m t i hi h j k ht v hc
      obtain ⟨h1, h2⟩ := ih v m (fun i' => if i' = i then k v else t i') (by simp)
      refine ⟨?_, ?_⟩
      · intro r hr
        simp only [Prog.run, hc] at hr
        obtain ⟨l, hl⟩ := h1 r hr
        refine ⟨0 + 1 + l, ?_⟩
        have e : (fun i' => if i' = i then .ret () else if i' = i then k v else t i') =
            (fun i' => if i' = i then (.ret () : Prog S Unit) else t i') := by
          funext i'; split <;> rfl
        rw [e] at hl
        exact ((ParRun.refl _).step hstep).trans hl
      · intro e he
        simp only [Prog.run, hc] at he
        obtain ⟨l, c, hl, hf⟩ := h2 e he
        exact ⟨_, c, ((ParRun.refl _).step hstep).trans hl, hf⟩
  | write h j v k ih =>
    intro m t ht
    cases hc : m.cell h j with
    | none =>
      refine ⟨?_, ?_⟩
      · intro r hr; simp [Prog.run, hc] at hr
      · intro e _
        exact ⟨0, _, ParRun.refl _, i, hi, Or.inr ⟨h, j, v, k, ht, hc⟩⟩
    | some w =>
      have hstep := ParStep.write m t i hi h j v k ht w hc
      obtain ⟨h1, h2⟩ := ih (m.setCell h j v) (fun i' => if i' = i then k else t i') (by simp)
      refine ⟨?_, ?_⟩
      · intro r hr
        simp only [Prog.run, hc] at hr
        obtain ⟨l, hl⟩ := h1 r hr
        refine ⟨0 + 1 + l, ?_⟩
        have e : (fun i' => if i' = i then .ret () else if i' = i then k else t i') =
            (fun i' => if i' = i then (.ret () : Prog S Unit) else t i') := by
          funext i'; split <;> rfl
        rw [e] at hl
        exact ((ParRun.refl _).step hstep).trans hl
      · intro e he
        simp only [Prog.run, hc] at he
        obtain ⟨l, c, hl, hf⟩ := h2 e he
        exact ⟨_, c, ((ParRun.refl _).step hstep).trans hl, hf⟩

/-- The loop that runs iterations in the order of the list `is` (a permutation of `0..n-1`). -/
def orderedFor (is : Nat → List Nat) : Loop S := fun n body m =>
  (is n).foldlM (fun m i => do let r ← (body i).run m; pure r.2) m

theorem orderedFor_run {n : Nat} (body : Nat → Prog S Unit) :
    ∀ (l : List Nat) (m : Mem S) (t : Nat → Prog S Unit), (∀ i ∈ l, i < n) → l.Nodup →
      (∀ i ∈ l, t i = body i) →
      (∀ m', l.foldlM (fun m i => do let r ← (body i).run m; pure r.2) m = (.ok m' : Res (Mem S)) →
        ∃ k, ParRun n k ⟨m, t⟩ ⟨m', fun i => if i ∈ l then .ret () else t i⟩) ∧
      (∀ e, l.foldlM (fun m i => do let r ← (body i).run m; pure r.2) m = (.error e : Res (Mem S)) →
        ∃ k c, ParRun n k ⟨m, t⟩ c ∧ c.Faulty n) := by
  intro l
  induction l with
  | nil =>
    intro m t _ _ _
    refine ⟨?_, ?_⟩
    · intro m' h
      cases h
      exact ⟨0, by simpa using ParRun.refl _⟩
    · intro e h; cases h
  | cons i l ih =>
    intro m t hlt hnd htb
    have hi := hlt i (by simp)
    obtain ⟨s1, s2⟩ := parRun_solo hi (body i) m t (htb i (by simp))
    rw [List.foldlM_cons]
    cases hr : (body i).run m with
    | error e =>
      refine ⟨?_, ?_⟩
      · intro m' h; simp at h
      · intro e' _
        exact s2 e hr
    | ok r =>
      obtain ⟨k1, hk1⟩ := s1 r hr
      have hnd' := List.nodup_cons.1 hnd
      obtain ⟨i1, i2⟩ := ih r.2 (fun i' => if i' = i then .ret () else t i')
        (fun j hj => hlt j (by simp [hj])) hnd'.2 (by
          intro j hj
          have : j ≠ i := fun h => hnd'.1 (h ▸ hj)
          simp [this, htb j (by simp [hj])])
      refine ⟨?_, ?_⟩
      · intro m' h
        simp only [res_ok_bind, res_pure] at h
        obtain ⟨k2, hk2⟩ := i1 m' h
        refine ⟨k1 + k2, ?_⟩
        have e : (fun j => if j ∈ l then (.ret () : Prog S Unit) else if j = i then .ret () else t j) =
            (fun j => if j ∈ i :: l then .ret () else t j) := by
          funext j
          by_cases h1 : j = i <;> by_cases h2 : j ∈ l <;> simp [h1, h2]
        rw [e] at hk2
        exact hk1.trans hk2
      · intro e h
        simp only [res_ok_bind, res_pure] at h
        obtain ⟨k2, c, hk2, hf⟩ := i2 e h
        exact ⟨k1 + k2, c, hk1.trans hk2, hf⟩

theorem orderedFor_isParLoop {is : Nat → List Nat} (h : ∀ n, (is n).Perm (List.range n)) :
    IsParLoop (orderedFor (S := S) is) := by
  intro n body m
  have hmem : ∀ i, i ∈ is n ↔ i < n := fun i => by rw [(h n).mem_iff]; simp
  obtain ⟨h1, h2⟩ := orderedFor_run body (is n) m body (n := n) (fun i hi => (hmem i).1 hi)
    ((h n).nodup_iff.2 (List.nodup_range)) (fun _ _ => rfl)
  refine ⟨?_, ?_⟩
  · intro m' hm'
    obtain ⟨k, hk⟩ := h1 m' hm'
    refine ⟨k, _, hk, ?_, rfl⟩
    intro i hi
    simp [(hmem i).2 hi]
  · intro e he
    exact h2 e he

end NB
