import Verif.Lemmas.SolverMachine2
import Verif.Lemmas.BulirschStoer

/-
Bulirsch-Stoer on the machine of Spec/Program.lean: the program of calls follows the scheme of Model/BulirschStoer.lean.
-/

namespace Spec

open NB

variable {h : Slot → Handle} {deriv : (ℕ → ℝ) → ℕ → ℝ} {derivs : ℕ → (ℕ → ℝ) → ℕ → ℝ} {nrm : (ℕ → ℝ) → ℝ} {n : ℕ}

/-- The slot of `m_table[j]`. -/
def tabSlot (sw : Bool) (j : ℕ) : Slot := if sw then .prev j else .table j

theorem bsTable_eq (sw : Bool) (j : ℕ) : bsTable h sw j = h (tabSlot sw j) := rfl

theorem bsPrev_eq (sw : Bool) (j : ℕ) : bsPrev h sw j = h (tabSlot (!sw) j) := by
  cases sw <;> rfl

theorem tabSlot_inj {a b : Bool} {i j : ℕ} (e : tabSlot a i = tabSlot b j) : a = b ∧ i = j := by
  cases a <;> cases b <;> simp [tabSlot] at e ⊢ <;> exact e

theorem tabSlot_ne {a : Bool} {j : ℕ} {s : Slot} (hs : (∀ i, s ≠ .table i) ∧ ∀ i, s ≠ .prev i) : tabSlot a j ≠ s := by
  cases a
  · exact (hs.1 j).symm
  · exact (hs.2 j).symm

/-- The tables of the extrapolator in the buffers. -/
structure TabRel (h : Slot → Handle) (N : ℕ) (sw : Bool) (s : Neville (ℕ → ℝ)) (V : Buffers ℝ) : Prop where
  table : s.table = buf N fun j => V (h (tabSlot sw j))
  prev : s.prev = buf N fun j => V (h (tabSlot (!sw) j))

theorem two_terms {a b0 b1 : ℕ} (h0 : b0 ≠ a) (h1 : b1 ≠ a) (V : Buffers ℝ) (c0 c1 : ℝ) :
    Spec.call deriv n V (.fmaddn a none [b0, b1] [c0, c1] 2) =
      put V a (vfmaddn 2 (V a) none (fun i => if i = 0 then V b0 else V b1) fun i => if i = 0 then c0 else c1) := by
  have := addTerms_eq (a := a) (b := fun i => if i = 0 then b0 else b1) (c := fun i => if i = 0 then c0 else c1)
    (fun j => by split_ifs <;> assumption) (put V a fun _ => 0) 2
  refine Eq.trans this ?_
  rw [put_put, put_same]
  congr 1
  rw [← vfmaddnInplace_zero]
  refine vfmaddnInplace_congr rfl (fun j _ => ?_) fun _ _ => rfl
  split_ifs
  · exact put_ne _ _ h0
  · exact put_ne _ _ h1

/-- The extrapolator. -/
theorem neville_eval (hh : Function.Injective h) {N : ℕ} {ss : List ℕ} (hss : ss.length = N) {k : ℕ} (hk : k < N)
    {sw : Bool} {s : Neville (ℕ → ℝ)} {X : Tally ℝ} (hr : TabRel h N sw s X.bufs) :
    ∃ s', nevilleUpdate ℝ ss k (X.bufs (h .y)) s = .ok s' ∧
      TabRel h N (!sw) s' (tally derivs nrm n (nevilleCalls h ss (!sw) k) X).2.bufs ∧
      (tally derivs nrm n (nevilleCalls h ss (!sw) k) X).2.count = X.count ∧
      ∀ u, (∀ j, u ≠ tabSlot (!sw) j) → (tally derivs nrm n (nevilleCalls h ss (!sw) k) X).2.bufs (h u) = X.bufs (h u) := by
  obtain ⟨c, V⟩ := X
  dsimp only at hr ⊢
  obtain ⟨ht, hp⟩ := hr
  unfold nevilleCalls nevilleUpdate
  simp only [tally_bind, tally_op, tally_forN, bsTable_eq, bsPrev_eq, Bool.not_not]
  rw [hp, wr_buf _ (by omega : 0 < N), ht]
  -- after the copy
  have hcall : Spec.call (derivs c) n V (.copy (h (tabSlot (!sw) 0)) (h .y)) = put V (h (tabSlot (!sw) 0)) (V (h .y)) := rfl
  have hcost : c + cost (S := ℝ) (.copy (h (tabSlot (!sw) 0)) (h .y)) = c := rfl
  rw [hcall, hcost]
  have hget : ∀ i, i < N → rd ss i = .ok (ss.getD i 0) := fun i hi => rd_ok (by
    rw [List.getD_eq_getElem?_getD, List.getElem?_eq_getElem (by omega)]; rfl)
  have hne : ∀ i j, h (tabSlot (!sw) i) ≠ h (tabSlot sw j) := fun i j e => by
    have := (tabSlot_inj (hh e)).1
    cases sw <;> simp at this
  have key : ∀ i, i ≤ k → ∃ W : Buffers ℝ, (foldN i ((), (⟨c, put V (h (tabSlot (!sw) 0)) (V (h .y))⟩ : Tally ℝ)) fun j p =>
      ((), ⟨p.2.count + cost (S := ℝ) (.fmaddn (h (tabSlot (!sw) (j + 1))) none
        [h (tabSlot (!sw) j), h (tabSlot sw j)]
        [FOps.lit (ss.getD k 0) / (FOps.lit (ss.getD k 0) - FOps.lit (ss.getD (k - j - 1) 0)),
          -FOps.lit (ss.getD (k - j - 1) 0) / (FOps.lit (ss.getD k 0) - FOps.lit (ss.getD (k - j - 1) 0))] 2),
        Spec.call (derivs p.2.count) n p.2.bufs (.fmaddn (h (tabSlot (!sw) (j + 1))) none
        [h (tabSlot (!sw) j), h (tabSlot sw j)]
        [FOps.lit (ss.getD k 0) / (FOps.lit (ss.getD k 0) - FOps.lit (ss.getD (k - j - 1) 0)),
          -FOps.lit (ss.getD (k - j - 1) 0) / (FOps.lit (ss.getD k 0) - FOps.lit (ss.getD (k - j - 1) 0))] 2)⟩)) = ((), ⟨c, W⟩) ∧
      forN i (buf N fun j => if j = 0 then V (h .y) else V (h (tabSlot (!sw) j)))
        (nevilleBody (K := ℝ) ss k (buf N fun j => V (h (tabSlot sw j)))) = .ok (buf N fun j => W (h (tabSlot (!sw) j))) ∧
      ∀ u, (∀ j, u ≠ tabSlot (!sw) j) → W (h u) = V (h u) := by
    intro i
    induction i with
    | zero =>
      intro _
      refine ⟨_, rfl, ?_, ?_⟩
      · show Except.ok _ = _
        congr 2
        funext j
        rw [put_slot hh]
        by_cases e : j = 0
        · simp [e]
        · have : tabSlot (!sw) j ≠ tabSlot (!sw) 0 := fun e' => e (tabSlot_inj e').2
          simp [e, this]
      · intro u hu
        rw [put_slot hh, if_neg (hu 0)]
    | succ i ih =>
      intro hi
      obtain ⟨W, hW, h1, h2⟩ := ih (by omega)
      have n0 : h (tabSlot (!sw) i) ≠ h (tabSlot (!sw) (i + 1)) := fun e => by
        have := (tabSlot_inj (hh e)).2; omega
      refine ⟨_, by rw [foldN, hW]; rfl, ?_, ?_⟩
      · rw [forN_succ, h1, res_ok_bind, two_terms n0 (hne _ _).symm]
        unfold nevilleBody
        rw [hget k hk, hget (k - i - 1) (by omega), rd_buf (by omega), rd_buf (by omega), rd_buf (by omega)]
        simp only [res_ok_bind]
        rw [wr_buf _ (by omega)]
        congr 2
        funext j
        rw [put_slot hh, h2 (tabSlot sw i) (fun j e => by
          have := (tabSlot_inj e).1
          cases sw <;> simp at this)]
        by_cases e : j = i + 1
        · subst e
          simp
        · have : tabSlot (!sw) j ≠ tabSlot (!sw) (i + 1) := fun e' => e (tabSlot_inj e').2
          simp [e, this]
      · intro u hu
        rw [two_terms n0 (hne _ _).symm, put_slot hh, if_neg (hu _)]
        exact h2 u hu
  obtain ⟨W, hW, h1, h2⟩ := key k le_rfl
  simp only [res_ok_bind]
  rw [hW]
  refine ⟨⟨buf N fun j => W (h (tabSlot (!sw) j)), buf N fun j => V (h (tabSlot sw j))⟩, ?_, ⟨rfl, ?_⟩, rfl, h2⟩
  · by_cases hk0 : k = 0
    · subst hk0
      rw [if_pos rfl]
      exact congrArg (fun t => Except.ok (⟨t, _⟩ : Neville (ℕ → ℝ))) (Except.ok.inj h1)
    · rw [if_neg hk0, h1]; rfl
  · rw [Bool.not_not]
    show buf N _ = buf N _
    congr 1
    funext j
    refine (h2 _ ?_).symm
    intro i e
    have := (tabSlot_inj e).1
    cases sw <;> simp at this

end Spec
