import Verif.Lemmas.EngineSimple
import Verif.Model.Reduction
import Verif.Model.RealScalar

/-
C09: `fmaxabs`.  Exact comparison of real numbers (no NaN).
-/

namespace NB.C09

/-- `r` is the largest absolute value among the first `n` elements of `A`. -/
def IsMaxAbs (n : ℕ) (A : ℕ → ℝ) (r : ℝ) : Prop :=
  (∃ k, k < n ∧ r = |A k|) ∧ ∀ k, k < n → |A k| ≤ r

/-- The specification determines the result. -/
theorem isMaxAbs_unique {n : ℕ} {A : ℕ → ℝ} {r s : ℝ} (hr : IsMaxAbs n A r) (hs : IsMaxAbs n A s) :
    r = s := by
  obtain ⟨⟨k, hk, rfl⟩, h1⟩ := hr
  obtain ⟨⟨l, hl, rfl⟩, h2⟩ := hs
  exact le_antisymm (h2 k hk) (h1 l hl)

lemma ite_lt_eq_max (x y : ℝ) : (if FOps.lt x y then y else x) = max x y := by
  simp only [real_lt, decide_eq_true_eq]
  split
  · rw [max_eq_right (le_of_lt ‹_›)]
  · rw [max_eq_left (not_lt.1 ‹_›)]

/-- The simple engine: for any buffer with at least `n ≥ 1` elements. -/
theorem fmaxabs_is_max {n N : ℕ} (hn : 0 < n) (hN : n ≤ N) {a : Handle} {A : ℕ → ℝ} {m : Mem ℝ}
    (ha : m a = some (buf N A)) :
    ∃ r, fmaxabs n a m = .ok (some r) ∧ IsMaxAbs n A r := by
  simp only [fmaxabs, ha, rd_buf (show 0 < N by omega), res_ok_bind, real_abs]
  have key := forN_inv (σ := ℝ) (n := n) (s := |A 0|)
    (f := fun k result => do
      let v ← rd (buf N A) k
      pure (if FOps.lt result (FOps.abs v) then FOps.abs v else result))
    (fun k r => (∃ j, j < n ∧ r = |A j|) ∧ ∀ j, j < k → |A j| ≤ r) ⟨⟨0, hn, rfl⟩, by simp⟩ (by
      rintro k r hk ⟨⟨j, hj, rfl⟩, hle⟩
      refine ⟨max |A j| |A k|, ?_, ?_, ?_⟩
      · rw [rd_buf (show k < N by omega), res_ok_bind, ite_lt_eq_max]; rfl
      · rcases max_choice |A j| |A k| with h | h
        · exact ⟨j, hj, h⟩
        · exact ⟨k, hk, h⟩
      · intro i hi
        rcases Nat.lt_succ_iff_lt_or_eq.1 hi with hi | rfl
        · exact le_trans (hle i hi) (le_max_left _ _)
        · exact le_max_right _ _)
  obtain ⟨r, hr, h1, h2⟩ := key
  refine ⟨r, ?_, h1, h2⟩
  simp only [real_abs] at hr
  rw [hr]
  rfl

lemma thread_eval {N : ℕ} {A : ℕ → ℝ} (its : List ℕ) (hits : ∀ k ∈ its, k < N) :
    ∀ bot : ℝ, its.foldlM (fun r n => maxabsBody (buf N A) n r) bot =
      (.ok (its.foldl (fun r k => max r |A k|) bot) : Res ℝ) := by
  induction its with
  | nil => intro bot; rfl
  | cons k its ih =>
    intro bot
    rw [List.foldlM_cons]
    have : maxabsBody (buf N A) k bot = .ok (max bot |A k|) := by
      simp only [maxabsBody, rd_buf (hits k (by simp)), res_ok_bind, real_abs, ite_lt_eq_max, res_pure]
    rw [this, res_ok_bind, ih (fun j hj => hits j (by simp [hj]))]
    rfl

lemma foldl_max_le (A : ℕ → ℝ) (l : List ℕ) : ∀ b : ℝ, b ≤ l.foldl (fun r k => max r |A k|) b ∧
    (∀ k ∈ l, |A k| ≤ l.foldl (fun r k => max r |A k|) b) ∧
    (l.foldl (fun r k => max r |A k|) b = b ∨ ∃ k ∈ l, l.foldl (fun r k => max r |A k|) b = |A k|) := by
  induction l with
  | nil => intro b; simp
  | cons j l ih =>
    intro b
    obtain ⟨h1, h2, h3⟩ := ih (max b |A j|)
    simp only [List.foldl_cons]
    refine ⟨le_trans (le_max_left _ _) h1, ?_, ?_⟩
    · intro k hk
      rcases List.mem_cons.1 hk with rfl | hk
      · exact le_trans (le_max_right _ _) h1
      · exact h2 k hk
    · rcases h3 with h3 | ⟨k, hk, h3⟩
      · rcases max_choice b |A j| with hm | hm
        · left; rw [h3, hm]
        · right; exact ⟨j, by simp, by rw [h3, hm]⟩
      · right; exact ⟨k, by simp [hk], h3⟩

/-- Partial results are bounded by the maximum, dominate what they have seen, and are attained. -/
lemma red_eval {N : ℕ} {A : ℕ → ℝ} {bot r0 : ℝ} (t : Red) (hits : ∀ k ∈ t.iters, k < N) :
    ∃ r, t.eval (buf N A) bot r0 = .ok r ∧ (∀ k ∈ t.iters, |A k| ≤ r) ∧ (t.origs ≠ 0 → r0 ≤ r) ∧
      (r = bot ∨ (r = r0 ∧ t.origs ≠ 0) ∨ ∃ k ∈ t.iters, r = |A k|) := by
  induction t with
  | orig => exact ⟨r0, rfl, by simp [Red.iters], fun _ => le_refl _, Or.inr (Or.inl ⟨rfl, by simp [Red.origs]⟩)⟩
  | thread its =>
    obtain ⟨h1, h2, h3⟩ := foldl_max_le A its bot
    refine ⟨_, thread_eval its hits bot, h2, by simp [Red.origs], ?_⟩
    rcases h3 with h3 | h3
    · exact Or.inl h3
    · exact Or.inr (Or.inr h3)
  | comb s t ihs iht =>
    obtain ⟨x, hx, hx1, hx2, hx3⟩ := ihs (fun k hk => hits k (by simp [Red.iters, hk]))
    obtain ⟨y, hy, hy1, hy2, hy3⟩ := iht (fun k hk => hits k (by simp [Red.iters, hk]))
    refine ⟨max x y, ?_, ?_, ?_, ?_⟩
    · simp only [Red.eval, hx, hy, res_ok_bind, ite_lt_eq_max, res_pure]
    · intro k hk
      simp only [Red.iters, List.mem_append] at hk
      rcases hk with hk | hk
      · exact le_trans (hx1 k hk) (le_max_left _ _)
      · exact le_trans (hy1 k hk) (le_max_right _ _)
    · intro h
      simp only [Red.origs] at h
      by_cases hs : s.origs = 0
      · exact le_trans (hy2 (by omega)) (le_max_right _ _)
      · exact le_trans (hx2 hs) (le_max_left _ _)
    · have fin : ∀ z, (z = x ∨ z = y) → (z = bot ∨ (z = r0 ∧ (Red.comb s t).origs ≠ 0) ∨
          ∃ k ∈ (Red.comb s t).iters, z = |A k|) := by
        intro z hz
        rcases hz with rfl | rfl
        · rcases hx3 with h | ⟨h, h'⟩ | ⟨k, hk, h⟩
          · exact Or.inl h
          · exact Or.inr (Or.inl ⟨h, by simp only [Red.origs]; omega⟩)
          · exact Or.inr (Or.inr ⟨k, by simp [Red.iters, hk], h⟩)
        · rcases hy3 with h | ⟨h, h'⟩ | ⟨k, hk, h⟩
          · exact Or.inl h
          · exact Or.inr (Or.inl ⟨h, by simp only [Red.origs]; omega⟩)
          · exact Or.inr (Or.inr ⟨k, by simp [Red.iters, hk], h⟩)
      exact fin _ (max_choice x y)

/-- The OpenMP engine: for every way of distributing the iterations over threads and every order of
combining the partial results, the largest absolute value is returned.  `bot` is the value with which
the private copies start (the lowest `nbcoord_t`); all that matters is that it is not positive. -/
theorem fmaxabs_openmp_is_max {n N : ℕ} (hn : 0 < n) (hN : n ≤ N) {A : ℕ → ℝ} {bot : ℝ} (hbot : bot ≤ 0)
    {t : Red} (ht : t.Valid n) :
    ∃ r, fmaxabsOmp bot t (buf N A) = .ok r ∧ IsMaxAbs n A r := by
  obtain ⟨hperm, horig⟩ := ht
  have hmem : ∀ k, k ∈ t.iters ↔ k < n := fun k => by rw [hperm.mem_iff, List.mem_range]
  obtain ⟨r, hr, h1, h2, h3⟩ := red_eval (N := N) (A := A) (bot := bot) (r0 := |A 0|) t
    (fun k hk => by have := (hmem k).1 hk; omega)
  refine ⟨r, ?_, ?_, fun k hk => h1 k ((hmem k).2 hk)⟩
  · simp only [fmaxabsOmp, rd_buf (show 0 < N by omega), res_ok_bind, real_abs]
    exact hr
  · rcases h3 with rfl | ⟨rfl, _⟩ | ⟨k, hk, rfl⟩
    · have : |A 0| ≤ r := h2 (by omega)
      have h0 := abs_nonneg (A 0)
      exact ⟨0, hn, by linarith⟩
    · exact ⟨0, hn, rfl⟩
    · exact ⟨k, (hmem k).1 hk, rfl⟩

/-- Both engines agree, whatever the evaluation order of the reduction. -/
theorem fmaxabs_openmp_eq_simple {n N : ℕ} (hn : 0 < n) (hN : n ≤ N) {a : Handle} {A : ℕ → ℝ} {m : Mem ℝ}
    (ha : m a = some (buf N A)) {bot : ℝ} (hbot : bot ≤ 0) {t : Red} (ht : t.Valid n) :
    ∃ r, fmaxabs n a m = .ok (some r) ∧ fmaxabsOmp bot t (buf N A) = .ok r := by
  obtain ⟨r, h1, h2⟩ := fmaxabs_is_max hn hN ha
  obtain ⟨s, h3, h4⟩ := fmaxabs_openmp_is_max (N := N) (A := A) hn hN hbot ht
  exact ⟨r, h1, by rw [h3, isMaxAbs_unique h4 h2]⟩

/-- Without any body the buffer is empty and element 0 is read outside it (any scalar type). -/
theorem fmaxabs_empty_oob {S : Type} [FOps S] {a : Handle} {m : Mem S} (ha : m a = some [])
    (bot : S) (t : Red) :
    fmaxabs 0 a m = .error .oob ∧ fmaxabsOmp bot t ([] : List S) = .error .oob := by
  simp [fmaxabs, fmaxabsOmp, ha, rd]

/-- Three elements, two threads, the original value combined last: a valid evaluation. -/
example : (Red.comb (.comb (.thread [2, 0]) (.thread [1])) .orig).Valid 3 := by
  refine ⟨?_, rfl⟩
  show [2, 0, 1].Perm [0, 1, 2]
  decide

end NB.C09
