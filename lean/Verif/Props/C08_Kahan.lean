import Verif.Lemmas.EngineSimple
import Verif.Lemmas.Sums
import Verif.Model.Summation
import Verif.Model.RealScalar
import Verif.Props.C07_Fmadd

/-
C08: compensated accumulation.  The frame property holds for arbitrary scalars; the value is stated for
exact arithmetic.  What exact arithmetic cannot show is that the compensation reduces rounding error.
-/

namespace NB.C08

open NB.C07 (zip_take_buf map_buf mem_buf)

lemma cell_of_frame {S : Type} {m : Mem S} {m' : Mem S} {a corr : Handle} {i : Nat} {x y : Nat → S}
    (hc : ∀ h j, m'.cell h j = (m.cell h j).map (fun v =>
      if ((if h = a ∨ h = corr then some j else none : Option Nat)).any (fun o => decide (o < i))
      then (if h = a then x j else y j) else v)) (h : Handle) : m'.cell h i = m.cell h i := by
  rw [hc]
  cases m.cell h i with
  | none => rfl
  | some v => by_cases hh : h = a ∨ h = corr <;> simp [hh]

/-- Frame, for every scalar type: element `i` of the result and of the correction are obtained from
elements `i` of the buffers alone, and nothing but the two output buffers changes. -/
theorem fmaddn_corr_elementwise {S : Type} [Add S] [Sub S] [Mul S] [Zero S] [FOps S]
    {n : Nat} {a corr : Handle} (hac : a ≠ corr) {A K : Nat → S} {L D csize : Nat} {b : Nat → Handle}
    {c : Nat → S} {V : Handle → Nat → S} {m : Mem S} (hL : csize ≤ L) (hD : csize ≤ D)
    (ha : m a = some (buf n A)) (hk : m corr = some (buf n K))
    (hlive : ∀ k, k < L → m.has (b k) = true)
    (hb : ∀ k, k < csize → b k ≠ a ∧ b k ≠ corr ∧ m (b k) = some (buf n (V (b k)))) :
    fmaddnCorr seqFor n a corr (buf L b) (some (buf D c)) csize m =
      .ok ((m.set a (buf n (fun i => (accCorr (A i, K i) (buf csize (fun k => (V (b k) i, c k)))).1))).set
        corr (buf n (fun i => (accCorr (A i, K i) (buf csize (fun k => (V (b k) i, c k)))).2))) := by
  have h1 : ¬ csize > L := by omega
  have h2 : ¬ D < csize := by omega
  have h3 : (buf L b).all m.has = true := by
    rw [List.all_eq_true]
    intro h hh
    obtain ⟨j, hj, rfl⟩ := mem_buf hh
    exact hlive j hj
  have h4 : m.has a = true := by simp [Mem.has, ha]
  have h5 : m.has corr = true := by simp [Mem.has, hk]
  simp only [fmaddnCorr, h3, h4, h5, buf_length, h1, h2, if_false, zip_take_buf hL hD, false_and]
  have key := seqFor_cells (n := n)
    (body := fun i => fmaddnCorrTerms a corr i (buf csize fun j => (b j, c j))) (m := m)
    (fun h j => if h = a ∨ h = corr then some j else none)
    (fun h i => if h = a then (accCorr (A i, K i) (buf csize (fun k => (V (b k) i, c k)))).1
      else (accCorr (A i, K i) (buf csize (fun k => (V (b k) i, c k)))).2) ?_
  · obtain ⟨m', hrun, hs, hc⟩ := key
    simp only [Bool.not_true, Bool.false_eq_true, if_false]
    rw [hrun]
    congr 1
    apply Mem.ext_cells
    · rw [hs, Mem.shape_set, Mem.shape_set]
      · simpa using Mem.shape_buf ha
      · rw [buf_length, Mem.shape_set (by simpa using Mem.shape_buf ha)]
        exact Mem.shape_buf hk
    · intro h j
      rw [hc, Mem.cell_set, Mem.cell_set, buf_getElem?, buf_getElem?]
      by_cases hh : h = corr
      · subst hh
        rw [Mem.cell_buf hk]
        by_cases hj : j < n <;> simp [hj, hac.symm]
      · by_cases hh' : h = a
        · subst hh'
          rw [Mem.cell_buf ha]
          by_cases hj : j < n <;> simp [hj, hh]
        · cases m.cell h j <;> simp [hh, hh']
  · intro i m' hi hs hc
    have hcell := cell_of_frame hc
    obtain ⟨m'', hr, hcl⟩ := fmaddnCorrTerms_run (n := n) hac (i := i) V
      (buf csize fun j => (b j, c j)) (x := A i) (k := K i) (m := m')
      (by rw [hcell, Mem.cell_buf ha, if_pos hi]) (by rw [hcell, Mem.cell_buf hk, if_pos hi])
      (by
        intro t ht
        obtain ⟨j, hj, rfl⟩ := mem_buf ht
        obtain ⟨e1, e2, e3⟩ := hb j hj
        exact ⟨e1, e2, by rw [hcell, Mem.cell_buf e3, if_pos hi]⟩)
    refine ⟨m'', hr, fun h j => ?_⟩
    rw [hcl]
    cases m'.cell h j with
    | none => rfl
    | some v =>
      simp only [Option.map_some, map_buf]
      congr 1
      by_cases hj : j = i
      · subst hj
        by_cases hh : h = a
        · simp [hh]
        · by_cases hh' : h = corr <;> simp [hh, hh', hac.symm]
      · by_cases hh : h = a ∨ h = corr <;> simp [hj, hh]

lemma summationK_exact {W : Type*} [AddCommGroup W] (a b k : W) :
    summationK a b k = (a + b - k, 0) := by
  unfold summationK
  ext
  · simp only []; abel
  · simp only []; abel

/-- Exact arithmetic: the accumulated value is the plain sum minus the incoming correction, and the
outgoing correction is zero as soon as some coefficient is not zero. -/
lemma accCorr_exact (x k : ℝ) (n : ℕ) (v c : ℕ → ℝ) :
    accCorr (x, k) (buf n (fun j => (v j, c j))) =
      if ∀ j, j < n → c j = 0 then (x, k) else (x - k + ∑ j ∈ Finset.range n, v j * c j, 0) := by
  unfold accCorr buf
  induction n with
  | zero => simp
  | succ n ih =>
    rw [List.range_succ, List.map_append, List.foldl_append, ih, Finset.sum_range_succ]
    simp only [List.map_cons, List.map_nil, List.foldl_cons, List.foldl_nil, real_eqb,
      decide_eq_true_eq, summationK_exact]
    by_cases h : ∀ j, j < n → c j = 0
    · rw [if_pos h]
      by_cases hc : c n = 0
      · rw [if_pos hc, if_pos]
        intro j hj
        rcases Nat.lt_succ_iff_lt_or_eq.1 hj with hj | rfl
        · exact h j hj
        · exact hc
      · rw [if_neg hc, if_neg (fun hh => hc (hh n (by omega)))]
        have : ∑ j ∈ Finset.range n, v j * c j = 0 :=
          Finset.sum_eq_zero fun j hj => by rw [h j (Finset.mem_range.1 hj), mul_zero]
        rw [this]
        ext <;> simp <;> ring
    · have h' : ¬ ∀ j, j < n + 1 → c j = 0 := fun hh => h fun j hj => hh j (by omega)
      rw [if_neg h, if_neg h']
      by_cases hc : c n = 0
      · rw [if_pos hc]; simp [hc]
      · rw [if_neg hc]
        ext <;> simp <;> ring

/-- `fmaddn_corr` in exact arithmetic with a zero incoming correction: `a += Σ b_k c_k` and the correction
stays zero. -/
theorem fmaddn_corr_is_plain_sum {n : ℕ} {a corr : Handle} (hac : a ≠ corr) {A : ℕ → ℝ}
    {L D csize : ℕ} {b : ℕ → Handle} {c : ℕ → ℝ} {V : Handle → ℕ → ℝ} {m : Mem ℝ} (hL : csize ≤ L)
    (hD : csize ≤ D) (ha : m a = some (buf n A)) (hk : m corr = some (buf n (fun _ => 0)))
    (hlive : ∀ k, k < L → m.has (b k) = true)
    (hb : ∀ k, k < csize → b k ≠ a ∧ b k ≠ corr ∧ m (b k) = some (buf n (V (b k)))) :
    fmaddnCorr seqFor n a corr (buf L b) (some (buf D c)) csize m =
      .ok (m.set a (buf n (fun i => A i + ∑ k ∈ Finset.range csize, V (b k) i * c k))) := by
  rw [fmaddn_corr_elementwise hac hL hD ha hk hlive hb]
  have e : ∀ i, accCorr (A i, (0 : ℝ)) (buf csize (fun k => (V (b k) i, c k))) =
      (A i + ∑ k ∈ Finset.range csize, V (b k) i * c k, 0) := by
    intro i
    rw [accCorr_exact (A i) 0 csize (fun k => V (b k) i) c]
    split
    · next h =>
      rw [Finset.sum_eq_zero fun j hj => by rw [h j (Finset.mem_range.1 hj), mul_zero], add_zero]
    · rw [sub_zero]
  simp only [e]
  congr 1
  funext h
  by_cases hh : h = corr
  · subst hh; rw [Mem.set_same, Mem.set_ne _ _ hac.symm, hk]
  · rw [Mem.set_ne _ _ hh]

/-- With an arbitrary incoming correction: `a - corr` grows by exactly the sum of the terms, element by
element, and (if any coefficient is non-zero) the correction is reset to zero. -/
theorem fmaddn_corr_invariant {n : ℕ} {a corr : Handle} (hac : a ≠ corr) {A K : ℕ → ℝ}
    {L D csize : ℕ} {b : ℕ → Handle} {c : ℕ → ℝ} {V : Handle → ℕ → ℝ} {m : Mem ℝ} (hL : csize ≤ L)
    (hD : csize ≤ D) (ha : m a = some (buf n A)) (hk : m corr = some (buf n K))
    (hlive : ∀ k, k < L → m.has (b k) = true)
    (hb : ∀ k, k < csize → b k ≠ a ∧ b k ≠ corr ∧ m (b k) = some (buf n (V (b k)))) :
    ∃ A' K' : ℕ → ℝ, fmaddnCorr seqFor n a corr (buf L b) (some (buf D c)) csize m =
        .ok ((m.set a (buf n A')).set corr (buf n K')) ∧
      (∀ i, A' i - K' i = A i - K i + ∑ k ∈ Finset.range csize, V (b k) i * c k) ∧
      ((∃ k, k < csize ∧ c k ≠ 0) → ∀ i, K' i = 0) := by
  refine ⟨_, _, fmaddn_corr_elementwise hac hL hD ha hk hlive hb, ?_, ?_⟩
  · intro i
    rw [accCorr_exact (A i) (K i) csize (fun k => V (b k) i) c]
    split
    · next h =>
      rw [Finset.sum_eq_zero fun j hj => by rw [h j (Finset.mem_range.1 hj), mul_zero], add_zero]
    · simp
  · rintro ⟨k, hk, hne⟩ i
    rw [accCorr_exact (A i) (K i) csize (fun k => V (b k) i) c, if_neg (fun h => hne (h k hk))]

/-- A Kahan sum over a range of any container, in exact arithmetic: the plain sum, minus the incoming
correction if at least two elements are added, and a zero correction afterwards. -/
theorem summation_range_exact {W : Type} [AddCommGroup W] (g : ℕ → W) (container : ℕ → Res W)
    {start stop : ℕ} (h : start ≤ stop) (hg : ∀ i, start ≤ i → i < stop → container i = .ok (g i)) :
    summationRange container start stop 0 = .ok (∑ i ∈ Finset.Ico start stop, g i, 0) := by
  unfold summationRange
  split
  · next he => subst he; simp
  · next hne =>
    rw [hg start (Nat.le_refl _) (by omega), res_ok_bind]
    have key : ∀ k, start + 1 + k ≤ stop → forN k (g start, (0 : W)) (fun k st => do
        let b ← container (start + 1 + k)
        pure (summationK st.1 b st.2)) = (.ok (∑ i ∈ Finset.Ico start (start + 1 + k), g i, 0) : Res _) := by
      intro k
      induction k with
      | zero => intro _; simp
      | succ k ih =>
        intro hk
        rw [forN_succ, ih (by omega), res_ok_bind, hg _ (by omega) (by omega), res_ok_bind,
          summationK_exact, ← Nat.add_assoc (start + 1) k 1, Finset.sum_Ico_succ_top (by omega)]
        simp
    have e : start + 1 + (stop - (start + 1)) = stop := by omega
    rw [key _ (by omega), e]

/-- `summation(container, size)` is the plain sum of the `size` elements. -/
theorem summation_exact {W : Type} [AddCommGroup W] (g : ℕ → W) (container : ℕ → Res W) (size : ℕ)
    (hg : ∀ i, i < size → container i = .ok (g i)) :
    summation container size = .ok (∑ i ∈ Finset.range size, g i) := by
  unfold summation
  rw [summation_range_exact g container (Nat.zero_le _) (fun _ _ hi => hg _ hi), res_ok_bind,
    Finset.range_eq_Ico]
  rfl

/-- The compensation is not the identity in general: with an incoming correction the sum is shifted (this is
why the correction buffer must start at zero). -/
theorem correction_matters : (summationK (1 : ℝ) 2 1).1 ≠ 1 + 2 := by
  rw [summationK_exact]; norm_num

/-- Hypotheses of the `fmaddn_corr` theorems on a concrete memory with two terms. -/
example : ∃ m : Mem ℝ, fmaddnCorr seqFor 2 0 1 (buf 2 (fun k => k + 2)) (some (buf 2 (fun k => (k : ℝ)))) 2 m
    = .ok (m.set 0 (buf 2 (fun i => (10 : ℝ) + ∑ k ∈ Finset.range 2, ((k + 2 : ℕ) : ℝ) * (k : ℝ)))) := by
  refine ⟨fun h => if h = 0 then some (buf 2 (fun _ => 10)) else if h = 1 then some (buf 2 (fun _ => 0))
    else some (buf 2 (fun _ => (h : ℝ))), ?_⟩
  exact fmaddn_corr_is_plain_sum (A := fun _ => 10) (V := fun h _ => (h : ℝ)) (by decide)
    (Nat.le_refl 2) (Nat.le_refl 2) (by simp) (by simp) (by intro k _; simp [Mem.has])
    (by intro k _; simp)

end NB.C08
