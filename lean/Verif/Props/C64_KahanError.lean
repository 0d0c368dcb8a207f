import Verif.Spec.Rounding
import Verif.Props.C08_Kahan

/-
C64: what the compensated summation is for.  With rounded additions and subtractions (relative error `u`,
the standard model) the error of a compensated sum does not grow with the number of terms.
-/

namespace NB.C64

open NB.Spec

/-- One step over the reals.  `s`, `c`: old sum and correction; `A`: exact sum so far; `X`: sum of the
absolute values so far; `e`: bound on `|s - c - A|`. -/
lemma kahan_step {u s c x y S T C A X e : ℝ} (hu0 : 0 ≤ u) (hu : u ≤ 1 / 100) (hA : |A| ≤ X)
    (hc : |c| ≤ 3 * u * X) (he : |s - c - A| ≤ e) (he3 : e ≤ 3 * u * X)
    (hy : |y - (x - c)| ≤ u * |x - c|) (hS : |S - (s + y)| ≤ u * |s + y|)
    (hT : |T - (S - s)| ≤ u * |S - s|) (hC : |C - (T - y)| ≤ u * |T - y|) :
    |C| ≤ 3 * u * (X + |x|) ∧ |S - C - (A + x)| ≤ e + 2 * u * |x| + 12 * u ^ 2 * (X + |x|) := by
  have hX : 0 ≤ X := (abs_nonneg A).trans hA
  have hx : 0 ≤ |x| := abs_nonneg x
  have uX : 0 ≤ u * X := mul_nonneg hu0 hX
  have ux : 0 ≤ u * |x| := mul_nonneg hu0 hx
  have uuX : u * (u * X) ≤ 1 / 100 * (u * X) := mul_le_mul_of_nonneg_right hu uX
  have uux : u * (u * |x|) ≤ 1 / 100 * (u * |x|) := mul_le_mul_of_nonneg_right hu ux
  have uuX0 : 0 ≤ u * (u * X) := mul_nonneg hu0 uX
  have uux0 : 0 ≤ u * (u * |x|) := mul_nonneg hu0 ux
  have uX1 : u * X ≤ 1 / 100 * X := mul_le_mul_of_nonneg_right hu hX
  have ux1 : u * |x| ≤ 1 / 100 * |x| := mul_le_mul_of_nonneg_right hu hx
  -- the old sum
  have hs : |s| ≤ X + 6 * (u * X) := by
    have h1 : |s| ≤ |s - c - A| + |c| + |A| := by
      calc |s| = |(s - c - A) + c + A| := by congr 1; ring
        _ ≤ |s - c - A| + |c| + |A| := (abs_add_le _ _).trans (add_le_add_left (abs_add_le _ _) _)
    linarith
  have hxc : |x - c| ≤ |x| + 3 * (u * X) := by
    have := abs_sub x c
    linarith
  have uxc : u * |x - c| ≤ u * (|x| + 3 * (u * X)) := mul_le_mul_of_nonneg_left hxc hu0
  have hyb : |y| ≤ |x| + 4 * (u * X) + u * |x| := by
    have h1 : |y| ≤ |y - (x - c)| + |x - c| := by
      calc |y| = |(y - (x - c)) + (x - c)| := by congr 1; ring
        _ ≤ _ := abs_add_le _ _
    nlinarith
  have hsy : |s + y| ≤ X + |x| + 10 * (u * X) + u * |x| := by
    have := abs_add_le s y
    linarith
  have usy : u * |s + y| ≤ u * X + u * |x| + 10 * (u * (u * X)) + u * (u * |x|) := by
    have := mul_le_mul_of_nonneg_left hsy hu0
    linarith [this, show u * (X + |x| + 10 * (u * X) + u * |x|) =
      u * X + u * |x| + 10 * (u * (u * X)) + u * (u * |x|) by ring]
  have hSs : |S - s| ≤ |x| + 6 * (u * X) + 3 * (u * |x|) := by
    have h1 : |S - s| ≤ |S - (s + y)| + |y| := by
      calc |S - s| = |(S - (s + y)) + y| := by congr 1; ring
        _ ≤ _ := abs_add_le _ _
    linarith
  have uSs : u * |S - s| ≤ u * |x| + 6 * (u * (u * X)) + 3 * (u * (u * |x|)) := by
    have := mul_le_mul_of_nonneg_left hSs hu0
    linarith [this, show u * (|x| + 6 * (u * X) + 3 * (u * |x|)) =
      u * |x| + 6 * (u * (u * X)) + 3 * (u * (u * |x|)) by ring]
  have hTy : |T - y| ≤ u * |s + y| + u * |S - s| := by
    have h1 : |T - y| ≤ |T - (S - s)| + |S - (s + y)| := by
      calc |T - y| = |(T - (S - s)) + (S - (s + y))| := by congr 1; ring
        _ ≤ _ := abs_add_le _ _
    linarith
  have hTy' : |T - y| ≤ 2 * (u * |x|) + u * X + 16 * (u * (u * X)) + 4 * (u * (u * |x|)) := by linarith
  have uTy : u * |T - y| ≤ 3 * (u * (u * |x|)) + 2 * (u * (u * X)) := by
    have h1 : |T - y| ≤ 3 * (u * |x|) + 2 * (u * X) := by linarith
    have := mul_le_mul_of_nonneg_left h1 hu0
    linarith [this, show u * (3 * (u * |x|) + 2 * (u * X)) =
      3 * (u * (u * |x|)) + 2 * (u * (u * X)) by ring]
  constructor
  · have h1 : |C| ≤ |C - (T - y)| + |T - y| := by
      calc |C| = |(C - (T - y)) + (T - y)| := by congr 1; ring
        _ ≤ _ := abs_add_le _ _
    have : 3 * u * (X + |x|) = 3 * (u * X) + 3 * (u * |x|) := by ring
    linarith
  · have h1 : |S - C - (A + x)| ≤
        |s - c - A| + |y - (x - c)| + |T - (S - s)| + |C - (T - y)| := by
      calc |S - C - (A + x)| = |(s - c - A) + (y - (x - c)) + -(T - (S - s)) + -(C - (T - y))| := by
            congr 1; ring
        _ ≤ |(s - c - A) + (y - (x - c)) + -(T - (S - s))| + |-(C - (T - y))| := abs_add_le _ _
        _ ≤ (|(s - c - A) + (y - (x - c))| + |-(T - (S - s))|) + |-(C - (T - y))| :=
            add_le_add_left (abs_add_le _ _) _
        _ ≤ _ := by
            rw [abs_neg, abs_neg]
            have := abs_add_le (s - c - A) (y - (x - c))
            linarith
    have h2 : 12 * u ^ 2 * (X + |x|) = 12 * (u * (u * X)) + 12 * (u * (u * |x|)) := by ring
    have h3 : 2 * u * |x| = 2 * (u * |x|) := by ring
    have h4 : u * (|x| + 3 * (u * X)) = u * |x| + 3 * (u * (u * X)) := by ring
    linarith

/-- The invariant of a compensated sum: sum `s`, correction `c`, exact sum `A` of the terms so far, sum `X`
of their absolute values, `k` additions. -/
def Inv (u : ℝ) (k : ℕ) (s c A X : ℝ) : Prop :=
  |A| ≤ X ∧ |c| ≤ 3 * u * X ∧ |s - c - A| ≤ 2 * u * X + 12 * k * u ^ 2 * X

lemma inv_start (u a : ℝ) (hu : 0 ≤ u) : Inv u 0 a 0 a |a| := by
  refine ⟨le_refl _, ?_, ?_⟩
  · rw [abs_zero]; positivity
  · rw [sub_zero, sub_self, abs_zero]; positivity

lemma inv_step {S : Type} [Add S] [Sub S] {val : S → ℝ} {u : ℝ} (hm : StdModel val u) (hu0 : 0 ≤ u)
    (hu : u ≤ 1 / 100) {k : ℕ} (hk : 12 * ((k + 1 : ℕ) : ℝ) * u ≤ 1) {s c x : S} {A X : ℝ}
    (h : Inv u k (val s) (val c) A X) :
    Inv u (k + 1) (val (summationK s x c).1) (val (summationK s x c).2) (A + val x) (X + |val x|) := by
  obtain ⟨hA, hc, he⟩ := h
  have hX : 0 ≤ X := (abs_nonneg A).trans hA
  have hk' : 12 * (k : ℝ) * u ≤ 1 := by
    push_cast at hk
    nlinarith
  have he3 : 2 * u * X + 12 * k * u ^ 2 * X ≤ 3 * u * X := by
    have : 12 * (k : ℝ) * u ^ 2 * X = (12 * k * u) * (u * X) := by ring
    have h2 : (12 * k * u) * (u * X) ≤ 1 * (u * X) := mul_le_mul_of_nonneg_right hk' (mul_nonneg hu0 hX)
    linarith
  obtain ⟨h1, h2⟩ := kahan_step hu0 hu hA hc he he3 (hm.sub x c) (hm.add s (x - c))
    (hm.sub (s + (x - c)) s) (hm.sub (s + (x - c) - s) (x - c))
  refine ⟨?_, h1, h2.trans ?_⟩
  · have := abs_add_le A (val x)
    linarith
  · push_cast
    have hx : 0 ≤ |val x| := abs_nonneg _
    have : 0 ≤ 12 * (k : ℝ) * u ^ 2 * |val x| := by positivity
    nlinarith

lemma inv_bound {u : ℝ} (hu0 : 0 ≤ u) {k : ℕ} (hk : 12 * (k : ℝ) * u ≤ 1) {s c A X : ℝ} (h : Inv u k s c A X) :
    |s - A| ≤ 6 * u * X := by
  obtain ⟨hA, hc, he⟩ := h
  have hX : 0 ≤ X := (abs_nonneg A).trans hA
  have h1 : |s - A| ≤ |s - c - A| + |c| := by
    calc |s - A| = |(s - c - A) + c| := by congr 1; ring
      _ ≤ _ := abs_add_le _ _
  have : 12 * (k : ℝ) * u ^ 2 * X = (12 * k * u) * (u * X) := by ring
  have h2 : (12 * k * u) * (u * X) ≤ 1 * (u * X) := mul_le_mul_of_nonneg_right hk (mul_nonneg hu0 hX)
  linarith

section
variable {S : Type} [Add S] [Sub S] {val : S → ℝ} {u : ℝ} (hm : StdModel val u) (hu0 : 0 ≤ u)
  (hu : u ≤ 1 / 100)
include hm hu0 hu

/-- **The error of `summation` does not grow with the number of terms**: for every container of `n`
elements, with rounded arithmetic of relative error `u`, the compensated sum differs from the exact sum of
the elements by at most `6 u Σ |xᵢ|`, as long as `n` is at most `1 / (12 u)` (about 7·10¹⁴ for doubles). -/
theorem summation_error [Zero S] (hz : val 0 = 0) (g : ℕ → S) (container : ℕ → Res S) (n : ℕ)
    (hg : ∀ i, i < n → container i = .ok (g i)) (hn : 12 * (n : ℝ) * u ≤ 1) :
    ∃ s, summation container n = .ok s ∧
      |val s - ∑ i ∈ Finset.range n, val (g i)| ≤ 6 * u * ∑ i ∈ Finset.range n, |val (g i)| := by
  cases n with
  | zero => exact ⟨0, rfl, by simp [hz]⟩
  | succ n =>
    have key : ∀ k, k ≤ n → ∃ st : S × S, forN k (g 0, (0 : S)) (fun k st => do
        let b ← container (0 + 1 + k)
        pure (summationK st.1 b st.2)) = (.ok st : Res _) ∧
        Inv u k (val st.1) (val st.2) (∑ i ∈ Finset.range (k + 1), val (g i))
          (∑ i ∈ Finset.range (k + 1), |val (g i)|) := by
      intro k
      induction k with
      | zero =>
        intro _
        refine ⟨(g 0, 0), rfl, ?_⟩
        simpa [hz] using inv_start u (val (g 0)) hu0
      | succ k ih =>
        intro hk
        obtain ⟨st, h1, h2⟩ := ih (by omega)
        refine ⟨summationK st.1 (g (k + 1)) st.2, ?_, ?_⟩
        · rw [forN_succ, h1, res_ok_bind, show 0 + 1 + k = k + 1 by omega, hg _ (by omega), res_ok_bind]
          rfl
        · rw [Finset.sum_range_succ _ (k + 1), Finset.sum_range_succ _ (k + 1)]
          refine inv_step hm hu0 hu ?_ h2
          refine le_trans ?_ hn
          have : ((k + 1 : ℕ) : ℝ) ≤ ((n + 1 : ℕ) : ℝ) := by exact_mod_cast Nat.le_succ_of_le hk
          nlinarith
    obtain ⟨st, h1, h2⟩ := key n (Nat.le_refl _)
    refine ⟨st.1, ?_, inv_bound hu0 (k := n) ?_ h2⟩
    · simp only [summation, summationRange, Nat.zero_ne_add_one, if_false, hg 0 (Nat.succ_pos _), res_ok_bind,
        show n + 1 - (0 + 1) = n by omega]
      rw [h1]; rfl
    · refine le_trans ?_ hn
      have : ((n : ℕ) : ℝ) ≤ ((n + 1 : ℕ) : ℝ) := by push_cast; linarith
      nlinarith

lemma accCorr_inv [Mul S] [Zero S] [FOps S] (he : ∀ c : S, FOps.eqb c 0 = true → val c = 0) (a : S) (z : S)
    (hz : val z = 0) (ts : List (S × S)) (hn : 12 * (ts.length : ℝ) * u ≤ 1)
    (hmul : ∀ t ∈ ts, |val (t.1 * t.2) - val t.1 * val t.2| ≤ u * |val t.1 * val t.2|) :
    ∃ A X, Inv u ts.length (val (accCorr (a, z) ts).1) (val (accCorr (a, z) ts).2) A X ∧
      |A - (val a + (ts.map fun t => val t.1 * val t.2).sum)| ≤
        u * (ts.map fun t => |val t.1 * val t.2|).sum ∧
      X ≤ |val a| + (1 + u) * (ts.map fun t => |val t.1 * val t.2|).sum := by
  induction ts using List.reverseRecOn with
  | nil =>
    refine ⟨val a, |val a|, ?_, by simp, by simp⟩
    simpa [accCorr, hz] using inv_start u (val a) hu0
  | append_singleton ts t ih =>
    have hlen : ((ts.length : ℕ) : ℝ) ≤ (((ts ++ [t]).length : ℕ) : ℝ) := by simp
    have hn' : 12 * (ts.length : ℝ) * u ≤ 1 := le_trans (by nlinarith) hn
    obtain ⟨A, X, h1, h2, h3⟩ := ih hn' (fun x hx => hmul x (by simp [hx]))
    have hap : accCorr (a, z) (ts ++ [t]) = if FOps.eqb t.2 0 then accCorr (a, z) ts
        else summationK (accCorr (a, z) ts).1 (t.1 * t.2) (accCorr (a, z) ts).2 := by
      simp [accCorr, List.foldl_append]
    rw [hap]
    simp only [List.map_append, List.map_cons, List.map_nil, List.sum_append, List.sum_cons, List.sum_nil,
      add_zero]
    by_cases hc : FOps.eqb t.2 0 = true
    · rw [if_pos hc, he _ hc]
      refine ⟨A, X, ?_, by simpa using h2, by simpa using h3⟩
      obtain ⟨i1, i2, i3⟩ := h1
      refine ⟨i1, i2, i3.trans ?_⟩
      have hX : 0 ≤ X := (abs_nonneg A).trans i1
      have : 12 * (ts.length : ℝ) * u ^ 2 * X ≤ 12 * ((ts ++ [t]).length : ℝ) * u ^ 2 * X := by
        have h0 : 0 ≤ u ^ 2 * X := by positivity
        nlinarith
      linarith
    · rw [if_neg hc]
      have hp := hmul t (by simp)
      refine ⟨A + val (t.1 * t.2), X + |val (t.1 * t.2)|, ?_, ?_, ?_⟩
      · have := inv_step hm hu0 hu (k := ts.length) (x := t.1 * t.2) (by simpa using hn) h1
        simpa using this
      · calc |A + val (t.1 * t.2) - (val a + ((ts.map fun t => val t.1 * val t.2).sum + val t.1 * val t.2))|
            = |(A - (val a + (ts.map fun t => val t.1 * val t.2).sum)) +
                (val (t.1 * t.2) - val t.1 * val t.2)| := by congr 1; ring
          _ ≤ _ := abs_add_le _ _
          _ ≤ _ := by rw [mul_add]; exact add_le_add h2 hp
      · have : |val (t.1 * t.2)| ≤ (1 + u) * |val t.1 * val t.2| := by
          have h4 : |val (t.1 * t.2)| ≤ |val (t.1 * t.2) - val t.1 * val t.2| + |val t.1 * val t.2| := by
            calc |val (t.1 * t.2)| = |(val (t.1 * t.2) - val t.1 * val t.2) + val t.1 * val t.2| := by
                  congr 1; ring
              _ ≤ _ := abs_add_le _ _
          linarith
        rw [mul_add]
        linarith

end

/-! ### `fmaddn_corr` over a whole run -/

section
variable {S : Type} [Add S] [Sub S] [Mul S] [Zero S] [FOps S]

/-- What a solver does with its state buffer `a` and its correction buffer `corr`: any number of
`fmaddn_corr` calls, between which everything except these two buffers may change.  `ts i` lists the
products accumulated into element `i`. -/
inductive History (n : ℕ) (a corr : Handle) (m : Mem S) : (ℕ → List (S × S)) → Mem S → Prop
  | start : History n a corr m (fun _ => []) m
  | other {ts : ℕ → List (S × S)} {m1 m2 : Mem S} : History n a corr m ts m1 → m2 a = m1 a →
      m2 corr = m1 corr → History n a corr m ts m2
  | acc {ts : ℕ → List (S × S)} {m1 m2 : Mem S} {L D csize : ℕ} {b : ℕ → Handle} {c : ℕ → S}
      {V : Handle → ℕ → S} : History n a corr m ts m1 → csize ≤ L → csize ≤ D →
      (∀ k, k < L → m1.has (b k) = true) →
      (∀ k, k < csize → b k ≠ a ∧ b k ≠ corr ∧ m1 (b k) = some (buf n (V (b k)))) →
      fmaddnCorr seqFor n a corr (buf L b) (some (buf D c)) csize m1 = .ok m2 →
      History n a corr m (fun i => ts i ++ buf csize (fun k => (V (b k) i, c k))) m2

lemma history_result {n : ℕ} {a corr : Handle} (hac : a ≠ corr) {A K : ℕ → S} {m m' : Mem S}
    {ts : ℕ → List (S × S)} (ha : m a = some (buf n A)) (hk : m corr = some (buf n K))
    (h : History n a corr m ts m') :
    m' a = some (buf n fun i => (accCorr (A i, K i) (ts i)).1) ∧
    m' corr = some (buf n fun i => (accCorr (A i, K i) (ts i)).2) := by
  induction h with
  | start => exact ⟨by simpa [accCorr] using ha, by simpa [accCorr] using hk⟩
  | other _ h1 h2 ih => rw [h1, h2]; exact ih
  | acc _ hL hD hlive hb hrun ih =>
    rw [C08.fmaddn_corr_elementwise hac hL hD ih.1 ih.2 hlive hb] at hrun
    cases hrun
    constructor
    · rw [Mem.set_ne _ _ hac, Mem.set_same]
      simp [accCorr, List.foldl_append]
    · rw [Mem.set_same]
      simp [accCorr, List.foldl_append]

/-- **A whole run with compensated accumulation**: after any number of `fmaddn_corr` calls on the same state
and correction buffers (starting from a zero correction) every element differs from its exact value by at
most `8 u` times the sum of the absolute values of what was added, however many calls there were.  The
products must not underflow (`hmul`). -/
theorem fmaddn_corr_error {val : S → ℝ} {u : ℝ} (hm : StdModel val u) (hu0 : 0 ≤ u) (hu : u ≤ 1 / 100)
    (he : ∀ c : S, FOps.eqb c 0 = true → val c = 0) {n : ℕ} {a corr : Handle} (hac : a ≠ corr) {A K : ℕ → S}
    {m m' : Mem S} {ts : ℕ → List (S × S)} (ha : m a = some (buf n A)) (hk : m corr = some (buf n K))
    (hK : ∀ i, i < n → val (K i) = 0) (h : History n a corr m ts m')
    (hn : ∀ i, i < n → 12 * ((ts i).length : ℝ) * u ≤ 1)
    (hmul : ∀ i, i < n → ∀ t ∈ ts i, |val (t.1 * t.2) - val t.1 * val t.2| ≤ u * |val t.1 * val t.2|) :
    ∃ A' : ℕ → S, m' a = some (buf n A') ∧ ∀ i, i < n →
      |val (A' i) - (val (A i) + ((ts i).map fun t => val t.1 * val t.2).sum)| ≤
        8 * u * (|val (A i)| + ((ts i).map fun t => |val t.1 * val t.2|).sum) := by
  refine ⟨_, (history_result hac ha hk h).1, fun i hi => ?_⟩
  obtain ⟨B, X, h1, h2, h3⟩ := accCorr_inv hm hu0 hu he (A i) (K i) (hK i hi) (ts i) (hn i hi) (hmul i hi)
  have h4 := inv_bound hu0 (hn i hi) h1
  set P := ((ts i).map fun t => |val t.1 * val t.2|).sum with hP
  have hP0 : 0 ≤ P := List.sum_nonneg fun x hx => by
    obtain ⟨t, _, rfl⟩ := List.mem_map.1 hx
    exact abs_nonneg _
  have hA0 : 0 ≤ |val (A i)| := abs_nonneg _
  have h5 : 6 * u * X ≤ 6 * u * (|val (A i)| + (1 + u) * P) := mul_le_mul_of_nonneg_left h3 (by positivity)
  have h6 : |val (accCorr (A i, K i) (ts i)).1 - (val (A i) + ((ts i).map fun t => val t.1 * val t.2).sum)| ≤
      6 * u * X + u * P := by
    calc _ = |(val (accCorr (A i, K i) (ts i)).1 - B) +
          (B - (val (A i) + ((ts i).map fun t => val t.1 * val t.2).sum))| := by congr 1; ring
      _ ≤ _ := abs_add_le _ _
      _ ≤ _ := add_le_add h4 h2
  have h7 : u * (u * P) ≤ 1 / 100 * (u * P) := mul_le_mul_of_nonneg_right hu (mul_nonneg hu0 hP0)
  have h8 : 0 ≤ u * P := mul_nonneg hu0 hP0
  have h9 : 0 ≤ u * |val (A i)| := mul_nonneg hu0 hA0
  nlinarith

end

/-! ### Contrast and concrete cases -/

lemma roundBits_one_add (p : ℕ) (hp : 1 ≤ p) : roundBits p (1 + 2⁻¹ ^ (p + 1)) = 1 := by
  have hq : (0 : ℝ) < 2⁻¹ ^ (p + 1) := by positivity
  have hq1 : (2⁻¹ : ℝ) ^ (p + 1) ≤ 2⁻¹ ^ 1 := pow_le_pow_of_le_one (by norm_num) (by norm_num) (by omega)
  have habs : |(1 : ℝ) + 2⁻¹ ^ (p + 1)| = 1 + 2⁻¹ ^ (p + 1) := abs_of_pos (by linarith)
  have hlog : Int.log 2 |(1 : ℝ) + 2⁻¹ ^ (p + 1)| = 0 := by
    rw [habs, Int.log_of_one_le_right _ (by linarith)]
    have : ⌊(1 : ℝ) + 2⁻¹ ^ (p + 1)⌋₊ = 1 := by
      rw [Nat.floor_eq_iff (by linarith)]
      constructor
      · push_cast; linarith
      · push_cast; linarith
    rw [this]; simp
  unfold roundBits
  rw [hlog]
  obtain ⟨q, rfl⟩ : ∃ q, p = q + 1 := ⟨p - 1, by omega⟩
  have e1 : (((q + 1 : ℕ) : ℤ) - 1 - 0) = (q : ℤ) := by push_cast; ring
  have e2 : ((0 : ℤ) - (((q + 1 : ℕ) : ℤ) - 1)) = -(q : ℤ) := by push_cast; ring
  rw [e1, e2, zpow_neg, zpow_natCast]
  have e3 : (1 + (2⁻¹ : ℝ) ^ (q + 1 + 1)) * 2 ^ q = ((2 ^ q : ℤ) : ℝ) + 1 / 4 := by
    have : (2⁻¹ : ℝ) ^ (q + 1 + 1) * 2 ^ q = 1 / 4 := by
      rw [inv_pow, pow_succ, pow_succ]; field_simp; norm_num
    push_cast
    rw [add_mul, this, one_mul]
  have e4 : round (((2 ^ q : ℤ) : ℝ) + 1 / 4) = 2 ^ q := by
    rw [round_eq, Int.floor_eq_iff]
    constructor <;> push_cast <;> linarith
  rw [e3, e4]
  push_cast
  exact mul_inv_cancel₀ (by positivity)

/-- Without the compensation the claim is false: in `p` bit arithmetic, adding `n` times `2^-(p+1)` to 1 one
by one leaves 1, so the error is `n 2^-(p+1)` and grows with the number of terms. -/
theorem plain_sum_error_grows (p n : ℕ) (hp : 1 ≤ p) :
    ((List.replicate n (⟨2⁻¹ ^ (p + 1)⟩ : Bin p)).foldl (fun a b => a + b) (⟨1⟩ : Bin p)).val = 1 := by
  have h : (⟨1⟩ : Bin p) + ⟨2⁻¹ ^ (p + 1)⟩ = ⟨1⟩ := by
    apply Bin.ext
    exact roundBits_one_add p hp
  induction n with
  | zero => rfl
  | succ n ih => rw [List.replicate_succ, List.foldl_cons, h, ih]

/-- The hypotheses of `summation_error` hold for 53 bit arithmetic and, say, one unit and a million tiny
terms. -/
example : ∃ s, summation (W := Bin 53) (fun i => .ok (if i = 0 then ⟨1⟩ else ⟨2⁻¹ ^ 54⟩)) 1000001 = .ok s ∧
    |s.val - ∑ i ∈ Finset.range 1000001, (if i = 0 then (⟨1⟩ : Bin 53) else ⟨2⁻¹ ^ 54⟩).val| ≤
      6 * 2⁻¹ ^ 53 * ∑ i ∈ Finset.range 1000001, |(if i = 0 then (⟨1⟩ : Bin 53) else ⟨2⁻¹ ^ 54⟩).val| :=
  summation_error (Bin.stdModel 53) (by positivity) (by norm_num) rfl _ _ _ (fun _ _ => rfl) (by norm_num)

noncomputable local instance (p : ℕ) : FOps (Bin p) where
  sqrt a := ⟨roundBits p (Real.sqrt a.val)⟩
  abs a := ⟨|a.val|⟩
  lt a b := open Classical in decide (a.val < b.val)
  eqb a b := open Classical in decide (a.val = b.val)
  lit n := ⟨n⟩
  minDist := ⟨roundBits p 1e-8⟩

/-- Two accumulations of two terms into one element, with a change of the term buffers in between. -/
example : ∃ m' : Mem (Bin 53), ∃ A' : ℕ → Bin 53, m' 0 = some (buf 1 A') ∧
    |(A' 0).val - (1 + ((3 * 5 + 4 * 7) + (6 * 5 + 6 * 7)))| ≤ 8 * 2⁻¹ ^ 53 * (1 + ((3 * 5 + 4 * 7) + (6 * 5 + 6 * 7))) := by
  let b : ℕ → Handle := fun k => k + 2
  let c : ℕ → Bin 53 := fun k => ⟨if k = 0 then 5 else 7⟩
  let V1 : Handle → ℕ → Bin 53 := fun h _ => ⟨if h = 2 then 3 else 4⟩
  let V2 : Handle → ℕ → Bin 53 := fun _ _ => ⟨6⟩
  let m0 : Mem (Bin 53) := fun h => if h = 0 then some (buf 1 fun _ => ⟨1⟩) else if h = 1 then some (buf 1 fun _ => 0)
    else some (buf 1 (V1 h))
  have r1 := C08.fmaddn_corr_elementwise (n := 1) (a := 0) (corr := 1) (by decide) (A := fun _ => ⟨1⟩) (K := fun _ => 0)
    (L := 2) (D := 2) (csize := 2) (b := b) (c := c) (V := V1) (m := m0) (by omega) (by omega) rfl rfl
    (fun k _ => by simp [Mem.has, m0, b]) (fun k _ => by simp [m0, b])
  obtain ⟨m1, hm1⟩ : ∃ m1, fmaddnCorr seqFor 1 0 1 (buf 2 b) (some (buf 2 c)) 2 m0 = .ok m1 := ⟨_, r1⟩
  have h1 := (History.start (n := 1) (a := 0) (corr := 1) (m := m0)).acc (V := V1) (L := 2) (D := 2) (csize := 2)
    (by omega) (by omega) (fun k _ => by simp [Mem.has, m0, b]) (fun k _ => by simp [m0, b]) hm1
  have f1 := history_result (A := fun _ => ⟨1⟩) (K := fun _ => 0) (by decide) rfl rfl h1
  let m2 : Mem (Bin 53) := fun h => if h = 0 ∨ h = 1 then m1 h else some (buf 1 (V2 h))
  have h2 := h1.other (m2 := m2) (by simp [m2]) (by simp [m2])
  have f2 := history_result (A := fun _ => ⟨1⟩) (K := fun _ => 0) (by decide) rfl rfl h2
  have hb2 : ∀ k, k < 2 → b k ≠ 0 ∧ b k ≠ 1 ∧ m2 (b k) = some (buf 1 (V2 (b k))) := by
    intro k _; simp [m2, b]
  have hl2 : ∀ k, k < 2 → m2.has (b k) = true := by
    intro k _; simp [Mem.has, m2, b]
  have r2 := C08.fmaddn_corr_elementwise (n := 1) (a := 0) (corr := 1) (by decide)
    (L := 2) (D := 2) (csize := 2) (b := b) (c := c) (V := V2) (m := m2) (by omega) (by omega) f2.1 f2.2 hl2 hb2
  obtain ⟨m3, hm3⟩ : ∃ m3, fmaddnCorr seqFor 1 0 1 (buf 2 b) (some (buf 2 c)) 2 m2 = .ok m3 := ⟨_, r2⟩
  have h3 := h2.acc (V := V2) (L := 2) (D := 2) (csize := 2) (by omega) (by omega) hl2 hb2 hm3
  obtain ⟨A', hA', hE⟩ := fmaddn_corr_error (val := Bin.val) (u := 2⁻¹ ^ 53) (A := fun _ => ⟨1⟩) (K := fun _ => 0)
    (Bin.stdModel 53) (by positivity) (by norm_num) (fun c h => of_decide_eq_true h) (by decide) rfl rfl
    (fun _ _ => rfl) h3 (fun i _ => by simp [buf]; norm_num) (fun i _ t _ => Bin.mul_error _ _)
  refine ⟨m3, A', hA', ?_⟩
  have := hE 0 (by omega)
  simpa [buf, List.range_succ, V1, V2, b, c, add_assoc, abs_of_pos] using this

end NB.C64
