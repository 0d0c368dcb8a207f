import Verif.Lemmas.EngineBlock
import Verif.Lemmas.Vec3Group
import Verif.Props.C02_DirectSum

/-
C04: the block engine computes the direct sum exactly when the body count is a multiple of 64.
`loop` is any execution of `#pragma omp parallel for` (`IsParLoop`).
-/

namespace NB.C04

/-- One term of the block engine is the acceleration due to one body (zero for the body itself). -/
lemma blockTerm_coord (t p q : Vec3 ℝ) (m2 : ℝ) (k : Fin 3) :
    (blockTerm t p q m2).coord k = t.coord k +
      -m2 * (p.coord k - q.coord k) / Real.sqrt (max (Spec.dist2 p.coord q.coord) 1e-8) ^ 3 := by
  have hn : (p - q).x * (p - q).x + (p - q).y * (p - q).y + (p - q).z * (p - q).z = (p - q).norm := rfl
  unfold blockTerm
  simp only [hn, soft_eq, real_sqrt, norm_eq_dist2]
  rw [mul_comm (Real.sqrt _), soft_mul_sqrt]
  unfold soft
  fin_cases k <;> simp [Vec3.coord] <;> ring

lemma blockTerm_add (t p q : Vec3 ℝ) (m2 : ℝ) :
    blockTerm t p q m2 = t + blockTerm 0 p q m2 := by
  unfold blockTerm
  abel

lemma foldN_add {A : Type} [AddCommGroup A] (n : ℕ) (s : A) (g : ℕ → A) :
    foldN n s (fun j t => t + g j) = s + ∑ j ∈ Finset.range n, g j := by
  induction n with
  | zero => simp [foldN]
  | succ n ih => simp only [foldN, ih, Finset.sum_range_succ, add_assoc]

/-- Summing block by block is summing over all indices. -/
lemma sum_blocks {A : Type} [AddCommGroup A] (K B : ℕ) (g : ℕ → A) :
    ∑ k ∈ Finset.range K, ∑ b ∈ Finset.range B, g (k * B + b) = ∑ j ∈ Finset.range (K * B), g j := by
  induction K with
  | zero => simp
  | succ K ih =>
    rw [Finset.sum_range_succ, ih, Nat.succ_mul, Finset.sum_range_add]

lemma blockAcc_coord (K B : ℕ) (Y M : ℕ → ℝ) (i : ℕ) (k : Fin 3) :
    (blockAcc B K (K * B) Y M i).coord k = Spec.accel 1e-8 (K * B) (C02.pos (K * B) Y) M i k := by
  have h1 : blockAcc B K (K * B) Y M i =
      ∑ j ∈ Finset.range (K * B), blockTerm 0 (posOf (K * B) Y i) (posOf (K * B) Y j) (M j) := by
    unfold blockAcc
    rw [← sum_blocks, ← foldN_sum]
    apply foldN_congr
    intro k2 t _
    rw [← foldN_add]
    apply foldN_congr
    intro b2 t _
    rw [blockTerm_add, add_comm b2]
  rw [h1, Vec3.sum_coord]
  unfold Spec.accel
  have h2 : ∀ j, (blockTerm 0 (posOf (K * B) Y i) (posOf (K * B) Y j) (M j)).coord k =
      -(M j) * (C02.pos (K * B) Y i k - C02.pos (K * B) Y j k) /
        Real.sqrt (max (Spec.dist2 (C02.pos (K * B) Y i) (C02.pos (K * B) Y j)) 1e-8) ^ 3 := by
    intro j
    rw [blockTerm_coord]
    have h0 : (0 : Vec3 ℝ).coord k = 0 := by fin_cases k <;> rfl
    rw [h0, zero_add]
    rfl
  simp only [h2]
  rw [Finset.sum_erase]
  simp

/-- When the body count is a multiple of 64, every parallel execution of the block engine's `fcompute`
succeeds (no access outside a buffer), writes only `f`, copies the velocities and produces the textbook
accelerations.  Masses need not be non-zero. -/
theorem block_is_newton {loop : Loop ℝ} (hl : IsParLoop loop) {n : ℕ} (hn : 64 ∣ n) {hm y f : Handle}
    (hyf : y ≠ f) (hmf : hm ≠ f) {Y M : ℕ → ℝ}
    {m : Mem ℝ} (hy : m y = some (buf (6 * n) Y)) (hM : m hm = some (buf n M))
    (hf : m.shape f = some (6 * n)) :
    ∃ F : ℕ → ℝ, blockFcompute loop blockSize n hm y f m = .ok (m.set f (buf (6 * n) F)) ∧
      (∀ i, i < 3 * n → F i = Y (3 * n + i)) ∧
      (∀ i, i < n →
        F (3 * n + i) = Spec.accel 1e-8 n (C02.pos n Y) M i 0 ∧
        F (4 * n + i) = Spec.accel 1e-8 n (C02.pos n Y) M i 1 ∧
        F (5 * n + i) = Spec.accel 1e-8 n (C02.pos n Y) M i 2) := by
  obtain ⟨K, hK⟩ := hn
  have hK' : n = K * blockSize := by rw [hK, blockSize, Nat.mul_comm]
  clear hK
  subst hK'
  have hb : 0 < blockSize := by decide
  have hseq := blockFcompute_eq hb hyf hmf hy hM hf
  refine ⟨blockDeriv blockSize K (K * blockSize) Y M, ?_, ?_, ?_⟩
  · unfold blockFcompute at hseq ⊢
    rw [ceil_div_mul hb] at hseq ⊢
    split_ifs at hseq ⊢
    · exact hseq
    · exact hseq
    · exact parLoop_eq_seq hl (blockBody_independent hb hyf hmf) hseq
  · intro i hi; simp [blockDeriv, hi]
  · intro i hi
    obtain ⟨_, _, _, h3, h4, h5⟩ := blockDeriv_cells (block := blockSize) (blocks := K) (Y := Y) (M := M) hi rfl
    rw [h3, h4, h5]
    exact ⟨blockAcc_coord K blockSize Y M i 0, blockAcc_coord K blockSize Y M i 1,
      blockAcc_coord K blockSize Y M i 2⟩

/-- Hence it agrees with the simple engine whenever the latter's division by the body's own mass is
harmless. -/
theorem block_eq_simple {loop : Loop ℝ} (hl : IsParLoop loop) {n : ℕ} (hn : 64 ∣ n) {hm y f : Handle}
    (hyf : y ≠ f) (hmf : hm ≠ f) {Y M : ℕ → ℝ}
    {m : Mem ℝ} (hy : m y = some (buf (6 * n) Y)) (hM : m hm = some (buf n M))
    (hf : m.shape f = some (6 * n)) (hmass : ∀ i, i < n → M i ≠ 0) :
    blockFcompute loop blockSize n hm y f m = fcompute seqFor n hm y f m := by
  obtain ⟨F, h1, h2, h3⟩ := block_is_newton hl hn hyf hmf hy hM hf
  obtain ⟨G, g1, g2, g3⟩ := C02.fcompute_is_newton hyf hmf hy hM hf hmass
  rw [h1, g1]
  congr 2
  apply buf_congr
  intro j hj
  by_cases hj3 : j < 3 * n
  · rw [h2 j hj3, g2 j hj3]
  · have hcases : (∃ i, i < n ∧ j = 3 * n + i) ∨ (∃ i, i < n ∧ j = 4 * n + i) ∨ (∃ i, i < n ∧ j = 5 * n + i) := by
      by_cases h4 : j < 4 * n
      · exact Or.inl ⟨j - 3 * n, by omega, by omega⟩
      · by_cases h5 : j < 5 * n
        · exact Or.inr (Or.inl ⟨j - 4 * n, by omega, by omega⟩)
        · exact Or.inr (Or.inr ⟨j - 5 * n, by omega, by omega⟩)
    rcases hcases with ⟨i, hi, rfl⟩ | ⟨i, hi, rfl⟩ | ⟨i, hi, rfl⟩
    · rw [(h3 i hi).1, (g3 i hi).1]
    · rw [(h3 i hi).2.1, (g3 i hi).2.1]
    · rw [(h3 i hi).2.2, (g3 i hi).2.2]

/-- When the body count is not a multiple of 64, every parallel execution accesses memory outside a
buffer, whatever the contents and for any scalar arithmetic. -/
theorem block_out_of_bounds {S : Type} [Add S] [Sub S] [Mul S] [Neg S] [Div S] [Zero S] [FOps S]
    {loop : Loop S} (hl : IsParLoop loop) {n : ℕ} (hn : ¬ 64 ∣ n) {hm y f : Handle}
    {m : Mem S} (hy : m.has y = true) (hf : m.has f = true) (hM : m.shape hm = some n) :
    ∃ e, blockFcompute loop blockSize n hm y f m = .error e := by
  have hb : blockSize = 64 := rfl
  rw [← hb] at hn
  have hb0 : 0 < blockSize := by rw [hb]; omega
  generalize blockSize = B at hn hb0
  clear hb
  unfold blockFcompute
  simp only [hy, hf, Bool.not_true, Bool.false_eq_true, if_false]
  have hn0 : 0 < n := Nat.pos_of_ne_zero fun h => hn (h ▸ dvd_zero B)
  have hblk : 0 < (n + (B - 1)) / B := Nat.div_pos (by omega) hb0
  have hd := blockBody_doomed (S := S) hb0 hn (y := y) (f := f) hM 0
  exact parLoop_doomed hl hblk hd

/-- The multiples of 64 are the only safe counts. -/
theorem block_safe_iff {loop : Loop ℝ} (hl : IsParLoop loop) {n : ℕ} {hm y f : Handle}
    (hyf : y ≠ f) (hmf : hm ≠ f) {Y M : ℕ → ℝ}
    {m : Mem ℝ} (hy : m y = some (buf (6 * n) Y)) (hM : m hm = some (buf n M))
    (hf : m.shape f = some (6 * n)) :
    (∃ m', blockFcompute loop blockSize n hm y f m = .ok m') ↔ 64 ∣ n := by
  constructor
  · rintro ⟨m', h⟩
    by_contra hn
    obtain ⟨e, he⟩ := block_out_of_bounds hl hn (y := y) (f := f) (hm := hm) (m := m)
      (by simp [Mem.has, hy]) (by rw [Mem.has_eq, hf]; rfl) (Mem.shape_buf hM)
    rw [he] at h; cases h
  · intro hn
    obtain ⟨F, h1, _⟩ := block_is_newton hl hn hyf hmf hy hM hf
    exact ⟨_, h1⟩

/-- 128 bodies, resp. 65 bodies, in concrete memories meet the hypotheses; a reversed loop is a
parallel loop. -/
example : ∃ m : Mem ℝ, m 0 = some (buf 128 (fun i => (i : ℝ) + 1)) ∧
    m 1 = some (buf (6 * 128) (fun i => ((i * i : ℕ) : ℝ))) ∧ m.shape 2 = some (6 * 128) ∧ 64 ∣ 128 ∧
    ¬ 64 ∣ 65 ∧ (∀ i : ℕ, i < 128 → ((i : ℝ) + 1) ≠ 0) ∧
    IsParLoop (orderedFor (S := ℝ) (fun n => (List.range n).reverse)) := by
  refine ⟨fun h => if h = 0 then some (buf 128 (fun i => (i : ℝ) + 1))
    else if h = 1 then some (buf (6 * 128) (fun i => ((i * i : ℕ) : ℝ)))
    else some (buf (6 * 128) (fun _ => 0)), by simp, by simp, by simp [Mem.shape], by decide, by decide, ?_,
    orderedFor_isParLoop fun _ => List.reverse_perm _⟩
  intro i _
  exact Nat.cast_add_one_ne_zero i

end NB.C04
