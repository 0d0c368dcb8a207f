import Verif.Lemmas.RelErr
import Verif.Lemmas.RealVec
import Verif.Lemmas.EngineSimple
import Verif.Lemmas.EngineBlock
import Verif.Lemmas.DenseKernel

/-
Roundings in the force loops.
-/

namespace NB

/-- The numbers a vector stands for. -/
def Vec3.real {S : Type} (val : S → ℝ) (v : Vec3 S) : Fin 3 → ℝ := fun k => val (v.coord k)

section
variable {S : Type} [Add S] [Sub S] [Mul S] [Neg S] [Div S] [Zero S] [One S] [FOps S] {val : S → ℝ} {u : ℝ}

lemma sub_rel (F : Spec.FloatModel val u) (h0 : 0 ≤ u) (hu : u < 1) (a b : S) :
    Rel u 1 (val a - val b) (val (a - b)) := (Rel.refl u _).round hu h0 (F.sub a b)

lemma mul_rel (F : Spec.FloatModel val u) (h0 : 0 ≤ u) (hu : u < 1) {a b : S} {x y : ℝ} {k l : ℕ}
    (ha : Rel u k x (val a)) (hb : Rel u l y (val b)) : Rel u (k + l + 1) (x * y) (val (a * b)) :=
  (ha.mul hu hb).round hu h0 (F.mul a b)

lemma div_rel (F : Spec.FloatModel val u) (h0 : 0 ≤ u) (hu : u < 1) {a b : S} {x y : ℝ} {k l : ℕ}
    (ha : Rel u k x (val a)) (hb : Rel u l y (val b)) (hy : y ≠ 0) : Rel u (k + l + 1) (x / y) (val (a / b)) :=
  (ha.div hu hb).round hu h0 (F.div a b (hb.ne_zero hu hy))

/-- The softened squared distance. -/
def softSq (p q : Vec3 S) : S :=
  if FOps.lt ((p.x - q.x) * (p.x - q.x) + (p.y - q.y) * (p.y - q.y) + (p.z - q.z) * (p.z - q.z))
      (FOps.minDist : S) then FOps.minDist
  else (p.x - q.x) * (p.x - q.x) + (p.y - q.y) * (p.y - q.y) + (p.z - q.z) * (p.z - q.z)

lemma softSq_rel (F : Spec.FloatModel val u) (h0 : 0 ≤ u) (hu : u < 1) (p q : Vec3 S) :
    Rel u 5 (soft (Spec.dist2 (p.real val) (q.real val))) (val (softSq p q)) := by
  have sq : ∀ a b : S, Rel u 3 ((val a - val b) ^ 2) (val ((a - b) * (a - b))) := fun a b => by
    have := mul_rel F h0 hu (sub_rel F h0 hu a b) (sub_rel F h0 hu a b)
    rwa [← sq] at this
  have h1 : Rel u 4 ((val p.x - val q.x) ^ 2 + (val p.y - val q.y) ^ 2) _ :=
    ((sq p.x q.x).add h0 hu (sq_nonneg _) (sq_nonneg _) (sq p.y q.y)).round hu h0 (F.add _ _)
  have h2 : Rel u 5 ((val p.x - val q.x) ^ 2 + (val p.y - val q.y) ^ 2 + (val p.z - val q.z) ^ 2) _ :=
    (h1.add h0 hu (by positivity) (sq_nonneg _) ((sq p.z q.z).mono h0 hu (by norm_num))).round hu h0 (F.add _ _)
  have hd : (val p.x - val q.x) ^ 2 + (val p.y - val q.y) ^ 2 + (val p.z - val q.z) ^ 2 =
      Spec.dist2 (p.real val) (q.real val) := rfl
  rw [hd] at h2
  have h3 : Rel u 5 1e-8 (val (FOps.minDist : S)) := by
    refine Rel.mono h0 hu (show 1 ≤ 5 by norm_num) ((Rel.refl u _).round hu h0 ?_)
    rw [abs_of_nonneg (show (0 : ℝ) ≤ 1e-8 by norm_num)]
    exact F.minDist
  have h4 := h2.max h0 hu (by unfold Spec.dist2; positivity) (by norm_num) h3
  have h5 : ∀ a b : S, val (if FOps.lt a b then b else a) = max (val a) (val b) := fun a b => by
    by_cases h : val a < val b
    · rw [if_pos ((F.lt a b).2 h), max_eq_right h.le]
    · rw [if_neg (mt (F.lt a b).1 h), max_eq_left (not_lt.1 h)]
  unfold softSq
  rw [h5]
  exact h4

lemma cube_rel (F : Spec.FloatModel val u) (h0 : 0 ≤ u) (hu : u < 1) (p q : Vec3 S) :
    Rel u 10 (Real.sqrt (soft (Spec.dist2 (p.real val) (q.real val))) ^ 3)
      (val (softSq p q * FOps.sqrt (softSq p q))) ∧
    Rel u 10 (Real.sqrt (soft (Spec.dist2 (p.real val) (q.real val))) ^ 3)
      (val (FOps.sqrt (softSq p q) * softSq p q)) := by
  have h := softSq_rel F h0 hu p q
  set s := soft (Spec.dist2 (p.real val) (q.real val)) with hs
  have hpos : 0 < s := soft_pos _
  have hr : Rel u 4 (Real.sqrt s) (val (FOps.sqrt (softSq p q))) := by
    refine ((h.mono h0 hu (show 5 ≤ 2 * 3 by norm_num)).sqrt h0 hu hpos.le).round hu h0 ?_
    rw [abs_of_nonneg (Real.sqrt_nonneg _)]
    exact F.sqrt _ (h.nonneg hu hpos.le)
  rw [← soft_mul_sqrt, ← hs]
  refine ⟨mul_rel F h0 hu h hr, ?_⟩
  have := mul_rel F h0 hu hr h
  rwa [mul_comm s]

lemma cube_ne (r2 : ℝ) : Real.sqrt (soft r2) ^ 3 ≠ 0 := pow_ne_zero _ (Real.sqrt_pos.2 (soft_pos r2)).ne'

/-- The pair force: 15 roundings in a row. -/
lemma force_rel (F : Spec.FloatModel val u) (h0 : 0 ≤ u) (hu : u < 1) (p q : Vec3 S) (m1 m2 : S) (k : Fin 3) :
    Rel u 15 (Spec.newton 1e-8 (p.real val) (q.real val) (val m1) (val m2) k)
      (val ((force p q m1 m2).coord k)) := by
  have hm : Rel u 2 (-(val m1 * val m2)) (val (-(1 : S) * m1 * m2)) := by
    have h1 : Rel u 0 (-1) (val (-(1 : S))) := by rw [F.neg, F.one]; exact Rel.refl u _
    have := mul_rel F h0 hu (mul_rel F h0 hu h1 (Rel.refl u (val m1))) (Rel.refl u (val m2))
    rwa [show -1 * val m1 * val m2 = -(val m1 * val m2) by ring] at this
  have hc := div_rel F h0 hu hm (cube_rel F h0 hu p q).1 (cube_ne _)
  have key : ∀ a b : S, Rel u 15 (-(val m1 * val m2) * (val a - val b) /
      Real.sqrt (soft (Spec.dist2 (p.real val) (q.real val))) ^ 3)
      (val ((a - b) * (-(1 : S) * m1 * m2 / (softSq p q * FOps.sqrt (softSq p q))))) := fun a b => by
    have := mul_rel F h0 hu (sub_rel F h0 hu a b) hc
    rwa [show (val a - val b) * (-(val m1 * val m2) /
      Real.sqrt (soft (Spec.dist2 (p.real val) (q.real val))) ^ 3) = -(val m1 * val m2) * (val a - val b) /
      Real.sqrt (soft (Spec.dist2 (p.real val) (q.real val))) ^ 3 by ring] at this
  fin_cases k
  · exact key p.x q.x
  · exact key p.y q.y
  · exact key p.z q.z

/-- The acceleration due to one body. -/
noncomputable def pull (p q : Fin 3 → ℝ) (m2 : ℝ) (k : Fin 3) : ℝ :=
  -m2 * (p k - q k) / Real.sqrt (max (Spec.dist2 p q) 1e-8) ^ 3

/-- One term of the block engine. -/
def termAt (p q : Vec3 S) (m2 : S) (k : Fin 3) : S :=
  (p.coord k - q.coord k) * (m2 / (FOps.sqrt (softSq p q) * softSq p q))

omit [Neg S] [Zero S] [One S] in
lemma blockTerm_term (t p q : Vec3 S) (m2 : S) (k : Fin 3) :
    (blockTerm t p q m2).coord k = t.coord k - termAt p q m2 k := by
  fin_cases k <;> rfl

omit [Neg S] [Zero S] [One S] in
lemma denseTerm_term (t p q : Vec3 S) (m2 : S) (k : Fin 3) :
    (denseTerm p q m2 t).coord k = t.coord k - termAt p q m2 k := by
  fin_cases k <;> rfl

/-- The term of the block engine and of the kernels: 13 roundings in a row. -/
lemma term_rel (F : Spec.FloatModel val u) (h0 : 0 ≤ u) (hu : u < 1) (p q : Vec3 S) (m2 : S) (k : Fin 3) :
    Rel u 13 (-pull (p.real val) (q.real val) (val m2) k) (val (termAt p q m2 k)) := by
  have hc := div_rel F h0 hu (Rel.refl u (val m2)) (cube_rel F h0 hu p q).2 (cube_ne _)
  have := mul_rel F h0 hu (sub_rel F h0 hu (p.coord k) (q.coord k)) hc
  have e : -pull (p.real val) (q.real val) (val m2) k = (val (p.coord k) - val (q.coord k)) *
      (val m2 / Real.sqrt (soft (Spec.dist2 (p.real val) (q.real val))) ^ 3) := by
    unfold pull soft Vec3.real; ring
  rw [e]
  exact this

/-- A loop that subtracts terms. -/
lemma fold_sub_err (F : Spec.FloatModel val u) (h0 : 0 ≤ u) (hu : u < 1) (g : ℕ → S) (x : ℕ → ℝ) (c : ℕ)
    (hg : ∀ j, Rel u c (-x j) (val (g j))) (L : ℕ) (s : S) (s0 A0 : ℝ) (k : ℕ) (hk : c ≤ k)
    (hs : Err u k s0 (val s) A0) :
    Err u (k + L) (s0 + ∑ j ∈ Finset.range L, x j) (val (foldN L s (fun j t => t - g j)))
      (A0 + ∑ j ∈ Finset.range L, |x j|) := by
  induction L with
  | zero => simpa [foldN] using hs
  | succ L ih =>
    have h1 := (Err.of_rel h0 hu (hg L)).mono h0 hu (show c ≤ k + L by omega)
    rw [abs_neg] at h1
    have h2 := (ih.sub h1).round h0 hu (F.sub _ _)
    rw [Finset.sum_range_succ, Finset.sum_range_succ]
    simp only [foldN]
    rw [← add_assoc, ← add_assoc, ← add_assoc]
    rwa [sub_neg_eq_add] at h2

/-- A loop that adds terms but skips one. -/
lemma fold_add_err (F : Spec.FloatModel val u) (h0 : 0 ≤ u) (hu : u < 1) (g : ℕ → S) (x : ℕ → ℝ) (c i : ℕ)
    (hg : ∀ j, Rel u c (x j) (val (g j))) (L : ℕ) :
    Err u (c + L) (∑ j ∈ (Finset.range L).erase i, x j)
      (val (foldN L 0 (fun j t => if i = j then t else t + g j))) (∑ j ∈ (Finset.range L).erase i, |x j|) := by
  induction L with
  | zero =>
    have := (Err.zero u).mono h0 hu (Nat.zero_le (c + 0))
    simpa [foldN, F.zero] using this
  | succ L ih =>
    simp only [foldN]
    by_cases h : i = L
    · subst h
      have : (Finset.range (i + 1)).erase i = (Finset.range i).erase i := by
        rw [Finset.range_add_one, Finset.erase_insert (by simp), Finset.erase_eq_of_notMem (by simp)]
      rw [if_pos rfl, this]
      exact ih.mono h0 hu (by omega)
    · rw [if_neg h, Finset.range_add_one, Finset.erase_insert_of_ne (Ne.symm h), Finset.sum_insert (by simp),
        Finset.sum_insert (by simp), add_comm (x L), add_comm |x L|]
      exact (ih.add ((Err.of_rel h0 hu (hg L)).mono h0 hu (by omega))).round h0 hu (F.add _ _)

/-- A loop that adds sums. -/
lemma fold_sum_err (F : Spec.FloatModel val u) (h0 : 0 ≤ u) (hu : u < 1) (g : ℕ → S) (x A : ℕ → ℝ) (c : ℕ)
    (hg : ∀ j, Err u c (x j) (val (g j)) (A j)) (L : ℕ) :
    Err u (c + L) (∑ j ∈ Finset.range L, x j) (val (foldN L 0 (fun j t => t + g j)))
      (∑ j ∈ Finset.range L, A j) := by
  induction L with
  | zero =>
    have := (Err.zero u).mono h0 hu (Nat.zero_le (c + 0))
    simpa [foldN, F.zero] using this
  | succ L ih =>
    rw [Finset.sum_range_succ, Finset.sum_range_succ]
    simp only [foldN]
    exact (ih.add ((hg L).mono h0 hu (by omega))).round h0 hu (F.add _ _)

omit [Sub S] [Mul S] [Neg S] [Div S] [Zero S] [One S] [FOps S] in
lemma fold_coord_skip (n i : ℕ) (s : Vec3 S) (g : ℕ → Vec3 S) (k : Fin 3) :
    (foldN n s (fun j t => if i = j then t else t + g j)).coord k =
      foldN n (s.coord k) (fun j t => if i = j then t else t + (g j).coord k) := by
  induction n with
  | zero => rfl
  | succ n ih =>
    simp only [foldN]
    by_cases h : i = n
    · rw [if_pos h, if_pos h, ih]
    · rw [if_neg h, if_neg h, ← ih]
      fin_cases k <;> rfl

omit [Sub S] [Mul S] [Neg S] [Div S] [Zero S] [One S] [FOps S] in
lemma fold_coord_add (n : ℕ) (s : Vec3 S) (g : ℕ → Vec3 S) (k : Fin 3) :
    (foldN n s (fun j t => t + g j)).coord k = foldN n (s.coord k) (fun j t => t + (g j).coord k) := by
  induction n with
  | zero => rfl
  | succ n ih =>
    simp only [foldN]
    rw [← ih]
    fin_cases k <;> rfl

omit [Neg S] [Zero S] [One S] in
lemma fold_coord_term (n : ℕ) (s p : Vec3 S) (q : ℕ → Vec3 S) (m : ℕ → S) (k : Fin 3) :
    (foldN n s (fun j t => blockTerm t p (q j) (m j))).coord k =
      foldN n (s.coord k) (fun j t => t - termAt p (q j) (m j) k) := by
  induction n with
  | zero => rfl
  | succ n ih =>
    simp only [foldN]
    rw [blockTerm_term, ih]

omit [Sub S] [Mul S] [Neg S] [Div S] [One S] [FOps S] [Add S] in
lemma zero_coord (k : Fin 3) : (0 : Vec3 S).coord k = 0 := by fin_cases k <;> rfl

/-- The position of body `j`. -/
abbrev at' (val : S → ℝ) (n : ℕ) (Y : ℕ → S) (j : ℕ) : Fin 3 → ℝ := (posOf n Y j).real val

/-- The simple engine, before the division by the mass. -/
lemma total_err (F : Spec.FloatModel val u) (h0 : 0 ≤ u) (hu : u < 1) (n : ℕ) (Y M : ℕ → S) (i : ℕ) (k : Fin 3) :
    Err u (15 + n)
      (∑ j ∈ (Finset.range n).erase i, Spec.newton 1e-8 (at' val n Y i) (at' val n Y j) (val (M i)) (val (M j)) k)
      (val ((totalForce n Y M i).coord k))
      (∑ j ∈ (Finset.range n).erase i,
        |Spec.newton 1e-8 (at' val n Y i) (at' val n Y j) (val (M i)) (val (M j)) k|) := by
  unfold totalForce
  rw [fold_coord_skip, zero_coord]
  exact fold_add_err F h0 hu _ _ 15 i (fun j => force_rel F h0 hu _ _ _ _ k) n

/-- The simple engine. -/
lemma simple_err (F : Spec.FloatModel val u) (h0 : 0 ≤ u) (hu : u < 1) (n : ℕ) (Y M : ℕ → S) (i : ℕ)
    (hm : val (M i) ≠ 0) (k : Fin 3) :
    Err u (n + 16) (∑ j ∈ (Finset.range n).erase i, pull (at' val n Y i) (at' val n Y j) (val (M j)) k)
      (val ((totalForce n Y M i).coord k / M i))
      (∑ j ∈ (Finset.range n).erase i, |pull (at' val n Y i) (at' val n Y j) (val (M j)) k|) := by
  have h := ((total_err F h0 hu n Y M i k).div_const (val (M i))).round h0 hu (F.div _ _ hm)
  have e : ∀ j, Spec.newton 1e-8 (at' val n Y i) (at' val n Y j) (val (M i)) (val (M j)) k =
      val (M i) * pull (at' val n Y i) (at' val n Y j) (val (M j)) k := fun j => by
    unfold Spec.newton pull; ring
  simp only [e, abs_mul] at h
  rw [← Finset.mul_sum, ← Finset.mul_sum, mul_div_cancel_left₀ _ hm,
    mul_div_cancel_left₀ _ (abs_ne_zero.2 hm)] at h
  rwa [show 15 + n + 1 = n + 16 by omega] at h

/-- The term of a body with itself is zero, so sums over the others are sums over all. -/
lemma pull_self (p : Fin 3 → ℝ) (m : ℝ) (k : Fin 3) : pull p p m k = 0 := by
  unfold pull; simp

/-- The block engine. -/
lemma block_err (F : Spec.FloatModel val u) (h0 : 0 ≤ u) (hu : u < 1) (n K B : ℕ) (Y M : ℕ → S) (i : ℕ)
    (k : Fin 3) :
    Err u (13 + K * B)
      (∑ j ∈ Finset.range (K * B), pull (at' val n Y i) (at' val n Y j) (val (M j)) k)
      (val ((blockAcc B K n Y M i).coord k))
      (∑ j ∈ Finset.range (K * B), |pull (at' val n Y i) (at' val n Y j) (val (M j)) k|) := by
  unfold blockAcc
  induction K with
  | zero =>
    have := (Err.zero u).mono h0 hu (Nat.zero_le (13 + 0 * B))
    rw [Nat.zero_mul] at this ⊢
    simp only [foldN, zero_coord, F.zero, Finset.range_zero, Finset.sum_empty]
    exact this
  | succ K ih =>
    simp only [foldN]
    rw [fold_coord_term, Nat.succ_mul, Finset.sum_range_add, Finset.sum_range_add, ← Nat.add_assoc]
    refine fold_sub_err F h0 hu _ (fun l => pull (at' val n Y i) (at' val n Y (K * B + l)) (val (M (K * B + l))) k)
      13 (fun l => ?_) B _ _ _ (13 + K * B) (by omega) ih
    rw [Nat.add_comm l]
    exact term_rel F h0 hu _ _ _ k

/-- The kernels of the GPU engines. -/
lemma tile_err (F : Spec.FloatModel val u) (h0 : 0 ≤ u) (hu : u < 1) (n B T : ℕ) (Y M : ℕ → S) (p : Vec3 S)
    (k : Fin 3) :
    Err u (13 + B + T)
      (∑ t ∈ Finset.range T, ∑ l ∈ Finset.range B,
        pull (p.real val) (at' val n Y (t * B + l)) (val (M (t * B + l))) k)
      (val ((tiledAcc n B Y M p T).coord k))
      (∑ t ∈ Finset.range T, ∑ l ∈ Finset.range B,
        |pull (p.real val) (at' val n Y (t * B + l)) (val (M (t * B + l))) k|) := by
  unfold tiledAcc
  rw [fold_coord_add, zero_coord]
  refine fold_sum_err F h0 hu _ _ _ (13 + B) (fun t => ?_) T
  unfold tileSum
  have := fold_sub_err F h0 hu (fun l => termAt p (posOf n Y (t * B + l)) (M (t * B + l)) k)
    (fun l => pull (p.real val) (at' val n Y (t * B + l)) (val (M (t * B + l))) k) 13
    (fun l => term_rel F h0 hu _ _ _ k) B 0 0 0 13 le_rfl (by
      rw [F.zero]; exact (Err.zero u).mono h0 hu (Nat.zero_le 13))
  rw [zero_add, zero_add] at this
  have e := fold_coord_term B 0 p (fun l => posOf n Y (t * B + l)) (fun l => M (t * B + l)) k
  rw [zero_coord] at e
  exact e ▸ this

end
end NB
