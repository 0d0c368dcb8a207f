import Verif.Lemmas.FloatForce
import Verif.Props.C03_OpenMP
import Verif.Props.C04_Block
import Verif.Props.C70_DenseKernel

/-
C79: rounding errors of the direct sum.  The scalars are any rounded arithmetic (Spec/FloatModel.lean), the
reference is softened gravity on the real numbers the scalars stand for.
-/

namespace NB.C79

/-- The summands of an acceleration, added up without regard to sign: the scale of its rounding error. -/
noncomputable def scale (eps : ℝ) (n : ℕ) (r : ℕ → Fin 3 → ℝ) (m : ℕ → ℝ) (i : ℕ) (k : Fin 3) : ℝ :=
  ∑ j ∈ (Finset.range n).erase i, |-(m j) * (r i k - r j k) / Real.sqrt (max (Spec.dist2 (r i) (r j)) eps) ^ 3|

/-- `F` is the derivative of the state `Y` of `n` bodies with masses `M` up to `K` roundings: velocities are
copied, each coordinate of each acceleration is off by at most `γ(K)` times its scale. -/
def Accurate {S : Type} (val : S → ℝ) (u : ℝ) (K n : ℕ) (Y M F : ℕ → S) : Prop :=
  (∀ i, i < 3 * n → F i = Y (3 * n + i)) ∧
  ∀ i (k : Fin 3), i < n →
    |val (F ((3 + k) * n + i)) - Spec.accel 1e-8 n (C02.pos n (val ∘ Y)) (val ∘ M) i k| ≤
      Spec.gamma u K * scale 1e-8 n (C02.pos n (val ∘ Y)) (val ∘ M) i k

section
variable {S : Type} [Add S] [Sub S] [Mul S] [Neg S] [Div S] [Zero S] [One S] [FOps S] {val : S → ℝ} {u : ℝ}

/-- The force of one body on another: every coordinate has a relative error of at most `γ(15)`, however close the
bodies are; in particular no cancellation beyond that of the positions themselves. -/
theorem pair_force_partial (F : Spec.FloatModel val u) (h0 : 0 ≤ u) (hu : 15 * u < 1) (p q : Vec3 S) (m1 m2 : S)
    (k : Fin 3) :
    |val ((force p q m1 m2).coord k) -
        Spec.newton 1e-8 (fun l => val (p.coord l)) (fun l => val (q.coord l)) (val m1) (val m2) k| ≤
      Spec.gamma u 15 *
        |Spec.newton 1e-8 (fun l => val (p.coord l)) (fun l => val (q.coord l)) (val m1) (val m2) k| :=
  (Err.of_rel h0 (by linarith) (force_rel F h0 (by linarith) p q m1 m2 k)).gamma_le (by exact_mod_cast hu)

omit [Add S] [Sub S] [Mul S] [Neg S] [Div S] [Zero S] [One S] [FOps S] in
lemma at_pos (n : ℕ) (Y : ℕ → S) (i : ℕ) : at' val n Y i = C02.pos n (val ∘ Y) i := by
  funext k; fin_cases k <;> rfl

omit [Add S] [Sub S] [Mul S] [Neg S] [Div S] [Zero S] [One S] [FOps S] in
lemma of_err {K n : ℕ} {Y M F : ℕ → S} (hK : K * u < 1) (h1 : ∀ i, i < 3 * n → F i = Y (3 * n + i))
    (h2 : ∀ i (k : Fin 3), i < n →
      Err u K (∑ j ∈ (Finset.range n).erase i, pull (at' val n Y i) (at' val n Y j) (val (M j)) k)
        (val (F ((3 + k) * n + i)))
        (∑ j ∈ (Finset.range n).erase i, |pull (at' val n Y i) (at' val n Y j) (val (M j)) k|)) :
    Accurate val u K n Y M F := by
  refine ⟨h1, fun i k hi => ?_⟩
  have := (h2 i k hi).gamma_le hK
  simp only [at_pos] at this
  exact this

omit [Add S] [Sub S] [Mul S] [Neg S] [Div S] [Zero S] [One S] [FOps S] in
lemma erase_self (n : ℕ) (Y M : ℕ → S) (i : ℕ) (k : Fin 3) :
    (∑ j ∈ (Finset.range n).erase i, pull (at' val n Y i) (at' val n Y j) (val (M j)) k =
      ∑ j ∈ Finset.range n, pull (at' val n Y i) (at' val n Y j) (val (M j)) k) ∧
    (∑ j ∈ (Finset.range n).erase i, |pull (at' val n Y i) (at' val n Y j) (val (M j)) k| =
      ∑ j ∈ Finset.range n, |pull (at' val n Y i) (at' val n Y j) (val (M j)) k|) :=
  ⟨Finset.sum_erase _ (pull_self _ _ _), Finset.sum_erase _ (by rw [pull_self, abs_zero])⟩

lemma simple_accurate (F : Spec.FloatModel val u) (h0 : 0 ≤ u) {n : ℕ} (hK : ((n + 16 : ℕ) : ℝ) * u < 1)
    (Y M : ℕ → S) (hM : ∀ i, i < n → val (M i) ≠ 0) : Accurate val u (n + 16) n Y M (derivVal n Y M) := by
  have hu : u < 1 := by
    push_cast at hK
    nlinarith [show (0 : ℝ) ≤ n from Nat.cast_nonneg n]
  refine of_err hK (fun i hi => if_pos hi) fun i k hi => ?_
  have h := simple_err F h0 hu n Y M i (hM i hi) k
  have e : derivVal n Y M ((3 + k) * n + i) = (totalForce n Y M i).coord k / M i := by
    unfold derivVal
    fin_cases k
    · change (if (3 + 0) * n + i < 3 * n then _ else if (3 + 0) * n + i < 4 * n then _ else _) = _
      rw [if_neg (by omega), if_pos (by omega), show (3 + 0) * n + i - 3 * n = i by omega]; rfl
    · change (if (3 + 1) * n + i < 3 * n then _ else if (3 + 1) * n + i < 4 * n then _ else
        if (3 + 1) * n + i < 5 * n then _ else _) = _
      rw [if_neg (by omega), if_neg (by omega), if_pos (by omega), show (3 + 1) * n + i - 4 * n = i by omega]; rfl
    · change (if (3 + 2) * n + i < 3 * n then _ else if (3 + 2) * n + i < 4 * n then _ else
        if (3 + 2) * n + i < 5 * n then _ else _) = _
      rw [if_neg (by omega), if_neg (by omega), if_neg (by omega), show (3 + 2) * n + i - 5 * n = i by omega]; rfl
  rw [e]; exact h

lemma block_accurate (F : Spec.FloatModel val u) (h0 : 0 ≤ u) {K B : ℕ} (hK : ((K * B + 13 : ℕ) : ℝ) * u < 1)
    (Y M : ℕ → S) : Accurate val u (K * B + 13) (K * B) Y M (blockDeriv B K (K * B) Y M) := by
  have hu : u < 1 := by
    push_cast at hK
    nlinarith [show (0 : ℝ) ≤ (K : ℝ) * B from by positivity]
  refine of_err hK (fun i hi => if_pos hi) fun i k hi => ?_
  have h := block_err F h0 hu (K * B) K B Y M i k
  rw [(erase_self _ _ _ _ _).1, (erase_self _ _ _ _ _).2, Nat.add_comm _ 13]
  obtain ⟨_, _, _, h3, h4, h5⟩ := blockDeriv_cells (block := B) (blocks := K) (Y := Y) (M := M) hi rfl
  have e : blockDeriv B K (K * B) Y M ((3 + k) * (K * B) + i) = (blockAcc B K (K * B) Y M i).coord k := by
    fin_cases k
    · exact h3
    · exact h4
    · exact h5
  rw [e]; exact h

lemma dense_accurate (F : Spec.FloatModel val u) (h0 : 0 ≤ u) {T B : ℕ} (hB : 0 < B)
    (hK : ((13 + B + T : ℕ) : ℝ) * u < 1) (Y M : ℕ → S) :
    Accurate val u (13 + B + T) (T * B) Y M (denseVal (T * B) B Y M) := by
  have hu : u < 1 := by
    push_cast at hK
    nlinarith [show (0 : ℝ) ≤ T from Nat.cast_nonneg T, show (0 : ℝ) ≤ B from Nat.cast_nonneg B]
  have hT : tiles (T * B) B = T := by
    unfold tiles
    rw [show T * B + B - 1 = B * T + (B - 1) by rw [Nat.mul_comm T]; omega, Nat.mul_add_div hB,
      Nat.div_eq_of_lt (by omega), Nat.add_zero]
  refine of_err hK (fun i hi => if_pos hi) fun i k hi => ?_
  have h := tile_err F h0 hu (T * B) B T Y M (posOf (T * B) Y i) k
  rw [C04.sum_blocks T B (fun j => pull (at' val (T * B) Y i) (at' val (T * B) Y j) (val (M j)) k),
    C04.sum_blocks T B (fun j => |pull (at' val (T * B) Y i) (at' val (T * B) Y j) (val (M j)) k|)] at h
  rw [(erase_self _ _ _ _ _).1, (erase_self _ _ _ _ _).2]
  have e : denseVal (T * B) B Y M ((3 + k) * (T * B) + i) =
      (tiledAcc (T * B) B Y M (posOf (T * B) Y i) T).coord k := by
    unfold denseVal
    simp only [hT]
    generalize T * B = n at hi ⊢
    have hmod : ∀ a, (a * n + i) % n = i := fun a => by
      rw [Nat.mul_comm, Nat.mul_add_mod, Nat.mod_eq_of_lt hi]
    simp only [hmod]
    rw [if_neg (by have : 3 * n ≤ (3 + (k : ℕ)) * n := Nat.mul_le_mul_right _ (by omega); omega)]
    fin_cases k
    · change (if (3 + 0) * n + i < 4 * n then _ else _) = _
      rw [if_pos (by omega)]; rfl
    · change (if (3 + 1) * n + i < 4 * n then _ else (if (3 + 1) * n + i < 5 * n then _ else _)) = _
      rw [if_neg (by omega), if_pos (by omega)]; rfl
    · change (if (3 + 2) * n + i < 4 * n then _ else (if (3 + 2) * n + i < 5 * n then _ else _)) = _
      rw [if_neg (by omega), if_neg (by omega)]; rfl
  rw [e]; exact h

/-- The sequential engine and the OpenMP engine (every schedule): `n + 16` roundings. -/
theorem host_engines_partial (F : Spec.FloatModel val u) (h0 : 0 ≤ u) {loop : Loop S} (hl : IsParLoop loop)
    {n : ℕ} (hn : ((n + 16 : ℕ) : ℝ) * u < 1) {hm y f : Handle} (hyf : y ≠ f) (hmf : hm ≠ f) {Y M : ℕ → S}
    {m : Mem S} (hy : m y = some (buf (6 * n) Y)) (hM : m hm = some (buf n M)) (hf : m.shape f = some (6 * n))
    (hmass : ∀ i, i < n → val (M i) ≠ 0) :
    ∃ G, fcompute loop n hm y f m = .ok (m.set f (buf (6 * n) G)) ∧ Accurate val u (n + 16) n Y M G :=
  ⟨derivVal n Y M, C03.fcompute_parallel_eq_sequential hl hyf hmf (fcompute_eq hyf hmf hy hM hf),
    simple_accurate F h0 hn Y M hmass⟩

/-- The block engine (every schedule) for a multiple of 64 bodies: `n + 13` roundings, and masses may be zero. -/
theorem block_engine_partial (F : Spec.FloatModel val u) (h0 : 0 ≤ u) {loop : Loop S} (hl : IsParLoop loop)
    {n : ℕ} (h64 : 64 ∣ n) (hn : ((n + 13 : ℕ) : ℝ) * u < 1) {hm y f : Handle} (hyf : y ≠ f) (hmf : hm ≠ f)
    {Y M : ℕ → S} {m : Mem S} (hy : m y = some (buf (6 * n) Y)) (hM : m hm = some (buf n M))
    (hf : m.shape f = some (6 * n)) :
    ∃ G, blockFcompute loop blockSize n hm y f m = .ok (m.set f (buf (6 * n) G)) ∧
      Accurate val u (n + 13) n Y M G := by
  obtain ⟨K, hK⟩ := h64
  have hK' : n = K * blockSize := by rw [hK, blockSize, Nat.mul_comm]
  clear hK
  subst hK'
  have hb : 0 < blockSize := by decide
  have hseq := blockFcompute_eq hb hyf hmf hy hM hf
  refine ⟨blockDeriv blockSize K (K * blockSize) Y M, ?_, block_accurate F h0 hn Y M⟩
  unfold blockFcompute at hseq ⊢
  rw [ceil_div_mul hb] at hseq ⊢
  split_ifs at hseq ⊢
  · exact hseq
  · exact hseq
  · exact parLoop_eq_seq hl (blockBody_independent hb hyf hmf) hseq

/-- The OpenCL engine and the CUDA engine with groups of `B` work items, for any number of devices in one context
or several and in every execution: only `B + n / B + 13` roundings, as the kernels sum tile by tile. -/
theorem gpu_engines_partial (F : Spec.FloatModel val u) (h0 : 0 ≤ u) (launch : Launch S (DenseReg S))
    (loop : Loop S) (host : Option Handle) (D w B hm y f hs : ℕ) (Y M : ℕ → S) (m : Mem S) (hl : IsLaunch launch)
    (hp : IsParLoop loop) (hD : SyncOk host D) (hBw : B ∣ w) (g : C70.Given D w B hm y f hs Y M host m)
    (hK : ((13 + B + D * w / B : ℕ) : ℝ) * u < 1) : ∃ G : ℕ → S,
    (∃ m', fcomputeOpenCL launch loop host D (D * w) B hm y f hs m = .ok m' ∧ C70.Computed D w y f hs Y G m m') ∧
    (host = none →
      ∃ m', fcomputeCuda launch loop D (D * w) B hm y f hs m = .ok m' ∧ C70.Computed D w y f hs Y G m m') ∧
    Accurate val u (13 + B + D * w / B) (D * w) Y M G := by
  obtain ⟨h1, h2⟩ := C70.fcompute_val (D * w) B Y M launch loop host D w hm y f hs m hl hp rfl hBw hD g
  refine ⟨denseVal (D * w) B Y M, h1, h2, ?_⟩
  have hn : D * w / B * B = D * w := Nat.div_mul_cancel (Dvd.dvd.mul_left hBw D)
  have := dense_accurate F h0 (T := D * w / B) g.block hK Y M
  rwa [hn] at this

omit [Add S] [Sub S] [Mul S] [Neg S] [Div S] [Zero S] [One S] [FOps S] in
/-- Two engines, whatever they are, that agree with gravity up to `K` and `L` roundings agree with each other. -/
theorem engines_agree_partial {K L n : ℕ} {Y M F G : ℕ → S} (hF : Accurate val u K n Y M F)
    (hG : Accurate val u L n Y M G) :
    (∀ i, i < 3 * n → F i = G i) ∧
    ∀ i (k : Fin 3), i < n → |val (F ((3 + k) * n + i)) - val (G ((3 + k) * n + i))| ≤
      (Spec.gamma u K + Spec.gamma u L) * scale 1e-8 n (C02.pos n (val ∘ Y)) (val ∘ M) i k := by
  refine ⟨fun i hi => by rw [hF.1 i hi, hG.1 i hi], fun i k hi => ?_⟩
  have h1 := hF.2 i k hi
  have h2 := hG.2 i k hi
  rw [abs_sub_comm] at h2
  refine le_trans ?_ ((add_le_add h1 h2).trans_eq (add_mul _ _ _).symm)
  have := abs_add_le (val (F ((3 + k) * n + i)) - Spec.accel 1e-8 n (C02.pos n (val ∘ Y)) (val ∘ M) i k)
    (Spec.accel 1e-8 n (C02.pos n (val ∘ Y)) (val ∘ M) i k - val (G ((3 + k) * n + i)))
  rwa [sub_add_sub_cancel] at this

omit [Add S] [Sub S] [Mul S] [Neg S] [Div S] [Zero S] [One S] [FOps S] in
/-- The net force is zero up to rounding. -/
theorem net_force_partial {K n : ℕ} {Y M F : ℕ → S} (hF : Accurate val u K n Y M F) (k : Fin 3) :
    |∑ i ∈ Finset.range n, val (M i) * val (F ((3 + k) * n + i))| ≤
      Spec.gamma u K * ∑ i ∈ Finset.range n, |val (M i)| * scale 1e-8 n (C02.pos n (val ∘ Y)) (val ∘ M) i k := by
  have h0 := C02.accel_no_net_force 1e-8 n (C02.pos n (val ∘ Y)) (val ∘ M) k
  rw [← sub_zero (∑ i ∈ Finset.range n, val (M i) * val (F ((3 + k) * n + i))), ← h0, ← Finset.sum_sub_distrib,
    Finset.mul_sum]
  refine (Finset.abs_sum_le_sum_abs _ _).trans (Finset.sum_le_sum fun i hi => ?_)
  have h1 := hF.2 i k (Finset.mem_range.1 hi)
  show |val (M i) * _ - val (M i) * _| ≤ _
  rw [← mul_sub, abs_mul]
  calc |val (M i)| * _ ≤ |val (M i)| * _ := mul_le_mul_of_nonneg_left h1 (abs_nonneg _)
    _ = _ := by ring

end

/-- Double precision (53 bits), three bodies, the OpenMP loop run backwards. -/
example : ∃ (m : Mem (Spec.Bin 53)) (G : ℕ → Spec.Bin 53),
    fcompute (orderedFor (fun n => (List.range n).reverse)) 3 0 1 2 m = .ok (m.set 2 (buf 18 G)) ∧
    Accurate Spec.Bin.val (2⁻¹ ^ 53) 19 3 (fun j => ⟨j * j⟩) (fun _ => 1) G := by
  obtain ⟨G, h1, h2⟩ := host_engines_partial (Spec.Bin.floatModel 53) (by positivity)
    (loop := orderedFor (S := Spec.Bin 53) (fun n => (List.range n).reverse))
    (orderedFor_isParLoop fun _ => List.reverse_perm _) (n := 3) (by norm_num) (hm := 0) (y := 1) (f := 2)
    (by decide) (by decide) (Y := fun j => ⟨j * j⟩) (M := fun _ => 1)
    (m := fun h => if h = 0 then some (buf 3 fun _ => 1)
      else if h = 1 then some (buf (6 * 3) fun j => ⟨j * j⟩) else some (buf (6 * 3) fun _ => 0))
    (by simp) (by simp) (by simp [Mem.shape]) (fun _ _ => one_ne_zero)
  exact ⟨_, G, h1, h2⟩

/-- Double precision, 128 bodies, the block engine. -/
example : ∃ (m : Mem (Spec.Bin 53)) (G : ℕ → Spec.Bin 53),
    blockFcompute (orderedFor (fun n => (List.range n).reverse)) blockSize 128 0 1 2 m =
      .ok (m.set 2 (buf 768 G)) ∧
    Accurate Spec.Bin.val (2⁻¹ ^ 53) 141 128 (fun j => ⟨j * j⟩) (fun _ => 1) G := by
  obtain ⟨G, h1, h2⟩ := block_engine_partial (Spec.Bin.floatModel 53) (by positivity)
    (loop := orderedFor (S := Spec.Bin 53) (fun n => (List.range n).reverse))
    (orderedFor_isParLoop fun _ => List.reverse_perm _) (n := 128) (by decide) (by norm_num) (hm := 0) (y := 1)
    (f := 2) (by decide) (by decide) (Y := fun j => ⟨j * j⟩) (M := fun _ => 1)
    (m := fun h => if h = 0 then some (buf 128 fun _ => 1)
      else if h = 1 then some (buf (6 * 128) fun j => ⟨j * j⟩) else some (buf (6 * 128) fun _ => 0))
    (by simp) (by simp) (by simp [Mem.shape])
  exact ⟨_, G, h1, h2⟩

/-- Double precision, four devices in one context with two bodies each, groups of two. -/
example (launch : Launch (Spec.Bin 53) (DenseReg (Spec.Bin 53))) (loop : Loop (Spec.Bin 53)) (hl : IsLaunch launch)
    (hp : IsParLoop loop) : ∃ m' G,
    fcomputeCuda launch loop 4 8 2 0 1 2 3 (C70.sample 4 2 (fun j => ⟨j⟩) (fun _ => 1) ⟨7⟩) = .ok m' ∧
      (∀ d i, d < 4 → i < 48 → m'.cell (rep 4 2 d) i = some (G i)) ∧
      Accurate Spec.Bin.val (2⁻¹ ^ 53) 19 8 (fun j => ⟨j⟩) (fun _ => 1) G := by
  obtain ⟨G, _, h, hG⟩ := gpu_engines_partial (Spec.Bin.floatModel 53) (by positivity) launch loop none 4 2 2 0 1 2 3
    (fun j => ⟨j⟩) (fun _ => 1) _ hl hp ⟨by decide, fun _ => ⟨2, rfl⟩⟩ (by decide)
    (C70.sample_given _ _ ⟨7⟩ (by decide) (by decide) (by decide) (by decide) _ (Or.inl rfl)) (by norm_num)
  obtain ⟨m', h1, h2⟩ := h rfl
  exact ⟨m', G, h1, fun d i hd hi => h2.result d i hd hi, hG⟩

end NB.C79
