import Verif.Lemmas.RoundSolvers
import Verif.Props.C74_SolversOnEngines
import Verif.Props.C79_ForceRounding

/-
The direct-sum engines in rounded arithmetic: they make the calls, give some number for a norm, and their derivatives are those of
softened gravity up to roundings.
-/

namespace NB

open Finset
open _root_.Spec (Buffers Performs)

/-- The direct-sum engines as in C74, with any numbers for scalars. -/
inductive DirectEngine {S : Type} [Add S] [Sub S] [Mul S] [Neg S] [Div S] [Zero S] [One S] [FOps S] (n : ℕ) (M : ℕ → S)
    (H : ℕ → Prop) : EngineOps S (Mem S) → (Buffers S → Mem S → Prop) → Prop
  /-- The sequential engine. -/
  | simple (hm : ℕ) : DirectEngine n M H (simpleOps (fcompute seqFor n hm) seqFor n) (HostHolds n hm H M)
  /-- The OpenMP engine, every execution. -/
  | openmp (hm : ℕ) {loop : Loop S} (hl : IsParLoop loop) (bot : S) {sched : Mem S → Red} (hs : ∀ m, (sched m).Valid (6 * n)) :
      DirectEngine n M H (openmpOps (fcompute loop n hm) loop n bot sched) (HostHolds n hm H M)
  /-- The blocked engine, every execution. -/
  | block (hm : ℕ) {loop : Loop S} (hl : IsParLoop loop) (bot : S) {sched : Mem S → Red} (hs : ∀ m, (sched m).Valid (6 * n))
      (h64 : 64 ∣ n) : DirectEngine n M H (openmpOps (blockFcompute loop blockSize n hm) loop n bot sched) (HostHolds n hm H M)
  /-- The OpenCL engine: any number of devices in one context or several, every execution. -/
  | opencl (g : Gpu) (w hm hs : ℕ) (hn : g.n = n) (hf : g.Fits w) {launch : Launch S (DenseReg S)} (hla : IsLaunch launch)
      {loop : Loop S} (hl : IsParLoop loop) (out hb : ℕ) (ho : ¬ H out) (hh : ¬ H hb) (hoh : out ≠ hb) (junk : S)
      (h4 : 4 ∣ 6 * g.n / g.B) : DirectEngine n M H (openclOps g launch loop hm hs out hb junk) (g.Holds w hm hs H M)
  /-- The CUDA engine: any number of devices, every execution. -/
  | cuda (g : Gpu) (w hm hs : ℕ) (hn : g.n = n) (hf : g.Fits w) {launch : Launch S (DenseReg S)} (hla : IsLaunch launch)
      {loop : Loop S} (hl : IsParLoop loop) {order : Mem S → ℕ → MinMax}
      (ho : ∀ m d, d < g.D → C73.Complete (6 * w) (order m d)) :
      DirectEngine n M H (cudaOps g launch loop hm hs order) (g.Holds w hm hs H M)

section
variable {S : Type} [Add S] [Sub S] [Mul S] [Neg S] [Div S] [Zero S] [One S] [FOps S] {val : S → ℝ} {u : ℝ}

omit [Add S] [Sub S] [Mul S] [Neg S] [Div S] [Zero S] [One S] in
lemma fmaxabs_total {N : ℕ} (hN : 0 < N) {a : Handle} {A : ℕ → S} {m : Mem S} (ha : m a = some (buf N A)) :
    ∃ r, fmaxabs N a m = .ok (some r) := by
  simp only [fmaxabs, ha, rd_buf hN, res_ok_bind]
  obtain ⟨r, hr, -⟩ := forN_inv (σ := S) (n := N) (s := FOps.abs (A 0))
    (f := fun k result => do
      let v ← rd (buf N A) k
      pure (if FOps.lt result (FOps.abs v) then FOps.abs v else result)) (fun _ _ => True) trivial (by
      intro k r hk _
      rw [rd_buf hk, res_ok_bind]
      exact ⟨_, rfl, trivial⟩)
  refine ⟨r, ?_⟩
  rw [hr]
  rfl

omit [Add S] [Sub S] [Mul S] [Neg S] [Div S] [Zero S] [One S] in
lemma red_total {N : ℕ} {A : ℕ → S} {bot r0 : S} (t : Red) (hits : ∀ k ∈ t.iters, k < N) :
    ∃ r, t.eval (buf N A) bot r0 = .ok r := by
  induction t with
  | orig => exact ⟨r0, rfl⟩
  | thread its =>
    have : ∀ (its : List ℕ), (∀ k ∈ its, k < N) → ∀ bot, ∃ r, its.foldlM (fun r n => maxabsBody (buf N A) n r) bot = (.ok r : Res S) := by
      intro its
      induction its with
      | nil => intro _ bot; exact ⟨bot, rfl⟩
      | cons k its ih =>
        intro h bot
        rw [List.foldlM_cons]
        simp only [maxabsBody, rd_buf (h k (by simp)), res_ok_bind, res_pure]
        exact ih (fun j hj => h j (by simp [hj])) _
    exact this its hits bot
  | comb s t ihs iht =>
    obtain ⟨x, hx⟩ := ihs (fun k hk => hits k (by simp [Red.iters, hk]))
    obtain ⟨y, hy⟩ := iht (fun k hk => hits k (by simp [Red.iters, hk]))
    refine ⟨if FOps.lt x y then y else x, ?_⟩
    simp only [Red.eval, hx, hy, res_ok_bind, res_pure]

omit [Add S] [Sub S] [Mul S] [Neg S] [Div S] [One S] in
lemma minMax_total {h off w : ℕ} {X : ℕ → S} {m : Mem S} (hX : ∀ k, k < w → m.cell h (off + k) = some (X (off + k)))
    (t : MinMax) : (∀ k ∈ t.leaves, k < w) → ∃ r, (t.eval h off).run m = .ok (r, m) := by
  induction t with
  | leaf i =>
    intro hw
    refine ⟨(X (off + i), X (off + i)), ?_⟩
    simp only [MinMax.eval, Prog.run_bind, Prog.run_get (hX i (hw i (by simp [MinMax.leaves]))), res_ok_bind]
    rfl
  | node l r ihl ihr =>
    intro hw
    obtain ⟨x, a1⟩ := ihl fun k hk => hw k (by simp [MinMax.leaves, hk])
    obtain ⟨y, a2⟩ := ihr fun k hk => hw k (by simp [MinMax.leaves, hk])
    simp only [MinMax.eval, Prog.run_bind, a1, a2, res_ok_bind]
    exact ⟨_, rfl⟩

omit [Add S] [Sub S] [Mul S] [Neg S] [Div S] [One S] in
lemma cuda_total {g : Gpu} {w hm hs : ℕ} {H : ℕ → Prop} {M : ℕ → S} {V : Buffers S} {m : Mem S}
    (hf : g.Fits w) (hh : g.Holds w hm hs H M V m) {a : ℕ} (ha : H a) {t : ℕ → MinMax}
    (ht : ∀ d, d < g.D → C73.Complete (6 * w) (t d)) : ∃ r, g.fmaxabsCuda t a m = .ok (some r) := by
  have hD := Gpu.devices_pos hf
  have hw := hf.bodies
  have hn : 6 * g.n = g.D * (6 * w) := by rw [hf.count]; ring
  have hsz := (hh.handles.2 a ha).2.2
  have hpos : 0 < 6 * g.n := by rw [hn]; exact Nat.mul_pos hD (by omega)
  unfold Gpu.fmaxabsCuda
  simp only [hh.has hf ha, Bool.not_true, Bool.false_eq_true, if_false, hsz, Gpu.width hf]
  rw [if_neg (by omega), if_neg (by omega), if_neg (by omega)]
  obtain ⟨l, h1, h2⟩ := forN_inv (n := g.D) (s := ([] : List S))
    (f := fun d l => do
      let r ← ((t d).eval (rep g.D a d) (6 * w * d)).run m
      pure (l ++ [maxOf (FOps.abs r.1.1) (FOps.abs r.1.2)]))
    (fun d l => l.length = d) rfl (by
      intro d l hd h1
      obtain ⟨r, a1⟩ := minMax_total (h := rep g.D a d) (off := d * (6 * w)) (w := 6 * w) (X := V a) (m := m)
        (fun k hk => hh.slices a d k ha hd hk) (t d) (fun k hk => by simpa using (ht d hd).mem_iff.1 hk)
      refine ⟨l ++ [maxOf (FOps.abs r.1) (FOps.abs r.2)], ?_, by simp [h1]⟩
      rw [Nat.mul_comm (6 * w) d, a1, res_ok_bind]
      rfl)
  rw [h1, res_ok_bind]
  cases l with
  | nil => simp at h2; omega
  | cons x l => exact ⟨_, rfl⟩

/-- **Every engine** makes the calls with a derivative that is gravity up to `n + 16` roundings. -/
lemma engine_performs (F : Spec.FloatOps val u) (h0 : 0 ≤ u) {n : ℕ} (hn : 0 < n) (hu : ((n + 16 : ℕ) : ℝ) * u < 1) {M : ℕ → S}
    (hM : ∀ i, i < n → val (M i) ≠ 0) {H : ℕ → Prop} {E : EngineOps S (Mem S)} {Rep : Buffers S → Mem S → Prop}
    (hE : DirectEngine n M H E Rep) : ∃ (deriv : (ℕ → S) → ℕ → S) (K : ℕ), K ≤ n + 16 ∧ Performs E n H deriv Rep ∧
      ∀ Y, C79.Accurate val u K n Y M (deriv Y) := by
  have small : ∀ K : ℕ, K ≤ n + 16 → (K : ℝ) * u < 1 := fun K hK =>
    lt_of_le_of_lt (mul_le_mul_of_nonneg_right (by exact_mod_cast hK) h0) hu
  have omp : ∀ {hm : ℕ} {loop : Loop S} (hl : IsParLoop loop) {deriv : (ℕ → S) → ℕ → S}
      {fc : Handle → Handle → Mem S → Res (Mem S)} (hfc : Derives n hm H M deriv fc) (bot : S) {sched : Mem S → Red}
      (hs : ∀ m, (sched m).Valid (6 * n)), Performs (openmpOps fc loop n bot sched) n H deriv (HostHolds n hm H M) := by
    intro hm loop hl deriv fc hfc bot sched hs
    refine ⟨fun c V s hp hH hh => hostCall_holds hl hfc c hH hp hh, fun h V s hh hr => ?_⟩
    obtain ⟨r, h1⟩ := red_total (N := 6 * n) (A := V h) (bot := bot) (r0 := FOps.abs (V h 0)) (sched s) (fun k hk => by
      simpa using (hs s).1.mem_iff.1 hk)
    refine ⟨r, s, ?_, hr⟩
    unfold openmpOps
    simp only [hr.buffers h hh, fmaxabsOmp, rd_buf (show 0 < 6 * n by omega), res_ok_bind, h1]
    rfl
  have fc : ∀ {hm : ℕ} {loop : Loop S} (_ : IsParLoop loop), Derives n hm H M (fun Y => derivVal n Y M) (fcompute loop n hm) := by
    intro hm loop hl V m y f hy hf hyf hh
    exact ⟨_, C03.fcompute_parallel_eq_sequential hl hyf (hh.handles f hf).symm (fcompute_eq hyf (hh.handles f hf).symm
      (hh.buffers y hy) hh.masses (Mem.shape_buf (hh.buffers f hf))), fun _ _ => rfl⟩
  have gpu : ∀ {g : Gpu} {w : ℕ} (_ : g.Fits w), g.n = n → ∃ K, K ≤ n + 16 ∧ ∀ Y, C79.Accurate val u K n Y M (denseVal g.n g.B Y M) := by
    intro g w hf e
    subst e
    have hB := hf.block
    have hd : g.B ∣ g.n := by rw [hf.count]; exact Dvd.dvd.mul_left hf.groups _
    obtain ⟨T, hT⟩ := hd
    have hTpos : 0 < T := by
      rcases Nat.eq_zero_or_pos T with e | e
      · rw [e] at hT; omega
      · exact e
    have hK : 13 + g.B + T ≤ g.n + 16 := by
      rw [hT]; nlinarith [Nat.mul_le_mul (show 1 ≤ g.B by omega) (show 1 ≤ T by omega)]
    refine ⟨13 + g.B + T, hK, fun Y => ?_⟩
    have := C79.dense_accurate F.toFloatModel h0 hB (small _ hK) Y M
    rwa [Nat.mul_comm T, ← hT] at this
  cases hE with
  | simple hm =>
    refine ⟨_, n + 16, le_rfl, ⟨fun c V s hp hH hh => hostCall_holds C74.seqFor_isParLoop (fc C74.seqFor_isParLoop) c hH hp hh,
      fun h V s hh hr => ?_⟩, fun Y => C79.simple_accurate F.toFloatModel h0 hu Y M hM⟩
    obtain ⟨r, h1⟩ := fmaxabs_total (N := 6 * n) (by omega) (hr.buffers h hh)
    refine ⟨r, s, ?_, hr⟩
    show (fmaxabs (6 * n) h s >>= fun r => pure (r, s)) = _
    rw [h1, res_ok_bind]
    rfl
  | openmp hm hl bot hs => exact ⟨_, n + 16, le_rfl, omp hl (fc hl) bot hs, fun Y => C79.simple_accurate F.toFloatModel h0 hu Y M hM⟩
  | @block hm loop hl bot sched hs h64 =>
    obtain ⟨K, hK⟩ := h64
    have hK' : n = K * blockSize := by rw [hK, blockSize, Nat.mul_comm]
    clear hK
    subst hK'
    have hb : 0 < blockSize := by decide
    refine ⟨fun Y => blockDeriv blockSize K (K * blockSize) Y M, K * blockSize + 13, by omega, omp hl (fun V m y f hy hf hyf hh => ?_) bot hs,
      fun Y => C79.block_accurate F.toFloatModel h0 (small _ (by omega)) Y M⟩
    have hseq := blockFcompute_eq hb hyf (hh.handles f hf).symm (hh.buffers y hy) hh.masses (Mem.shape_buf (hh.buffers f hf))
    refine ⟨blockDeriv blockSize K (K * blockSize) (V y) M, ?_, fun _ _ => rfl⟩
    unfold blockFcompute at hseq ⊢
    rw [ceil_div_mul hb] at hseq ⊢
    split_ifs at hseq ⊢
    · exact hseq
    · exact hseq
    · exact parLoop_eq_seq hl (blockBody_independent hb hyf (hh.handles f hf).symm) hseq
  | @opencl g w hm hs e hf launch hla loop hl out hb ho hh hoh junk h4 =>
    obtain ⟨K, hK, hacc⟩ := gpu hf e
    refine ⟨fun Y => denseVal g.n g.B Y M, K, hK, ?_, hacc⟩
    subst e
    refine ⟨fun c V s hp hH hr => Gpu.call_holds hf hla hl (fun _ _ _ => rfl) c hH hp hr, fun h V s hx hr => ?_⟩
    obtain ⟨q, hq0, hq, hq', -⟩ := Gpu.blocks_eq hf
    have hpos : 0 < 6 * g.n / g.B := by rw [hq']; exact Nat.mul_pos (Gpu.devices_pos hf) hq0
    obtain ⟨k, hk⟩ : ∃ k, 6 * g.n / g.B = k + 1 := ⟨6 * g.n / g.B - 1, by omega⟩
    have hrun := Gpu.fmaxabsOpenCL_run hf hl hr hx (out := out) (hb := hb) (fun e => ho (e ▸ hx)) (fun e => hh (e ▸ hx)) hoh junk h4
    cases hx : maxElement (buf (6 * g.n / g.B) (blockMax g.B (V h))) with
    | ok r => exact ⟨r, s, by show g.fmaxabsOpenCL loop out hb junk h s = _; rw [hrun, hx]; rfl, hr⟩
    | error e =>
      rw [hk] at hx
      unfold buf at hx
      rw [List.range_succ_eq_map] at hx
      cases hx
  | cuda g w hm hs e hf hla hl ho =>
    obtain ⟨K, hK, hacc⟩ := gpu hf e
    refine ⟨fun Y => denseVal g.n g.B Y M, K, hK, ?_, hacc⟩
    subst e
    refine ⟨fun c V s hp hH hr => Gpu.call_holds hf hla hl (fun _ _ _ => rfl) c hH hp hr, fun h V s hx hr => ?_⟩
    obtain ⟨r, h1⟩ := cuda_total hf hr hx (ho s)
    refine ⟨r, s, ?_, hr⟩
    show (g.fmaxabsCuda _ h s >>= fun r => pure (r, s)) = _
    rw [h1, res_ok_bind]
    rfl

omit [Add S] [Sub S] [Mul S] [Neg S] [Div S] [Zero S] [One S] [FOps S] in
/-- The error of the derivative, as a whole. -/
lemma accurate_norm {n K : ℕ} (h0 : 0 ≤ u) (hK : K ≤ n + 16) (hu : ((n + 16 : ℕ) : ℝ) * u ≤ 1 / 2) {M : ℕ → S} {Mr : ℕ → ℝ}
    (hM : ∀ i, i < n → val (M i) = Mr i) {Y F : ℕ → S} (hA : C79.Accurate val u K n Y M F) :
    ‖vec (6 * n) val F - gravity n Mr (vec (6 * n) val Y)‖ ≤ 2 * (n + 16) * u * (totalAbs n Mr * 1e8) := by
  have hA0 := totalAbs_nonneg n Mr
  have hbig : 0 ≤ 2 * ((n : ℝ) + 16) * u * (totalAbs n Mr * 1e8) := by positivity
  have hγ : Spec.gamma u K ≤ 2 * (n + 16) * u := by
    have hKr : (K : ℝ) ≤ n + 16 := by exact_mod_cast hK
    have hKu : (K : ℝ) * u ≤ (n + 16) * u := mul_le_mul_of_nonneg_right hKr h0
    push_cast at hu
    unfold Spec.gamma
    rw [div_le_iff₀ (by linarith)]
    nlinarith [mul_nonneg (Nat.cast_nonneg (α := ℝ) K) h0]
  have hγ0 : 0 ≤ Spec.gamma u K := by
    have hKr : (K : ℝ) ≤ n + 16 := by exact_mod_cast hK
    have hKu : (K : ℝ) * u ≤ (n + 16) * u := mul_le_mul_of_nonneg_right hKr h0
    push_cast at hu
    exact div_nonneg (by positivity) (by linarith)
  have e : gravity n Mr (vec (6 * n) val Y) = firstN (6 * n) (C69.newtonDeriv n Mr (val ∘ Y)) := (gravity_firstN n Mr (val ∘ Y)).symm
  have hacc : ∀ i (k : Fin 3), i < n → |val (F ((3 + k) * n + i)) - Spec.accel 1e-8 n (C02.pos n (val ∘ Y)) Mr i k| ≤
      2 * (n + 16) * u * (totalAbs n Mr * 1e8) := by
    intro i k hi
    have h1 := hA.2 i k hi
    have e1 : Spec.accel 1e-8 n (C02.pos n (val ∘ Y)) (val ∘ M) i k = Spec.accel 1e-8 n (C02.pos n (val ∘ Y)) Mr i k :=
      sum_congr rfl fun j hj => by rw [Function.comp, hM j (mem_range.1 (mem_of_mem_erase hj))]
    rw [e1] at h1
    refine h1.trans (mul_le_mul hγ ?_ ?_ (by positivity))
    · unfold C79.scale
      have : totalAbs n Mr * 1e8 = ∑ j ∈ range n, |Mr j| * (1 / 1e-8) := by rw [totalAbs, ← sum_mul]; norm_num
      rw [this]
      refine (sum_le_sum fun j hj => ?_).trans (sum_le_sum_of_subset_of_nonneg (erase_subset _ _) fun j _ _ => by positivity)
      rw [Function.comp, hM j (mem_range.1 (mem_of_mem_erase hj)), mul_div_assoc, abs_mul, abs_neg]
      exact mul_le_mul_of_nonneg_left (pull_bound _ _ (by norm_num) k) (abs_nonneg _)
    · exact sum_nonneg fun _ _ => abs_nonneg _
  rw [e, pi_norm_le_iff_of_nonneg hbig]
  rintro ⟨j, hj⟩
  show |val (F j) - C69.newtonDeriv n Mr (val ∘ Y) j| ≤ _
  unfold C69.newtonDeriv
  by_cases h3 : j < 3 * n
  · rw [if_pos h3, hA.1 j h3]
    simpa using hbig
  · rw [if_neg h3]
    by_cases h4 : j < 4 * n
    · rw [if_pos h4]
      have := hacc (j - 3 * n) 0 (by omega)
      rwa [show (3 + ((0 : Fin 3) : ℕ)) * n + (j - 3 * n) = j by simp; omega] at this
    · rw [if_neg h4]
      by_cases h5 : j < 5 * n
      · rw [if_pos h5]
        have := hacc (j - 4 * n) 1 (by omega)
        rwa [show (3 + ((1 : Fin 3) : ℕ)) * n + (j - 4 * n) = j by simp; omega] at this
      · rw [if_neg h5]
        have := hacc (j - 5 * n) 2 (by omega)
        rwa [show (3 + ((2 : Fin 3) : ℕ)) * n + (j - 5 * n) = j by simp; omega] at this

end

end NB
