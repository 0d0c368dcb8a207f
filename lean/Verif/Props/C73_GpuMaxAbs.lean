import Verif.Lemmas.GpuMax
import Verif.Props.C09_MaxAbs
import Verif.Props.C69_Interchangeable

/-
C73: `fmaxabs` of the GPU engines, the error norm of the embedded Runge-Kutta solvers, is the largest absolute
value of the whole buffer, although every device only looks at its own slice.  The OpenCL engine refuses when the
number of blocks is not a multiple of 4.
-/

namespace NB.C73

open C09 (IsMaxAbs)

lemma maxOf_eq (x y : ℝ) : maxOf x y = max x y := C09.ite_lt_eq_max x y

lemma foldl_maxOf (l : List ℝ) : ∀ x, x ≤ l.foldl maxOf x ∧ (∀ y ∈ l, y ≤ l.foldl maxOf x) ∧
    (l.foldl maxOf x = x ∨ l.foldl maxOf x ∈ l) := by
  induction l with
  | nil => intro x; simp
  | cons y l ih =>
    intro x
    obtain ⟨h1, h2, h3⟩ := ih (maxOf x y)
    rw [List.foldl_cons]
    rw [maxOf_eq] at h1 h3 ⊢
    rw [maxOf_eq] at h2
    refine ⟨le_trans (le_max_left _ _) h1, ?_, ?_⟩
    · intro z hz
      rcases List.mem_cons.1 hz with rfl | hz
      · exact le_trans (le_max_right _ _) h1
      · exact h2 z hz
    · rcases h3 with h3 | h3
      · rcases max_choice x y with e | e
        · exact Or.inl (h3.trans e)
        · exact Or.inr (by rw [h3, e]; simp)
      · exact Or.inr (List.mem_cons_of_mem _ h3)

/-- The largest element of a vector that is not empty. -/
lemma maxElement_spec (l : List ℝ) (h : l ≠ []) : ∃ r, maxElement l = .ok r ∧ r ∈ l ∧ ∀ y ∈ l, y ≤ r := by
  cases l with
  | nil => exact absurd rfl h
  | cons x l =>
    obtain ⟨h1, h2, h3⟩ := foldl_maxOf l x
    refine ⟨_, rfl, ?_, ?_⟩
    · rcases h3 with e | e
      · rw [e]; simp
      · exact List.mem_cons_of_mem _ e
    · intro y hy
      rcases List.mem_cons.1 hy with rfl | hy
      · exact h1
      · exact h2 y hy

lemma blockMax_spec {B : ℕ} (hB : 0 < B) (X : ℕ → ℝ) (k : ℕ) :
    (∃ n, n < B ∧ blockMax B X k = |X (k * B + n)|) ∧ ∀ n, n < B → |X (k * B + n)| ≤ blockMax B X k := by
  have key : ∀ b, (∃ n, n < B ∧ foldN b |X (k * B)| (fun n r => maxOf r (FOps.abs (X (k * B + n)))) = |X (k * B + n)| ∨
      b > B) ∧ ∀ n, n < b → |X (k * B + n)| ≤ foldN b |X (k * B)| (fun n r => maxOf r (FOps.abs (X (k * B + n)))) := by
    intro b
    induction b with
    | zero => exact ⟨⟨0, Or.inl ⟨hB, rfl⟩⟩, by simp⟩
    | succ b ih =>
      obtain ⟨⟨n, h1⟩, h2⟩ := ih
      simp only [foldN, maxOf_eq, real_abs] at *
      refine ⟨?_, ?_⟩
      · rcases h1 with ⟨h, e⟩ | h
        · by_cases hb : b < B
          · rcases max_choice (foldN b |X (k * B)| (fun n r => max r |X (k * B + n)|)) |X (k * B + b)| with e' | e'
            · exact ⟨n, Or.inl ⟨h, e'.trans e⟩⟩
            · exact ⟨b, Or.inl ⟨hb, e'⟩⟩
          · exact ⟨0, Or.inr (by omega)⟩
        · exact ⟨0, Or.inr (by omega)⟩
      · intro n hn
        rcases Nat.lt_succ_iff_lt_or_eq.1 hn with h | rfl
        · exact le_trans (h2 n h) (le_max_left _ _)
        · exact le_max_right _ _
  obtain ⟨⟨n, h1⟩, h2⟩ := key B
  refine ⟨?_, h2⟩
  rcases h1 with ⟨h, e⟩ | h
  · exact ⟨n, h, e⟩
  · omega

/-- OpenCL, any number of devices in one context or in several, every execution: the largest absolute value of
the buffer, and all buffers as they were. -/
theorem opencl_is_max {g : Gpu} {w hm hs : ℕ} {H : ℕ → Prop} {M : ℕ → ℝ} {V : Spec.Buffers ℝ} {m : Mem ℝ}
    (hf : g.Fits w) {loop : Loop ℝ} (hl : IsParLoop loop) (hh : g.Holds w hm hs H M V m) {a out hb : ℕ}
    (ha : H a) (hao : a ≠ out) (hah : a ≠ hb) (hoh : out ≠ hb) (junk : ℝ) (h4 : 4 ∣ 6 * g.n / g.B) :
    ∃ r, g.fmaxabsOpenCL loop out hb junk a m = .ok (some r, m) ∧ IsMaxAbs (6 * g.n) (V a) r := by
  obtain ⟨q, hq0, hq, hr, -⟩ := Gpu.blocks_eq hf
  have hD := Gpu.devices_pos hf
  have hB := hf.block
  have hpos : 0 < 6 * g.n / g.B := by rw [hr]; exact Nat.mul_pos hD hq0
  have hn : 6 * g.n = 6 * g.n / g.B * g.B := by
    rw [hr, hf.count, show 6 * (g.D * w) = g.D * (6 * w) by ring, hq]; ring
  rw [Gpu.fmaxabsOpenCL_run hf hl hh ha hao hah hoh junk h4]
  obtain ⟨r, h1, h2, h3⟩ := maxElement_spec (buf (6 * g.n / g.B) (blockMax g.B (V a))) (by
    intro e
    have := congrArg List.length e
    rw [buf, List.length_map, List.length_range, List.length_nil] at this
    omega)
  refine ⟨r, by rw [h1]; rfl, ?_, ?_⟩
  · obtain ⟨k, hk, rfl⟩ := List.mem_map.1 h2
    obtain ⟨⟨n, hn', e⟩, _⟩ := blockMax_spec hB (V a) k
    refine ⟨k * g.B + n, ?_, e⟩
    rw [hn]
    exact group_lt (List.mem_range.1 hk) hn'
  · intro k hk
    have hlt : k / g.B < 6 * g.n / g.B := Nat.div_lt_of_lt_mul (by rw [Nat.mul_comm, ← hn]; exact hk)
    have := (blockMax_spec hB (V a) (k / g.B)).2 (k % g.B) (Nat.mod_lt _ hB)
    rw [Nat.mul_comm, Nat.div_add_mod] at this
    exact le_trans this (h3 _ (List.mem_map.2 ⟨k / g.B, List.mem_range.2 hlt, rfl⟩))

/-- An order of comparing that looks at every element of the slice once. -/
def Complete (w : ℕ) (t : MinMax) : Prop := t.leaves.Perm (List.range w)

lemma minMax_run {h off w : ℕ} {X : ℕ → ℝ} {m : Mem ℝ} (hX : ∀ k, k < w → m.cell h (off + k) = some (X (off + k)))
    (t : MinMax) : (∀ k ∈ t.leaves, k < w) →
    ∃ lo hi, (t.eval h off).run m = .ok ((lo, hi), m) ∧ (∀ k ∈ t.leaves, lo ≤ X (off + k) ∧ X (off + k) ≤ hi) ∧
      (∃ k ∈ t.leaves, lo = X (off + k)) ∧ ∃ k ∈ t.leaves, hi = X (off + k) := by
  induction t with
  | leaf i =>
    intro hw
    refine ⟨X (off + i), X (off + i), ?_, ?_, ⟨i, by simp [MinMax.leaves]⟩, ⟨i, by simp [MinMax.leaves]⟩⟩
    · simp only [MinMax.eval, Prog.run_bind, Prog.run_get (hX i (hw i (by simp [MinMax.leaves]))), res_ok_bind]
      rfl
    · intro k hk
      simp only [MinMax.leaves, List.mem_singleton] at hk
      subst hk
      exact ⟨le_refl _, le_refl _⟩
  | node l r ihl ihr =>
    intro hw
    obtain ⟨lo1, hi1, a1, a2, ⟨k1, b1, c1⟩, ⟨k2, b2, c2⟩⟩ := ihl fun k hk => hw k (by simp [MinMax.leaves, hk])
    obtain ⟨lo2, hi2, d1, d2, ⟨k3, b3, c3⟩, ⟨k4, b4, c4⟩⟩ := ihr fun k hk => hw k (by simp [MinMax.leaves, hk])
    have hmin : (if FOps.lt lo2 lo1 then lo2 else lo1) = min lo1 lo2 := by
      simp only [real_lt, decide_eq_true_eq]
      split
      · rw [min_eq_right (le_of_lt ‹_›)]
      · rw [min_eq_left (not_lt.1 ‹_›)]
    refine ⟨min lo1 lo2, max hi1 hi2, ?_, ?_, ?_, ?_⟩
    · simp only [MinMax.eval, Prog.run_bind, a1, d1, res_ok_bind, hmin, maxOf_eq]
      rfl
    · intro k hk
      simp only [MinMax.leaves, List.mem_append] at hk
      rcases hk with hk | hk
      · exact ⟨le_trans (min_le_left _ _) (a2 k hk).1, le_trans (a2 k hk).2 (le_max_left _ _)⟩
      · exact ⟨le_trans (min_le_right _ _) (d2 k hk).1, le_trans (d2 k hk).2 (le_max_right _ _)⟩
    · rcases min_choice lo1 lo2 with e | e
      · exact ⟨k1, by simp [MinMax.leaves, b1], e.trans c1⟩
      · exact ⟨k3, by simp [MinMax.leaves, b3], e.trans c3⟩
    · rcases max_choice hi1 hi2 with e | e
      · exact ⟨k2, by simp [MinMax.leaves, b2], e.trans c2⟩
      · exact ⟨k4, by simp [MinMax.leaves, b4], e.trans c4⟩

lemma max_abs_attained {lo hi : ℝ} {x : ℝ} (h1 : lo ≤ x) (h2 : x ≤ hi) : |x| ≤ max |lo| |hi| := by
  rcases abs_cases x with ⟨e, _⟩ | ⟨e, _⟩
  · rw [e]; exact le_trans (le_trans h2 (le_abs_self hi)) (le_max_right _ _)
  · rw [e]; exact le_trans (le_trans (by linarith) (neg_le_abs lo)) (le_max_left _ _)

/-- CUDA, any number of devices, whatever the order in which the devices compare elements. -/
theorem cuda_is_max {g : Gpu} {w hm hs : ℕ} {H : ℕ → Prop} {M : ℕ → ℝ} {V : Spec.Buffers ℝ} {m : Mem ℝ}
    (hf : g.Fits w) (hh : g.Holds w hm hs H M V m) {a : ℕ} (ha : H a) {t : ℕ → MinMax}
    (ht : ∀ d, d < g.D → Complete (6 * w) (t d)) :
    ∃ r, g.fmaxabsCuda t a m = .ok (some r) ∧ IsMaxAbs (6 * g.n) (V a) r := by
  have hD := Gpu.devices_pos hf
  have hw := hf.bodies
  have hn : 6 * g.n = g.D * (6 * w) := by rw [hf.count]; ring
  have hsz := (hh.handles.2 a ha).2.2
  have hpos : 0 < 6 * g.n := by rw [hn]; exact Nat.mul_pos hD (by omega)
  unfold Gpu.fmaxabsCuda
  simp only [hh.has hf ha, Bool.not_true, Bool.false_eq_true, if_false, hsz, Gpu.width hf]
  rw [if_neg (by omega), if_neg (by omega), if_neg (by omega)]
  obtain ⟨l, h1, h2, h3, h4⟩ := forN_inv (n := g.D) (s := ([] : List ℝ))
    (f := fun d l => do
      let r ← ((t d).eval (rep g.D a d) (6 * w * d)).run m
      pure (l ++ [maxOf (FOps.abs r.1.1) (FOps.abs r.1.2)]))
    (fun d l => l.length = d ∧ (∀ r ∈ l, ∃ k, k < 6 * g.n ∧ r = |V a k|) ∧
      ∀ k, k < d * (6 * w) → ∃ r ∈ l, |V a k| ≤ r) ⟨rfl, by simp, by simp⟩ (by
      rintro d l hd ⟨h1, h2, h3⟩
      obtain ⟨lo, hi, a1, a2, ⟨k1, b1, c1⟩, ⟨k2, b2, c2⟩⟩ := minMax_run (h := rep g.D a d) (off := d * (6 * w))
        (w := 6 * w) (X := V a) (m := m) (fun k hk => hh.slices a d k ha hd hk) (t d)
        (fun k hk => by simpa using (ht d hd).mem_iff.1 hk)
      have hk1 : k1 < 6 * w := by simpa using (ht d hd).mem_iff.1 b1
      have hk2 : k2 < 6 * w := by simpa using (ht d hd).mem_iff.1 b2
      refine ⟨l ++ [max |lo| |hi|], ?_, by simp [h1], ?_, ?_⟩
      · rw [Nat.mul_comm (6 * w) d, a1, res_ok_bind, maxOf_eq]
        rfl
      · intro r hr
        rcases List.mem_append.1 hr with hr | hr
        · exact h2 r hr
        · rw [List.mem_singleton] at hr
          rcases max_choice |lo| |hi| with e | e
          · exact ⟨_, Gpu.slice_lt hf hd hk1, by rw [hr, e, c1]⟩
          · exact ⟨_, Gpu.slice_lt hf hd hk2, by rw [hr, e, c2]⟩
      · intro k hk
        by_cases hkd : k < d * (6 * w)
        · obtain ⟨r, hr, hle⟩ := h3 k hkd
          exact ⟨r, List.mem_append_left _ hr, hle⟩
        · rw [Nat.add_mul, Nat.one_mul] at hk
          refine ⟨max |lo| |hi|, by simp, ?_⟩
          have hmem : k - d * (6 * w) ∈ (t d).leaves := (ht d hd).mem_iff.2 (by rw [List.mem_range]; omega)
          have := a2 _ hmem
          rw [show d * (6 * w) + (k - d * (6 * w)) = k by omega] at this
          exact max_abs_attained this.1 this.2)
  obtain ⟨r, e1, e2, e3⟩ := maxElement_spec l (by rintro rfl; simp at h2; omega)
  refine ⟨r, ?_, h3 r e2, ?_⟩
  · rw [h1, res_ok_bind, e1]; rfl
  · intro k hk
    obtain ⟨r', hr', hle⟩ := h4 k (by rw [← hn]; exact hk)
    exact le_trans hle (e3 r' hr')

/-- All engines give the same number for the same buffer: sequential, OpenMP (every evaluation of the reduction),
OpenCL and CUDA. -/
theorem all_engines_agree {n N : ℕ} (hn : 0 < n) (hN : 6 * n ≤ N) (X : ℕ → ℝ) : ∃ r,
    (∀ (m : Mem ℝ) (a : Handle), m a = some (buf N X) → fmaxabs (6 * n) a m = .ok (some r)) ∧
    (∀ (bot : ℝ) (t : Red), bot ≤ 0 → t.Valid (6 * n) → fmaxabsOmp bot t (buf N X) = .ok r) ∧
    (∀ (g : Gpu) (w hm hs : ℕ) (H : ℕ → Prop) (M : ℕ → ℝ) (V : Spec.Buffers ℝ) (m : Mem ℝ) (loop : Loop ℝ)
      (a out hb : ℕ) (junk : ℝ), g.n = n → g.Fits w → IsParLoop loop → g.Holds w hm hs H M V m → H a → V a = X →
      a ≠ out → a ≠ hb → out ≠ hb → 4 ∣ 6 * g.n / g.B → g.fmaxabsOpenCL loop out hb junk a m = .ok (some r, m)) ∧
    (∀ (g : Gpu) (w hm hs : ℕ) (H : ℕ → Prop) (M : ℕ → ℝ) (V : Spec.Buffers ℝ) (m : Mem ℝ) (a : ℕ) (t : ℕ → MinMax),
      g.n = n → g.Fits w → g.Holds w hm hs H M V m → H a → V a = X → (∀ d, d < g.D → Complete (6 * w) (t d)) →
      g.fmaxabsCuda t a m = .ok (some r)) := by
  obtain ⟨r, -, hr⟩ := C09.fmaxabs_is_max (n := 6 * n) (N := N) (by omega) hN (a := 0) (A := X)
    (m := fun _ => some (buf N X)) rfl
  refine ⟨r, ?_, ?_, ?_, ?_⟩
  · intro m a ha
    obtain ⟨s, h1, h2⟩ := C09.fmaxabs_is_max (n := 6 * n) (by omega) hN ha
    rw [h1, C09.isMaxAbs_unique h2 hr]
  · intro bot t hb ht
    obtain ⟨s, h1, h2⟩ := C09.fmaxabs_openmp_is_max (n := 6 * n) (A := X) (by omega) hN hb ht
    rw [h1, C09.isMaxAbs_unique h2 hr]
  · rintro g w hm hs H M V m loop a out hb junk rfl hf hl hh ha rfl h1 h2 h3 h4
    obtain ⟨s, e1, e2⟩ := opencl_is_max hf hl hh ha h1 h2 h3 junk h4
    rw [e1, C09.isMaxAbs_unique e2 hr]
  · rintro g w hm hs H M V m a t rfl hf hh ha rfl ht
    obtain ⟨s, e1, e2⟩ := cuda_is_max hf hh ha ht
    rw [e1, C09.isMaxAbs_unique e2 hr]

/-- The OpenCL engine throws when the number of blocks is not a multiple of 4, whatever the buffer holds. -/
theorem opencl_throws {S : Type} [FOps S] [Zero S] {g : Gpu} {m : Mem S} {a : ℕ} (ha : g.has m a = true)
    (hB : 0 < g.B) (hD : 0 < g.D) (h4 : ¬ 4 ∣ 6 * g.n / g.B) (loop : Loop S) (out hb : ℕ) (junk : S) :
    g.fmaxabsOpenCL loop out hb junk a m = .error .thrown := by
  unfold Gpu.fmaxabsOpenCL
  simp only [ha, Bool.not_true, Bool.false_eq_true, if_false]
  rw [if_neg (by omega)]
  have : openclGroups (6 * g.n / g.B) 4 = .error .thrown :=
    if_pos (Or.inr fun e => h4 (Nat.dvd_of_mod_eq_zero e))
  rw [this]
  rfl

/-- For which sizes it does not throw: those with an even number of groups in total.  With an even number of
devices this is always so. -/
theorem opencl_condition {g : Gpu} {w : ℕ} (hf : g.Fits w) : 4 ∣ 6 * g.n / g.B ↔ 2 ∣ g.D * (w / g.B) := by
  obtain ⟨c, hc⟩ := hf.groups
  have hB := hf.block
  have e1 : 6 * g.n / g.B = 6 * (g.D * c) := by
    rw [hf.count, hc, show 6 * (g.D * (g.B * c)) = g.B * (6 * (g.D * c)) by ring, Nat.mul_div_cancel_left _ hB]
  rw [e1, hc, Nat.mul_div_cancel_left _ hB]
  omega

theorem even_devices_never_throw {g : Gpu} {w : ℕ} (hf : g.Fits w) (h : 2 ∣ g.D) : 4 ∣ 6 * g.n / g.B :=
  (opencl_condition hf).2 (Dvd.dvd.mul_right h _)

/-- One device, 64 bodies, groups of 64 (the defaults of the program and of the engine): everything fits, yet
`fmaxabs` throws. -/
def defaultCl : Gpu := ⟨false, 1, 64, 64, none, fun _ => 384⟩

lemma defaultCl_fits : defaultCl.Fits 64 :=
  ⟨rfl, by decide, by decide, ⟨by decide, fun _ => ⟨0, rfl⟩⟩, by decide, fun h => (by cases h), by decide⟩

theorem default_size_throws (V : Spec.Buffers ℝ) (loop : Loop ℝ) (out hb : ℕ) (junk : ℝ) :
    defaultCl.Fits 64 ∧ defaultCl.fmaxabsOpenCL loop out hb junk 1 (C69.sample 1 V) = .error .thrown :=
  ⟨defaultCl_fits, opencl_throws rfl (by decide) (by decide) (by decide) loop out hb junk⟩

/-! ### Cases -/

/-- Two OpenCL devices, four bodies in groups of two. -/
example (V : Spec.Buffers ℝ) (loop : Loop ℝ) (hl : IsParLoop loop) :
    ∃ r, C69.twoCl.fmaxabsOpenCL loop 20 21 7 3 (C69.sample 2 V) = .ok (some r, C69.sample 2 V) ∧
      IsMaxAbs 24 (V 3) r :=
  opencl_is_max C69.twoCl_fits hl (C69.sample_holds (g := C69.twoCl) (w := 2) V rfl (by decide) (by decide)
    (Or.inl rfl) (fun _ => rfl) (by decide)) (by decide) (by decide) (by decide) (by decide) 7 (by decide)

/-- A complete order for three elements. -/
example : Complete 3 (.node (.node (.leaf 2) (.leaf 0)) (.leaf 1)) := by
  show [2, 0, 1].Perm [0, 1, 2]
  decide

/-- A left comb over all elements. -/
def comb : ℕ → MinMax
  | 0 => .leaf 0
  | n + 1 => .node (comb n) (.leaf (n + 1))

lemma comb_complete (n : ℕ) : Complete (n + 1) (comb n) := by
  unfold Complete
  induction n with
  | zero => exact List.Perm.refl _
  | succ n ih =>
    rw [List.range_succ]
    exact ih.append_right _

/-- Two CUDA devices, 64 bodies. -/
example (V : Spec.Buffers ℝ) :
    ∃ r, C69.twoCuda.fmaxabsCuda (fun _ => comb 191) 3 (C69.sample 2 V) = .ok (some r) ∧ IsMaxAbs 384 (V 3) r :=
  cuda_is_max C69.twoCuda_fits (C69.sample_holds (g := C69.twoCuda) (w := 32) V rfl (by decide) (by decide)
    (Or.inl rfl) (fun _ => rfl) (by decide)) (by decide) (fun _ _ => comb_complete 191)

end NB.C73
