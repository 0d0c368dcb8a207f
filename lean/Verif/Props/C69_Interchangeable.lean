import Verif.Lemmas.HostOps
import Verif.Props.C04_Block

/-
C69: engines are interchangeable.  Whatever sequence of calls a solver makes, every engine ends with the same
contents in every buffer: those of a machine (Spec/Machine.lean) that knows nothing of devices, slices, kernels,
threads or exchange of data.
-/

namespace NB.C69

open Spec (Buffers Proper mentions)

section
variable {S : Type} [Add S] [Sub S] [Mul S] [Neg S] [Div S] [Zero S] [FOps S]

/-- The calls a solver may make on the buffers in `H`. -/
def Legal (H : ℕ → Prop) (cs : List (Call S)) : Prop := ∀ c ∈ cs, Proper c ∧ ∀ h ∈ mentions c, H h

omit [Add S] [Sub S] [Mul S] [Neg S] [Div S] [Zero S] [FOps S] in
lemma read_back {g : Gpu} {w hm hs : ℕ} {H : ℕ → Prop} {M : ℕ → S} {V : Buffers S} {m : Mem S} (hf : g.Fits w)
    {loop : Loop S} (hl : IsParLoop loop) (hh : g.Holds w hm hs H M V m) {a dst : ℕ} (ha : H a) (hd : hs ≤ dst)
    (hdst : ∀ j, j < 6 * g.n → (m.cell (rep g.D dst 0) j).isSome) :
    ∃ m', mdReadBuffer loop g.D dst a (g.size a) m = .ok m' ∧
      ∀ j, j < 6 * g.n → m'.cell (rep g.D dst 0) j = some (V a j) := by
  have hD := Gpu.devices_pos hf
  have hw := hf.bodies
  have hsz : 6 * g.n = g.D * (6 * w) := by rw [hf.count]; ring
  have hle : g.D ≤ 6 * g.n := by rw [hsz]; exact Nat.le_mul_of_pos_right _ (by omega)
  have hne : a ≠ dst := by have := (hh.handles.2 a ha).1; omega
  rw [(hh.handles.2 a ha).2.2]
  obtain ⟨m', a1, _, a3, _⟩ := mdReadBuffer_run hl hne hD hle
    (fun d j hd hj => hh.room a ha d j hd (by have := Gpu.le_allocSize (6 * g.n); omega)) hdst
  refine ⟨m', a1, fun j hj => ?_⟩
  have hlt : j / (6 * w) < g.D := Nat.div_lt_of_lt_mul (by rw [Nat.mul_comm, ← hsz]; exact hj)
  have hmod : j % (6 * w) < 6 * w := Nat.mod_lt _ (by omega)
  have he : j / (6 * w) * (6 * w) + j % (6 * w) = j := by rw [Nat.mul_comm]; exact Nat.div_add_mod _ _
  have hs' := hh.slices a _ _ ha hlt hmod
  rw [he] at hs'
  rw [a3 j hj (by rw [Gpu.width hf]; exact hlt), Gpu.width hf, hs']

/-- For any arithmetic: the OpenCL engine and the CUDA engine, with any number of devices in one context or in
several, in every execution, run every sequence of calls to the end and then hold, and return to a caller who
reads a buffer, what the machine without devices holds.  The derivative depends on nothing but the bodies and
the group size. -/
theorem gpu_engines (n B : ℕ) (M : ℕ → S) : ∃ deriv : (ℕ → S) → ℕ → S,
    ∀ (g : Gpu) (w hm hs : ℕ) (H : ℕ → Prop) (V : Buffers S) (m : Mem S) (cs : List (Call S))
      (launch : Launch S (DenseReg S)) (loop : Loop S), g.n = n → g.B = B → g.Fits w → IsLaunch launch →
      IsParLoop loop → g.Holds w hm hs H M V m → Legal H cs →
      ∃ m', runCalls (g.call launch loop hm hs) cs m = .ok m' ∧
        g.Holds w hm hs H M (cs.foldl (Spec.call deriv n) V) m' ∧
        ∀ a dst, H a → hs ≤ dst → (∀ j, j < 6 * n → (m'.cell (rep g.D dst 0) j).isSome) →
          ∃ m'', mdReadBuffer loop g.D dst a (g.size a) m' = .ok m'' ∧
            ∀ j, j < 6 * n → m''.cell (rep g.D dst 0) j = some (cs.foldl (Spec.call deriv n) V a j) := by
  refine ⟨fun Y => denseVal n B Y M, ?_⟩
  rintro g w hm hs H V m cs launch loop rfl rfl hf hla hl hh hcs
  obtain ⟨m', a1, a2⟩ := Gpu.calls_hold hf hla hl (deriv := fun Y => denseVal g.n g.B Y M) (fun _ _ _ => rfl)
    cs hcs hh
  exact ⟨m', a1, a2, fun a dst ha hd hdst => read_back hf hl a2 ha hd hdst⟩

/-- For any arithmetic: the sequential engine and the OpenMP engine (every schedule) run every sequence of
calls to what the machine holds. -/
theorem host_engines [One S] (n : ℕ) (M : ℕ → S) : ∃ deriv : (ℕ → S) → ℕ → S,
    ∀ (hm : ℕ) (H : ℕ → Prop) (V : Buffers S) (m : Mem S) (cs : List (Call S)) (loop : Loop S), IsParLoop loop →
      HostHolds n hm H M V m → Legal H cs →
      ∃ m', runCalls (hostCall (fcompute loop n hm) loop n) cs m = .ok m' ∧
        HostHolds n hm H M (cs.foldl (Spec.call deriv n) V) m' := by
  refine ⟨fun Y => derivVal n Y M, ?_⟩
  intro hm H V m cs loop hl hh hcs
  refine hostCalls_hold hl ?_ cs hcs hh
  intro V m y f hy hf hyf hh
  exact ⟨_, C03.fcompute_parallel_eq_sequential hl hyf (hh.handles f hf).symm
    (fcompute_eq hyf (hh.handles f hf).symm (hh.buffers y hy) hh.masses (Mem.shape_buf (hh.buffers f hf))),
    fun _ _ => rfl⟩

end

/-! ### Exact arithmetic -/

/-- The derivative of the state of `n` bodies under softened gravity: velocities, then accelerations. -/
noncomputable def newtonDeriv (n : ℕ) (M Y : ℕ → ℝ) (j : ℕ) : ℝ :=
  if j < 3 * n then Y (3 * n + j)
  else if j < 4 * n then Spec.accel 1e-8 n (C02.pos n Y) M (j - 3 * n) 0
  else if j < 5 * n then Spec.accel 1e-8 n (C02.pos n Y) M (j - 4 * n) 1
  else Spec.accel 1e-8 n (C02.pos n Y) M (j - 5 * n) 2

lemma newtonDeriv_of {n : ℕ} {M Y F : ℕ → ℝ} (h1 : ∀ i, i < 3 * n → F i = Y (3 * n + i))
    (h2 : ∀ i, i < n → F (3 * n + i) = Spec.accel 1e-8 n (C02.pos n Y) M i 0 ∧
        F (4 * n + i) = Spec.accel 1e-8 n (C02.pos n Y) M i 1 ∧
        F (5 * n + i) = Spec.accel 1e-8 n (C02.pos n Y) M i 2) (j : ℕ) (hj : j < 6 * n) :
    F j = newtonDeriv n M Y j := by
  unfold newtonDeriv
  by_cases e1 : j < 3 * n
  · rw [if_pos e1, h1 j e1]
  rw [if_neg e1]
  by_cases e2 : j < 4 * n
  · rw [if_pos e2, ← (h2 (j - 3 * n) (by omega)).1]
    congr 1; omega
  rw [if_neg e2]
  by_cases e3 : j < 5 * n
  · rw [if_pos e3, ← (h2 (j - 4 * n) (by omega)).2.1]
    congr 1; omega
  · rw [if_neg e3, ← (h2 (j - 5 * n) (by omega)).2.2]
    congr 1; omega

lemma dense_newton {n B : ℕ} (hB : 0 < B) (hn : B ∣ n) (M Y : ℕ → ℝ) (j : ℕ) (hj : j < 6 * n) :
    denseVal n B Y M j = newtonDeriv n M Y j := by
  have hT : tiles n B * B = n := by
    obtain ⟨q, hq⟩ := hn
    unfold tiles
    rw [hq, show B * q + B - 1 = B * q + (B - 1) by omega, Nat.mul_add_div hB,
      Nat.div_eq_of_lt (by omega), Nat.add_zero, Nat.mul_comm]
  refine newtonDeriv_of (F := denseVal n B Y M) (fun i hi => if_pos hi) (fun i hi => ?_) j hj
  have hmod : ∀ a, (a * n + i) % n = i := fun a => by
    rw [Nat.mul_comm, Nat.mul_add_mod, Nat.mod_eq_of_lt hi]
  have key : ∀ k, _ := fun k => C70.tiledAcc_coord n B Y M i (tiles n B) k
  simp only [hT, C70.pair_sum] at key
  unfold denseVal
  simp only [hmod]
  refine ⟨?_, ?_, ?_⟩
  · rw [if_neg (by omega), if_pos (by omega)]; exact key 0
  · rw [if_neg (by omega), if_neg (by omega), if_pos (by omega)]; exact key 1
  · rw [if_neg (by omega), if_neg (by omega), if_neg (by omega)]; exact key 2

/-- In exact arithmetic, with masses that are not zero, all direct-sum engines (sequential, OpenMP, blocked for a
multiple of 64 bodies, OpenCL and CUDA with any number of devices and any group size that fits) take the same
buffers through every sequence of calls to the same buffers, with the derivative of softened gravity. -/
theorem all_engines (n : ℕ) (M : ℕ → ℝ) (hM : ∀ i, i < n → M i ≠ 0) (H : ℕ → Prop) (V : Buffers ℝ)
    (cs : List (Call ℝ)) (hcs : Legal H cs) :
    (∀ (hm : ℕ) (m : Mem ℝ) (loop : Loop ℝ), IsParLoop loop → HostHolds n hm H M V m →
      ∃ m', runCalls (hostCall (fcompute loop n hm) loop n) cs m = .ok m' ∧
        HostHolds n hm H M (cs.foldl (Spec.call (newtonDeriv n M) n) V) m') ∧
    (∀ (hm : ℕ) (m : Mem ℝ) (loop : Loop ℝ), IsParLoop loop → 64 ∣ n → HostHolds n hm H M V m →
      ∃ m', runCalls (hostCall (blockFcompute loop blockSize n hm) loop n) cs m = .ok m' ∧
        HostHolds n hm H M (cs.foldl (Spec.call (newtonDeriv n M) n) V) m') ∧
    (∀ (g : Gpu) (w hm hs : ℕ) (m : Mem ℝ) (launch : Launch ℝ (DenseReg ℝ)) (loop : Loop ℝ), g.n = n → g.Fits w →
      IsLaunch launch → IsParLoop loop → g.Holds w hm hs H M V m →
      ∃ m', runCalls (g.call launch loop hm hs) cs m = .ok m' ∧
        g.Holds w hm hs H M (cs.foldl (Spec.call (newtonDeriv n M) n) V) m') := by
  refine ⟨?_, ?_, ?_⟩
  · intro hm m loop hl hh
    refine hostCalls_hold hl ?_ cs hcs hh
    intro V m y f hy hf hyf hh
    obtain ⟨F, h1, h2, h3⟩ := C02.fcompute_is_newton hyf (hh.handles f hf).symm (hh.buffers y hy) hh.masses
      (Mem.shape_buf (hh.buffers f hf)) hM
    exact ⟨F, C03.fcompute_parallel_eq_sequential hl hyf (hh.handles f hf).symm h1, newtonDeriv_of h2 h3⟩
  · intro hm m loop hl hn hh
    refine hostCalls_hold hl ?_ cs hcs hh
    intro V m y f hy hf hyf hh
    obtain ⟨F, h1, h2, h3⟩ := C04.block_is_newton hl hn hyf (hh.handles f hf).symm (hh.buffers y hy) hh.masses
      (Mem.shape_buf (hh.buffers f hf))
    exact ⟨F, h1, newtonDeriv_of h2 h3⟩
  · rintro g w hm hs m launch loop rfl hf hla hl hh
    refine Gpu.calls_hold hf hla hl ?_ cs hcs hh
    intro Y j hj
    exact (dense_newton hf.block (by rw [hf.count]; exact Dvd.dvd.mul_left hf.groups _) M Y j hj).symm

/-! ### Where the engines differ -/

section
variable {S : Type} [Add S] [Sub S] [Mul S] [Zero S] [FOps S]

omit [Add S] [Sub S] [Mul S] [Zero S] [FOps S] in
lemma loop_shape {loop : Loop S} (hl : IsParLoop loop) {N : ℕ} {body : ℕ → Prog S Unit} {m m' : Mem S}
    (h : loop N body m = .ok m') : m'.shape = m.shape := by
  obtain ⟨k, c, hr, _, rfl⟩ := (hl N body m).1 m' h
  have key : ∀ {k a c}, ParRun N k a c → c.mem.shape = (a : ParState S).mem.shape := by
    intro k a c hr
    induction hr with
    | refl => rfl
    | step _ hs ih =>
      rw [← ih]
      cases hs with
      | read => rfl
      | write => exact Mem.shape_setCell _ _ _ _
  exact key hr

omit [Add S] [Sub S] [Mul S] [Zero S] [FOps S] in
/-- A buffer copied to itself: nothing happens on the host, an exception on OpenCL devices in one context. -/
theorem copy_to_itself (g : Gpu) (w hm hs : ℕ) (H : ℕ → Prop) (M : ℕ → S) (V : Buffers S) (m : Mem S)
    (loop : Loop S) (hf : g.Fits w) (hcl : g.cuda = false) (hone : g.host = none)
    (hh : g.Holds w hm hs H M V m) (a : ℕ) (ha : H a) : g.copyBuffer loop a a m = .error .thrown := by
  unfold Gpu.copyBuffer
  simp only [hh.has hf ha, Bool.not_true, Bool.false_eq_true, if_false, ne_eq, not_true_eq_false, hone, hcl]
  simp

omit [Add S] [Sub S] [Mul S] [Zero S] [FOps S] in
theorem host_copy_to_itself (n hm : ℕ) (H : ℕ → Prop) (M : ℕ → S) (V : Buffers S) (m : Mem S) (loop : Loop S)
    (hl : IsParLoop loop) (hh : HostHolds n hm H M V m) (a : ℕ) (ha : H a) :
    ∃ m', copyBuffer loop (6 * n) a a m = .ok m' ∧ HostHolds n hm H M V m' := by
  obtain ⟨m', h1, h2⟩ := hh.copyBuffer hl ha ha
  refine ⟨m', h1, ?_⟩
  have e : Spec.put V a (V a) = V := by
    funext h
    unfold Spec.put
    split
    · rename_i e; rw [e]
    · rfl
  rwa [e] at h2

/-- A buffer that does not exist among those to be summed with correction: the host engines and the CUDA engine
leave everything as it is, the OpenCL engine has already added the terms before it. -/
theorem missing_buffer (g : Gpu) (w hm hs : ℕ) (H : ℕ → Prop) (M : ℕ → S) (V : Buffers S) (m : Mem S)
    (loop : Loop S) (hl : IsParLoop loop) (hf : g.Fits w) (hh : g.Holds w hm hs H M V m)
    (a corr b : ℕ) (ha : H a) (hcorr : H corr) (hb : H b) (miss : ℕ) (hmiss : m (rep g.D miss 0) = none)
    (x z : S) (hx : FOps.eqb x 0 = false) (hz : FOps.eqb z 0 = false) :
    (g.cuda = true → g.fmaddnCorr loop a corr [b, miss] (some [x, z]) 2 m = .ok m) ∧
    (g.cuda = false → ∃ m', g.fmaddnCorr loop a corr [b, miss] (some [x, z]) 2 m = .ok m' ∧
      g.Holds w hm hs H M (Spec.addCorrected a corr V (b, x)) m') := by
  have hnone : ∀ m' : Mem S, m'.shape = m.shape → g.has m' miss = false := by
    intro m' hs'
    unfold Gpu.has
    rw [Mem.has_eq, hs']
    simp [Mem.shape, hmiss]
  refine ⟨fun hcu => ?_, fun hcl => ?_⟩
  · unfold Gpu.fmaddnCorr
    simp only [hh.has hf ha, hh.has hf hcorr, hcu, Bool.not_true, Bool.false_eq_true, if_false, if_true,
      List.take, List.all_cons, hnone m rfl, Bool.false_and, Bool.and_false, List.all_nil, Bool.not_false]
    rfl
  · obtain ⟨m1, a1, a2⟩ := Gpu.corrTerms_holds (m₀ := m) hf hl ha hcorr [(b, x)] (by simpa using hb) ⟨hh, rfl, fun _ _ _ _ _ _ => rfl⟩
    have e1 : g.corrTerms loop a corr [(b, x)] m =
        g.elementwise loop (6 * g.n / g.D)
          (fun d => Gpu.corrKernel (rep g.D a d) (rep g.D corr d) (rep g.D b d) x) m := by
      simp only [Gpu.corrTerms, hx, hh.has hf hb, Bool.not_true, Bool.false_eq_true, if_false]
      cases g.elementwise loop (6 * g.n / g.D)
          (fun d => Gpu.corrKernel (rep g.D a d) (rep g.D corr d) (rep g.D b d) x) m <;> rfl
    refine ⟨m1, ?_, a2.toHolds⟩
    unfold Gpu.fmaddnCorr
    simp only [hh.has hf ha, hh.has hf hcorr, hcl, Bool.not_true, Bool.false_eq_true, if_false]
    rw [if_neg (by simp), if_neg (by simp)]
    simp only [List.zip_cons_cons, List.zip_nil_left, List.take]
    unfold Gpu.corrTerms
    simp only [hx, hh.has hf hb, Bool.not_true, Bool.false_eq_true, if_false]
    rw [← e1, a1, res_ok_bind]
    unfold Gpu.corrTerms
    simp only [hz, Bool.false_eq_true, if_false]
    have hsh : g.has m1 miss = false := hnone m1 (by
      have a3 := e1.symm.trans a1
      unfold Gpu.elementwise at a3
      cases hg : g.groups (6 * g.n / g.D) with
      | error e => rw [hg] at a3; cases a3
      | ok gd =>
        rw [hg, res_ok_bind] at a3
        exact loop_shape hl a3)
    simp only [hsh, Bool.not_false, if_true]

omit [Sub S] [Zero S] [FOps S] in
/-- The OpenCL engine refuses elementwise operations unless the group size divides what a device has. -/
theorem opencl_refuses (g : Gpu) (hcl : g.cuda = false) (m : Mem S) (loop : Loop S) (a b : ℕ) (c : S)
    (ha : g.has m a = true) (hb : g.has m b = true) (hB : ¬ g.B ∣ 6 * g.n / g.D) :
    g.fmaddInplace loop a b c m = .error .thrown := by
  have h : openclGroups (6 * g.n / g.D) g.B = .error .thrown :=
    if_pos (Or.inr fun e => hB (Nat.dvd_of_mod_eq_zero e))
  simp only [Gpu.fmaddInplace, ha, hb, Bool.not_true, Bool.false_eq_true, if_false, Gpu.elementwise, Gpu.total,
    hcl, Gpu.groups, h]
  rfl

omit [Sub S] [FOps S] in
/-- The CUDA engine silently leaves out the elements at the end of what a device has, when that is no multiple
of 64: those elements keep what they had. -/
theorem cuda_leaves_out (g : Gpu) (hcu : g.cuda = true) (w : ℕ) (hD : 0 < g.D) (hn : g.n = g.D * w)
    (hw : 64 ≤ 6 * w) (m : Mem S) (loop : Loop S) (hl : IsParLoop loop) (a b : ℕ) (c : S)
    (hsize : g.size a = 6 * g.n)
    (ha : ∀ d j, d < g.D → j < 6 * g.n → (m.cell (rep g.D a d) j).isSome)
    (hb : ∀ d j, d < g.D → j < 6 * g.n → (m.cell (rep g.D b d) j).isSome) :
    ∃ m', g.fmaddInplace loop a b c m = .ok m' ∧
      ∀ d k, d < g.D → 6 * w / 64 * 64 ≤ k → k < 6 * w →
        m'.cell (rep g.D a d) (d * (6 * w) + k) = m.cell (rep g.D a d) (d * (6 * w) + k) := by
  have hsz : 6 * g.n / g.D = 6 * w := by
    rw [hn, show 6 * (g.D * w) = g.D * (6 * w) by ring, Nat.mul_div_cancel_left _ hD]
  have hfull : g.D * (6 * w) = 6 * g.n := by rw [hn]; ring
  have hq : 6 * w / 64 ≠ 0 := by omega
  have hgr : g.groups (6 * w) = .ok (6 * w / 64) := by
    simp only [Gpu.groups, hcu, if_true, cudaGroups]
    rw [if_neg (by decide), if_neg hq]
  have hblk : g.block = 64 := by simp only [Gpu.block, hcu, if_true]
  have hca : g.has m a = true := Mem.has_of_cell (ha 0 0 hD (by rw [← hfull]; exact Nat.mul_pos hD (by omega)))
  have hcb : g.has m b = true := Mem.has_of_cell (hb 0 0 hD (by rw [← hfull]; exact Nat.mul_pos hD (by omega)))
  simp only [Gpu.fmaddInplace, hca, hcb, Bool.not_true, Bool.false_eq_true, if_false, Gpu.elementwise, Gpu.total,
    hcu, if_true, hsize, hsz, hgr, hblk, res_ok_bind]
  have hc0 : 0 < 6 * w / 64 * 64 := by omega
  have hcw : 6 * w / 64 * 64 ≤ 6 * w := by omega
  generalize 6 * w / 64 * 64 = q at hc0 hcw
  have hdev : ∀ p, p < g.D * q → p / q < g.D := fun p hp => Nat.div_lt_of_lt_mul (by rwa [Nat.mul_comm])
  have hmod : ∀ p, p % q < q := fun p => Nat.mod_lt _ hc0
  have hin : ∀ p, p < g.D * q → p / q * (6 * w) + p % q < 6 * g.n := fun p hp => by
    rw [← hfull]; exact group_lt (hdev p hp) (lt_of_lt_of_le (hmod p) hcw)
  have hsome : ∀ h d j, (h = a ∨ h = b) → d < g.D → j < 6 * g.n →
      m.cell (rep g.D h d) j = some ((m.cell (rep g.D h d) j).getD 0) := by
    intro h d j hh hd hj
    have : (m.cell (rep g.D h d) j).isSome := by
      rcases hh with rfl | rfl
      · exact ha d j hd hj
      · exact hb d j hd hj
    obtain ⟨v, hv⟩ := Option.isSome_iff_exists.1 this
    rw [hv]; rfl
  obtain ⟨m', a1, _, _, a4⟩ := elem_run (D := g.D) hl (N := g.D * q) (fun p => p / q)
    (fun p k => k = p / q * (6 * w) + p % q) hdev
    (by
      rintro p p' k hp hp' e1 rfl e2
      rw [← Nat.div_add_mod p q, ← Nat.div_add_mod p' q]
      rw [e1] at e2 ⊢
      omega)
    (fun h => h = a ∨ h = b) (fun h => h = a)
    (body := fun p => fmaddInplaceBody (rep g.D a (p / q)) (rep g.D b (p / q)) c (p / q * (6 * w) + p % q))
    (V := fun d h k => (m.cell (rep g.D h d) k).getD 0)
    (V' := fun d h k => (m.cell (rep g.D h d) k).getD 0 + (m.cell (rep g.D b d) k).getD 0 * c) (m := m)
    (by
      rintro h p k hh hp rfl
      exact hsome h _ _ hh (hdev p hp) (hin p hp))
    (by
      intro p hp
      have hd := hdev p hp
      unfold fmaddInplaceBody
      within
      · exact ⟨Or.inl (rep_div hd), rep_mod hd, rfl⟩
      · exact ⟨Or.inr (rep_div hd), rep_mod hd, rfl⟩
      · exact ⟨rep_div hd, rep_mod hd, rfl⟩)
    (by
      intro p m1 hp _ hcell
      have hd := hdev p hp
      have ca := hcell a _ (Or.inl rfl) rfl
      have cb := hcell b _ (Or.inr rfl) rfl
      obtain ⟨m2, b1, _, b2, b3⟩ := Gpu.put_cell_run hd
        ((m.cell (rep g.D a (p / q)) (p / q * (6 * w) + p % q)).getD 0 +
          (m.cell (rep g.D b (p / q)) (p / q * (6 * w) + p % q)).getD 0 * c) (m1 := m1) (a := a) (j := p / q * (6 * w) + p % q)
        (by rw [ca]; rfl)
      refine ⟨m2, ?_, ?_, ?_⟩
      · unfold fmaddInplaceBody
        simp only [Prog.run_bind, Prog.run_get ca, Prog.run_get cb, res_ok_bind]
        exact b1
      · rintro h k rfl rfl
        exact b2
      · rintro x k hx
        exact b3 x k hx)
  refine ⟨m', a1, fun d k hd hk1 hk2 => a4 _ _ ?_⟩
  rintro ⟨p, hp, -, e2, e3⟩
  rw [rep_mod hd] at e2
  rw [← e2] at e3
  have := hmod p
  omega

end

/-! ### Cases -/

/-- A memory for `D` devices: buffer 0 holds the masses, buffer `h` from 1 on the numbers `V h`, and there is
no buffer 500. -/
def sample (D : ℕ) (V : Buffers ℝ) : Mem ℝ := fun x => if x / D = 500 then none else some (buf 1000 (V (x / D)))

lemma sample_cell {D : ℕ} (V : Buffers ℝ) {x j : ℕ} (hx : x / D ≠ 500) (hj : j < 1000) :
    (sample D V).cell x j = some (V (x / D) j) := by
  rw [Mem.cell_buf (if_neg hx), if_pos hj]

lemma sample_holds {g : Gpu} {w : ℕ} (V : Buffers ℝ) (hn : g.n = g.D * w) (hsmall : g.n ≤ 100)
    (hB : g.B ≤ 1000) (hhost : g.host = none ∨ g.host = some 99) (hsize : ∀ h, g.size h = 6 * g.n)
    (hD : 0 < g.D) : g.Holds w 0 10 (fun h => 1 ≤ h ∧ h < 10) (V 0) V (sample g.D V) where
  slices h d i hh hd hi := by
    have h1 : d * (6 * w) + i < g.D * (6 * w) := group_lt hd hi
    have : g.D * (6 * w) = 6 * g.n := by rw [hn]; ring
    rw [sample_cell V (by rw [rep_div hd]; omega) (by omega), rep_div hd]
  room h hh d j hd hj := by
    rw [sample_cell V (by rw [rep_div hd]; omega)]
    · rfl
    · unfold Gpu.allocSize at hj
      split at hj <;> omega
  masses d j hd hj := by rw [sample_cell V (by rw [rep_div hd]; decide) (by omega), rep_div hd]
  scratch gr k l hg hk hl := by
    have h1 : g.D * (w / g.B) ≤ g.n := by rw [hn]; exact Nat.mul_le_mul_left _ (Nat.div_le_self _ _)
    rw [sample_cell V (by unfold localMem; rw [rep_div hD]; omega) (by omega)]; rfl
  hostBuffer b hb := by
    rcases hhost with h | h
    · rw [h] at hb; cases hb
    · rw [h] at hb
      cases hb
      exact ⟨by decide, fun j hj => by
        rw [sample_cell V (by rw [rep_div hD]; decide) (by omega)]; rfl⟩
  handles := ⟨by decide, fun h hh => ⟨hh.2, by omega, hsize h⟩⟩

/-- Two OpenCL devices, four bodies, groups of two. -/
def twoCl : Gpu := ⟨false, 2, 4, 2, none, fun _ => 24⟩

/-- Two CUDA devices, 64 bodies, groups of 32. -/
def twoCuda : Gpu := ⟨true, 2, 64, 32, none, fun _ => 384⟩

/-- Three OpenCL devices in different contexts, six bodies, groups of two. -/
def threeCl : Gpu := ⟨false, 3, 6, 2, some 99, fun _ => 36⟩

lemma twoCl_fits : twoCl.Fits 2 :=
  ⟨rfl, by decide, by decide, ⟨by decide, fun _ => ⟨1, rfl⟩⟩, by decide, fun h => (by cases h), by decide⟩

lemma twoCuda_fits : twoCuda.Fits 32 :=
  ⟨rfl, by decide, by decide, ⟨by decide, fun _ => ⟨1, rfl⟩⟩, by decide, fun _ => ⟨by decide, by decide, rfl⟩,
    fun h => (by cases h)⟩

lemma threeCl_fits : threeCl.Fits 2 :=
  ⟨rfl, by decide, by decide, ⟨by decide, fun h => (by cases h)⟩, by decide, fun h => (by cases h), by decide⟩

/-- A step of the midpoint rule, with clamping and a corrected sum. -/
noncomputable def calls : List (Call ℝ) :=
  [.fcompute 1 2, .fmadd 3 1 2 (1 / 2), .fcompute 3 4, .fmaddnCorr 1 5 [4, 2] [1, 0] 2, .clamp 1 100, .copy 6 1,
    .fill 7 3, .fmaddn 8 none [2, 4] [1, 2] 2, .fmaddn 8 (some 7) [2, 4] [1, 2] 2, .fmaddnInplace 7 [2] [5] 1,
    .fmaddInplace 7 8 2]

lemma calls_legal : Legal (fun h => 1 ≤ h ∧ h < 10) calls := by
  intro c hc
  simp only [calls, List.mem_cons, List.not_mem_nil, or_false] at hc
  rcases hc with rfl | rfl | rfl | rfl | rfl | rfl | rfl | rfl | rfl | rfl | rfl <;>
    simp [Proper, mentions]

/-- The hypotheses of `all_engines` are met by two and three OpenCL devices; both end with the same contents as
the sequential engine. -/
example (launch : Launch ℝ (DenseReg ℝ)) (loop : Loop ℝ) (hla : IsLaunch launch) (hl : IsParLoop loop)
    (V : Buffers ℝ) :
    ∃ m', runCalls (twoCl.call launch loop 0 10) calls (sample 2 V) = .ok m' ∧
      twoCl.Holds 2 0 10 (fun h => 1 ≤ h ∧ h < 10) (V 0) (calls.foldl (Spec.call (fun Y => denseVal 4 2 Y (V 0)) 4) V) m' :=
  Gpu.calls_hold twoCl_fits hla hl (fun _ _ _ => rfl) calls calls_legal
    (sample_holds V rfl (by decide) (by decide) (Or.inl rfl) (fun _ => rfl) (by decide))

example (launch : Launch ℝ (DenseReg ℝ)) (loop : Loop ℝ) (hla : IsLaunch launch) (hl : IsParLoop loop)
    (V : Buffers ℝ) (hM : ∀ i, i < 6 → V 0 i ≠ 0) :
    ∃ m', runCalls (threeCl.call launch loop 0 10) calls (sample 3 V) = .ok m' ∧
      threeCl.Holds 2 0 10 (fun h => 1 ≤ h ∧ h < 10) (V 0)
        (calls.foldl (Spec.call (newtonDeriv 6 (V 0)) 6) V) m' :=
  (all_engines 6 (V 0) hM _ V calls calls_legal).2.2 threeCl 2 0 10 _ launch loop rfl threeCl_fits hla hl
    (sample_holds V rfl (by decide) (by decide) (Or.inr rfl) (fun _ => rfl) (by decide))

/-- The CUDA engine with two devices, the blocked engine and the sequential engine, for 64 bodies of mass 1. -/
example (launch : Launch ℝ (DenseReg ℝ)) (loop : Loop ℝ) (hla : IsLaunch launch) (hl : IsParLoop loop)
    (V : Buffers ℝ) (hM : V 0 = fun _ => 1) :
    let V' := calls.foldl (Spec.call (newtonDeriv 64 (V 0)) 64) V
    (∃ m', runCalls (twoCuda.call launch loop 0 10) calls (sample 2 V) = .ok m' ∧
      twoCuda.Holds 32 0 10 (fun h => 1 ≤ h ∧ h < 10) (V 0) V' m') ∧
    ∃ m', runCalls (hostCall (blockFcompute loop blockSize 64 0) loop 64) calls
        (fun h => some (buf (if h = 0 then 64 else 384) (V h))) = .ok m' ∧
      HostHolds 64 0 (fun h => 1 ≤ h ∧ h < 10) (V 0) V' m' := by
  have h := all_engines 64 (V 0) (fun _ _ => by rw [hM]; norm_num) _ V calls calls_legal
  refine ⟨h.2.2 twoCuda 32 0 10 _ launch loop rfl twoCuda_fits hla hl
    (sample_holds V rfl (by decide) (by decide) (Or.inl rfl) (fun _ => rfl) (by decide)),
    h.2.1 0 _ loop hl (by decide) ⟨fun h hh => ?_, ?_, fun h hh => Nat.ne_of_gt hh.1⟩⟩
  · exact congrArg (fun k => some (buf k (V h))) (if_neg (Nat.ne_of_gt hh.1))
  · rfl

/-- Three buffers to be summed, the second of which does not exist: one OpenCL engine and one CUDA engine. -/
example (loop : Loop ℝ) (hl : IsParLoop loop) (V : Buffers ℝ) :
    (∃ m', twoCl.fmaddnCorr loop 1 2 [3, 500] (some [1, 1]) 2 (sample 2 V) = .ok m' ∧
      twoCl.Holds 2 0 10 (fun h => 1 ≤ h ∧ h < 10) (V 0) (Spec.addCorrected 1 2 V (3, 1)) m') ∧
    twoCuda.fmaddnCorr loop 1 2 [3, 500] (some [1, 1]) 2 (sample 2 V) = .ok (sample 2 V) := by
  have h1 : FOps.eqb (1 : ℝ) 0 = false := by simp [FOps.eqb]
  exact ⟨(missing_buffer twoCl 2 0 10 _ (V 0) V _ loop hl twoCl_fits
      (sample_holds V rfl (by decide) (by decide) (Or.inl rfl) (fun _ => rfl) (by decide)) 1 2 3
      (by decide) (by decide) (by decide) 500 rfl 1 1 h1 h1).2 rfl,
    (missing_buffer twoCuda 32 0 10 _ (V 0) V _ loop hl twoCuda_fits
      (sample_holds V rfl (by decide) (by decide) (Or.inl rfl) (fun _ => rfl) (by decide)) 1 2 3
      (by decide) (by decide) (by decide) 500 rfl 1 1 h1 h1).1 rfl⟩

/-- A copy of a buffer to itself. -/
example (loop : Loop ℝ) (V : Buffers ℝ) : twoCl.copyBuffer loop 3 3 (sample 2 V) = .error .thrown :=
  copy_to_itself twoCl 2 0 10 _ (V 0) V _ loop twoCl_fits rfl rfl
    (sample_holds V rfl (by decide) (by decide) (Or.inl rfl) (fun _ => rfl) (by decide)) 3 (by decide)

/-- One CUDA device with 11 bodies: 64 of 66 numbers are added. -/
example (loop : Loop ℝ) (hl : IsParLoop loop) (V : Buffers ℝ) :
    ∃ m', Gpu.fmaddInplace ⟨true, 1, 11, 1, none, fun _ => 66⟩ loop 1 2 5 (sample 1 V) = .ok m' ∧
      m'.cell (rep 1 1 0) 64 = some (V 1 64) ∧ m'.cell (rep 1 1 0) 65 = some (V 1 65) := by
  obtain ⟨m', h1, h2⟩ := cuda_leaves_out ⟨true, 1, 11, 1, none, fun _ => 66⟩ rfl 11 (by decide) rfl (by decide)
    (sample 1 V) loop hl 1 2 5 rfl
    (fun d j hd hj => by rw [sample_cell V (by rw [rep_div hd]; decide) (by change j < 66 at hj; omega)]; rfl)
    (fun d j hd hj => by rw [sample_cell V (by rw [rep_div hd]; decide) (by change j < 66 at hj; omega)]; rfl)
  refine ⟨m', h1, (h2 0 64 (by decide) (by decide) (by decide)).trans ?_,
    (h2 0 65 (by decide) (by decide) (by decide)).trans ?_⟩ <;>
  exact sample_cell V (by decide) (by decide)

/-- One OpenCL device with 11 bodies and groups of 64. -/
example (loop : Loop ℝ) (V : Buffers ℝ) :
    Gpu.fmaddInplace ⟨false, 1, 11, 64, none, fun _ => 66⟩ loop 1 2 5 (sample 1 V) = .error .thrown :=
  opencl_refuses _ rfl _ loop 1 2 5 rfl rfl (by decide)

end NB.C69
