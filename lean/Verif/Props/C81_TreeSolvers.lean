import Verif.Lemmas.Oracle
import Verif.Model.TreeOps
import Verif.Props.C78_Converge
import Verif.Props.C80_BHError

/-
C81: solvers on the Barnes–Hut engines.  Every solver runs to the end on every Barnes–Hut engine, and what it computes
approaches the motion of the bodies as the steps become smaller and the ratio larger.
-/

namespace NB.C81

open Finset
open _root_.Spec (Buffers Motion Near Allowed Approximates)
open C69 (newtonDeriv)
open C74 (Apart runSteps runScheme maxAbs)
open C78 (Fresh)
open NB.Spec (Reorders)

/-! ### The engines -/

/-- The buffers that an engine on GPUs has besides those of the solvers: the tree, the staging buffers and the
buffers on the host. -/
structure TreeRoom (e : GpuBH ℝ) (k hs : ℕ) (m : Mem ℝ) : Prop where
  tree : ∀ d F i, d < e.g.D → i < 2 ^ (k + 1) → (e.tree.cell e.g.D m d F i).isSome
  host : ∀ b : ℕ, e.g.host = some b → hs ≤ b ∧ Replicated e.g.D b (6 * 2 ^ k) m
  fsync : e.g.host = none → 2 ≤ e.g.D → Replicated e.g.D e.fsync (6 * 2 ^ k) m
  hostY : ∀ j, j < 6 * 2 ^ k → (m.cell (rep e.g.D e.hostY 0) j).isSome
  hostM : ∀ j, j < 2 ^ k → (m.cell (rep e.g.D e.hostM 0) j).isSome

/-- The Barnes–Hut engines for `n` bodies of masses `M` with buffers `H` and the ratio `ratio`.  `Start V s`: the
engine has just been made and its memory holds the contents `V`; `Holds V s`: its memory holds `V`.  `steps k` is the
step number that the engine reads at the `k`-th evaluation. -/
inductive TreeEngine (n : ℕ) (M : ℕ → ℝ) (H : ℕ → Prop) (ratio : ℝ) :
    (σ : Type) → EngineOps ℝ σ → (Buffers ℝ → σ → Prop) → (Buffers ℝ → σ → Prop) → Prop
  /-- The tree of pointers, every execution. -/
  | pointer (hm : ℕ) {nth : NthElement} (hnth : Reorders nth) {loop : Loop ℝ} (hl : IsParLoop loop) (vloop : Loop ℝ)
      (rate : ℕ) (steps : ℕ → ℕ) {bot : ℝ} (hb : bot ≤ 0) {sched : Mem ℝ → Red} (hs : ∀ m, (sched m).Valid (6 * n)) :
      TreeEngine n M H ratio (TreeState ℝ (Option (STree ℝ)))
        (hostTreeOps (treeIndex (1 / 2) nth 64) loop vloop .cycle ratio rate steps n hm bot sched)
        (fun V s => HostHolds n hm H M V s.mem ∧ s.tree = none) (fun V s => HostHolds n hm H M V s.mem)
  /-- The heap, walked with a stack. -/
  | heap (hm : ℕ) {k : ℕ} (hn : n = 2 ^ k) (hk : k ≤ 63) {nth : NthElement} (hnth : Reorders nth)
      {ord : List ℕ → List ℕ} (hord : ∀ l, (ord l).Perm l) {loop : Loop ℝ} (hl : IsParLoop loop) (vloop : Loop ℝ)
      (rate : ℕ) (steps : ℕ → ℕ) {fuel : ℕ} (hf : 2 ^ (k + 1) - 1 ≤ fuel) {bot : ℝ} (hb : bot ≤ 0)
      {sched : Mem ℝ → Red} (hs : ∀ m, (sched m).Valid (6 * n)) :
      TreeEngine n M H ratio (TreeState ℝ (List (Cell ℝ)))
        (hostTreeOps (heapIndex (1 / 2) nth ord 64 fuel) loop vloop .cycle ratio rate steps n hm bot sched)
        (fun V s => HostHolds n hm H M V s.mem ∧ s.tree = []) (fun V s => HostHolds n hm H M V s.mem)
  /-- The heap, walked without a stack. -/
  | stackless (hm : ℕ) {k : ℕ} (hn : n = 2 ^ k) (hk : k ≤ 30) {nth : NthElement} (hnth : Reorders nth)
      {ord : List ℕ → List ℕ} (hord : ∀ l, (ord l).Perm l) {loop : Loop ℝ} (hl : IsParLoop loop) (vloop : Loop ℝ)
      (rate : ℕ) (steps : ℕ → ℕ) {fuel : ℕ} (hf : 2 ^ (k + 1) - 1 ≤ fuel) {bot : ℝ} (hb : bot ≤ 0)
      {sched : Mem ℝ → Red} (hs : ∀ m, (sched m).Valid (6 * n)) :
      TreeEngine n M H ratio (TreeState ℝ (List (Cell ℝ)))
        (hostTreeOps (heapStacklessIndex nextDownCtz (1 / 2) nth ord 64 fuel) loop vloop .cycle ratio rate steps n hm
          bot sched)
        (fun V s => HostHolds n hm H M V s.mem ∧ s.tree = []) (fun V s => HostHolds n hm H M V s.mem)
  /-- OpenCL: any number of devices in one context or several, all four walks, every execution. -/
  | opencl (e : GpuBH ℝ) (w hm hs : ℕ) {k : ℕ} (hn : n = 2 ^ k) (hr : e.ratio = ratio) (hh : e.half = 1 / 2)
      (hd : e.depth = 64) {tex : Bool} (hset : ∀ y f, H y → H f → y ≠ f → BHSetup e tex w k hs hm y f)
      {loop gloop : Loop ℝ} (hl : IsParLoop loop) (hgl : IsParLoop gloop) (steps : ℕ → ℕ)
      (launch : Launch ℝ (DenseReg ℝ)) (out hb : ℕ) (ho : ¬ H out) (hhb : ¬ H hb)
      (hoh : out ≠ hb) (junk : ℝ) (h4 : 4 ∣ 6 * e.g.n / e.g.B) (hf : e.g.Fits w) :
      TreeEngine n M H ratio (TreeState ℝ (BHState ℝ))
        (gpuTreeOps e loop tex steps hm (openclOps e.g launch gloop hm hs out hb junk))
        (fun V s => e.g.Holds w hm hs H M V s.mem ∧ TreeRoom e k hs s.mem ∧ s.tree = ⟨[], none⟩)
        (fun V s => e.g.Holds w hm hs H M V s.mem)
  /-- CUDA: any number of devices, with textures or without, all four walks, every execution. -/
  | cuda (e : GpuBH ℝ) (w hm hs : ℕ) {k : ℕ} (hn : n = 2 ^ k) (hr : e.ratio = ratio) (hh : e.half = 1 / 2)
      (hd : e.depth = 64) {tex : Bool} (hset : ∀ y f, H y → H f → y ≠ f → BHSetup e tex w k hs hm y f)
      {loop gloop : Loop ℝ} (hl : IsParLoop loop) (hgl : IsParLoop gloop) (steps : ℕ → ℕ)
      (launch : Launch ℝ (DenseReg ℝ)) {order : Mem ℝ → ℕ → MinMax}
      (ho : ∀ m d, d < e.g.D → C73.Complete (6 * w) (order m d)) (hf : e.g.Fits w) :
      TreeEngine n M H ratio (TreeState ℝ (BHState ℝ))
        (gpuTreeOps e loop tex steps hm (cudaOps e.g launch gloop hm hs order))
        (fun V s => e.g.Holds w hm hs H M V s.mem ∧ TreeRoom e k hs s.mem ∧ s.tree = ⟨[], none⟩)
        (fun V s => e.g.Holds w hm hs H M V s.mem)

/-- The derivatives that a Barnes–Hut engine may compute for a state. -/
abbrev Computes (n : ℕ) (M : ℕ → ℝ) (ratio : ℝ) (Y F : ℕ → ℝ) : Prop := C80.Close n ratio Y M F

/-! ### The host -/

section
variable {n hm : ℕ} {M : ℕ → ℝ} {H : ℕ → Prop} {ratio : ℝ}

lemma hostCall_noderiv {fc fc' : Handle → Handle → Mem ℝ → Res (Mem ℝ)} {loop : Loop ℝ} {c : Call ℝ}
    (h : Spec.cost c = 0) (m : Mem ℝ) : hostCall fc loop n c m = hostCall fc' loop n c m := by
  cases c with
  | fcompute => cases h
  | _ => rfl

lemma host_other {loop : Loop ℝ} (hl : IsParLoop loop) {fc : Handle → Handle → Mem ℝ → Res (Mem ℝ)} {c : Call ℝ}
    (hc : Spec.cost c = 0) (hp : Spec.Proper c) (hH : ∀ h ∈ Spec.mentions c, H h) {V : Buffers ℝ} {m : Mem ℝ}
    (hh : HostHolds n hm H M V m) :
    ∃ m', hostCall fc loop n c m = .ok m' ∧ HostHolds n hm H M (Spec.call (fun _ _ => 0) n V c) m' := by
  rw [hostCall_noderiv (fc' := fun _ f m => .ok (m.set f (buf (6 * n) fun _ => 0))) hc]
  exact hostCall_holds hl (fun V m y f _ _ _ _ => ⟨fun _ => 0, rfl, fun _ _ => rfl⟩) c hH hp hh

/-- The engines on the host, given one evaluation. -/
lemma host_approximates {T : Type} {ix : SpaceIndex ℝ T} {loop : Loop ℝ} (hl : IsParLoop loop) {vloop : Loop ℝ} {rate : ℕ}
    {steps : ℕ → ℕ} {bot : ℝ} (hb : bot ≤ 0) {sched : Mem ℝ → Red} (hs : ∀ m, (sched m).Valid (6 * n)) (hn0 : 0 < n)
    {Ok : T → Prop}
    (hev : ∀ y f (e : C34.Evaluation n hm y f M) t, y ≠ f → hm ≠ f → Ok t → ∃ t' F,
      bhFcompute ix loop vloop .cycle ratio rate e.step n hm y f t e.mem = .ok (t', e.mem.set f (buf (6 * n) F)) ∧
      Computes n M ratio e.Y F ∧ Ok t') :
    Approximates (hostTreeOps ix loop vloop .cycle ratio rate steps n hm bot sched) n H (Computes n M ratio)
      (maxAbs (6 * n)) (fun V s => HostHolds n hm H M V s.mem ∧ Ok s.tree) where
  compute y f V s hyf hy hf hr := by
    obtain ⟨t', F, h1, h2, h3⟩ := hev y f ⟨steps s.calls, V y, s.mem, hr.1.buffers y hy, hr.1.masses,
      Mem.shape_buf (hr.1.buffers f hf)⟩ s.tree hyf (hr.1.handles f hf).symm hr.2
    refine ⟨F, ⟨s.mem.set f (buf (6 * n) F), t', s.calls + 1⟩, h2, ?_, hr.1.put hf fun _ _ => rfl, h3⟩
    show (bhFcompute ix loop vloop .cycle ratio rate (steps s.calls) n hm y f s.tree s.mem >>= _) = _
    dsimp only at h1
    rw [h1]
    rfl
  call c V s hc hp hH hr := by
    obtain ⟨m', h1, h2⟩ := host_other hl (fc := fun _ _ m => .ok m) hc hp hH hr.1
    refine ⟨{ s with mem := m' }, ?_, h2, hr.2⟩
    cases c with
    | fcompute => cases hc
    | _ =>
      show (hostCall (fun _ _ m => .ok m) loop n _ s.mem >>= _) = _
      rw [h1]
      rfl
  norm h V s hh hr := by
    refine ⟨s, ?_, hr⟩
    obtain ⟨r, h1, h2⟩ := C09.fmaxabs_openmp_is_max (N := 6 * n) (A := V h) (by omega) (le_refl _) hb (hs s.mem)
    simp only [hostTreeOps, openmpOps, hr.1.buffers h hh]
    rw [h1, res_ok_bind, C74.maxAbs_eq (by omega) h2]
    rfl

end

/-! ### GPUs -/

section
variable {e : GpuBH ℝ} {tex : Bool} {w hm hs k : ℕ} {M : ℕ → ℝ} {H : ℕ → Prop}

lemma TreeRoom.of_shape {m m' : Mem ℝ} (h : TreeRoom e k hs m) (hsh : m'.shape = m.shape) : TreeRoom e k hs m' where
  tree d F i hd hi := isSome_of_shape hsh (h.tree d F i hd hi)
  host b hb := ⟨(h.host b hb).1, (h.host b hb).2.of_shape hsh⟩
  fsync h1 h2 := (h.fsync h1 h2).of_shape hsh
  hostY j hj := isSome_of_shape hsh (h.hostY j hj)
  hostM j hj := isSome_of_shape hsh (h.hostM j hj)

/-- The same evaluation on the host. -/
def shadow (n step : ℕ) (Y M : ℕ → ℝ) : C34.Evaluation n 0 1 2 M where
  step := step
  Y := Y
  mem h := if h = 0 then some (buf n M) else some (buf (6 * n) Y)
  hy := rfl
  hM := rfl
  hf := by simp [Mem.shape]

/-- What the engines on GPUs keep. -/
def GpuRep (e : GpuBH ℝ) (tex : Bool) (w k hs hm : ℕ) (H : ℕ → Prop) (M : ℕ → ℝ) (V : Buffers ℝ)
    (s : TreeState ℝ (BHState ℝ)) : Prop :=
  e.g.Holds w hm hs H M V s.mem ∧ TreeRoom e k hs s.mem ∧ ∃ tree, C72.Lockstep e tex w k hs hm M tree s.tree s.mem

lemma gpu_compute (hh : e.half = 1 / 2) (hd : e.depth = 64) (hpos : ∀ b < 2 ^ k, 0 < M b) (hr : 1 ≤ e.ratio)
    (hset : ∀ y f, H y → H f → y ≠ f → BHSetup e tex w k hs hm y f) {loop : Loop ℝ} (hl : IsParLoop loop) (step : ℕ)
    {y f : ℕ} (hyf : y ≠ f) (hy : H y) (hf : H f) {V : Buffers ℝ} {s : TreeState ℝ (BHState ℝ)}
    (hs' : GpuRep e tex w k hs hm H M V s) :
    ∃ F st' m', Computes (2 ^ k) M e.ratio (V y) F ∧ e.fcompute loop tex step hm y f s.tree s.mem = .ok (st', m') ∧
      ∀ c, GpuRep e tex w k hs hm H M (Spec.put V f F) ⟨m', st', c⟩ := by
  obtain ⟨hho, hroom, tree, hlock⟩ := hs'
  have he := hset y f hy hf hyf
  have hn := he.count
  have hw : 6 * 2 ^ k = e.g.D * (6 * w) := by rw [← hn, he.fits.count]; ring
  have hsl : ∀ d i, d < e.g.D → i < 6 * w → d * (6 * w) + i < 6 * 2 ^ k := by
    intro d i hd hi
    rw [hw]
    calc d * (6 * w) + i < d * (6 * w) + 6 * w := by omega
      _ = (d + 1) * (6 * w) := by ring
      _ ≤ e.g.D * (6 * w) := Nat.mul_le_mul_right _ hd
  have hg : C72.Given e tex w k hs hm y f (V y) M s.mem :=
    { setup := he
      room :=
        { state := fun d j hd hj => hho.room y hy d j hd (by rw [hn]; exact hj.trans_le (Gpu.le_allocSize _))
          result := by have := hho.room f hf; rwa [hn] at this
          tree := hroom.tree
          host := hroom.host
          fsync := hroom.fsync
          hostY := hroom.hostY
          hostM := hroom.hostM }
      state := fun d i hd hi => hho.slices y d i hy hd hi
      masses := by have := hho.masses; rwa [hn] at this }
  have hM : ∀ b, b < 2 ^ k → M b ≠ 0 := fun b hb => (hpos b hb).ne'
  obtain ⟨st', m', F, a1, a2, a3⟩ := C80.gpu_close hh hd hpos hr hl hlock (hm' := 0) (y' := 1) (f' := 2) (by decide)
    (by decide) (shadow (2 ^ k) step (V y) M) hg
  obtain ⟨st2, m2, tree', _, b1, _, b3, _⟩ := C72.gpu_equals_host (vloop := loop) hh hd hM hl hl hlock (hm' := 0)
    (y' := 1) (f' := 2) (by decide) (by decide) (shadow (2 ^ k) step (V y) M) hg
  obtain ⟨rfl, rfl⟩ := Prod.mk.inj (Except.ok.inj (b1.symm.trans a1))
  obtain ⟨st3, t, m3, c1, _, _, _, c5, c6, c7⟩ := C72.every_call (e := e) (by rw [hh]; exact C56.real_laws)
    (fun _ => C72.real_sum_laws) hl (C72.lockstep_reached hh hd hlock) hg step
  obtain ⟨rfl, rfl⟩ := Prod.mk.inj (Except.ok.inj (c1.symm.trans a1))
  have hfree : ∀ h, H h → ¬ e.tree.Owns h := by
    intro h hH
    by_cases e1 : h = f
    · subst e1; exact he.tree.2.1
    · exact (hset h f hH hf e1).tree.1
  refine ⟨F, st3, m3, a2, a1, fun c => ⟨?_, hroom.of_shape c6, tree', b3⟩⟩
  refine hho.next c6 (fun h d i hH hd hi => ?_) fun d j hd => ?_
  · by_cases e1 : h = f
    · subst e1
      rw [Spec.put, if_pos rfl]
      exact a3 d _ hd (hsl d i hd hi)
    · rw [Spec.put, if_neg e1]
      by_cases e2 : h = y
      · subst e2
        exact c5 d _ hd (hsl d i hd hi)
      · rw [c7 _ _ (by rw [rep_div hd]; exact (hho.handles.2 h hH).1) (by rw [rep_div hd]; exact e2)
          (by rw [rep_div hd]; exact e1) (by rw [rep_div hd]; exact hfree h hH)]
        exact hho.slices h d i hH hd hi
  · exact c7 _ _ (by rw [rep_div hd]; exact hho.handles.1) (by rw [rep_div hd]; exact he.apart.2.2)
      (by rw [rep_div hd]; exact he.apart.2.1) (by rw [rep_div hd]; exact he.tree.2.2)

lemma gpu_other (hf : e.g.Fits w) (hset : ∀ y f, H y → H f → y ≠ f → BHSetup e tex w k hs hm y f)
    {y₀ f₀ : ℕ} (hy₀ : H y₀) (hf₀ : H f₀) (h₀ : y₀ ≠ f₀)
    {launch : Launch ℝ (DenseReg ℝ)} {loop : Loop ℝ} (hl : IsParLoop loop) {c : Call ℝ} (hc : Spec.cost c = 0)
    (hp : Spec.Proper c) (hH : ∀ h ∈ Spec.mentions c, H h) {V : Buffers ℝ} {s : TreeState ℝ (BHState ℝ)}
    (hs' : GpuRep e tex w k hs hm H M V s) :
    ∃ m', e.g.call launch loop hm hs c s.mem = .ok m' ∧
      GpuRep e tex w k hs hm H M (Spec.call (fun _ _ => 0) (2 ^ k) V c) { s with mem := m' } := by
  obtain ⟨hho, hroom, tree, hlock⟩ := hs'
  have he := hset y₀ f₀ hy₀ hf₀ h₀
  obtain ⟨m', h1, h2⟩ := Gpu.call_follows (m₀ := s.mem) (launch := launch) hf hl (fun _ _ => 0) c hc hH hp
    ⟨hho, rfl, fun _ _ _ _ _ _ => rfl⟩
  have hfree : ∀ h, H h → ¬ e.tree.Owns h := by
    intro h hH
    by_cases e1 : h = f₀
    · subst e1; exact he.tree.2.1
    · exact (hset h f₀ hH hf₀ e1).tree.1
  refine ⟨m', h1, ?_, hroom.of_shape h2.shape, tree, .other hlock fun x j hx => ?_⟩
  · rw [← he.count]; exact h2.toHolds
  · have hD : 0 < e.g.D := Gpu.devices_pos hf
    have hd : x % e.g.D < e.g.D := Nat.mod_lt _ hD
    have ex : x = rep e.g.D (x / e.g.D) (x % e.g.D) := (eq_rep_iff hd).2 ⟨rfl, rfl⟩
    have hlow : x / e.g.D < hs := by
      obtain ⟨F, hF⟩ := hx
      rw [← hF]
      exact he.low.2.2.2 F
    have := h2.rest (x / e.g.D) (x % e.g.D) j hlow (fun h => hfree _ h hx) hd
    rwa [← ex] at this

/-- The engines on GPUs. -/
lemma gpu_approximates (hh : e.half = 1 / 2) (hd : e.depth = 64) (hpos : ∀ b < 2 ^ k, 0 < M b) (hr : 1 ≤ e.ratio)
    (hf : e.g.Fits w) (hset : ∀ y f, H y → H f → y ≠ f → BHSetup e tex w k hs hm y f) {loop gloop : Loop ℝ}
    {y₀ f₀ : ℕ} (hy₀ : H y₀) (hf₀ : H f₀) (h₀ : y₀ ≠ f₀)
    (hl : IsParLoop loop) (hgl : IsParLoop gloop) (steps : ℕ → ℕ) (launch : Launch ℝ (DenseReg ℝ)) {dense : EngineOps ℝ (Mem ℝ)}
    (hcall : dense.call = e.g.call launch gloop hm hs)
    (hnorm : ∀ h V m, H h → e.g.Holds w hm hs H M V m → dense.maxabs h m = .ok (some (maxAbs (6 * 2 ^ k) (V h)), m)) :
    Approximates (gpuTreeOps e loop tex steps hm dense) (2 ^ k) H (Computes (2 ^ k) M e.ratio) (maxAbs (6 * 2 ^ k))
      (GpuRep e tex w k hs hm H M) where
  compute y f V s hyf hy hf hs' := by
    obtain ⟨F, st', m', h1, h2, h3⟩ := gpu_compute hh hd hpos hr hset hl (steps s.calls) hyf hy hf hs'
    refine ⟨F, ⟨m', st', s.calls + 1⟩, h1, ?_, h3 _⟩
    show (e.fcompute loop tex (steps s.calls) hm y f s.tree s.mem >>= _) = _
    rw [h2]
    rfl
  call c V s hc hp hH hs' := by
    obtain ⟨m', h1, h2⟩ := gpu_other (launch := launch) hf hset hy₀ hf₀ h₀ hgl hc hp hH hs'
    refine ⟨_, ?_, h2⟩
    cases c with
    | fcompute => cases hc
    | _ =>
      show (dense.call _ s.mem >>= _) = _
      rw [hcall, h1]
      rfl
  norm h V s hh hs' := by
    refine ⟨s, ?_, hs'⟩
    show (dense.maxabs h s.mem >>= _) = _
    rw [hnorm h V s.mem hh hs'.1]
    rfl

end

/-- **What the Barnes–Hut engines do**: from a new engine on, every evaluation succeeds and gives a derivative that is
close to that of softened gravity (C80), every other operation and the norm are exact, whatever the program does in
between. -/
theorem tree_approximates {n : ℕ} {M : ℕ → ℝ} {H : ℕ → Prop} {ratio : ℝ} (hn0 : 0 < n) (hn : n ≤ 2 ^ 63)
    (hpos : ∀ i < n, 0 < M i) (hr : 1 ≤ ratio) {y₀ f₀ : ℕ} (hy₀ : H y₀) (hf₀ : H f₀) (h₀ : y₀ ≠ f₀)
    {σ : Type} {E : EngineOps ℝ σ} {Start Holds : Buffers ℝ → σ → Prop}
    (hE : TreeEngine n M H ratio σ E Start Holds) :
    ∃ Rep : Buffers ℝ → σ → Prop, Approximates E n H (Computes n M ratio) (maxAbs (6 * n)) Rep ∧
      (∀ V s, Start V s → Rep V s) ∧ ∀ V s, Rep V s → Holds V s := by
  cases hE with
  | pointer hm hnth hl vloop rate steps hb hs =>
    refine ⟨_, host_approximates hl hb hs hn0 (Ok := fun tree => ∀ t, tree = some t → C80.Good n M t)
      (fun y f e t hyf hmf ht => ?_), fun V s h => ⟨h.1, fun t ht => by rw [h.2] at ht; cases ht⟩, fun V s h => h.1⟩
    obtain ⟨t', F, h1, h2, h3⟩ := C80.evaluation hnth hl vloop hyf hmf hn0 hn hpos hr rate e ht
    exact ⟨some t', F, h1, h2, fun t ht => Option.some.inj ht ▸ h3⟩
  | @heap hm k hnk hk nth hnth ord hord loop hl vloop rate steps fuel hf bot hb sched hs =>
    subst hnk
    refine ⟨_, host_approximates hl hb hs hn0 (Ok := fun L => ∃ tree, C60.Same k L tree ∧
      ∀ t, tree = some t → C80.Good (2 ^ k) M t) (fun y f e t hyf hmf ht => ?_),
      fun V s h => ⟨h.1, none, Or.inl ⟨h.2, rfl⟩, fun t ht => by cases ht⟩, fun V s h => h.1⟩
    obtain ⟨tree, ht1, ht2⟩ := ht
    obtain ⟨t', F, h1, h2, h3⟩ := C80.evaluation hnth hl vloop hyf hmf hn0 hn hpos hr rate e ht2
    obtain ⟨L, h4, h5⟩ := C60.evaluate_same (ix := heapIndex (1 / 2) nth ord 64 fuel) hk hnth hord loop vloop rate e.step
      hm y f ht1 (fun _ => rfl) (fun _ _ _ _ => rfl) (fun _ _ _ _ => rfl)
      (fun _ _ v1 mass1 hp hst hl => heapTraverse_eq hk hp hst hl hf v1 mass1) h1
    exact ⟨L, F, h4, h2, some t', h5, fun t ht => Option.some.inj ht ▸ h3⟩
  | @stackless hm k hnk hk nth hnth ord hord loop hl vloop rate steps fuel hf bot hb sched hs =>
    subst hnk
    refine ⟨_, host_approximates hl hb hs hn0 (Ok := fun L => ∃ tree, C60.Same k L tree ∧
      ∀ t, tree = some t → C80.Good (2 ^ k) M t) (fun y f e t hyf hmf ht => ?_),
      fun V s h => ⟨h.1, none, Or.inl ⟨h.2, rfl⟩, fun t ht => by cases ht⟩, fun V s h => h.1⟩
    obtain ⟨tree, ht1, ht2⟩ := ht
    obtain ⟨t', F, h1, h2, h3⟩ := C80.evaluation hnth hl vloop hyf hmf hn0 hn hpos hr rate e ht2
    obtain ⟨L, h4, h5⟩ := C60.evaluate_same (ix := heapStacklessIndex nextDownCtz (1 / 2) nth ord 64 fuel) (by omega) hnth
      hord loop vloop rate e.step hm y f ht1 (fun _ => rfl) (fun _ _ _ _ => rfl) (fun _ _ _ _ => rfl)
      (fun _ _ v1 mass1 hp hst hl => heapStacklessTraverse_eq hk hp hst hl hf v1 mass1) h1
    exact ⟨L, F, h4, h2, some t', h5, fun t ht => Option.some.inj ht ▸ h3⟩
  | @opencl e w hm hs k hnk hr' hh hd tex hset loop gloop hl hgl steps launch out hb ho hhb hoh junk h4 hf =>
    subst hnk
    subst hr'
    have hcount := (hset y₀ f₀ hy₀ hf₀ h₀).count
    refine ⟨_, gpu_approximates hh hd hpos hr hf hset hy₀ hf₀ h₀ hl hgl steps launch rfl fun h V m hx hr => ?_,
      fun V s h => ⟨h.1, h.2.1, none, by rw [h.2.2]; exact .fresh _⟩, fun V s h => h.1⟩
    obtain ⟨r, h1, h2⟩ := C73.opencl_is_max hf hgl hr hx (out := out) (hb := hb) (fun e => ho (e ▸ hx))
      (fun e => hhb (e ▸ hx)) hoh junk h4
    show e.g.fmaxabsOpenCL gloop out hb junk h m = _
    rw [h1, C74.maxAbs_eq (by omega) h2, hcount]
  | @cuda e w hm hs k hnk hr' hh hd tex hset loop gloop hl hgl steps launch order ho hf =>
    subst hnk
    subst hr'
    have hcount := (hset y₀ f₀ hy₀ hf₀ h₀).count
    refine ⟨_, gpu_approximates hh hd hpos hr hf hset hy₀ hf₀ h₀ hl hgl steps launch rfl fun h V m hx hr => ?_,
      fun V s h => ⟨h.1, h.2.1, none, by rw [h.2.2]; exact .fresh _⟩, fun V s h => h.1⟩
    obtain ⟨r, h1, h2⟩ := C73.cuda_is_max hf hr hx (ho m)
    show (e.g.fmaxabsCuda _ h m >>= fun r => pure (r, m)) = _
    rw [h1, res_ok_bind, C74.maxAbs_eq (by omega) h2, hcount]
    rfl

/-! ### Runs -/

/-- The steps as one program. -/
def stepsProg {φ : Type} (step : φ → ℝ → Act ℝ φ) : List ℝ → φ → Act ℝ φ
  | [], fl => Act.ret fl
  | dt :: dts, fl => step fl dt >>= stepsProg step dts

lemma stepsProg_run {φ σ : Type} (E : EngineOps ℝ σ) (step : φ → ℝ → Act ℝ φ) (dts : List ℝ) : ∀ (fl : φ) (s : σ),
    runSteps E step dts (fl, s) = (stepsProg step dts fl).run E s := by
  induction dts with
  | nil => intro fl s; rfl
  | cons dt dts ih =>
    intro fl s
    show ((step fl dt).run E s >>= fun x => runSteps E step dts x) = (step fl dt >>= stepsProg step dts).run E s
    rw [_root_.Spec.run_bind]
    congr 1
    funext x
    exact ih x.1 x.2

lemma stepsProg_allowed {φ : Type} {step : φ → ℝ → Act ℝ φ} {H : ℕ → Prop} (hs : ∀ fl dt, Allowed H (step fl dt))
    (dts : List ℝ) : ∀ fl, Allowed H (stepsProg step dts fl) := by
  induction dts with
  | nil => intro fl; exact Allowed.pure fl
  | cons dt dts ih => intro fl; exact Allowed.bind (hs fl dt) ih

lemma stepsProg_scheme {F : ℕ → (ℕ → ℝ) → ℕ → ℝ} {N : (ℕ → ℝ) → ℝ} {n : ℕ} {h : Slot → Handle}
    (hh : Function.Injective h) {H : ℕ → Prop} {φ σ : Type} {step : φ → ℝ → Act ℝ φ}
    {adv : ℝ → σ × Eng (ℕ → ℝ) ℝ → Res (σ × Eng (ℕ → ℝ) ℝ)} {R : φ → σ → Buffers ℝ → Prop}
    (hs : C74.Solver F N h H φ σ step adv R) (dts : List ℝ) : ∀ (fl : φ) (x : σ) (e : Eng (ℕ → ℝ) ℝ) (X : Spec.Tally ℝ),
    R fl x X.bufs → _root_.Spec.At h X e →
    ∃ x' e', runScheme adv dts (x, e) = .ok (x', e') ∧
      R (Spec.tally F N n (stepsProg step dts fl) X).1 x' (Spec.tally F N n (stepsProg step dts fl) X).2.bufs ∧
      _root_.Spec.At h (Spec.tally F N n (stepsProg step dts fl) X).2 e' := by
  induction dts with
  | nil => intro fl x e X hr he; exact ⟨x, e, rfl, hr, he⟩
  | cons dt dts ih =>
    intro fl x e X hr he
    obtain ⟨x1, e1, a1, a2, a3⟩ := C74.solver_step (n := n) hh hs fl dt x e X hr he
    obtain ⟨x', e', b1, b2, b3⟩ := ih _ x1 e1 _ a2 a3
    refine ⟨x', e', ?_, ?_⟩
    · unfold runScheme
      rw [List.foldlM_cons, a1]
      exact b1
    · have e2 : Spec.tally F N n (stepsProg step (dt :: dts) fl) X =
          Spec.tally F N n (stepsProg step dts (Spec.tally F N n (step fl dt) X).1) (Spec.tally F N n (step fl dt) X).2 :=
        Spec.tally_bind _ _ _
      rw [e2]
      exact ⟨b2, b3⟩

lemma newton_computes {n : ℕ} {M : ℕ → ℝ} {ratio : ℝ} (hpos : ∀ i < n, 0 < M i) (hr : 1 ≤ ratio) (Y : ℕ → ℝ) :
    Computes n M ratio Y (newtonDeriv n M Y) := by
  have hg : ∀ i < n, C80.gap (C80.acc n (newtonDeriv n M Y) i) (_root_.Spec.accel 1e-8 n (C02.pos n Y) M i) = 0 := by
    intro i hi
    have e : C80.acc n (newtonDeriv n M Y) i = _root_.Spec.accel 1e-8 n (C02.pos n Y) M i := by
      have h : ∀ k, C80.acc n (newtonDeriv n M Y) i k = _root_.Spec.accel 1e-8 n (C02.pos n Y) M i k := by
        intro k
        rw [← newtonDeriv_vel M Y hi k]
        fin_cases k <;> rfl
      exact funext h
    rw [e]
    simp [C80.gap, _root_.Spec.dist2]
  have hst : ∀ i, 0 ≤ C80.strength n (C02.pos n Y) M i := fun i => Finset.sum_nonneg fun j hj => by
    have h1 := hpos j (Finset.mem_range.1 (Finset.mem_of_mem_erase hj))
    have : 0 < max (_root_.Spec.dist2 (C02.pos n Y i) (C02.pos n Y j)) 1e-8 := lt_of_lt_of_le (by norm_num) (le_max_right _ _)
    positivity
  have hr0 : 0 < ratio := by linarith
  refine ⟨fun i hi => ?_, fun i hi => ?_, fun i hi _ => ?_⟩
  · unfold newtonDeriv
    rw [if_pos hi]
  · rw [hg i hi]
    have := hst i
    positivity
  · rw [hg i hi]
    have := hst i
    positivity

lemma computes_within {n : ℕ} {M : ℕ → ℝ} {ratio : ℝ} (hpos : ∀ i < n, 0 < M i) (hr : 1 ≤ ratio) {Y F : ℕ → ℝ}
    (h : Computes n M ratio Y F) :
    ‖firstN (6 * n) F - gravity n M (firstN (6 * n) Y)‖ ≤ 16 / ratio * ((∑ j ∈ range n, M j) * 1e8) := by
  have hQ : 0 ≤ (∑ j ∈ range n, M j) * 1e8 := by
    have : 0 ≤ ∑ j ∈ range n, M j := Finset.sum_nonneg fun j hj => (hpos j (Finset.mem_range.1 hj)).le
    positivity
  have hr0 : 0 < ratio := by linarith
  rw [← gravity_firstN, pi_norm_le_iff_of_nonneg (by positivity)]
  rintro ⟨j, hj⟩
  rw [Real.norm_eq_abs]
  show |F j - newtonDeriv n M Y j| ≤ _
  rcases coordinate hj with ⟨i, k, hi, rfl⟩ | ⟨i, k, hi, rfl⟩
  · have h3 : (k : ℕ) * n + i < 3 * n := by
      have : (k : ℕ) * n ≤ 2 * n := Nat.mul_le_mul_right n (by omega)
      omega
    rw [newtonDeriv_pos M _ hi, h.velocities _ h3, show 3 * n + ((k : ℕ) * n + i) = (3 + k) * n + i by ring, sub_self, abs_zero]
    positivity
  · rw [newtonDeriv_vel M _ hi]
    have e : F ((3 + (k : ℕ)) * n + i) = C80.acc n F i k := by fin_cases k <;> rfl
    rw [e]
    refine (C80.gap_coord _ _ k).trans ((h.first i hi).trans ?_)
    have := C80.strength_le (C02.pos n Y) hpos i
    gcongr

lemma basic_handles {h : Slot → Handle} {H : ℕ → Prop} {φ : Type} {step : φ → ℝ → Act ℝ φ}
    {fl₀ : φ} {η : ℝ} (hs : C78.BasicFresh h H φ step fl₀ η) : ∃ s, s ≠ .y ∧ H (h .y) ∧ H (h s) := by
  cases hs with
  | euler hH => exact ⟨.k 0, by simp, hH .y trivial, hH (.k 0) (show 0 < 1 by decide)⟩
  | midpoint hH => exact ⟨.t, by simp, hH .y trivial, hH .t rfl⟩
  | rk4 hH => exact ⟨.t, by simp, hH .y trivial, hH .t rfl⟩
  | trapeze refine hH => exact ⟨.t, by simp, hH .y trivial, hH .t rfl⟩
  | stetter hH => exact ⟨.t, by simp, hH .y trivial, hH .t trivial⟩
  | rk bt cf hg hH => exact ⟨.t, by simp, hH .y trivial, hH .t trivial⟩
  | bs cf hcf hlev hH => exact ⟨.diff, by simp, hH .y trivial, hH .diff trivial⟩

lemma fresh_handles {h : Slot → Handle} {H : ℕ → Prop} {φ : Type} {step : φ → ℝ → Act ℝ φ}
    {fl₀ : φ} {Z : Buffers ℝ → Prop} {η : ℝ} (hs : Fresh h H φ step fl₀ Z η) : ∃ s, s ≠ .y ∧ H (h .y) ∧ H (h s) := by
  cases hs with
  | basic hb => exact basic_handles hb
  | adams rank al hal correction hH hst ha hS =>
    obtain ⟨e, hne⟩ := C74.adams_length hal
    exact ⟨.k 0, by simp, hH .y trivial, hH (.k 0) (show 0 < rank by rw [← e]; exact List.length_pos_of_ne_nil hne)⟩

/-- **Every solver runs on every Barnes–Hut engine**: whatever the sizes of the steps, it runs to the end, and the
state of the bodies is what the scheme gives for some derivatives, each of them close to that of softened gravity in the
sense of C80. -/
theorem every_solver_on_every_tree {n : ℕ} {M : ℕ → ℝ} {H : ℕ → Prop} {ratio : ℝ} (hn0 : 0 < n) (hn : n ≤ 2 ^ 63)
    (hpos : ∀ i < n, 0 < M i) (hr : 1 ≤ ratio) {σE : Type} {E : EngineOps ℝ σE} {Start Holds : Buffers ℝ → σE → Prop}
    (hE : TreeEngine n M H ratio σE E Start Holds) {h : Slot → Handle} (hh : Function.Injective h) (hy : H (h .y)) {s₁ : Slot}
    (hs₁ : s₁ ≠ .y) (hf : H (h s₁)) {φ σ : Type} {step : φ → ℝ → Act ℝ φ}
    {adv : (ℕ → (ℕ → ℝ) → ℕ → ℝ) → ℝ → σ × Eng (ℕ → ℝ) ℝ → Res (σ × Eng (ℕ → ℝ) ℝ)} {R : φ → σ → Buffers ℝ → Prop}
    (hs : ∀ F, C74.Solver F (maxAbs (6 * n)) h H φ σ step (adv F) R) (dts : List ℝ) (fl : φ) (x : σ) (V : Buffers ℝ)
    (m : σE) (hx : R fl x V) (hm : Start V m) :
    ∃ F fl' x' e' V' m', (∀ k Y, Computes n M ratio Y (F k Y)) ∧ runSteps E step dts (fl, m) = .ok (fl', m') ∧
      runScheme (adv F) dts (x, ⟨V (h .y), 0, 0, 0⟩) = .ok (x', e') ∧ Holds V' m' ∧ R fl' x' V' ∧ V' (h .y) = e'.y := by
  obtain ⟨Rep, hA, h1, h2⟩ := tree_approximates hn0 hn hpos hr hy hf (fun e => hs₁ (hh e).symm) hE
  obtain ⟨F, m', a1, a2, a3⟩ := _root_.Spec.run_tally hA (dflt := newtonDeriv n M) (newton_computes hpos hr)
    (stepsProg_allowed (fun fl dt => C74.solver_allowed hh (hs fun _ _ => 0) fl dt) dts fl) 0 (h1 V m hm)
  obtain ⟨x', e', b1, b2, b3⟩ := stepsProg_scheme (n := n) hh (hs F) dts fl x ⟨V (h .y), 0, 0, 0⟩ ⟨0, V⟩ hx ⟨rfl, rfl⟩
  exact ⟨F, _, x', e', _, m', a1, by rw [stepsProg_run]; exact a2, b1, h2 _ _ a3, b2, b3.y⟩

/-- **Convergence.**  For a motion of the bodies there are `C` and `δ₀`, the same for all Barnes–Hut engines, ratios,
build rates and step numbers, such that steps none of which exceeds `δ ≤ δ₀`, made by the solver on the engine from a
state within `ε` of the beginning of the motion, run to the end and leave the bodies within
`C (ε + δ + η + 1 / ratio)` of where the motion has them at that time. -/
theorem every_solver_converges {n : ℕ} {M : ℕ → ℝ} {H : ℕ → Prop} (hn0 : 0 < n) (hn : n ≤ 2 ^ 63)
    (hpos : ∀ i < n, 0 < M i) {h : Slot → Handle} (hh : Function.Injective h) {φ : Type} {step : φ → ℝ → Act ℝ φ} {fl₀ : φ}
    {Z : Buffers ℝ → Prop} {η : ℝ} (hs : Fresh h H φ step fl₀ Z η) (hη : 0 ≤ η) {T : ℝ} (hT : 0 ≤ T)
    {q v : ℝ → ℕ → Fin 3 → ℝ} (hq : Motion 1e-8 n M T q v) :
    ∃ C δ₀ : ℝ, 0 ≤ C ∧ 0 < δ₀ ∧
      ∀ (ratio : ℝ), 1 ≤ ratio → ∀ (σ : Type) (E : EngineOps ℝ σ) (Start Holds : Buffers ℝ → σ → Prop),
      TreeEngine n M H ratio σ E Start Holds →
      ∀ (dts : List ℝ) (δ ε : ℝ), 0 ≤ δ → δ ≤ δ₀ → (∀ d ∈ dts, 0 < d ∧ d ≤ δ) → dts.sum ≤ T →
      ∀ (V : Buffers ℝ) (m : σ), Z V → Start V m → Near n (V (h .y)) (q 0) (v 0) ε →
      ∃ fl V' m', runSteps E step dts (fl₀, m) = .ok (fl, m') ∧ Holds V' m' ∧
        Near n (V' (h .y)) (q dts.sum) (v dts.sum) (C * (ε + δ + η + 1 / ratio)) := by
  obtain ⟨s₁, hs₁, hy, hf⟩ := fresh_handles hs
  obtain ⟨σS, adv, R, I, hsol, hI, hconv⟩ := C78.fresh_converges (n := n) (M := M) hs
  obtain ⟨C, δ₀, hC, hδ₀, key⟩ := hconv T _ hT (motion_solves hq)
  set Q := 16 * ((∑ j ∈ range n, M j) * 1e8) with hQ
  have hQ0 : 0 ≤ Q := by
    have : 0 ≤ ∑ j ∈ range n, M j := Finset.sum_nonneg fun j hj => (hpos j (Finset.mem_range.1 hj)).le
    positivity
  refine ⟨C * (1 + Q), δ₀, by positivity, hδ₀, fun ratio hr σ E Start Holds hE dts δ ε hδ hδ' hd hS V m hZ hm hnear => ?_⟩
  obtain ⟨x, hx, hIx⟩ := hI V hZ
  have hr0 : 0 < ratio := by linarith
  obtain ⟨F, fl, x', e', V', m', h1, h2, h3, h4, -, h6⟩ := every_solver_on_every_tree hn0 hn hpos hr hE hh hy hs₁ hf
    (adv := fun F => adv (Spec.still F)) hsol dts fl₀ x V m hx hm
  refine ⟨fl, V', m', h2, h4, ?_⟩
  rw [C78.near_iff hn0] at hnear ⊢
  have e1 : 16 / ratio * ((∑ j ∈ range n, M j) * 1e8) = Q * (1 / ratio) := by rw [hQ]; ring
  have := key (Spec.still F) (16 / ratio * ((∑ j ∈ range n, M j) * 1e8)) (by rw [e1]; positivity)
    (fun k t Y => computes_within hpos hr (h1 k Y)) dts δ hδ hδ' hd hS x _ _ hIx h3
  rw [h6]
  refine this.trans ?_
  show C * (‖firstN (6 * n) (V (h .y)) - stateOf n q v 0‖ + δ + η + 16 / ratio * ((∑ j ∈ range n, M j) * 1e8)) ≤ _
  have h0 := norm_nonneg (firstN (6 * n) (V (h .y)) - stateOf n q v 0)
  have h7 : 0 < 1 / ratio := by positivity
  rw [e1, mul_assoc C (1 + Q)]
  refine mul_le_mul_of_nonneg_left ?_ hC
  have h8 : 0 ≤ Q * (ε + δ + η) := by
    have : 0 ≤ ε := h0.trans hnear
    positivity
  nlinarith

/-- **Enough equal steps and a large enough ratio** take the bodies as near as you like to where they are after the time
`T`, on every Barnes–Hut engine, however seldom the tree is built anew. -/
theorem enough_steps {n : ℕ} {M : ℕ → ℝ} {H : ℕ → Prop} (hn0 : 0 < n) (hn : n ≤ 2 ^ 63)
    (hpos : ∀ i < n, 0 < M i) {h : Slot → Handle} (hh : Function.Injective h) {φ : Type} {step : φ → ℝ → Act ℝ φ} {fl₀ : φ}
    {Z : Buffers ℝ → Prop} (hs : Fresh h H φ step fl₀ Z 0) {T : ℝ} (hT : 0 < T)
    {q v : ℝ → ℕ → Fin 3 → ℝ} (hq : Motion 1e-8 n M T q v) {r : ℝ} (hr : 0 < r) :
    ∃ (N₀ : ℕ) (ρ : ℝ), ∀ N, N₀ ≤ N → ∀ ratio, ρ ≤ ratio → ∀ (σ : Type) (E : EngineOps ℝ σ)
      (Start Holds : Buffers ℝ → σ → Prop), TreeEngine n M H ratio σ E Start Holds →
      ∀ (V : Buffers ℝ) (m : σ), Z V → Start V m → Near n (V (h .y)) (q 0) (v 0) 0 →
      ∃ fl V' m', runSteps E step (List.replicate N (T / N)) (fl₀, m) = .ok (fl, m') ∧ Holds V' m' ∧
        Near n (V' (h .y)) (q T) (v T) r := by
  obtain ⟨C, δ₀, hC, hδ₀, key⟩ := every_solver_converges hn0 hn hpos hh hs le_rfl hT.le hq
  obtain ⟨N₁, hN₁⟩ := exists_nat_gt (T / δ₀)
  obtain ⟨N₂, hN₂⟩ := exists_nat_gt (2 * (C * T) / r)
  refine ⟨max 1 (max N₁ N₂), max 1 (2 * C / r), fun N hN ratio hρ σ E Start Holds hE V m hZ hm hnear => ?_⟩
  have hN1 : 1 ≤ N := (le_max_left _ _).trans hN
  have hN0 : (0 : ℝ) < N := by exact_mod_cast hN1
  have hr1 : 1 ≤ ratio := (le_max_left _ _).trans hρ
  have hr0 : 0 < ratio := by linarith
  have hb1 : T / N ≤ δ₀ := by
    rw [div_le_iff₀ hN0, mul_comm, ← div_le_iff₀ hδ₀]
    exact hN₁.le.trans (by exact_mod_cast (le_max_left N₁ N₂).trans ((le_max_right _ _).trans hN))
  have hb2 : 2 * (C * (T / N)) ≤ r := by
    rw [← mul_div_assoc, ← mul_div_assoc, div_le_iff₀ hN0, mul_comm r, ← div_le_iff₀ hr]
    exact hN₂.le.trans (by exact_mod_cast (le_max_right N₁ N₂).trans ((le_max_right _ _).trans hN))
  have hb3 : 2 * (C * (1 / ratio)) ≤ r := by
    have := (le_max_right _ _).trans hρ
    rw [div_le_iff₀ hr] at this
    rw [mul_one_div, ← mul_div_assoc, div_le_iff₀ hr0]
    linarith
  have hsum : (List.replicate N (T / N)).sum = T := by
    rw [List.sum_replicate, nsmul_eq_mul]
    field_simp
  obtain ⟨fl, V', m', h1, h2, h3⟩ := key ratio hr1 σ E Start Holds hE (List.replicate N (T / N)) (T / N) 0 (by positivity) hb1
    (fun d hd => by rw [List.eq_of_mem_replicate hd]; exact ⟨by positivity, le_rfl⟩) hsum.le V m hZ hm hnear
  rw [hsum] at h3
  have hb4 : C * (0 + T / N + 0 + 1 / ratio) ≤ r := by linarith
  exact ⟨fl, V', m', h1, h2, fun i hi k => ⟨(h3 i hi k).1.trans hb4, (h3 i hi k).2.trans hb4⟩⟩

/-! ### Cases -/

/-- A year of the two bodies of C78 on the host, the tree built at every fourth step number, whatever the numbers are:
all three layouts. -/
example (steps : ℕ → ℕ) (sched : Mem ℝ → Red) (hs : ∀ m, (sched m).Valid (6 * 2)) :
    ∃ (N₀ : ℕ) (ρ : ℝ), ∀ N, N₀ ≤ N → ∀ ratio, ρ ≤ ratio → ∀ V : Buffers ℝ, V 0 = (fun _ => 4) →
      Near 2 (V 1) (C78.orbitPos 0) (C78.orbitVel 0) 0 →
      (∃ fl V' m', runSteps (hostTreeOps (treeIndex (1 / 2) C25.sortIds 64) (orderedFor fun n => (List.range n).reverse) seqFor
          .cycle ratio 4 steps 2 0 (-1) sched) (fun (_ : Unit) dt => rk4Calls C74.layout dt)
          (List.replicate N (2 * Real.pi / N)) ((), ⟨fun h => some (buf (if h = 0 then 2 else 12) (V h)), none, 0⟩) = .ok (fl, m') ∧
        HostHolds 2 0 (fun h => h ≠ 0) (fun _ => 4) V' m'.mem ∧
        Near 2 (V' 1) (C78.orbitPos (2 * Real.pi)) (C78.orbitVel (2 * Real.pi)) (1 / 1000)) ∧
      ∃ fl V' m', runSteps (hostTreeOps (heapStacklessIndex nextDownCtz (1 / 2) C25.sortIds List.reverse 64 3)
          (orderedFor fun n => (List.range n).reverse) seqFor .cycle ratio 4 steps 2 0 (-1) sched)
          (fun (_ : Unit) dt => rk4Calls C74.layout dt)
          (List.replicate N (2 * Real.pi / N)) ((), ⟨fun h => some (buf (if h = 0 then 2 else 12) (V h)), [], 0⟩) = .ok (fl, m') ∧
        HostHolds 2 0 (fun h => h ≠ 0) (fun _ => 4) V' m'.mem ∧
        Near 2 (V' 1) (C78.orbitPos (2 * Real.pi)) (C78.orbitVel (2 * Real.pi)) (1 / 1000) := by
  have hpar : IsParLoop (orderedFor (S := ℝ) fun n => (List.range n).reverse) :=
    orderedFor_isParLoop fun _ => List.reverse_perm _
  obtain ⟨N₀, ρ, key⟩ := enough_steps (n := 2) (M := fun _ => 4) (H := fun h => h ≠ 0) (by decide) (by norm_num)
    (fun _ _ => by norm_num) C74.layout_injective (.basic (.rk4 fun s hs => by
      have := C74.layout_basic 4 (by decide) true s hs
      omega)) (T := 2 * Real.pi) (by positivity) (C78.orbit (2 * Real.pi)) (r := 1 / 1000) (by norm_num)
  refine ⟨N₀, ρ, fun N hN ratio hr V h0 hnear => ?_⟩
  have hst : HostHolds 2 0 (fun h => h ≠ 0) (fun _ => 4) V fun h => some (buf (if h = 0 then 2 else 12) (V h)) :=
    ⟨fun h hh => congrArg (fun k => some (buf k (V h))) (if_neg hh), by simp [h0], fun h hh => hh⟩
  exact ⟨key N hN ratio hr _ _ _ _ (.pointer 0 C25.sortIds_reorders hpar seqFor 4 steps (by norm_num) hs) V _ trivial
      ⟨hst, rfl⟩ hnear,
    key N hN ratio hr _ _ _ _ (.stackless 0 (k := 1) rfl (by decide) C25.sortIds_reorders (fun l => List.reverse_perm l)
      hpar seqFor 4 steps (by decide) (by norm_num) hs) V _ trivial ⟨hst, rfl⟩ hnear⟩

/-- The two OpenCL devices of C72 with any ratio. -/
noncomputable def twoDevices (cycle stackless : Bool) (ratio : ℝ) : GpuBH ℝ :=
  { C72.twoDevices cycle stackless with ratio := ratio }

lemma plain_free (x : Handle) (hx : x < 20) : ¬ (DevTree.plain C56.columns).Owns x := by
  rintro ⟨F, hF⟩
  have : (20 : ℕ) ≤ (DevTree.plain C56.columns F).h := by cases F <;> decide
  exact absurd (Nat.lt_of_lt_of_le hx (le_refl 20)) (Nat.not_lt.2 (hF ▸ this))

lemma twoDevices_setup (cycle stackless : Bool) (ratio : ℝ) (y f : ℕ) (hy : 1 ≤ y ∧ y < 10) (hf : 1 ≤ f ∧ f < 10)
    (hyf : y ≠ f) : BHSetup (twoDevices cycle stackless ratio) false 1 1 100 0 y f where
  fits := (C72.twoDevices_given cycle stackless).setup.fits
  count := rfl
  walks := C72.next_down_ok _ (by norm_num) (show 3 ≤ 3 by decide) (Or.inr (Or.inr (Or.inl rfl)))
  layout := ⟨C56.columns, C56.columns_inj, rfl⟩
  depth := show 1 < 64 by decide
  nth := C25.sortIds_reorders
  low := ⟨by omega, by omega, by norm_num, C72.plain_low⟩
  apart := ⟨hyf, by omega, by omega⟩
  tree := ⟨plain_free y (Nat.lt_trans hy.2 (by decide)), plain_free f (Nat.lt_trans hf.2 (by decide)), plain_free 0 (by decide)⟩
  size := rfl
  high := ⟨show 100 ≤ 100 by decide, show 100 ≤ 101 by decide, show 100 ≤ 102 by decide, show 101 ≠ 102 by decide⟩

lemma twoDevices_start (cycle stackless : Bool) (ratio : ℝ) (V : Buffers ℝ) :
    (twoDevices cycle stackless ratio).g.Holds 1 0 100 (fun h => 1 ≤ h ∧ h < 10) (V 0) V (C69.sample 2 V) ∧
      TreeRoom (twoDevices cycle stackless ratio) 1 100 (C69.sample 2 V) := by
  have hsome : ∀ x j, x / 2 ≠ 500 → j < 1000 → ((C69.sample 2 V).cell x j).isSome := fun x j hx hj => by
    rw [C69.sample_cell V hx hj]; rfl
  have hrep : ∀ h N, h ≠ 500 → N ≤ 1000 → Replicated 2 h N (C69.sample 2 V) := fun h N hh hN d j hd hj =>
    hsome _ _ (by rw [rep_div hd]; exact hh) (by omega)
  refine ⟨⟨fun h d i hh hd hi => ?_, fun h hh => hrep h _ (Nat.ne_of_lt (Nat.lt_trans hh.2 (by decide))) (show Gpu.allocSize 12 ≤ 1000 by decide), fun d j hd hj => ?_,
    fun g k l hg hk hl => ?_, fun b hb => (by cases hb), ⟨by decide, fun h hh => ⟨by omega, by omega, rfl⟩⟩⟩,
    ⟨fun d F i hd hi => ?_, fun b hb => (by cases hb), fun _ _ => hrep 100 12 (by decide) (by decide), fun j hj => ?_, fun j hj => ?_⟩⟩
  · have hd' : d < 2 := hd
    rw [show (twoDevices cycle stackless ratio).g.D = 2 from rfl, C69.sample_cell V (by rw [rep_div hd']; omega) (by omega), rep_div hd']
  · have hd' : d < 2 := hd
    have hj' : j < 2 := hj
    rw [show (twoDevices cycle stackless ratio).g.D = 2 from rfl, C69.sample_cell V (by rw [rep_div hd']; omega) (by omega), rep_div hd']
  · have hg' : g < 2 * (1 / 1) := hg
    have hl' : l < 1 := hl
    refine hsome _ _ ?_ (by omega)
    show localMem 2 100 g k / 2 ≠ 500
    unfold localMem
    rw [rep_div (by decide)]
    rintro (e : 100 + 4 * g + k = 500)
    omega
  · have hd' : d < 2 := hd
    refine hsome (rep 2 (C56.columns F) d) (1 * i + 0) ?_ (by norm_num at hi; omega)
    rw [rep_div hd']
    cases F <;> decide
  · exact hrep 101 12 (by decide) (by decide) 0 j (by decide) (by norm_num at hj; omega)
  · exact hrep 102 12 (by decide) (by decide) 0 j (by decide) (by norm_num at hj; omega)

/-- The same year on two OpenCL devices, with all four walks. -/
example (cycle stackless : Bool) (steps : ℕ → ℕ) (launch : Launch ℝ (DenseReg ℝ)) (loop : Loop ℝ) (hl : IsParLoop loop) :
    ∃ (N₀ : ℕ) (ρ : ℝ), ∀ N, N₀ ≤ N → ∀ ratio, ρ ≤ ratio → ∀ V : Buffers ℝ, V 0 = (fun _ => 4) →
      Near 2 (V 1) (C78.orbitPos 0) (C78.orbitVel 0) 0 →
      ∃ fl V' m', runSteps (gpuTreeOps (twoDevices cycle stackless ratio) loop false steps 0
          (openclOps (twoDevices cycle stackless ratio).g launch loop 0 100 40 41 7)) (fun (_ : Unit) dt => rk4Calls C74.layout dt)
          (List.replicate N (2 * Real.pi / N)) ((), ⟨C69.sample 2 V, ⟨[], none⟩, 0⟩) = .ok (fl, m') ∧
        (twoDevices cycle stackless ratio).g.Holds 1 0 100 (fun h => 1 ≤ h ∧ h < 10) (fun _ => 4) V' m'.mem ∧
        Near 2 (V' 1) (C78.orbitPos (2 * Real.pi)) (C78.orbitVel (2 * Real.pi)) (1 / 1000) := by
  obtain ⟨N₀, ρ, key⟩ := enough_steps (n := 2) (M := fun _ => 4) (H := fun h => 1 ≤ h ∧ h < 10) (by decide) (by norm_num)
    (fun _ _ => by norm_num) C74.layout_injective (.basic (.rk4 fun s hs => C74.layout_basic 4 (by decide) true s hs))
    (T := 2 * Real.pi) (by positivity) (C78.orbit (2 * Real.pi)) (r := 1 / 1000) (by norm_num)
  refine ⟨N₀, ρ, fun N hN ratio hr V h0 hnear => ?_⟩
  obtain ⟨a, b⟩ := twoDevices_start cycle stackless ratio V
  rw [h0] at a
  exact key N hN ratio hr _ _ _ _ (.opencl (twoDevices cycle stackless ratio) 1 0 100 (k := 1) rfl rfl rfl rfl
    (twoDevices_setup cycle stackless ratio) hl hl steps launch 40 41 (by omega) (by omega) (by decide) 7
    (show 4 ∣ 6 * 2 / 1 by decide) (C72.twoDevices_given cycle stackless).setup.fits) V _ trivial ⟨a, b, rfl⟩ hnear

end NB.C81
