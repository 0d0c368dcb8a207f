import Verif.Lemmas.GpuBHEngine
import Verif.Props.C34_Schedule
import Verif.Props.C56_GpuRefresh
import Verif.Props.C32_NextDown

/-
C72  The Barnes–Hut engines on GPUs compute what the engine on the host computes: over whole histories of calls,
for every number of devices, layout of the tree, traversal and interleaving.
-/

namespace NB.C72
open NB NB.Spec

section
variable {S : Type} [Add S] [Sub S] [Mul S] [Neg S] [Div S] [Zero S] [One S] [FOps S]

/-- What a call is given: the engine is set up, the buffers exist, device `d` has its slice of the state `Y`, all
devices have the masses. -/
structure Given (e : GpuBH S) (tex : Bool) (w k hs hm y f : ℕ) (Y M : ℕ → S) (m : Mem S) : Prop where
  setup : BHSetup e tex w k hs hm y f
  room : BHRoom e k hs y f m
  state : ∀ d i, d < e.g.D → i < 6 * w → m.cell (rep e.g.D y d) (d * (6 * w) + i) = some (Y (d * (6 * w) + i))
  masses : ∀ d j, d < e.g.D → j < 2 ^ k → m.cell (rep e.g.D hm d) j = some (M j)

/-- What the rest of the program may do between two calls: anything but to touch the buffers of the tree. -/
def Untouched (e : GpuBH S) (m m' : Mem S) : Prop := ∀ x j, e.tree.Owns (x / e.g.D) → m'.cell x j = m.cell x j

/-- An engine, and the tree the host would have after the same calls. -/
inductive Reached (e : GpuBH S) (tex : Bool) (w k hs hm : ℕ) (M : ℕ → S) : Option (STree S) → BHState S → Mem S → Prop
  | fresh (m : Mem S) : Reached e tex w k hs hm M none ⟨[], none⟩ m
  | other {tree st m m'} : Reached e tex w k hs hm M tree st m → Untouched e m m' → Reached e tex w k hs hm M tree st m'
  | call {tree st m y f Y step st' m' t} {loop : Loop S} : Reached e tex w k hs hm M tree st m →
      Given e tex w k hs hm y f Y M m → IsParLoop loop → e.fcompute loop tex step hm y f st m = .ok (st', m') →
      treeAfter e (2 ^ k) step (bodiesOf (2 ^ k) Y M) tree = .ok t → Reached e tex w k hs hm M (some t) st' m'

omit [Neg S] in
lemma reached_rel {e : GpuBH S} {tex : Bool} {w k hs hm : ℕ} {M : ℕ → S} (hrad : RadiusLaws S e.half)
    (hlaws : e.cycle = false → SumLaws S) {tree : Option (STree S)} {st : BHState S} {m : Mem S}
    (h : Reached e tex w k hs hm M tree st m) : st.Rel e k tree m := by
  induction h with
  | fresh m => exact Or.inl ⟨rfl, rfl⟩
  | other _ hu ih =>
    rcases ih with h | ⟨t, t0, h1, h2, h3, h4, h5, h6, h7, h8, h9, h10, h11⟩
    · exact Or.inl h
    · refine Or.inr ⟨t, t0, h1, h2, h3, h4, h5, h6, h7, h8, h9, h10, fun d i c hd hi hc => ?_⟩
      have hT : ∀ F, e.tree.cell e.g.D _ d F i = e.tree.cell e.g.D _ d F i := fun F =>
        hu _ _ (by rw [rep_div hd]; exact ⟨F, rfl⟩)
      rw [hT, hT]
      exact h11 d i c hd hi hc
  | call _ hg hl hrun ht ih =>
    obtain ⟨st1, t1, m1, a1, _, a3, a4, _⟩ := bhGpu_run hg.setup hrad hlaws hl _ hg.room ih hg.state hg.masses
    obtain ⟨rfl, rfl⟩ := Prod.mk.inj (Except.ok.inj (a1.symm.trans hrun))
    obtain rfl := Except.ok.inj (a3.symm.trans ht)
    exact a4

omit [Neg S] in
/-- **Every call of every history succeeds**, for every scalar type with the identities used: the devices walk the
tree the host would have after the same calls — built when due, else refreshed — and *every* device ends with the
*whole* derivative: the velocities, and for each body the sum over the nodes its walk accepts.  State, masses and all
other buffers are left as they were. -/
theorem every_call {e : GpuBH S} {tex : Bool} {w k hs hm y f : ℕ} {Y M : ℕ → S} (hrad : RadiusLaws S e.half)
    (hlaws : e.cycle = false → SumLaws S) {loop : Loop S} (hl : IsParLoop loop) {tree : Option (STree S)}
    {st : BHState S} {m : Mem S} (hreach : Reached e tex w k hs hm M tree st m)
    (hg : Given e tex w k hs hm y f Y M m) (step : ℕ) :
    ∃ st' t m', e.fcompute loop tex step hm y f st m = .ok (st', m') ∧
      treeAfter e (2 ^ k) step (bodiesOf (2 ^ k) Y M) tree = .ok t ∧ Reached e tex w k hs hm M (some t) st' m' ∧
      (∀ d j, d < e.g.D → j < 6 * 2 ^ k → m'.cell (rep e.g.D f d) j =
        some (gpuDeriv (2 ^ k) Y (fun b => gpuAccel e.stackless t (posOf (2 ^ k) Y b)) j)) ∧
      (∀ d j, d < e.g.D → j < 6 * 2 ^ k → m'.cell (rep e.g.D y d) j = some (Y j)) ∧ m'.shape = m.shape ∧
      ∀ x j, x / e.g.D < hs → x / e.g.D ≠ y → x / e.g.D ≠ f → ¬ e.tree.Owns (x / e.g.D) →
        m'.cell x j = m.cell x j := by
  obtain ⟨st', t, m', a1, a2, a3, _, a5, a6, a7⟩ := bhGpu_run hg.setup hrad hlaws hl step hg.room
    (reached_rel hrad hlaws hreach) hg.state hg.masses
  exact ⟨st', t, m', a1, a3, .call hreach hg hl a1 a3, a5, a6, a2, a7⟩

/-- What two engines must have in common: the parameters of the tree and the order of the walk.  Devices, exchange,
layout and traversal may differ. -/
def Alike (e e' : GpuBH S) : Prop :=
  e.half = e'.half ∧ e.ratio = e'.ratio ∧ e.nth = e'.nth ∧ e.depth = e'.depth ∧ e.rate = e'.rate ∧ e.stackless = e'.stackless

omit [Neg S] in
/-- **Devices, exchange, layout and traversal do not matter**: two engines that have seen the same calls compute the
same derivative, element by element the same numbers — on one device or many, in one context or several, with textures
or without, one work item per body or per leaf, however the work items interleave. -/
theorem devices_do_not_matter {e e' : GpuBH S} (ha : Alike e e') {tex tex' : Bool} {w w' k hs hs' hm hm' y f y' f' : ℕ}
    {Y M : ℕ → S} (hrad : RadiusLaws S e.half) (hlaws : SumLaws S) {loop loop' : Loop S}
    (hl : IsParLoop loop) (hl' : IsParLoop loop') {tree : Option (STree S)} {st st' : BHState S} {m m' : Mem S}
    (hreach : Reached e tex w k hs hm M tree st m) (hreach' : Reached e' tex' w' k hs' hm' M tree st' m')
    (hg : Given e tex w k hs hm y f Y M m) (hg' : Given e' tex' w' k hs' hm' y' f' Y M m') (step : ℕ) :
    ∃ r r' tree2, e.fcompute loop tex step hm y f st m = .ok r ∧ e'.fcompute loop' tex' step hm' y' f' st' m' = .ok r' ∧
      Reached e tex w k hs hm M tree2 r.1 r.2 ∧ Reached e' tex' w' k hs' hm' M tree2 r'.1 r'.2 ∧
      ∀ d d' j, d < e.g.D → d' < e'.g.D → j < 6 * 2 ^ k →
        r.2.cell (rep e.g.D f d) j = r'.2.cell (rep e'.g.D f' d') j ∧ (r.2.cell (rep e.g.D f d) j).isSome := by
  obtain ⟨h1, h2, h3, h4, h5, h6⟩ := ha
  obtain ⟨s1, t1, m1, a1, a2, a3, a4, _⟩ := every_call hrad (fun _ => hlaws) hl hreach hg step
  obtain ⟨s2, t2, m2, b1, b2, b3, b4, _⟩ := every_call (h1 ▸ hrad) (fun _ => hlaws) hl' hreach' hg' step
  have ht : t1 = t2 := by
    have : treeAfter e (2 ^ k) step (bodiesOf (2 ^ k) Y M) tree = treeAfter e' (2 ^ k) step (bodiesOf (2 ^ k) Y M) tree := by
      cases tree <;> simp only [treeAfter, h1, h2, h3, h4, h5]
    rw [this, b2] at a2
    exact (Except.ok.inj a2).symm
  subst ht
  refine ⟨(s1, m1), (s2, m2), some t1, a1, b1, a3, b3, fun d d' j hd hd' hj => ?_⟩
  rw [a4 d j hd hj, b4 d' j hd' hj, h6]
  exact ⟨rfl, rfl⟩

omit [Neg S] in
/-- **The number of bodies must be a power of two**: otherwise the first call has no good outcome — the heap is
written out of bounds on the host, whatever the bodies, the devices and the kernels. -/
theorem power_of_two_needed {e : GpuBH S} (loop : Loop S) (tex : Bool) (step : ℕ) {hm y f : Handle} {m : Mem S}
    (hD : e.g.D ≠ 0) (hy : e.g.has m y = true) (hf : e.g.has m f = true) (hn : Reorders e.nth) (h0 : 0 < e.g.n)
    {k : ℕ} (hk : e.g.n ≤ 2 ^ k) (hd : k < e.depth) (h2 : ∀ i, e.g.n ≠ 2 ^ i) (r : BHState S × Mem S) :
    e.fcompute loop tex step hm y f ⟨[], none⟩ m ≠ .ok r := by
  have hbad : ∀ m r, e.rebuildTree loop tex hm y ⟨[], none⟩ m ≠ .ok r := by
    intro m r h
    unfold GpuBH.rebuildTree at h
    cases h1 : mdReadBuffer loop e.g.D e.hostY y (6 * e.g.n) m with
    | error _ => rw [h1] at h; cases h
    | ok m1 =>
      rw [h1] at h
      change (mdReadBuffer loop e.g.D e.hostM hm e.g.n m1 >>= _) = _ at h
      cases h3 : mdReadBuffer loop e.g.D e.hostM hm e.g.n m1 with
      | error _ => rw [h3] at h; cases h
      | ok m2 =>
        rw [h3] at h
        change (match m2 (rep e.g.D e.hostY 0), m2 (rep e.g.D e.hostM 0) with
          | some ly, some lm => _
          | _, _ => _) = _ at h
        split at h
        · rw [C27.out_of_bounds _ _ _ hn _ h0 hk hd h2] at h
          cases h
        · cases h
  intro h
  unfold GpuBH.fcompute at h
  rw [if_neg hD, hy, hf] at h
  change (syncY loop e.g.host e.g.D y (6 * e.g.n) m >>= _) = _ at h
  cases h1 : syncY loop e.g.host e.g.D y (6 * e.g.n) m with
  | error _ => rw [h1] at h; cases h
  | ok m1 =>
    rw [h1] at h
    change (e.rebuildTree loop tex hm y ⟨[], none⟩ m1 >>= _) = _ at h
    cases h3 : e.rebuildTree loop tex hm y ⟨[], none⟩ m1 with
    | error _ => rw [h3] at h; cases h
    | ok r => exact hbad _ _ h3

end

/-! ### Exact arithmetic -/

/-- The acceleration at `p` by a mass at `q`. -/
noncomputable def pull (p q : Vec3 ℝ) (mass : ℝ) (c : Fin 3) : ℝ :=
  (denseTerm p q mass 0).coord c

lemma denseTerm_add (p q loc : Vec3 ℝ) (mass : ℝ) (c : Fin 3) :
    (denseTerm p q mass loc).coord c = loc.coord c + pull p q mass c := by
  unfold pull denseTerm
  fin_cases c
  · change loc.x - _ = loc.x + ((0 : ℝ) - _); ring
  · change loc.y - _ = loc.y + ((0 : ℝ) - _); ring
  · change loc.z - _ = loc.z + ((0 : ℝ) - _); ring

lemma force_pull (p q : Vec3 ℝ) (m1 m2 : ℝ) (c : Fin 3) : (force p q m1 m2).coord c = m1 * pull p q m2 c := by
  unfold pull denseTerm force
  have hr : (p - q).norm = (p.x - q.x) * (p.x - q.x) + (p.y - q.y) * (p.y - q.y) + (p.z - q.z) * (p.z - q.z) := rfl
  simp only [hr]
  fin_cases c
  · change (p.x - q.x) * _ = m1 * ((0 : ℝ) - (p.x - q.x) * _); ring
  · change (p.y - q.y) * _ = m1 * ((0 : ℝ) - (p.y - q.y) * _); ring
  · change (p.z - q.z) * _ = m1 * ((0 : ℝ) - (p.z - q.z) * _); ring

lemma fold_nodes (p : Vec3 ℝ) (l : List (STree ℝ)) (a : Vec3 ℝ) (c : Fin 3) :
    (l.foldl (addNode p) a).coord c = a.coord c + (l.map fun t => pull p t.data.mc t.data.mass c).sum := by
  induction l generalizing a with
  | nil => simp
  | cons t l ih =>
    rw [List.foldl_cons, ih, List.map_cons, List.sum_cons]
    change (denseTerm p t.data.mc t.data.mass a).coord c + _ = _
    rw [denseTerm_add]
    ring

lemma fold_forces (p : Vec3 ℝ) (mass : ℝ) (l : List (STree ℝ)) (a : Vec3 ℝ) (c : Fin 3) :
    (l.foldl (addForce p mass) a).coord c = a.coord c + mass * (l.map fun t => pull p t.data.mc t.data.mass c).sum := by
  induction l generalizing a with
  | nil => simp
  | cons t l ih =>
    rw [List.foldl_cons, ih, List.map_cons, List.sum_cons]
    change (a + force p t.data.mc mass t.data.mass).coord c + _ = _
    rw [C70.coord_add, force_pull]
    ring

lemma coord_zero (c : Fin 3) : (0 : Vec3 ℝ).coord c = 0 := by fin_cases c <;> rfl

/-- A walk on a device sums the force of the host's walk, divided by the mass of the body. -/
lemma accel_eq (stackless : Bool) (t : STree ℝ) (p : Vec3 ℝ) {mass : ℝ} (hm : mass ≠ 0) (c : Fin 3) :
    (gpuAccel stackless t p).coord c = ((acceptedNodes p t).foldl (addForce p mass) 0).coord c / mass := by
  unfold gpuAccel
  rw [fold_nodes, fold_forces, coord_zero, zero_add, zero_add, mul_div_cancel_left₀ _ hm]
  unfold walkOrder
  split
  · rfl
  · exact ((List.reverse_perm _).map _).sum_eq

lemma deriv_eq (stackless : Bool) (t : STree ℝ) {n : ℕ} (Y M : ℕ → ℝ) (hM : ∀ b, b < n → M b ≠ 0) {j : ℕ} (hj : j < 6 * n) :
    gpuDeriv n Y (fun b => gpuAccel stackless t (posOf n Y b)) j =
      derivOf n Y M (fun i => (acceptedNodes (posOf n Y i) t).foldl (addForce (posOf n Y i) (M i)) 0) j := by
  unfold gpuDeriv derivOf
  split
  · rfl
  split
  · exact accel_eq stackless t _ (hM _ (by omega)) 0
  split
  · exact accel_eq stackless t _ (hM _ (by omega)) 1
  · exact accel_eq stackless t _ (hM _ (by omega)) 2

lemma perfect_height {S : Type} : ∀ (k : ℕ) (t : STree S), Perfect k t → t.height = k
  | 0, .leaf _ _, _ => rfl
  | 0, .node _ _ _, h => h.elim
  | _ + 1, .leaf _ _, h => h.elim
  | k + 1, .node l r _, h => by
    simp [STree.height, perfect_height k l h.1, perfect_height k r h.2]

/-- Exact arithmetic has the identities. -/
theorem real_sum_laws : SumLaws ℝ := ⟨zero_add, add_zero, mul_one⟩

/-- An engine on GPUs and the engine on the host that get the same calls: at every call the same step number, state
and masses. -/
inductive Lockstep (e : GpuBH ℝ) (tex : Bool) (w k hs hm : ℕ) (M : ℕ → ℝ) :
    Option (STree ℝ) → BHState ℝ → Mem ℝ → Prop
  | fresh (m : Mem ℝ) : Lockstep e tex w k hs hm M none ⟨[], none⟩ m
  | other {tree st m m'} : Lockstep e tex w k hs hm M tree st m → Untouched e m m' →
      Lockstep e tex w k hs hm M tree st m'
  | call {tree tree' st m y f st' m' mh'} {hm' y' f' : Handle} {loop hloop vloop : Loop ℝ}
      (c : C34.Evaluation (2 ^ k) hm' y' f' M) : Lockstep e tex w k hs hm M tree st m →
      Given e tex w k hs hm y f c.Y M m → IsParLoop loop → IsParLoop hloop → y' ≠ f' → hm' ≠ f' →
      e.fcompute loop tex c.step hm y f st m = .ok (st', m') →
      bhFcompute (treeIndex (1 / 2) e.nth 64) hloop vloop .cycle e.ratio e.rate c.step (2 ^ k) hm' y' f' tree c.mem =
        .ok (tree', mh') → Lockstep e tex w k hs hm M tree' st' m'

/-- The call of the host. -/
lemma host_call {e : GpuBH ℝ} {tex : Bool} {w k hs hm y f : ℕ} {M : ℕ → ℝ} (hh : e.half = 1 / 2) (hd : e.depth = 64)
    (he : BHSetup e tex w k hs hm y f) {tree : Option (STree ℝ)}
    (ht : ∀ t, tree = some t → Perfect k t ∧ t.bodies.Perm (List.range (2 ^ k)))
    {hm' y' f' : Handle} (c : C34.Evaluation (2 ^ k) hm' y' f' M) {hloop : Loop ℝ} (hl : IsParLoop hloop) (vloop : Loop ℝ)
    (h1 : y' ≠ f') (h2 : hm' ≠ f') :
    ∃ t, bhFcompute (treeIndex (1 / 2) e.nth 64) hloop vloop .cycle e.ratio e.rate c.step (2 ^ k) hm' y' f' tree c.mem =
        .ok (some t, c.mem.set f' (buf (6 * 2 ^ k) (derivOf (2 ^ k) c.Y M fun i =>
          (acceptedNodes (posOf (2 ^ k) c.Y i) t).foldl (addForce (posOf (2 ^ k) c.Y i) (M i)) 0))) ∧
      treeAfter e (2 ^ k) c.step (bodiesOf (2 ^ k) c.Y M) tree = .ok t := by
  have hk : k ≤ 63 := he.walks.depth
  obtain ⟨t, a1, a2, a3⟩ := C34.evaluate_walks he.nth hl vloop h1 h2 (Nat.two_pow_pos k)
    (Nat.pow_le_pow_right (by norm_num) hk) e.ratio e.rate c tree
    (fun t h => ⟨by rw [perfect_height k t (ht t h).1]; exact hk, (ht t h).2⟩)
  refine ⟨t, a1, ?_⟩
  cases tree with
  | none =>
    simp only [treeAfter, hh, hd]
    exact a2 (Or.inr (Or.inl rfl))
  | some t0 =>
    by_cases hdue : e.rate = 0 ∨ e.rate ∣ c.step
    · simp only [treeAfter, if_pos hdue, hh, hd]
      exact a2 (by tauto)
    · simp only [treeAfter, if_neg hdue, hh]
      rw [a3 t0 rfl (fun h => hdue (Or.inl h)) (fun h => hdue (Or.inr h))]
      rfl

lemma rel_perfect {S : Type} [Add S] [Sub S] [Mul S] [Div S] [Zero S] [FOps S] {e : GpuBH S} {k : ℕ} {st : BHState S} {tree : Option (STree S)} {m : Mem S}
    (h : st.Rel e k tree m) : ∀ t, tree = some t → Perfect k t ∧ t.bodies.Perm (List.range (2 ^ k)) := by
  rintro t rfl
  rcases h with ⟨h, _⟩ | ⟨t', _, h, h1, h2, _⟩
  · cases h
  · obtain rfl := Option.some.inj h
    exact ⟨h1, h2⟩

lemma lockstep_reached {e : GpuBH ℝ} {tex : Bool} {w k hs hm : ℕ} {M : ℕ → ℝ} (hh : e.half = 1 / 2) (hd : e.depth = 64)
    {tree : Option (STree ℝ)} {st : BHState ℝ} {m : Mem ℝ} (h : Lockstep e tex w k hs hm M tree st m) :
    Reached e tex w k hs hm M tree st m := by
  have hrad : RadiusLaws ℝ e.half := by rw [hh]; exact C56.real_laws
  induction h with
  | fresh m => exact .fresh m
  | other _ hu ih => exact .other ih hu
  | call c _ hg hl hhl h1 h2 hrun hhost ih =>
    obtain ⟨t, a1, a2⟩ := host_call hh hd hg.setup (rel_perfect (reached_rel hrad (fun _ => real_sum_laws) ih)) c hhl _ h1 h2
    obtain ⟨rfl, rfl⟩ := Prod.mk.inj (Except.ok.inj (a1.symm.trans hhost))
    exact .call ih hg hl hrun a2

/-- **GPU = host.**  After any common history, both engines succeed at the next common call, and then *every* device
holds *exactly* the derivative of the host, element by element; and so on for ever.  For every number of devices and
both ways of exchanging data, with textures or without, one work item per body or per leaf, with a stack or without,
however the work items and the host's threads interleave; masses are not zero. -/
theorem gpu_equals_host {e : GpuBH ℝ} {tex : Bool} {w k hs hm y f : ℕ} {M : ℕ → ℝ} (hh : e.half = 1 / 2)
    (hd : e.depth = 64) (hM : ∀ b, b < 2 ^ k → M b ≠ 0) {loop hloop vloop : Loop ℝ} (hl : IsParLoop loop)
    (hhl : IsParLoop hloop) {tree : Option (STree ℝ)} {st : BHState ℝ} {m : Mem ℝ}
    (h : Lockstep e tex w k hs hm M tree st m) {hm' y' f' : Handle} (h1 : y' ≠ f') (h2 : hm' ≠ f')
    (c : C34.Evaluation (2 ^ k) hm' y' f' M) (hg : Given e tex w k hs hm y f c.Y M m) :
    ∃ st' m' tree' mh', e.fcompute loop tex c.step hm y f st m = .ok (st', m') ∧
      bhFcompute (treeIndex (1 / 2) e.nth 64) hloop vloop .cycle e.ratio e.rate c.step (2 ^ k) hm' y' f' tree c.mem =
        .ok (tree', mh') ∧
      Lockstep e tex w k hs hm M tree' st' m' ∧
      ∀ d j, d < e.g.D → j < 6 * 2 ^ k →
        m'.cell (rep e.g.D f d) j = mh'.cell f' j ∧ (mh'.cell f' j).isSome := by
  have hrad : RadiusLaws ℝ e.half := by rw [hh]; exact C56.real_laws
  have hreach := lockstep_reached hh hd h
  obtain ⟨t, a1, a2⟩ := host_call hh hd hg.setup (rel_perfect (reached_rel hrad (fun _ => real_sum_laws) hreach)) c hhl
    vloop h1 h2
  obtain ⟨st', t', m', b1, b2, _, b4, _⟩ := every_call hrad (fun _ => real_sum_laws) hl hreach hg c.step
  obtain rfl : t' = t := Except.ok.inj (b2.symm.trans a2)
  refine ⟨st', m', _, _, b1, a1, .call c h hg hl hhl h1 h2 b1 a1, fun d j hd hj => ?_⟩
  have hc : (c.mem.set f' (buf (6 * 2 ^ k) (derivOf (2 ^ k) c.Y M fun i =>
      (acceptedNodes (posOf (2 ^ k) c.Y i) t').foldl (addForce (posOf (2 ^ k) c.Y i) (M i)) 0))).cell f' j =
      some (derivOf (2 ^ k) c.Y M (fun i =>
        (acceptedNodes (posOf (2 ^ k) c.Y i) t').foldl (addForce (posOf (2 ^ k) c.Y i) (M i)) 0) j) := by
    rw [Mem.cell_buf (Mem.set_same ..), if_pos hj]
  rw [b4 d j hd hj, hc, deriv_eq e.stackless t' c.Y M hM hj]
  exact ⟨rfl, rfl⟩

/-- All variants of `next_down` are right for up to `2^30` bodies. -/
theorem next_down_ok {S : Type} (e : GpuBH S) {k : ℕ} (hk : k ≤ 30) (hf : 2 ^ (k + 1) - 1 ≤ e.fuel)
    (hnd : e.nd = nextDownCtz ∨ e.nd = nextDownFfs ∨ e.nd = (fun i => .ok (nextDownOpencl i)) ∨
      e.nd = fun i => .ok (nextDownLoop i)) : WalkOk e k where
  depth := by omega
  nd i hi := by
    have h2 : 2 ^ (k + 1) ≤ 2 ^ 31 := Nat.pow_le_pow_right (by norm_num) (by omega)
    obtain ⟨a1, a2, a3⟩ := C32.variants_agree (idx := i) (by norm_num at h2 ⊢; omega)
    rcases hnd with h | h | h | h <;> rw [h]
    · exact a1
    · exact a2
    · simp only [a3]
  fuel := hf

/-! ### Concrete engines -/

lemma sample_replicated {D h n : ℕ} (hn : n ≤ 1000) : Replicated D h n (C56.sample D) := by
  intro d j hd hj
  rw [C56.sample_cell hd (by omega)]
  rfl

lemma plain_low (F : NodeField) : (DevTree.plain C56.columns F).h < 100 := by cases F <;> decide
lemma tex_low (F : NodeField) : (DevTree.tex 31 C56.columns F).h < 100 := by cases F <;> decide
lemma plain_free : ∀ x : Handle, x < 4 → ¬ (DevTree.plain C56.columns).Owns x := by
  rintro x hx ⟨F, hF⟩
  have : (20 : ℕ) ≤ (DevTree.plain C56.columns F).h := by cases F <;> decide
  exact absurd (Nat.lt_of_lt_of_le hx (by norm_num : 4 ≤ 20)) (Nat.not_lt.2 (hF ▸ this))
lemma tex_free : ∀ x : Handle, x < 4 → ¬ (DevTree.tex 31 C56.columns).Owns x := by
  rintro x hx ⟨F, hF⟩
  have : (20 : ℕ) ≤ (DevTree.tex 31 C56.columns F).h := by cases F <;> decide
  exact absurd (Nat.lt_of_lt_of_le hx (by norm_num : 4 ≤ 20)) (Nat.not_lt.2 (hF ▸ this))

/-- Two devices of one OpenCL context, two bodies, groups of one work item; all four traversals. -/
noncomputable def twoDevices (cycle stackless : Bool) : GpuBH ℝ :=
  ⟨⟨false, 2, 2, 1, none, fun _ => 12⟩, .plain C56.columns, cycle, stackless, fun i => .ok (nextDownOpencl i), 10, 3,
    C25.sortIds, 1 / 2, 64, 3, 101, 102, 100⟩

lemma twoDevices_given (cycle stackless : Bool) : Given (twoDevices cycle stackless) false 1 1 100 3 1 2
    (fun j => ((1 + j : ℕ) : ℝ)) (fun j => ((3 + j : ℕ) : ℝ)) (C56.sample 2) where
  setup :=
    { fits := ⟨rfl, by norm_num, show 0 < 1 by decide, ⟨show 0 < 2 by decide, fun _ => ⟨1, rfl⟩⟩, ⟨1, rfl⟩, fun h => (by cases h), fun _ => one_dvd _⟩
      count := rfl
      walks := next_down_ok _ (by norm_num) (show 3 ≤ 3 by decide) (Or.inr (Or.inr (Or.inl rfl)))
      layout := ⟨C56.columns, C56.columns_inj, rfl⟩
      depth := show 1 < 64 by decide
      nth := C25.sortIds_reorders
      low := ⟨by norm_num, by norm_num, by norm_num, plain_low⟩
      apart := ⟨by decide, by decide, by decide⟩
      tree := ⟨plain_free 1 (by decide), plain_free 2 (by decide), plain_free 3 (by decide)⟩
      size := rfl
      high := ⟨show 100 ≤ 100 by decide, show 100 ≤ 101 by decide, show 100 ≤ 102 by decide, show 101 ≠ 102 by decide⟩ }
  room :=
    { state := sample_replicated (by norm_num)
      result := sample_replicated (by decide)
      tree := fun d F i hd hi => by
        change ((C56.sample 2).cell (rep 2 (C56.columns F) d) (1 * i + 0)).isSome
        rw [C56.sample_cell (D := 2) hd (by norm_num at hi; omega)]
        rfl
      host := fun b hb => by cases hb
      fsync := fun _ _ => sample_replicated (by norm_num)
      hostY := fun j hj => sample_replicated (n := 12) (by norm_num) 0 j (by norm_num [twoDevices]) (by norm_num at hj; omega)
      hostM := fun j hj => sample_replicated (n := 12) (by norm_num) 0 j (by norm_num [twoDevices]) (by norm_num at hj; omega) }
  state d i hd hi := by
    have hd' : d < 2 := hd
    exact C56.sample_cell hd (by omega)
  masses d j hd hj := C56.sample_cell hd (by norm_num at hj; omega)

/-- One CUDA device with textures and 64 bodies. -/
noncomputable def textures (cycle stackless : Bool) : GpuBH ℝ :=
  ⟨⟨true, 1, 64, 64, none, fun _ => 384⟩, .tex 31 C56.columns, cycle, stackless, nextDownFfs, 10, 3,
    C25.sortIds, 1 / 2, 64, 127, 101, 102, 100⟩

lemma textures_given (cycle stackless : Bool) : Given (textures cycle stackless) true 64 6 100 3 1 2
    (fun j => ((1 + j : ℕ) : ℝ)) (fun j => ((3 + j : ℕ) : ℝ)) (C56.sample 1) where
  setup :=
    { fits := ⟨rfl, by norm_num, show 0 < 64 by decide, ⟨show 0 < 1 by decide, fun _ => ⟨0, rfl⟩⟩, ⟨1, rfl⟩, fun _ => ⟨⟨6, rfl⟩, ⟨1, rfl⟩, rfl⟩,
        fun h => (by cases h)⟩
      count := rfl
      walks := next_down_ok _ (by norm_num) (show 127 ≤ 127 by decide) (Or.inr (Or.inl rfl))
      layout := ⟨C56.columns, C56.columns_inj, 31, fun F => by cases F <;> decide, rfl⟩
      depth := show 6 < 64 by decide
      nth := C25.sortIds_reorders
      low := ⟨by norm_num, by norm_num, by norm_num, tex_low⟩
      apart := ⟨by decide, by decide, by decide⟩
      tree := ⟨tex_free 1 (by decide), tex_free 2 (by decide), tex_free 3 (by decide)⟩
      size := rfl
      high := ⟨show 100 ≤ 100 by decide, show 100 ≤ 101 by decide, show 100 ≤ 102 by decide, show 101 ≠ 102 by decide⟩ }
  room :=
    { state := sample_replicated (by norm_num)
      result := sample_replicated (by decide)
      tree := fun d F i hd hi => by
        have : ((textures cycle stackless).tree F).stride * i + ((textures cycle stackless).tree F).off < 1000 := by
          norm_num at hi
          cases F <;> simp only [textures, DevTree.tex] <;> omega
        change ((C56.sample 1).cell (rep 1 ((textures cycle stackless).tree F).h d) _).isSome
        rw [C56.sample_cell (D := 1) hd this]
        rfl
      host := fun b hb => by cases hb
      fsync := fun _ h => absurd h (by norm_num [textures])
      hostY := fun j hj => sample_replicated (n := 384) (by norm_num) 0 j (by norm_num [textures]) (by norm_num at hj; omega)
      hostM := fun j hj => sample_replicated (n := 384) (by norm_num) 0 j (by norm_num [textures]) (by norm_num at hj; omega) }
  state d i hd hi := by
    have hd' : d < 1 := hd
    exact C56.sample_cell hd (by omega)
  masses d j hd hj := C56.sample_cell hd (by norm_num at hj; omega)

/-- The call on the host: the same state in buffer 0, the same masses in buffer 2, the result to buffer 1. -/
noncomputable def hostCall (n : ℕ) : C34.Evaluation n 2 0 1 (fun j => ((3 + j : ℕ) : ℝ)) where
  step := 7
  Y := fun j => ((1 + j : ℕ) : ℝ)
  mem := fun h => if h = 2 then some (buf n fun j => ((3 + j : ℕ) : ℝ)) else some (buf (6 * n) fun j => ((1 + j : ℕ) : ℝ))
  hy := rfl
  hM := rfl
  hf := by simp [Mem.shape]

/-- The first call on two devices, all four traversals. -/
example (cycle stackless : Bool) (loop hloop : Loop ℝ) (hl : IsParLoop loop) (hhl : IsParLoop hloop) :
    ∃ st' m' tree' mh', (twoDevices cycle stackless).fcompute loop false 7 3 1 2 ⟨[], none⟩ (C56.sample 2) = .ok (st', m') ∧
      bhFcompute (treeIndex (1 / 2) C25.sortIds 64) hloop hloop .cycle 10 3 7 2 2 0 1 none (hostCall 2).mem =
        .ok (tree', mh') ∧ ∀ d j, d < 2 → j < 12 → m'.cell (rep 2 2 d) j = mh'.cell 1 j := by
  obtain ⟨st', m', tree', mh', h1, h2, _, h4⟩ := gpu_equals_host (e := twoDevices cycle stackless) (k := 1) (vloop := hloop) rfl rfl
    (M := fun j => ((3 + j : ℕ) : ℝ)) (fun b _ => Nat.cast_ne_zero.2 (by omega)) hl hhl (.fresh _)
    (hm' := 2) (y' := 0) (f' := 1) (by decide) (by decide) (hostCall 2)
    (twoDevices_given cycle stackless)
  exact ⟨st', m', tree', mh', h1, h2, fun d j hd hj => (h4 d j hd hj).1⟩

/-- The first call on CUDA with textures, all four traversals. -/
example (cycle stackless : Bool) (loop hloop : Loop ℝ) (hl : IsParLoop loop) (hhl : IsParLoop hloop) :
    ∃ st' m' tree' mh', (textures cycle stackless).fcompute loop true 7 3 1 2 ⟨[], none⟩ (C56.sample 1) = .ok (st', m') ∧
      bhFcompute (treeIndex (1 / 2) C25.sortIds 64) hloop hloop .cycle 10 3 7 64 2 0 1 none (hostCall 64).mem =
        .ok (tree', mh') ∧ ∀ j, j < 384 → m'.cell (rep 1 2 0) j = mh'.cell 1 j := by
  obtain ⟨st', m', tree', mh', h1, h2, _, h4⟩ := gpu_equals_host (e := textures cycle stackless) (k := 6) (vloop := hloop) rfl rfl
    (M := fun j => ((3 + j : ℕ) : ℝ)) (fun b _ => Nat.cast_ne_zero.2 (by omega)) hl hhl (.fresh _)
    (hm' := 2) (y' := 0) (f' := 1) (by decide) (by decide) (hostCall 64)
    (textures_given cycle stackless)
  exact ⟨st', m', tree', mh', h1, h2, fun j hj => (h4 0 j Nat.one_pos hj).1⟩

/-- Three bodies. -/
example (loop : Loop ℝ) (r : BHState ℝ × Mem ℝ) :
    (⟨⟨false, 1, 3, 1, none, fun _ => 18⟩, .plain C56.columns, true, false, fun i => .ok (nextDownOpencl i), 10, 3,
      C25.sortIds, 1 / 2, 64, 5, 101, 102, 100⟩ : GpuBH ℝ).fcompute loop false 0 3 1 2 ⟨[], none⟩ (C56.sample 1) ≠ .ok r :=
  power_of_two_needed (k := 2) loop false 0 (by decide) rfl rfl C25.sortIds_reorders (by decide) (by decide) (by decide)
    (fun i h => by
      have h : 3 = 2 ^ i := h
      rcases i with _ | _ | i
      · cases h
      · cases h
      · rw [Nat.pow_succ, Nat.pow_succ] at h; omega) r

/-- Two calls in a row, the second refreshing the tree. -/
example (loop : Loop ℝ) (hl : IsParLoop loop) :
    ∃ r r', (twoDevices false false).fcompute loop false 6 3 1 2 ⟨[], none⟩ (C56.sample 2) = .ok r ∧
      (twoDevices false false).fcompute loop false 7 3 1 2 r.1 r.2 = .ok r' := by
  have hg := twoDevices_given false false
  have hrad : RadiusLaws ℝ (twoDevices false false).half := C56.real_laws
  obtain ⟨st, t, m, a1, _, a3, _, a5, a6, a7⟩ := every_call hrad (fun _ => real_sum_laws) hl (.fresh _) hg 6
  have hg' : Given (twoDevices false false) false 1 1 100 3 1 2 (fun j => ((1 + j : ℕ) : ℝ)) (fun j => ((3 + j : ℕ) : ℝ)) m :=
    { setup := hg.setup
      room := hg.room.of_shape a6
      state := fun d i hd hi => a5 d _ hd (by have hd' : d < 2 := hd; norm_num; omega)
      masses := fun d j hd hj => by
        have hq : rep (twoDevices false false).g.D 3 d / (twoDevices false false).g.D = 3 := rep_div hd
        rw [a7 _ _ (by rw [hq]; norm_num) (by rw [hq]; norm_num) (by rw [hq]; norm_num) (by rw [hq]; exact hg.setup.tree.2.2)]
        exact hg.masses d j hd hj }
  obtain ⟨st2, _, m2, b1, _⟩ := every_call hrad (fun _ => real_sum_laws) hl a3 hg' 7
  exact ⟨(st, m), (st2, m2), a1, b1⟩

end NB.C72
