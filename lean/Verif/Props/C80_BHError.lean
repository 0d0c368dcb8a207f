import Verif.Lemmas.BHError
import Verif.Props.C72_GpuTree
import Verif.Props.C60_Layouts
import Verif.Props.C02_DirectSum

/-
C80  How far the accelerations of the Barnes–Hut engines are from the direct sum, in terms of the ratio.  Exact
arithmetic, positive masses.
-/

namespace NB.C80
open NB NB.Spec

/-- Length of the difference of two vectors. -/
noncomputable def gap (p q : Fin 3 → ℝ) : ℝ := Real.sqrt (_root_.Spec.dist2 p q)

/-- The accelerations in a derivative buffer. -/
def acc (n : ℕ) (F : ℕ → ℝ) (i : ℕ) : Fin 3 → ℝ := ![F (3 * n + i), F (4 * n + i), F (5 * n + i)]

/-- How strongly the others pull at body `i`, directions disregarded: `Σ m_j / ρ²`. -/
noncomputable def strength (n : ℕ) (r : ℕ → Fin 3 → ℝ) (m : ℕ → ℝ) (i : ℕ) : ℝ :=
  ∑ j ∈ (Finset.range n).erase i, m j / max (_root_.Spec.dist2 (r i) (r j)) 1e-8

/-- No other body is within the double of the softening length of body `i`, except at the very same place. -/
def Clear (n : ℕ) (r : ℕ → Fin 3 → ℝ) (i : ℕ) : Prop :=
  ∀ j < n, r j ≠ r i → 4e-8 ≤ _root_.Spec.dist2 (r i) (r j)

/-- What is claimed of a derivative buffer `F` computed for the state `Y`: the velocities are exact; every
acceleration is off by at most `16 / ratio` of the strength; and by at most `53 / ratio²` of it for bodies in the clear. -/
structure Close (n : ℕ) (ratio : ℝ) (Y M F : ℕ → ℝ) : Prop where
  velocities : ∀ i < 3 * n, F i = Y (3 * n + i)
  first : ∀ i < n, gap (acc n F i) (_root_.Spec.accel 1e-8 n (C02.pos n Y) M i) ≤
    16 / ratio * strength n (C02.pos n Y) M i
  second : ∀ i < n, Clear n (C02.pos n Y) i →
    gap (acc n F i) (_root_.Spec.accel 1e-8 n (C02.pos n Y) M i) ≤ 53 / ratio ^ 2 * strength n (C02.pos n Y) M i

/-- A tree the engine may hold. -/
structure Good (n : ℕ) (M : ℕ → ℝ) (t : STree ℝ) : Prop where
  height : t.height ≤ 63
  perm : t.bodies.Perm (List.range n)
  leaves : C26.Leaves M t

lemma gap_eq (u v : Vec3 ℝ) : gap u.coord v.coord = (u - v).length := by
  rw [Vec3.length_eq, norm_eq_dist2]
  rfl

lemma pos_coord (n : ℕ) (Y : ℕ → ℝ) (i : ℕ) : C02.pos n Y i = (posOf n Y i).coord := rfl

lemma coord_inj {u v : Vec3 ℝ} (h : u.coord = v.coord) : u = v :=
  Vec3.ext (congrFun h 0) (congrFun h 1) (congrFun h 2)

lemma acc_derivOf {n : ℕ} (Y M : ℕ → ℝ) (T : ℕ → Vec3 ℝ) {i : ℕ} (hi : i < n) :
    acc n (derivOf n Y M T) i = ((T i).sdiv (M i)).coord := by
  have h : ∀ k, acc n (derivOf n Y M T) i k = ((T i).sdiv (M i)).coord k := by
    intro k
    fin_cases k
    · change derivOf n Y M T (3 * n + i) = (T i).x / M i
      unfold derivOf
      rw [if_neg (by omega), if_pos (by omega), Nat.add_sub_cancel_left]
    · change derivOf n Y M T (4 * n + i) = (T i).y / M i
      unfold derivOf
      rw [if_neg (by omega), if_neg (by omega), if_pos (by omega), Nat.add_sub_cancel_left]
    · change derivOf n Y M T (5 * n + i) = (T i).z / M i
      unfold derivOf
      rw [if_neg (by omega), if_neg (by omega), if_neg (by omega), Nat.add_sub_cancel_left]
  exact funext h

lemma direct_coord (B : Bodies ℝ) (v : Vec3 ℝ) (m1 : ℝ) (bs : List ℕ) (k : Fin 3) :
    (C30.direct B v m1 bs).coord k = (bs.map fun b => _root_.Spec.newton 1e-8 v.coord (B.pos b).coord m1 (B.mass b) k).sum := by
  induction bs with
  | nil => fin_cases k <;> simp [C30.direct]
  | cons b bs ih =>
    have e : ∀ u w : Vec3 ℝ, (u + w).coord k = u.coord k + w.coord k := by intro u w; fin_cases k <;> rfl
    rw [List.map_cons, List.sum_cons, ← ih, ← force_coord]
    simp only [C30.direct, List.map_cons, List.sum_cons, e]

lemma newton_self (p : Fin 3 → ℝ) (m1 m2 : ℝ) (k : Fin 3) : _root_.Spec.newton 1e-8 p p m1 m2 k = 0 := by
  unfold _root_.Spec.newton
  simp

variable {n : ℕ} {hm y f : Handle} {M : ℕ → ℝ}

lemma sum_range {t : STree ℝ} (hp : t.bodies.Perm (List.range n)) (w : ℕ → ℝ) :
    (t.bodies.map w).sum = ∑ j ∈ Finset.range n, w j := by
  rw [(hp.map w).sum_eq]
  rfl

/-- The direct sum over the tree, divided by the mass, is the acceleration. -/
lemma direct_accel (e : C34.Evaluation n hm y f M) {t : STree ℝ} (hp : t.bodies.Perm (List.range n)) {i : ℕ}
    (hM : M i ≠ 0) :
    ((C30.direct e.bodies (posOf n e.Y i) (M i) t.bodies).sdiv (M i)).coord =
      _root_.Spec.accel 1e-8 n (C02.pos n e.Y) M i := by
  funext k
  have h1 : (C30.direct e.bodies (posOf n e.Y i) (M i) t.bodies).coord k =
      M i * _root_.Spec.accel 1e-8 n (C02.pos n e.Y) M i k := by
    rw [direct_coord, C02.accel_mul, sum_range hp]
    symm
    refine Finset.sum_erase (Finset.range n) ?_
    exact newton_self _ _ _ _
  have h2 : ((C30.direct e.bodies (posOf n e.Y i) (M i) t.bodies).sdiv (M i)).coord k =
      (C30.direct e.bodies (posOf n e.Y i) (M i) t.bodies).coord k / M i := by fin_cases k <;> rfl
  rw [h2, h1, mul_div_cancel_left₀ _ hM]

lemma weight_sum (e : C34.Evaluation n hm y f M) (hpos : ∀ b < n, 0 < M b) {t : STree ℝ}
    (hp : t.bodies.Perm (List.range n)) {i : ℕ} {c : ℝ} (hc : 0 ≤ c) :
    (t.bodies.map (BHError.weight e.bodies (posOf n e.Y i) c)).sum ≤ c * strength n (C02.pos n e.Y) M i := by
  rw [sum_range hp, strength, Finset.mul_sum]
  have h0 : BHError.weight e.bodies (posOf n e.Y i) c i = 0 := by
    unfold BHError.weight
    rw [if_pos]
    rfl
  rw [← Finset.sum_erase (Finset.range n) h0]
  refine Finset.sum_le_sum fun j hj => ?_
  have hj : j < n := Finset.mem_range.1 (Finset.mem_of_mem_erase hj)
  have h1 := hpos j hj
  unfold BHError.weight
  split
  · have : 0 < max (_root_.Spec.dist2 (C02.pos n e.Y i) (C02.pos n e.Y j)) 1e-8 := lt_of_lt_of_le (by norm_num) (le_max_right _ _)
    positivity
  · rw [norm_eq_dist2]
    exact le_refl _

lemma sdiv_length (u : Vec3 ℝ) {m : ℝ} (hm : 0 < m) : (u.sdiv m).length = u.length / m := by
  have : u.sdiv m = u.smul (1 / m) := by ext <;> simp [div_eq_mul_inv]
  rw [this, BHError.length_smul, abs_of_pos (by positivity)]
  ring

/-- The result of walks over a tree that describes the bodies. -/
lemma walks_close (e : C34.Evaluation n hm y f M) (hpos : ∀ b < n, 0 < M b) {ratio : ℝ} (hr : 1 ≤ ratio) {t : STree ℝ}
    (hp : t.bodies.Perm (List.range n)) (hf : C26.Faithful e.bodies ratio t) :
    Close n ratio e.Y M (derivOf n e.Y M fun i =>
      (acceptedNodes (posOf n e.Y i) t).foldl (addForce (posOf n e.Y i) (M i)) 0) := by
  have hr0 : 0 < ratio := by linarith
  have hb : ∀ b ∈ t.bodies, b < n := fun b hb => List.mem_range.1 (hp.mem_iff.1 hb)
  have hb0 : ∀ b ∈ t.bodies, 0 ≤ e.bodies.mass b := fun b h => (hpos b (hb b h)).le
  have main : ∀ i < n, ∀ c : ℝ, 0 ≤ c →
      ((acceptedNodes (posOf n e.Y i) t).foldl (addForce (posOf n e.Y i) (M i)) 0 -
        C30.direct e.bodies (posOf n e.Y i) (M i) t.bodies).length ≤
        (t.bodies.map (BHError.weight e.bodies (posOf n e.Y i) (M i * c))).sum →
      gap (acc n (derivOf n e.Y M fun i => (acceptedNodes (posOf n e.Y i) t).foldl (addForce (posOf n e.Y i) (M i)) 0) i)
        (_root_.Spec.accel 1e-8 n (C02.pos n e.Y) M i) ≤ c * strength n (C02.pos n e.Y) M i := by
    intro i hi c hc h
    have hm := hpos i hi
    rw [acc_derivOf _ _ _ hi, ← direct_accel e hp hm.ne', gap_eq]
    have h2 := h.trans (weight_sum e hpos hp (by positivity))
    have e1 : ((acceptedNodes (posOf n e.Y i) t).foldl (addForce (posOf n e.Y i) (M i)) 0).sdiv (M i) -
        (C30.direct e.bodies (posOf n e.Y i) (M i) t.bodies).sdiv (M i) =
        ((acceptedNodes (posOf n e.Y i) t).foldl (addForce (posOf n e.Y i) (M i)) 0 -
          C30.direct e.bodies (posOf n e.Y i) (M i) t.bodies).sdiv (M i) := by
      ext <;> simp <;> ring
    rw [e1, sdiv_length _ hm, div_le_iff₀ hm]
    linarith
  refine ⟨fun i hi => ?_, fun i hi => ?_, fun i hi hcl => ?_⟩
  · unfold derivOf
    rw [if_pos hi]
  · exact main i hi _ (by positivity) (BHError.walk_first hr hf hb0 _ (hpos i hi).le)
  · refine main i hi _ (by positivity) (BHError.walk_second hr hf hb0 _ (hpos i hi).le fun b hb' hne => ?_)
    have h1 := hcl b (hb b hb') fun h => hne (coord_inj h)
    rw [Vec3.length_eq, norm_eq_dist2]
    refine Real.le_sqrt_of_sq_le ?_
    refine le_trans (by norm_num) h1

/-- One evaluation with any tree the engine may hold. -/
lemma evaluation {nth : NthElement} (hnth : Reorders nth) {loop : Loop ℝ} (hl : IsParLoop loop) (vloop : Loop ℝ)
    (hyf : y ≠ f) (hmf : hm ≠ f) (hn0 : 0 < n) (hn : n ≤ 2 ^ 63) (hpos : ∀ b < n, 0 < M b) {ratio : ℝ} (hr : 1 ≤ ratio)
    (rate : ℕ) (e : C34.Evaluation n hm y f M) {tree : Option (STree ℝ)} (ht : ∀ t, tree = some t → Good n M t) :
    ∃ t' F, bhFcompute (treeIndex (1 / 2) nth 64) loop vloop .cycle ratio rate e.step n hm y f tree e.mem =
        .ok (some t', e.mem.set f (buf (6 * n) F)) ∧ Close n ratio e.Y M F ∧ Good n M t' := by
  obtain ⟨t', h1, h2, h3⟩ := C34.evaluate_walks hnth hl vloop hyf hmf hn0 hn ratio rate e tree
    fun t h => ⟨(ht t h).height, (ht t h).perm⟩
  have key : Good n M t' ∧ C26.Faithful e.bodies ratio t' := by
    by_cases hc : rate = 0 ∨ tree = none ∨ rate ∣ e.step
    · have hb := h2 hc
      exact ⟨⟨C28.built_tree_height hnth hn hb, C25.build_perm hnth hb, (C26.build_fix hb).2⟩,
        C26.build_summarises hnth hpos hb⟩
    · push Not at hc
      obtain ⟨hr0, hne, hd⟩ := hc
      obtain ⟨t, rfl⟩ : ∃ t, tree = some t := by
        cases tree with
        | none => exact absurd rfl hne
        | some t => exact ⟨t, rfl⟩
      have hg := ht t rfl
      have ht' := h3 t rfl hr0 hd
      have hlay : layout t' = layout t := by rw [ht']; exact C26.rebuild_layout [(e.bodies, ratio)] t
      refine ⟨⟨by rw [(C34.height_layout hlay).1]; exact hg.height, by rw [(C34.height_layout hlay).2]; exact hg.perm,
        by rw [ht']; exact C26.leaves_rebuild _ _ _ hg.leaves⟩, fun p s hs => ?_⟩
      rw [ht'] at hs
      exact C26.rebuild_all (fun b hb => hpos b (List.mem_range.1 (hg.perm.mem_iff.1 hb))) hg.leaves hs
  exact ⟨t', _, h1, walks_close e hpos hr key.1.perm key.2, key.1⟩

lemma history_good {nth : NthElement} (hnth : Reorders nth) {loop : Loop ℝ} (hl : IsParLoop loop) (vloop : Loop ℝ)
    (hyf : y ≠ f) (hmf : hm ≠ f) (hn0 : 0 < n) (hn : n ≤ 2 ^ 63) (hpos : ∀ b < n, 0 < M b) {ratio : ℝ} (hr : 1 ≤ ratio)
    (rate : ℕ) (es : List (C34.Evaluation n hm y f M)) :
    ∃ tree, C34.history nth loop vloop ratio rate es = .ok tree ∧ ∀ t, tree = some t → Good n M t := by
  induction es using List.reverseRecOn with
  | nil => exact ⟨none, rfl, fun t h => by cases h⟩
  | append_singleton es e ih =>
    obtain ⟨tree, h1, h2⟩ := ih
    obtain ⟨t', F, h3, _, h4⟩ := evaluation hnth hl vloop hyf hmf hn0 hn hpos hr rate e h2
    refine ⟨some t', ?_, fun t h => Option.some.inj h ▸ h4⟩
    unfold C34.history at h1 ⊢
    rw [List.foldlM_append, h1]
    simp only [List.foldlM_cons, List.foldlM_nil, res_ok_bind, h3]
    rfl

/-- **The host.**  After every history of evaluations with any states, steps and build rate, however the loop over the
bodies is scheduled, the next evaluation succeeds, writes nothing but the result, and the result is close to the
direct sum. -/
theorem host_close {nth : NthElement} (hnth : Reorders nth) {loop : Loop ℝ} (hl : IsParLoop loop) (vloop : Loop ℝ)
    (hyf : y ≠ f) (hmf : hm ≠ f) (hn0 : 0 < n) (hn : n ≤ 2 ^ 63) (hpos : ∀ b < n, 0 < M b) {ratio : ℝ} (hr : 1 ≤ ratio)
    (rate : ℕ) (es : List (C34.Evaluation n hm y f M)) (e : C34.Evaluation n hm y f M) :
    ∃ tree tree' F, C34.history nth loop vloop ratio rate es = .ok tree ∧
      bhFcompute (treeIndex (1 / 2) nth 64) loop vloop .cycle ratio rate e.step n hm y f tree e.mem =
        .ok (tree', e.mem.set f (buf (6 * n) F)) ∧ Close n ratio e.Y M F := by
  obtain ⟨tree, h1, h2⟩ := history_good hnth hl vloop hyf hmf hn0 hn hpos hr rate es
  obtain ⟨t', F, h3, h4, _⟩ := evaluation hnth hl vloop hyf hmf hn0 hn hpos hr rate e h2
  exact ⟨tree, some t', F, h1, h3, h4⟩

/-- **GPUs.**  The same for the engines on GPUs, after any history of calls: every device ends with the same whole
derivative, and it is close to the direct sum. -/
theorem gpu_close {e : GpuBH ℝ} {tex : Bool} {w k hs hm y f : ℕ} {M : ℕ → ℝ} (hh : e.half = 1 / 2)
    (hd : e.depth = 64) (hpos : ∀ b < 2 ^ k, 0 < M b) (hr : 1 ≤ e.ratio) {loop : Loop ℝ} (hl : IsParLoop loop)
    {tree : Option (STree ℝ)} {st : BHState ℝ} {m : Mem ℝ} (h : C72.Lockstep e tex w k hs hm M tree st m)
    {hm' y' f' : Handle} (h1 : y' ≠ f') (h2 : hm' ≠ f') (c : C34.Evaluation (2 ^ k) hm' y' f' M)
    (hg : C72.Given e tex w k hs hm y f c.Y M m) :
    ∃ st' m' F, e.fcompute loop tex c.step hm y f st m = .ok (st', m') ∧ Close (2 ^ k) e.ratio c.Y M F ∧
      ∀ d j, d < e.g.D → j < 6 * 2 ^ k → m'.cell (rep e.g.D f d) j = some (F j) := by
  have hM : ∀ b, b < 2 ^ k → M b ≠ 0 := fun b hb => (hpos b hb).ne'
  have hn : ∀ {y f : ℕ}, BHSetup e tex w k hs hm y f → (2 : ℕ) ^ k ≤ 2 ^ 63 := fun he =>
    Nat.pow_le_pow_right (by norm_num) he.walks.depth
  have hgood : ∀ {tree st m}, C72.Lockstep e tex w k hs hm M tree st m → ∀ t, tree = some t → Good (2 ^ k) M t := by
    intro tree st m h
    induction h with
    | fresh m => intro t h; cases h
    | other _ _ ih => exact ih
    | call c _ hg _ hhl h1 h2 _ hrun ih =>
      obtain ⟨t', F, h3, _, h4⟩ := evaluation (nth := e.nth) (ratio := e.ratio) hg.setup.nth hhl _ h1 h2
        (Nat.two_pow_pos k) (hn hg.setup) hpos hr e.rate c ih
      obtain ⟨rfl, _⟩ := Prod.mk.inj (Except.ok.inj (h3.symm.trans hrun))
      exact fun t h => Option.some.inj h ▸ h4
  obtain ⟨t', F, h3, h4, _⟩ := evaluation (nth := e.nth) (ratio := e.ratio) (loop := loop) hg.setup.nth hl loop h1 h2
    (Nat.two_pow_pos k) (hn hg.setup) hpos hr e.rate c (hgood h)
  obtain ⟨st', m', tree', mh', a1, a2, _, a4⟩ := C72.gpu_equals_host (vloop := loop) hh hd hM hl hl h h1 h2 c hg
  obtain ⟨rfl, rfl⟩ := Prod.mk.inj (Except.ok.inj (h3.symm.trans a2))
  refine ⟨st', m', F, a1, h4, fun d j hd hj => ?_⟩
  rw [(a4 d j hd hj).1, Mem.cell_buf (Mem.set_same ..), if_pos hj]

/-- A call of `fcompute` with any buffers. -/
structure Call (n : ℕ) (hm : Handle) (M : ℕ → ℝ) where
  y : Handle
  f : Handle
  hyf : y ≠ f
  hmf : hm ≠ f
  ev : C34.Evaluation n hm y f M

/-- The result of a call. -/
def Call.Result {n : ℕ} {hm : Handle} {M : ℕ → ℝ} (ratio : ℝ) (c : Call n hm M) (m : Mem ℝ) : Prop :=
  ∃ F, m = c.ev.mem.set c.f (buf (6 * n) F) ∧ Close n ratio c.ev.Y M F

/-- The arguments of a call. -/
def Call.args {n : ℕ} {hm : Handle} {M : ℕ → ℝ} (c : Call n hm M) : ℕ × Handle × Handle × Mem ℝ :=
  (c.ev.step, c.y, c.f, c.ev.mem)

/-- The host, every call of every sequence of calls with any buffers. -/
theorem sequence_close {nth : NthElement} (hnth : Reorders nth) {loop : Loop ℝ} (hl : IsParLoop loop) (vloop : Loop ℝ)
    (hn0 : 0 < n) (hn : n ≤ 2 ^ 63) (hpos : ∀ b < n, 0 < M b) {ratio : ℝ} (hr : 1 ≤ ratio) (rate : ℕ)
    (cs : List (Call n hm M)) :
    ∃ ms, C60.evaluations (treeIndex (1 / 2) nth 64) loop vloop ratio rate n hm none (cs.map Call.args) = .ok ms ∧
      List.Forall₂ (Call.Result ratio) cs ms := by
  have main : ∀ (cs : List (Call n hm M)) (tree : Option (STree ℝ)), (∀ t, tree = some t → Good n M t) →
      ∃ ms, C60.evaluations (treeIndex (1 / 2) nth 64) loop vloop ratio rate n hm tree (cs.map Call.args) = .ok ms ∧
        List.Forall₂ (Call.Result ratio) cs ms := by
    intro cs
    induction cs with
    | nil => exact fun _ _ => ⟨[], rfl, .nil⟩
    | cons c cs ih =>
      intro tree ht
      obtain ⟨t', F, h1, h2, h3⟩ := evaluation hnth hl vloop c.hyf c.hmf hn0 hn hpos hr rate c.ev ht
      obtain ⟨ms, h4, h5⟩ := ih (some t') fun t h => Option.some.inj h ▸ h3
      refine ⟨_ :: ms, ?_, .cons ⟨F, rfl, h2⟩ h5⟩
      simp only [List.map_cons, Call.args, C60.evaluations]
      rw [h1, res_ok_bind]
      change (C60.evaluations _ loop vloop ratio rate n hm (some t') (cs.map Call.args) >>= _) = _
      rw [h4]
      rfl
  exact main cs none fun t h => by cases h

/-- The heap layout with a stack: every call of every sequence of calls. -/
theorem heap_close {k : ℕ} (hk : k ≤ 63) {nth : NthElement} (hnth : Reorders nth) {ord : List ℕ → List ℕ}
    (hord : ∀ l, (ord l).Perm l) {loop : Loop ℝ} (hl : IsParLoop loop) (vloop : Loop ℝ) (hpos : ∀ b < 2 ^ k, 0 < M b)
    {ratio : ℝ} (hr : 1 ≤ ratio) (rate : ℕ) {fuel : ℕ} (hf : 2 ^ (k + 1) - 1 ≤ fuel) (cs : List (Call (2 ^ k) hm M)) :
    ∃ ms, C60.evaluations (heapIndex (1 / 2) nth ord 64 fuel) loop vloop ratio rate (2 ^ k) hm [] (cs.map Call.args) = .ok ms ∧
      List.Forall₂ (Call.Result ratio) cs ms := by
  obtain ⟨ms, h1, h2⟩ := sequence_close hnth hl vloop (Nat.two_pow_pos k) (Nat.pow_le_pow_right (by norm_num) hk) hpos hr rate cs
  exact ⟨ms, C60.heap_eq_tree hk hnth hord loop vloop rate hm hf _ h1, h2⟩

/-- The heap layout without a stack. -/
theorem stackless_close {k : ℕ} (hk : k ≤ 30) {nth : NthElement} (hnth : Reorders nth) {ord : List ℕ → List ℕ}
    (hord : ∀ l, (ord l).Perm l) {loop : Loop ℝ} (hl : IsParLoop loop) (vloop : Loop ℝ) (hpos : ∀ b < 2 ^ k, 0 < M b)
    {ratio : ℝ} (hr : 1 ≤ ratio) (rate : ℕ) {fuel : ℕ} (hf : 2 ^ (k + 1) - 1 ≤ fuel) (cs : List (Call (2 ^ k) hm M)) :
    ∃ ms, C60.evaluations (heapStacklessIndex nextDownCtz (1 / 2) nth ord 64 fuel) loop vloop ratio rate (2 ^ k) hm []
        (cs.map Call.args) = .ok ms ∧ List.Forall₂ (Call.Result ratio) cs ms := by
  obtain ⟨ms, h1, h2⟩ := sequence_close hnth hl vloop (Nat.two_pow_pos k) (Nat.pow_le_pow_right (by norm_num) (by omega))
    hpos hr rate cs
  exact ⟨ms, C60.stackless_eq_tree hk hnth hord loop vloop rate hm hf _ h1, h2⟩

lemma gap_coord (p q : Fin 3 → ℝ) (c : Fin 3) : |p c - q c| ≤ gap p q := by
  refine Real.abs_le_sqrt ?_
  unfold _root_.Spec.dist2
  have h0 := sq_nonneg (p 0 - q 0)
  have h1 := sq_nonneg (p 1 - q 1)
  have h2 := sq_nonneg (p 2 - q 2)
  fin_cases c
  · change (p 0 - q 0) ^ 2 ≤ _; linarith
  · change (p 1 - q 1) ^ 2 ≤ _; linarith
  · change (p 2 - q 2) ^ 2 ≤ _; linarith

lemma strength_le (r : ℕ → Fin 3 → ℝ) (hpos : ∀ b < n, 0 < M b) (i : ℕ) :
    strength n r M i ≤ (∑ j ∈ Finset.range n, M j) * 1e8 := by
  unfold strength
  rw [Finset.sum_mul]
  refine (Finset.sum_le_sum fun j hj => ?_).trans (Finset.sum_le_sum_of_subset_of_nonneg (Finset.erase_subset _ _)
    fun j hj _ => ?_)
  · have h1 := hpos j (Finset.mem_range.1 (Finset.mem_of_mem_erase hj))
    calc M j / max (_root_.Spec.dist2 (r i) (r j)) 1e-8 ≤ M j / 1e-8 := by gcongr; exact le_max_right _ _
      _ = M j * 1e8 := by norm_num [div_eq_mul_inv]
  · have h1 := hpos j (Finset.mem_range.1 hj)
    positivity

/-- **Any accuracy.**  For given masses and `ε > 0` there is a ratio from which on the error of the host's engine is
below `ε` in every coordinate — the same ratio for all states, histories, build rates and schedules. -/
theorem any_accuracy (hyf : y ≠ f) (hmf : hm ≠ f) (hn0 : 0 < n) (hn : n ≤ 2 ^ 63) (hpos : ∀ b < n, 0 < M b) {ε : ℝ}
    (hε : 0 < ε) : ∃ ρ : ℝ, ∀ ratio, ρ ≤ ratio → ∀ {nth : NthElement}, Reorders nth → ∀ {loop : Loop ℝ}, IsParLoop loop →
      ∀ (vloop : Loop ℝ) (rate : ℕ) (es : List (C34.Evaluation n hm y f M)) (e : C34.Evaluation n hm y f M),
      ∃ tree tree' F, C34.history nth loop vloop ratio rate es = .ok tree ∧
        bhFcompute (treeIndex (1 / 2) nth 64) loop vloop .cycle ratio rate e.step n hm y f tree e.mem =
          .ok (tree', e.mem.set f (buf (6 * n) F)) ∧
        (∀ i < 3 * n, F i = e.Y (3 * n + i)) ∧
        ∀ i < n, ∀ c, |acc n F i c - _root_.Spec.accel 1e-8 n (C02.pos n e.Y) M i c| ≤ ε := by
  set Q := (∑ j ∈ Finset.range n, M j) * 1e8 with hQ
  have hQ0 : 0 ≤ Q := by
    have : 0 ≤ ∑ j ∈ Finset.range n, M j := Finset.sum_nonneg fun j hj => (hpos j (Finset.mem_range.1 hj)).le
    positivity
  refine ⟨max 1 (16 * Q / ε), fun ratio hr nth hnth loop hl vloop rate es e => ?_⟩
  have hr1 : 1 ≤ ratio := (le_max_left _ _).trans hr
  have hr2 : 16 * Q / ε ≤ ratio := (le_max_right _ _).trans hr
  have hr0 : 0 < ratio := by linarith
  obtain ⟨tree, tree', F, h1, h2, h3⟩ := host_close hnth hl vloop hyf hmf hn0 hn hpos hr1 rate es e
  refine ⟨tree, tree', F, h1, h2, h3.velocities, fun i hi c => (gap_coord _ _ c).trans ((h3.first i hi).trans ?_)⟩
  calc _ ≤ 16 / ratio * Q := by gcongr; exact strength_le _ hpos i
    _ ≤ ε := by
      rw [div_mul_eq_mul_div, div_le_iff₀ hr0]
      rw [div_le_iff₀ hε] at hr2
      linarith

/-! Non-vacuity: five bodies on a line, half a metre apart, ratio ten, after an evaluation elsewhere; all are in the
clear.  The two devices of C72. -/

/-- Five bodies of mass one at `(i / 2 + s, 0, 0)`. -/
noncomputable def line (s : ℕ) : C34.Evaluation 5 0 1 2 (fun _ => 1) where
  step := s
  Y i := if i < 5 then (i : ℝ) / 2 + s else 0
  mem h := if h = 0 then some (buf 5 fun _ => 1) else
    if h = 1 then some (buf 30 fun i => if i < 5 then (i : ℝ) / 2 + s else 0) else
    if h = 2 then some (buf 30 fun _ => 0) else none
  hy := by simp
  hM := by simp
  hf := by simp [Mem.shape, buf]

lemma line_clear (s i : ℕ) (hi : i < 5) : Clear 5 (C02.pos 5 (line s).Y) i := by
  intro j hj hne
  have hd : _root_.Spec.dist2 (C02.pos 5 (line s).Y i) (C02.pos 5 (line s).Y j) = (((i : ℤ) - j : ℤ) : ℝ) ^ 2 / 4 := by
    have h1 : ∀ k, k < 5 → (line s).Y k = (k : ℝ) / 2 + s := fun k hk => if_pos hk
    have h2 : ∀ k, 5 ≤ k → (line s).Y k = 0 := fun k hk => if_neg (by omega)
    unfold _root_.Spec.dist2 C02.pos
    simp only [Matrix.cons_val_zero, Matrix.cons_val_one, Matrix.cons_val_two, Matrix.tail_cons, Matrix.head_cons]
    rw [h1 i hi, h1 j hj, h2 (5 + i) (by omega), h2 (5 + j) (by omega), h2 (2 * 5 + i) (by omega), h2 (2 * 5 + j) (by omega)]
    push_cast
    ring
  have hij : (i : ℤ) - j ≠ 0 := by
    intro h
    have : i = j := by omega
    exact hne (by rw [this])
  have h1 : (1 : ℝ) ≤ (((i : ℤ) - j : ℤ) : ℝ) ^ 2 := by
    have : (1 : ℤ) ≤ ((i : ℤ) - j) ^ 2 := by
      have := sq_nonneg ((i : ℤ) - j)
      rcases lt_or_gt_of_ne hij with h | h <;> nlinarith
    exact_mod_cast this
  rw [hd]
  linarith

example : ∃ tree tree' F, C34.history C25.sortIds (orderedFor fun n => (List.range n).reverse) seqFor 10 3 [line 0] = .ok tree ∧
    bhFcompute (treeIndex (1 / 2) C25.sortIds 64) (orderedFor fun n => (List.range n).reverse) seqFor .cycle 10 3 1 5 0 1 2 tree
      (line 1).mem = .ok (tree', (line 1).mem.set 2 (buf 30 F)) ∧
    ∀ i < 5, gap (acc 5 F i) (_root_.Spec.accel 1e-8 5 (C02.pos 5 (line 1).Y) (fun _ => 1) i) ≤
      53 / 10 ^ 2 * strength 5 (C02.pos 5 (line 1).Y) (fun _ => 1) i := by
  obtain ⟨tree, tree', F, h1, h2, h3⟩ := host_close (es := [line 0]) (e := line 1) C25.sortIds_reorders
    (orderedFor_isParLoop fun _ => List.reverse_perm _) seqFor (by decide) (by decide) (by norm_num) (by norm_num)
    (fun _ _ => one_pos) (ratio := 10) (by norm_num) 3
  exact ⟨tree, tree', F, h1, h2, fun i hi => h3.second i hi (line_clear 1 i hi)⟩

example : ∃ ms, C60.evaluations (heapStacklessIndex nextDownCtz (1 / 2) C25.sortIds List.reverse 64 3)
      (orderedFor fun n => (List.range n).reverse) seqFor 2 5 2 0 []
      ([⟨1, 2, by decide, by decide, C34.ev 1⟩, ⟨1, 2, by decide, by decide, C34.ev 3⟩].map
        (Call.args (n := 2) (hm := 0) (M := fun _ => 1))) = .ok ms ∧
    List.Forall₂ (Call.Result (n := 2) (hm := 0) (M := fun _ => 1) 2) [⟨1, 2, by decide, by decide, C34.ev 1⟩, ⟨1, 2, by decide, by decide, C34.ev 3⟩] ms :=
  stackless_close (k := 1) (by norm_num) C25.sortIds_reorders (fun l => List.reverse_perm l)
    (orderedFor_isParLoop fun _ => List.reverse_perm _) seqFor (fun _ _ => one_pos) (by norm_num) 5 (by norm_num) _

example (cycle stackless : Bool) (loop : Loop ℝ) (hl : IsParLoop loop) : ∃ st' m' F,
    (C72.twoDevices cycle stackless).fcompute loop false 7 3 1 2 ⟨[], none⟩ (C56.sample 2) = .ok (st', m') ∧
      Close 2 10 (C72.hostCall 2).Y (fun j => ((3 + j : ℕ) : ℝ)) F := by
  obtain ⟨st', m', F, h1, h2, _⟩ := gpu_close (e := C72.twoDevices cycle stackless) (k := 1) rfl rfl
    (M := fun j => ((3 + j : ℕ) : ℝ)) (fun b _ => Nat.cast_pos.2 (by omega)) (show (1 : ℝ) ≤ 10 by norm_num) hl (.fresh _)
    (hm' := 2) (y' := 0) (f' := 1) (by decide) (by decide) (C72.hostCall 2) (C72.twoDevices_given cycle stackless)
  exact ⟨st', m', F, h1, h2⟩

end NB.C80
