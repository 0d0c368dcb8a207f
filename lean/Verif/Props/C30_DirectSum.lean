import Verif.Props.C29_SelfAttraction
import Verif.Lemmas.EngineBH
import Verif.Lemmas.Sums
import Verif.Lemmas.Vec3Group

/-
C30  Barnes–Hut converges to direct summation.  Exact arithmetic.
-/

namespace NB.C30
open NB NB.Spec

/-- The direct sum: attraction of the bodies listed in `bs` on a mass `m1` at `v1`. -/
noncomputable def direct (B : Bodies ℝ) (v1 : Vec3 ℝ) (m1 : ℝ) (bs : List ℕ) : Vec3 ℝ :=
  (bs.map fun b => force v1 (B.pos b) m1 (B.mass b)).sum

lemma force_self (v : Vec3 ℝ) (m1 m2 : ℝ) : force v v m1 m2 = 0 := by
  rw [force_def]
  ext <;> simp

lemma force_add_mass (v p : Vec3 ℝ) (m1 a b : ℝ) : force v p m1 (a + b) = force v p m1 a + force v p m1 b := by
  rw [force_def, force_def, force_def]
  ext <;> simp <;> ring

lemma force_zero_mass (v p : Vec3 ℝ) (m1 : ℝ) : force v p m1 0 = 0 := by
  rw [force_def]
  ext <;> simp

lemma direct_append (B : Bodies ℝ) (v1 : Vec3 ℝ) (m1 : ℝ) (a b : List ℕ) :
    direct B v1 m1 (a ++ b) = direct B v1 m1 a + direct B v1 m1 b := by
  simp [direct]

lemma direct_at (B : Bodies ℝ) (v1 p : Vec3 ℝ) (m1 : ℝ) {bs : List ℕ} (h : ∀ b ∈ bs, B.pos b = p) :
    direct B v1 m1 bs = force v1 p m1 (bs.map B.mass).sum := by
  induction bs with
  | nil => simp [direct, force_zero_mass]
  | cons b bs ih =>
    have := ih fun b hb => h b (by simp [hb])
    simp only [direct, List.map_cons, List.sum_cons] at this ⊢
    rw [this, h b (by simp), ← force_add_mass]

lemma foldl_sum (v1 : Vec3 ℝ) (m1 : ℝ) (A : List (STree ℝ)) (s : Vec3 ℝ) :
    A.foldl (addForce v1 m1) s = s + (A.map fun a => force v1 a.data.mc m1 a.data.mass).sum := by
  induction A generalizing s with
  | nil => simp
  | cons a A ih =>
    rw [List.foldl_cons, ih, List.map_cons, List.sum_cons, ← add_assoc]
    rfl

lemma sum_eq_direct {B : Bodies ℝ} {ratio : ℝ} {t : STree ℝ} (h : C26.Faithful B ratio t) (v1 : Vec3 ℝ)
    (m1 : ℝ) (hacc : ∀ p l r d, At t p (.node l r d) → accepts v1 d = true →
      ∀ b ∈ (STree.node l r d).bodies, B.pos b = d.mc) :
    ((acceptedNodes v1 t).map fun a => force v1 a.data.mc m1 a.data.mass).sum = direct B v1 m1 t.bodies := by
  induction t with
  | leaf b d =>
    obtain ⟨e, hr⟩ := C28.leaf_at (h _ _ (At.here _))
    simp only [STree.data] at e hr
    simp only [acceptedNodes, STree.bodies]
    have hm := (h _ _ (At.here _)).mass
    simp only [STree.data, STree.bodies, List.map_cons, List.map_nil, List.sum_cons, List.sum_nil,
      add_zero] at hm
    split
    · simp [direct, STree.data, e, hm]
    · next ha =>
      simp only [accepts, real_lt, decide_eq_true_eq, not_lt] at ha
      have := C28.eq_of_norm_le (ha.trans hr)
      rw [e] at this
      simp [direct, this, force_self]
  | node l r d hl hr =>
    simp only [acceptedNodes]
    split
    · next ha =>
      have hp := hacc [] l r d (At.here _) ha
      rw [direct_at B v1 d.mc m1 hp, ← (h _ _ (At.here _)).mass]
      simp [STree.data]
    · rw [List.map_append, List.sum_append,
        hl (fun p s hs => h _ _ (At.left hs)) (fun p l r d hs => hacc _ l r d (At.left hs)),
        hr (fun p s hs => h _ _ (At.right hs)) (fun p l r d hs => hacc _ l r d (At.right hs)),
        STree.bodies, direct_append]

/-- **C30**: if no inner node is accepted for the query point, the walk returns the direct sum over the
bodies of the tree. -/
theorem no_inner_node_accepted {B : Bodies ℝ} {ratio : ℝ} {t : STree ℝ} (hh : t.height ≤ 63)
    (h : C26.Faithful B ratio t) (v1 : Vec3 ℝ) (m1 : ℝ)
    (hacc : ∀ p l r d, At t p (.node l r d) → (v1 - d.mc).norm ≤ d.rsq) :
    spaceTreeTraverse t v1 m1 = .ok (direct B v1 m1 t.bodies) := by
  rw [traverse_eq t v1 m1 (by unfold maxStackSize; omega), foldl_sum, zero_add,
    sum_eq_direct h v1 m1 fun p l r d hat ha => ?_]
  have := hacc p l r d hat
  simp only [accepts, real_lt, decide_eq_true_eq] at ha
  exact absurd ha (not_lt.2 this)

/-- **C30**: when the root is accepted, the walk returns the attraction of the total mass placed at the
centre of mass. -/
theorem root_accepted {B : Bodies ℝ} {ratio : ℝ} {t : STree ℝ} (h : C26.Faithful B ratio t) (v1 : Vec3 ℝ)
    (m1 : ℝ) (hacc : t.data.rsq < (v1 - t.data.mc).norm) :
    ∃ c : Vec3 ℝ, (∀ k, (t.bodies.map B.mass).sum * c.coord k =
        (t.bodies.map fun b => B.mass b * (B.pos b).coord k).sum) ∧
      spaceTreeTraverse t v1 m1 = .ok (force v1 c m1 (t.bodies.map B.mass).sum) := by
  have hs := h _ _ (At.here t)
  refine ⟨t.data.mc, fun k => by rw [← hs.mass]; exact hs.centre k, ?_⟩
  have ha : accepts v1 t.data = true := by simpa [accepts] using hacc
  unfold spaceTreeTraverse
  rw [traverseLoop.eq_def]
  simp only [ha, if_true]
  rw [traverseLoop, ← hs.mass]
  congr 1
  exact zero_add _

/-! ### Large ratios -/

lemma build_ratio {B : Bodies ℝ} {half q : ℝ} {nth : NthElement} {fuel : Nat} {path : List Bool}
    {dim : Nat} {ids : List Nat} {t : STree ℝ} (h : STree.build B half q nth fuel path dim ids = .ok t)
    (q' : ℝ) : STree.build B half q' nth fuel path dim ids = .ok (STree.rebuild B half q' t) := by
  induction fuel generalizing path dim ids t with
  | zero => simp [STree.build] at h
  | succ f ih =>
    rcases build_cases h with ⟨i, rfl, rfl⟩ | ⟨h1, f', l', r', hf, hl, hr, rfl⟩
    · rfl
    · obtain rfl : f = f' := by omega
      rw [build_node _ _ _ _ _ _ _ _ h1, ih hl, ih hr]
      rfl

lemma rebuild_node_data (B : Bodies ℝ) (half q : ℝ) (l r : STree ℝ) (d : NodeData ℝ) :
    (STree.rebuild B half q (.node l r d)).data =
      updateData half q (STree.rebuild B half q l).data (STree.rebuild B half q r).data := rfl

lemma rebuild_data (B : Bodies ℝ) (half q : ℝ) {m : ℕ → ℝ} {t : STree ℝ} (ht : C26.Leaves m t) :
    (STree.rebuild B half q t).data =
      { (STree.rebuild B half 1 t).data with rsq := (STree.rebuild B half 1 t).data.rsq * q } := by
  induction t with
  | leaf b d => simp [STree.rebuild, STree.data, ht.2]
  | node l r d hl hr =>
    rw [rebuild_node_data, rebuild_node_data, hl ht.1, hr ht.2]
    simp [updateData]

lemma large_ratio_tree {B : Bodies ℝ} {t : STree ℝ} (ht : C26.Leaves B.mass t)
    (hpos : ∀ b ∈ t.bodies, 0 < B.mass b) (v1 : Vec3 ℝ) :
    ∃ ρ : ℝ, ∀ ratio, ρ ≤ ratio → ∀ p l r d,
      At (STree.rebuild B (1 / 2) (ratio * ratio) t) p (.node l r d) → accepts v1 d = true →
      ∀ b ∈ (STree.node l r d).bodies, B.pos b = d.mc := by
  induction t with
  | leaf b d =>
    refine ⟨0, fun ratio _ p l r d hat => ?_⟩
    cases hat
  | node l0 r0 d0 hl hr =>
    obtain ⟨ρl, hl⟩ := hl ht.1 (fun b hb => hpos b (by simp [STree.bodies, hb]))
    obtain ⟨ρr, hr⟩ := hr ht.2 (fun b hb => hpos b (by simp [STree.bodies, hb]))
    set D := (STree.rebuild B (1 / 2) 1 (.node l0 r0 d0)).data with hD
    refine ⟨max (max ρl ρr) (max 1 ((v1 - D.mc).norm / D.rsq)), fun ratio hρ p l r d hat ha b hb => ?_⟩
    have hρ1 : ρl ≤ ratio := le_trans (le_trans (le_max_left _ _) (le_max_left _ _)) hρ
    have hρ2 : ρr ≤ ratio := le_trans (le_trans (le_max_right _ _) (le_max_left _ _)) hρ
    have hρ3 : 1 ≤ ratio := le_trans (le_trans (le_max_left _ _) (le_max_right _ _)) hρ
    have hρ4 : (v1 - D.mc).norm / D.rsq ≤ ratio := le_trans (le_trans (le_max_right _ _) (le_max_right _ _)) hρ
    have hat' := hat
    rw [STree.rebuild] at hat
    cases hat with
    | left h => exact hl ratio hρ1 _ _ _ _ h ha b hb
    | right h => exact hr ratio hρ2 _ _ _ _ h ha b hb
    | here =>
      have hdat := rebuild_data B (1 / 2) (ratio * ratio) ht
      rw [← hD] at hdat
      have hsum := C26.rebuild_root (ratio := 1) hpos ht
      rw [mul_one, ← hD] at hsum
      rw [rebuild_node_data] at hdat
      rw [hdat] at ha ⊢
      simp only [accepts, real_lt, decide_eq_true_eq] at ha
      have hb' : b ∈ (STree.node l0 r0 d0).bodies := by
        simpa [STree.bodies, C26.bodies_rebuild] using hb
      have hrad := hsum.radius b hb'
      rw [← norm_eq_dist2, mul_one, mul_one] at hrad
      have h0 : 0 ≤ D.rsq := le_trans (Vec3.norm_nonneg _) hrad
      rcases eq_or_lt_of_le h0 with h0 | h0
      · rw [← h0] at hrad
        exact (C28.eq_of_norm_le hrad).symm
      · rw [div_le_iff₀ h0] at hρ4
        have h5 : ratio * D.rsq ≤ D.rsq * (ratio * ratio) := by
          nlinarith [mul_le_mul_of_nonneg_left hρ3 (mul_nonneg (by linarith : 0 ≤ ratio) h0.le)]
        exact absurd ha (not_lt.2 (hρ4.trans h5))

/-- **C30**: for a fixed set of bodies of positive mass and a query point there is a ratio from which on the
walk over the built tree returns exactly the direct sum.  (Positions may coincide.) -/
theorem large_ratio {count fuel : ℕ} {B : Bodies ℝ} {nth : NthElement} (hn : Reorders nth)
    (hc : count ≤ 2 ^ 63) (hpos : ∀ b < count, 0 < B.mass b) (v1 : Vec3 ℝ) (m1 : ℝ) :
    ∃ ρ : ℝ, ∀ ratio, ρ ≤ ratio → ∀ t, spaceTreeBuild count B (1 / 2) ratio nth fuel = .ok t →
      spaceTreeTraverse t v1 m1 =
        .ok (∑ j ∈ Finset.range count, force v1 (B.pos j) m1 (B.mass j)) := by
  cases h1 : spaceTreeBuild count B (1 / 2) 1 nth fuel with
  | error e =>
    refine ⟨0, fun ratio _ t ht => ?_⟩
    have := build_ratio ht (1 * 1)
    unfold spaceTreeBuild at h1
    rw [h1] at this
    cases this
  | ok t1 =>
    have hb1 : ∀ b ∈ t1.bodies, 0 < B.mass b := fun b hb =>
      hpos b (by simpa using (C25.build_perm hn h1).mem_iff.1 hb)
    obtain ⟨ρ, hρ⟩ := large_ratio_tree (C26.build_fix h1).2 hb1 v1
    refine ⟨ρ, fun ratio hr t ht => ?_⟩
    have e : t = STree.rebuild B (1 / 2) (ratio * ratio) t1 := by
      have := build_ratio h1 (ratio * ratio)
      unfold spaceTreeBuild at ht
      rw [ht] at this
      exact Except.ok.inj this
    have hf := C26.build_summarises hn hpos ht
    rw [traverse_eq t v1 m1 (by
      have := C28.built_tree_height hn hc ht
      unfold maxStackSize; omega), foldl_sum, zero_add,
      sum_eq_direct hf v1 m1 (by rw [e]; exact hρ ratio hr), direct,
      ((C25.build_perm hn ht).map _).sum_eq]
    rfl

/-- **C30** for the engine: for every state of up to `2^63` bodies of positive mass there is a ratio from
which on the Barnes–Hut engine, however its parallel loop is scheduled and whatever tree it held before,
stores exactly what the direct-sum engine stores whenever it performs a full build. -/
theorem engine_large_ratio {n : ℕ} {hm y f : Handle} (hyf : y ≠ f) (hmf : hm ≠ f) {Y M : ℕ → ℝ} {m : Mem ℝ}
    (hy : m y = some (buf (6 * n) Y)) (hM : m hm = some (buf n M)) (hf : m.shape f = some (6 * n))
    (hn0 : 0 < n) (hn : n ≤ 2 ^ 63) (hpos : ∀ i < n, 0 < M i) {nth : NthElement} (hnth : Reorders nth)
    {loop : Loop ℝ} (hl : IsParLoop loop) (vloop : Loop ℝ) :
    ∃ ρ : ℝ, ∀ ratio, ρ ≤ ratio → ∀ step tree, ∃ tree' m',
      bhFcompute (treeIndex (1 / 2) nth 64) loop vloop .cycle ratio 0 step n hm y f tree m = .ok (tree', m') ∧
      fcompute seqFor n hm y f m = .ok m' := by
  set B := bodiesAt n (buf (6 * n) Y) (buf n M) with hB
  have hBp : ∀ i, i < n → B.pos i = posOf n Y i := fun i hi => (bodiesAt_pos Y M hi).1
  have hBm : ∀ i, i < n → B.mass i = M i := fun i hi => (bodiesAt_pos Y M hi).2
  have hall : ∃ ρ : ℝ, ∀ ratio, ρ ≤ ratio → ∀ t, spaceTreeBuild n B (1 / 2) ratio nth 64 = .ok t →
      ∀ i < n, spaceTreeTraverse t (B.pos i) (M i) =
        .ok (∑ j ∈ Finset.range n, force (B.pos i) (B.pos j) (M i) (B.mass j)) := by
    have key : ∀ k, ∃ ρ : ℝ, ∀ ratio, ρ ≤ ratio → ∀ t, spaceTreeBuild n B (1 / 2) ratio nth 64 = .ok t →
        ∀ i < k, spaceTreeTraverse t (B.pos i) (M i) =
          .ok (∑ j ∈ Finset.range n, force (B.pos i) (B.pos j) (M i) (B.mass j)) := by
      intro k
      induction k with
      | zero => exact ⟨0, fun _ _ _ _ i hi => absurd hi (Nat.not_lt_zero i)⟩
      | succ k ih =>
        obtain ⟨ρ1, h1⟩ := ih
        obtain ⟨ρ2, h2⟩ := large_ratio (fuel := 64) (B := B) hnth hn
          (fun b hb => by rw [hBm b hb]; exact hpos b hb) (B.pos k) (M k)
        refine ⟨max ρ1 ρ2, fun ratio hr t ht i hi => ?_⟩
        rcases Nat.lt_succ_iff_lt_or_eq.1 hi with hi | rfl
        · exact h1 ratio (le_trans (le_max_left _ _) hr) t ht i hi
        · exact h2 ratio (le_trans (le_max_right _ _) hr) t ht
    exact key n
  obtain ⟨ρ, hρ⟩ := hall
  refine ⟨ρ, fun ratio hr step tree => ?_⟩
  obtain ⟨t, ht⟩ := C25.build_terminates (k := 63) (fuel := 64) B (1 / 2) ratio hnth hn0 hn (by norm_num)
  refine ⟨some t, m.set f (buf (6 * n) (derivVal n Y M)), ?_, fcompute_eq hyf hmf hy hM hf⟩
  have hT : ∀ i, i < n → spaceTreeTraverse t (posOf n Y i) (M i) = .ok (totalForce n Y M i) := by
    intro i hi
    rw [← hBp i hi, hρ ratio hr t ht i hi]
    congr 1
    unfold totalForce
    rw [hBp i hi]
    refine Eq.trans ?_ (foldN_sum_erase n i fun j => force (posOf n Y i) (posOf n Y j) (M i) (M j)).symm
    rw [Finset.sum_erase (Finset.range n) (force_self (posOf n Y i) (M i) (M i))]
    refine Finset.sum_congr rfl fun j hj => ?_
    rw [hBp j (Finset.mem_range.1 hj), hBm j (Finset.mem_range.1 hj)]
  obtain ⟨lf, hlf⟩ : ∃ lf, m f = some lf := by
    cases hmf' : m f with
    | none => simp [Mem.shape, hmf'] at hf
    | some lf => exact ⟨lf, rfl⟩
  have hlen : lf.length = 6 * n := by simpa [Mem.shape, hlf] using hf
  have hcyc := parLoop_eq_seq hl (bhCycleBody_independent hyf hmf (n := n)
    (trav := spaceTreeTraverse t)) (bhCycle_eq hyf hmf hy hM hf hT)
  simp only [bhFcompute, hy, hlf, hM, ← hB, hlen]
  simp only [treeIndex, ht, bind, Except.bind, decide_true, Bool.true_or, if_true]
  rw [show (fun v1 mass1 => spaceTreeTraverse t v1 mass1) = spaceTreeTraverse t from rfl, hcyc]
  rfl

/-! Non-vacuity: the five-body tree; the root is accepted from far away and no inner node from inside with
ratio one thousand; the engine theorem applies to two bodies. -/

example : ∃ ρ : ℝ, ∀ ratio, ρ ≤ ratio → ∀ t, spaceTreeBuild 5 C25.five (1 / 2) ratio C25.sortIds 4 = .ok t →
    spaceTreeTraverse t (C25.five.pos 1) 1 =
      .ok (∑ j ∈ Finset.range 5, force (C25.five.pos 1) (C25.five.pos j) 1 (C25.five.mass j)) :=
  large_ratio C25.sortIds_reorders (by norm_num) (fun _ _ => by simp [C25.five]) _ _

/-- Buffers of two bodies. -/
noncomputable def mem2 : Mem ℝ := fun h =>
  if h = 0 then some (buf 2 fun _ => 1) else if h = 1 then some (buf 12 fun i => (i : ℝ)) else
    if h = 2 then some (buf 12 fun _ => 0) else none

example : ∃ ρ : ℝ, ∀ ratio, ρ ≤ ratio → ∀ step tree, ∃ tree' m',
    bhFcompute (treeIndex (1 / 2) C25.sortIds 64) (orderedFor fun n => (List.range n).reverse) seqFor
      .cycle ratio 0 step 2 0 1 2 tree mem2 = .ok (tree', m') ∧ fcompute seqFor 2 0 1 2 mem2 = .ok m' :=
  engine_large_ratio (Y := fun i => (i : ℝ)) (M := fun _ => 1) (by decide) (by decide)
    (by simp [mem2]) (by simp [mem2]) (by simp [mem2, Mem.shape, buf]) (by norm_num) (by norm_num)
    (fun _ _ => one_pos) C25.sortIds_reorders (orderedFor_isParLoop fun _ => List.reverse_perm _) seqFor

end NB.C30
