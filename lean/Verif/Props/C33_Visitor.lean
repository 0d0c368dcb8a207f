import Verif.Props.C30_DirectSum

/-
C33  The visitor traversal of the pointer tree calls the visitor exactly once for each body when the ratio
is not zero and no two bodies coincide; otherwise it reports an inner node with an invalid body number.
(The heap layouts are in C33_HeapVisitor.)
-/

namespace NB.C33
open NB NB.Spec

section
variable {S : Type} [Add S] [Sub S] [Mul S] [Neg S] [Div S] [One S] [Zero S] [FOps S]

/-- Visitor calls when every inner node is opened. -/
def leafCalls : STree S → List (ℕ × Vec3 S × S)
  | .leaf b d => [(b, d.mc, d.mass)]
  | .node l r _ => leafCalls r ++ leafCalls l

/-- Inner nodes have a positive stored radius, leaves do not. -/
def Opens : STree S → Prop
  | .leaf _ d => FOps.lt 0 d.rsq = false
  | .node l r d => FOps.lt 0 d.rsq = true ∧ Opens l ∧ Opens r

lemma visitLoop_eq : ∀ (N : Nat) (st : List (STree S)) (acc : List (ℕ × Vec3 S × S)),
    stackSize st ≤ N → Fits st → (∀ t ∈ st, Opens t) →
      visitLoop st acc = .ok (acc ++ st.flatMap leafCalls) := by
  intro N
  induction N with
  | zero =>
    intro st acc hN hf ho
    cases st with
    | nil => rw [visitLoop]; simp
    | cons t st =>
      have := STree.size_pos t
      simp only [stackSize, List.map_cons, List.sum_cons] at hN
      omega
  | succ N ih =>
    intro st acc hN hf ho
    cases st with
    | nil => rw [visitLoop]; simp
    | cons t st =>
      have hsz := STree.size_pos t
      simp only [stackSize, List.map_cons, List.sum_cons] at hN
      cases t with
      | leaf b d =>
        have h1 : FOps.lt 0 d.rsq = false := ho (.leaf b d) (by simp)
        rw [visitLoop]
        simp only [STree.data, h1, List.flatMap_cons, leafCalls]
        rw [if_neg (by simp), ih st _ (by unfold stackSize; omega) hf.2 fun t ht => ho t (by simp [ht])]
        simp
      | node l r d =>
        obtain ⟨h1, h2, h3⟩ : FOps.lt 0 d.rsq = true ∧ Opens l ∧ Opens r := ho (.node l r d) (by simp)
        rw [visitLoop]
        simp only [STree.data, h1, List.flatMap_cons, leafCalls, if_true]
        have h4 := hf.1
        simp only [STree.height, STree.size] at h4 hN
        rw [if_neg (by omega), ih (r :: l :: st) _ (by simp only [stackSize, List.map_cons, List.sum_cons]; omega)
          ⟨by simp only [List.length_cons]; omega, by omega, hf.2⟩ ?_]
        · simp
        · intro t ht
          rcases List.mem_cons.1 ht with rfl | ht
          · exact h3
          · rcases List.mem_cons.1 ht with rfl | ht
            · exact h2
            · exact ho t (by simp [ht])

end

lemma calls_perm {B : Bodies ℝ} {ratio : ℝ} {t : STree ℝ} (h : C26.Faithful B ratio t) :
    (leafCalls t).Perm (t.bodies.map fun b => (b, B.pos b, B.mass b)) := by
  induction t with
  | leaf b d =>
    have hs := h _ _ (At.here _)
    have hm := hs.mass
    simp only [STree.bodies, STree.data, List.map_cons, List.map_nil, List.sum_cons, List.sum_nil,
      add_zero] at hm
    have e := (C28.leaf_at hs).1
    simp only [STree.data] at e
    simp [leafCalls, STree.bodies, hm, e]
  | node l r d hl hr =>
    simp only [leafCalls, STree.bodies, List.map_append]
    exact ((hr fun p s hs => h _ _ (At.right hs)).append (hl fun p s hs => h _ _ (At.left hs))).trans
      List.perm_append_comm

lemma opens {B : Bodies ℝ} {ratio : ℝ} (hr : ratio ≠ 0) {t : STree ℝ} (h : C26.Faithful B ratio t)
    (hnd : t.bodies.Nodup) (hdist : ∀ i ∈ t.bodies, ∀ j ∈ t.bodies, i ≠ j → B.pos i ≠ B.pos j) : Opens t := by
  induction t with
  | leaf b d =>
    have := (C28.leaf_at (h _ _ (At.here _))).2
    simp only [STree.data] at this
    simpa [Opens] using this
  | node l r d hl hr' =>
    simp only [STree.bodies] at hnd hdist
    have hnd' := List.nodup_append.1 hnd
    refine ⟨?_, hl (fun p s hs => h _ _ (At.left hs)) hnd'.1 fun i hi j hj =>
        hdist i (List.mem_append_left _ hi) j (List.mem_append_left _ hj),
      hr' (fun p s hs => h _ _ (At.right hs)) hnd'.2.1 fun i hi j hj =>
        hdist i (List.mem_append_right _ hi) j (List.mem_append_right _ hj)⟩
    obtain ⟨a, ha⟩ : ∃ a, a ∈ l.bodies := List.exists_mem_of_length_pos (STree.bodies_length_pos l)
    obtain ⟨b, hb⟩ : ∃ b, b ∈ r.bodies := List.exists_mem_of_length_pos (STree.bodies_length_pos r)
    have hab : a ≠ b := hnd'.2.2 a ha b hb
    have hs := h _ _ (At.here _)
    have hpa := hs.radius a (List.mem_append_left _ ha)
    have hpb := hs.radius b (List.mem_append_right _ hb)
    simp only [STree.data, ← norm_eq_dist2] at hpa hpb
    simp only [real_lt, decide_eq_true_eq]
    by_contra hc
    push Not at hc
    have hr2 : 0 < ratio * ratio := mul_self_pos.2 hr
    have za : (B.pos a - d.mc).norm ≤ 0 := by
      by_contra hn
      push Not at hn
      nlinarith [mul_pos hn hr2]
    have zb : (B.pos b - d.mc).norm ≤ 0 := by
      by_contra hn
      push Not at hn
      nlinarith [mul_pos hn hr2]
    exact hdist a (List.mem_append_left _ ha) b (List.mem_append_right _ hb) hab
      ((C28.eq_of_norm_le za).symm.trans (C28.eq_of_norm_le zb))

/-- **C33** for the pointer tree, as far as it holds: with a ratio other than zero and bodies at pairwise
different positions, the visitor is called exactly once for each body, with its position and mass.
Missing: coinciding bodies and ratio zero, where the claim is false (`ratio_zero_reports_no_body`,
`coincident_reports_no_body`). -/
theorem tree_visits_each_body_partial {B : Bodies ℝ} {ratio : ℝ} (hr : ratio ≠ 0) {t : STree ℝ}
    (hh : t.height ≤ 63) (h : C26.Faithful B ratio t) (hnd : t.bodies.Nodup)
    (hdist : ∀ i ∈ t.bodies, ∀ j ∈ t.bodies, i ≠ j → B.pos i ≠ B.pos j) :
    ∃ vs, spaceTreeVisit t = .ok vs ∧ vs.Perm (t.bodies.map fun b => (b, B.pos b, B.mass b)) := by
  refine ⟨leafCalls t, ?_, calls_perm h⟩
  have := visitLoop_eq _ [t] [] (Nat.le_refl _) ⟨by unfold maxStackSize; simp; omega, trivial⟩
    (by simpa using opens hr h hnd hdist)
  simpa [spaceTreeVisit] using this

/-- An inner node whose stored radius is not positive is reported with the body number `TREE_NO_BODY`. -/
lemma visit_degenerate (l r : STree ℝ) (d : NodeData ℝ) (h : d.rsq ≤ 0) :
    spaceTreeVisit (.node l r d) = .ok [(noBody, d.mc, d.mass)] := by
  unfold spaceTreeVisit
  rw [visitLoop]
  have hd : decide (0 < d.rsq) = false := by simpa using h
  simp only [STree.data, real_lt, hd, Bool.false_eq_true, if_false, visitLoop]
  rfl

lemma built_node {count : ℕ} {B : Bodies ℝ} {ratio : ℝ} {nth : NthElement} {fuel : ℕ} {t : STree ℝ}
    (hn : Reorders nth) (hc : 2 ≤ count) (h : spaceTreeBuild count B (1 / 2) ratio nth fuel = .ok t) :
    ∃ l r d, t = .node l r d := by
  cases t with
  | leaf b d =>
    have := (C25.build_partition hn h).1
    simp [STree.bodies] at this
    omega
  | node l r d => exact ⟨l, r, d, rfl⟩

/-- The violation for ratio zero (the default of the constructors): with two or more bodies the visitor is
called once, with the body number `TREE_NO_BODY`, whatever the bodies are. -/
theorem ratio_zero_reports_no_body {count : ℕ} {B : Bodies ℝ} {nth : NthElement} {fuel : ℕ} {t : STree ℝ}
    (hn : Reorders nth) (hc : 2 ≤ count) (hpos : ∀ b < count, 0 < B.mass b)
    (h : spaceTreeBuild count B (1 / 2) 0 nth fuel = .ok t) :
    spaceTreeVisit t = .ok [(noBody, t.data.mc, t.data.mass)] := by
  obtain ⟨l, r, d, rfl⟩ := built_node hn hc h
  refine visit_degenerate l r d ?_
  have := (C26.build_summarises hn hpos h _ _ (At.here _)).radius_le
  simpa [STree.data] using this

/-- The violation for coinciding bodies: if all bodies (two or more) are at the same place, the same happens
for every ratio. -/
theorem coincident_reports_no_body {count : ℕ} {B : Bodies ℝ} {ratio : ℝ} {nth : NthElement} {fuel : ℕ}
    {t : STree ℝ} (hn : Reorders nth) (hc : 2 ≤ count) (hpos : ∀ b < count, 0 < B.mass b) (p : Vec3 ℝ)
    (hp : ∀ b < count, B.pos b = p) (h : spaceTreeBuild count B (1 / 2) ratio nth fuel = .ok t) :
    spaceTreeVisit t = .ok [(noBody, t.data.mc, t.data.mass)] := by
  obtain ⟨l, r, d, rfl⟩ := built_node hn hc h
  refine visit_degenerate l r d ?_
  have hs := C26.build_summarises hn hpos h _ _ (At.here _)
  have hb : ∀ b ∈ (STree.node l r d).bodies, B.pos b = p := fun b hb =>
    hp b (by simpa using (C25.build_perm hn h).mem_iff.1 hb)
  have h1 : ∀ k, d.bmax.coord k = p.coord k := fun k => by
    obtain ⟨b, hb', e⟩ := (hs.box_max k).2
    rw [hb b hb'] at e; exact e
  have h2 : ∀ k, d.bmin.coord k = p.coord k := fun k => by
    obtain ⟨b, hb', e⟩ := (hs.box_min k).2
    rw [hb b hb'] at e; exact e
  have := hs.radius_le
  simpa [STree.data, Spec.dist2, h1, h2] using this

/-- What the two traversal modes of the Barnes–Hut engine on the pointer tree compute agrees, however the
loop over the bodies is scheduled, for up to `2^63` bodies of positive mass at pairwise different positions
and a ratio other than zero. -/
theorem nested_eq_cycle_partial {n : ℕ} {hm y f : Handle} (hyf : y ≠ f) (hmf : hm ≠ f) {Y M : ℕ → ℝ}
    {m : Mem ℝ} (hy : m y = some (buf (6 * n) Y)) (hM : m hm = some (buf n M))
    (hf : m.shape f = some (6 * n)) (hn0 : 0 < n) (hn : n ≤ 2 ^ 63) (hpos : ∀ i < n, 0 < M i)
    (hdist : ∀ i < n, ∀ j < n, i ≠ j → posOf n Y i ≠ posOf n Y j)
    {nth : NthElement} (hnth : Reorders nth) {ratio : ℝ} (hr : ratio ≠ 0)
    {loop : Loop ℝ} (hl : IsParLoop loop) (step : ℕ) (tree : Option (STree ℝ)) :
    ∃ r, bhFcompute (treeIndex (1 / 2) nth 64) loop seqFor .cycle ratio 0 step n hm y f tree m = .ok r ∧
      bhFcompute (treeIndex (1 / 2) nth 64) loop seqFor .nestedTree ratio 0 step n hm y f tree m = .ok r := by
  set B := bodiesAt n (buf (6 * n) Y) (buf n M) with hB
  have hBp : ∀ i, i < n → B.pos i = posOf n Y i := fun i hi => (bodiesAt_pos Y M hi).1
  have hBm : ∀ i, i < n → B.mass i = M i := fun i hi => (bodiesAt_pos Y M hi).2
  obtain ⟨t, ht⟩ := C25.build_terminates (k := 63) (fuel := 64) B (1 / 2) ratio hnth hn0 hn (by norm_num)
  have hh := C28.built_tree_height hnth hn ht
  have hF : C26.Faithful B ratio t :=
    C26.build_summarises hnth (fun b hb => by rw [hBm b hb]; exact hpos b hb) ht
  have hperm := C25.build_perm hnth ht
  have hlt : ∀ b ∈ t.bodies, b < n := fun b hb => by simpa using hperm.mem_iff.1 hb
  obtain ⟨lf, hlf⟩ : ∃ lf, m f = some lf := by
    cases hmf' : m f with
    | none => simp [Mem.shape, hmf'] at hf
    | some lf => exact ⟨lf, rfl⟩
  have hlen : lf.length = 6 * n := by simpa [Mem.shape, hlf] using hf
  have hT : ∀ i, i < n → spaceTreeTraverse t (posOf n Y i) (M i) =
      .ok ((acceptedNodes (posOf n Y i) t).foldl (addForce (posOf n Y i) (M i)) 0) := fun i _ =>
    traverse_eq t _ _ (by unfold maxStackSize; omega)
  obtain ⟨vs, hvs, hvp⟩ := tree_visits_each_body_partial hr hh hF
    (hperm.nodup_iff.2 List.nodup_range) (fun i hi j hj hij => by
      rw [hBp i (hlt i hi), hBp j (hlt j hj)]
      exact hdist i (hlt i hi) j (hlt j hj) hij)
  have hvp' : vs.Perm ((List.range n).map fun i => (i, posOf n Y i, M i)) := by
    refine (hvp.trans (hperm.map _)).trans (List.Perm.of_eq ?_)
    apply List.map_congr_left
    intro i hi
    rw [hBp i (List.mem_range.1 hi), hBm i (List.mem_range.1 hi)]
  have hcyc := parLoop_eq_seq hl (bhCycleBody_independent hyf hmf (n := n)
    (trav := spaceTreeTraverse t)) (bhCycle_eq hyf hmf hy hM hf hT)
  have hvis := bhVisit_eq (lenF := 6 * n) (trav := spaceTreeTraverse t) hyf hmf hy hM hf hT hvp'
  refine ⟨(some t, m.set f (buf (6 * n) (derivOf n Y M fun i =>
    (acceptedNodes (posOf n Y i) t).foldl (addForce (posOf n Y i) (M i)) 0))), ?_, ?_⟩
  · simp only [bhFcompute, hy, hlf, hM, ← hB, hlen]
    simp only [treeIndex, ht, bind, Except.bind, decide_true, Bool.true_or, if_true]
    rw [show (fun v1 mass1 => spaceTreeTraverse t v1 mass1) = spaceTreeTraverse t from rfl, hcyc]
  · simp only [bhFcompute, hy, hlf, hM, ← hB, hlen]
    simp only [treeIndex, ht, bind, Except.bind, decide_true, Bool.true_or, if_true, hvs]
    exact congrArg (fun r : Res (Mem ℝ) => Except.bind r fun v => .ok (some t, v)) hvis

/-- The consequence of the violation: in the nested-tree mode with ratio zero every evaluation of two or
more bodies (at most `2^63`) accesses memory outside the buffers. -/
theorem nested_ratio_zero_bad_access {n : ℕ} {hm y f : Handle} {Y M : ℕ → ℝ}
    {m : Mem ℝ} (hy : m y = some (buf (6 * n) Y)) (hM : m hm = some (buf n M))
    (hf : m.shape f = some (6 * n)) (hn0 : 2 ≤ n) (hn : n ≤ 2 ^ 63) (hpos : ∀ i < n, 0 < M i)
    {nth : NthElement} (hnth : Reorders nth) (loop : Loop ℝ) (step : ℕ) (tree : Option (STree ℝ)) :
    bhFcompute (treeIndex (1 / 2) nth 64) loop seqFor .nestedTree 0 0 step n hm y f tree m = .error .oob := by
  set B := bodiesAt n (buf (6 * n) Y) (buf n M) with hB
  have hBm : ∀ i, i < n → B.mass i = M i := fun i hi => (bodiesAt_pos Y M hi).2
  obtain ⟨t, ht⟩ := C25.build_terminates (k := 63) (fuel := 64) B (1 / 2) 0 hnth (by omega : 0 < n) hn
    (by norm_num)
  have hh := C28.built_tree_height hnth hn ht
  have hv := ratio_zero_reports_no_body hnth hn0 (fun b hb => by rw [hBm b hb]; exact hpos b hb) ht
  obtain ⟨lf, hlf⟩ : ∃ lf, m f = some lf := by
    cases hmf' : m f with
    | none => simp [Mem.shape, hmf'] at hf
    | some lf => exact ⟨lf, rfl⟩
  have hno : m.cell hm noBody = none := by
    rw [Mem.cell_buf hM, if_neg]
    unfold noBody
    omega
  simp only [bhFcompute, hy, hlf, hM, ← hB]
  simp only [treeIndex, ht, bind, Except.bind, decide_true, Bool.true_or, if_true, hv]
  have htr := traverse_eq t t.data.mc t.data.mass (by unfold maxStackSize; omega)
  have hrun : (bhVisitBody n hm y f lf.length (fun v1 mass1 => spaceTreeTraverse t v1 mass1)
      (noBody, t.data.mc, t.data.mass)).run m = .error .oob := by
    simp only [bhVisitBody, htr, Prog.run_bind]
    simp only [Prog.get, Prog.run, hno]
    rfl
  rw [List.length_singleton, seqFor_succ, seqFor_ret (n := 0) (by intro i hi; omega)]
  simp only [res_ok_bind, List.getElem?_cons_zero]
  rw [hrun]
  rfl

/-! Non-vacuity: five bodies on a line, ratio one; two bodies with ratio zero. -/

example : ∃ t vs, spaceTreeBuild 5 C25.five (1 / 2) 1 C25.sortIds 4 = .ok t ∧ spaceTreeVisit t = .ok vs ∧
    vs.Perm (t.bodies.map fun b => (b, C25.five.pos b, C25.five.mass b)) := by
  obtain ⟨t, ht⟩ := C25.build_terminates (k := 3) (fuel := 4) C25.five (1 / 2) 1 C25.sortIds_reorders
    (by norm_num : 0 < 5) (by norm_num) (by norm_num)
  have hp := C25.build_perm C25.sortIds_reorders ht
  obtain ⟨vs, h1, h2⟩ := tree_visits_each_body_partial one_ne_zero
    (C28.built_tree_height C25.sortIds_reorders (by norm_num) ht)
    (C26.build_summarises C25.sortIds_reorders (fun _ _ => by simp [C25.five]) ht)
    (hp.nodup_iff.2 List.nodup_range) (fun i _ j _ hij e => hij (by
      have := congrArg Vec3.x e
      simpa [Bodies.pos, C25.five] using this))
  exact ⟨t, vs, ht, h1, h2⟩

example (loop : Loop ℝ) : bhFcompute (treeIndex (1 / 2) C25.sortIds 64) loop seqFor .nestedTree 0 0 0 2 0 1 2
    none C30.mem2 = .error .oob :=
  nested_ratio_zero_bad_access (Y := fun i => (i : ℝ)) (M := fun _ => 1)
    (by simp [C30.mem2]) (by simp [C30.mem2]) (by simp [C30.mem2, Mem.shape, buf]) (by norm_num)
    (by norm_num) (fun _ _ => one_pos) C25.sortIds_reorders loop 0 none

end NB.C33
