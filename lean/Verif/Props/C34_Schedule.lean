import Verif.Props.C33_Visitor
import Mathlib.Algebra.Order.Ring.Nat

/-
C34  When the Barnes–Hut engine rebuilds its tree, over whole histories of evaluations.
-/

namespace NB.C34
open NB NB.Spec

/-- One call of `fcompute` on `n` bodies of masses `M`: the step counter and the memory at that moment, whose
buffer `y` holds the state `Y`. -/
structure Evaluation (n : ℕ) (hm y f : Handle) (M : ℕ → ℝ) where
  step : ℕ
  Y : ℕ → ℝ
  mem : Mem ℝ
  hy : mem y = some (buf (6 * n) Y)
  hM : mem hm = some (buf n M)
  hf : mem.shape f = some (6 * n)

section
variable {n : ℕ} {hm y f : Handle} {M : ℕ → ℝ}

/-- Where the bodies are at an evaluation. -/
def Evaluation.bodies (e : Evaluation n hm y f M) : Bodies ℝ where
  rx i := (posOf n e.Y i).x
  ry i := (posOf n e.Y i).y
  rz i := (posOf n e.Y i).z
  mass := M

/-- The tree held by the engine after a sequence of evaluations, starting without a tree. -/
noncomputable def history (nth : NthElement) (loop vloop : Loop ℝ) (ratio : ℝ) (rate : ℕ) :
    List (Evaluation n hm y f M) → Res (Option (STree ℝ)) :=
  List.foldlM (fun tree e => do
    let r ← bhFcompute (treeIndex (1 / 2) nth 64) loop vloop .cycle ratio rate e.step n hm y f tree e.mem
    .ok r.1) none

/-- The documented schedule: a full build is due at evaluation number `k` of the list. -/
def Due (rate : ℕ) (es : List (Evaluation n hm y f M)) (k : ℕ) (e : Evaluation n hm y f M) : Prop :=
  es[k]? = some e ∧ (k = 0 ∨ rate = 0 ∨ rate ∣ e.step)

lemma build_congr {B B' : Bodies ℝ} {half ratio2 : ℝ} {nth : NthElement} (hn : Reorders nth)
    {fuel : ℕ} {path : List Bool} {dim : ℕ} {ids : List ℕ} (hp : ∀ i ∈ ids, B.pos i = B'.pos i)
    (hm : ∀ i ∈ ids, B.mass i = B'.mass i) :
    STree.build B half ratio2 nth fuel path dim ids = STree.build B' half ratio2 nth fuel path dim ids := by
  induction fuel generalizing path dim ids with
  | zero => rfl
  | succ fl ih =>
    by_cases h1 : ids.length = 1
    · obtain ⟨i, rfl⟩ := List.length_eq_one_iff.1 h1
      rw [build_leaf, build_leaf, hp i (by simp), hm i (by simp)]
    · rw [build_node _ _ _ _ _ _ _ _ h1, build_node _ _ _ _ _ _ _ _ h1]
      have hmem : ∀ i, i ∈ nth path dim ids → i ∈ ids := fun i hi => (hn path dim ids).mem_iff.1 hi
      rw [ih (fun i hi => hp i (hmem i (List.mem_of_mem_take hi)))
          (fun i hi => hm i (hmem i (List.mem_of_mem_take hi))),
        ih (fun i hi => hp i (hmem i (List.mem_of_mem_drop hi)))
          (fun i hi => hm i (hmem i (List.mem_of_mem_drop hi)))]

lemma rebuild_congr {B B' : Bodies ℝ} {half ratio2 : ℝ} {t : STree ℝ}
    (hp : ∀ i ∈ t.bodies, B.pos i = B'.pos i) :
    STree.rebuild B half ratio2 t = STree.rebuild B' half ratio2 t := by
  induction t with
  | leaf b d => simp [STree.rebuild, hp b (by simp [STree.bodies])]
  | node l r d hl hr =>
    simp only [STree.rebuild]
    rw [hl fun i hi => hp i (by simp [STree.bodies, hi]), hr fun i hi => hp i (by simp [STree.bodies, hi])]

lemma height_layout {S : Type} : ∀ {t t' : STree S}, layout t = layout t' → t.height = t'.height ∧ t.bodies = t'.bodies
  | .leaf _ _, .leaf _ _, h => by simp only [layout, Layout.leaf.injEq] at h; simp [STree.height, STree.bodies, h]
  | .leaf _ _, .node _ _ _, h => by simp [layout] at h
  | .node _ _ _, .leaf _ _, h => by simp [layout] at h
  | .node l r _, .node l' r' _, h => by
    simp only [layout, Layout.node.injEq] at h
    have h1 := height_layout h.1
    have h2 := height_layout h.2
    simp [STree.height, STree.bodies, h1, h2]

/-- One evaluation: it succeeds, the tree afterwards is a fresh one or the refreshed old one, and the result is that
of a walk over this tree for every body. -/
lemma evaluate_walks {nth : NthElement} (hnth : Reorders nth) {loop : Loop ℝ} (hl : IsParLoop loop) (vloop : Loop ℝ)
    (hyf : y ≠ f) (hmf : hm ≠ f) (hn0 : 0 < n) (hn : n ≤ 2 ^ 63) (ratio : ℝ) (rate : ℕ)
    (e : Evaluation n hm y f M) (tree : Option (STree ℝ))
    (ht : ∀ t, tree = some t → t.height ≤ 63 ∧ t.bodies.Perm (List.range n)) :
    ∃ t', bhFcompute (treeIndex (1 / 2) nth 64) loop vloop .cycle ratio rate e.step n hm y f tree e.mem =
        .ok (some t', e.mem.set f (buf (6 * n) (derivOf n e.Y M fun i =>
          (acceptedNodes (posOf n e.Y i) t').foldl (addForce (posOf n e.Y i) (M i)) 0))) ∧
      ((rate = 0 ∨ tree = none ∨ rate ∣ e.step) → spaceTreeBuild n e.bodies (1 / 2) ratio nth 64 = .ok t') ∧
      (∀ t, tree = some t → rate ≠ 0 → ¬ rate ∣ e.step → t' = spaceTreeRebuild e.bodies (1 / 2) ratio t) := by
  set B := bodiesAt n (buf (6 * n) e.Y) (buf n M) with hB
  have hBp : ∀ i, i < n → B.pos i = e.bodies.pos i := fun i hi => (bodiesAt_pos e.Y M hi).1
  have hBm : ∀ i, i < n → B.mass i = e.bodies.mass i := fun i hi => (bodiesAt_pos e.Y M hi).2
  obtain ⟨lf, hlf⟩ : ∃ lf, e.mem f = some lf := by
    have := e.hf
    cases hmf' : e.mem f with
    | none => simp [Mem.shape, hmf'] at this
    | some lf => exact ⟨lf, rfl⟩
  have hlen : lf.length = 6 * n := by
    have := e.hf
    simpa [Mem.shape, hlf] using this
  have hcyc : ∀ t : STree ℝ, t.height ≤ 63 →
      loop n (bhCycleBody n hm y f (6 * n) (spaceTreeTraverse t)) e.mem =
        .ok (e.mem.set f (buf (6 * n) (derivOf n e.Y M fun i =>
          (acceptedNodes (posOf n e.Y i) t).foldl (addForce (posOf n e.Y i) (M i)) 0))) := fun t hh =>
    parLoop_eq_seq hl (bhCycleBody_independent hyf hmf (n := n) (trav := spaceTreeTraverse t))
      (bhCycle_eq hyf hmf e.hy e.hM e.hf (T := fun i =>
        (acceptedNodes (posOf n e.Y i) t).foldl (addForce (posOf n e.Y i) (M i)) 0) fun i _ =>
        traverse_eq t _ _ (by unfold maxStackSize; omega))
  have hbuild : spaceTreeBuild n B (1 / 2) ratio nth 64 = spaceTreeBuild n e.bodies (1 / 2) ratio nth 64 :=
    build_congr hnth (fun i hi => hBp i (List.mem_range.1 hi)) (fun i hi => hBm i (List.mem_range.1 hi))
  by_cases hc : rate = 0 ∨ tree = none ∨ rate ∣ e.step
  · obtain ⟨t, hbt⟩ := C25.build_terminates (k := 63) (fuel := 64) e.bodies (1 / 2) ratio hnth hn0 hn
      (by norm_num)
    have hm' := hcyc t (C28.built_tree_height hnth hn hbt)
    have hcond : ((decide (rate = 0) || (treeIndex (1 / 2 : ℝ) nth 64).isEmpty tree || decide (e.step % rate = 0)) = true) := by
      rcases hc with h | h | h
      · simp [h]
      · simp [treeIndex, h]
      · simp [Nat.mod_eq_zero_of_dvd h]
    refine ⟨t, ?_, fun _ => hbt, ?_⟩
    · simp only [bhFcompute, e.hy, hlf, e.hM, ← hB, hlen]
      rw [if_pos hcond]
      simp only [treeIndex, hbuild, hbt, bind, Except.bind]
      rw [show (fun v1 mass1 => spaceTreeTraverse t v1 mass1) = spaceTreeTraverse t from rfl, hm']
    · intro t0 h0 hr0 hd
      rcases hc with h | h | h
      · exact absurd h hr0
      · simp [h] at h0
      · exact absurd h hd
  · push Not at hc
    obtain ⟨hr0, hne, hd⟩ := hc
    obtain ⟨t, rfl⟩ : ∃ t, tree = some t := by
      cases tree with
      | none => exact absurd rfl hne
      | some t => exact ⟨t, rfl⟩
    obtain ⟨hh, hp⟩ := ht t rfl
    have hlt : ∀ i ∈ t.bodies, i < n := fun i hi => List.mem_range.1 (hp.mem_iff.1 hi)
    have hreb : spaceTreeRebuild B (1 / 2) ratio t = spaceTreeRebuild e.bodies (1 / 2) ratio t :=
      rebuild_congr fun i hi => hBp i (hlt i hi)
    have hlay : layout (spaceTreeRebuild e.bodies (1 / 2) ratio t) = layout t :=
      C26.rebuild_layout [(e.bodies, ratio)] t
    have hm' := hcyc (spaceTreeRebuild e.bodies (1 / 2) ratio t)
      (by rw [(height_layout hlay).1]; exact hh)
    have hcond : ¬ ((decide (rate = 0) || (treeIndex (1 / 2 : ℝ) nth 64).isEmpty (some t) || decide (e.step % rate = 0)) = true) := by
      have : ¬ e.step % rate = 0 := fun h => hd (Nat.dvd_of_mod_eq_zero h)
      simp [treeIndex, hr0, this]
    refine ⟨spaceTreeRebuild e.bodies (1 / 2) ratio t, ?_, fun h => ?_, fun t0 h0 _ _ => ?_⟩
    · simp only [bhFcompute, e.hy, hlf, e.hM, ← hB, hlen]
      rw [if_neg hcond]
      have hall : (t.bodies.all fun x => decide (x < n)) = true := by simpa using hlt
      simp only [treeIndex, hall, if_true, hreb, bind, Except.bind]
      rw [show (fun v1 mass1 => spaceTreeTraverse (spaceTreeRebuild e.bodies (1 / 2) ratio t) v1 mass1) =
        spaceTreeTraverse (spaceTreeRebuild e.bodies (1 / 2) ratio t) from rfl, hm']
    · rcases h with h | h | h
      · exact absurd h hr0
      · cases h
      · exact absurd h hd
    · rw [Option.some.inj h0]

lemma evaluate {nth : NthElement} (hnth : Reorders nth) {loop : Loop ℝ} (hl : IsParLoop loop) (vloop : Loop ℝ)
    (hyf : y ≠ f) (hmf : hm ≠ f) (hn0 : 0 < n) (hn : n ≤ 2 ^ 63) (ratio : ℝ) (rate : ℕ)
    (e : Evaluation n hm y f M) (tree : Option (STree ℝ))
    (ht : ∀ t, tree = some t → t.height ≤ 63 ∧ t.bodies.Perm (List.range n)) :
    ∃ t' m', bhFcompute (treeIndex (1 / 2) nth 64) loop vloop .cycle ratio rate e.step n hm y f tree e.mem =
        .ok (some t', m') ∧
      ((rate = 0 ∨ tree = none ∨ rate ∣ e.step) → spaceTreeBuild n e.bodies (1 / 2) ratio nth 64 = .ok t') ∧
      (∀ t, tree = some t → rate ≠ 0 → ¬ rate ∣ e.step → t' = spaceTreeRebuild e.bodies (1 / 2) ratio t) := by
  obtain ⟨t', h⟩ := evaluate_walks hnth hl vloop hyf hmf hn0 hn ratio rate e tree ht
  exact ⟨t', _, h⟩

/-- **C34**: over every history of evaluations, with any steps, positions and build rate, however the loop
over the bodies is scheduled: every evaluation succeeds; the layout afterwards is that of the full build at
the positions of the last evaluation at which one was due; and all nodes describe the positions of the last
evaluation. -/
theorem schedule {nth : NthElement} (hnth : Reorders nth) {loop : Loop ℝ} (hl : IsParLoop loop)
    (vloop : Loop ℝ) (hyf : y ≠ f) (hmf : hm ≠ f) (hn0 : 0 < n) (hn : n ≤ 2 ^ 63) (hpos : ∀ b < n, 0 < M b)
    (ratio : ℝ) (rate : ℕ) (es : List (Evaluation n hm y f M)) (last : Evaluation n hm y f M) :
    ∃ t, history nth loop vloop ratio rate (es ++ [last]) = .ok (some t) ∧
      C26.Faithful last.bodies ratio t ∧
      ∃ k e t0, Due rate (es ++ [last]) k e ∧ (∀ j e', k < j → ¬ Due rate (es ++ [last]) j e') ∧
        spaceTreeBuild n e.bodies (1 / 2) ratio nth 64 = .ok t0 ∧ layout t = layout t0 := by
  have key : ∀ es : List (Evaluation n hm y f M), ∃ tree,
      history nth loop vloop ratio rate es = .ok tree ∧ (tree = none ↔ es = []) ∧
      ∀ t, tree = some t → t.height ≤ 63 ∧ t.bodies.Perm (List.range n) ∧ C26.Leaves M t ∧
        (∀ e, es.getLast? = some e → C26.Faithful e.bodies ratio t) ∧
        ∃ k e t0, Due rate es k e ∧ (∀ j e', k < j → ¬ Due rate es j e') ∧
          spaceTreeBuild n e.bodies (1 / 2) ratio nth 64 = .ok t0 ∧ layout t = layout t0 := by
    intro es
    induction es using List.reverseRecOn with
    | nil => exact ⟨none, rfl, by simp, by simp⟩
    | append_singleton es e ih =>
      obtain ⟨tree, hrun, hnone, hsome⟩ := ih
      obtain ⟨t', m', h1, h2, h3⟩ := evaluate hnth hl vloop hyf hmf hn0 hn ratio rate e tree
        fun t ht => ⟨(hsome t ht).1, (hsome t ht).2.1⟩
      refine ⟨some t', ?_, by simp, ?_⟩
      · unfold history at hrun ⊢
        rw [List.foldlM_append, hrun]
        simp only [List.foldlM_cons, List.foldlM_nil, res_ok_bind, h1]
        rfl
      · intro t'' ht''
        obtain rfl := Option.some.inj ht''
        have hget : (es ++ [e])[es.length]? = some e := by simp
        have hbeyond : ∀ j e', es.length < j → ¬ Due rate (es ++ [e]) j e' := by
          intro j e' hj hd
          have := hd.1
          rw [List.getElem?_eq_none (by simp; omega)] at this
          cases this
        by_cases hc : rate = 0 ∨ tree = none ∨ rate ∣ e.step
        · have hb := h2 hc
          refine ⟨C28.built_tree_height hnth hn hb, C25.build_perm hnth hb, (C26.build_fix hb).2, ?_,
            es.length, e, t', ⟨hget, ?_⟩, hbeyond, hb, rfl⟩
          · intro e' he'
            simp only [List.getLast?_append, List.getLast?_singleton, Option.some_or, Option.some.injEq] at he'
            subst he'
            exact C26.build_summarises hnth hpos hb
          · rcases hc with h | h | h
            · exact Or.inr (Or.inl h)
            · left; simp [hnone.1 h]
            · exact Or.inr (Or.inr h)
        · push Not at hc
          obtain ⟨hr0, hne, hd⟩ := hc
          obtain ⟨t, rfl⟩ : ∃ t, tree = some t := by
            cases tree with
            | none => exact absurd rfl hne
            | some t => exact ⟨t, rfl⟩
          obtain ⟨hh, hp, hlv, _, k, e0, t0, hk, hk', hb, hlay⟩ := hsome t rfl
          have ht' := h3 t rfl hr0 hd
          have hlay' : layout t' = layout t := by
            rw [ht']; exact C26.rebuild_layout [(e.bodies, ratio)] t
          have hkl : k < es.length := by
            have := List.getElem?_eq_some_iff.1 hk.1
            exact this.1
          refine ⟨by rw [(height_layout hlay').1]; exact hh, by rw [(height_layout hlay').2]; exact hp,
            by rw [ht']; exact C26.leaves_rebuild _ _ _ hlv, ?_, k, e0, t0, ⟨?_, hk.2⟩, ?_, hb, hlay'.trans hlay⟩
          · intro e' he'
            simp only [List.getLast?_append, List.getLast?_singleton, Option.some_or, Option.some.injEq] at he'
            subst he'
            intro p s hs
            rw [ht'] at hs
            exact C26.rebuild_all (fun b hb' => hpos b (List.mem_range.1 (hp.mem_iff.1 hb'))) hlv hs
          · rw [List.getElem?_append_left hkl]; exact hk.1
          · intro j e' hj hdue
            rcases Nat.lt_trichotomy j es.length with h | h | h
            · exact hk' j e' hj ⟨by rw [← List.getElem?_append_left h]; exact hdue.1, hdue.2⟩
            · subst h
              have := hdue.1
              rw [hget] at this
              cases this
              rcases hdue.2 with h | h | h
              · omega
              · exact hr0 h
              · exact hd h
            · exact hbeyond j e' h hdue
  obtain ⟨tree, h1, h2, h3⟩ := key (es ++ [last])
  obtain ⟨t, rfl⟩ : ∃ t, tree = some t := by
    cases tree with
    | none => exact absurd (h2.1 rfl) (by simp)
    | some t => exact ⟨t, rfl⟩
  obtain ⟨_, _, _, hf, hrest⟩ := h3 t rfl
  exact ⟨t, h1, hf last (by simp), hrest⟩

end

/-! Non-vacuity: a history of three evaluations of two moving bodies with rate 2; the layout at the end is
that of the build at step 2, in the middle. -/

/-- Buffers of two bodies at positions `(s, 0, 0)` and `(0, 0, 0)`. -/
noncomputable def ev (s : ℕ) : Evaluation 2 0 1 2 (fun _ => 1) where
  step := s
  Y i := if i = 0 then (s : ℝ) else 0
  mem h := if h = 0 then some (buf 2 fun _ => 1) else
    if h = 1 then some (buf 12 fun i => if i = 0 then (s : ℝ) else 0) else
    if h = 2 then some (buf 12 fun _ => 0) else none
  hy := by simp
  hM := by simp
  hf := by simp [Mem.shape, buf]

example : ∃ t t0, history C25.sortIds (orderedFor fun n => (List.range n).reverse) seqFor 1 2
      [ev 1, ev 2, ev 3] = .ok (some t) ∧ C26.Faithful (ev 3).bodies 1 t ∧
    spaceTreeBuild 2 (ev 2).bodies (1 / 2) 1 C25.sortIds 64 = .ok t0 ∧ layout t = layout t0 := by
  obtain ⟨t, h1, h2, k, e, t0, hk, hk', hb, hl⟩ := schedule (es := [ev 1, ev 2]) (last := ev 3)
    C25.sortIds_reorders (orderedFor_isParLoop fun _ => List.reverse_perm _) seqFor (by decide) (by decide)
    (by norm_num) (by norm_num) (fun _ _ => one_pos) 1 2
  have hd1 : Due 2 ([ev 1, ev 2] ++ [ev 3]) 1 (ev 2) := ⟨rfl, Or.inr (Or.inr (by simp [ev]))⟩
  have hk1 : 1 ≤ k := by
    by_contra hc
    exact hk' 1 (ev 2) (by omega) hd1
  have hk2 : k = 1 := by
    by_contra hc
    have h3 := List.getElem?_eq_some_iff.1 hk.1
    have hlt := h3.1
    simp at hlt
    obtain rfl : k = 2 := by omega
    have he : e = ev 3 := by simpa using hk.1.symm
    subst he
    rcases hk.2 with h | h | h
    · omega
    · omega
    · simp [ev] at h
  subst hk2
  have he : e = ev 2 := by simpa using hk.1.symm
  subst he
  exact ⟨t, t0, h1, h2, hb, hl⟩

end NB.C34
