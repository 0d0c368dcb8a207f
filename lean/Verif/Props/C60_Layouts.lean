import Verif.Lemmas.HeapRebuild
import Verif.Props.C27_HeapBounds
import Verif.Props.C34_Schedule

/-
C60  The three layouts of the Barnes–Hut engine are interchangeable.  The theorems hold for every scalar
type, in particular for IEEE doubles bit for bit.
-/

namespace NB.C60
open NB NB.Spec

section
variable {S : Type} [Add S] [Sub S] [Mul S] [Neg S] [Div S] [Zero S] [One S] [FOps S]

/-- The heap and the pointer tree hold the same nodes: both are empty, or the heap has `2^(k+1)` cells that
store the tree, a perfect tree over the `2^k` bodies, and its leaf radii are zero. -/
def Same (k : ℕ) (H : List (Cell S)) (tree : Option (STree S)) : Prop :=
  (H = [] ∧ tree = none) ∨
  ∃ t, tree = some t ∧ H.length = 2 ^ (k + 1) ∧ Stores H 1 t ∧ Perfect k t ∧
    t.bodies.Perm (List.range (2 ^ k)) ∧ C27.CleanLeaves (2 ^ k) H

lemma clean_of_same {k : ℕ} {H : List (Cell S)} {tree : Option (STree S)} (h : Same k H tree) :
    C27.CleanLeaves (2 ^ k) H := by
  rcases h with ⟨rfl, _⟩ | ⟨t, _, _, _, _, _, h⟩
  · intro j c _ _ hj; simp at hj
  · exact h

lemma empty_of_same {k : ℕ} {H : List (Cell S)} {tree : Option (STree S)} (h : Same k H tree) :
    H.isEmpty = tree.isNone := by
  rcases h with ⟨rfl, rfl⟩ | ⟨t, rfl, hl, _⟩
  · rfl
  · cases H with
    | nil => have := Nat.one_le_two_pow (n := k + 1); simp only [List.length_nil] at hl; omega
    | cons => rfl

/-- Building and rebuilding keep the two layouts the same. -/
lemma same_update {k : ℕ} (hk : k ≤ 63) {half ratio : S} {nth : NthElement} (hn : Reorders nth)
    {ord : List ℕ → List ℕ} (hord : ∀ l, (ord l).Perm l) {H : List (Cell S)} {tree tree' : Option (STree S)}
    (hs : Same k H tree) (B : Bodies S) (full : Bool) (hne : full = false → tree ≠ none)
    {H0 : Res (List (Cell S))}
    (hH0 : H0 = if full then heapBuild (2 ^ k) B half ratio nth 64 H else heapRebuild ord (2 ^ k) B half ratio H)
    (ht : (if full then (treeIndex half nth 64).build tree (2 ^ k) B ratio
      else (treeIndex half nth 64).rebuild tree (2 ^ k) B ratio) = .ok tree') :
    ∃ H' t', tree' = some t' ∧ H0 = .ok H' ∧ Same k H' tree' := by
  cases full with
  | true =>
    simp only [if_true] at hH0 ht
    obtain ⟨H', t, h1, h2, h3, h4, h5, _, h6⟩ := C27.build_stores_tree (B := B) (half := half) (ratio := ratio)
      (m := k) (fuel := 64) hn H (by omega)
    obtain ⟨h7, h8⟩ := h6 (clean_of_same hs)
    simp only [treeIndex, h7] at ht
    cases ht
    exact ⟨H', t, rfl, by rw [hH0, h1], Or.inr ⟨t, rfl, h2, h3, h4, h5, h8⟩⟩
  | false =>
    simp only [Bool.false_eq_true, if_false] at hH0 ht
    rcases hs with ⟨_, rfl⟩ | ⟨t, rfl, hl, hst, hp, hperm, hcl⟩
    · exact absurd rfl (hne rfl)
    · have hb : ∀ b ∈ t.bodies, b < 2 ^ k := fun b hb => List.mem_range.1 (hperm.mem_iff.1 hb)
      obtain ⟨H', h1, h2, h3, h4⟩ := heapRebuild_eq (B := B) (half := half) (ratio := ratio) hord hp hl hst hb
      have hall : (t.bodies.all fun x => decide (x < 2 ^ k)) = true := by simpa using hb
      simp only [treeIndex, hall, if_true] at ht
      cases ht
      have hlay : ∀ s : STree S, (STree.rebuild B half (ratio * ratio) s).bodies = s.bodies ∧
          ∀ k, Perfect k s → Perfect k (STree.rebuild B half (ratio * ratio) s) := by
        intro s
        induction s with
        | leaf b d => exact ⟨rfl, fun k hk => by cases k <;> exact hk⟩
        | node l r d hl hr =>
          rw [rebuild_data_node]
          refine ⟨by simp only [STree.bodies, hl.1, hr.1], fun k hk => ?_⟩
          cases k with
          | zero => exact hk
          | succ k => exact ⟨hl.2 k hk.1, hr.2 k hk.2⟩
      refine ⟨H', _, rfl, by rw [hH0, h1], Or.inr ⟨_, rfl, by rw [h2, hl], h3, (hlay t).2 k hp, ?_, ?_⟩⟩
      · show (STree.rebuild B half (ratio * ratio) t).bodies.Perm _
        rw [(hlay t).1]; exact hperm
      · intro j c' j1 j2 hj
        obtain ⟨c, hc, e⟩ := h4 j c' j1 hj
        rw [← e]
        exact hcl j c j1 j2 hc

/-- One evaluation, for any layout that builds and rebuilds the heap and walks it like the tree it stores. -/
lemma evaluate_same {k : ℕ} (hk : k ≤ 63) {half ratio : S} {nth : NthElement} (hn : Reorders nth)
    {ord : List ℕ → List ℕ} (hord : ∀ l, (ord l).Perm l) (loop vloop : Loop S) (rate step : ℕ)
    (hm y f : Handle) {H : List (Cell S)} {tree tree' : Option (STree S)} (hs : Same k H tree)
    {m m' : Mem S} {ix : SpaceIndex S (List (Cell S))} (hie : ∀ H, ix.isEmpty H = H.isEmpty)
    (hib : ∀ H count B ratio, ix.build H count B ratio = heapBuild count B half ratio nth 64 H)
    (hir : ∀ H count B ratio, ix.rebuild H count B ratio = heapRebuild ord count B half ratio H)
    (hit : ∀ H t v1 mass1, Perfect k t → Stores H 1 t → H.length = 2 ^ (k + 1) →
      ix.traverse H v1 mass1 = spaceTreeTraverse t v1 mass1)
    (h : bhFcompute (treeIndex half nth 64) loop vloop .cycle ratio rate step (2 ^ k) hm y f tree m =
      .ok (tree', m')) :
    ∃ H', bhFcompute ix loop vloop .cycle ratio rate step (2 ^ k) hm y f H m =
      .ok (H', m') ∧ Same k H' tree' := by
  unfold bhFcompute at h ⊢
  cases hy : m y with
  | none => simp only [hy] at h ⊢; cases h; exact ⟨H, rfl, hs⟩
  | some ly =>
    cases hf' : m f with
    | none => simp only [hy, hf'] at h ⊢; cases h; exact ⟨H, rfl, hs⟩
    | some lf =>
      cases hm' : m hm with
      | none => simp only [hy, hf', hm'] at h; cases h
      | some lm =>
        simp only [hy, hf', hm'] at h ⊢
        set B := bodiesAt (2 ^ k) ly lm with hB
        have hcond : (decide (rate = 0) || ix.isEmpty H || decide (step % rate = 0)) =
            (decide (rate = 0) || (treeIndex half nth 64).isEmpty tree || decide (step % rate = 0)) := by
          rw [hie, empty_of_same hs]
          rfl
        rw [hcond]
        set full := (decide (rate = 0) || (treeIndex half nth 64).isEmpty tree || decide (step % rate = 0))
          with hfull
        have hne : full = false → tree ≠ none := by
          rintro e rfl
          rw [hfull] at e
          simp [treeIndex] at e
        simp only [bind, Except.bind] at h ⊢
        cases ht : (if full then (treeIndex half nth 64).build tree (2 ^ k) B ratio
            else (treeIndex half nth 64).rebuild tree (2 ^ k) B ratio) with
        | error e => simp only [ht] at h; cases h
        | ok tr =>
          simp only [ht] at h
          obtain ⟨H', t', rfl, e1, e2⟩ := same_update hk hn hord hs B full hne
            (H0 := if full then ix.build H (2 ^ k) B ratio else ix.rebuild H (2 ^ k) B ratio)
            (by rw [hib, hir]) ht
          rw [e1]
          simp only []
          have htr : ix.traverse H' = (treeIndex half nth 64).traverse (some t') := by
            obtain ⟨_, e3⟩ | ⟨t, e3, hl, hst, hp, _, _⟩ := e2
            · cases e3
            · cases e3
              funext v1 mass1
              exact hit H' t' v1 mass1 hp hst hl
          rw [htr]
          cases hl' : loop (2 ^ k) (bhCycleBody (2 ^ k) hm y f lf.length
              ((treeIndex half nth 64).traverse (some t'))) m with
          | error e => simp only [hl'] at h; cases h
          | ok m1 =>
            simp only [hl'] at h ⊢
            cases h
            exact ⟨H', rfl, e2⟩

/-- A sequence of evaluations with one engine object: step counter, buffers and memory of each call.  The
memories after the calls. -/
def evaluations {T : Type} (ix : SpaceIndex S T) (loop vloop : Loop S) (ratio : S) (rate n : ℕ) (hm : Handle) :
    T → List (ℕ × Handle × Handle × Mem S) → Res (List (Mem S))
  | _, [] => .ok []
  | tree, (step, y, f, m) :: rest => do
    let r ← bhFcompute ix loop vloop .cycle ratio rate step n hm y f tree m
    let ms ← evaluations ix loop vloop ratio rate n hm r.1 rest
    .ok (r.2 :: ms)

lemma evaluations_same {k : ℕ} (hk : k ≤ 63) {half ratio : S} {nth : NthElement} (hn : Reorders nth)
    {ord : List ℕ → List ℕ} (hord : ∀ l, (ord l).Perm l) (loop vloop : Loop S) (rate : ℕ) (hm : Handle)
    {ix : SpaceIndex S (List (Cell S))} (hie : ∀ H, ix.isEmpty H = H.isEmpty)
    (hib : ∀ H count B ratio, ix.build H count B ratio = heapBuild count B half ratio nth 64 H)
    (hir : ∀ H count B ratio, ix.rebuild H count B ratio = heapRebuild ord count B half ratio H)
    (hit : ∀ H t v1 mass1, Perfect k t → Stores H 1 t → H.length = 2 ^ (k + 1) →
      ix.traverse H v1 mass1 = spaceTreeTraverse t v1 mass1) :
    ∀ (es : List (ℕ × Handle × Handle × Mem S)) (H : List (Cell S)) (tree : Option (STree S))
      (ms : List (Mem S)), Same k H tree →
      evaluations (treeIndex half nth 64) loop vloop ratio rate (2 ^ k) hm tree es = .ok ms →
      evaluations ix loop vloop ratio rate (2 ^ k) hm H es = .ok ms := by
  intro es
  induction es with
  | nil => intro H tree ms _ h; exact h
  | cons e rest ih =>
    intro H tree ms hs h
    obtain ⟨step, y, f, m⟩ := e
    simp only [evaluations, bind, Except.bind] at h ⊢
    cases h1 : bhFcompute (treeIndex half nth 64) loop vloop .cycle ratio rate step (2 ^ k) hm y f tree m with
    | error e => simp only [h1] at h; cases h
    | ok r =>
      obtain ⟨tree', m'⟩ := r
      obtain ⟨H', h2, h3⟩ := evaluate_same hk hn hord loop vloop rate step hm y f hs hie hib hir hit h1
      simp only [h1] at h
      simp only [h2]
      cases h4 : evaluations (treeIndex half nth 64) loop vloop ratio rate (2 ^ k) hm tree' rest with
      | error e => simp only [h4] at h; cases h
      | ok ms' =>
        simp only [h4] at h
        rw [ih H' tree' ms' h3 h4]
        exact h

/-- **C60**, heap: for `2^k` bodies and any sequence of evaluations with one engine — any steps, states, rate,
ratio, way of running the loops and any way of reordering equal elements — the heap layout leaves exactly the
memories that the pointer layout leaves. -/
theorem heap_eq_tree {k : ℕ} (hk : k ≤ 63) {half ratio : S} {nth : NthElement} (hn : Reorders nth)
    {ord : List ℕ → List ℕ} (hord : ∀ l, (ord l).Perm l) (loop vloop : Loop S) (rate : ℕ) (hm : Handle)
    {fuel : ℕ} (hf : 2 ^ (k + 1) - 1 ≤ fuel) (es : List (ℕ × Handle × Handle × Mem S)) {ms : List (Mem S)}
    (h : evaluations (treeIndex half nth 64) loop vloop ratio rate (2 ^ k) hm none es = .ok ms) :
    evaluations (heapIndex half nth ord 64 fuel) loop vloop ratio rate (2 ^ k) hm [] es = .ok ms :=
  evaluations_same hk hn hord loop vloop rate hm (fun _ => rfl) (fun _ _ _ _ => rfl) (fun _ _ _ _ => rfl)
    (fun _ _ v1 mass1 hp hst hl => heapTraverse_eq hk hp hst hl hf v1 mass1) es [] none ms (Or.inl ⟨rfl, rfl⟩) h

/-- **C60**, stackless heap, for up to `2^30` bodies (the limit is that of `stackless_limit` in C31). -/
theorem stackless_eq_tree {k : ℕ} (hk : k ≤ 30) {half ratio : S} {nth : NthElement} (hn : Reorders nth)
    {ord : List ℕ → List ℕ} (hord : ∀ l, (ord l).Perm l) (loop vloop : Loop S) (rate : ℕ) (hm : Handle)
    {fuel : ℕ} (hf : 2 ^ (k + 1) - 1 ≤ fuel) (es : List (ℕ × Handle × Handle × Mem S)) {ms : List (Mem S)}
    (h : evaluations (treeIndex half nth 64) loop vloop ratio rate (2 ^ k) hm none es = .ok ms) :
    evaluations (heapStacklessIndex nextDownCtz half nth ord 64 fuel) loop vloop ratio rate (2 ^ k) hm [] es =
      .ok ms :=
  evaluations_same (by omega) hn hord loop vloop rate hm (fun _ => rfl) (fun _ _ _ _ => rfl)
    (fun _ _ _ _ => rfl)
    (fun _ _ v1 mass1 hp hst hl => heapStacklessTraverse_eq hk hp hst hl hf v1 mass1) es [] none ms
    (Or.inl ⟨rfl, rfl⟩) h

end

/-! Non-vacuity: the pointer layout evaluates the two-body state of C34 at the steps 1, 2 and 3, so the heap
layouts give the same. -/

example : ∃ ms, evaluations (treeIndex (1 / 2 : ℝ) C25.sortIds 64) (orderedFor fun n => (List.range n).reverse)
      seqFor 1 2 2 0 none [(1, 1, 2, (C34.ev 1).mem), (2, 1, 2, (C34.ev 2).mem), (3, 1, 2, (C34.ev 3).mem)] = .ok ms ∧
    evaluations (heapStacklessIndex nextDownCtz (1 / 2 : ℝ) C25.sortIds List.reverse 64 3)
      (orderedFor fun n => (List.range n).reverse)
      seqFor 1 2 2 0 [] [(1, 1, 2, (C34.ev 1).mem), (2, 1, 2, (C34.ev 2).mem), (3, 1, 2, (C34.ev 3).mem)] = .ok ms := by
  have hpar : IsParLoop (orderedFor (S := ℝ) fun n => (List.range n).reverse) :=
    orderedFor_isParLoop fun _ => List.reverse_perm _
  have go : ∀ (e : C34.Evaluation 2 0 1 2 (fun _ => 1)) (tree : Option (STree ℝ)),
      (∀ t, tree = some t → t.height ≤ 63 ∧ t.bodies.Perm (List.range 2)) →
      ∃ t' m', bhFcompute (treeIndex (1 / 2) C25.sortIds 64) (orderedFor fun n => (List.range n).reverse)
        seqFor .cycle 1 2 e.step 2 0 1 2 tree e.mem = .ok (some t', m') ∧
        (t'.height ≤ 63 ∧ t'.bodies.Perm (List.range 2)) := by
    intro e tree ht
    obtain ⟨t', m', h1, h2, h3⟩ := C34.evaluate C25.sortIds_reorders hpar seqFor (by decide) (by decide)
      (by norm_num) (by norm_num) 1 2 e tree ht
    refine ⟨t', m', h1, ?_⟩
    by_cases hc : 2 = 0 ∨ tree = none ∨ 2 ∣ e.step
    · have := h2 hc
      exact ⟨C28.built_tree_height C25.sortIds_reorders (by norm_num) this,
        C25.build_perm C25.sortIds_reorders this⟩
    · push Not at hc
      cases tree with
      | none => exact absurd rfl hc.2.1
      | some t =>
        have e1 := h3 t rfl (by norm_num) hc.2.2
        have hl : layout t' = layout t := by rw [e1]; exact C26.rebuild_layout [(e.bodies, 1)] t
        rw [(C34.height_layout hl).1, (C34.height_layout hl).2]
        exact ht t rfl
  obtain ⟨t1, m1, r1, k1⟩ := go (C34.ev 1) none (by simp)
  obtain ⟨t2, m2, r2, k2⟩ := go (C34.ev 2) (some t1) (by rintro t ⟨⟩; exact k1)
  obtain ⟨t3, m3, r3, k3⟩ := go (C34.ev 3) (some t2) (by rintro t ⟨⟩; exact k2)
  have h : evaluations (treeIndex (1 / 2 : ℝ) C25.sortIds 64) (orderedFor fun n => (List.range n).reverse)
      seqFor 1 2 2 0 none [(1, 1, 2, (C34.ev 1).mem), (2, 1, 2, (C34.ev 2).mem), (3, 1, 2, (C34.ev 3).mem)] =
      .ok [m1, m2, m3] := by
    simp only [C34.ev] at r1 r2 r3
    simp only [evaluations, bind, Except.bind, C34.ev]
    rw [r1]; simp only []
    rw [r2]; simp only []
    rw [r3]
  exact ⟨_, h, stackless_eq_tree (k := 1) (by norm_num) C25.sortIds_reorders (fun l => List.reverse_perm l) _ _ 2 0
    (by norm_num) _ h⟩

end NB.C60
