import Verif.Props.C33_Visitor
import Verif.Props.C60_Layouts

/-
C33  The visitor traversal, heap layouts.  Here the claim holds without restriction on the positions or the
ratio, for every scalar type, on new and on used objects, before and after any number of rebuilds.
-/

namespace NB.C33
open NB NB.Spec

section
variable {S : Type} [Add S] [Sub S] [Mul S] [Neg S] [Div S] [Zero S] [One S] [FOps S]

omit [Add S] [Sub S] [Mul S] [Neg S] [Div S] [Zero S] [One S] [FOps S] in
lemma leafCells_calls {B : Bodies S} {t : STree S} (h : Carries B t) :
    (leafCells t).map (fun c => (c.body, c.d.mc, c.d.mass)) = t.bodies.map fun b => (b, B.pos b, B.mass b) := by
  induction t with
  | leaf b d => simp [leafCells, STree.bodies, h.1, h.2]
  | node l r d hl hr => simp [leafCells, STree.bodies, hl h.1, hr h.2]

omit [Add S] [Sub S] [Mul S] [Neg S] [Div S] [Zero S] [One S] [FOps S] in
lemma heapVisits_eq {B : Bodies S} {k : ℕ} {t : STree S} {H : List (Cell S)} (hp : Perfect k t)
    (hs : Stores H 1 t) (hl : H.length = 2 ^ (k + 1)) (h : Carries B t) :
    heapVisits H = t.bodies.map fun b => (b, B.pos b, B.mass b) := by
  unfold heapVisits
  rw [hl, show 2 ^ (k + 1) / 2 = 2 ^ k by rw [pow_succ]; omega, stores_drop hp hs hl]
  exact leafCells_calls h

/-- **C33** for the heap layouts: after a build of `2^k` bodies on an object in any earlier state the visitor
is called exactly once for each body, with its position and mass. -/
theorem heap_visits_each_body {k fuel : ℕ} {B : Bodies S} {half ratio : S} {nth : NthElement}
    (hn : Reorders nth) (hf : k < fuel) (H H' : List (Cell S))
    (h : heapBuild (2 ^ k) B half ratio nth fuel H = .ok H') :
    (heapVisits H').Perm ((List.range (2 ^ k)).map fun b => (b, B.pos b, B.mass b)) := by
  obtain ⟨H2, t, h1, h2, h3, h4, h5, h6, _⟩ := C27.build_stores_tree (B := B) (half := half) (ratio := ratio)
    hn H hf
  rw [h] at h1
  cases h1
  rw [heapVisits_eq h4 h3 h2 h6]
  exact h5.map _

/-- Rebuilds at the given positions and ratios, one after the other. -/
def heapRebuilds (ord : List ℕ → List ℕ) (count : ℕ) (half : S) (moves : List (Bodies S × S))
    (H : List (Cell S)) : Res (List (Cell S)) :=
  moves.foldlM (fun H mv => heapRebuild ord count mv.1 half mv.2 H) H

omit [Neg S] [One S] in
lemma carries_rebuild {B B' : Bodies S} {half r2 : S} {t : STree S} (h : Carries B t) :
    Carries { B' with mass := B.mass } (STree.rebuild B' half r2 t) := by
  induction t with
  | leaf b d => exact ⟨rfl, h.2⟩
  | node l r d hl hr => exact ⟨hl h.1, hr h.2⟩

omit [Neg S] [One S] in
lemma perfect_rebuild {B : Bodies S} {half r2 : S} {t : STree S} : ∀ {k : ℕ}, Perfect k t →
    Perfect k (STree.rebuild B half r2 t) ∧ (STree.rebuild B half r2 t).bodies = t.bodies := by
  induction t with
  | leaf b d => intro k h; cases k <;> exact ⟨h, rfl⟩
  | node l r d hl hr =>
    intro k h
    cases k with
    | zero => exact absurd h (by simp [Perfect])
    | succ k =>
      refine ⟨⟨(hl h.1).1, (hr h.2).1⟩, ?_⟩
      have e1 := (hl h.1).2
      have e2 := (hr h.2).2
      rw [rebuild_data_node]
      simp only [STree.bodies, e1, e2]

/-- … and after any number of rebuilds at other positions it is called with the positions of the last
rebuild and the masses of the build. -/
theorem heap_visits_after_rebuilds {k fuel : ℕ} {B : Bodies S} {half ratio : S} {nth : NthElement}
    (hn : Reorders nth) (hf : k < fuel) {ord : List ℕ → List ℕ} (hord : ∀ l, (ord l).Perm l)
    (H : List (Cell S)) (moves : List (Bodies S × S)) (B' : Bodies S) (ratio' : S) :
    ∃ H1 H2, heapBuild (2 ^ k) B half ratio nth fuel H = .ok H1 ∧
      heapRebuilds ord (2 ^ k) half (moves ++ [(B', ratio')]) H1 = .ok H2 ∧
      (heapVisits H2).Perm ((List.range (2 ^ k)).map fun b => (b, B'.pos b, B.mass b)) := by
  obtain ⟨H1, t, h1, h2, h3, h4, h5, h6, _⟩ := C27.build_stores_tree (B := B) (half := half) (ratio := ratio)
    hn H hf
  have step : ∀ (H : List (Cell S)) (t : STree S) (B0 B' : Bodies S) (ratio' : S), H.length = 2 ^ (k + 1) →
      Stores H 1 t → Perfect k t → t.bodies.Perm (List.range (2 ^ k)) → Carries B0 t → B0.mass = B.mass →
      ∃ H' t', heapRebuild ord (2 ^ k) B' half ratio' H = .ok H' ∧ H'.length = 2 ^ (k + 1) ∧
        Stores H' 1 t' ∧ Perfect k t' ∧ t'.bodies.Perm (List.range (2 ^ k)) ∧
        Carries { B' with mass := B.mass } t' := by
    intro H t B0 B' ratio' hl hs hp hb hc hm
    obtain ⟨H', g1, g2, g3, _⟩ := heapRebuild_eq (B := B') (half := half) (ratio := ratio') hord hp hl hs
      fun b hb' => List.mem_range.1 (hb.mem_iff.1 hb')
    refine ⟨H', _, g1, by rw [g2, hl], g3, (perfect_rebuild hp).1, ?_, ?_⟩
    · show (STree.rebuild B' half (ratio' * ratio') t).bodies.Perm _
      rw [(perfect_rebuild hp).2]; exact hb
    · rw [← hm]; exact carries_rebuild hc
  have many : ∀ (moves : List (Bodies S × S)) (H : List (Cell S)) (t : STree S) (B0 : Bodies S),
      H.length = 2 ^ (k + 1) → Stores H 1 t → Perfect k t → t.bodies.Perm (List.range (2 ^ k)) →
      Carries B0 t → B0.mass = B.mass →
      ∃ H' t' B1, heapRebuilds ord (2 ^ k) half moves H = .ok H' ∧ H'.length = 2 ^ (k + 1) ∧
        Stores H' 1 t' ∧ Perfect k t' ∧ t'.bodies.Perm (List.range (2 ^ k)) ∧
        Carries B1 t' ∧ B1.mass = B.mass := by
    intro moves
    induction moves with
    | nil => intro H t B0 a b c d e f; exact ⟨H, t, B0, rfl, a, b, c, d, e, f⟩
    | cons mv rest ih =>
      intro H t B0 a b c d e f
      obtain ⟨H', t', g1, g2, g3, g4, g5, g6⟩ := step H t B0 mv.1 mv.2 a b c d e f
      obtain ⟨H'', t'', B1, k1, k2⟩ := ih H' t' _ g2 g3 g4 g5 g6 rfl
      refine ⟨H'', t'', B1, ?_, k2⟩
      unfold heapRebuilds at k1 ⊢
      rw [List.foldlM_cons, g1]
      exact k1
  obtain ⟨Hm, tm, Bm, m1, m2, m3, m4, m5, m6, m7⟩ := many moves H1 t B h2 h3 h4 h5 h6 rfl
  obtain ⟨H2, t', g1, g2, g3, g4, g5, g6⟩ := step Hm tm Bm B' ratio' m2 m3 m4 m5 m6 m7
  refine ⟨H1, H2, h1, ?_, ?_⟩
  · unfold heapRebuilds at m1 ⊢
    rw [List.foldlM_append, m1]
    simp only [List.foldlM_cons, List.foldlM_nil, res_ok_bind, g1]
    rfl
  · rw [heapVisits_eq g4 g3 g2 g6]
    exact g5.map _

lemma heap_modes_agree {k : ℕ} (hk : k ≤ 63) {hm y f : Handle} (hyf : y ≠ f) (hmf : hm ≠ f)
    {Y M : ℕ → S} {m : Mem S} (hy : m y = some (buf (6 * 2 ^ k) Y)) (hM : m hm = some (buf (2 ^ k) M))
    (hf : m.shape f = some (6 * 2 ^ k)) {half ratio : S} {nth : NthElement} (hn : Reorders nth)
    {loop vloop : Loop S} (hl : IsParLoop loop) (hv : IsParLoop vloop) {rate step : ℕ}
    {H : List (Cell S)} (hdue : rate = 0 ∨ H = [] ∨ rate ∣ step)
    {ix : SpaceIndex S (List (Cell S))} (hie : ∀ H, ix.isEmpty H = H.isEmpty)
    (hib : ∀ H count B ratio, ix.build H count B ratio = heapBuild count B half ratio nth 64 H)
    (hiv : ∀ H, ix.visits H = .ok (heapVisits H))
    (hit : ∀ H t v1 mass1, Perfect k t → Stores H 1 t → H.length = 2 ^ (k + 1) →
      ix.traverse H v1 mass1 = spaceTreeTraverse t v1 mass1) :
    ∃ r, bhFcompute ix loop vloop .cycle ratio rate step (2 ^ k) hm y f H m = .ok r ∧
      bhFcompute ix loop vloop .nestedTree ratio rate step (2 ^ k) hm y f H m = .ok r := by
  set B := bodiesAt (2 ^ k) (buf (6 * 2 ^ k) Y) (buf (2 ^ k) M) with hB
  have hBp : ∀ i, i < 2 ^ k → B.pos i = posOf (2 ^ k) Y i := fun i hi => (bodiesAt_pos Y M hi).1
  have hBm : ∀ i, i < 2 ^ k → B.mass i = M i := fun i hi => (bodiesAt_pos Y M hi).2
  obtain ⟨H', t, h1, h2, h3, h4, h5, h6, _⟩ := C27.build_stores_tree (B := B) (half := half) (ratio := ratio)
    (m := k) (fuel := 64) hn H (by omega)
  obtain ⟨lf, hlf⟩ : ∃ lf, m f = some lf := by
    cases hmf' : m f with
    | none => simp [Mem.shape, hmf'] at hf
    | some lf => exact ⟨lf, rfl⟩
  have hlen : lf.length = 6 * 2 ^ k := by simpa [Mem.shape, hlf] using hf
  have hT : ∀ i, i < 2 ^ k → ix.traverse H' (posOf (2 ^ k) Y i) (M i) =
      .ok ((acceptedNodes (posOf (2 ^ k) Y i) t).foldl (addForce (posOf (2 ^ k) Y i) (M i)) 0) := by
    intro i _
    rw [hit H' t _ _ h4 h3 h2]
    exact traverse_eq t _ _ (by rw [perfect_height h4]; unfold maxStackSize; omega)
  have hvp : (heapVisits H').Perm ((List.range (2 ^ k)).map fun i => (i, posOf (2 ^ k) Y i, M i)) := by
    rw [heapVisits_eq h4 h3 h2 h6]
    refine (h5.map _).trans (List.Perm.of_eq ?_)
    apply List.map_congr_left
    intro i hi
    rw [hBp i (List.mem_range.1 hi), hBm i (List.mem_range.1 hi)]
  have hcyc := parLoop_eq_seq hl (bhCycleBody_independent hyf hmf (n := 2 ^ k)
    (trav := ix.traverse H')) (bhCycle_eq hyf hmf hy hM hf hT)
  have hvis := parLoop_eq_seq hv (bhVisitBody_independent hyf hmf (n := 2 ^ k)
    (trav := ix.traverse H') (vs := heapVisits H')
    (by
      intro a ha
      obtain ⟨b, hb, rfl⟩ := List.mem_map.1 (hvp.mem_iff.1 ha)
      exact List.mem_range.1 hb)
    (by
      have := hvp.map Prod.fst
      rw [List.map_map] at this
      rw [this.nodup_iff]
      rw [show (Prod.fst ∘ fun i => (i, posOf (2 ^ k) Y i, M i)) = id from rfl, List.map_id]
      exact List.nodup_range))
    (bhVisit_eq (lenF := 6 * 2 ^ k) hyf hmf hy hM hf hT hvp)
  have hcond : ((decide (rate = 0) || ix.isEmpty H || decide (step % rate = 0)) = true) := by
    rcases hdue with h | h | h
    · simp [h]
    · simp [hie, h]
    · simp [Nat.mod_eq_zero_of_dvd h]
  refine ⟨(H', m.set f (buf (6 * 2 ^ k) (derivOf (2 ^ k) Y M fun i =>
    (acceptedNodes (posOf (2 ^ k) Y i) t).foldl (addForce (posOf (2 ^ k) Y i) (M i)) 0))), ?_, ?_⟩
  · simp only [bhFcompute, hy, hlf, hM, ← hB, hlen]
    rw [if_pos hcond, hib, h1]
    simp only [bind, Except.bind]
    rw [hcyc]
  · simp only [bhFcompute, hy, hlf, hM, ← hB, hlen]
    rw [if_pos hcond, hib, h1]
    simp only [bind, Except.bind]
    rw [hiv]
    exact congrArg (fun r : Res (Mem S) => Except.bind r fun v => .ok (H', v)) hvis

/-- The two traversal modes of the Barnes–Hut engine agree on the heap layout whenever the tree is built
anew, for any positions, ratio and scheduling of the two parallel loops. -/
theorem heap_nested_eq_cycle {k : ℕ} (hk : k ≤ 63) {hm y f : Handle} (hyf : y ≠ f) (hmf : hm ≠ f)
    {Y M : ℕ → S} {m : Mem S} (hy : m y = some (buf (6 * 2 ^ k) Y)) (hM : m hm = some (buf (2 ^ k) M))
    (hf : m.shape f = some (6 * 2 ^ k)) (half ratio : S) {nth : NthElement} (hn : Reorders nth)
    (ord : List ℕ → List ℕ) {loop vloop : Loop S} (hl : IsParLoop loop) (hv : IsParLoop vloop) (rate step : ℕ)
    (H : List (Cell S)) (hdue : rate = 0 ∨ H = [] ∨ rate ∣ step) {fuel : ℕ} (hfu : 2 ^ (k + 1) - 1 ≤ fuel) :
    ∃ r, bhFcompute (heapIndex half nth ord 64 fuel) loop vloop .cycle ratio rate step (2 ^ k) hm y f H m =
        .ok r ∧
      bhFcompute (heapIndex half nth ord 64 fuel) loop vloop .nestedTree ratio rate step (2 ^ k) hm y f H m =
        .ok r :=
  heap_modes_agree hk hyf hmf hy hM hf hn hl hv hdue (fun _ => rfl) (fun _ _ _ _ => rfl) (fun _ => rfl)
    fun _ _ v1 mass1 hp hst hlen => heapTraverse_eq hk hp hst hlen hfu v1 mass1

/-- The same for the stackless walk, for up to `2^30` bodies. -/
theorem stackless_nested_eq_cycle {k : ℕ} (hk : k ≤ 30) {hm y f : Handle} (hyf : y ≠ f) (hmf : hm ≠ f)
    {Y M : ℕ → S} {m : Mem S} (hy : m y = some (buf (6 * 2 ^ k) Y)) (hM : m hm = some (buf (2 ^ k) M))
    (hf : m.shape f = some (6 * 2 ^ k)) (half ratio : S) {nth : NthElement} (hn : Reorders nth)
    (ord : List ℕ → List ℕ) {loop vloop : Loop S} (hl : IsParLoop loop) (hv : IsParLoop vloop) (rate step : ℕ)
    (H : List (Cell S)) (hdue : rate = 0 ∨ H = [] ∨ rate ∣ step) {fuel : ℕ} (hfu : 2 ^ (k + 1) - 1 ≤ fuel) :
    ∃ r, bhFcompute (heapStacklessIndex nextDownCtz half nth ord 64 fuel) loop vloop .cycle ratio rate step
        (2 ^ k) hm y f H m = .ok r ∧
      bhFcompute (heapStacklessIndex nextDownCtz half nth ord 64 fuel) loop vloop .nestedTree ratio rate step
        (2 ^ k) hm y f H m = .ok r :=
  heap_modes_agree (by omega) hyf hmf hy hM hf hn hl hv hdue (fun _ => rfl) (fun _ _ _ _ => rfl) (fun _ => rfl)
    fun _ _ v1 mass1 hp hst hlen => heapStacklessTraverse_eq hk hp hst hlen hfu v1 mass1

end

/-! Non-vacuity: two bodies at the same place, ratio zero, where the pointer layout fails. -/

/-- Two bodies of mass one at rest at the origin. -/
def stacked : Mem ℤ := fun h =>
  if h = 0 then some (buf 2 fun _ => 1) else if h = 1 then some (buf 12 fun _ => 0) else
  if h = 2 then some (buf 12 fun _ => 0) else none

example : ∃ r, bhFcompute (heapIndex (0 : ℤ) C25.sortIds List.reverse 64 3)
      (orderedFor fun n => (List.range n).reverse) (orderedFor fun n => (List.range n).reverse)
      .nestedTree 0 0 0 2 0 1 2 [] stacked = .ok r := by
  obtain ⟨r, _, h⟩ := heap_nested_eq_cycle (k := 1) (by norm_num) (hm := 0) (y := 1) (f := 2) (by decide)
    (by decide) (Y := fun _ => 0) (M := fun _ => 1) (m := stacked) (by simp [stacked]) (by simp [stacked])
    (by simp [stacked, Mem.shape, buf]) 0 0 C25.sortIds_reorders List.reverse
    (orderedFor_isParLoop fun _ => List.reverse_perm _) (orderedFor_isParLoop fun _ => List.reverse_perm _)
    0 0 [] (Or.inl rfl) (fuel := 3) (by norm_num)
  exact ⟨r, h⟩

example : ∃ H1 H2, heapBuild (2 ^ 2) C27.line 1 1 C25.sortIds 3 [] = .ok H1 ∧
    heapRebuilds List.reverse (2 ^ 2) 1 ([] ++ [({ C27.line with rx := fun i => 10 - (i : ℤ) }, 2)]) H1 = .ok H2 ∧
    (heapVisits H2).Perm ((List.range (2 ^ 2)).map fun b => (b, ⟨10 - (b : ℤ), 0, 0⟩, 1)) :=
  heap_visits_after_rebuilds (k := 2) (B := C27.line) C25.sortIds_reorders (by norm_num) (fun l => List.reverse_perm l) [] []
    { C27.line with rx := fun i => 10 - (i : ℤ) } 2

end NB.C33
