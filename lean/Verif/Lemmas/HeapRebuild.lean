import Verif.Lemmas.SpaceHeap
import Verif.Lemmas.Traverse

/-
What rebuilding, walking and visiting a heap does, in terms of the tree it stores.
-/

namespace NB
open NB.Spec

section
variable {S : Type}

/-- A parallel loop over `[lo, hi)` whose iterations write only their own cell, from what that cell and the
cells outside of the range contained before the loop. -/
theorem heapFor_eq {ord : List Nat → List Nat} (hord : ∀ l, (ord l).Perm l) {lo hi : Nat}
    {body : Nat → List (Cell S) → Res (List (Cell S))} {H : List (Cell S)} (hhi : hi ≤ H.length)
    {g : Nat → Cell S}
    (hb : ∀ i H', lo ≤ i → i < hi → H'.length = H.length → (∀ j, ¬ (lo ≤ j ∧ j < hi) → H'[j]? = H[j]?) →
      H'[i]? = H[i]? → body i H' = .ok (H'.set i (g i))) :
    ∃ H', heapFor ord lo hi body H = .ok H' ∧ H'.length = H.length ∧
      ∀ j, H'[j]? = if lo ≤ j ∧ j < hi then some (g j) else H[j]? := by
  have key : ∀ (l : List Nat) (H' : List (Cell S)), l.Nodup → (∀ i ∈ l, lo ≤ i ∧ i < hi) →
      H'.length = H.length → (∀ j, ¬ (lo ≤ j ∧ j < hi) → H'[j]? = H[j]?) → (∀ i ∈ l, H'[i]? = H[i]?) →
      ∃ H'', l.foldlM (fun H idx => body idx H) H' = .ok H'' ∧ H''.length = H.length ∧
        ∀ j, H''[j]? = if j ∈ l then some (g j) else H'[j]? := by
    intro l
    induction l with
    | nil => intro H' _ _ hlen _ _; exact ⟨H', rfl, hlen, by simp⟩
    | cons i l ih =>
      intro H' hnd hr hlen hout hl
      have hi' := hr i (by simp)
      have hnd' := List.nodup_cons.1 hnd
      have hset : ∀ j, i ≠ j → (H'.set i (g i))[j]? = H'[j]? := fun j hj => List.getElem?_set_ne hj
      obtain ⟨H'', h1, h2, h3⟩ := ih (H'.set i (g i)) hnd'.2 (fun k hk => hr k (by simp [hk])) (by simpa using hlen)
        (fun j hj => by rw [hset j (by rintro rfl; exact hj hi')]; exact hout j hj)
        (fun k hk => by rw [hset k (by rintro rfl; exact hnd'.1 hk)]; exact hl k (by simp [hk]))
      refine ⟨H'', ?_, h2, ?_⟩
      · rw [List.foldlM_cons, hb i H' hi'.1 hi'.2 hlen hout (hl i (by simp))]
        exact h1
      · intro j
        rw [h3 j]
        by_cases hj : i = j
        · subst hj
          rw [if_neg hnd'.1, if_pos (by simp), List.getElem?_set_self (by omega)]
        · rw [hset j hj]
          simp [Ne.symm hj]
  have hmem : ∀ i, i ∈ ord (List.range' lo (hi - lo)) ↔ lo ≤ i ∧ i < hi := by
    intro i
    rw [(hord _).mem_iff, List.mem_range'_1]
    omega
  obtain ⟨H', h1, h2, h3⟩ := key (ord (List.range' lo (hi - lo))) H
    ((hord _).nodup_iff.2 (List.nodup_range')) (fun i hi => (hmem i).1 hi) rfl
    (fun _ _ => rfl) (fun _ _ => rfl)
  refine ⟨H', h1, h2, fun j => ?_⟩
  rw [h3 j]
  by_cases hj : lo ≤ j ∧ j < hi
  · rw [if_pos ((hmem j).2 hj), if_pos hj]
  · rw [if_neg (mt (hmem j).1 hj), if_neg hj]

/-- `s` is the subtree of `t` whose root has heap index `idx`. -/
inductive NodeAt (t : STree S) : Nat → STree S → Prop
  | root : NodeAt t 1 t
  | left {idx l r d} : NodeAt t idx (.node l r d) → NodeAt t (2 * idx) l
  | right {idx l r d} : NodeAt t idx (.node l r d) → NodeAt t (2 * idx + 1) r

theorem nodeAt_perfect {t s : STree S} {k idx : Nat} (hp : Perfect k t) (h : NodeAt t idx s) :
    ∃ d, d ≤ k ∧ 2 ^ d ≤ idx ∧ idx < 2 ^ (d + 1) ∧ Perfect (k - d) s := by
  induction h with
  | root => exact ⟨0, by omega, by simp, by simp, hp⟩
  | @left idx l r d h ih =>
    obtain ⟨e, h1, h2, h3, h4⟩ := ih
    obtain ⟨c, hc⟩ : ∃ c, k - e = c + 1 := by
      cases hk : k - e with
      | zero => rw [hk] at h4; exact absurd h4 (by simp [Perfect])
      | succ c => exact ⟨c, rfl⟩
    rw [hc] at h4
    have e1 : 2 ^ (e + 1) = 2 * 2 ^ e := by ring
    have e2 : 2 ^ (e + 1 + 1) = 2 * 2 ^ (e + 1) := by ring
    exact ⟨e + 1, by omega, by omega, by omega, by rw [show k - (e + 1) = c by omega]; exact h4.1⟩
  | @right idx l r d h ih =>
    obtain ⟨e, h1, h2, h3, h4⟩ := ih
    obtain ⟨c, hc⟩ : ∃ c, k - e = c + 1 := by
      cases hk : k - e with
      | zero => rw [hk] at h4; exact absurd h4 (by simp [Perfect])
      | succ c => exact ⟨c, rfl⟩
    rw [hc] at h4
    have e1 : 2 ^ (e + 1) = 2 * 2 ^ e := by ring
    have e2 : 2 ^ (e + 1 + 1) = 2 * 2 ^ (e + 1) := by ring
    exact ⟨e + 1, by omega, by omega, by omega, by rw [show k - (e + 1) = c by omega]; exact h4.2⟩

theorem level_unique {a b i : Nat} (h1 : 2 ^ a ≤ i) (h2 : i < 2 ^ (a + 1)) (h3 : 2 ^ b ≤ i)
    (h4 : i < 2 ^ (b + 1)) : a = b := by
  have x : 2 ^ a < 2 ^ (b + 1) := by omega
  have y : 2 ^ b < 2 ^ (a + 1) := by omega
  have x' := (Nat.pow_lt_pow_iff_right (by norm_num : 1 < 2)).1 x
  have y' := (Nat.pow_lt_pow_iff_right (by norm_num : 1 < 2)).1 y
  omega

theorem nodeAt_stores {H : List (Cell S)} {t s : STree S} {idx : Nat} (hs : Stores H 1 t) (h : NodeAt t idx s) :
    Stores H idx s := by
  induction h with
  | root => exact hs
  | left _ ih => exact ih.2.1
  | right _ ih => exact ih.2.2

theorem nodeAt_bodies {t s : STree S} {idx : Nat} (h : NodeAt t idx s) : ∀ b ∈ s.bodies, b ∈ t.bodies := by
  induction h with
  | root => exact fun b hb => hb
  | left _ ih => exact fun b hb => ih b (by simp [STree.bodies, hb])
  | right _ ih => exact fun b hb => ih b (by simp [STree.bodies, hb])

/-- The leaves, from left to right. -/
def leafCells : STree S → List (Cell S)
  | .leaf b d => [⟨d, b⟩]
  | .node l r _ => leafCells l ++ leafCells r

theorem leafCells_length {k : Nat} {t : STree S} (hp : Perfect k t) : (leafCells t).length = 2 ^ k := by
  induction k generalizing t with
  | zero => cases t with
    | leaf => rfl
    | node => exact absurd hp (by simp [Perfect])
  | succ k ih => cases t with
    | leaf => exact absurd hp (by simp [Perfect])
    | node l r d => simp only [leafCells, List.length_append, ih hp.1, ih hp.2]; ring

theorem stores_leaves {H : List (Cell S)} {h idx : Nat} {t : STree S} (hp : Perfect h t) (ht : Stores H idx t) :
    (List.range' (idx * 2 ^ h) (2 ^ h)).map (fun j => H[j]?) = (leafCells t).map some := by
  induction h generalizing idx t with
  | zero =>
    cases t with
    | leaf b d => rw [Stores] at ht; simp [leafCells, ht]
    | node l r d => exact absurd hp (by simp [Perfect])
  | succ h ih =>
    cases t with
    | leaf b d => exact absurd hp (by simp [Perfect])
    | node l r d =>
      obtain ⟨_, h1, h2⟩ := ht
      have e : List.range' (idx * 2 ^ (h + 1)) (2 ^ (h + 1)) =
          List.range' (2 * idx * 2 ^ h) (2 ^ h) ++ List.range' ((2 * idx + 1) * 2 ^ h) (2 ^ h) := by
        rw [show idx * 2 ^ (h + 1) = 2 * idx * 2 ^ h by ring, show 2 ^ (h + 1) = 2 ^ h + 2 ^ h by ring,
          show (2 * idx + 1) * 2 ^ h = 2 * idx * 2 ^ h + 1 * 2 ^ h by ring, List.range'_append]
      rw [e, List.map_append, ih hp.1 h1, ih hp.2 h2]
      simp [leafCells]

/-- The upper half of the array is the list of leaves. -/
theorem stores_drop {H : List (Cell S)} {k : Nat} {t : STree S} (hp : Perfect k t) (ht : Stores H 1 t)
    (hlen : H.length = 2 ^ (k + 1)) : H.drop (2 ^ k) = leafCells t := by
  have e := stores_leaves hp ht
  rw [Nat.one_mul] at e
  have hl : 2 ^ (k + 1) = 2 * 2 ^ k := by ring
  apply (List.map_injective_iff.2 (Option.some_injective (Cell S)))
  rw [← e]
  apply List.ext_getElem?
  intro i
  rw [List.getElem?_map, List.getElem?_map, List.getElem?_drop]
  rcases Nat.lt_or_ge i (2 ^ k) with hi | hi
  · rw [List.getElem?_range' hi, List.getElem?_eq_getElem (l := H) (by omega)]
    simp [List.getElem?_eq_getElem (l := H) (show 2 ^ k + i < H.length by omega)]
  · rw [List.getElem?_eq_none (l := List.range' _ _) (by simpa using hi),
      List.getElem?_eq_none (l := H) (by omega)]
    rfl

theorem perfect_height {k : Nat} {t : STree S} (hp : Perfect k t) : t.height = k := by
  induction k generalizing t with
  | zero => cases t with
    | leaf => rfl
    | node => exact absurd hp (by simp [Perfect])
  | succ k ih => cases t with
    | leaf => exact absurd hp (by simp [Perfect])
    | node l r d => simp [STree.height, ih hp.1, ih hp.2]

end

section
variable {S : Type} [Add S] [Sub S] [Mul S] [Neg S] [Div S] [Zero S] [One S] [FOps S]

omit [Add S] [Sub S] [Mul S] [Neg S] [Div S] [Zero S] [One S] [FOps S] in
theorem stores_data {H : List (Cell S)} {idx : Nat} {t : STree S} (h : Stores H idx t) :
    ∃ b, H[idx]? = some ⟨t.data, b⟩ := by
  cases t with
  | leaf b d => exact ⟨b, h⟩
  | node l r d => exact ⟨_, h.1⟩

/-- The intended walk on a stored tree accumulates the forces of the accepted nodes. -/
theorem heap_walk {H : List (Cell S)} {v1 : Vec3 S} {mass1 : S} {h idx : Nat} {t : STree S}
    (hp : Perfect h t) (ht : Stores H idx t) (total : Vec3 S) :
    C31.walk (heapStep H v1 mass1) h idx total =
      .ok ((acceptedNodes v1 t).foldl (addForce v1 mass1) total) := by
  induction h generalizing idx t total with
  | zero =>
    cases t with
    | node => exact absurd hp (by simp [Perfect])
    | leaf b d =>
      rw [Stores] at ht
      simp only [C31.walk, heapStep, rd_eq_ok.2 ht, bind, Except.bind, acceptedNodes]
      cases accepts v1 d <;> rfl
  | succ h ih =>
    cases t with
    | leaf => exact absurd hp (by simp [Perfect])
    | node l r d =>
      obtain ⟨h0, h1, h2⟩ := ht
      simp only [C31.walk, heapStep, rd_eq_ok.2 h0, bind, Except.bind, acceptedNodes]
      cases ha : accepts v1 d with
      | true => rfl
      | false =>
        simp only [Bool.false_eq_true, if_false]
        rw [ih hp.1 h1]
        simp only []
        rw [ih hp.2 h2, List.foldl_append]

/-- Walking the heap is walking the tree it stores. -/
theorem heapTraverse_eq {H : List (Cell S)} {k : Nat} (hk : k ≤ 63) {t : STree S} (hp : Perfect k t)
    (ht : Stores H 1 t) (hlen : H.length = 2 ^ (k + 1)) {fuel : Nat} (hf : 2 ^ (k + 1) - 1 ≤ fuel)
    (v1 : Vec3 S) (mass1 : S) : heapTraverse fuel H v1 mass1 = spaceTreeTraverse t v1 mass1 := by
  unfold heapTraverse
  rw [hlen, C31.stack_walk_correct hk _ _ hf, heapRoot, heap_walk hp ht,
    traverse_eq t v1 mass1 (by rw [perfect_height hp]; unfold maxStackSize; omega)]

theorem heapStacklessTraverse_eq {H : List (Cell S)} {k : Nat} (hk : k ≤ 30) {t : STree S} (hp : Perfect k t)
    (ht : Stores H 1 t) (hlen : H.length = 2 ^ (k + 1)) {fuel : Nat} (hf : 2 ^ (k + 1) - 1 ≤ fuel)
    (v1 : Vec3 S) (mass1 : S) :
    heapStacklessTraverse nextDownCtz fuel H v1 mass1 = spaceTreeTraverse t v1 mass1 := by
  rw [← heapTraverse_eq (by omega) hp ht hlen hf]
  unfold heapStacklessTraverse heapTraverse
  rw [hlen]
  exact C31.stackless_eq_stack hk _ _ hf hf

omit [Neg S] [One S] in
/-- One level of the refresh. -/
theorem level_eq {half ratio2 : S} {ord : List Nat → List Nat} (hord : ∀ l, (ord l).Perm l) {lo hi : Nat}
    {H : List (Cell S)} (hlo : hi ≤ 2 * lo ∨ hi ≤ lo + 1) (hhi : 2 * hi ≤ H.length) :
    ∃ H', heapFor ord lo hi (fun idx => heapUpdate half ratio2 idx (leftIdx idx) (rghtIdx idx)) H = .ok H' ∧
      H'.length = H.length ∧ (∀ j, ¬ (lo ≤ j ∧ j < hi) → H'[j]? = H[j]?) ∧
      ∀ j c cl cr, lo ≤ j → j < hi → H[j]? = some c → H[2 * j]? = some cl → H[2 * j + 1]? = some cr →
        H'[j]? = some ⟨updateData half ratio2 cl.d cr.d, c.body⟩ := by
  have hex : ∀ j, j < hi → ∃ c, ∃ cl cr : Cell S, H[j]? = some c ∧ H[2 * j]? = some cl ∧ H[2 * j + 1]? = some cr :=
    fun j hj => ⟨H[j], H[2 * j], H[2 * j + 1], List.getElem?_eq_getElem _, List.getElem?_eq_getElem _,
      List.getElem?_eq_getElem _⟩
  let g : Nat → Cell S := fun j =>
    match H[j]?, H[2 * j]?, H[2 * j + 1]? with
    | some c, some cl, some cr => ⟨updateData half ratio2 cl.d cr.d, c.body⟩
    | _, _, _ => ⟨⟨⟨0, 0, 0⟩, 0, 0, ⟨0, 0, 0⟩, ⟨0, 0, 0⟩⟩, 0⟩
  obtain ⟨H', h1, h2, h3⟩ := heapFor_eq hord (lo := lo) (hi := hi) (H := H) (by omega) (g := g)
    (body := fun idx => heapUpdate half ratio2 idx (leftIdx idx) (rghtIdx idx)) (by
      intro i H' hi1 hi2 hlen hout hself
      obtain ⟨c, cl, cr, e1, e2, e3⟩ := hex i hi2
      have hl : H'[2 * i]? = some cl := by
        by_cases h0 : i = 2 * i
        · rw [← h0] at e2 ⊢
          rw [hself]; exact e2
        · rw [hout _ (by omega), e2]
      have hr : H'[2 * i + 1]? = some cr := by rw [hout _ (by omega), e3]
      have := heapUpdate_ok (half := half) (ratio2 := ratio2) hl hr (hself.trans e1)
      rw [C31.left_eq, C31.rght_eq, this]
      simp only [g, e1, e2, e3])
  refine ⟨H', h1, h2, fun j hj => ?_, fun j c cl cr hj1 hj2 e1 e2 e3 => ?_⟩
  · rw [h3 j, if_neg hj]
  · rw [h3 j, if_pos ⟨hj1, hj2⟩]
    simp only [g, e1, e2, e3]

omit [Neg S] [One S] in
theorem rebuild_data_node (B : Bodies S) (half ratio2 : S) (l r : STree S) (d : NodeData S) :
    STree.rebuild B half ratio2 (.node l r d) = .node (STree.rebuild B half ratio2 l)
      (STree.rebuild B half ratio2 r)
      (updateData half ratio2 (STree.rebuild B half ratio2 l).data (STree.rebuild B half ratio2 r).data) := rfl

omit [Neg S] [One S] in
theorem heapLevels_zero (half ratio2 : S) (ord : List Nat → List Nat) (H : List (Cell S)) :
    heapLevels half ratio2 ord 0 H = .ok H := by
  rw [heapLevels]; rfl

omit [Neg S] [One S] in
theorem heapLevels_step (half ratio2 : S) (ord : List Nat → List Nat) {lc : Nat} (h : lc ≠ 0)
    (H : List (Cell S)) : heapLevels half ratio2 ord lc H = (do
      let H ← heapFor ord (lc / 2) lc (fun idx => heapUpdate half ratio2 idx (leftIdx idx) (rghtIdx idx)) H
      heapLevels half ratio2 ord (lc / 2) H) := by
  rw [heapLevels, if_neg h]

omit [Neg S] [One S] in
/-- The loop over the levels, once all subtrees of height `k - m` are up to date. -/
theorem heapLevels_eq {B : Bodies S} {half ratio2 : S} {ord : List Nat → List Nat}
    (hord : ∀ l, (ord l).Perm l) {k : Nat} {t : STree S} (hp : Perfect k t) :
    ∀ (m : Nat) (H : List (Cell S)), m ≤ k → H.length = 2 ^ (k + 1) →
      (∀ idx s, 2 ^ m ≤ idx → idx < 2 ^ (m + 1) → NodeAt t idx s → Stores H idx (STree.rebuild B half ratio2 s)) →
      (∀ idx l r d, idx < 2 ^ m → NodeAt t idx (.node l r d) → (H[idx]?).map Cell.body = some noBody) →
      ∃ H', heapLevels half ratio2 ord (2 ^ m) H = .ok H' ∧ H'.length = H.length ∧
        Stores H' 1 (STree.rebuild B half ratio2 t) ∧ ∀ j, 2 ^ m ≤ j → H'[j]? = H[j]? := by
  intro m
  induction m with
  | zero =>
    intro H hm hlen hst _
    have hpow : 2 ≤ 2 ^ (k + 1) := by
      calc 2 = 2 ^ 1 := rfl
        _ ≤ 2 ^ (k + 1) := Nat.pow_le_pow_right (by norm_num) (by omega)
    obtain ⟨H', h1, h2, h3, _⟩ := level_eq (half := half) (ratio2 := ratio2) hord (lo := 0) (hi := 1) (H := H)
      (by omega) (by omega)
    refine ⟨H', ?_, h2, ?_, fun j hj => h3 j (by simp at hj; omega)⟩
    · rw [heapLevels_step _ _ _ (by norm_num)]
      rw [show 2 ^ 0 / 2 = 0 from rfl, pow_zero, h1]
      exact heapLevels_zero _ _ _ _
    · refine stores_congr (fun j hj => (h3 j ?_).symm) (hst 1 t (by norm_num) (by norm_num) NodeAt.root)
      have := hj.le
      omega
  | succ m ih =>
    intro H hm hlen hst hbody
    have e1 : 2 ^ (m + 1) = 2 * 2 ^ m := by ring
    have e2 : 2 ^ (m + 1 + 1) = 2 * 2 ^ (m + 1) := by ring
    have hpow : 2 ^ (m + 1 + 1) ≤ 2 ^ (k + 1) := Nat.pow_le_pow_right (by norm_num) (by omega)
    have hpm : 1 ≤ 2 ^ m := Nat.one_le_two_pow
    obtain ⟨H1, h1, h2, h3, h4⟩ := level_eq (half := half) (ratio2 := ratio2) hord (lo := 2 ^ m)
      (hi := 2 ^ (m + 1)) (H := H) (by omega) (by omega)
    obtain ⟨H', g1, g2, g3, g4⟩ := ih H1 (by omega) (by omega) (by
        intro idx s i1 i2 hs
        obtain ⟨d, d1, d2, d3, d4⟩ := nodeAt_perfect hp hs
        obtain rfl := level_unique i1 i2 d2 d3
        obtain ⟨c, hc⟩ : ∃ c, k - m = c + 1 := ⟨k - m - 1, by omega⟩
        rw [hc] at d4
        cases s with
        | leaf => exact absurd d4 (by simp [Perfect])
        | node l r d =>
          have sl := hst (2 * idx) l (by omega) (by omega) hs.left
          have sr := hst (2 * idx + 1) r (by omega) (by omega) hs.right
          have keep : ∀ j, Below (2 * idx) j ∨ Below (2 * idx + 1) j → H[j]? = H1[j]? := by
            intro j hj
            have : 2 * idx ≤ j := by
              rcases hj with hj | hj
              · exact hj.le
              · have := hj.le; omega
            exact (h3 j (by omega)).symm
          obtain ⟨bl, el⟩ := stores_data sl
          obtain ⟨br, er⟩ := stores_data sr
          have hb := hbody idx l r d i2 hs
          cases hc0 : H[idx]? with
          | none => rw [hc0] at hb; cases hb
          | some c0 =>
            rw [hc0] at hb
            simp only [Option.map_some, Option.some.injEq] at hb
            rw [rebuild_data_node]
            refine ⟨?_, stores_congr (fun j hj => keep j (Or.inl hj)) sl,
              stores_congr (fun j hj => keep j (Or.inr hj)) sr⟩
            rw [h4 idx c0 _ _ i1 i2 hc0 el er, hb])
      (by
        intro idx l r d i2 hs
        rw [h3 idx (by omega)]
        exact hbody idx l r d (by omega) hs)
    refine ⟨H', ?_, by omega, g3, fun j hj => ?_⟩
    · rw [heapLevels_step _ _ _ (by omega)]
      rw [show 2 ^ (m + 1) / 2 = 2 ^ m by omega, h1]
      exact g1
    · rw [g4 j (by omega), h3 j (by omega)]

omit [Neg S] [One S] in
/-- Rebuilding the heap rebuilds the tree it stores. -/
theorem heapRebuild_eq {B : Bodies S} {half ratio : S} {ord : List Nat → List Nat}
    (hord : ∀ l, (ord l).Perm l) {k : Nat} {t : STree S} (hp : Perfect k t) {H : List (Cell S)}
    (hlen : H.length = 2 ^ (k + 1)) (hst : Stores H 1 t) (hb : ∀ b ∈ t.bodies, b < 2 ^ k) :
    ∃ H', heapRebuild ord (2 ^ k) B half ratio H = .ok H' ∧ H'.length = H.length ∧
      Stores H' 1 (spaceTreeRebuild B half ratio t) ∧
      ∀ (j : Nat) (c' : Cell S), 2 ^ k ≤ j → H'[j]? = some c' → ∃ c, H[j]? = some c ∧ c.d.rsq = c'.d.rsq := by
  have e1 : 2 ^ (k + 1) = 2 * 2 ^ k := by ring
  have hup : ∀ j, 2 ^ k ≤ j → j < 2 ^ k * 2 → ∃ c, H[j]? = some c ∧ c.body < 2 ^ k := by
    intro j j1 j2
    have hd := stores_drop hp hst hlen
    have hc : H[j]? = some H[j] := List.getElem?_eq_getElem (by omega)
    refine ⟨H[j], hc, ?_⟩
    have hmem : H[j] ∈ H.drop (2 ^ k) := by
      rw [List.mem_iff_getElem?]
      exact ⟨j - 2 ^ k, by rw [List.getElem?_drop, show 2 ^ k + (j - 2 ^ k) = j by omega, hc]⟩
    rw [hd] at hmem
    have : ∀ (s : STree S), ∀ c ∈ leafCells s, c.body ∈ s.bodies := by
      intro s
      induction s with
      | leaf b d => intro c hc; simp only [leafCells, List.mem_singleton] at hc; subst hc; simp [STree.bodies]
      | node l r d hl hr =>
        intro c hc
        simp only [leafCells, List.mem_append] at hc
        simp only [STree.bodies, List.mem_append]
        exact hc.imp (hl c) (hr c)
    exact hb _ (this t _ hmem)
  let g : Nat → Cell S := fun j =>
    match H[j]? with
    | some c => ⟨{ c.d with mc := B.pos c.body, bmin := B.pos c.body, bmax := B.pos c.body }, c.body⟩
    | none => ⟨⟨⟨0, 0, 0⟩, 0, 0, ⟨0, 0, 0⟩, ⟨0, 0, 0⟩⟩, 0⟩
  obtain ⟨H1, h1, h2, h3⟩ := heapFor_eq hord (lo := 2 ^ k) (hi := 2 ^ k * 2) (H := H) (by omega) (g := g)
    (body := heapRefreshLeaf (2 ^ k) B) (by
      intro i H' i1 i2 hl hout hself
      obtain ⟨c, hc, hbd⟩ := hup i i1 i2
      unfold heapRefreshLeaf
      rw [rd_eq_ok.2 (hself.trans hc)]
      simp only [bind, Except.bind, hbd, if_true]
      rw [wr_lt (by omega)]
      simp only [g, hc])
  obtain ⟨H', g1, g2, g3, g4⟩ := heapLevels_eq (B := B) (half := half) (ratio2 := ratio * ratio) hord hp k H1
    (le_refl k) (by omega) (by
      intro idx s i1 i2 hs
      obtain ⟨d, d1, d2, d3, d4⟩ := nodeAt_perfect hp hs
      obtain rfl := level_unique i1 i2 d2 d3
      rw [Nat.sub_self] at d4
      cases s with
      | node => exact absurd d4 (by simp [Perfect])
      | leaf b d =>
        have hs' := nodeAt_stores hst hs
        rw [Stores] at hs'
        show H1[idx]? = _
        rw [h3 idx, if_pos ⟨i1, by omega⟩]
        simp only [g, hs'])
    (by
      intro idx l r d i2 hs
      rw [h3 idx, if_neg (by omega), (nodeAt_stores hst hs).1]
      rfl)
  refine ⟨H', ?_, by omega, g3, ?_⟩
  · unfold heapRebuild
    rw [h1]
    exact g1
  · intro j c' hj hc'
    rw [g4 j hj, h3 j] at hc'
    split at hc'
    · next hj2 =>
      obtain ⟨c, hc, _⟩ := hup j hj2.1 hj2.2
      refine ⟨c, hc, ?_⟩
      simp only [g, hc, Option.some.injEq] at hc'
      rw [← hc']
    · exact ⟨c', hc', rfl⟩

end

end NB
