import Verif.Lemmas.SpaceHeap
import Mathlib.Tactic.Linarith

/-
C27  The heap layout stays inside its arrays exactly when the body count is a power of two; then the leaves
are exactly the upper half.  The theorems hold for every scalar type.
-/

namespace NB.C27
open NB NB.Spec

section
variable {S : Type} [Add S] [Sub S] [Mul S] [Neg S] [Div S] [Zero S] [One S] [FOps S]

omit [Add S] [Sub S] [Mul S] [Neg S] [Div S] [Zero S] [One S] [FOps S] in
lemma rd_cases {α : Type} (b : List α) (i : ℕ) : (∃ x, rd b i = .ok x ∧ i < b.length) ∨ rd b i = .error .oob := by
  rcases Nat.lt_or_ge i b.length with h | h
  · obtain ⟨x, _, hx⟩ := rd_lt h
    exact Or.inl ⟨x, hx, h⟩
  · exact Or.inr (rd_oob h)

omit [Neg S] [One S] in
lemma heapUpdate_cases (half ratio2 : S) (idx l r : ℕ) (H : List (Cell S)) :
    (∃ H', heapUpdate half ratio2 idx l r H = .ok H' ∧ H'.length = H.length ∧ idx < H.length ∧ l < H.length ∧
      r < H.length) ∨ heapUpdate half ratio2 idx l r H = .error .oob := by
  unfold heapUpdate
  rcases rd_cases H l with ⟨cl, h1, l1⟩ | h1
  · rcases rd_cases H r with ⟨cr, h2, l2⟩ | h2
    · rcases rd_cases H idx with ⟨c, h3, l3⟩ | h3
      · left
        simp only [h1, h2, h3, bind, Except.bind]
        exact ⟨_, wr_lt l3 _, by simp, l3, l1, l2⟩
      · right; simp only [h1, h2, h3, bind, Except.bind]
    · right; simp only [h1, h2, bind, Except.bind]
  · right; simp only [h1, bind, Except.bind]

omit [Neg S] [One S] in
/-- With enough depth the only possible failure is a bad access; the array does not change its size; and a
success means that the rightmost node is inside. -/
lemma heapBuildP_cases {B : Bodies S} {half ratio2 : S} {nth : NthElement} (hn : Reorders nth) :
    ∀ (k fuel : ℕ) (path : List Bool) (dim : ℕ) (ids : List ℕ) (idx : ℕ) (H : List (Cell S)),
      k < fuel → 0 < ids.length → ids.length ≤ 2 ^ k →
      (∃ H', heapBuildP B half ratio2 nth fuel path dim ids idx H = .ok H' ∧ H'.length = H.length ∧
        (idx + 1) * 2 ^ Nat.clog 2 ids.length ≤ H.length) ∨
      heapBuildP B half ratio2 nth fuel path dim ids idx H = .error .oob := by
  intro k
  induction k with
  | zero =>
    intro fuel path dim ids idx H hf h0 h1
    obtain ⟨f, rfl⟩ : ∃ f, fuel = f + 1 := ⟨fuel - 1, by omega⟩
    obtain ⟨i, rfl⟩ := List.length_eq_one_iff (l := ids).1 (by rw [pow_zero] at h1; omega)
    rw [heapBuildP_leaf]
    rcases rd_cases H idx with ⟨c, h2, l2⟩ | h2
    · left
      simp only [h2, bind, Except.bind]
      exact ⟨_, wr_lt l2 _, by simp, by simpa using l2⟩
    · right; rw [h2]; rfl
  | succ k ih =>
    intro fuel path dim ids idx H hf h0 h1
    obtain ⟨f, rfl⟩ : ∃ f, fuel = f + 1 := ⟨fuel - 1, by omega⟩
    by_cases hone : ids.length = 1
    · exact ih (f + 1) path dim ids idx H (by omega) h0 (by rw [hone]; exact Nat.one_le_two_pow)
    · rw [heapBuildP_node _ _ _ _ _ _ _ _ _ _ hone]
      have e : 2 ^ (k + 1) = 2 * 2 ^ k := by ring
      have hlt := C25.nth_take_length hn path dim ids
      have hld := C25.nth_drop_length hn path dim ids
      rcases ih f (path ++ [false]) ((dim + 1) % 3) ((nth path dim ids).take (ids.length / 2)) (2 * idx) H
        (by omega) (by omega) (by omega) with ⟨H1, r1, l1, _⟩ | r1
      · rcases ih f (path ++ [true]) ((dim + 1) % 3) ((nth path dim ids).drop (ids.length / 2)) (2 * idx + 1)
          H1 (by omega) (by omega) (by omega) with ⟨H2, r2, l2, g2⟩ | r2
        · simp only [r1, r2, bind, Except.bind]
          rcases heapUpdate_cases half ratio2 idx (2 * idx) (2 * idx + 1) H2 with ⟨H3, r3, l3, _⟩ | r3
          · left
            refine ⟨H3, r3, by omega, ?_⟩
            rw [hld] at g2
            rw [Nat.clog_of_two_le (le_refl 2) (by omega), pow_succ]
            have e2 : (ids.length + 2 - 1) / 2 = ids.length - ids.length / 2 := by omega
            rw [e2]
            calc (idx + 1) * (2 ^ Nat.clog 2 (ids.length - ids.length / 2) * 2)
                = (2 * idx + 1 + 1) * 2 ^ Nat.clog 2 (ids.length - ids.length / 2) := by ring
              _ ≤ H1.length := g2
              _ = H.length := l1
          · exact Or.inr r3
        · right; simp only [r1, r2, bind, Except.bind]
      · right; simp only [r1, bind, Except.bind]

omit [Add S] [Sub S] [Mul S] [Neg S] [Div S] [One S] [FOps S] in
lemma resize_length (size : ℕ) (H : List (Cell S)) : (heapResize size H).length = size := by
  simp [heapResize]

omit [Add S] [Sub S] [Mul S] [Neg S] [Div S] [One S] [FOps S] in
lemma resize_get (size : ℕ) (H : List (Cell S)) {j : ℕ} (hj : j < size) :
    (heapResize size H)[j]? = some (match H[j]? with
      | some c => ⟨c.d, noBody⟩
      | none => ⟨⟨⟨0, 0, 0⟩, 0, 0, ⟨0, 0, 0⟩, ⟨0, 0, 0⟩⟩, noBody⟩) := by
  simp only [heapResize, List.getElem?_map, List.getElem?_range hj, Option.map_some]
  cases H[j]? <;> rfl

omit [Add S] [Sub S] [Mul S] [Neg S] [Div S] [One S] [FOps S] in
lemma resize_body (size : ℕ) (H : List (Cell S)) (j : ℕ) (c : Cell S)
    (h : (heapResize size H)[j]? = some c) : c.body = noBody := by
  rcases Nat.lt_or_ge j size with hj | hj
  · rw [resize_get size H hj] at h
    cases hH : H[j]? with
    | none => rw [hH] at h; cases h; rfl
    | some c' => rw [hH] at h; cases h; rfl
  · rw [List.getElem?_eq_none (by rw [resize_length]; exact hj)] at h
    cases h

omit [Neg S] [One S] in
/-- **C27**, first half: building a heap of at least one body, on an object that may have been used before,
stays inside the arrays if and only if the number of bodies is a power of two.  (`2^k` bounds the count;
`fuel` is any sufficient recursion depth.) -/
theorem in_bounds_iff {count k fuel : ℕ} (B : Bodies S) (half ratio : S) {nth : NthElement}
    (hn : Reorders nth) (H : List (Cell S)) (h0 : 0 < count) (h1 : count ≤ 2 ^ k) (hf : k < fuel) :
    (∃ H', heapBuild count B half ratio nth fuel H = .ok H') ↔ ∃ m, count = 2 ^ m := by
  constructor
  · rintro ⟨H', h⟩
    rcases heapBuildP_cases hn k fuel [] 0 (List.range count) heapRoot (heapResize (2 * count) H)
      hf (by simpa using h0) (by simpa using h1) (B := B) (half := half) (ratio2 := ratio * ratio) with
      ⟨H2, _, _, hc⟩ | he
    · rw [resize_length, List.length_range, heapRoot] at hc
      refine ⟨Nat.clog 2 count, le_antisymm (Nat.le_pow_clog (le_refl 2) _) (by omega)⟩
    · unfold heapBuild at h
      rw [he] at h
      cases h
  · rintro ⟨m, rfl⟩
    have hm : m < fuel := by
      have := (Nat.pow_le_pow_iff_right (by norm_num : 1 < 2)).1 h1
      omega
    obtain ⟨H', h, _⟩ := heapBuildP_ok hn m fuel [] 0 (List.range (2 ^ m)) heapRoot
      (heapResize (2 * 2 ^ m) H) hm (by simp) (le_refl 1) (by rw [resize_length, heapRoot])
      (B := B) (half := half) (ratio2 := ratio * ratio)
    exact ⟨H', h⟩

omit [Neg S] [One S] in
/-- For every other count the outcome is an access outside the arrays. -/
theorem out_of_bounds {count k fuel : ℕ} (B : Bodies S) (half ratio : S) {nth : NthElement}
    (hn : Reorders nth) (H : List (Cell S)) (h0 : 0 < count) (h1 : count ≤ 2 ^ k) (hf : k < fuel)
    (h2 : ∀ m, count ≠ 2 ^ m) : heapBuild count B half ratio nth fuel H = .error .oob := by
  rcases heapBuildP_cases hn k fuel [] 0 (List.range count) heapRoot (heapResize (2 * count) H)
    hf (by simpa using h0) (by simpa using h1) (B := B) (half := half) (ratio2 := ratio * ratio) with
    ⟨H2, h, _⟩ | he
  · obtain ⟨m, hm⟩ := (in_bounds_iff B half ratio hn H h0 h1 hf).1 ⟨H2, h⟩
    exact absurd hm (h2 m)
  · exact he

/-- The leaf radii an object carries over from earlier use are zero: the entries of `m_radius_sqr` at the
leaf indices of a heap of `count` bodies. -/
def CleanLeaves (count : ℕ) (H : List (Cell S)) : Prop :=
  ∀ j c, count ≤ j → j < 2 * count → H[j]? = some c → c.d.rsq = 0

omit [Neg S] [One S] in
/-- What the heap of `2^m` bodies contains: `2^(m+1)` cells that store a perfect tree of height `m` over the
bodies at the root index 1, with their positions and masses in the leaves — the tree that the pointer layout builds, if the radii at the leaf indices are
zero beforehand, as they are in a new object. -/
theorem build_stores_tree {m fuel : ℕ} {B : Bodies S} {half ratio : S} {nth : NthElement}
    (hn : Reorders nth) (H : List (Cell S)) (hf : m < fuel) :
    ∃ H' t, heapBuild (2 ^ m) B half ratio nth fuel H = .ok H' ∧ H'.length = 2 ^ (m + 1) ∧
      Stores H' 1 t ∧ Perfect m t ∧ t.bodies.Perm (List.range (2 ^ m)) ∧ Carries B t ∧
      (CleanLeaves (2 ^ m) H → spaceTreeBuild (2 ^ m) B half ratio nth fuel = .ok t ∧
        CleanLeaves (2 ^ m) H') := by
  obtain ⟨H', h, hl, _, hq, hs⟩ := heapBuildP_ok hn m fuel [] 0 (List.range (2 ^ m)) heapRoot
      (heapResize (2 * 2 ^ m) H) hf (by simp) (le_refl 1) (by rw [resize_length, heapRoot])
      (B := B) (half := half) (ratio2 := ratio * ratio)
  obtain ⟨t, h1, h2, h3, h5, h4⟩ := hs fun j c _ => resize_body _ _ j c
  have hz : CleanLeaves (2 ^ m) H → ∀ (j : ℕ) (c : Cell S), 2 ^ m ≤ j → j < 2 * 2 ^ m →
      (heapResize (2 * 2 ^ m) H)[j]? = some c → c.d.rsq = 0 := by
    intro hc j c hj1 hj2 hj
    rw [resize_get _ _ hj2] at hj
    cases hH : H[j]? with
    | none => rw [hH] at hj; cases hj; rfl
    | some c' =>
      rw [hH] at hj
      cases hj
      exact hc j c' hj1 hj2 hH
  refine ⟨H', t, h, by rw [hl, resize_length]; ring, h1, h2, h3, h5, fun hc => ⟨h4 ?_, ?_⟩⟩
  · intro j c hj1 hj2
    rw [heapRoot] at hj1 hj2
    exact hz hc j c (by omega) (by omega)
  · intro j c hj1 hj2 hj
    rcases hq j with h5 | ⟨e, he, h5⟩
    · rw [hj] at h5
      cases hH : (heapResize (2 * 2 ^ m) H)[j]? with
      | none => rw [hH] at h5; cases h5
      | some c' =>
        rw [hH] at h5
        simp only [Option.map_some, Option.some.injEq] at h5
        rw [← h5]
        exact hz hc j c' hj1 hj2 hH
    · exfalso
      rw [heapRoot] at h5
      have h6 : j < 2 * 2 ^ e := by
        have := Nat.lt_mul_div_succ j (by positivity : 0 < 2 ^ e)
        rw [h5] at this
        linarith
      have h7 : 2 ^ (e + 1) ≤ 2 ^ m := Nat.pow_le_pow_right (by norm_num) he
      have h8 : 2 ^ (e + 1) = 2 * 2 ^ e := by ring
      omega

omit [Neg S] [One S] in
/-- **C27**, second half: for a power of two (that fits in memory) the leaves are exactly the upper half of
the array — each body occurs once among the cells from `count` on, and no cell below `count` has a body. -/
theorem leaves_upper_half {m fuel : ℕ} {B : Bodies S} {half ratio : S} {nth : NthElement}
    (hn : Reorders nth) (H : List (Cell S)) (hf : m < fuel) :
    ∃ H', heapBuild (2 ^ m) B half ratio nth fuel H = .ok H' ∧ H'.length = 2 * 2 ^ m ∧
      ((H'.drop (2 ^ m)).map Cell.body).Perm (List.range (2 ^ m)) ∧
      ∀ c ∈ H'.take (2 ^ m), c.body = noBody := by
  obtain ⟨H', t, h, hl, h1, h2, h3, _⟩ := build_stores_tree (B := B) (half := half) (ratio := ratio) hn H hf
  have hl' : H'.length = 2 * 2 ^ m := by rw [hl]; ring
  refine ⟨H', h, hl', ?_, ?_⟩
  · have e := stores_bodies h2 h1
    rw [Nat.one_mul] at e
    have e2 : (List.range' (2 ^ m) (2 ^ m)).map (fun j => (H'[j]?).map Cell.body) =
        ((H'.drop (2 ^ m)).map Cell.body).map some := by
      apply List.ext_getElem?
      intro i
      rw [List.getElem?_map, List.getElem?_map, List.getElem?_map, List.getElem?_drop]
      rcases Nat.lt_or_ge i (2 ^ m) with hi | hi
      · rw [List.getElem?_range' hi, List.getElem?_eq_getElem (l := H') (by omega)]
        simp [List.getElem?_eq_getElem (l := H') (show 2 ^ m + i < H'.length by omega)]
      · rw [List.getElem?_eq_none (l := List.range' _ _) (by simpa using hi),
          List.getElem?_eq_none (l := H') (by omega)]
        rfl
    rw [e2] at e
    have := (List.map_injective_iff.2 (Option.some_injective ℕ)) e
    rw [this]
    exact h3
  · intro c hc
    obtain ⟨j, hj, rfl⟩ := List.getElem_of_mem hc
    have hj' : j < 2 ^ m := by
      have := hj
      rw [List.length_take] at this
      omega
    rw [List.getElem_take]
    have hjl : j < H'.length := by omega
    rcases Nat.eq_zero_or_pos j with rfl | hpos
    · -- cell 0 is never used
      obtain ⟨H'', h', _, hfr, _⟩ := heapBuildP_ok hn m fuel [] 0 (List.range (2 ^ m)) heapRoot
        (heapResize (2 * 2 ^ m) H) hf (by simp) (le_refl 1) (by rw [resize_length, heapRoot])
        (B := B) (half := half) (ratio2 := ratio * ratio)
      have : H'' = H' := by
        have h9 : heapBuildP B half (ratio * ratio) nth fuel [] 0 (List.range (2 ^ m)) heapRoot
          (heapResize (2 * 2 ^ m) H) = .ok H' := h
        rw [h'] at h9
        exact Except.ok.inj h9
      subst this
      have h0 := hfr 0 fun hb => by have := hb.le; unfold heapRoot at this; omega
      exact resize_body _ _ 0 _ (by rw [← h0, List.getElem?_eq_getElem hjl])
    · have hlog : j / 2 ^ Nat.log 2 j = 1 :=
        Nat.div_eq_of_lt_le (by rw [Nat.one_mul]; exact Nat.pow_log_le_self 2 (by omega))
          (by have := Nat.lt_pow_succ_log_self (by norm_num : 1 < 2) j
              rw [pow_succ] at this; linarith)
      have := stores_inner h2 h1 (Nat.log_lt_of_lt_pow (by omega) hj') hlog
      rw [List.getElem?_eq_getElem hjl] at this
      simpa using this

end

/-! Non-vacuity: four bodies fit, three do not, with integer coordinates. -/

/-- Integer scalars, to have a computable instance. -/
instance : FOps ℤ where
  sqrt x := x
  abs x := |x|
  lt a b := decide (a < b)
  eqb a b := decide (a = b)
  lit n := n
  minDist := 1

/-- Bodies on a line. -/
def line : Bodies ℤ := ⟨fun i => i, fun _ => 0, fun _ => 0, fun _ => 1⟩

example : ∃ H', heapBuild 4 line 1 1 C25.sortIds 3 [] = .ok H' ∧ H'.length = 8 ∧
    ((H'.drop 4).map Cell.body).Perm [0, 1, 2, 3] := by
  obtain ⟨H', h1, h2, h3, _⟩ := leaves_upper_half (m := 2) (fuel := 3) (B := line) (half := 1) (ratio := 1)
    C25.sortIds_reorders [] (by norm_num)
  exact ⟨H', h1, h2, h3⟩

example : heapBuild 3 line 1 1 C25.sortIds 3 [] = .error .oob := by
  refine out_of_bounds (k := 2) line 1 1 C25.sortIds_reorders [] (by norm_num) (by norm_num) (by norm_num) ?_
  intro m hm
  rcases m with _ | _ | m
  · omega
  · omega
  · have : 1 ≤ 2 ^ m := Nat.one_le_two_pow
    have e : 2 ^ (m + 1 + 1) = 4 * 2 ^ m := by ring
    omega

end NB.C27
