import Verif.Model.Bench
import Verif.Lemmas.Buf
import Verif.Lemmas.Run
import Mathlib.Algebra.BigOperators.Group.Finset.Basic
import Mathlib.Tactic.Lemma

namespace NB

lemma compare_total (a b : ℕ → Vec3 ℝ) (n na nb : ℕ) (ha : n ≤ na) (hb : n ≤ nb) :
    ∃ M, forN n (0, 0) (compareStep (buf na a) (buf nb b)) =
        .ok (∑ i ∈ Finset.range n, (a i - b i).length, M) ∧
      0 ≤ M ∧ (∀ i, i < n → (a i - b i).length ≤ M) ∧ (n = 0 → M = 0) ∧
      (0 < n → (∀ i, 0 ≤ (a i - b i).length) → ∃ i, i < n ∧ M = (a i - b i).length) := by
  induction n with
  | zero => exact ⟨0, rfl, le_refl _, fun i h => absurd h (by omega), fun _ => rfl, fun h => absurd h (by omega)⟩
  | succ n ih =>
    obtain ⟨M, h1, h2, h3, h0, h4⟩ := ih (by omega) (by omega)
    refine ⟨max M (a n - b n).length, ?_, le_max_of_le_left h2, ?_, fun h => absurd h (by omega), ?_⟩
    · rw [forN_succ, h1]
      show compareStep _ _ n _ = _
      unfold compareStep
      rw [rd_buf (by omega), rd_buf (by omega), Finset.sum_range_succ]
      rfl
    · intro i hi
      rcases Nat.lt_succ_iff_lt_or_eq.1 hi with h | rfl
      · exact le_max_of_le_left (h3 i h)
      · exact le_max_right _ _
    · intro _ hpos
      rcases le_total M (a n - b n).length with h | h
      · exact ⟨n, by omega, max_eq_right h⟩
      · rw [max_eq_left h]
        by_cases hn : n = 0
        · refine ⟨n, by omega, ?_⟩
          rw [h0 hn] at h ⊢
          exact le_antisymm (hpos n) h
        · obtain ⟨i, hi, hM⟩ := h4 (by omega) hpos
          exact ⟨i, by omega, hM⟩

lemma compare_oob (a b : List (Vec3 ℝ)) (n : ℕ) (ha : n ≤ a.length) (hb : b.length < n) (s : ℝ × ℝ) :
    forN n s (compareStep a b) = .error .oob := by
  induction n with
  | zero => omega
  | succ n ih =>
    rw [forN_succ]
    by_cases h : b.length < n
    · rw [ih (by omega) h]; rfl
    · have hb' : b.length = n := by omega
      rcases hq : forN n s (compareStep a b) with e | q
      · -- a failure before the last iteration can only be the same one
        exfalso
        have : ∀ k, k ≤ n → ∃ q, forN k s (compareStep a b) = .ok q := by
          intro k
          induction k with
          | zero => exact fun _ => ⟨s, rfl⟩
          | succ k ihk =>
            intro hk
            obtain ⟨q, hq⟩ := ihk (by omega)
            rw [forN_succ, hq]
            show ∃ q', compareStep a b k q = .ok q'
            unfold compareStep rd
            rw [List.getElem?_eq_getElem (by omega), List.getElem?_eq_getElem (by omega)]
            exact ⟨_, rfl⟩
        obtain ⟨q, hq'⟩ := this n (le_refl _)
        rw [hq] at hq'
        cases hq'
      · show compareStep a b n q = _
        unfold compareStep rd
        rw [List.getElem?_eq_getElem (l := a) (by omega), List.getElem?_eq_none (l := b) (by omega)]
        rfl

/-- The rows `0 … m-1` after one cell has been pushed to each of them. -/
lemma push_rows (N : ℕ) (rows : ℕ → List TableCell) (cell : ℕ → TableCell) (f : ℕ → List (List TableCell) → Res (List (List TableCell)))
    (m : ℕ) (hm : m ≤ N) (hf : ∀ i, i < m → ∀ r, f i r = pushCell r i (cell i)) :
    forN m (buf N rows) f = .ok (buf N fun i => if i < m then rows i ++ [cell i] else rows i) := by
  induction m with
  | zero => simp [forN]
  | succ m ih =>
    rw [forN_succ, ih (by omega) fun i hi => hf i (by omega)]
    show f m _ = _
    rw [hf m (by omega)]
    unfold pushCell
    rw [rd_buf (by omega)]
    show wr _ m _ = _
    rw [wr_buf _ (by omega)]
    refine congrArg _ (buf_congr fun i hi => ?_)
    by_cases h : i = m
    · subst h; simp
    · rw [if_neg h]
      by_cases h' : i < m
      · rw [if_pos h', if_pos (by omega)]
      · rw [if_neg h', if_neg (by omega)]

lemma mapM_rd {γ : Type} (n : ℕ) (g : ℕ → γ) (l : List ℕ) (h : ∀ j ∈ l, j < n) :
    l.mapM (fun j => rd (buf n g) j) = Except.ok (ε := UB) (l.map g) := by
  induction l with
  | nil => rfl
  | cons a l ih =>
    rw [List.mapM_cons, rd_buf (h a (by simp)), ih fun j hj => h j (by simp [hj])]
    rfl

lemma mapM_eq {α β : Type} (f : α → Res β) (g : α → β) (l : List α) (h : ∀ a ∈ l, f a = .ok (g a)) :
    l.mapM f = .ok (l.map g) := by
  induction l with
  | nil => rfl
  | cons a l ih =>
    rw [List.mapM_cons, h a (by simp), ih fun j hj => h j (by simp [hj])]
    rfl

lemma mapM_fail {α β : Type} (f : α → Res β) (l : List α) (e : UB) (a : α) (ha : a ∈ l)
    (h : f a = .error e) (hall : ∀ b ∈ l, (∃ x, f b = .ok x) ∨ f b = .error e) : l.mapM f = .error e := by
  induction l with
  | nil => simp at ha
  | cons b l ih =>
    rw [List.mapM_cons]
    rcases hall b (by simp) with ⟨x, hx⟩ | hx
    · rw [hx]
      have hne : a ≠ b := by
        rintro rfl
        rw [h] at hx
        cases hx
      have ha' : a ∈ l := by simpa [hne] using ha
      show (do let bs ← l.mapM f; pure (x :: bs)) = _
      rw [ih ha' fun c hc => hall c (by simp [hc])]
      rfl
    · rw [hx]; rfl

lemma row_print {γ : Type} (row : List γ) (n : ℕ) (h : n = row.length) :
    (List.range n).mapM (fun j => rd row j) = Except.ok (ε := UB) row := by
  subst h
  have : ∀ l : List ℕ, (∀ j ∈ l, j < row.length) →
      ∃ r, l.mapM (fun j => rd row j) = Except.ok (ε := UB) r ∧ r.map some = l.map (fun j => row[j]?) := by
    intro l
    induction l with
    | nil => exact fun _ => ⟨[], rfl, rfl⟩
    | cons a l ih =>
      intro hl
      obtain ⟨r, h1, h2⟩ := ih fun j hj => hl j (by simp [hj])
      refine ⟨row[a]'(hl a (by simp)) :: r, ?_, ?_⟩
      · rw [List.mapM_cons, h1]
        unfold rd
        rw [List.getElem?_eq_getElem (hl a (by simp))]
        rfl
      · simp [h2, List.getElem?_eq_getElem (hl a (by simp))]
  obtain ⟨r, h1, h2⟩ := this (List.range row.length) (by simp)
  rw [h1]
  congr 1
  have h3 : (List.range row.length).map (fun j => row[j]?) = row.map some := by
    apply List.ext_getElem?
    intro i
    by_cases hi : i < row.length
    · simp [hi]
    · simp [hi]
  rw [h3] at h2
  exact (List.map_injective_iff.2 (Option.some_injective _)) h2

/-- Printing a table all rows of which are as long as the list of columns prints every row with its name. -/
lemma print_rows {γ : Type} (N : ℕ) (names : ℕ → String) (rows : ℕ → List γ) (n : ℕ)
    (h : ∀ i, i < N → (rows i).length = n) :
    printTable (buf N names) n (buf N rows) = .ok (buf N fun i => (names i, rows i)) := by
  unfold printTable
  rw [buf_length, mapM_eq _ (fun i => (names i, rows i))]
  · rfl
  · intro i hi
    have hi' : i < N := by simpa using hi
    rw [rd_buf hi', rd_buf hi']
    show (do let cells ← (List.range n).mapM (fun j => rd (rows i) j); pure (names i, cells)) = _
    rw [row_print _ _ (h i hi').symm]
    rfl

/-- A row that is shorter than the list of columns is read outside its bounds. -/
lemma print_short {γ : Type} (N : ℕ) (names : ℕ → String) (rows : ℕ → List γ) (n i : ℕ) (hi : i < N)
    (h : (rows i).length < n) :
    printTable (buf N names) n (buf N rows) = .error .oob := by
  have key : ∀ r : List γ, (∃ x, (List.range n).mapM (fun j => rd r j) = Except.ok (ε := UB) x) ∨
      (List.range n).mapM (fun j => rd r j) = Except.error (α := List γ) UB.oob := by
    intro r
    have : ∀ l : List ℕ, (∃ x, l.mapM (fun j => rd r j) = Except.ok (ε := UB) x) ∨
        l.mapM (fun j => rd r j) = Except.error (α := List γ) UB.oob := by
      intro l
      induction l with
      | nil => exact .inl ⟨[], rfl⟩
      | cons a l ih =>
        rw [List.mapM_cons]
        unfold rd at ih ⊢
        cases r[a]? with
        | none => exact .inr rfl
        | some x =>
          rcases ih with ⟨y, hy⟩ | hy
          · exact .inl ⟨x :: y, by simp only [hy]; rfl⟩
          · exact .inr (by simp only [hy]; rfl)
    exact this _
  unfold printTable
  rw [buf_length]
  refine mapM_fail _ _ _ i (by simpa using hi) ?_ ?_
  · rw [rd_buf hi, rd_buf hi]
    show (do let cells ← (List.range n).mapM (fun j => rd (rows i) j); pure (names i, cells)) = _
    rw [mapM_fail _ _ UB.oob (rows i).length (by simpa using h)]
    · rfl
    · simp [rd]
    · intro b hb
      unfold rd
      cases (rows i)[b]? with
      | none => exact .inr rfl
      | some x => exact .inl ⟨x, rfl⟩
  · intro b hb
    have hb' : b < N := by simpa using hb
    rw [rd_buf hb', rd_buf hb']
    show (∃ x, (do let cells ← (List.range n).mapM (fun j => rd (rows b) j); pure (names b, cells)) = _) ∨
      (do let cells ← (List.range n).mapM (fun j => rd (rows b) j); pure (names b, cells)) = _
    rcases key (rows b) with ⟨x, hx⟩ | hx
    · exact .inl ⟨(names b, x), by rw [hx]; rfl⟩
    · exact .inr (by rw [hx]; rfl)

end NB
