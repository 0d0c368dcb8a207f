import Verif.Model.Compressor
import Verif.Lemmas.StreamText
import Mathlib.Tactic.Ring
import Mathlib.Data.List.Perm.Basic

/-
Templates of `QString::arg` and padded numbers.
-/

namespace NB

/-! ### Numbers -/

lemma pad8_digit (n : ℕ) : ∀ c ∈ pad8 n, c.isDigit = true := by
  intro c hc
  rcases List.mem_append.1 hc with h | h
  · rw [(List.mem_replicate.1 h).2]; decide
  · exact digits_digit c h

lemma pad8_length (n : ℕ) : 8 ≤ (pad8 n).length := by
  unfold pad8
  rw [List.length_append, List.length_replicate]
  omega

lemma pad8_val (n : ℕ) : Nat.ofDigitChars 10 (pad8 n) 0 = n := by
  unfold pad8
  rw [Nat.ofDigitChars_append, Nat.ofDigitChars_replicate_zero, Nat.mul_zero, Nat.ofDigitChars_ten_toDigits]

lemma pad8_length_eq {n : ℕ} (h : n < 10 ^ 8) : (pad8 n).length = 8 := by
  have := (Nat.length_toDigits_le_iff (b := 10) (n := n) (k := 8) (by decide) (by decide)).2 h
  unfold pad8
  rw [List.length_append, List.length_replicate]
  omega

lemma digit_lt {c : Char} (h : c.isDigit = true) : c.toNat - 48 < 10 := by
  have := digit_range h
  omega

lemma val_lt {l : List Char} (h : ∀ c ∈ l, c.isDigit = true) : Nat.ofDigitChars 10 l 0 < 10 ^ l.length := by
  induction l with
  | nil => simp [Nat.ofDigitChars_nil]
  | cons c l ih =>
    rw [Nat.ofDigitChars_cons, Nat.ofDigitChars_eq_ofDigitChars_zero]
    have h1 := ih fun d hd => h d (by simp [hd])
    have h2 := digit_lt (h c (by simp))
    rw [List.length_cons, pow_succ]
    simp only [Nat.mul_zero, Nat.zero_add] at *
    show 10 ^ l.length * (c.toNat - '0'.toNat) + _ < _
    have : 10 ^ l.length * (c.toNat - 48) ≤ 10 ^ l.length * 9 := Nat.mul_le_mul_left _ (by omega)
    have e : '0'.toNat = 48 := rfl
    rw [e]
    omega

/-- Texts of digits of the same length are ordered like their values. -/
lemma lex_of_val : ∀ {a b : List Char}, a.length = b.length → (∀ c ∈ a, c.isDigit = true) →
    (∀ c ∈ b, c.isDigit = true) → Nat.ofDigitChars 10 a 0 < Nat.ofDigitChars 10 b 0 → a < b := by
  intro a
  induction a with
  | nil =>
    intro b hl _ _ h
    rw [List.length_nil] at hl
    rw [List.length_eq_zero_iff.1 hl.symm] at h
    exact absurd h (lt_irrefl _)
  | cons x a ih =>
    intro b hl ha hb h
    cases b with
    | nil => simp at hl
    | cons y b =>
      have hl' : a.length = b.length := by simpa using hl
      have ha' : ∀ c ∈ a, c.isDigit = true := fun c hc => ha c (by simp [hc])
      have hb' : ∀ c ∈ b, c.isDigit = true := fun c hc => hb c (by simp [hc])
      rw [Nat.ofDigitChars_cons, Nat.ofDigitChars_cons, Nat.ofDigitChars_eq_ofDigitChars_zero,
        Nat.ofDigitChars_eq_ofDigitChars_zero (l := b), ← hl'] at h
      have e : '0'.toNat = 48 := rfl
      simp only [Nat.mul_zero, Nat.zero_add, e] at h
      have h1 := val_lt ha'
      have h2 := val_lt hb'
      rw [← hl'] at h2
      have hx := digit_range (ha x (by simp))
      have hy := digit_range (hb y (by simp))
      rcases lt_trichotomy x.toNat y.toNat with hc | hc | hc
      · exact List.Lex.rel (show x < y from hc)
      · have : x = y := Char.ext (UInt32.toNat_inj.1 hc)
        subst this
        exact List.Lex.cons (ih hl' ha' hb' (by omega))
      · exfalso
        have : 10 ^ a.length * (y.toNat - 48) + 10 ^ a.length ≤ 10 ^ a.length * (x.toNat - 48) := by
          rw [← Nat.mul_succ]
          exact Nat.mul_le_mul_left _ (by omega)
        omega

/-! ### Templates -/

/-- Text of a piece. -/
def Seg.text : Seg → List Char
  | .lit c => [c]
  | .mark _ t => t

lemma takeNum_split {t : List Char} {q : ℕ × List Char × List Char} (h : takeNum t = some q) :
    t = q.2.1 ++ q.2.2 ∧ q.2.1.length ≤ 2 ∧ 0 < q.2.1.length := by
  cases t with
  | nil => cases h
  | cons a t =>
    simp only [takeNum] at h
    split at h
    · cases h
    · split at h
      · cases h; simp
      · split at h <;> (cases h; simp)

lemma markAt_split {t : List Char} {q : ℕ × List Char × List Char} (h : markAt t = some q) :
    t = q.2.1 ++ q.2.2 ∧ q.2.1.length ≤ 4 ∧ 0 < q.2.1.length := by
  cases t with
  | nil => cases h
  | cons c t =>
    simp only [markAt] at h
    by_cases hc : c = '%'
    · rw [if_pos hc] at h
      by_cases hl : t.head? = some 'L'
      · rw [if_pos hl] at h
        obtain ⟨p, hp, rfl⟩ := Option.map_eq_some_iff.1 h
        obtain ⟨h1, h2, h3⟩ := takeNum_split hp
        cases t with
        | nil => simp at hl
        | cons l t =>
          simp only [List.head?_cons, Option.some.injEq] at hl
          simp only [List.tail_cons] at h1
          simp only [List.cons_append, ← h1, hc, hl, List.length_cons]
          exact ⟨trivial, by omega, by omega⟩
      · rw [if_neg hl] at h
        obtain ⟨p, hp, rfl⟩ := Option.map_eq_some_iff.1 h
        obtain ⟨h1, h2, h3⟩ := takeNum_split hp
        simp only [List.cons_append, ← h1, hc, List.length_cons]
        exact ⟨trivial, by omega, by omega⟩
    · rw [if_neg hc] at h; cases h

lemma segsFuel_eq : ∀ (n m : ℕ) (t : List Char), t.length ≤ n → t.length ≤ m → segsFuel n t = segsFuel m t := by
  intro n
  induction n with
  | zero =>
    intro m t hn _
    have : t = [] := List.length_eq_zero_iff.1 (by omega)
    subst this
    cases m <;> rfl
  | succ n ih =>
    intro m t hn hm
    cases t with
    | nil => cases m <;> rfl
    | cons c t =>
      cases m with
      | zero => simp at hm
      | succ m =>
        simp only [segsFuel]
        cases hq : markAt (c :: t) with
        | none =>
          simp only
          rw [ih m t (by simpa using hn) (by simpa using hm)]
        | some q =>
          obtain ⟨h1, _, h3⟩ := markAt_split hq
          have := congrArg List.length h1
          rw [List.length_append] at this
          simp only
          rw [ih m q.2.2 (by omega) (by omega)]

lemma segs_nil : segs [] = [] := rfl

lemma segs_cons (c : Char) (t : List Char) : segs (c :: t) =
    match markAt (c :: t) with
    | some (k, m, r) => .mark k m :: segs r
    | none => .lit c :: segs t := by
  unfold segs
  rw [List.length_cons]
  simp only [segsFuel]
  cases hq : markAt (c :: t) with
  | none => rfl
  | some q =>
    obtain ⟨h1, _, h3⟩ := markAt_split hq
    have := congrArg List.length h1
    rw [List.length_append, List.length_cons] at this
    simp only
    rw [segsFuel_eq t.length q.2.2.length q.2.2 (by omega) le_rfl]

lemma takeNum_append (x t : List Char) : takeNum (x ++ '/' :: t) =
    (takeNum x).map fun q => (q.1, q.2.1, q.2.2 ++ '/' :: t) := by
  have hs : digitOf '/' = none := by decide
  cases x with
  | nil => simp [takeNum, hs]
  | cons a x =>
    simp only [List.cons_append, takeNum]
    cases digitOf a with
    | none => rfl
    | some v =>
      cases x with
      | nil => simp [hs]
      | cons b x =>
        simp only [List.cons_append]
        cases digitOf b <;> rfl

lemma markAt_append (c : Char) (x t : List Char) : markAt (c :: x ++ '/' :: t) =
    (markAt (c :: x)).map fun q => (q.1, q.2.1, q.2.2 ++ '/' :: t) := by
  simp only [List.cons_append, markAt]
  by_cases hc : c = '%'
  · rw [if_pos hc, if_pos hc]
    cases x with
    | nil =>
      have h1 : ¬ (([] : List Char) ++ '/' :: t).head? = some 'L' := by simp
      have h2 : ¬ ([] : List Char).head? = some 'L' := by simp
      rw [if_neg h1, if_neg h2, takeNum_append]
      simp only [Option.map_map]
      rfl
    | cons l x =>
      simp only [List.cons_append, List.head?_cons, Option.some.injEq, List.tail_cons]
      by_cases hl : l = 'L'
      · rw [if_pos hl, if_pos hl, takeNum_append]
        simp only [Option.map_map]
        rfl
      · rw [if_neg hl, if_neg hl]
        have := takeNum_append (l :: x) t
        rw [List.cons_append] at this
        rw [this]
        simp only [Option.map_map]
        rfl
  · rw [if_neg hc, if_neg hc]; rfl

/-- A slash ends every place marker. -/
lemma segs_append (x t : List Char) : segs (x ++ '/' :: t) = segs x ++ segs ('/' :: t) := by
  induction hn : x.length using Nat.strong_induction_on generalizing x with
  | _ n ih =>
    cases x with
    | nil => simp [segs_nil]
    | cons c x =>
      rw [List.cons_append, segs_cons, segs_cons c x]
      have := markAt_append c x t
      rw [List.cons_append] at this
      rw [this]
      cases hq : markAt (c :: x) with
      | none =>
        simp only [Option.map_none]
        rw [ih x.length (by rw [← hn]; simp) x rfl, List.cons_append]
      | some q =>
        obtain ⟨h1, _, h3⟩ := markAt_split hq
        have := congrArg List.length h1
        rw [List.length_append] at this
        simp only [Option.map_some]
        rw [ih q.2.2.length (by omega) q.2.2 rfl, List.cons_append]

lemma segs_text (t : List Char) : (segs t).flatMap Seg.text = t := by
  induction hn : t.length using Nat.strong_induction_on generalizing t with
  | _ n ih =>
    cases t with
    | nil => rfl
    | cons c t =>
      rw [segs_cons]
      cases hq : markAt (c :: t) with
      | none =>
        simp only [List.flatMap_cons, Seg.text]
        rw [ih t.length (by rw [← hn]; simp) t rfl, List.singleton_append]
      | some q =>
        obtain ⟨h1, _, h3⟩ := markAt_split hq
        have := congrArg List.length h1
        rw [List.length_append] at this
        simp only [List.flatMap_cons, Seg.text]
        rw [ih q.2.2.length (by omega) q.2.2 rfl, ← h1]

lemma segs_mark_length {t : List Char} {k : ℕ} {m : List Char} (h : Seg.mark k m ∈ segs t) : m.length ≤ 4 := by
  induction hn : t.length using Nat.strong_induction_on generalizing t with
  | _ n ih =>
    cases t with
    | nil => simp [segs_nil] at h
    | cons c t =>
      rw [segs_cons] at h
      cases hq : markAt (c :: t) with
      | none =>
        rw [hq] at h
        simp only [List.mem_cons, reduceCtorEq, false_or] at h
        exact ih t.length (by rw [← hn]; simp) h rfl
      | some q =>
        obtain ⟨h1, h2, h3⟩ := markAt_split hq
        have := congrArg List.length h1
        rw [List.length_append] at this
        rw [hq] at h
        simp only [List.mem_cons, Seg.mark.injEq] at h
        rcases h with ⟨_, rfl⟩ | h
        · exact h2
        · exact ih q.2.2.length (by omega) h rfl

lemma leastMark_append (a b : List Seg) : leastMark (a ++ b) =
    match leastMark a, leastMark b with
    | none, y => y
    | some x, none => some x
    | some x, some y => some (min x y) := by
  induction a with
  | nil => rfl
  | cons s a ih =>
    cases s with
    | lit c => simpa only [List.cons_append, leastMark] using ih
    | mark k m =>
      simp only [List.cons_append, leastMark, ih]
      cases leastMark a <;> cases leastMark b <;> simp [min_assoc]

lemma leastMark_none {a : List Seg} (h : leastMark a = none) : ∀ k m, Seg.mark k m ∉ a := by
  induction a with
  | nil => simp
  | cons s a ih =>
    cases s with
    | lit c => intro k m hh; simp only [List.mem_cons, reduceCtorEq, false_or] at hh; exact ih h k m hh
    | mark k m =>
      simp only [leastMark] at h
      cases hl : leastMark a <;> rw [hl] at h <;> cases h

lemma leastMark_some {a : List Seg} {k : ℕ} (h : leastMark a = some k) :
    (∃ m, Seg.mark k m ∈ a) ∧ ∀ j m, Seg.mark j m ∈ a → k ≤ j := by
  induction a generalizing k with
  | nil => cases h
  | cons s a ih =>
    cases s with
    | lit c =>
      obtain ⟨⟨m, h1⟩, h2⟩ := ih h
      exact ⟨⟨m, by simp [h1]⟩, fun j m hh => h2 j m (by simpa using hh)⟩
    | mark j m =>
      simp only [leastMark] at h
      cases hl : leastMark a with
      | none =>
        rw [hl] at h
        cases h
        refine ⟨⟨m, by simp⟩, fun i m' hh => ?_⟩
        simp only [List.mem_cons, Seg.mark.injEq] at hh
        rcases hh with ⟨rfl, _⟩ | hh
        · exact le_rfl
        · exact absurd hh (leastMark_none hl i m')
      | some i =>
        rw [hl] at h
        cases h
        obtain ⟨⟨m', h1⟩, h2⟩ := ih hl
        refine ⟨?_, fun i' m'' hh => ?_⟩
        · rcases le_total j i with hji | hji
          · exact ⟨m, by simp [hji]⟩
          · exact ⟨m', by simp [Nat.min_eq_right hji, h1]⟩
        · simp only [List.mem_cons, Seg.mark.injEq] at hh
          rcases hh with ⟨rfl, _⟩ | hh
          · exact min_le_left _ _
          · exact (min_le_right _ _).trans (h2 _ _ hh)

lemma render_other {s : List Seg} {k : Option ℕ} {v : List Char} (h : ∀ j m, Seg.mark j m ∈ s → k ≠ some j) :
    s.flatMap (Seg.render k v) = s.flatMap Seg.text := by
  induction s with
  | nil => rfl
  | cons x s ih =>
    rw [List.flatMap_cons, List.flatMap_cons, ih fun j m hh => h j m (by simp [hh])]
    cases x with
    | lit c => rfl
    | mark j m => simp only [Seg.render, Seg.text]; rw [if_neg (h j m (by simp))]

/-- Length of a text after replacing. -/
lemma render_length (s : List Seg) (k : ℕ) : ∃ A r, (∀ v, (s.flatMap (Seg.render (some k) v)).length = A + r * v.length) ∧
    ((∃ m, Seg.mark k m ∈ s) → 0 < r) := by
  induction s with
  | nil => exact ⟨0, 0, fun v => by simp, by simp⟩
  | cons x s ih =>
    obtain ⟨A, r, h1, h2⟩ := ih
    cases x with
    | lit c =>
      refine ⟨A + 1, r, fun v => ?_, fun ⟨m, hh⟩ => h2 ⟨m, by simpa using hh⟩⟩
      rw [List.flatMap_cons, List.length_append, h1]
      simp only [Seg.render, List.length_singleton]
      ring
    | mark j m =>
      by_cases hj : k = j
      · refine ⟨A, r + 1, fun v => ?_, fun _ => by omega⟩
        rw [List.flatMap_cons, List.length_append, h1]
        simp only [Seg.render, hj, if_true]
        ring
      · refine ⟨A + m.length, r, fun v => ?_, fun ⟨m', hh⟩ => h2 ⟨m', ?_⟩⟩
        · rw [List.flatMap_cons, List.length_append, h1]
          simp only [Seg.render, Option.some.injEq, hj, if_false]
          ring
        · simpa [hj] using hh

lemma render_inj {s : List Seg} {k : ℕ} {v w : List Char} (hm : ∃ m, Seg.mark k m ∈ s)
    (h : s.flatMap (Seg.render (some k) v) = s.flatMap (Seg.render (some k) w)) : v = w := by
  have hl : v.length = w.length := by
    obtain ⟨A, r, h1, h2⟩ := render_length s k
    have := congrArg List.length h
    rw [h1, h1] at this
    have hr := h2 hm
    exact Nat.eq_of_mul_eq_mul_left hr (by omega)
  induction s with
  | nil => obtain ⟨m, hm⟩ := hm; simp at hm
  | cons x s ih =>
    obtain ⟨m, hm⟩ := hm
    rw [List.flatMap_cons, List.flatMap_cons] at h
    cases x with
    | lit c =>
      exact ih ⟨m, by simpa using hm⟩ (List.append_cancel_left h)
    | mark j t =>
      by_cases hj : k = j
      · simp only [Seg.render, hj, if_true] at h
        exact (List.append_inj h hl).1
      · simp only [Seg.render, Option.some.injEq, hj, if_false] at h
        exact ih ⟨m, by simpa [hj] using hm⟩ (List.append_cancel_left h)

/-- Replacing by a longer text makes the text longer. -/
lemma render_longer {s : List Seg} {k : ℕ} {v : List Char} (hs : ∀ j m, Seg.mark j m ∈ s → m.length ≤ 4)
    (hv : 4 < v.length) : (s.flatMap Seg.text).length ≤ (s.flatMap (Seg.render (some k) v)).length ∧
    ((∃ m, Seg.mark k m ∈ s) → (s.flatMap Seg.text).length < (s.flatMap (Seg.render (some k) v)).length) := by
  induction s with
  | nil => simp
  | cons x s ih =>
    obtain ⟨h1, h2⟩ := ih fun j m hh => hs j m (by simp [hh])
    rw [List.flatMap_cons, List.flatMap_cons, List.length_append, List.length_append]
    cases x with
    | lit c =>
      refine ⟨by simpa [Seg.text, Seg.render] using h1, fun ⟨m, hm⟩ => ?_⟩
      have := h2 ⟨m, by simpa using hm⟩
      simpa [Seg.text, Seg.render] using this
    | mark j t =>
      have ht := hs j t (by simp)
      by_cases hj : k = j
      · simp only [Seg.text, Seg.render, hj, if_true]
        subst hj
        exact ⟨by omega, fun _ => by omega⟩
      · simp only [Seg.text, Seg.render, Option.some.injEq, hj, if_false]
        refine ⟨by omega, fun ⟨m, hm⟩ => ?_⟩
        have := h2 ⟨m, by simpa [hj] using hm⟩
        omega

end NB
