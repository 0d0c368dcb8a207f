import Verif.Model.Stream
import Mathlib.Tactic.Common
import Mathlib.Data.Int.Notation

/-
Text of the index file: splitting, numbers, lines.
-/

namespace NB

lemma splitOn_ne_nil (sep : Char) (l : List Char) : splitOn sep l ≠ [] := by
  cases l with
  | nil => simp [splitOn]
  | cons c r =>
    unfold splitOn
    split
    · simp
    · split <;> simp

lemma splitOn_append (sep : Char) (a b : List Char) (h : sep ∉ a) :
    splitOn sep (a ++ sep :: b) = a :: splitOn sep b := by
  induction a with
  | nil => simp [splitOn]
  | cons c r ih =>
    have hc : c ≠ sep := fun e => h (by simp [e])
    have hr : sep ∉ r := fun e => h (by simp [e])
    rw [List.cons_append, splitOn, if_neg hc, ih hr]

lemma splitOn_of_notMem (sep : Char) (a : List Char) (h : sep ∉ a) : splitOn sep a = [a] := by
  induction a with
  | nil => simp [splitOn]
  | cons c r ih =>
    have hc : c ≠ sep := fun e => h (by simp [e])
    have hr : sep ∉ r := fun e => h (by simp [e])
    rw [splitOn, if_neg hc, ih hr]

/-- Lines, each ended by a line break. -/
def unlines (ls : List (List Char)) : List Char := ls.flatMap (· ++ ['\n'])

lemma splitOn_unlines (ls : List (List Char)) (tail : List Char) (h : ∀ l ∈ ls, '\n' ∉ l) (ht : '\n' ∉ tail) :
    splitOn '\n' (unlines ls ++ tail) = ls ++ [tail] := by
  induction ls with
  | nil => simpa [unlines] using splitOn_of_notMem '\n' tail ht
  | cons l ls ih =>
    have e : unlines (l :: ls) ++ tail = l ++ '\n' :: (unlines ls ++ tail) := by simp [unlines]
    rw [e, splitOn_append '\n' l _ (h l (by simp)), ih (fun x hx => h x (by simp [hx]))]
    rfl

lemma textLines_unlines (ls : List (List Char)) (tail : List Char) (h : ∀ l ∈ ls, '\n' ∉ l)
    (ht : '\n' ∉ tail) :
    textLines (unlines ls ++ tail) = ls ++ (if tail = [] then [] else [tail]) := by
  unfold textLines
  rw [splitOn_unlines ls tail h ht]
  by_cases he : tail = []
  · simp [he]
  · simp [he]

lemma digits_digit {n : ℕ} : ∀ c ∈ Nat.toDigits 10 n, c.isDigit = true :=
  fun _ hc => Nat.isDigit_of_mem_toDigits (by decide) (by decide) hc

lemma digit_range {c : Char} (h : c.isDigit = true) : 48 ≤ c.toNat ∧ c.toNat ≤ 57 := by
  simp only [Char.isDigit, ge_iff_le, Bool.and_eq_true, decide_eq_true_eq] at h
  exact ⟨h.1, h.2⟩

lemma not_digit_of {c d : Char} (hc : c.isDigit = true) (hd : d.isDigit = false) : c ≠ d := by
  rintro rfl; rw [hc] at hd; exact Bool.noConfusion hd

lemma digit_not_space {c : Char} (h : c.isDigit = true) : isSpace c = false := by
  have : ∀ d : Char, d.isDigit = false → decide (c = d) = false :=
    fun d hd => decide_eq_false (not_digit_of h hd)
  unfold isSpace
  rw [this ' ' (by decide), this '\t' (by decide), this '\n' (by decide), this '\r' (by decide),
    this (Char.ofNat 11) (by decide), this (Char.ofNat 12) (by decide)]
  rfl

lemma dropWhile_space {t : List Char} (h : ∀ c ∈ t, isSpace c = false) : t.dropWhile isSpace = t := by
  cases t with
  | nil => rfl
  | cons c r => rw [List.dropWhile_cons, h c (by simp)]; rfl

lemma trimSpace_of {t : List Char} (h : ∀ c ∈ t, isSpace c = false) : trimSpace t = t := by
  unfold trimSpace
  rw [dropWhile_space h, dropWhile_space (fun c hc => h c (List.mem_reverse.1 hc)), List.reverse_reverse]

lemma digitsVal_of {t : List Char} (hne : t ≠ []) (h : ∀ c ∈ t, c.isDigit = true) :
    digitsVal t = some (Nat.ofDigitChars 10 t 0) := if_pos ⟨hne, h⟩

lemma dropPlus_digits {t : List Char} (h : ∀ c ∈ t, c.isDigit = true) : dropPlus t = t := by
  cases t with
  | nil => rfl
  | cons c r =>
    have hc : c ≠ '+' := not_digit_of (h c (by simp)) (by decide)
    unfold dropPlus
    split
    · rename_i heq; simp only [List.cons.injEq] at heq; exact absurd heq.1 hc
    · rfl

lemma toULongLong_digits {t : List Char} (hne : t ≠ []) (h : ∀ c ∈ t, c.isDigit = true)
    (hb : Nat.ofDigitChars 10 t 0 ≤ sizeMax) : toULongLong t = some (Nat.ofDigitChars 10 t 0) := by
  unfold toULongLong
  rw [trimSpace_of (fun c hc => digit_not_space (h c hc)), dropPlus_digits h, digitsVal_of hne h]
  exact if_pos hb

lemma toLongLong_digits {t : List Char} (hne : t ≠ []) (h : ∀ c ∈ t, c.isDigit = true)
    (hb : Nat.ofDigitChars 10 t 0 ≤ 9223372036854775807) :
    toLongLong t = some ((Nat.ofDigitChars 10 t 0 : ℕ) : ℤ) := by
  unfold toLongLong
  rw [trimSpace_of (fun c hc => digit_not_space (h c hc))]
  split
  · rename_i r
    exact absurd (h '-' (by simp)) (by decide)
  · rw [dropPlus_digits h, digitsVal_of hne h]
    exact if_pos hb

lemma toULongLong_toDigits {n : ℕ} (h : n ≤ sizeMax) : toULongLong (Nat.toDigits 10 n) = some n := by
  have := toULongLong_digits (t := Nat.toDigits 10 n) Nat.toDigits_ne_nil digits_digit
    (by rw [Nat.ofDigitChars_ten_toDigits]; exact h)
  rwa [Nat.ofDigitChars_ten_toDigits] at this

lemma toLongLong_toDigits {n : ℕ} (h : n ≤ 9223372036854775807) :
    toLongLong (Nat.toDigits 10 n) = some (n : ℤ) := by
  have := toLongLong_digits (t := Nat.toDigits 10 n) Nat.toDigits_ne_nil digits_digit
    (by rw [Nat.ofDigitChars_ten_toDigits]; exact h)
  rwa [Nat.ofDigitChars_ten_toDigits] at this

lemma notMem_digits {n : ℕ} {d : Char} (hd : d.isDigit = false) : d ∉ Nat.toDigits 10 n :=
  fun h => not_digit_of (digits_digit _ h) hd rfl

lemma toDigits_inj {m n : ℕ} (h : Nat.toDigits 10 m = Nat.toDigits 10 n) : m = n := by
  have := congrArg (fun t => Nat.ofDigitChars 10 t 0) h
  simpa only [Nat.ofDigitChars_ten_toDigits] using this

lemma datName_inj {base : FName} {m n : ℕ} (h : datName base m = datName base n) : m = n := by
  unfold datName at h
  have := List.append_cancel_right h
  exact toDigits_inj (List.append_cancel_left this)

lemma datName_ne_colName (b b' : FName) (n : ℕ) : datName b n ≠ colName b' := by
  intro h
  have := congrArg List.getLast? h
  simp [datName, colName] at this

lemma datName_ne_massName (b b' : FName) (n : ℕ) : datName b n ≠ massName b' := by
  intro h
  have := congrArg List.getLast? h
  simp [datName, massName] at this

lemma colName_ne_massName (b b' : FName) : colName b ≠ massName b' := by
  intro h
  have := congrArg List.getLast? h
  simp [colName, massName] at this

end NB
