import Verif.Lemmas.StreamRead

/-
A concrete number type for the stream theorems: 64-bit patterns stored little-endian and printed in decimal.
-/

namespace NB.StreamExample

open StreamSpec

/-- Little-endian bytes. -/
def encNat : ℕ → ℕ → List UInt8
  | 0, _ => []
  | k + 1, n => UInt8.ofNat (n % 256) :: encNat k (n / 256)

/-- Value of little-endian bytes. -/
def decNat : List UInt8 → ℕ
  | [] => 0
  | b :: r => b.toNat + 256 * decNat r

lemma encNat_length (k n : ℕ) : (encNat k n).length = k := by
  induction k generalizing n with
  | zero => rfl
  | succ k ih => simp [encNat, ih]

lemma decNat_encNat (k n : ℕ) (h : n < 256 ^ k) : decNat (encNat k n) = n := by
  induction k generalizing n with
  | zero => simp at h; simp [encNat, decNat, h]
  | succ k ih =>
    have h1 : n / 256 < 256 ^ k := Nat.div_lt_of_lt_mul (by rw [pow_succ] at h; omega)
    have h2 : (UInt8.ofNat (n % 256)).toNat = n % 256 := by
      rw [UInt8.toNat_ofNat']; exact Nat.mod_eq_of_lt (by omega)
    rw [encNat, decNat, ih _ h1, h2]
    omega

instance : Raw UInt64 where
  size := 8
  enc x := encNat 8 x.toNat
  dec b := UInt64.ofNat (decNat b)
  size_pos := by decide
  enc_length _ := encNat_length _ _
  dec_enc x := by
    rw [decNat_encNat 8 _ (by have := x.toNat_lt; norm_num at this ⊢; omega), UInt64.ofNat_toNat]

instance : Raw UInt8 where
  size := 1
  enc x := [x]
  dec b := b.headD 0
  size_pos := by decide
  enc_length _ := rfl
  dec_enc _ := rfl

/-- Decimal text. -/
def text : TextOps UInt64 where
  fmt x := Nat.toDigits 10 x.toNat
  parse t := (toULongLong t).map UInt64.ofNat

lemma text_good : TextGood text id where
  noTab x := notMem_digits (by decide)
  noBreak x := notMem_digits (by decide)
  back x := by
    have h : x.toNat ≤ sizeMax := by have := x.toNat_lt; unfold sizeMax; omega
    simp [text, toULongLong_toDigits h]

/-- A snapshot of two bodies. -/
def snap (s : ℕ) (t a : UInt64) : Snap UInt64 UInt8 :=
  ⟨2, [⟨a, 2, 3⟩, ⟨4, a, 6⟩], [⟨7, a, 9⟩, ⟨a, a, 1⟩], [5, 6], [1, 2], t, s, 100⟩

lemma snap_fits (s : ℕ) (t a : UInt64) (h : s ≤ sizeMax) : Fits 2 (snap s t a) :=
  ⟨rfl, rfl, rfl, rfl, rfl, h⟩

lemma box_good (s : ℕ) (t a : UInt64) : BoxGood (snap s t a).box 100 where
  value := rfl
  pos := by decide
  bound := by decide

end NB.StreamExample
