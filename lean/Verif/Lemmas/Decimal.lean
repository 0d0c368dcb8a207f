import Verif.Model.TextNumber
import Verif.Spec.TextData
import Mathlib.Algebra.Order.Floor.Ring
import Mathlib.Algebra.Order.Round
import Mathlib.Data.Rat.Floor
import Mathlib.Data.Int.Log
import Mathlib.Algebra.Order.Field.Power
import Mathlib.Data.Finite.Prod
import Mathlib.Data.Set.Finite.Lattice
import Mathlib.Data.Set.Finite.Lemmas
import Mathlib.Order.Interval.Finset.Basic
import Mathlib.Data.Int.Interval
import Mathlib.Tactic.Linarith
import Mathlib.Tactic.Positivity
import Mathlib.Tactic.FieldSimp
import Mathlib.Tactic.NormNum
import Mathlib.Tactic.Push
import Mathlib.Tactic.Ring
import Mathlib.Tactic.Lemma

namespace NB
namespace Dec

/-- Different numbers of `p` bits are apart by at least the `2^p`-th part of either. -/
lemma float_gap {p : ℕ} {lo hi : ℤ} {u v : ℚ} (hu : IsFloat p lo hi u) (hv : IsFloat p lo hi v) (h : u ≠ v) :
    |v| ≤ |u - v| * 2 ^ p := by
  obtain ⟨a, e, ha, -, -, rfl⟩ := hu
  obtain ⟨b, f, hb, -, -, rfl⟩ := hv
  have ha' : |(a : ℚ)| ≤ 2 ^ p - 1 := by
    have : |a| ≤ 2 ^ p - 1 := by omega
    exact_mod_cast this
  have hb' : |(b : ℚ)| ≤ 2 ^ p - 1 := by
    have : |b| ≤ 2 ^ p - 1 := by omega
    exact_mod_cast this
  have h2 : (1 : ℚ) ≤ 2 ^ p := one_le_pow₀ (by norm_num)
  have int_ge : ∀ z : ℤ, z ≠ 0 → (1 : ℚ) ≤ |(z : ℚ)| := by
    intro z hz
    have := Int.one_le_abs hz
    exact_mod_cast this
  rcases le_total f e with hfe | hfe
  · obtain ⟨k, hk⟩ := Int.le.dest hfe
    have hpos : (0 : ℚ) < 2 ^ f := by positivity
    have he : (2 : ℚ) ^ e = 2 ^ k * 2 ^ f := by
      rw [← hk, zpow_add₀ (by norm_num), zpow_natCast, mul_comm]
    have e1 : (a : ℚ) * 2 ^ e - b * 2 ^ f = ((a * 2 ^ k - b : ℤ) : ℚ) * 2 ^ f := by
      rw [he]; push_cast; ring
    have hz : (a * 2 ^ k - b : ℤ) ≠ 0 := by
      intro hz
      rw [hz] at e1
      apply h
      have : (a : ℚ) * 2 ^ e - b * 2 ^ f = 0 := by rw [e1]; simp
      linarith
    have := int_ge _ hz
    rw [e1, abs_mul, abs_mul, abs_of_pos hpos]
    have h3 : |(b : ℚ)| ≤ |((a * 2 ^ k - b : ℤ) : ℚ)| * 2 ^ p := by nlinarith
    calc |(b : ℚ)| * 2 ^ f ≤ (|((a * 2 ^ k - b : ℤ) : ℚ)| * 2 ^ p) * 2 ^ f :=
          mul_le_mul_of_nonneg_right h3 hpos.le
      _ = _ := by ring
  · obtain ⟨k, hk⟩ := Int.le.dest hfe
    have hpos : (0 : ℚ) < 2 ^ e := by positivity
    have he : (2 : ℚ) ^ f = 2 ^ k * 2 ^ e := by
      rw [← hk, zpow_add₀ (by norm_num), zpow_natCast, mul_comm]
    have e1 : (a : ℚ) * 2 ^ e - b * 2 ^ f = ((a - b * 2 ^ k : ℤ) : ℚ) * 2 ^ e := by
      rw [he]; push_cast; ring
    have e2 : (b : ℚ) * 2 ^ f = ((b * 2 ^ k : ℤ) : ℚ) * 2 ^ e := by
      rw [he]; push_cast; ring
    have hz : (a - b * 2 ^ k : ℤ) ≠ 0 := by
      intro hz
      rw [hz] at e1
      apply h
      have : (a : ℚ) * 2 ^ e - b * 2 ^ f = 0 := by rw [e1]; simp
      linarith
    have h1 := int_ge _ hz
    rw [e1, e2, abs_mul, abs_mul, abs_of_pos hpos]
    obtain ⟨M, hM⟩ : ∃ M : ℤ, M = b * 2 ^ k := ⟨_, rfl⟩
    rw [← hM] at h1 ⊢
    have h3 : |(M : ℚ)| ≤ |((a - M : ℤ) : ℚ)| * 2 ^ p := by
      by_cases hc : |(M : ℚ)| ≤ 2 ^ p
      · nlinarith
      · push Not at hc
        have h4 : |(M : ℚ)| - |(a : ℚ)| ≤ |((a - M : ℤ) : ℚ)| := by
          push_cast
          rw [abs_sub_comm]
          exact abs_sub_abs_le_abs_sub _ _
        have h5 : |(M : ℚ)| - 2 ^ p + 1 ≤ |((a - M : ℤ) : ℚ)| := by linarith
        nlinarith
    calc |(M : ℚ)| * 2 ^ e ≤ (|((a - M : ℤ) : ℚ)| * 2 ^ p) * 2 ^ e :=
          mul_le_mul_of_nonneg_right h3 hpos.le
      _ = _ := by ring

/-- The nearest decimal of `d + 1` digits to a number other than zero: on the grid of its leading digit. -/
lemma decimal_exists (d : ℕ) (v : ℚ) (hv : v ≠ 0) :
    ∃ D, IsNearest (IsDecimal (d + 1)) v D ∧ 2 * |D - v| * 10 ^ d ≤ |v| := by
  have hv' : 0 < |v| := abs_pos.2 hv
  set k := Int.log 10 |v| with hk
  have h1 : (10 : ℚ) ^ k ≤ |v| := by exact_mod_cast Int.zpow_log_le_self (b := 10) (by norm_num) hv'
  have h2 : |v| < (10 : ℚ) ^ (k + 1) := by exact_mod_cast Int.lt_zpow_succ_log_self (b := 10) (by norm_num) |v|
  set g : ℚ := (10 : ℚ) ^ (k - d) with hg
  have gpos : 0 < g := by positivity
  have hgk : (10 : ℚ) ^ k = 10 ^ d * g := by
    rw [hg, zpow_sub₀ (by norm_num), zpow_natCast]; field_simp
  have hgk1 : (10 : ℚ) ^ (k + 1) = 10 ^ (d + 1) * g := by
    rw [zpow_add₀ (by norm_num), hgk, zpow_one]; ring
  set n := round (v / g) with hn
  have hr : |v / g - n| ≤ 1 / 2 := abs_sub_round _
  have best : ∀ z : ℤ, |n * g - v| ≤ |z * g - v| := by
    intro z
    have h := round_le (v / g) z
    have e : ∀ w : ℚ, |w * g - v| = |v / g - w| * g := by
      intro w
      rw [abs_sub_comm, ← abs_of_pos gpos, ← abs_mul, abs_of_pos gpos]
      congr 1; field_simp
    rw [e, e]
    exact mul_le_mul_of_nonneg_right h gpos.le
  have herr : 2 * |n * g - v| ≤ g := by
    have e : |n * g - v| = |v / g - n| * g := by
      rw [abs_sub_comm, ← abs_of_pos gpos, ← abs_mul, abs_of_pos gpos]
      congr 1; field_simp
    rw [e]; nlinarith
  refine ⟨n * g, ⟨?_, ?_⟩, ?_⟩
  · have hle : |n| ≤ 10 ^ (d + 1) := by
      have hvg : |v / g| < 10 ^ (d + 1) := by
        rw [abs_div, abs_of_pos gpos, div_lt_iff₀ gpos, ← hgk1]; exact h2
      have h3 : |(n : ℚ)| < 10 ^ (d + 1) + 1 := by
        have h4 := abs_sub_abs_le_abs_sub (n : ℚ) (v / g)
        rw [abs_sub_comm] at h4
        linarith
      have h5 : |n| < 10 ^ (d + 1) + 1 := by exact_mod_cast h3
      omega
    rcases lt_or_eq_of_le hle with h | h
    · exact ⟨n, k - d, h, rfl⟩
    · have hten : |((10 : ℤ) ^ d)| < 10 ^ (d + 1) := by
        rw [abs_of_pos (by positivity)]
        exact pow_lt_pow_right₀ (by norm_num) (by omega)
      have e1 : (10 : ℚ) ^ (k - d + 1) = g * 10 := by rw [zpow_add₀ (by norm_num), zpow_one]
      rcases abs_choice n with h' | h'
      · refine ⟨10 ^ d, k - d + 1, hten, ?_⟩
        rw [e1, show n = 10 ^ (d + 1) by omega]; push_cast; ring
      · refine ⟨-10 ^ d, k - d + 1, by rwa [abs_neg], ?_⟩
        rw [e1, show n = -10 ^ (d + 1) by omega]; push_cast; ring
  · rintro u ⟨m, e, hm, rfl⟩
    by_cases hc : k - d ≤ e
    · obtain ⟨j, hj⟩ := Int.le.dest hc
      have := best (m * 10 ^ j)
      rw [← hj, zpow_add₀ (by norm_num), zpow_natCast]
      push_cast at this
      rwa [mul_assoc, mul_comm ((10 : ℚ) ^ j)] at this
    · have hsmall : |(m : ℚ) * 10 ^ e| ≤ 10 ^ k := by
        rw [abs_mul, abs_of_pos (by positivity : (0 : ℚ) < 10 ^ e)]
        have hm' : |(m : ℚ)| ≤ 10 ^ (d + 1) := by
          have := hm.le
          exact_mod_cast this
        have he : (10 : ℚ) ^ e ≤ 10 ^ (k - d - 1) := zpow_le_zpow_right₀ (by norm_num) (by omega)
        calc |(m : ℚ)| * 10 ^ e ≤ 10 ^ (d + 1) * 10 ^ (k - d - 1) :=
              mul_le_mul hm' he (by positivity) (by positivity)
          _ = 10 ^ k := by
              rw [← zpow_natCast, ← zpow_add₀ (by norm_num)]; congr 1; push_cast; ring
      have hb := abs_le.1 hsmall
      rcases abs_choice v with h' | h'
      · have b := best (10 ^ d)
        push_cast at b
        rw [← hgk, abs_of_nonpos (by linarith : (10 : ℚ) ^ k - v ≤ 0)] at b
        rw [abs_of_nonpos (by linarith : (m : ℚ) * 10 ^ e - v ≤ 0)]
        linarith
      · have b := best (-10 ^ d)
        push_cast at b
        rw [show -(10 : ℚ) ^ d * g = -10 ^ k by rw [hgk]; ring,
          abs_of_nonneg (by linarith : (0 : ℚ) ≤ -10 ^ k - v)] at b
        rw [abs_of_nonneg (by linarith : (0 : ℚ) ≤ (m : ℚ) * 10 ^ e - v)]
        linarith
  · calc 2 * |n * g - v| * 10 ^ d ≤ g * 10 ^ d := mul_le_mul_of_nonneg_right herr (by positivity)
      _ = 10 ^ k := by rw [hgk]; ring
      _ ≤ |v| := h1

lemma decimal_zero (d : ℕ) : IsDecimal d 0 := ⟨0, 0, by positivity, by simp⟩

/-- A nearest decimal is off by at most half a unit of its last digit. -/
lemma nearest_err {d : ℕ} {v D : ℚ} (h : IsNearest (IsDecimal (d + 1)) v D) : 2 * |D - v| * 10 ^ d ≤ |v| := by
  by_cases hv : v = 0
  · subst hv
    have := h.2 0 (decimal_zero _)
    simp only [sub_zero, abs_zero] at this ⊢
    have : |D| = 0 := le_antisymm this (abs_nonneg _)
    rw [this]; simp
  · obtain ⟨D0, h0, h1⟩ := decimal_exists d v hv
    have := h.2 D0 h0.1
    refine le_trans ?_ h1
    have : (0 : ℚ) < 10 ^ d := by positivity
    nlinarith

/-- A number of `p` bits printed with enough digits and read back is the same number. -/
lemma there_and_back {p d : ℕ} (hpd : 2 ^ p < 10 ^ d) {lo hi : ℤ} {v D y : ℚ} (hv : IsFloat p lo hi v)
    (hD : IsNearest (IsDecimal (d + 1)) v D) (hy : IsNearest (IsFloat p lo hi) D y) : y = v := by
  by_contra hne
  have h1 := nearest_err hD
  have h2 := hy.2 v hv
  have h3 := float_gap hy.1 hv hne
  have h4 : |y - v| ≤ 2 * |D - v| := by
    calc |y - v| = |(y - D) + (D - v)| := by congr 1; ring
      _ ≤ |y - D| + |D - v| := abs_add_le _ _
      _ ≤ 2 * |D - v| := by rw [abs_sub_comm v D] at h2; linarith
  have h5 : 0 < |y - v| := abs_pos.2 (sub_ne_zero.2 hne)
  have hpd' : (2 : ℚ) ^ p < 10 ^ d := by exact_mod_cast hpd
  have : |y - v| * 2 ^ p < |y - v| * 10 ^ d := mul_lt_mul_of_pos_left hpd' h5
  have : |y - v| * 10 ^ d ≤ 2 * |D - v| * 10 ^ d := mul_le_mul_of_nonneg_right h4 (by positivity)
  linarith

/-- The printed number neither overflows nor underflows. -/
lemma printed_range {p d : ℕ} (hpd : 2 ^ p < 10 ^ d) {lo hi : ℤ} {v D : ℚ} (hv : IsFloat p lo hi v)
    (hD : IsNearest (IsDecimal (d + 1)) v D) : InRange p lo hi D := by
  have h1 := nearest_err hD
  by_cases h0 : v = 0
  · left
    subst h0
    have h10 : (0 : ℚ) < 10 ^ d := by positivity
    simp only [sub_zero, abs_zero] at h1
    have : |D| = 0 := by
      have := abs_nonneg D
      by_contra hc
      have : 0 < |D| := lt_of_le_of_ne this (Ne.symm hc)
      have : 0 < 2 * |D| * 10 ^ d := by positivity
      linarith
    exact abs_eq_zero.1 this
  right
  have hpd' : (2 : ℚ) ^ p < 10 ^ d := by exact_mod_cast hpd
  have h2p : (1 : ℚ) ≤ 2 ^ p := one_le_pow₀ (by norm_num)
  have hvpos : 0 < |v| := abs_pos.2 h0
  have herr : 2 * |D - v| * 2 ^ p < |v| := by
    by_cases hz : |D - v| = 0
    · rw [hz]; simpa using h0
    · have : 0 < |D - v| := lt_of_le_of_ne (abs_nonneg _) (Ne.symm hz)
      have := mul_lt_mul_of_pos_left hpd' (by positivity : 0 < 2 * |D - v|)
      linarith
  obtain ⟨m, e, hm, hlo, hhi, hve⟩ := hv
  have hm0 : m ≠ 0 := by rintro rfl; apply h0; rw [hve]; simp
  have hm1 : (1 : ℚ) ≤ |(m : ℚ)| := by exact_mod_cast Int.one_le_abs hm0
  have hm2 : |(m : ℚ)| ≤ 2 ^ p - 1 := by
    have : |m| ≤ 2 ^ p - 1 := by omega
    exact_mod_cast this
  have epos : (0 : ℚ) < 2 ^ e := by positivity
  have hav : |v| = |(m : ℚ)| * 2 ^ e := by rw [hve, abs_mul, abs_of_pos epos]
  have hl : (2 : ℚ) ^ lo ≤ 2 ^ e := zpow_le_zpow_right₀ (by norm_num) hlo
  have hh : (2 : ℚ) ^ e ≤ 2 ^ hi := zpow_le_zpow_right₀ (by norm_num) hhi
  have hhpos : (0 : ℚ) < 2 ^ hi := by positivity
  have hd : 2 * |D - v| < |v| := by nlinarith [abs_nonneg (D - v)]
  have t1 := abs_sub_abs_le_abs_sub v D
  rw [abs_sub_comm] at t1
  have t2 := abs_sub_abs_le_abs_sub D v
  have hvlo : (2 : ℚ) ^ lo ≤ |v| := by rw [hav]; nlinarith
  have hvhi : |v| ≤ (2 ^ p - 1) * 2 ^ hi := by
    rw [hav]; exact mul_le_mul hm2 hh epos.le (by linarith)
  refine ⟨by linarith, ?_⟩
  have h6 : 2 * |D - v| < 2 ^ hi := by
    by_contra hc
    push Not at hc
    have : (2 : ℚ) ^ hi * 2 ^ p ≤ 2 * |D - v| * 2 ^ p := mul_le_mul_of_nonneg_right hc (by linarith)
    nlinarith
  nlinarith

/-- Just above one, nothing but one is printed. -/
lemma near_one {d : ℕ} {x D : ℚ} (h1 : 1 ≤ x) (hx : 2 * (x - 1) * 10 ^ d < 1)
    (hD : IsNearest (IsDecimal (d + 1)) x D) : D = 1 := by
  obtain ⟨⟨n, e, hn, rfl⟩, hb⟩ := hD
  have one : IsDecimal (d + 1) 1 := ⟨1, 0, by
    rw [abs_one]; exact one_lt_pow₀ (by norm_num) (by omega), by simp⟩
  have h2 := hb 1 one
  rw [abs_sub_comm 1 x, abs_of_nonneg (by linarith : (0 : ℚ) ≤ x - 1)] at h2
  have h3 := abs_le.1 h2
  have h10 : (1 : ℚ) ≤ 10 ^ d := one_le_pow₀ (by norm_num)
  have lo : 1 ≤ (n : ℚ) * 10 ^ e := by linarith
  have hi : ((n : ℚ) * 10 ^ e - 1) * 10 ^ d < 1 := by
    have : (n : ℚ) * 10 ^ e - 1 ≤ 2 * (x - 1) := by linarith
    have := mul_le_mul_of_nonneg_right this (by positivity : (0 : ℚ) ≤ 10 ^ d)
    linarith
  rcases le_total 0 e with he | he
  · obtain ⟨j, rfl⟩ := Int.eq_ofNat_of_zero_le he
    rw [zpow_natCast] at lo hi ⊢
    have hlt : (n : ℚ) * 10 ^ j < 2 := by nlinarith
    have a : (1 : ℤ) ≤ n * 10 ^ j := by exact_mod_cast lo
    have b : n * 10 ^ j < (2 : ℤ) := by exact_mod_cast hlt
    have c : n * 10 ^ j = (1 : ℤ) := by omega
    exact_mod_cast c
  · obtain ⟨j, hj⟩ := Int.eq_ofNat_of_zero_le (by omega : 0 ≤ -e)
    obtain rfl : e = -(j : ℤ) := by omega
    rw [zpow_neg, zpow_natCast] at lo hi ⊢
    have tj : (0 : ℚ) < 10 ^ j := by positivity
    have lo' : (10 : ℚ) ^ j ≤ n := by
      rw [← div_eq_mul_inv, le_div_iff₀ tj] at lo; linarith
    have lo'' : (10 : ℤ) ^ j ≤ n := by exact_mod_cast lo'
    have hjd : j ≤ d := by
      by_contra hc
      have : (10 : ℤ) ^ (d + 1) ≤ 10 ^ j := pow_le_pow_right₀ (by norm_num) (by omega)
      have := le_abs_self n
      omega
    have hjd' : (10 : ℚ) ^ j ≤ 10 ^ d := pow_le_pow_right₀ (by norm_num) hjd
    have key : (n : ℚ) - 10 ^ j < 1 := by
      have e1 : ((n : ℚ) * (10 ^ j)⁻¹ - 1) * 10 ^ j = n - 10 ^ j := by field_simp
      have : ((n : ℚ) * (10 ^ j)⁻¹ - 1) * 10 ^ j ≤ ((n : ℚ) * (10 ^ j)⁻¹ - 1) * 10 ^ d :=
        mul_le_mul_of_nonneg_left hjd' (by linarith)
      linarith
    have key' : n < 10 ^ j + 1 := by
      have : (n : ℚ) < 10 ^ j + 1 := by linarith
      exact_mod_cast this
    have : n = 10 ^ j := by omega
    rw [this]; push_cast; field_simp

/-- A finite type has a nearest value to everything. -/
lemma float_nearest (p : ℕ) {lo hi : ℤ} (h : lo ≤ hi) (x : ℚ) : ∃ y, IsNearest (IsFloat p lo hi) x y := by
  have hfin : {y | IsFloat p lo hi y}.Finite := by
    refine Set.Finite.subset ((Set.Finite.prod (Set.finite_Icc (-2 ^ p : ℤ) (2 ^ p)) (Set.finite_Icc lo hi)).image
      (fun q : ℤ × ℤ => (q.1 : ℚ) * 2 ^ q.2)) ?_
    rintro y ⟨m, e, hm, h1, h2, rfl⟩
    have := abs_lt.1 hm
    exact ⟨(m, e), ⟨⟨this.1.le, this.2.le⟩, h1, h2⟩, rfl⟩
  have hne : {y | IsFloat p lo hi y}.Nonempty := ⟨0, 0, lo, by positivity, le_refl _, h, by simp⟩
  obtain ⟨y, hy, hm⟩ := Set.exists_min_image _ (fun y => |y - x|) hfin hne
  exact ⟨y, hy, hm⟩

lemma float_mono {p q : ℕ} {lo hi lo' hi' : ℤ} (hp : p ≤ q) (hl : lo' ≤ lo) (hh : hi ≤ hi') {x : ℚ}
    (h : IsFloat p lo hi x) : IsFloat q lo' hi' x := by
  obtain ⟨m, e, hm, h1, h2, rfl⟩ := h
  exact ⟨m, e, lt_of_lt_of_le hm (pow_le_pow_right₀ (by norm_num) hp), by omega, by omega, rfl⟩

end Dec

open Dec

/-! Digits. -/

lemma digChar_inj : ∀ a b : Fin 10, digChar a = digChar b → a = b := by decide +kernel

lemma digChar_ne : ∀ a : Fin 10, digChar a ≠ 'e' ∧ digChar a ≠ '/' ∧ digChar a ≠ ' ' ∧ digChar a ≠ '\t' ∧
    digChar a ≠ '\n' ∧ digChar a ≠ '\r' ∧ digChar a ≠ Char.ofNat 11 ∧ digChar a ≠ Char.ofNat 12 := by decide +kernel

lemma sign_ne : ∀ b : Bool, signChar b ≠ '/' ∧ signChar b ≠ ' ' ∧ signChar b ≠ '\t' ∧
    signChar b ≠ '\n' ∧ signChar b ≠ '\r' ∧ signChar b ≠ Char.ofNat 11 ∧ signChar b ≠ Char.ofNat 12 := by decide +kernel

lemma sign_inj : ∀ a b : Bool, signChar a = signChar b → a = b := by decide +kernel

lemma digs_split {a b : List (Fin 10)} {r s : List Char}
    (h : a.map digChar ++ 'e' :: r = b.map digChar ++ 'e' :: s) : a = b ∧ r = s := by
  induction a generalizing b with
  | nil =>
    cases b with
    | nil => simpa using h
    | cons y b => simp only [List.map_nil, List.nil_append, List.map_cons, List.cons_append, List.cons.injEq] at h
                  exact absurd h.1.symm (digChar_ne y).1
  | cons x a ih =>
    cases b with
    | nil => simp only [List.map_nil, List.nil_append, List.map_cons, List.cons_append, List.cons.injEq] at h
             exact absurd h.1 (digChar_ne x).1
    | cons y b =>
      simp only [List.map_cons, List.cons_append, List.cons.injEq] at h
      obtain ⟨h1, h2⟩ := ih h.2
      exact ⟨by rw [digChar_inj _ _ h.1, h1], h2⟩

/-- A text stands for one number only. -/
lemma text_inj {m n : Numeral} (h : m.text = n.text) : m = n := by
  cases m; cases n
  simp only [Numeral.text, List.cons.injEq] at h
  obtain ⟨h1, h2, -, h3⟩ := h
  obtain ⟨h4, h5⟩ := digs_split h3
  simp only [List.cons.injEq] at h5
  obtain ⟨h6, h7⟩ := h5
  have h8 := (List.map_injective_iff.2 (fun a b => digChar_inj a b)) h7
  rw [sign_inj _ _ h1, digChar_inj _ _ h2, h4, sign_inj _ _ h6, h8]

/-- The text of a number has no blank and no slash. -/
lemma text_clean (n : Numeral) : ∀ c ∈ n.text, ¬ TextSpec.Blank c ∧ c ≠ '/' := by
  intro c hc
  have good : ∀ c : Char, (c ≠ '/' ∧ c ≠ ' ' ∧ c ≠ '\t' ∧ c ≠ '\n' ∧ c ≠ '\r' ∧ c ≠ Char.ofNat 11 ∧ c ≠ Char.ofNat 12) →
      ¬ TextSpec.Blank c ∧ c ≠ '/' := by
    rintro c ⟨h0, h1, h2, h3, h4, h5, h6⟩
    refine ⟨?_, h0⟩
    rintro (h | h | h | h | h | h) <;> contradiction
  apply good
  simp only [Numeral.text, List.mem_cons, List.mem_append, List.mem_map] at hc
  rcases hc with rfl | rfl | rfl | ⟨a, -, rfl⟩ | rfl | rfl | ⟨a, -, rfl⟩
  · exact sign_ne _
  · exact (digChar_ne _).2
  · decide
  · exact (digChar_ne _).2
  · decide
  · exact sign_ne _
  · exact (digChar_ne _).2

/-- The last `w` digits of a number. -/
def lastDigits : ℕ → ℕ → List (Fin 10)
  | 0, _ => []
  | w + 1, n => lastDigits w (n / 10) ++ [⟨n % 10, Nat.mod_lt _ (by norm_num)⟩]

lemma lastDigits_length (w n : ℕ) : (lastDigits w n).length = w := by
  induction w generalizing n with
  | zero => rfl
  | succ w ih => simp [lastDigits, ih]

lemma lastDigits_val (w n : ℕ) (h : n < 10 ^ w) : numVal (lastDigits w n) = n := by
  induction w generalizing n with
  | zero => simp at h; subst h; rfl
  | succ w ih =>
    have h1 : n / 10 < 10 ^ w := by rw [Nat.div_lt_iff_lt_mul (by norm_num)]; rw [pow_succ] at h; exact h
    have := ih _ h1
    unfold numVal at this ⊢
    rw [lastDigits, List.foldl_append, this]
    simp only [List.foldl_cons, List.foldl_nil]
    omega

/-- Every decimal number can be written in scientific notation. -/
lemma numeral_exists {d : ℕ} {x : ℚ} (h : IsDecimal (d + 1) x) :
    ∃ n : Numeral, n.frac.length = d ∧ n.value = x := by
  obtain ⟨m, e, hm, rfl⟩ := h
  have hm' : m.natAbs < 10 ^ (d + 1) := by
    have : (m.natAbs : ℤ) < 10 ^ (d + 1) := by rw [Int.natCast_natAbs]; exact hm
    exact_mod_cast this
  have hlen := lastDigits_length (d + 1) m.natAbs
  have hval := lastDigits_val (d + 1) m.natAbs hm'
  obtain ⟨a, l, hl⟩ : ∃ a l, lastDigits (d + 1) m.natAbs = a :: l := by
    cases hq : lastDigits (d + 1) m.natAbs with
    | nil => rw [hq] at hlen; simp at hlen
    | cons a l => exact ⟨a, l, rfl⟩
  rw [hl] at hlen hval
  have hld : l.length = d := by simpa using hlen
  obtain ⟨E, hE⟩ : ∃ E : ℤ, E = e + d := ⟨_, rfl⟩
  have hw : E.natAbs < 10 ^ E.natAbs := Nat.lt_pow_self (by norm_num)
  refine ⟨⟨decide (m < 0), a, l, decide (E < 0), lastDigits E.natAbs E.natAbs⟩, hld, ?_⟩
  have hexp : (if decide (E < 0) = true then -1 else 1) * (numVal (lastDigits E.natAbs E.natAbs) : ℤ) - (l.length : ℤ)
      = e := by
    rw [lastDigits_val _ _ hw, hld]
    by_cases hc : E < 0
    · simp only [hc, decide_true, if_true]; omega
    · simp only [hc, decide_false, Bool.false_eq_true, if_false, one_mul]; omega
  simp only [Numeral.value]
  rw [hexp, hval]
  congr 1
  by_cases hc : m < 0
  · simp only [hc, decide_true, if_true]
    have : ((m.natAbs : ℤ) : ℚ) = -m := by
      have : (m.natAbs : ℤ) = -m := by omega
      rw [this]; push_cast; rfl
    rw [Int.cast_natCast] at this
    rw [this]; ring
  · simp only [hc, decide_false]
    have : ((m.natAbs : ℤ) : ℚ) = m := by
      have : (m.natAbs : ℤ) = m := by omega
      rw [this]
    rw [Int.cast_natCast] at this
    rw [this]; simp

/-- There is a printer that rounds correctly. -/
lemma printer_exists (prec : ℕ) : ∃ print, PrintsNearest prec print := by
  have : ∀ x : ℚ, ∃ t : List Char, ∃ n : Numeral, t = n.text ∧ n.frac.length = prec ∧
      IsNearest (IsDecimal (prec + 1)) x n.value := by
    intro x
    obtain ⟨D, hD⟩ : ∃ D, IsNearest (IsDecimal (prec + 1)) x D := by
      by_cases hx : x = 0
      · exact ⟨0, decimal_zero _, fun u _ => by subst hx; simp⟩
      · obtain ⟨D, h, -⟩ := decimal_exists prec x hx
        exact ⟨D, h⟩
    obtain ⟨n, h1, h2⟩ := numeral_exists hD.1
    exact ⟨_, n, rfl, h1, by rw [h2]; exact hD⟩
  choose f hf using this
  exact ⟨f, hf⟩

/-- There is a reader that rounds correctly. -/
lemma reader_exists : ∃ toDouble, ReadsNearest toDouble := by
  classical
  choose near hnear using float_nearest 53 (show (-1074 : ℤ) ≤ 971 by norm_num)
  refine ⟨fun t => if h : ∃ n : Numeral, n.text = t then some (near h.choose.value) else none, ?_, ?_⟩
  · intro n _
    have h : ∃ m : Numeral, m.text = n.text := ⟨n, rfl⟩
    refine ⟨near n.value, ?_, hnear _⟩
    show (if h : ∃ m : Numeral, m.text = n.text then some (near h.choose.value) else none) = _
    rw [dif_pos h, text_inj h.choose_spec]
  · intro t y hy
    dsimp only at hy
    split at hy
    · cases hy; exact (hnear _).1
    · cases hy

end NB
