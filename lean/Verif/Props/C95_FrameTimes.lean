import Verif.Lemmas.Decimal
import Verif.Model.FrameTime
import Verif.Spec.Stream

/-
C95: the times of the frames of a stream are kept to six digits.
-/

namespace NB.C95

open Dec

/-- Between the greatest doubles and the greatest decimals of six digits. -/
lemma top_gap {D : ℚ} (h : IsDecimal 6 D) (h1 : 179769 * 10 ^ 303 < D) : 179770 * 10 ^ 303 ≤ D := by
  obtain ⟨m, e, hm, rfl⟩ := h
  have hm' : (m : ℚ) < 10 ^ 6 := by
    have := lt_of_le_of_lt (le_abs_self m) hm
    exact_mod_cast this
  have tpos : (0 : ℚ) < 10 ^ 303 := by positivity
  rcases lt_or_ge e 303 with he | he
  · exfalso
    have h2 : (10 : ℚ) ^ e ≤ 10 ^ (302 : ℤ) := zpow_le_zpow_right₀ (by norm_num) (by omega)
    have h3 : (10 : ℚ) ^ 303 = 10 * 10 ^ (302 : ℤ) := by
      rw [show (302 : ℤ) = ((302 : ℕ) : ℤ) by norm_num, zpow_natCast, ← pow_succ']
    have hpe : (0 : ℚ) < 10 ^ e := by positivity
    have h4 : (m : ℚ) * 10 ^ e ≤ 10 ^ 6 * 10 ^ (302 : ℤ) := by
      by_cases hm0 : (0 : ℚ) ≤ m
      · exact mul_le_mul hm'.le h2 hpe.le (by norm_num)
      · exact le_trans (mul_nonpos_of_nonpos_of_nonneg (by linarith) hpe.le) (by positivity)
    rw [h3] at h1
    have h5 : (0 : ℚ) < 10 ^ (302 : ℤ) := by positivity
    clear h3 tpos h2
    generalize (10 : ℚ) ^ (302 : ℤ) = a at *
    generalize (m : ℚ) * 10 ^ e = b at *
    linarith
  · obtain ⟨j, hj⟩ := Int.le.dest he
    have e1 : (10 : ℚ) ^ e = 10 ^ j * 10 ^ 303 := by
      rw [← hj, zpow_add₀ (by norm_num), zpow_natCast, mul_comm]
      congr 1
    rw [e1, ← mul_assoc] at h1 ⊢
    have h2 : (179769 : ℚ) < m * 10 ^ j := lt_of_mul_lt_mul_right h1 tpos.le
    have h3 : (179769 : ℤ) < m * 10 ^ j := by exact_mod_cast h2
    have h4 : (179770 : ℤ) ≤ m * 10 ^ j := by omega
    have h5 : (179770 : ℚ) ≤ m * 10 ^ j := by exact_mod_cast h4
    exact mul_le_mul_of_nonneg_right h5 tpos.le

lemma top_numbers : (179769 * 10 ^ 303 : ℚ) < (2 ^ 53 - 1) * 2 ^ (971 : ℤ) ∧
    2 * ((2 ^ 53 - 1) * 2 ^ (971 : ℤ)) < (359539 * 10 ^ 303 : ℚ) := by
  have h1 : 179769 * 10 ^ 303 < (2 ^ 53 - 1) * 2 ^ 971 := by decide +kernel
  have h2 : 2 * ((2 ^ 53 - 1) * 2 ^ 971) < 359539 * 10 ^ 303 := by decide +kernel
  have h1' : ((179769 * 10 ^ 303 : ℕ) : ℚ) < (((2 ^ 53 - 1) * 2 ^ 971 : ℕ) : ℚ) := Nat.cast_lt.2 h1
  have h2' : ((2 * ((2 ^ 53 - 1) * 2 ^ 971) : ℕ) : ℚ) < ((359539 * 10 ^ 303 : ℕ) : ℚ) := Nat.cast_lt.2 h2
  have h53 : ((2 ^ 53 - 1 : ℕ) : ℚ) = 2 ^ 53 - 1 := by norm_num
  rw [Nat.cast_mul, Nat.cast_mul, Nat.cast_pow, Nat.cast_pow, h53] at h1'
  rw [Nat.cast_mul, Nat.cast_mul, Nat.cast_mul, Nat.cast_pow, Nat.cast_pow, h53] at h2'
  rw [show (971 : ℤ) = ((971 : ℕ) : ℤ) by norm_num, zpow_natCast]
  exact ⟨h1', h2'⟩

lemma decimal_neg {d : ℕ} {x : ℚ} (h : IsDecimal d x) : IsDecimal d (-x) := by
  obtain ⟨m, e, hm, rfl⟩ := h
  exact ⟨-m, e, by rwa [abs_neg], by push_cast; ring⟩

lemma nearest_neg {d : ℕ} {x D : ℚ} (h : IsNearest (IsDecimal d) x D) : IsNearest (IsDecimal d) (-x) (-D) := by
  refine ⟨decimal_neg h.1, fun u hu => ?_⟩
  have := h.2 (-u) (decimal_neg hu)
  rw [show -D - -x = -(D - x) by ring, abs_neg, show u - -x = -(-u - x) by ring, abs_neg]
  exact this

lemma top_range {t D : ℚ} (ht : t ≤ (2 ^ 53 - 1) * 2 ^ (971 : ℤ)) (hD : IsNearest (IsDecimal 6) t D) :
    D < (2 ^ 53 - 1 / 2) * 2 ^ (971 : ℤ) := by
  by_contra hc
  push Not at hc
  obtain ⟨n1, n2⟩ := top_numbers
  have hE : IsDecimal 6 (179769 * 10 ^ 303) := ⟨179769, 303, by norm_num, by
    rw [show (303 : ℤ) = ((303 : ℕ) : ℤ) by norm_num, zpow_natCast, Int.cast_ofNat]⟩
  have b := hD.2 _ hE
  have hp : (0 : ℚ) < 2 ^ (971 : ℤ) := by positivity
  have hq : (0 : ℚ) < 10 ^ 303 := by positivity
  have g := top_gap hD.1 (by
    generalize (2 : ℚ) ^ (971 : ℤ) = a at *
    generalize (10 : ℚ) ^ 303 = c at *
    linarith)
  generalize (2 : ℚ) ^ (971 : ℤ) = a at *
  generalize (10 : ℚ) ^ 303 = c at *
  rw [abs_of_nonneg (by linarith : 0 ≤ D - t)] at b
  rcases abs_cases (179769 * c - t) with ⟨h, _⟩ | ⟨h, _⟩ <;> rw [h] at b <;> linarith

/-- What is printed of a double never overflows or underflows when it is read. -/
lemma six_range {t D : ℚ} (ht : IsDouble t) (hD : IsNearest (IsDecimal 6) t D) : InRange 53 (-1074) 971 D := by
  have he := nearest_err (d := 5) hD
  by_cases h0 : t = 0
  · left
    subst h0
    simp only [sub_zero, abs_zero] at he
    have : |D| = 0 := le_antisymm (by linarith) (abs_nonneg D)
    exact abs_eq_zero.1 this
  right
  obtain ⟨m, e, hm, hlo, hhi, hte⟩ := ht
  have hm0 : m ≠ 0 := by rintro rfl; apply h0; rw [hte]; simp
  have hm1 : (1 : ℚ) ≤ |(m : ℚ)| := by exact_mod_cast Int.one_le_abs hm0
  have hm2 : |(m : ℚ)| ≤ 2 ^ 53 - 1 := by
    have : |m| ≤ 2 ^ 53 - 1 := by omega
    exact_mod_cast this
  have epos : (0 : ℚ) < 2 ^ e := by positivity
  have hat : |t| = |(m : ℚ)| * 2 ^ e := by rw [hte, abs_mul, abs_of_pos epos]
  have hl : (2 : ℚ) ^ (-1074 : ℤ) ≤ 2 ^ e := zpow_le_zpow_right₀ (by norm_num) hlo
  have hh : (2 : ℚ) ^ e ≤ 2 ^ (971 : ℤ) := zpow_le_zpow_right₀ (by norm_num) hhi
  have hlp : (0 : ℚ) < 2 ^ (-1074 : ℤ) := by positivity
  have htl : (2 : ℚ) ^ (-1074 : ℤ) ≤ |t| := by
    rw [hat]
    generalize (2 : ℚ) ^ (-1074 : ℤ) = a at *
    nlinarith
  have hth : |t| ≤ (2 ^ 53 - 1) * 2 ^ (971 : ℤ) := by
    rw [hat]; exact mul_le_mul hm2 hh epos.le (by norm_num)
  constructor
  · have t1 := abs_sub_abs_le_abs_sub t D
    rw [abs_sub_comm] at t1
    generalize (2 : ℚ) ^ (-1074 : ℤ) = a at *
    linarith
  · have h1 := top_range (le_trans (le_abs_self t) hth) hD
    have h2 := top_range (le_trans (neg_le_abs t) hth) (nearest_neg hD)
    rcases abs_cases D with ⟨h, _⟩ | ⟨h, _⟩ <;> rw [h]
    · exact h1
    · exact h2

/-- Nearest numbers are in the order of the numbers they are nearest to. -/
lemma nearest_mono {P : ℚ → Prop} {x y a b : ℚ} (h : x < y) (ha : IsNearest P x a) (hb : IsNearest P y b) : a ≤ b := by
  by_contra hc
  push Not at hc
  have h1 := ha.2 b hb.1
  have h2 := hb.2 a ha.1
  rcases abs_cases (a - x) with ⟨e1, _⟩ | ⟨e1, _⟩ <;> rcases abs_cases (b - x) with ⟨e2, _⟩ | ⟨e2, _⟩ <;>
    rcases abs_cases (a - y) with ⟨e3, _⟩ | ⟨e3, _⟩ <;> rcases abs_cases (b - y) with ⟨e4, _⟩ | ⟨e4, _⟩ <;>
    rw [e1, e2] at h1 <;> rw [e3, e4] at h2 <;> linarith

/-- Different decimals of `d` digits are apart by at least the `10^d`-th part of either. -/
lemma decimal_gap {d : ℕ} {u v : ℚ} (hu : IsDecimal d u) (hv : IsDecimal d v) (h : u ≠ v) :
    |v| ≤ |u - v| * 10 ^ d := by
  obtain ⟨a, e, ha, rfl⟩ := hu
  obtain ⟨b, f, hb, rfl⟩ := hv
  have ha' : |(a : ℚ)| ≤ 10 ^ d - 1 := by
    have : |a| ≤ 10 ^ d - 1 := by omega
    exact_mod_cast this
  have hb' : |(b : ℚ)| ≤ 10 ^ d - 1 := by
    have : |b| ≤ 10 ^ d - 1 := by omega
    exact_mod_cast this
  have h2 : (1 : ℚ) ≤ 10 ^ d := one_le_pow₀ (by norm_num)
  have int_ge : ∀ z : ℤ, z ≠ 0 → (1 : ℚ) ≤ |(z : ℚ)| := by
    intro z hz
    have := Int.one_le_abs hz
    exact_mod_cast this
  -- on the finer of both grids `z` is the difference and `w` the second number
  have main : ∀ (g : ℚ) (z w : ℤ), 0 < g → (a : ℚ) * 10 ^ e - b * 10 ^ f = z * g → (b : ℚ) * 10 ^ f = w * g →
      |(w : ℚ)| ≤ 10 ^ d ∨ |(w : ℚ)| - 10 ^ d + 1 ≤ |(z : ℚ)| →
      |(b : ℚ) * 10 ^ f| ≤ |(a : ℚ) * 10 ^ e - b * 10 ^ f| * 10 ^ d := by
    intro g z w hg e1 e2 hw
    have hz : z ≠ 0 := by
      rintro rfl
      apply h
      simp only [Int.cast_zero, zero_mul] at e1
      linarith
    have h1 := int_ge z hz
    rw [e1, e2, abs_mul, abs_mul, abs_of_pos hg]
    have h3 : |(w : ℚ)| ≤ |(z : ℚ)| * 10 ^ d := by
      by_cases hc : |(w : ℚ)| ≤ 10 ^ d
      · nlinarith
      · have := hw.resolve_left hc
        push Not at hc
        nlinarith
    calc |(w : ℚ)| * g ≤ (|(z : ℚ)| * 10 ^ d) * g := mul_le_mul_of_nonneg_right h3 hg.le
      _ = _ := by ring
  rcases le_total f e with hfe | hfe
  · obtain ⟨k, hk⟩ := Int.le.dest hfe
    have he : (10 : ℚ) ^ e = 10 ^ k * 10 ^ f := by
      rw [← hk, zpow_add₀ (by norm_num), zpow_natCast, mul_comm]
    exact main (10 ^ f) (a * 10 ^ k - b) b (by positivity) (by rw [he]; push_cast; ring) rfl (.inl (by linarith))
  · obtain ⟨k, hk⟩ := Int.le.dest hfe
    have he : (10 : ℚ) ^ f = 10 ^ k * 10 ^ e := by
      rw [← hk, zpow_add₀ (by norm_num), zpow_natCast, mul_comm]
    refine main (10 ^ e) (a - b * 10 ^ k) (b * 10 ^ k) (by positivity) (by rw [he]; push_cast; ring)
      (by rw [he]; push_cast; ring) (.inr ?_)
    have h4 : |((b * 10 ^ k : ℤ) : ℚ)| - |(a : ℚ)| ≤ |((a - b * 10 ^ k : ℤ) : ℚ)| := by
      rw [Int.cast_sub, abs_sub_comm]
      exact abs_sub_abs_le_abs_sub _ _
    linarith

/-- A double within the `2^52`-th part of a number of moderate size. -/
lemma double_near {D : ℚ} (h1 : (2 : ℚ) ^ (-1001 : ℤ) ≤ |D|) (h2 : |D| ≤ 2 ^ (1001 : ℤ)) :
    ∃ u, IsDouble u ∧ |u - D| * 2 ^ 52 ≤ |D| := by
  have hp : 0 < |D| := lt_of_lt_of_le (by positivity) h1
  set k := Int.log 2 |D| with hk
  have k1 : (2 : ℚ) ^ k ≤ |D| := by exact_mod_cast Int.zpow_log_le_self (b := 2) (by norm_num) hp
  have k2 : |D| < (2 : ℚ) ^ (k + 1) := by exact_mod_cast Int.lt_zpow_succ_log_self (b := 2) (by norm_num) |D|
  have k3 : -1001 < k + 1 := (zpow_lt_zpow_iff_right₀ (by norm_num : (1 : ℚ) < 2)).1 (lt_of_le_of_lt h1 k2)
  have k4 : k ≤ 1001 := (zpow_le_zpow_iff_right₀ (by norm_num : (1 : ℚ) < 2)).1 (le_trans k1 h2)
  set g : ℚ := (2 : ℚ) ^ (k - 52) with hg
  have gpos : 0 < g := by positivity
  have hgk : (2 : ℚ) ^ k = 2 ^ 52 * g := by
    rw [hg, zpow_sub₀ (by norm_num)]
    rw [show (2 : ℚ) ^ (52 : ℤ) = 2 ^ 52 by norm_num]
    field_simp
  have hgk1 : (2 : ℚ) ^ (k + 1) = 2 ^ 53 * g := by
    rw [zpow_add₀ (by norm_num), hgk, zpow_one]; ring
  obtain ⟨n, hn⟩ : ∃ n : ℤ, n = ⌊|D| / g⌋ := ⟨_, rfl⟩
  have f1 : (n : ℚ) * g ≤ |D| := by
    have := Int.floor_le (|D| / g)
    rw [← hn] at this
    rwa [le_div_iff₀ gpos] at this
  have f2 : |D| < (n + 1) * g := by
    have := Int.lt_floor_add_one (|D| / g)
    rw [← hn] at this
    rwa [div_lt_iff₀ gpos] at this
  have n0 : 0 ≤ n := by rw [hn]; exact Int.floor_nonneg.2 (by positivity)
  have n1 : n < 2 ^ 53 := by
    have : (n : ℚ) * g < 2 ^ 53 * g := by rw [← hgk1]; linarith
    have := lt_of_mul_lt_mul_right this gpos.le
    exact_mod_cast this
  have err : abs (n * g - abs D) * 2 ^ 52 ≤ abs D := by
    rw [abs_sub_comm (n * g), abs_of_nonneg (by linarith : 0 ≤ |D| - n * g)]
    have : (|D| - n * g) * 2 ^ 52 ≤ g * 2 ^ 52 := by nlinarith
    rw [hgk] at k1
    linarith
  rcases abs_choice D with hs | hs
  · exact ⟨n * g, ⟨n, k - 52, by rwa [abs_of_nonneg n0], by omega, by omega, rfl⟩, by rw [hs] at err ⊢; exact err⟩
  · refine ⟨-(n * g), ⟨-n, k - 52, by rwa [abs_neg, abs_of_nonneg n0], by omega, by omega, by push_cast; ring⟩, ?_⟩
    rw [show -(n * g) - D = -(n * g - -D) by ring, abs_neg, ← hs]
    exact err

/-- What was read from six digits is printed as these digits. -/
lemma decimal_back {t D y E : ℚ} (hD : IsNearest (IsDecimal 6) t D) (h1 : (2 : ℚ) ^ (-1000 : ℤ) ≤ |t|)
    (h2 : |t| ≤ 2 ^ (1000 : ℤ)) (hy : IsNearest IsDouble D y) (hE : IsNearest (IsDecimal 6) y E) : E = D := by
  have he := nearest_err (d := 5) hD
  have t1 := abs_sub_abs_le_abs_sub t D
  rw [abs_sub_comm] at t1
  have t2 := abs_sub_abs_le_abs_sub D t
  have p1 : (2 : ℚ) ^ (-1000 : ℤ) = 2 * 2 ^ (-1001 : ℤ) := by
    rw [show (-1000 : ℤ) = 1 + -1001 by norm_num, zpow_add₀ (by norm_num), zpow_one]
  have p2 : (2 : ℚ) ^ (1001 : ℤ) = 2 * 2 ^ (1000 : ℤ) := by
    rw [show (1001 : ℤ) = 1 + 1000 by norm_num, zpow_add₀ (by norm_num), zpow_one]
  have a1 : (2 : ℚ) ^ (-1001 : ℤ) ≤ |D| := by
    rw [p1] at h1
    clear p1 p2 h2
    generalize (2 : ℚ) ^ (-1001 : ℤ) = a at *
    linarith
  have a2 : |D| ≤ 2 ^ (1001 : ℤ) := by
    rw [p2]
    clear p1 p2 h1 a1
    generalize (2 : ℚ) ^ (1000 : ℤ) = a at *
    linarith
  have hp : 0 < |D| := lt_of_lt_of_le (by positivity) a1
  obtain ⟨u, hu, hu'⟩ := double_near a1 a2
  have b1 := hy.2 u hu
  have b2 := hE.2 D hD.1
  by_contra hne
  have g := decimal_gap hE.1 hD.1 hne
  have b3 : |E - D| ≤ |E - y| + |y - D| := abs_sub_le _ _ _
  rw [abs_sub_comm D y] at b2
  linarith

variable {print : ℚ → List Char} {toDouble val : List Char → Option ℚ} {rd : ℚ → ℚ}
  {conv : ℚ → Coord 53 (-1074) 971}

/-- A time that is a decimal number of six digits is printed as it is and read back as it was. -/
theorem short_times (hT : TimeText print toDouble val rd) (t : ℚ) (ht : IsDouble t) (hd : IsDecimal idxDigits t) :
    val (print t) = some t ∧ toDouble (print t) = some t := by
  obtain ⟨D, hv, hD⟩ := hT.prints t
  have h := hD.2 t hd
  simp only [sub_self, abs_zero] at h
  have h0 : D - t = 0 := abs_eq_zero.1 (le_antisymm h (abs_nonneg _))
  obtain rfl : D = t := by linarith
  refine ⟨hv, ?_⟩
  rw [hT.reads _ _ hv (six_range ht hD)]
  have hn := (hT.near _ (six_range ht hD)).2 D ht
  simp only [sub_self, abs_zero] at hn
  have : rd D - D = 0 := abs_eq_zero.1 (le_antisymm hn (abs_nonneg _))
  rw [show rd D = D by linarith]

/-- The time of every frame, as far as a text of the index keeps it, is a double again: the index can be read (the
hypothesis on texts of the round trip of streams, C37, is met), what is read differs from the time of the frame by at
most the hundred-thousandth part of it (zero is read as zero), times of six digits are read as they were, the order of
the frames is kept, and what was read once does not change any more when it is written and read again (stated for times
between `2^(-1000)` and `2^1000`).  Missing: that all times come back. -/
theorem frame_times_partial (hT : TimeText print toDouble val rd)
    (hconv : ∀ x : Coord 53 (-1074) 971, conv x.1 = x) :
    ∃ rnd : Coord 53 (-1074) 971 → Coord 53 (-1074) 971,
      StreamSpec.TextGood (coordText print toDouble conv) rnd ∧ (∀ t, |(rnd t).1 - t.1| ≤ |t.1| / 10 ^ 5) ∧
        (∀ t, IsDecimal idxDigits t.1 → rnd t = t) ∧ (∀ s t, s.1 ≤ t.1 → (rnd s).1 ≤ (rnd t).1) ∧
        ∀ t, (2 : ℚ) ^ (-1000 : ℤ) ≤ |t.1| → |t.1| ≤ 2 ^ (1000 : ℤ) → rnd (rnd t) = rnd t := by
  choose dec hdec hnear using hT.prints
  have range : ∀ t : Coord 53 (-1074) 971, InRange 53 (-1074) 971 (dec t.1) := fun t => six_range t.2 (hnear t.1)
  refine ⟨fun t => ⟨rd (dec t.1), (hT.near _ (range t)).1⟩, ⟨fun t => hT.noTab _, fun t => hT.noBreak _, fun t => ?_⟩,
    fun t => ?_, fun t htd => Subtype.ext ?_, fun s t hst => ?_, fun t h1 h2 => Subtype.ext ?_⟩
  · show (toDouble (print t.1)).map conv = _
    rw [hT.reads _ _ (hdec t.1) (range t)]
    exact congrArg some (hconv ⟨rd (dec t.1), (hT.near _ (range t)).1⟩)
  · have h1 := (hT.near _ (range t)).2 t.1 t.2
    have h2 := nearest_err (d := 5) (hnear t.1)
    have h3 : |rd (dec t.1) - t.1| ≤ |rd (dec t.1) - dec t.1| + |dec t.1 - t.1| := abs_sub_le _ _ _
    rw [abs_sub_comm t.1] at h1
    show |rd (dec t.1) - t.1| ≤ _
    rw [le_div_iff₀ (by norm_num)]
    nlinarith
  · have h := (short_times hT t.1 t.2 htd).2
    rw [hT.reads _ _ (hdec t.1) (range t)] at h
    exact Option.some.inj h
  · show rd (dec s.1) ≤ rd (dec t.1)
    rcases lt_or_eq_of_le hst with h | h
    · rcases lt_or_eq_of_le (nearest_mono h (hnear s.1) (hnear t.1)) with h' | h'
      · exact nearest_mono h' (hT.near _ (range s)) (hT.near _ (range t))
      · rw [h']
    · rw [h]
  · show rd (dec (rd (dec t.1))) = rd (dec t.1)
    rw [decimal_back (hnear t.1) h1 h2 (hT.near _ (range t)) (hnear _)]

lemma decimal_scale {d : ℕ} (j : ℤ) {x : ℚ} (h : IsDecimal d x) : IsDecimal d (x * 10 ^ j) := by
  obtain ⟨m, e, hm, rfl⟩ := h
  exact ⟨m, e + j, hm, by rw [zpow_add₀ (by norm_num)]; ring⟩

lemma nearest_scale {d : ℕ} (j : ℤ) {x D : ℚ} (h : IsNearest (IsDecimal d) x D) :
    IsNearest (IsDecimal d) (x * 10 ^ j) (D * 10 ^ j) := by
  have hp : (0 : ℚ) < 10 ^ j := by positivity
  refine ⟨decimal_scale j h.1, fun u hu => ?_⟩
  have h1 := h.2 _ (decimal_scale (-j) hu)
  have h2 : u = u * 10 ^ (-j) * 10 ^ j := by rw [mul_assoc, ← zpow_add₀ (by norm_num)]; simp
  rw [h2, ← sub_mul, ← sub_mul, abs_mul, abs_mul]
  exact mul_le_mul_of_nonneg_right h1 (abs_nonneg _)

/-- Six digits are not enough to tell frames apart: all times from a power of ten to the two-hundred-thousandth part
above it are read as the same time. -/
theorem times_merge (hT : TimeText print toDouble val rd) (j : ℤ) (s t : ℚ) (hs : IsDouble s) (ht : IsDouble t)
    (h1 : (10 : ℚ) ^ j ≤ s) (h2 : s < 10 ^ j * (1 + 1 / (2 * 10 ^ 5))) (h3 : (10 : ℚ) ^ j ≤ t)
    (h4 : t < 10 ^ j * (1 + 1 / (2 * 10 ^ 5))) :
    toDouble (print s) = toDouble (print t) ∧ toDouble (print s) = some (rd (10 ^ j)) := by
  have key : ∀ x : ℚ, IsDouble x → (10 : ℚ) ^ j ≤ x → x < 10 ^ j * (1 + 1 / (2 * 10 ^ 5)) →
      toDouble (print x) = some (rd (10 ^ j)) := by
    intro x hx a b
    obtain ⟨D, hv, hD⟩ := hT.prints x
    have hp : (0 : ℚ) < 10 ^ j := by positivity
    have hi : (10 : ℚ) ^ j * 10 ^ (-j) = 1 := by rw [← zpow_add₀ (by norm_num)]; simp
    have hp' : (0 : ℚ) < 10 ^ (-j) := by positivity
    have one : D * 10 ^ (-j) = 1 := by
      refine near_one (d := 5) (x := x * 10 ^ (-j)) ?_ ?_ (nearest_scale (-j) hD)
      · rw [← hi]; exact mul_le_mul_of_nonneg_right a hp'.le
      · have : x * 10 ^ (-j) < 10 ^ j * (1 + 1 / (2 * 10 ^ 5)) * 10 ^ (-j) := mul_lt_mul_of_pos_right b hp'
        have e : (10 : ℚ) ^ j * (1 + 1 / (2 * 10 ^ 5)) * 10 ^ (-j) = 1 + 1 / (2 * 10 ^ 5) := by
          rw [mul_right_comm, hi, one_mul]
        rw [e] at this
        linarith
    have hD' : D = 10 ^ j := by
      have : D * 10 ^ (-j) * 10 ^ j = 10 ^ j := by rw [one, one_mul]
      rwa [mul_assoc, mul_comm ((10 : ℚ) ^ (-j)), hi, mul_one] at this
    rw [hT.reads _ _ hv (six_range hx hD), hD']
  rw [key s hs h1 h2, key t ht h3 h4]
  exact ⟨rfl, rfl⟩

/-! A printer and a reader. -/

lemma text_exists : ∃ (print : ℚ → List Char) (toDouble val : List Char → Option ℚ) (rd : ℚ → ℚ),
    TimeText print toDouble val rd := by
  classical
  choose rd hrd using float_nearest 53 (show (-1074 : ℤ) ≤ 971 by norm_num)
  obtain ⟨print, hp⟩ := printer_exists 5
  let val : List Char → Option ℚ := fun t => if h : ∃ n : Numeral, n.text = t then some h.choose.value else none
  have hval : ∀ n : Numeral, val n.text = some n.value := by
    intro n
    have h : ∃ m : Numeral, m.text = n.text := ⟨n, rfl⟩
    show (if h : ∃ m : Numeral, m.text = n.text then some h.choose.value else none) = _
    rw [dif_pos h, text_inj h.choose_spec]
  have clean : ∀ x, ∀ c ∈ print x, ¬ TextSpec.Blank c := by
    intro x c hc
    obtain ⟨n, hn, -⟩ := hp x
    rw [hn] at hc
    exact (text_clean n c hc).1
  refine ⟨print, fun t => (val t).map rd, val, rd, ⟨fun x => ?_, fun x hx => ?_, fun x hx => ?_, fun t D h _ => ?_,
    fun D _ => hrd D⟩⟩
  · obtain ⟨n, hn, -, hD⟩ := hp x
    exact ⟨n.value, by rw [hn, hval], hD⟩
  · exact clean x _ hx (.inr (.inl rfl))
  · exact clean x _ hx (.inr (.inr (.inl rfl)))
  · show (val t).map rd = _
    rw [h]; rfl

lemma conv_exists : ∃ conv : ℚ → Coord 53 (-1074) 971, ∀ x : Coord 53 (-1074) 971, conv x.1 = x := by
  choose f hf using float_nearest 53 (show (-1074 : ℤ) ≤ 971 by norm_num)
  refine ⟨fun x => ⟨f x, (hf x).1⟩, fun x => Subtype.ext ?_⟩
  have := (hf x.1).2 x.1 x.2
  simp only [sub_self, abs_zero] at this
  have : f x.1 - x.1 = 0 := abs_eq_zero.1 (le_antisymm this (abs_nonneg _))
  show f x.1 = x.1
  linarith

example : ∃ (print : ℚ → List Char) (toDouble : List Char → Option ℚ) (conv : ℚ → Coord 53 (-1074) 971)
    (rnd : Coord 53 (-1074) 971 → Coord 53 (-1074) 971),
    StreamSpec.TextGood (coordText print toDouble conv) rnd ∧ ∀ t, |(rnd t).1 - t.1| ≤ |t.1| / 10 ^ 5 := by
  obtain ⟨print, toDouble, val, rd, hT⟩ := text_exists
  obtain ⟨conv, hc⟩ := conv_exists
  obtain ⟨rnd, h1, h2, -⟩ := frame_times_partial hT hc
  exact ⟨print, toDouble, conv, rnd, h1, h2⟩

/-- After a million steps of length one, five frames in a row have the same time; the first of them has the right one. -/
example : ∃ (print : ℚ → List Char) (toDouble : List Char → Option ℚ),
    toDouble (print 1000000) = some 1000000 ∧ toDouble (print 1000004) = toDouble (print 1000000) := by
  obtain ⟨print, toDouble, val, rd, hT⟩ := text_exists
  have h0 : IsDouble 1000000 := ⟨1000000, 0, by norm_num, by norm_num, by norm_num, by norm_num⟩
  have h4 : IsDouble 1000004 := ⟨1000004, 0, by norm_num, by norm_num, by norm_num, by norm_num⟩
  exact ⟨print, toDouble, (short_times hT _ h0 ⟨1, 6, by norm_num [idxDigits], by norm_num⟩).2,
    (times_merge hT 6 _ _ h4 h0 (by norm_num) (by norm_num) (by norm_num) (by norm_num)).1⟩

end NB.C95
