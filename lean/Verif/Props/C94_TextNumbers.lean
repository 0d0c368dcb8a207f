import Verif.Lemmas.Decimal
import Verif.Props.C44_TextRoundTrip

/-
C94: the text form of a state keeps every bit of its numbers if they are `float` or `double`, and does not if they are
`__float128`.
-/

namespace NB.C94

open Dec TextSpec

variable {p : ℕ} {lo hi : ℤ}

/-- A double that is printed with at least seventeen digits is read back as it was. -/
lemma read_back {prec : ℕ} (hprec : 2 ^ 53 < 10 ^ prec) {print : ℚ → List Char} (hp : PrintsNearest prec print)
    {toDouble : List Char → Option ℚ} (hr : ReadsNearest toDouble) {x : ℚ} (hx : IsDouble x) :
    toDouble (print x) = some x := by
  obtain ⟨n, hn, -, hnear⟩ := hp x
  obtain ⟨y, hy, hy'⟩ := hr.1 n (printed_range hprec hx hnear)
  rw [hn, hy, there_and_back hprec hx hnear hy']

/-- What `save` prints of a `float` or of a `double`, `load` reads as the same number, whatever number it is; the text
has neither a blank nor a slash in it.  Holds for every printer and every reader that round to nearest. -/
theorem text_formats (hp : p ≤ 53) (hlo : -1074 ≤ lo) (hhi : hi ≤ 971) {print : ℚ → List Char}
    (hprint : PrintsNearest savePrecision print) {toDouble : List Char → Option ℚ} (hread : ReadsNearest toDouble)
    {conv : ℚ → Coord p lo hi} (hconv : ∀ x : Coord p lo hi, conv x.1 = x) :
    Formats (coordText print toDouble conv).fmt (coordText print toDouble conv).parse id where
  ne x := by
    obtain ⟨n, hn, -⟩ := hprint x.1
    show print x.1 ≠ []
    rw [hn]
    simp [Numeral.text]
  clean x := by
    obtain ⟨n, hn, -⟩ := hprint x.1
    show ∀ c ∈ print x.1, _
    rw [hn]
    exact text_clean n
  back x := by
    show (toDouble (print x.1)).map conv = _
    rw [read_back (by unfold savePrecision; norm_num) hprint hread (float_mono hp hlo hhi x.2)]
    exact congrArg some (hconv x)

/-- A state of `float` or `double` numbers that is saved as text and loaded with its own units has, bit for bit, the
positions, velocities, masses and radii it had.  Missing: infinities, not-a-numbers and the sign of zero; colours, time
and box are not in the text. -/
theorem snapshot_exact_partial {C : Type} (hp : p ≤ 53) (hlo : -1074 ≤ lo) (hhi : hi ≤ 971)
    [Zero (Coord p lo hi)] [Mul (Coord p lo hi)] {print : ℚ → List Char}
    (hprint : PrintsNearest savePrecision print) {toDouble : List Char → Option ℚ} (hread : ReadsNearest toDouble)
    {conv : ℚ → Coord p lo hi} (hconv : ∀ x : Coord p lo hi, conv x.1 = x) (white : C) (one : Coord p lo hi)
    (hone : ∀ x : Coord p lo hi, x * one = x) (d e : DataObj (Coord p lo hi) C) (h1 : d.vrt.length = d.count)
    (h2 : d.vel.length = d.count) (h3 : d.mass.length = d.count) (h4 : d.radius.length = d.count) :
    ∃ t e', d.save (coordText print toDouble conv) = .ok t ∧
      e.load (coordText print toDouble conv) white one t = (true, e') ∧
      e'.count = d.count ∧ e'.vrt = d.vrt ∧ e'.vel = d.vel ∧ e'.mass = d.mass ∧ e'.radius = d.radius :=
  C44.save_load_exact _ (text_formats hp hlo hhi hprint hread hconv) white one hone d e h1 h2 h3 h4

/-- One is a double. -/
lemma double_one : IsDouble 1 := ⟨1, 0, by norm_num, by norm_num, by norm_num, by norm_num⟩

lemma tiny : (2 : ℚ) ^ (-1074 : ℤ) ≤ 1 := zpow_le_one_of_nonpos₀ (by norm_num) (by norm_num)

lemma huge : (1 : ℚ) ≤ 2 ^ (971 : ℤ) := one_le_zpow₀ (by norm_num) (by norm_num)

/-- The precision is the least that will do: with one digit less, the double next to one is read back as one. -/
theorem no_digit_to_spare {print : ℚ → List Char} (hprint : PrintsNearest (savePrecision - 1) print)
    {toDouble : List Char → Option ℚ} (hread : ReadsNearest toDouble) :
    IsDouble (1 + 2 ^ (-52 : ℤ)) ∧ toDouble (print (1 + 2 ^ (-52 : ℤ))) = some 1 := by
  refine ⟨⟨2 ^ 52 + 1, -52, by norm_num, by norm_num, by norm_num, by norm_num⟩, ?_⟩
  obtain ⟨n, hn, -, hnear⟩ := hprint (1 + 2 ^ (-52 : ℤ))
  have h1 : n.value = 1 := near_one (by norm_num) (by unfold savePrecision; norm_num) hnear
  obtain ⟨y, hy, hy'⟩ := hread.1 n (by
    rw [h1, InRange, abs_one]
    have := tiny
    have := huge
    generalize (2 : ℚ) ^ (-1074 : ℤ) = a at *
    generalize (2 : ℚ) ^ (971 : ℤ) = b at *
    exact .inr ⟨by linarith, by linarith⟩)
  rw [hn, hy]
  have := hy'.2 1 double_one
  rw [h1] at this
  simp only [sub_self, abs_zero] at this
  have : y - 1 = 0 := abs_eq_zero.1 (le_antisymm this (abs_nonneg _))
  rw [show y = 1 by linarith]

/-- A quad that is a double is read back as it was. -/
theorem quad_double {print : ℚ → List Char} (hprint : PrintsNearest quadPrecision print)
    {toDouble : List Char → Option ℚ} (hread : ReadsNearest toDouble) {conv : ℚ → Coord 113 (-16494) 16271}
    (hconv : ∀ y, IsDouble y → (conv y).1 = y) (x : Coord 113 (-16494) 16271) (hx : IsDouble x.1) :
    (coordText print toDouble conv).parse ((coordText print toDouble conv).fmt x) = some x := by
  show (toDouble (print x.1)).map conv = _
  rw [read_back (by unfold quadPrecision; norm_num) hprint hread hx]
  exact congrArg some (Subtype.ext (hconv _ hx))

/-- A quad that is not a double is never read back as it was, whatever is printed. -/
theorem quad_lost (print : ℚ → List Char) {toDouble : List Char → Option ℚ} (hread : ReadsNearest toDouble)
    {conv : ℚ → Coord 113 (-16494) 16271} (hconv : ∀ y, IsDouble y → (conv y).1 = y)
    (x : Coord 113 (-16494) 16271) (hx : ¬ IsDouble x.1) :
    (coordText print toDouble conv).parse ((coordText print toDouble conv).fmt x) ≠ some x := by
  intro h
  change (toDouble (print x.1)).map conv = some x at h
  cases hq : toDouble (print x.1) with
  | none => rw [hq] at h; cases h
  | some y =>
    rw [hq] at h
    have hy := hread.2 _ _ hq
    obtain rfl : conv y = x := by simpa using h
    rw [hconv y hy] at hx
    exact hx hy

/-- A quad between doubles is read back as a double that is at most the hundred-quintillionth part of it farther away
than any other. -/
theorem quad_error {print : ℚ → List Char} (hprint : PrintsNearest quadPrecision print)
    {toDouble : List Char → Option ℚ} (hread : ReadsNearest toDouble) (x : ℚ)
    (hlo : (2 : ℚ) ^ (-1074 : ℤ) ≤ |x|) (hhi : |x| ≤ (2 ^ 53 - 1) * (2 : ℚ) ^ (971 : ℤ)) :
    ∃ y, toDouble (print x) = some y ∧ IsDouble y ∧ ∀ u, IsDouble u → |y - x| ≤ |u - x| + |x| / 10 ^ 20 := by
  obtain ⟨n, hn, -, hnear⟩ := hprint x
  have he := nearest_err hnear
  unfold quadPrecision at he
  have t1 := abs_sub_abs_le_abs_sub x n.value
  rw [abs_sub_comm] at t1
  have t2 := abs_sub_abs_le_abs_sub n.value x
  have hl : (0 : ℚ) < 2 ^ (-1074 : ℤ) := by positivity
  have hh : (0 : ℚ) < 2 ^ (971 : ℤ) := by positivity
  have small : |n.value - x| ≤ |x| / 10 ^ 20 / 2 := by
    rw [div_div, le_div_iff₀ (by norm_num)]; linarith
  have hr : InRange 53 (-1074) 971 n.value := by
    right
    generalize (2 : ℚ) ^ (-1074 : ℤ) = a at *
    generalize (2 : ℚ) ^ (971 : ℤ) = b at *
    constructor
    · linarith
    · linarith
  obtain ⟨y, hy, hy'⟩ := hread.1 n hr
  refine ⟨y, by rw [hn, hy], hy'.1, fun u hu => ?_⟩
  have h1 := hy'.2 u hu
  have h2 : |y - x| ≤ |y - n.value| + |n.value - x| := abs_sub_le _ _ _
  have h3 : |u - n.value| ≤ |u - x| + |x - n.value| := abs_sub_le _ _ _
  rw [abs_sub_comm x] at h3
  linarith

/-- The quad next to one. -/
def nextOne : Coord 113 (-16494) 16271 :=
  ⟨1 + 2 ^ (-112 : ℤ), 2 ^ 112 + 1, -112, by norm_num, by norm_num, by norm_num, by norm_num⟩

/-- Twenty-one digits are too few for a quad whatever reads them: the one next to one is printed as a text that stands
for one. -/
theorem quad_digits {print : ℚ → List Char} (hprint : PrintsNearest quadPrecision print) :
    nextOne.1 ≠ 1 ∧ ∃ n : Numeral, print nextOne.1 = n.text ∧ n.value = 1 := by
  refine ⟨by unfold nextOne; norm_num, ?_⟩
  obtain ⟨n, hn, -, hnear⟩ := hprint nextOne.1
  exact ⟨n, hn, near_one (by unfold nextOne; norm_num) (by unfold nextOne quadPrecision; norm_num) hnear⟩

/-! Printers, readers and conversions exist, and the hypotheses can be met together. -/

/-- Nearest value of a type. -/
lemma near_exists (p : ℕ) {lo hi : ℤ} (h : lo ≤ hi) :
    ∃ conv : ℚ → Coord p lo hi, ∀ x : Coord p lo hi, conv x.1 = x := by
  choose f hf using fun x => float_nearest p h x
  refine ⟨fun x => ⟨f x, (hf x).1⟩, fun x => Subtype.ext ?_⟩
  have := (hf x.1).2 x.1 x.2
  simp only [sub_self, abs_zero] at this
  have : f x.1 - x.1 = 0 := abs_eq_zero.1 (le_antisymm this (abs_nonneg _))
  show f x.1 = x.1
  linarith

/-- One tenth as a double. -/
def tenth : Coord 53 (-1074) 971 :=
  ⟨7205759403792794 / 2 ^ 56, 7205759403792794, -56, by norm_num, by norm_num, by norm_num, by norm_num⟩

/-- The least double above zero. -/
def least : Coord 53 (-1074) 971 := ⟨2 ^ (-1074 : ℤ), 1, -1074, by norm_num, by norm_num, by norm_num, by norm_num⟩

/-- One as a double. -/
def unit : Coord 53 (-1074) 971 := ⟨1, double_one⟩

/-- A body whose coordinates are no short decimals. -/
def body : DataObj (Coord 53 (-1074) 971) UInt8 :=
  ⟨1, tenth, 4, 5, [⟨tenth, least, unit⟩], [7], [⟨unit, unit, least⟩], [tenth], [least]⟩

example : ∃ print toDouble conv, ∃ (_ : Zero (Coord 53 (-1074) 971)) (_ : Mul (Coord 53 (-1074) 971)), ∃ t e',
    body.save (coordText print toDouble conv) = .ok t ∧
      body.load (coordText print toDouble conv) 0 unit t = (true, e') ∧
      e'.count = 1 ∧ e'.vrt = [⟨tenth, least, unit⟩] ∧ e'.vel = [⟨unit, unit, least⟩] ∧ e'.mass = [tenth] ∧
      e'.radius = [least] := by
  obtain ⟨print, hp⟩ := printer_exists savePrecision
  obtain ⟨toDouble, hr⟩ := reader_exists
  obtain ⟨conv, hc⟩ := near_exists 53 (show (-1074 : ℤ) ≤ 971 by norm_num)
  let z : Zero (Coord 53 (-1074) 971) := ⟨conv 0⟩
  let m : Mul (Coord 53 (-1074) 971) := ⟨fun a b => conv (a.1 * b.1)⟩
  refine ⟨print, toDouble, conv, z, m, ?_⟩
  refine snapshot_exact_partial (le_refl _) (le_refl _) (le_refl _) hp hr hc 0 unit (fun x => ?_) body body rfl rfl rfl rfl
  show conv (x.1 * 1) = x
  rw [mul_one]
  exact hc x

/-- Single precision. -/
example : ∃ print toDouble, ∃ conv : ℚ → Coord 24 (-149) 104,
    Formats (coordText print toDouble conv).fmt (coordText print toDouble conv).parse id := by
  obtain ⟨print, hp⟩ := printer_exists savePrecision
  obtain ⟨toDouble, hr⟩ := reader_exists
  obtain ⟨conv, hc⟩ := near_exists 24 (show (-149 : ℤ) ≤ 104 by norm_num)
  exact ⟨print, toDouble, conv, text_formats (by norm_num) (by norm_num) (by norm_num) hp hr hc⟩

lemma nextOne_not_double : ¬ IsDouble nextOne.1 := by
  intro h
  have := float_gap double_one h (by unfold nextOne; norm_num)
  unfold nextOne at this
  norm_num [abs_of_pos] at this

/-- A quad that is lost, and one that is not. -/
example : ∃ print toDouble, ∃ conv : ℚ → Coord 113 (-16494) 16271,
    (coordText print toDouble conv).parse ((coordText print toDouble conv).fmt nextOne) ≠ some nextOne ∧
    (coordText print toDouble conv).parse ((coordText print toDouble conv).fmt (conv 1)) = some (conv 1) ∧
    (∃ y, toDouble (print nextOne.1) = some y ∧ |y - nextOne.1| ≤ 2 / 10 ^ 20) ∧
    ∃ n : Numeral, print nextOne.1 = n.text ∧ n.value = 1 := by
  obtain ⟨print, hp⟩ := printer_exists quadPrecision
  obtain ⟨toDouble, hr⟩ := reader_exists
  obtain ⟨conv, hc⟩ := near_exists 113 (show (-16494 : ℤ) ≤ 16271 by norm_num)
  have hc' : ∀ y, IsDouble y → (conv y).1 = y := fun y hy =>
    congrArg Subtype.val (hc ⟨y, float_mono (by norm_num) (by norm_num) (by norm_num) hy⟩)
  refine ⟨print, toDouble, conv, quad_lost print hr hc' nextOne nextOne_not_double,
    quad_double hp hr hc' _ (by rw [hc' 1 double_one]; exact double_one), ?_, (quad_digits hp).2⟩
  obtain ⟨y, h1, -, h2⟩ := quad_error hp hr nextOne.1 (le_trans tiny (by
      unfold nextOne; norm_num [abs_of_pos])) (by
      have h : |nextOne.1| ≤ 2 := by unfold nextOne; norm_num [abs_of_pos]
      have := huge
      generalize (2 : ℚ) ^ (971 : ℤ) = b at *
      linarith)
  refine ⟨y, h1, le_trans (h2 1 double_one) ?_⟩
  unfold nextOne
  norm_num [abs_of_pos, abs_of_neg]

/-- With one digit less. -/
example : ∃ (print : ℚ → List Char) (toDouble : List Char → Option ℚ), toDouble (print (1 + 2 ^ (-52 : ℤ))) = some (1 : ℚ) := by
  obtain ⟨print, hp⟩ := printer_exists (savePrecision - 1)
  obtain ⟨toDouble, hr⟩ := reader_exists
  exact ⟨print, toDouble, (no_digit_to_spare hp hr).2⟩

/-- Two texts in this form. -/
example : (⟨false, 1, [0, 5], true, [0, 3]⟩ : Numeral).text = "+1.05e-03".toList ∧
    (⟨true, 2, [5], false, [1, 0]⟩ : Numeral).text = "-2.5e+10".toList := by decide +kernel

example : (⟨false, 1, [0, 5], true, [0, 3]⟩ : Numeral).value = 105 / 100000 := by
  norm_num [Numeral.value, numVal]

end NB.C94
