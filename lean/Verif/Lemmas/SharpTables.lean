import Verif.Lemmas.SharpAdams
import Verif.Lemmas.OrderCheck
import Verif.Props.C57_Feagin
import Verif.Props.C65_Implicit

/-
The orders of the tables on the circle.
-/

namespace NB

open Finset

/-- `A^m 1`, as a list. -/
def tallList {R : Type} [CommRing R] (A : List (List R)) (one : List R) : ℕ → List R
  | 0 => one
  | m + 1 => A.map fun row => ldot row (tallList A one m)

/-- The conditions of the trees without branches hold up to the order `p` and no further. -/
def checkTall (A : List (List ℚ)) (one b : List ℚ) (p : ℕ) : Bool :=
  ((List.range p).all fun m => ((m + 1).factorial : ℚ) * ldot b (tallList A one m) == 1) &&
    ((p + 1).factorial : ℚ) * ldot b (tallList A one p) != 1

lemma tallList_length {R : Type} [CommRing R] {A : List (List R)} {s : ℕ} (hA : A.length = s) (m : ℕ) :
    (tallList A (List.replicate s 1) m).length = s := by
  cases m with
  | zero => simp [tallList]
  | succ m => simp [tallList, hA]

lemma tallList_eq {R : Type} [CommRing R] {A : List (List R)} {s : ℕ} (hA : A.length = s) (m : ℕ) :
    ∀ i, i < s → (tallList A (List.replicate s 1) m).getD i 0 = tall s (fun i j => (A.getD i []).getD j 0) m i := by
  induction m with
  | zero => intro i hi; simp [tallList, tall, List.getD_eq_getElem?_getD, hi]
  | succ m ih =>
    intro i hi
    have e : (tallList A (List.replicate s 1) (m + 1)).getD i 0 = ldot (A.getD i []) (tallList A (List.replicate s 1) m) := by
      simp [tallList, List.getD_eq_getElem?_getD, hA ▸ hi]
    rw [e, ldot_eq, tallList_length hA, tall]
    exact sum_congr rfl fun j hj => by rw [ih j (mem_range.1 hj)]

lemma tall_cast {s : ℕ} (a : ℕ → ℕ → ℚ) (m : ℕ) : ∀ i, tall s (fun i j => ((a i j : ℚ) : ℝ)) m i = ((tall s a m i : ℚ) : ℝ) := by
  induction m with
  | zero => intro i; simp [tall]
  | succ m ih => intro i; simp only [tall, ih]; push_cast; rfl

/-- The check. -/
lemma tallOrder_of_check {t : Tab ℚ} {p : ℕ} (hA : t.rows.length = t.steps)
    (h : checkTall t.rows (List.replicate t.steps 1) t.b2 p = true) :
    TallOrder t.steps (C18.bt ℝ t).a (C18.bt ℝ t).b2 p := by
  have ea : (C18.bt ℝ t).a = fun i j => ((t.toBT.a i j : ℚ) : ℝ) := by
    funext i j; exact C18.map_toBT_a (Rat.cast : ℚ → ℝ) (by simp) t i j
  have eb : (C18.bt ℝ t).b2 = fun i => ((t.toBT.b2 i : ℚ) : ℝ) := by
    funext i; exact C18.getD_map (Rat.cast : ℚ → ℝ) (by simp) _ _
  have key : ∀ m, tallSum t.steps (C18.bt ℝ t).a (C18.bt ℝ t).b2 m =
      ((ldot t.b2 (tallList t.rows (List.replicate t.steps 1) m) : ℚ) : ℝ) := by
    intro m
    rw [ldot_eq, tallList_length hA, tallSum, ea, eb]
    push_cast
    refine sum_congr rfl fun i hi => ?_
    rw [tall_cast, tallList_eq hA m i (mem_range.1 hi)]
    rfl
  unfold checkTall at h
  rw [Bool.and_eq_true, List.all_eq_true, bne_iff_ne] at h
  refine ⟨fun m hm => ?_, fun he => h.2 ?_⟩
  · have h1 := h.1 m (List.mem_range.2 hm)
    rw [beq_iff_eq] at h1
    rw [key, eq_div_iff (by exact_mod_cast (m + 1).factorial_ne_zero), mul_comm]
    exact_mod_cast h1
  · rw [key, eq_div_iff (by exact_mod_cast (p + 1).factorial_ne_zero), mul_comm] at he
    exact_mod_cast he

lemma explicit_tall : TallOrder 4 (C18.bt ℝ rk4Tab).a (C18.bt ℝ rk4Tab).b2 4 ∧ TallOrder rkckTab.steps (C18.bt ℝ rkckTab).a (C18.bt ℝ rkckTab).b2 4 ∧
    TallOrder rkdpTab.steps (C18.bt ℝ rkdpTab).a (C18.bt ℝ rkdpTab).b2 4 ∧
    TallOrder rkdverkTab.steps (C18.bt ℝ rkdverkTab).a (C18.bt ℝ rkdverkTab).b2 5 ∧
    TallOrder rkfTab.steps (C18.bt ℝ rkfTab).a (C18.bt ℝ rkfTab).b2 8 :=
  ⟨tallOrder_of_check (t := rk4Tab) (by decide +kernel) (by decide +kernel), tallOrder_of_check (by decide +kernel) (by decide +kernel),
    tallOrder_of_check (by decide +kernel) (by decide +kernel), tallOrder_of_check (by decide +kernel) (by decide +kernel),
    tallOrder_of_check (by decide +kernel) (by decide +kernel)⟩

lemma euler_same : SameDrift (fun F => C74.plain (eulerAdvise F)) (fun _ => True) 1 := by
  exact plain_drifts (s := 1) (a := fun _ _ => 0) (b := fun _ => 1) (c := fun _ => 0) (fun _ _ _ _ _ => rfl)
    ⟨fun m hm => by interval_cases m; simp [tallSum, tall], by norm_num [tallSum, tall]⟩ fun F dt e => C16.euler_is_erk F dt e

lemma midpoint_same : SameDrift (fun F => C74.plain (midpointAdvise F)) (fun _ => True) 2 := by
  refine plain_drifts (s := 2) (a := fun i j => if i = 1 ∧ j = 0 then 1 / 2 else 0) (b := fun i => if i = 0 then 0 else 1)
    (c := fun i => if i = 0 then 0 else 1 / 2) (fun i hi j hij hj => if_neg (by omega))
    ⟨fun m hm => ?_, by norm_num [tallSum, tall, sum_range_succ]⟩ fun F dt e => ?_
  · interval_cases m <;> norm_num [tallSum, tall, sum_range_succ]
  · obtain ⟨k, h1, h2⟩ := C16.midpoint_is_erk F dt e
    refine ⟨k, fun i hi => ?_, h2⟩
    rw [h1 i hi]
    interval_cases i <;> simp

lemma rk4_same : SameDrift (fun F => C74.plain (rk4Advise F)) (fun _ => True) 4 := by
  refine plain_drifts (c := C16.classicC) (fun i hi j hij hj => ?_) explicit_tall.1 fun F dt e => ?_
  · interval_cases i <;> interval_cases j <;> simp [Tab.toBT, Tab.map, rk4Tab]
  · obtain ⟨k, h1, h2⟩ := C16.rk4_is_erk F dt e
    refine ⟨k, fun i hi => ?_, ?_⟩
    · rw [h1 i hi]
      interval_cases i <;> simp [Tab.toBT, Tab.map, rk4Tab, C16.classicA, sum_range_succ]
    · rw [h2]
      simp [Tab.toBT, Tab.map, rk4Tab, C16.classicB, sum_range_succ]

lemma trap_tall (refine : ℕ) : TallOrder (refine + 2) C65.trapA (C65.trapB refine) 2 := by
  have row : ∀ i, i < refine + 2 → ∀ g : ℕ → ℝ, ∑ j ∈ range (refine + 2), C65.trapA i j * g j =
      if i = 0 then 0 else if i = 1 then g 0 else 1 / 2 * g 0 + 1 / 2 * g (i - 1) := by
    intro i hi g
    have hs : ∑ j ∈ range (refine + 2), C65.trapA i j * g j = ∑ j ∈ range i, C65.trapA i j * g j := by
      symm
      refine sum_subset (range_subset_range.2 hi.le) fun j hj hj' => ?_
      have h1 : i ≤ j := by simpa using hj'
      have : (C65.trapA i j : ℝ) = 0 := by
        unfold C65.trapA
        by_cases h0 : i = 0
        · rw [if_pos h0]
        · rw [if_neg h0]
          by_cases h1 : i = 1
          · rw [if_pos h1, if_neg (by omega)]
          · rw [if_neg h1, if_neg (by omega)]
      rw [this, zero_mul]
    rw [hs]
    by_cases h0 : i = 0
    · subst h0; simp
    · rw [if_neg h0]
      by_cases h1 : i = 1
      · subst h1; simp [C65.trapA]
      · rw [if_neg h1]
        have := C65.sum_trapA (K := ℝ) (V := ℝ) i (by omega) g
        simpa only [smul_eq_mul] using this
  have tot : ∀ g : ℕ → ℝ, ∑ i ∈ range (refine + 2), C65.trapB refine i * g i = 1 / 2 * g 0 + 1 / 2 * g (refine + 1) := by
    intro g
    have := C65.sum_trapB (K := ℝ) (V := ℝ) refine g
    simpa only [smul_eq_mul] using this
  have t1 : ∀ i, i < refine + 2 → tall (refine + 2) (C65.trapA (K := ℝ)) 1 i = if i = 0 then 0 else 1 := by
    intro i hi
    rw [tall, row i hi]
    simp only [tall]
    split_ifs <;> norm_num
  have t2 : ∀ i, i < refine + 2 → tall (refine + 2) (C65.trapA (K := ℝ)) 2 i = if i = 0 ∨ i = 1 then 0 else 1 / 2 := by
    intro i hi
    rw [tall, row i hi]
    by_cases h0 : i = 0
    · simp [h0]
    · by_cases h1 : i = 1
      · simp [h1, t1]
      · rw [if_neg h0, if_neg h1, t1 0 (by omega), t1 (i - 1) (by omega), if_pos rfl, if_neg (by omega), if_neg (by omega)]
        norm_num
  refine ⟨fun m hm => ?_, ?_⟩
  · interval_cases m
    · rw [tallSum, tot]; norm_num [tall]
    · rw [tallSum, tot, t1 0 (by omega), t1 (refine + 1) (by omega)]; norm_num
  · rw [tallSum, tot, t2 0 (by omega), t2 (refine + 1) (by omega)]
    by_cases h : refine = 0
    · subst h; norm_num [Nat.factorial]
    · rw [if_pos (Or.inl rfl), if_neg (by omega)]; norm_num [Nat.factorial]

lemma trapeze_same (refine : ℕ) : SameDrift (fun F => C74.plain (trapezeAdvise F refine)) (fun _ => True) 2 :=
  plain_drifts (c := fun _ => 0) (fun i hi j hij hj => by
    unfold C65.trapA
    by_cases h0 : i = 0
    · rw [if_pos h0]
    · rw [if_neg h0]
      by_cases h1 : i = 1
      · rw [if_pos h1, if_neg (by omega)]
      · rw [if_neg h1, if_neg (by omega)]) (trap_tall refine) fun F dt e => C65.trapeze_is_erk two_ne_zero F refine dt e

/-! ### The implicit tables -/

lemma rklc_third (re : ℕ) : ∑ i ∈ range 3, (C18.bt ℝ rklcTab).b2 i * sweepCoeff 3 (C18.bt ℝ rklcTab).a
      (lastCoeff 3 (C18.bt ℝ rklcTab).a re fun j => ∑ l ∈ range 3, (C18.bt ℝ rklcTab).a j l - 1) i ≠ 1 / 6 := by
  by_cases h : re = 1 <;> norm_num [sum_range_succ, sweepCoeff, lastCoeff, h, Tab.toBT, Tab.map, rklcTab]

lemma rklc_low : ∑ i ∈ range 3, (C18.bt ℝ rklcTab).b2 i = 1 ∧
    ∑ i ∈ range 3, (C18.bt ℝ rklcTab).b2 i * ∑ l ∈ range 3, (C18.bt ℝ rklcTab).a i l = 1 / 2 := by
  constructor <;> norm_num [sum_range_succ, Tab.toBT, Tab.map, rklcTab]

lemma rkgl_third (re : ℕ) : ∑ i ∈ range 3, (rkglTab ℝ (Real.sqrt 15)).toBT.b2 i * sweepCoeff 3 (rkglTab ℝ (Real.sqrt 15)).toBT.a
      (lastCoeff 3 (rkglTab ℝ (Real.sqrt 15)).toBT.a re fun j => ∑ l ∈ range 3, (rkglTab ℝ (Real.sqrt 15)).toBT.a j l - 1) i ≠ 1 / 6 := by
  obtain ⟨h1, h2⟩ := C65.sqrt15_bounds
  have h3 : Real.sqrt 15 * Real.sqrt 15 = 15 := Real.mul_self_sqrt (by norm_num)
  generalize Real.sqrt 15 = q at h1 h2 h3
  intro he
  by_cases h : re = 1 <;> simp [sum_range_succ, sweepCoeff, lastCoeff, h, Tab.toBT, rkglTab] at he <;> norm_num at he <;> nlinarith

lemma rkgl_low : ∑ i ∈ range 3, (rkglTab ℝ (Real.sqrt 15)).toBT.b2 i = 1 ∧
    ∑ i ∈ range 3, (rkglTab ℝ (Real.sqrt 15)).toBT.b2 i * ∑ l ∈ range 3, (rkglTab ℝ (Real.sqrt 15)).toBT.a i l = 1 / 2 := by
  constructor
  · norm_num [sum_range_succ, Tab.toBT, rkglTab]
  · simp [sum_range_succ, Tab.toBT, rkglTab]; ring

end NB
