import Verif.Model.Player
import Verif.Lemmas.RealVec
import Verif.Lemmas.EngineSimple
import Mathlib.Tactic.NormNum
import Mathlib.Tactic.IntervalCases

/-
C53: the colours of the player.
-/

namespace NB.C53

/-- Colour of a relative speed in the first three quarters of the range: linear between the table entries. -/
theorem interpolates_partial (x : ℝ) (h0 : 0 < x) (h1 : x ≤ 3 / 4) :
    ∃ (k : ℕ) (a b : Color), k < 3 ∧ (k : ℝ) / 4 < x ∧ x ≤ (k + 1 : ℝ) / 4 ∧ lut[k]? = some a ∧ lut[k + 1]? = some b ∧
      getColor (.num x) = .ok ⟨a.x + (b.x - a.x) * (4 * x - k), a.y + (b.y - a.y) * (4 * x - k),
        a.z + (b.z - a.z) * (4 * x - k), a.w + (b.w - a.w) * (4 * x - k)⟩ := by
  have hx : (0 : ℝ) < x * (4 : ℕ) := by push_cast; linarith
  have hc : 0 < ⌈x * (4 : ℕ)⌉₊ := Nat.ceil_pos.2 hx
  have hc3 : ⌈x * (4 : ℕ)⌉₊ ≤ 3 := Nat.ceil_le.2 (by push_cast; linarith)
  have hle := Nat.le_ceil (x * (4 : ℕ))
  have hlt := Nat.ceil_lt_add_one hx.le
  have e : getColor (.num x) = (do
      let a ← rd lut (⌈x * (4 : ℕ)⌉₊ - 1)
      let b ← rd lut ⌈x * (4 : ℕ)⌉₊
      pure ((a.smul ((⌈x * (4 : ℕ)⌉₊ : ℝ) - x * (4 : ℕ))).add
        (b.smul (1 - ((⌈x * (4 : ℕ)⌉₊ : ℝ) - x * (4 : ℕ)))))) := by
    simp only [getColor]
    rw [if_neg (not_le.2 h0), if_neg (by linarith)]
    rfl
  rw [e]
  generalize ⌈x * (4 : ℕ)⌉₊ = i at *
  push_cast at hle hlt
  have key : ∀ k : ℕ, k < 3 → i = k + 1 → ∃ a b, lut[k]? = some a ∧ lut[k + 1]? = some b := by
    intro k hk _
    interval_cases k <;> exact ⟨_, _, rfl, rfl⟩
  obtain ⟨k, rfl⟩ : ∃ k, i = k + 1 := ⟨i - 1, by omega⟩
  obtain ⟨a, b, ha, hb⟩ := key k (by omega) rfl
  push_cast at hle hlt
  refine ⟨k, a, b, by omega, by linarith, by linarith, ha, hb, ?_⟩
  simp only [Nat.add_sub_cancel, rd, ha, hb, res_ok_bind, Color.add, Color.smul]
  push_cast
  congr 2 <;> ring

/-- Outside the range the colour is that of the end. -/
theorem ends (x : ℝ) : (x ≤ 0 → getColor (.num x) = .ok ⟨0.3, 0.3, 1, 1⟩) ∧
    (1 ≤ x → getColor (.num x) = .ok ⟨1, 0, 0, 1⟩) ∧ getColor .inf = .ok ⟨1, 0, 0, 1⟩ := by
  refine ⟨fun h => ?_, fun h => ?_, rfl⟩
  · simp only [getColor]; rw [if_pos h]; rfl
  · simp only [getColor]; rw [if_neg (by linarith), if_pos h]; rfl

/-- Violated in the last quarter: entry 4 of the table of four is read. -/
theorem outside_table (x : ℝ) (h0 : 3 / 4 < x) (h1 : x < 1) : getColor (.num x) = .error .oob := by
  have hc : ⌈x * (4 : ℕ)⌉₊ = 4 := by
    rw [Nat.ceil_eq_iff (by decide)]
    push_cast
    constructor <;> linarith
  simp only [getColor]
  rw [if_neg (by linarith), if_neg (by linarith)]
  change (do
      let a ← rd lut (⌈x * (4 : ℕ)⌉₊ - 1)
      let b ← rd lut ⌈x * (4 : ℕ)⌉₊
      pure ((a.smul ((⌈x * (4 : ℕ)⌉₊ : ℝ) - x * (4 : ℕ))).add
        (b.smul (1 - ((⌈x * (4 : ℕ)⌉₊ : ℝ) - x * (4 : ℕ)))))) = _
  rw [hc]
  rfl

/-- Exactly when reading a colour is defined. -/
theorem defined_iff (q : Quo) : (∃ c, getColor q = .ok c) ↔ q ≠ .nan ∧ ∀ x, q = .num x → x ≤ 3 / 4 ∨ 1 ≤ x := by
  cases q with
  | nan => simp [getColor]
  | inf => simp [(ends 0).2.2]
  | num x =>
    refine ⟨fun ⟨c, hc⟩ => ⟨by simp, ?_⟩, fun ⟨_, h⟩ => ?_⟩
    · rintro y hy
      cases hy
      by_contra hn
      push Not at hn
      rw [outside_table x hn.1 hn.2] at hc
      cases hc
    · rcases h x rfl with h | h
      · rcases le_or_gt x 0 with h0 | h0
        · exact ⟨_, (ends x).1 h0⟩
        · obtain ⟨k, a, b, _, _, _, _, _, e⟩ := interpolates_partial x h0 h
          exact ⟨_, e⟩
      · exact ⟨_, (ends x).2.1 h⟩

lemma mapM_ok {α β : Type} (f : α → Res β) : ∀ l : List α, (∃ r, l.mapM f = .ok r) ↔ ∀ a ∈ l, ∃ b, f a = .ok b
  | [] => by simp [pure, Except.pure]
  | a :: l => by
    rw [List.mapM_cons]
    cases h : f a with
    | error e => simp [h, bind, Except.bind]
    | ok b =>
      simp only [res_ok_bind, List.mem_cons, forall_eq_or_imp, h, Except.ok.injEq, exists_eq', true_and]
      rw [← mapM_ok f l]
      cases h2 : l.mapM f with
      | error e => simp [bind, Except.bind]
      | ok r => simp [bind, Except.bind, pure, Except.pure]

/-- A frame is drawn in defined colours exactly if no body moves with between three quarters of and the whole of
the reference speed, and, if the reference speed is 0, no body rests. -/
theorem frame_defined_iff (vel : List (Vec3 ℝ)) (m : ℝ) (hm : 0 ≤ m) :
    (∃ cs, computeColors vel m = .ok cs) ↔
      ∀ v ∈ vel, (m = 0 → v.length ≠ 0) ∧ (m ≠ 0 → v.length ≤ 3 / 4 * m ∨ m ≤ v.length) := by
  unfold computeColors
  rw [mapM_ok]
  refine forall_congr' fun v => forall_congr' fun _ => ?_
  rw [defined_iff]
  unfold quo
  by_cases h0 : m = 0
  · simp only [h0, if_true, ne_eq, not_true_eq_false, false_imp_iff, and_true, true_imp_iff]
    by_cases h1 : v.length = 0 <;> simp [h1]
  · have hpos : 0 < m := lt_of_le_of_ne hm (Ne.symm h0)
    simp only [h0, if_false, ne_eq, not_false_eq_true, true_imp_iff, false_imp_iff, true_and, reduceCtorEq,
      Quo.num.injEq, forall_eq', div_le_iff₀ hpos, le_div_iff₀ hpos, one_mul]

lemma box_spec (l : List (Vec3 ℝ)) : ∀ b : Vec3 ℝ × Vec3 ℝ, ∀ k : Fin 3,
    ((l.foldl boxStep b).1.coord k ≤ b.1.coord k ∧ (∀ v ∈ l, (l.foldl boxStep b).1.coord k ≤ v.coord k) ∧
      ((l.foldl boxStep b).1.coord k = b.1.coord k ∨ ∃ v ∈ l, (l.foldl boxStep b).1.coord k = v.coord k)) ∧
    (b.2.coord k ≤ (l.foldl boxStep b).2.coord k ∧ (∀ v ∈ l, v.coord k ≤ (l.foldl boxStep b).2.coord k) ∧
      ((l.foldl boxStep b).2.coord k = b.2.coord k ∨ ∃ v ∈ l, (l.foldl boxStep b).2.coord k = v.coord k)) := by
  induction l with
  | nil => intro b k; simp
  | cons v l ih =>
    intro b k
    obtain ⟨⟨h1, h2, h3⟩, h4, h5, h6⟩ := ih (boxStep b v) k
    have e1 : (boxStep b v).1.coord k = min (b.1.coord k) (v.coord k) := by fin_cases k <;> rfl
    have e2 : (boxStep b v).2.coord k = max (b.2.coord k) (v.coord k) := by fin_cases k <;> rfl
    rw [e1] at h1 h3
    rw [e2] at h4 h6
    simp only [List.foldl_cons]
    refine ⟨⟨le_trans h1 (min_le_left _ _), ?_, ?_⟩, le_trans (le_max_left _ _) h4, ?_, ?_⟩
    · intro u hu
      rcases List.mem_cons.1 hu with rfl | hu
      · exact le_trans h1 (min_le_right _ _)
      · exact h2 u hu
    · rcases h3 with h3 | ⟨u, hu, h3⟩
      · rcases min_choice (b.1.coord k) (v.coord k) with h | h
        · exact Or.inl (h3.trans h)
        · exact Or.inr ⟨v, by simp, h3.trans h⟩
      · exact Or.inr ⟨u, by simp [hu], h3⟩
    · intro u hu
      rcases List.mem_cons.1 hu with rfl | hu
      · exact le_trans (le_max_right _ _) h4
      · exact h5 u hu
    · rcases h6 with h6 | ⟨u, hu, h6⟩
      · rcases max_choice (b.2.coord k) (v.coord k) with h | h
        · exact Or.inl (h6.trans h)
        · exact Or.inr ⟨v, by simp, h6.trans h⟩
      · exact Or.inr ⟨u, by simp [hu], h6⟩

/-- The box is the smallest one around the points: every point is inside, and every face touches a point. -/
theorem box_is_bounding_box (l : List (Vec3 ℝ)) (hne : l ≠ [])
    (hb : ∀ v ∈ l, ∀ k, |v.coord k| ≤ 1e30) (k : Fin 3) :
    (∀ v ∈ l, (getBox l).1.coord k ≤ v.coord k ∧ v.coord k ≤ (getBox l).2.coord k) ∧
      (∃ v ∈ l, (getBox l).1.coord k = v.coord k) ∧ ∃ v ∈ l, (getBox l).2.coord k = v.coord k := by
  obtain ⟨⟨h1, h2, h3⟩, h4, h5, h6⟩ := box_spec l (⟨1e30, 1e30, 1e30⟩, ⟨-1e30, -1e30, -1e30⟩) k
  obtain ⟨u, hu⟩ := List.exists_mem_of_ne_nil l hne
  have hu' := abs_le.1 (hb u hu k)
  have e1 : (⟨1e30, 1e30, 1e30⟩ : Vec3 ℝ).coord k = 1e30 := by fin_cases k <;> rfl
  have e2 : (⟨-1e30, -1e30, -1e30⟩ : Vec3 ℝ).coord k = -1e30 := by fin_cases k <;> rfl
  rw [e1] at h1 h3
  rw [e2] at h4 h6
  refine ⟨fun v hv => ⟨h2 v hv, h5 v hv⟩, ?_, ?_⟩
  · rcases h3 with h | h
    · exact ⟨u, hu, le_antisymm (h2 u hu) (by change _ ≤ (getBox l).1.coord k; unfold getBox; rw [h]; exact hu'.2)⟩
    · exact h
  · rcases h6 with h | h
    · exact ⟨u, hu, le_antisymm (by change (getBox l).2.coord k ≤ _; unfold getBox; rw [h]; exact hu'.1) (h5 u hu)⟩
    · exact h

/-- A concrete frame: two bodies, one at rest and one that moves with speed 1.  The reference speed is 1, and as
soon as the second body slows down to 0.9 the colours are undefined. -/
theorem slowing_down : frameColors [⟨0, 0, 0⟩, ⟨1, 0, 0⟩] [⟨0, 0, 0⟩, ⟨0.9, 0, 0⟩] = .error .oob := by
  have hm : ((getBox [⟨0, 0, 0⟩, ⟨1, 0, 0⟩]).2 - (getBox [⟨0, 0, 0⟩, ⟨1, 0, 0⟩]).1).length = 1 := by
    have hb : getBox [⟨0, 0, 0⟩, ⟨1, 0, 0⟩] = (⟨0, 0, 0⟩, ⟨1, 0, 0⟩) := by
      simp only [getBox, List.foldl, boxStep]
      norm_num
    rw [hb]
    simp [Vec3.length, Vec3.dot]
  unfold frameColors
  rw [hm]
  have h0 : quo (⟨0, 0, 0⟩ : Vec3 ℝ).length 1 = .num 0 := by simp [quo, Vec3.length, Vec3.dot]
  have h1 : quo (⟨0.9, 0, 0⟩ : Vec3 ℝ).length 1 = .num 0.9 := by
    simp only [quo, Vec3.length, Vec3.dot]
    rw [if_neg one_ne_zero]
    simp only [real_sqrt, mul_zero, add_zero, div_one, Quo.num.injEq]
    exact Real.sqrt_mul_self (by norm_num)
  simp only [computeColors, List.mapM_cons, List.mapM_nil, h0, h1, (ends 0).1 (le_refl 0),
    outside_table 0.9 (by norm_num) (by norm_num), res_ok_bind]
  rfl

/-- All bodies at rest: not a number. -/
theorem all_at_rest : frameColors [⟨0, 0, 0⟩, ⟨0, 0, 0⟩] [⟨0, 0, 0⟩, ⟨0, 0, 0⟩] = .error .badArith := by
  have hb : getBox [⟨0, 0, 0⟩, ⟨0, 0, 0⟩] = (⟨0, 0, 0⟩, ⟨0, 0, 0⟩) := by
    simp only [getBox, List.foldl, boxStep]
    norm_num
  unfold frameColors
  rw [hb]
  have h0 : quo (⟨0, 0, 0⟩ : Vec3 ℝ).length ((⟨0, 0, 0⟩ : Vec3 ℝ) - ⟨0, 0, 0⟩).length = .nan := by
    simp [quo, Vec3.length, Vec3.dot]
  simp only [computeColors, List.mapM_cons, h0, getColor]
  rfl

/-- Half of the reference speed: pure green turning yellow. -/
example : getColor (.num (1 / 2)) = .ok ⟨1, 1, 0, 1⟩ := by
  obtain ⟨k, a, b, hk, h1, h2, ha, hb, e⟩ := interpolates_partial (1 / 2) (by norm_num) (by norm_num)
  have : k = 1 := by
    have : k = 0 ∨ k = 1 ∨ k = 2 := by omega
    rcases this with rfl | rfl | rfl
    · norm_num at h2
    · rfl
    · norm_num at h1
  subst this
  cases ha
  cases hb
  rw [e]
  norm_num

example : ∃ cs, computeColors [⟨0, 0, 0⟩, ⟨3, 4, 0⟩] 10 = .ok cs := by
  rw [frame_defined_iff _ _ (by norm_num)]
  intro v hv
  simp only [List.mem_cons, List.not_mem_nil, or_false] at hv
  refine ⟨by norm_num, fun _ => Or.inl ?_⟩
  rcases hv with rfl | rfl
  · simp [Vec3.length, Vec3.dot]
  · have : (⟨3, 4, 0⟩ : Vec3 ℝ).length = 5 := by
      simp only [Vec3.length, Vec3.dot, real_sqrt]
      rw [show (3 * 3 + 4 * 4 + 0 * 0 : ℝ) = 5 ^ 2 by norm_num, Real.sqrt_sq (by norm_num)]
    rw [this]; norm_num

end NB.C53
