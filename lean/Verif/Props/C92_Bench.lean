import Verif.Lemmas.Bench
import Verif.Props.C35_RunLoop
import Mathlib.Tactic.Positivity
import Mathlib.Algebra.Order.BigOperators.Group.Finset

/-
C92: the benchmark program and the comparison with the ephemeris.
-/

namespace NB.C92

/-! Specification -/

/-- Euclidean distance. -/
noncomputable def dist3 (a b : Vec3 ℝ) : ℝ := √((a.x - b.x) ^ 2 + (a.y - b.y) ^ 2 + (a.z - b.z) ^ 2)

/-- Mean distance of `n` bodies from where they are expected. -/
noncomputable def mean (n : ℕ) (p e : ℕ → Vec3 ℝ) : ℝ := (∑ i ∈ Finset.range n, dist3 (p i) (e i)) / n

/-- A visit: the time in days, the positions. -/
abbrev Visit := ℝ × (ℕ → Vec3 ℝ)

/-- The time of a visit in years of 365 days. -/
noncomputable def years (v : Visit) : ℝ := v.1 / 365

open Classical in
/-- The visits after the year 3002. -/
noncomputable def late (l : List Visit) : List Visit := l.filter fun v => 3002 < years v

/-- What the visitor is shown of a run of `n` bodies. -/
def shown (n : ℕ) (l : List Visit) : List (ℝ × List (Vec3 ℝ)) := l.map fun v => (v.1, buf n v.2)

/-- The table for `n` bodies: a row per body, then the row of the means; a column per late visit. -/
noncomputable def tableRow (n : ℕ) (e : ℕ → Vec3 ℝ) (l : List Visit) (i : ℕ) : List TableCell :=
  (late l).map fun v => ⟨years v, .num (if i < n then dist3 (v.2 i) (e i) else mean n v.2 e)⟩

def rowName (n i : ℕ) : String := if i < n then toString i else "mean"

/-! compare_data -/

lemma length_eq (a b : Vec3 ℝ) : (a - b).length = dist3 a b := by
  show √((a.x - b.x) * (a.x - b.x) + (a.y - b.y) * (a.y - b.y) + (a.z - b.z) * (a.z - b.z)) = _
  unfold dist3
  congr 1; ring

lemma dist3_nonneg (a b : Vec3 ℝ) : 0 ≤ dist3 a b := Real.sqrt_nonneg _

lemma dist3_eq_zero {a b : Vec3 ℝ} : dist3 a b = 0 ↔ a = b := by
  unfold dist3
  rw [Real.sqrt_eq_zero (by positivity)]
  constructor
  · intro h
    have hx : (a.x - b.x) ^ 2 = 0 := by nlinarith [sq_nonneg (a.x - b.x), sq_nonneg (a.y - b.y), sq_nonneg (a.z - b.z)]
    have hy : (a.y - b.y) ^ 2 = 0 := by nlinarith [sq_nonneg (a.x - b.x), sq_nonneg (a.y - b.y), sq_nonneg (a.z - b.z)]
    have hz : (a.z - b.z) ^ 2 = 0 := by nlinarith [sq_nonneg (a.x - b.x), sq_nonneg (a.y - b.y), sq_nonneg (a.z - b.z)]
    rw [sq_eq_zero_iff, sub_eq_zero] at hx hy hz
    exact Vec3.ext hx hy hz
  · rintro rfl; simp

lemma compare_num {n na nb : ℕ} (hn : 0 < n) (ha : n ≤ na) (hb : n ≤ nb) (a b : ℕ → Vec3 ℝ) :
    ∃ M, compareData (buf na a) (buf nb b) n = .ok (.num (mean n a b), M) ∧
      (∀ i, i < n → dist3 (a i) (b i) ≤ M) ∧ (∃ i, i < n ∧ M = dist3 (a i) (b i)) := by
  obtain ⟨M, h1, _, h3, _, h4⟩ := compare_total a b n na nb ha hb
  simp only [length_eq] at h1 h3 h4
  refine ⟨M, ?_, h3, h4 hn fun i => dist3_nonneg _ _⟩
  unfold compareData
  rw [h1]
  show Except.ok (quo (∑ i ∈ Finset.range n, dist3 (a i) (b i)) (n : ℝ), M) = _
  unfold quo mean
  rw [if_neg (by exact_mod_cast hn.ne')]

/-- `compare_data` of two lists of `n > 0` bodies: the first component is the mean distance of corresponding bodies,
the second the greatest; both are 0 exactly when the bodies are in the same places. -/
theorem compare_data {n : ℕ} (hn : 0 < n) (a b : ℕ → Vec3 ℝ) :
    ∃ M, compareData (buf n a) (buf n b) n = .ok (.num (mean n a b), M) ∧
      (∀ i, i < n → dist3 (a i) (b i) ≤ M) ∧ (∃ i, i < n ∧ M = dist3 (a i) (b i)) ∧
      (M = 0 ↔ buf n a = buf n b) ∧ (mean n a b = 0 ↔ buf n a = buf n b) ∧ mean n a b ≤ M := by
  obtain ⟨M, h1, h2, i, hi, h3⟩ := compare_num hn (le_refl n) (le_refl n) a b
  have hn' : (0 : ℝ) < n := by exact_mod_cast hn
  refine ⟨M, h1, h2, ⟨i, hi, h3⟩, ⟨fun h => ?_, fun h => ?_⟩, ⟨fun h => ?_, fun h => ?_⟩, ?_⟩
  · exact buf_congr fun j hj => dist3_eq_zero.1 (le_antisymm (h ▸ h2 j hj) (dist3_nonneg _ _))
  · rw [h3, dist3_eq_zero]; exact buf_inj h hi
  · unfold mean at h
    rw [div_eq_zero_iff, or_iff_left hn'.ne', Finset.sum_eq_zero_iff_of_nonneg fun _ _ => dist3_nonneg _ _] at h
    exact buf_congr fun j hj => dist3_eq_zero.1 (h j (by simpa using hj))
  · unfold mean
    rw [Finset.sum_eq_zero fun j hj => dist3_eq_zero.2 (buf_inj h (by simpa using hj)), zero_div]
  · unfold mean
    rw [div_le_iff₀ hn']
    calc _ ≤ ∑ _i ∈ Finset.range n, M := Finset.sum_le_sum fun j hj => h2 j (by simpa using hj)
      _ = M * n := by simp [mul_comm]

/-- Without bodies the mean is not a number. -/
theorem compare_nothing (a b : List (Vec3 ℝ)) : compareData a b 0 = .ok (.nan, 0) := by
  show Except.ok (quo 0 ((0 : ℕ) : ℝ), 0) = _
  simp [quo]

/-- The comparison of `run` with an expected state of another number of bodies is left out, not wrong. -/
theorem bench_compare_counts (vert vel ev evel : List (Vec3 ℝ)) (h : ev.length ≠ vert.length) :
    benchCompare vert vel ev evel = .ok none := by
  unfold benchCompare
  simp only
  rw [if_neg h]
  rfl

/-- The comparison of `run`: mean and greatest distance of the positions and of the velocities. -/
theorem bench_compare {n : ℕ} (hn : 0 < n) (p v ep ev : ℕ → Vec3 ℝ) :
    ∃ M M', benchCompare (buf n p) (buf n v) (buf n ep) (buf n ev) =
        .ok (some (.num (mean n p ep), M, .num (mean n v ev), M')) ∧
      ((M = 0 ∧ M' = 0) ↔ (buf n p = buf n ep ∧ buf n v = buf n ev)) := by
  obtain ⟨M, h1, _, _, h2, _⟩ := compare_data hn p ep
  obtain ⟨M', h1', _, _, h2', _⟩ := compare_data hn v ev
  refine ⟨M, M', ?_, by rw [h2, h2']⟩
  unfold benchCompare
  simp only [buf_length, if_true]
  rw [h1, h1']
  rfl

/-! The comparator -/

/-- The rows of a comparator with more rows than bodies: those left over are empty. -/
noncomputable def rowsOf (n : ℕ) (e : ℕ → Vec3 ℝ) (l : List Visit) (i : ℕ) : List TableCell :=
  if i ≤ n then tableRow n e l i else []

/-- State of the comparator with `m` expected bodies after the visits `l` of `n` bodies, apart from the minimum. -/
def TableIs (m n : ℕ) (e : ℕ → Vec3 ℝ) (l : List Visit) (c : Comparator) : Prop :=
  c.expected = buf m e ∧ c.result = buf (m + 1) (rowsOf n e l) ∧ c.variable' = (late l).map years ∧
    c.params = buf (m + 1) (rowName m)

open Classical in
/-- The least mean of the visits and the first time it occurs, starting from `(m, t)`. -/
noncomputable def least (n : ℕ) (e : ℕ → Vec3 ℝ) (l : List Visit) (s : ℝ × ℝ) : ℝ × ℝ :=
  l.foldl (fun s v => if mean n v.2 e < s.1 then (mean n v.2 e, years v) else s) s

lemma late_snoc (l : List Visit) (v : Visit) : late (l ++ [v]) = late l ++ (if 3002 < years v then [v] else []) := by
  unfold late
  rw [List.filter_append]
  by_cases h : 3002 < years v <;> simp [h]

lemma row_snoc (n : ℕ) (e : ℕ → Vec3 ℝ) (l : List Visit) (v : Visit) (i : ℕ) (h : 3002 < years v) :
    tableRow n e (l ++ [v]) i = tableRow n e l i ++
      [⟨years v, .num (if i < n then dist3 (v.2 i) (e i) else mean n v.2 e)⟩] := by
  unfold tableRow
  rw [late_snoc, if_pos h, List.map_append]
  rfl

lemma late_snoc_not (l : List Visit) (v : Visit) (h : ¬ 3002 < years v) : late (l ++ [v]) = late l := by
  rw [late_snoc, if_neg h, List.append_nil]

lemma record_ok {m n : ℕ} (hm : n ≤ m) (e : ℕ → Vec3 ℝ) (l : List Visit) (v : Visit) (c : Comparator)
    (hc : TableIs m n e l c) (h : 3002 < years v) :
    ∃ c', c.record (v.1 / 365) (buf n v.2) (.num (mean n v.2 e)) = .ok c' ∧ TableIs m n e (l ++ [v]) c' ∧
      c'.minDr = c.minDr ∧ c'.minDrTime = c.minDrTime := by
  obtain ⟨he, hr, hv, hp⟩ := hc
  unfold Comparator.record
  rw [buf_length, he, hr, push_rows (m + 1) (rowsOf n e l) (fun i => ⟨years v, .num (dist3 (v.2 i) (e i))⟩) _ n
    (by omega)
    (by
      intro i hi r
      rw [rd_buf hi, rd_buf (by omega)]
      show pushCell r i ⟨years v, .num ((v.2 i) - (e i)).length⟩ = _
      rw [length_eq])]
  obtain ⟨f, hf⟩ : ∃ f : ℕ → List TableCell, f = fun i => if i < n then rowsOf n e l i ++
    [⟨years v, .num (dist3 (v.2 i) (e i))⟩] else rowsOf n e l i := ⟨_, rfl⟩
  have hpush : pushCell (buf (m + 1) f) n ⟨v.1 / 365, .num (mean n v.2 e)⟩ =
      .ok (buf (m + 1) (rowsOf n e (l ++ [v]))) := by
    unfold pushCell
    rw [rd_buf (by omega)]
    show wr _ n _ = _
    rw [wr_buf _ (by omega)]
    refine congrArg _ (buf_congr fun i hi => ?_)
    unfold rowsOf at hf ⊢
    rw [row_snoc n e l v i h, hf]
    by_cases h' : i = n
    · subst h'; simp; rfl
    · rw [if_neg h']
      by_cases h2 : i < n
      · simp [h2, h2.le]
      · have h3 : ¬ i ≤ n := by omega
        simp [h2, h3]
  rw [← hf]
  show ∃ c', (do let result ← pushCell (buf (m + 1) f) n ⟨v.1 / 365, .num (mean n v.2 e)⟩; pure _ : Res Comparator) = _
    ∧ _
  rw [hpush]
  refine ⟨_, rfl, ⟨rfl, rfl, ?_, hp⟩, rfl, rfl⟩
  show c.variable' ++ [years v] = _
  rw [hv, late_snoc, if_pos h, List.map_append]; rfl

lemma keepMin_ok {m n : ℕ} (e : ℕ → Vec3 ℝ) (l : List Visit) (v : Visit) (c : Comparator)
    (hc : TableIs m n e l c) :
    TableIs m n e l (c.keepMin (v.1 / 365) (.num (mean n v.2 e))) ∧
      ((c.keepMin (v.1 / 365) (.num (mean n v.2 e))).minDr, (c.keepMin (v.1 / 365) (.num (mean n v.2 e))).minDrTime) =
        least n e [v] (c.minDr, c.minDrTime) := by
  unfold Comparator.keepMin least
  simp only [List.foldl_cons, List.foldl_nil]
  by_cases h : mean n v.2 e < c.minDr
  · rw [if_pos h, if_pos h]
    exact ⟨hc, rfl⟩
  · rw [if_neg h, if_neg h]
    exact ⟨hc, rfl⟩

lemma visit_ok {m n : ℕ} (hm : n ≤ m) (hn : 0 < n) (e : ℕ → Vec3 ℝ) (l : List Visit) (v : Visit) (c : Comparator)
    (hc : TableIs m n e l c) :
    ∃ c', c.visit v.1 (buf n v.2) = .ok c' ∧ TableIs m n e (l ++ [v]) c' ∧
      (c'.minDr, c'.minDrTime) = least n e [v] (c.minDr, c.minDrTime) := by
  obtain ⟨M, h1, _, _⟩ := compare_num hn (le_refl n) hm v.2 e
  unfold Comparator.visit
  rw [buf_length, hc.1, h1]
  by_cases h : 3002 < years v
  · obtain ⟨d, h2, h3, h4, h5⟩ := record_ok hm e l v c hc h
    obtain ⟨h6, h7⟩ := keepMin_ok e (l ++ [v]) v d h3
    refine ⟨_, ?_, h6, by rw [h7, h4, h5]⟩
    show (do
      let c ← if 3002 < v.1 / 365 then c.record (v.1 / 365) (buf n v.2) (.num (mean n v.2 e)) else pure c
      pure (c.keepMin (v.1 / 365) (.num (mean n v.2 e)))) = _
    rw [if_pos (show 3002 < v.1 / 365 from h), h2]
    rfl
  · have h3 : TableIs m n e (l ++ [v]) c := by
      refine ⟨hc.1, ?_, ?_, hc.2.2.2⟩
      · rw [hc.2.1]; unfold rowsOf tableRow; rw [late_snoc_not l v h]
      · rw [hc.2.2.1, late_snoc_not l v h]
    obtain ⟨h6, h7⟩ := keepMin_ok e (l ++ [v]) v c h3
    refine ⟨_, ?_, h6, h7⟩
    show (do
      let c ← if 3002 < v.1 / 365 then c.record (v.1 / 365) (buf n v.2) (.num (mean n v.2 e)) else pure c
      pure (c.keepMin (v.1 / 365) (.num (mean n v.2 e)))) = _
    rw [if_neg (show ¬ 3002 < v.1 / 365 from h)]
    rfl

lemma visits_ok {m n : ℕ} (hm : n ≤ m) (hn : 0 < n) (e : ℕ → Vec3 ℝ) (l' l : List Visit) (c : Comparator) (hc : TableIs m n e l c) :
    ∃ c', c.visits (shown n l') = .ok c' ∧ TableIs m n e (l ++ l') c' ∧
      (c'.minDr, c'.minDrTime) = least n e l' (c.minDr, c.minDrTime) := by
  induction l' generalizing l c with
  | nil => exact ⟨c, rfl, by simpa using hc, rfl⟩
  | cons v l' ih =>
    obtain ⟨c1, h1, h2, h3⟩ := visit_ok hm hn e l v c hc
    obtain ⟨c2, h4, h5, h6⟩ := ih (l ++ [v]) c1 h2
    refine ⟨c2, ?_, by simpa using h5, ?_⟩
    · show (do let c ← c.visit v.1 (buf n v.2); c.visits (shown n l')) = _
      rw [h1]; exact h4
    · rw [h6, h3]; rfl

lemma load_ok (n k : ℕ) (e : ℕ → Vec3 ℝ) (b : Bool) : TableIs n k e [] (Comparator.loadInit (b, buf n e)).2 := by
  refine ⟨rfl, ?_, rfl, ?_⟩
  · show List.replicate ((buf n e).length + 1) [] = _
    rw [buf_length]
    apply List.ext_getElem?
    intro i
    rw [buf_getElem?]
    by_cases h : i < n + 1 <;> simp [h, rowsOf, tableRow, late]
  · show (List.range (buf n e).length).map toString ++ ["mean"] = _
    rw [buf_length]
    unfold buf
    rw [List.range_succ, List.map_append]
    congr 1
    · exact List.map_congr_left fun i hi => by simp [rowName, List.mem_range.1 hi]
    · simp [rowName]

lemma row_length (n : ℕ) (e : ℕ → Vec3 ℝ) (l : List Visit) (i : ℕ) :
    (tableRow n e l i).length = ((late l).map years).length := by
  simp [tableRow]

/-- With an expected state of as many bodies as the run has, any run of visits is handled without undefined
behaviour, and the table printed has a row per body with its distance from the expected place at every visit after the
year 3002, in order, and a last row with the means. -/
theorem comparator_table_partial {n : ℕ} (hn : 0 < n) (e : ℕ → Vec3 ℝ) (b : Bool) (l : List Visit) :
    ∃ c, (Comparator.loadInit (b, buf n e)).2.visits (shown n l) = .ok c ∧
      c.variable' = (late l).map years ∧
      printTable c.params c.variable'.length c.result =
        .ok (buf (n + 1) fun i => (rowName n i, tableRow n e l i)) := by
  obtain ⟨c, h1, h2, _⟩ := visits_ok (le_refl n) hn e l [] _ (load_ok n n e b)
  obtain ⟨_, hr, hv, hp⟩ := h2
  rw [List.nil_append] at hr hv
  refine ⟨c, h1, hv, ?_⟩
  rw [hp, hr, hv]
  rw [show buf (n + 1) (rowsOf n e l) = buf (n + 1) (tableRow n e l) from
    buf_congr fun i hi => if_pos (by omega)]
  exact print_rows (n + 1) (rowName n) (tableRow n e l) _ fun i _ => row_length n e l i

lemma least_spec (n : ℕ) (e : ℕ → Vec3 ℝ) (l : List Visit) (s : ℝ × ℝ) :
    (least n e l s).1 ≤ s.1 ∧ (∀ v ∈ l, (least n e l s).1 ≤ mean n v.2 e) ∧
    (least n e l s = s ∨ ∃ l1 v l2, l = l1 ++ v :: l2 ∧ least n e l s = (mean n v.2 e, years v) ∧
      (least n e l s).1 < s.1 ∧ ∀ u ∈ l1, mean n v.2 e < mean n u.2 e) := by
  induction l generalizing s with
  | nil => exact ⟨le_refl _, by simp, .inl rfl⟩
  | cons v l ih =>
    have hstep : least n e (v :: l) s =
        least n e l (if mean n v.2 e < s.1 then (mean n v.2 e, years v) else s) := rfl
    by_cases h : mean n v.2 e < s.1
    · rw [if_pos h] at hstep
      rw [hstep]
      obtain ⟨h1, h2, h3⟩ := ih (mean n v.2 e, years v)
      refine ⟨h1.trans h.le, ?_, ?_⟩
      · intro u hu
        rcases List.mem_cons.1 hu with rfl | hu
        · exact h1
        · exact h2 u hu
      · right
        rcases h3 with h3 | ⟨l1, u, l2, h4, h5, h6, h7⟩
        · exact ⟨[], v, l, rfl, h3, by rw [h3]; exact h, by simp⟩
        · refine ⟨v :: l1, u, l2, by simp [h4], h5, h6.trans h, ?_⟩
          intro w hw
          rcases List.mem_cons.1 hw with rfl | hw
          · rw [h5] at h6; exact h6
          · exact h7 w hw
    · rw [if_neg h] at hstep
      rw [hstep]
      obtain ⟨h1, h2, h3⟩ := ih s
      refine ⟨h1, ?_, ?_⟩
      · intro u hu
        rcases List.mem_cons.1 hu with rfl | hu
        · exact h1.trans (not_lt.1 h)
        · exact h2 u hu
      · rcases h3 with h3 | ⟨l1, u, l2, h4, h5, h6, h7⟩
        · exact .inl h3
        · refine .inr ⟨v :: l1, u, l2, by simp [h4], h5, h6, ?_⟩
          intro w hw
          rcases List.mem_cons.1 hw with rfl | hw
          · rw [h5] at h6; exact lt_of_lt_of_le h6 (not_lt.1 h)
          · exact h7 w hw

/-- The line printed at the end: the least mean over all visits, also those before the year 3002, and the time of the
first visit at which it occurs, provided some mean is below 1e30. -/
theorem comparator_minimum_partial {n : ℕ} (hn : 0 < n) (e : ℕ → Vec3 ℝ) (b : Bool) (l : List Visit)
    (h : ∃ v ∈ l, mean n v.2 e < 1e30) :
    ∃ c, (Comparator.loadInit (b, buf n e)).2.visits (shown n l) = .ok c ∧
      ∃ l1 v l2, l = l1 ++ v :: l2 ∧ c.minDr = mean n v.2 e ∧ c.minDrTime = v.1 / 365 ∧
        (∀ u ∈ l, c.minDr ≤ mean n u.2 e) ∧ ∀ u ∈ l1, c.minDr < mean n u.2 e := by
  obtain ⟨c, h1, _, h3⟩ := visits_ok (le_refl n) hn e l [] _ (load_ok n n e b)
  refine ⟨c, h1, ?_⟩
  have hs : ((Comparator.loadInit (b, buf n e)).2.minDr, (Comparator.loadInit (b, buf n e)).2.minDrTime) =
      ((1e30 : ℝ), (0 : ℝ)) := rfl
  rw [hs] at h3
  obtain ⟨h4, h5, h6⟩ := least_spec n e l (1e30, 0)
  obtain ⟨w, hw, hw'⟩ := h
  rcases h6 with h6 | ⟨l1, v, l2, h7, h8, _, h9⟩
  · have := h5 w hw
    rw [h6] at this
    exact absurd hw' (not_lt.2 this)
  · rw [h8] at h3
    obtain ⟨hm, ht⟩ := Prod.mk.inj h3
    refine ⟨l1, v, l2, h7, hm, ht, ?_, ?_⟩
    · intro u hu
      rw [hm]
      have := h5 u hu
      rwa [h8] at this
    · rw [hm]; exact h9

/-- The file of the expected state is not checked (`plot_period` ignores what `load_init` returns): when it has fewer
bodies than the run, or could not be read, the first visit reads outside the array. -/
theorem comparator_fewer (loaded : Bool × List (Vec3 ℝ)) (t : ℝ) (vert : List (Vec3 ℝ))
    (l : List (ℝ × List (Vec3 ℝ))) (h : loaded.2.length < vert.length) :
    (Comparator.loadInit loaded).2.visits ((t, vert) :: l) = .error .oob := by
  show (do let c ← (Comparator.loadInit loaded).2.visit t vert; c.visits l) = _
  unfold Comparator.visit compareData
  rw [show (Comparator.loadInit loaded).2.expected = loaded.2 from rfl, compare_oob _ _ _ (le_refl _) h]
  rfl

/-- When it has more bodies than the run, the visits are handled, but printing the table reads outside a row as soon as
there is a column. -/
theorem comparator_more {n m : ℕ} (hn : 0 < n) (hm : n < m) (e : ℕ → Vec3 ℝ) (b : Bool) (l : List Visit)
    (hl : ∃ v ∈ l, 3002 < v.1 / 365) :
    ∃ c, (Comparator.loadInit (b, buf m e)).2.visits (shown n l) = .ok c ∧
      printTable c.params c.variable'.length c.result = .error .oob := by
  obtain ⟨c, h1, h2, _⟩ := visits_ok hm.le hn e l [] _ (load_ok m n e b)
  obtain ⟨_, hr, hv, hp⟩ := h2
  rw [List.nil_append] at hr hv
  refine ⟨c, h1, ?_⟩
  rw [hp, hr, hv]
  refine print_short (m + 1) (rowName m) (rowsOf n e l) _ m (by omega) ?_
  unfold rowsOf
  rw [if_neg (by omega), List.length_nil, List.length_map, List.length_pos_iff_exists_mem]
  obtain ⟨v, hv, hv'⟩ := hl
  exact ⟨v, List.mem_filter.2 ⟨hv, by rw [decide_eq_true_eq]; exact hv'⟩⟩

/-! The table of distances from the origin -/

/-- Row `i`: the distance of body `i` from the origin at every visit. -/
noncomputable def orbitRow (l : List Visit) (i : ℕ) : List TableCell :=
  l.map fun v => ⟨years v, .num (dist3 (v.2 i) 0)⟩

lemma length_origin (a : Vec3 ℝ) : a.length = dist3 a 0 := by
  show √(a.x * a.x + a.y * a.y + a.z * a.z) = √((a.x - 0) ^ 2 + (a.y - 0) ^ 2 + (a.z - 0) ^ 2)
  congr 1; ring

def OrbitIs (n : ℕ) (l : List Visit) (c : OrbitDump) : Prop :=
  c.result = buf n (orbitRow l) ∧ c.variable' = l.map years ∧ c.params = buf n toString

lemma orbit_push {n : ℕ} (l : List Visit) (v : Visit) :
    forN n (buf n (orbitRow l)) (fun i result => do
      let x ← rd (buf n v.2) i
      pushCell result i ⟨v.1 / 365, .num x.length⟩) = .ok (buf n (orbitRow (l ++ [v]))) := by
  rw [push_rows n (orbitRow l) (fun i => ⟨years v, .num (dist3 (v.2 i) 0)⟩) _ n (le_refl _)
    (by
      intro i hi r
      rw [rd_buf hi]
      show pushCell r i ⟨years v, .num (v.2 i).length⟩ = _
      rw [length_origin])]
  refine congrArg _ (buf_congr fun i hi => ?_)
  rw [if_pos hi]
  simp [orbitRow]

lemma orbit_visit {n : ℕ} (hn : 0 < n) (l : List Visit) (v : Visit) (c : OrbitDump)
    (hc : OrbitIs n l c ∨ (c = {} ∧ l = [])) :
    ∃ c', c.visit v.1 (buf n v.2) = .ok c' ∧ OrbitIs n (l ++ [v]) c' := by
  have key : ∀ d : OrbitDump, OrbitIs n l d →
      (if c.result.isEmpty then
        { c with result := List.replicate n [], params := (List.range n).map toString } else c) = d →
      ∃ c', c.visit v.1 (buf n v.2) = .ok c' ∧ OrbitIs n (l ++ [v]) c' := by
    rintro d ⟨hd1, hd2, hd3⟩ hd
    unfold OrbitDump.visit
    simp only [buf_length]
    rw [hd, hd1, orbit_push]
    refine ⟨_, rfl, rfl, ?_, hd3⟩
    show d.variable' ++ [years v] = _
    rw [hd2]; simp
  rcases hc with hc | ⟨rfl, rfl⟩
  · refine key c hc ?_
    rw [if_neg]
    rw [hc.1, List.isEmpty_iff, ← List.length_eq_zero_iff, buf_length]
    omega
  · refine key _ ⟨?_, rfl, rfl⟩ (if_pos rfl)
    apply List.ext_getElem?
    intro i
    rw [buf_getElem?]
    by_cases h : i < n <;> simp [h, orbitRow]

/-- The table of distances: a row per body, a column per visit, whatever the visits; printing it is defined. -/
theorem orbit_table {n : ℕ} (hn : 0 < n) (v : Visit) (l : List Visit) :
    ∃ c, OrbitDump.visits (shown n (v :: l)) {} = .ok c ∧ c.variable' = (v :: l).map years ∧
      printTable c.params c.variable'.length c.result = .ok (buf n fun i => (toString i, orbitRow (v :: l) i)) := by
  have all : ∀ (l' l : List Visit) (c : OrbitDump), OrbitIs n l c →
      ∃ c', c.visits (shown n l') = .ok c' ∧ OrbitIs n (l ++ l') c' := by
    intro l'
    induction l' with
    | nil => exact fun l c hc => ⟨c, rfl, by simpa using hc⟩
    | cons v l' ih =>
      intro l c hc
      obtain ⟨c1, h1, h2⟩ := orbit_visit hn l v c (.inl hc)
      obtain ⟨c2, h3, h4⟩ := ih (l ++ [v]) c1 h2
      refine ⟨c2, ?_, by simpa using h4⟩
      show (do let c ← c.visit v.1 (buf n v.2); c.visits (shown n l')) = _
      rw [h1]; exact h3
  obtain ⟨c1, h1, h2⟩ := orbit_visit hn [] v {} (.inr ⟨rfl, rfl⟩)
  obtain ⟨c, h3, h4, h5, h6⟩ := all l [v] c1 h2
  refine ⟨c, ?_, h5, ?_⟩
  · show (do let c ← OrbitDump.visit v.1 (buf n v.2) {}; c.visits (shown n l)) = _
    rw [h1]; exact h3
  · rw [h4, h5, h6]
    exact print_rows n toString _ _ fun i _ => by simp [orbitRow]

/-! The table of the benchmark -/

section
variable {V D R : Type} (run : Params V → D → R) (isEmpty : R → Bool) (toDouble : V → D)
  (n k : ℕ) (P : ℕ → Params V) (W : ℕ → V) (field : String) (maxTime : D) (R0 : ℕ → ℕ → R)

/-- The run that cell `(i, j)` has to show: the parameters of row `i` with the value of column `j` in the field
varied, up to the given time or, when that is what is varied, up to the time of the column. -/
def cellRun (i j : ℕ) : R :=
  run ((P i).insert field (W j)) (if field = "max_time" then toDouble (W j) else maxTime)

/-- The table when the cells before `(i0, j0)`, row by row, have been filled. -/
def filled (i0 j0 : ℕ) : List (List R) :=
  buf n fun i => buf k fun j =>
    if i < i0 ∨ (i = i0 ∧ j < j0) then cellRun run toDouble P W field maxTime i j else R0 i j

lemma cell_step (i j : ℕ) (hi : i < n) (hj : j < k) (mt : D) (hmt : field ≠ "max_time" → mt = maxTime) :
    ∃ mt', benchCell run isEmpty toDouble (buf n P) (buf k W) field i j
        (true, mt, filled run toDouble n k P W field maxTime R0 i j) =
      .ok (!isEmpty (cellRun run toDouble P W field maxTime i j), mt',
        filled run toDouble n k P W field maxTime R0 i (j + 1)) ∧ (field ≠ "max_time" → mt' = maxTime) := by
  have hmt' : (if field = "max_time" then toDouble (W j) else mt) =
      (if field = "max_time" then toDouble (W j) else maxTime) := by
    by_cases h : field = "max_time"
    · rw [if_pos h, if_pos h]
    · rw [if_neg h, if_neg h, hmt h]
  refine ⟨if field = "max_time" then toDouble (W j) else maxTime, ?_, fun h => if_neg h⟩
  unfold benchCell
  rw [if_pos rfl, rd_buf hi, rd_buf hj]
  show (do
    let row ← rd (filled run toDouble n k P W field maxTime R0 i j) i
    let row ← wr row j (run ((P i).insert field (W j)) (if field = "max_time" then toDouble (W j) else mt))
    let result ← wr (filled run toDouble n k P W field maxTime R0 i j) i row
    pure (!isEmpty (run ((P i).insert field (W j)) (if field = "max_time" then toDouble (W j) else mt)),
      (if field = "max_time" then toDouble (W j) else mt), result)) = _
  rw [hmt']
  unfold filled
  rw [rd_buf hi]
  show (do
    let row ← wr (buf k _) j (cellRun run toDouble P W field maxTime i j)
    _) = _
  rw [wr_buf _ hj]
  show (do
    let result ← wr (buf n _) i _
    _) = _
  rw [wr_buf _ hi]
  show Except.ok (_, _, buf n _) = Except.ok (_, _, buf n _)
  congr 3
  refine buf_congr fun a ha => ?_
  by_cases h1 : a = i
  · subst h1
    rw [if_pos rfl]
    refine buf_congr fun b hb => ?_
    by_cases h2 : b = j
    · subst h2; simp
    · rw [if_neg h2]
      have : (b < j) ↔ (b < j + 1) := by omega
      simp [this]
  · rw [if_neg h1]
    refine buf_congr fun b hb => ?_
    simp [h1]

lemma row_steps (i : ℕ) (hi : i < n) (mt : D) (hmt : field ≠ "max_time" → mt = maxTime) (j : ℕ) (hj : j ≤ k)
    (hok : ∀ b, b < j → isEmpty (cellRun run toDouble P W field maxTime i b) = false) :
    ∃ mt', forN j (true, mt, filled run toDouble n k P W field maxTime R0 i 0)
        (fun j s => benchCell run isEmpty toDouble (buf n P) (buf k W) field i j s) =
      .ok (true, mt', filled run toDouble n k P W field maxTime R0 i j) ∧ (field ≠ "max_time" → mt' = maxTime) := by
  induction j with
  | zero => exact ⟨mt, rfl, hmt⟩
  | succ j ih =>
    obtain ⟨mt1, h1, h2⟩ := ih (by omega) fun b hb => hok b (by omega)
    obtain ⟨mt2, h3, h4⟩ := cell_step run isEmpty toDouble n k P W field maxTime R0 i j hi (by omega) mt1 h2
    rw [hok j (by omega)] at h3
    refine ⟨mt2, ?_, h4⟩
    rw [forN_succ, h1]
    exact h3

lemma filled_next (i : ℕ) :
    filled run toDouble n k P W field maxTime R0 i k = filled run toDouble n k P W field maxTime R0 (i + 1) 0 := by
  unfold filled
  refine buf_congr fun a ha => buf_congr fun b hb => ?_
  have : (a < i ∨ a = i ∧ b < k) ↔ (a < i + 1 ∨ a = i + 1 ∧ b < 0) := by omega
  simp only [this]

lemma rows_steps (i : ℕ) (hi : i ≤ n)
    (hok : ∀ a b, a < i → b < k → isEmpty (cellRun run toDouble P W field maxTime a b) = false) :
    ∃ mt', forN i (true, maxTime, filled run toDouble n k P W field maxTime R0 0 0)
        (fun i s => forN k s fun j s => benchCell run isEmpty toDouble (buf n P) (buf k W) field i j s) =
      .ok (true, mt', filled run toDouble n k P W field maxTime R0 i 0) ∧ (field ≠ "max_time" → mt' = maxTime) := by
  induction i with
  | zero => exact ⟨maxTime, rfl, fun _ => rfl⟩
  | succ i ih =>
    obtain ⟨mt1, h1, h2⟩ := ih (by omega) fun a b ha hb => hok a b (by omega) hb
    obtain ⟨mt2, h3, h4⟩ := row_steps run isEmpty toDouble n k P W field maxTime R0 i (by omega) mt1 h2 k (le_refl _)
      fun b hb => hok i b (by omega) hb
    rw [filled_next] at h3
    refine ⟨mt2, ?_, h4⟩
    rw [forN_succ, h1]
    exact h3

lemma filled_start : filled run toDouble n k P W field maxTime R0 0 0 = buf n fun i => buf k (R0 i) := by
  unfold filled
  refine buf_congr fun a ha => buf_congr fun b hb => ?_
  simp

/-- When no run fails, `run_bench` returns 0 and every cell of the table holds the run of its own row and column. -/
theorem bench_table
    (hok : ∀ i j, i < n → j < k → isEmpty (cellRun run toDouble P W field maxTime i j) = false) :
    runBench run isEmpty toDouble (buf n P) (buf k W) field maxTime (buf n fun i => buf k (R0 i)) =
      .ok (0, buf n fun i => buf k fun j => cellRun run toDouble P W field maxTime i j) := by
  obtain ⟨mt, h1, _⟩ := rows_steps run isEmpty toDouble n k P W field maxTime R0 n (le_refl _) hok
  unfold runBench
  rw [buf_length, buf_length, ← filled_start run toDouble n k P W field maxTime R0, h1]
  show Except.ok ((0 : ℤ), _) = _
  refine congrArg (fun x => Except.ok ((0 : ℤ), x)) ?_
  unfold filled
  refine buf_congr fun a ha => buf_congr fun b hb => ?_
  simp [ha]

lemma stopped (i : ℕ) (mt : D) (T : List (List R)) (params : List (Params V)) (vars : List V) (j : ℕ) :
    benchCell run isEmpty toDouble params vars field i j (false, mt, T) = .ok (false, mt, T) := rfl

/-- When the run of cell `(i0, j0)` is the first, row by row, to fail, `run_bench` returns -1; the cells up to that one
hold their runs and the later ones what was in the table before: nothing else is run. -/
theorem bench_failure (i0 j0 : ℕ) (hi : i0 < n) (hj : j0 < k)
    (hbad : isEmpty (cellRun run toDouble P W field maxTime i0 j0) = true)
    (hok : ∀ i j, i < n → j < k → (i < i0 ∨ (i = i0 ∧ j < j0)) →
      isEmpty (cellRun run toDouble P W field maxTime i j) = false) :
    runBench run isEmpty toDouble (buf n P) (buf k W) field maxTime (buf n fun i => buf k (R0 i)) =
      .ok (-1, buf n fun i => buf k fun j =>
        if i < i0 ∨ (i = i0 ∧ j ≤ j0) then cellRun run toDouble P W field maxTime i j else R0 i j) := by
  obtain ⟨mt, h1, h2⟩ := rows_steps run isEmpty toDouble n k P W field maxTime R0 i0 hi.le
    fun a b ha hb => hok a b (by omega) hb (.inl ha)
  obtain ⟨mt1, h3, h4⟩ := row_steps run isEmpty toDouble n k P W field maxTime R0 i0 hi mt h2 j0 hj.le
    fun b hb => hok i0 b hi (by omega) (.inr ⟨rfl, hb⟩)
  obtain ⟨mt2, h5, _⟩ := cell_step run isEmpty toDouble n k P W field maxTime R0 i0 j0 hi hj mt1 h4
  rw [hbad] at h5
  obtain ⟨F, hF⟩ : ∃ F, F = filled run toDouble n k P W field maxTime R0 i0 (j0 + 1) := ⟨_, rfl⟩
  rw [← hF] at h5
  have inner : ∀ j, j0 + 1 ≤ j → forN j (true, mt, filled run toDouble n k P W field maxTime R0 i0 0)
      (fun j s => benchCell run isEmpty toDouble (buf n P) (buf k W) field i0 j s) = .ok (false, mt2, F) := by
    intro j hj
    induction j, hj using Nat.le_induction with
    | base => rw [forN_succ, h3]; exact h5
    | succ j _ ih => rw [forN_succ, ih]; rfl
  have idle : ∀ i j, forN j (false, mt2, F)
      (fun j s => benchCell run isEmpty toDouble (buf n P) (buf k W) field i j s) = .ok (false, mt2, F) := by
    intro i j
    induction j with
    | zero => rfl
    | succ j ih => rw [forN_succ, ih]; rfl
  have outer : ∀ i, i0 + 1 ≤ i → forN i (true, maxTime, filled run toDouble n k P W field maxTime R0 0 0)
      (fun i s => forN k s fun j s => benchCell run isEmpty toDouble (buf n P) (buf k W) field i j s) =
        .ok (false, mt2, F) := by
    intro i hi'
    induction i, hi' using Nat.le_induction with
    | base => rw [forN_succ, h1]; exact inner k (by omega)
    | succ i _ ih => rw [forN_succ, ih]; exact idle (i) k
  unfold runBench
  rw [buf_length, buf_length, ← filled_start run toDouble n k P W field maxTime R0, outer n (by omega)]
  show Except.ok ((-1 : ℤ), F) = _
  refine congrArg (fun x => Except.ok ((-1 : ℤ), x)) ?_
  rw [hF]
  unfold filled
  refine buf_congr fun a ha => buf_congr fun b hb => ?_
  simp only [Nat.lt_succ_iff]

end

/-! The end state -/

section
variable {σ φ K : Type} [Field K] [LinearOrder K] [IsStrictOrderedRing K]
variable (E : RunEnv σ φ Unit K) (clampToBox : Bool) (dt maxTime : K)

/-- One step of a run. -/
def step (s : σ) : σ := E.advise dt (if clampToBox then E.clamp s else s)

/-- The configuration of the runs of the benchmark. -/
def conf (checkStep : K) : RunConf K := ⟨dt, maxTime, 0, checkStep, false, clampToBox⟩

lemma body_quiet (cs tc t0 : K) (s : σ) (h : ¬ (0 < cs ∧ tc + cs - dt * 0.1 ≤ E.time (step E clampToBox dt s)))
    (l : List φ) :
    runBody E (conf clampToBox dt maxTime cs) ⟨s, (), tc, t0, l⟩ =
      (true, ⟨step E clampToBox dt s, (), tc, t0, l⟩) := by
  unfold runBody conf
  simp only
  unfold step at h
  rw [if_neg h, if_neg (by simp)]
  rfl

lemma body_check (cs tc : K) (t0 : K) (s : σ) (h : 0 < cs ∧ tc + cs - dt * 0.1 ≤ E.time (step E clampToBox dt s))
    (l : List φ) :
    runBody E (conf clampToBox dt maxTime cs) ⟨s, (), tc, t0, l⟩ =
      (true, ⟨step E clampToBox dt s, (), E.time (step E clampToBox dt s), t0,
        l ++ [E.getData (step E clampToBox dt s)]⟩) := by
  unfold runBody conf
  simp only
  unfold step at h
  rw [if_pos h, if_neg (by simp)]
  rfl

omit [IsStrictOrderedRing K] in
lemma loop_step (c : RunConf K) (fuel : ℕ) (r r' : RunSt σ φ Unit K) (h : E.time r.s < c.maxTime)
    (hb : runBody E c r = (true, r')) : runLoop E c (fuel + 1) r = runLoop E c fuel r' := by
  rw [runLoop, if_pos h, hb]
  rfl

omit [IsStrictOrderedRing K] in
lemma loop_stop (c : RunConf K) (fuel : ℕ) (r : RunSt σ φ Unit K) (h : c.maxTime ≤ E.time r.s) :
    runLoop E c fuel r = .ok (0, r) := by
  cases fuel <;> rw [runLoop, if_neg (not_lt.2 h)]

lemma loop_quiet (cs : K) (s0 : σ) (l : List φ) (j fuel : ℕ)
    (h1 : ∀ i, i < j → E.time ((step E clampToBox dt)^[i] s0) < maxTime)
    (h2 : ∀ i, i < j → ¬ (0 < cs ∧ E.time s0 + cs - dt * 0.1 ≤ E.time ((step E clampToBox dt)^[i + 1] s0))) :
    runLoop E (conf clampToBox dt maxTime cs) (fuel + j) ⟨s0, (), E.time s0, E.time s0, l⟩ =
      runLoop E (conf clampToBox dt maxTime cs) fuel
        ⟨(step E clampToBox dt)^[j] s0, (), E.time s0, E.time s0, l⟩ := by
  induction j generalizing fuel with
  | zero => rfl
  | succ j ih =>
    rw [show fuel + (j + 1) = (fuel + 1) + j by omega, ih (fuel + 1) (fun i hi => h1 i (by omega))
      (fun i hi => h2 i (by omega))]
    have := h2 j (by omega)
    rw [Function.iterate_succ_apply'] at this ⊢
    exact loop_step E _ fuel _ _ (h1 j (by omega)) (body_quiet E clampToBox dt maxTime cs _ _ _ this l)

omit [IsStrictOrderedRing K] in
lemma bench_loop (cs : K) (fuel : ℕ) (s0 : σ) (r : RunSt σ φ Unit K)
    (h : runLoop E (conf clampToBox dt maxTime cs) fuel ⟨s0, (), E.time s0, E.time s0, []⟩ = .ok (0, r)) :
    benchRun E clampToBox dt maxTime cs fuel s0 = .ok (r.s, r.checks.getLastD (E.getData s0)) := by
  unfold benchRun solverRun
  simp only
  rw [if_neg (by simp)]
  show (do let r ← runLoop E (conf clampToBox dt maxTime cs) fuel ⟨s0, (), E.time s0, E.time s0, []⟩; _) = _
  rw [h]
  rfl

/-- Without `check_step`, whatever the clock does: if the first time within a tenth of a step of `max_time` has reached
`max_time`, the state saved and compared at the end is the state the run ended in. -/
theorem end_state_any_clock_partial (s0 : σ) (h0 : E.time s0 = 0) (hT : 0 < maxTime) (hdt : 0 < dt) (k : ℕ) (fuel : ℕ)
    (hfuel : k + 1 ≤ fuel)
    (hbefore : ∀ i, i < k + 1 → E.time ((step E clampToBox dt)^[i] s0) < maxTime - dt * 0.1)
    (hend : maxTime ≤ E.time ((step E clampToBox dt)^[k + 1] s0)) :
    benchRun E clampToBox dt maxTime (benchCheckStep none maxTime) fuel s0 =
      .ok ((step E clampToBox dt)^[k + 1] s0, E.getData ((step E clampToBox dt)^[k + 1] s0)) := by
  have h01 : 0 < dt * (0.1 : K) := mul_pos hdt (by norm_num)
  obtain ⟨f, rfl⟩ : ∃ f, fuel = (f + 1) + k := ⟨fuel - k - 1, by omega⟩
  show benchRun E clampToBox dt maxTime maxTime _ s0 = _
  rw [bench_loop E clampToBox dt maxTime maxTime _ s0
    ⟨(step E clampToBox dt)^[k + 1] s0, (), E.time ((step E clampToBox dt)^[k + 1] s0), E.time s0,
      [] ++ [E.getData ((step E clampToBox dt)^[k + 1] s0)]⟩]
  · rfl
  · rw [loop_quiet E clampToBox dt maxTime maxTime s0 [] k (f + 1)
      (fun i hi => by have := hbefore i (by omega); linarith)
      (fun i hi hq => by
        have := hbefore (i + 1) (by omega)
        rw [h0] at hq
        have := hq.2
        linarith)]
    rw [loop_step E _ f _ _ (show E.time ((step E clampToBox dt)^[k] s0) < maxTime by
        have := hbefore k (by omega); linarith)
      (body_check E clampToBox dt maxTime maxTime (E.time s0) (E.time s0) ((step E clampToBox dt)^[k] s0) (by
        rw [← Function.iterate_succ_apply' (step E clampToBox dt), h0]
        exact ⟨hT, by linarith⟩) [])]
    rw [← Function.iterate_succ_apply' (step E clampToBox dt)]
    exact loop_stop E _ _ _ hend

/-- Whatever the clock does: if it comes within a tenth of a step of `max_time` without reaching it, the run goes on
for another step, but the state saved and compared at the end is the one before that step. -/
theorem end_state_stale_any_clock (s0 : σ) (h0 : E.time s0 = 0) (hT : 0 < maxTime) (hdt : 0 < dt) (k : ℕ) (fuel : ℕ)
    (hfuel : k + 2 ≤ fuel)
    (hbefore : ∀ i, i < k + 1 → E.time ((step E clampToBox dt)^[i] s0) < maxTime - dt * 0.1)
    (hnear : maxTime - dt * 0.1 ≤ E.time ((step E clampToBox dt)^[k + 1] s0))
    (hshort : E.time ((step E clampToBox dt)^[k + 1] s0) < maxTime)
    (hend : maxTime ≤ E.time ((step E clampToBox dt)^[k + 2] s0))
    (hone : E.time ((step E clampToBox dt)^[k + 2] s0) <
      E.time ((step E clampToBox dt)^[k + 1] s0) + maxTime - dt * 0.1) :
    benchRun E clampToBox dt maxTime (benchCheckStep none maxTime) fuel s0 =
      .ok ((step E clampToBox dt)^[k + 2] s0, E.getData ((step E clampToBox dt)^[k + 1] s0)) := by
  have h01 : 0 < dt * (0.1 : K) := mul_pos hdt (by norm_num)
  obtain ⟨f, rfl⟩ : ∃ f, fuel = (f + 2) + k := ⟨fuel - k - 2, by omega⟩
  show benchRun E clampToBox dt maxTime maxTime _ s0 = _
  rw [bench_loop E clampToBox dt maxTime maxTime _ s0
    ⟨(step E clampToBox dt)^[k + 2] s0, (), E.time ((step E clampToBox dt)^[k + 1] s0), E.time s0,
      [] ++ [E.getData ((step E clampToBox dt)^[k + 1] s0)]⟩]
  · rfl
  · rw [loop_quiet E clampToBox dt maxTime maxTime s0 [] k (f + 2)
      (fun i hi => by have := hbefore i (by omega); linarith)
      (fun i hi hq => by
        have := hbefore (i + 1) (by omega)
        rw [h0] at hq
        have := hq.2
        linarith)]
    rw [loop_step E _ (f + 1) _ _ (show E.time ((step E clampToBox dt)^[k] s0) < maxTime by
        have := hbefore k (by omega); linarith)
      (body_check E clampToBox dt maxTime maxTime (E.time s0) (E.time s0) ((step E clampToBox dt)^[k] s0) (by
        rw [← Function.iterate_succ_apply' (step E clampToBox dt), h0]
        exact ⟨hT, by linarith⟩) [])]
    rw [← Function.iterate_succ_apply' (step E clampToBox dt)]
    obtain ⟨s1, hs1⟩ : ∃ s1, s1 = (step E clampToBox dt)^[k + 1] s0 := ⟨_, rfl⟩
    rw [Function.iterate_succ_apply' (step E clampToBox dt) (k + 1), ← hs1] at hend hone ⊢
    rw [← hs1] at hshort
    have hb : runBody E (conf clampToBox dt maxTime maxTime)
        ⟨s1, (), E.time s1, E.time s0, [] ++ [E.getData s1]⟩ =
        (true, ⟨step E clampToBox dt s1, (), E.time s1, E.time s0, [] ++ [E.getData s1]⟩) := by
      exact body_quiet E clampToBox dt maxTime maxTime _ _ _ (fun h => absurd h.2 (not_le.2 hone)) _
    rw [loop_step E _ f _ _ hshort hb]
    exact loop_stop E _ _ _ hend

variable {E clampToBox dt maxTime}

omit [LinearOrder K] [IsStrictOrderedRing K] in
lemma time_iter (hclock : Clock E dt) (s0 : σ) (h0 : E.time s0 = 0) (k : ℕ) :
    E.time ((step E clampToBox dt)^[k] s0) = k * dt := by
  induction k with
  | zero => simpa using h0
  | succ k ih =>
    rw [Function.iterate_succ_apply']
    unfold step at ih ⊢
    rw [hclock.advise]
    by_cases h : clampToBox = true
    · rw [if_pos h, hclock.clamp, ih]; push_cast; ring
    · rw [if_neg h, ih]; push_cast; ring

/-- With exact arithmetic: when `max_time` is a whole number of steps, or exceeds one by more than a tenth of a step,
the end state is that of the last step. -/
theorem end_state_partial (hclock : Clock E dt) (hdt : 0 < dt) (s0 : σ) (h0 : E.time s0 = 0) (k : ℕ) (fuel : ℕ)
    (hfuel : k + 1 ≤ fuel) (hk : k * dt + dt * 0.1 < maxTime) (hk' : maxTime ≤ (k + 1) * dt) :
    benchRun E clampToBox dt maxTime (benchCheckStep none maxTime) fuel s0 =
      .ok ((step E clampToBox dt)^[k + 1] s0, E.getData ((step E clampToBox dt)^[k + 1] s0)) := by
  have h01 : 0 < dt * (0.1 : K) := mul_pos hdt (by norm_num)
  have hk0 : (0 : K) ≤ k * dt := mul_nonneg (Nat.cast_nonneg k) hdt.le
  refine end_state_any_clock_partial E clampToBox dt maxTime s0 h0 (by linarith) hdt k fuel hfuel ?_ ?_
  · intro i hi
    rw [time_iter hclock s0 h0]
    have : (i : K) * dt ≤ k * dt := mul_le_mul_of_nonneg_right (by exact_mod_cast Nat.lt_succ_iff.1 hi) hdt.le
    linarith
  · rw [time_iter hclock s0 h0]; push_cast; exact hk'

/-- With exact arithmetic: when `max_time` exceeds a whole number of at least two steps by at most a tenth of a step,
the run makes one more step than the state saved and compared at the end. -/
theorem end_state_stale (hclock : Clock E dt) (hdt : 0 < dt) (s0 : σ) (h0 : E.time s0 = 0) (k : ℕ) (hk2 : 2 ≤ k)
    (fuel : ℕ) (hfuel : k + 1 ≤ fuel) (hk : k * dt < maxTime) (hk' : maxTime ≤ k * dt + dt * 0.1) :
    benchRun E clampToBox dt maxTime (benchCheckStep none maxTime) fuel s0 =
      .ok ((step E clampToBox dt)^[k + 1] s0, E.getData ((step E clampToBox dt)^[k] s0)) := by
  have h01 : 0 < dt * (0.1 : K) := mul_pos hdt (by norm_num)
  have h02 : dt * (0.1 : K) < dt := by
    have : (0.1 : K) < 1 := by norm_num
    nlinarith
  obtain ⟨j, rfl⟩ : ∃ j, k = j + 1 := ⟨k - 1, by omega⟩
  have hj : dt ≤ (j : K) * dt := by
    have : (1 : K) ≤ j := by exact_mod_cast (by omega : 1 ≤ j)
    nlinarith
  push_cast at hk hk'
  refine end_state_stale_any_clock E clampToBox dt maxTime s0 h0 (by linarith) hdt j fuel (by omega) ?_ ?_ ?_ ?_ ?_
  · intro i hi
    rw [time_iter hclock s0 h0]
    have : (i : K) * dt ≤ j * dt := mul_le_mul_of_nonneg_right (by exact_mod_cast Nat.lt_succ_iff.1 hi) hdt.le
    linarith
  · rw [time_iter hclock s0 h0]; push_cast; linarith
  · rw [time_iter hclock s0 h0]; push_cast; linarith
  · rw [time_iter hclock s0 h0]; push_cast; linarith
  · rw [time_iter hclock s0 h0, time_iter hclock s0 h0]; push_cast; linarith

lemma loop_unchecked (cs : K) (hcs : cs ≤ 0) (fuel : ℕ) (r : RunSt σ φ Unit K) (q : ℤ × RunSt σ φ Unit K)
    (h : runLoop E (conf clampToBox dt maxTime cs) fuel r = .ok q) : q.2.checks = r.checks := by
  induction fuel generalizing r with
  | zero =>
    rw [runLoop] at h
    split at h
    · cases h
    · cases h; rfl
  | succ fuel ih =>
    rw [runLoop] at h
    split at h
    · have hb : ∃ s, runBody E (conf clampToBox dt maxTime cs) r = (true, { r with s := s }) := by
        exact ⟨step E clampToBox dt r.s,
          body_quiet E clampToBox dt maxTime cs _ _ r.s (fun h => absurd h.1 (not_lt.2 hcs)) _⟩
      obtain ⟨s, hs⟩ := hb
      simp only [hs, if_true] at h
      exact ih { r with s := s } h
    · cases h; rfl

/-- With a `check_step` that is not positive, the state saved and compared at the end is the initial one, however far
the run went. -/
theorem end_state_unchecked (cs : K) (hcs : cs ≤ 0) (fuel : ℕ) (s0 s : σ) (f : φ)
    (h : benchRun E clampToBox dt maxTime (benchCheckStep (some cs) maxTime) fuel s0 = .ok (s, f)) :
    f = E.getData s0 := by
  unfold benchRun solverRun benchCheckStep at h
  simp only [Option.getD_some] at h
  rw [if_neg (by simp)] at h
  rcases hq : runLoop E (conf clampToBox dt maxTime cs) fuel ⟨s0, (), E.time s0, E.time s0, []⟩ with e | q
  · unfold conf at hq
    rw [hq] at h
    cases h
  · have := loop_unchecked cs hcs fuel _ q hq
    unfold conf at hq
    rw [hq] at h
    cases h
    rw [this]
    rfl

end

/-! Examples -/

/-- `y' = y` as the state of an engine: the environment of the runs below. -/
def expEnv : RunEnv (Eng ℚ ℚ) ℚ Unit ℚ where
  time e := e.time
  clamp := id
  advise := eulerAdvise fun _ _ (y : ℚ) => y
  getData e := e.y
  write _ _ := (true, ())

/-- Steps of 1/4 up to time 1: the end state is (5/4)^4, that of the last step. -/
example : (benchRun expEnv false (1/4) 1 (benchCheckStep none 1) 10 ⟨1, 0, 0, 0⟩).map (fun r => (r.1.y, r.2)) =
    .ok ((5/4)^4, (5/4)^4) := by decide +kernel

/-- Steps of 1/4 up to time 1.02: the run makes 5 steps, the end state is that of step 4. -/
example : (benchRun expEnv false (1/4) (102/100) (benchCheckStep none (102/100)) 10 ⟨1, 0, 0, 0⟩).map
    (fun r => (r.1.y, r.2)) = .ok ((5/4)^5, (5/4)^4) := by decide +kernel

example : (benchRun expEnv false (1/4) (102/100) (benchCheckStep none (102/100)) 10 ⟨1, 0, 0, 0⟩) =
    .ok ((step expEnv false (1/4))^[5] ⟨1, 0, 0, 0⟩, expEnv.getData ((step expEnv false (1/4))^[4] ⟨1, 0, 0, 0⟩)) :=
  end_state_stale (K := ℚ) ⟨fun _ => rfl, fun _ => rfl⟩ (by norm_num) _ rfl 4 (by norm_num) 10 (by norm_num)
    (by norm_num) (by norm_num)

example : (benchRun expEnv false (1/4) 1 (benchCheckStep none 1) 10 ⟨1, 0, 0, 0⟩) =
    .ok ((step expEnv false (1/4))^[4] ⟨1, 0, 0, 0⟩, expEnv.getData ((step expEnv false (1/4))^[4] ⟨1, 0, 0, 0⟩)) :=
  end_state_partial (K := ℚ) ⟨fun _ => rfl, fun _ => rfl⟩ (by norm_num) _ rfl 3 10 (by norm_num)
    (by norm_num) (by norm_num)

/-- A positive number below 2 rounded to a double: 53 significant bits, ties to even. -/
def toDouble53 (x : ℚ) : ℚ :=
  let l : ℤ := (Nat.log2 x.num.natAbs : ℤ) - Nat.log2 x.den
  let l := if 1 ≤ x * 2 ^ (-l).toNat then l else l - 1
  let u : ℚ := 1 / 2 ^ (52 - l).toNat
  let m := (x / u).floor
  let r := x / u - m
  (if r < 1 / 2 ∨ (r = 1 / 2 ∧ m % 2 = 0) then m else m + 1) * u

/-- The double nearest to 0.1. -/
example : toDouble53 (1 / 10) = 3602879701896397 / 36028797018963968 := by decide +kernel

/-- A clock in double precision. -/
def doubleEnv : RunEnv (Eng ℚ ℚ) ℚ Unit ℚ where
  time e := e.time
  clamp := id
  advise dt e := { e with y := e.y + e.y / 10, time := toDouble53 (e.time + dt) }
  getData e := e.y
  write _ _ := (true, ())

/-- Steps of 0.1 up to time 1 in double precision: after ten steps the clock shows 0.99999999999999989, so the run makes
eleven, and the end state is that of step 10. -/
example : (benchRun doubleEnv false (toDouble53 (1/10)) 1 (benchCheckStep none 1) 20 ⟨1, 0, 0, 0⟩).map
    (fun r => (r.1.y, r.2)) = .ok ((11/10)^11, (11/10)^10) := by decide +kernel

example : benchRun doubleEnv false (toDouble53 (1/10)) 1 (benchCheckStep none 1) 20 ⟨1, 0, 0, 0⟩ =
    .ok ((step doubleEnv false (toDouble53 (1/10)))^[11] ⟨1, 0, 0, 0⟩,
      doubleEnv.getData ((step doubleEnv false (toDouble53 (1/10)))^[10] ⟨1, 0, 0, 0⟩)) :=
  end_state_stale_any_clock (K := ℚ) doubleEnv false (toDouble53 (1/10)) 1 ⟨1, 0, 0, 0⟩ rfl (by norm_num)
    (by decide +kernel) 9 20 (by norm_num) (by decide +kernel) (by decide +kernel) (by decide +kernel)
    (by decide +kernel) (by decide +kernel)

example : (benchRun expEnv false (1/4) 1 (benchCheckStep (some 0) 1) 10 ⟨1, 0, 0, 0⟩).map (fun r => (r.1.y, r.2)) =
    .ok ((5/4)^4, 1) := by decide +kernel

/-- Two rows, two columns; the third run fails: the fourth cell is left alone. -/
example :
    let run : Params ℕ → ℕ → Option ℕ := fun p t => (p "x").bind fun x => (p "y").bind fun y =>
      if x = 2 ∧ y = 10 then none else some (x * 1000 + y + t)
    runBench run (·.isNone) id [fun k => if k = "x" then some 1 else none, fun k => if k = "x" then some 2 else none]
      [10, 20] "y" 100 [[some 0, some 0], [some 0, some 0]] =
      .ok (-1, [[some 1110, some 1120], [none, some 0]]) := by decide +kernel

/-- Varying `max_time`. -/
example :
    let run : Params ℕ → ℕ → Option ℕ := fun p t => (p "x").map (· * 1000 + t)
    runBench run (·.isNone) id [fun k => if k = "x" then some 1 else none, fun k => if k = "x" then some 2 else none]
      [10, 20] "max_time" 100 [[some 0, some 0], [some 0, some 0]] =
      .ok (0, [[some 1010, some 1020], [some 2010, some 2020]]) := by decide +kernel

/-- One body expected at the origin and found at a distance of 3 on day 365, of 5 in the year 3003: the table has one
column, the minimum is that of the first visit. -/
example : ∃ c, (Comparator.loadInit (true, buf 1 fun _ => 0)).2.visits
      (shown 1 [(365, fun _ => ⟨3, 0, 0⟩), (365 * 3003, fun _ => ⟨3, 4, 0⟩)]) = .ok c ∧
    c.variable' = [3003] ∧ c.minDr = 3 ∧ c.minDrTime = 1 := by
  have d3 : dist3 ⟨3, 0, 0⟩ 0 = 3 := by
    show √(((3 : ℝ) - 0) ^ 2 + (0 - 0) ^ 2 + (0 - 0) ^ 2) = 3
    rw [show (((3 : ℝ) - 0) ^ 2 + (0 - 0) ^ 2 + (0 - 0) ^ 2) = 3 ^ 2 by norm_num]
    exact Real.sqrt_sq (by norm_num)
  have d5 : dist3 ⟨3, 4, 0⟩ 0 = 5 := by
    show √(((3 : ℝ) - 0) ^ 2 + (4 - 0) ^ 2 + (0 - 0) ^ 2) = 5
    rw [show (((3 : ℝ) - 0) ^ 2 + (4 - 0) ^ 2 + (0 - 0) ^ 2) = 5 ^ 2 by norm_num]
    exact Real.sqrt_sq (by norm_num)
  have m3 : mean 1 (fun _ => ⟨3, 0, 0⟩) (fun _ => 0) = 3 := by simp [mean, d3]
  have m5 : mean 1 (fun _ => ⟨3, 4, 0⟩) (fun _ => 0) = 5 := by simp [mean, d5]
  obtain ⟨c, h1, h2, _⟩ := comparator_table_partial (n := 1) (by norm_num) (fun _ => 0) true
    [(365, fun _ => ⟨3, 0, 0⟩), (365 * 3003, fun _ => ⟨3, 4, 0⟩)]
  obtain ⟨c', h1', l1, v, l2, h3, h4, h5, h6, _⟩ := comparator_minimum_partial (n := 1) (by norm_num) (fun _ => 0) true
    [(365, fun _ => ⟨3, 0, 0⟩), (365 * 3003, fun _ => ⟨3, 4, 0⟩)]
    ⟨(365, fun _ => ⟨3, 0, 0⟩), by simp, by rw [m3]; norm_num⟩
  rw [h1] at h1'
  cases h1'
  refine ⟨c, h1, ?_, ?_⟩
  · rw [h2]
    unfold late years
    norm_num
  · have hm := h6 (365, fun _ => ⟨3, 0, 0⟩) (by simp)
    have hv : v ∈ ([(365, fun _ => ⟨3, 0, 0⟩), (365 * 3003, fun _ => ⟨3, 4, 0⟩)] : List Visit) := by rw [h3]; simp
    simp only [List.mem_cons, List.not_mem_nil, or_false] at hv
    rcases hv with rfl | rfl
    · rw [m3] at h4
      exact ⟨h4, by rw [h5]; norm_num⟩
    · rw [m5] at h4
      rw [h4, m3] at hm
      norm_num at hm

/-- An expected state that could not be read. -/
example : (Comparator.loadInit (false, [])).2.visits [(0, [0])] = .error .oob :=
  comparator_fewer (false, []) 0 [0] [] (by simp)

/-- An expected state with a body too many. -/
example : ∃ c, (Comparator.loadInit (true, buf 2 fun _ => 0)).2.visits (shown 1 [(365 * 3003, fun _ => 0)]) = .ok c ∧
    printTable c.params c.variable'.length c.result = .error .oob :=
  comparator_more (by norm_num) (by norm_num) _ true _ ⟨(365 * 3003, fun _ => 0), by simp, by norm_num⟩

/-- Two visits of one body. -/
example : ∃ c, OrbitDump.visits (shown 1 [(365, fun _ => 0), (730, fun _ => 0)]) {} = .ok c ∧
    c.variable' = [1, 2] := by
  obtain ⟨c, h1, h2, _⟩ := orbit_table (n := 1) (by norm_num) (365, fun _ => 0) [(730, fun _ => 0)]
  refine ⟨c, h1, ?_⟩
  rw [h2]
  simp only [List.map_cons, List.map_nil, years]
  norm_num

end NB.C92
