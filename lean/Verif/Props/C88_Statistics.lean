import Verif.Model.Statistics
import Verif.Props.C11_Diagnostics
import Verif.Props.C12_LinearInvariants
import Verif.Props.C35_RunLoop

/-
C88: what the lines of `print_statistics` say about a run.  Exact arithmetic.
-/

namespace NB.C88

open NB.C11 (bodies)
open NB.C08 (summation_exact)
open RunSpec

/-! ### Specification -/

/-- What an observer sees of the simulated system at one moment. -/
structure Snap where
  p : ℕ → Vec3 ℝ
  v : ℕ → Vec3 ℝ
  t : ℝ
  step : ℕ
  computed : ℕ

/-- Length of a vector. -/
noncomputable def len (u : Fin 3 → ℝ) : ℝ := Real.sqrt (u 0 ^ 2 + u 1 ^ 2 + u 2 ^ 2)

/-- Total momentum. -/
noncomputable def P (n : ℕ) (w : ℕ → ℝ) (s : Snap) (k : Fin 3) : ℝ := ∑ i ∈ Finset.range n, w i * (s.v i).coord k

/-- Total angular momentum. -/
noncomputable def L (n : ℕ) (w : ℕ → ℝ) (s : Snap) (k : Fin 3) : ℝ :=
  ∑ i ∈ Finset.range n, w i * ((s.p i).coord (k + 1) * (s.v i).coord (k + 2) - (s.p i).coord (k + 2) * (s.v i).coord (k + 1))

/-- Centre of mass. -/
noncomputable def centre (n : ℕ) (w : ℕ → ℝ) (s : Snap) (k : Fin 3) : ℝ :=
  (∑ i ∈ Finset.range n, w i * (s.p i).coord k) / ∑ i ∈ Finset.range n, w i

/-- Total energy. -/
noncomputable def energy (n : ℕ) (w : ℕ → ℝ) (s : Snap) : ℝ :=
  ∑ i ∈ Finset.range n, w i * ((s.v i).x ^ 2 + (s.v i).y ^ 2 + (s.v i).z ^ 2) / 2 +
    Spec.potential 1e-8 n (fun i => (s.p i).coord) w

/-- `r` is the deviation `a` from a value of size `b` in percent: a number only if `b` is not zero. -/
def Percent (a b : ℝ) : Quo → Prop
  | .num r => b ≠ 0 ∧ r * b = 100 * a
  | .inf => b = 0 ∧ a ≠ 0
  | .nan => b = 0 ∧ a = 0

/-- The line about the snapshot `s` when the first line of the object was about `f`. -/
structure Line (n : ℕ) (w : ℕ → ℝ) (cl : List Char) (f s : Snap) (l : StatLine) : Prop where
  step : l.step = s.step
  time : l.time = s.t
  count : l.computeCount = s.computed
  dP : 'P' ∈ cl → ∃ r, l.dP = some r ∧ Percent (len (P n w s - P n w f)) (len (P n w f)) r
  dL : 'L' ∈ cl → ∃ r, l.dL = some r ∧ Percent (len (L n w s - L n w f)) (len (L n w f)) r
  dE : 'E' ∈ cl → ∃ r, l.dE = some r ∧ Percent |energy n w s - energy n w f| |energy n w f| r
  vcm : 'V' ∈ cl → s.t ≠ 0 → ∃ r, l.vcm = some (.num r) ∧ r * |s.t| = len (centre n w s - centre n w f)
  noP : 'P' ∉ cl → l.dP = none
  noL : 'L' ∉ cl → l.dL = none
  noE : 'E' ∉ cl → l.dE = none
  noV : 'V' ∉ cl → l.vcm = none

/-- The entry of a snapshot in the list of reports. -/
def entry (n : ℕ) (w : ℕ → ℝ) (s : Snap) : ℕ × BodyData ℝ × ℝ × ℕ := (s.computed, bodies n s.p s.v w, s.t, s.step)

/-! ### The line -/

lemma length_eq (u : Vec3 ℝ) : u.length = len u.coord := by
  simp only [Vec3.length, Vec3.dot, len, real_sqrt, Vec3.coord_zero, Vec3.coord_one, Vec3.coord_two]
  congr 1; ring

lemma len_nonneg (u : Fin 3 → ℝ) : 0 ≤ len u := Real.sqrt_nonneg _

lemma coord_sub (u v : Vec3 ℝ) : (u - v).coord = u.coord - v.coord := by
  funext k; fin_cases k <;> rfl

lemma coord_sdiv (u : Vec3 ℝ) (a : ℝ) : (u.sdiv a).coord = fun k => u.coord k / a := by
  funext k; fin_cases k <;> rfl

lemma len_div (u : Fin 3 → ℝ) (a : ℝ) : len (fun k => u k / a) = len u / |a| := by
  unfold len
  rw [← Real.sqrt_sq_eq_abs, ← Real.sqrt_div' _ (sq_nonneg a)]
  congr 1
  simp only [div_pow]
  ring

lemma len_smul (u : Fin 3 → ℝ) (a : ℝ) : len (fun k => a * u k) = |a| * len u := by
  unfold len
  rw [← Real.sqrt_sq_eq_abs, ← Real.sqrt_mul (sq_nonneg a)]
  congr 1
  ring

lemma percent_spec (a b : ℝ) : Percent |a| |b| (percent a b) := by
  unfold percent quo
  by_cases hb : |b| = 0
  · rw [if_pos hb]
    by_cases ha : |100 * a| = 0
    · rw [if_pos ha]
      refine ⟨hb, ?_⟩
      rw [abs_mul] at ha
      rcases mul_eq_zero.1 ha with h | h
      · norm_num at h
      · exact h
    · rw [if_neg ha]
      refine ⟨hb, fun h => ha ?_⟩
      rw [abs_mul, h, mul_zero]
  · rw [if_neg hb]
    refine ⟨hb, ?_⟩
    rw [div_mul_cancel₀ _ hb, abs_mul]
    norm_num

/-- The diagnostics of a snapshot. -/
structure DiagOf (n : ℕ) (w : ℕ → ℝ) (bP bL bE bV : Bool) (s : Snap) (d : Diagnostics ℝ) : Prop where
  p : bP = true → d.impulce.coord = P n w s
  l : bL = true → d.impulceMoment.coord = L n w s
  e : bE = true → d.kinetic + d.potential = energy n w s
  c : bV = true → d.massCenter.coord = centre n w s

lemma diag_exists (n : ℕ) (w : ℕ → ℝ) (hw : ∑ i ∈ Finset.range n, w i ≠ 0) (bP bL bE bV : Bool) (s : Snap) :
    ∃ d, diagnostics bP bL bE bV n (bodies n s.p s.v w) = .ok d ∧ DiagOf n w bP bL bE bV s d := by
  obtain ⟨D, hD, h1, h2, h3, h4, h5, h6, h7⟩ := C11.diagnostics_are_textbook_sums n s.p s.v w hw
  obtain ⟨q, hq, hpot⟩ := C11.potential_counts_each_pair_once n s.p s.v w
  have hP := summation_exact (fun i => (s.v i).smul (w i)) (impulceProxy (bodies n s.p s.v w)) n
    (fun i hi => by simp [impulceProxy, bodies, rd_buf hi])
  have hL := summation_exact (fun i => (s.p i).cross ((s.v i).smul (w i))) (impulceMomentProxy (bodies n s.p s.v w)) n
    (fun i hi => by simp [impulceMomentProxy, bodies, rd_buf hi])
  have hK := summation_exact (fun i => (s.v i).norm * w i) (kineticEnergyProxy (bodies n s.p s.v w)) n
    (fun i hi => by simp [kineticEnergyProxy, bodies, rd_buf hi])
  have hM := summation_exact w (rd (bodies n s.p s.v w).mass) n (fun i hi => by simp [bodies, rd_buf hi])
  have hC := summation_exact (fun i => (s.p i).smul (w i)) (massCenterProxy (bodies n s.p s.v w)) n
    (fun i hi => by simp [massCenterProxy, bodies, rd_buf hi])
  have hd : diagnostics bP bL bE bV n (bodies n s.p s.v w) =
      .ok { impulce := if bP then D.impulce else 0, impulceMoment := if bL then D.impulceMoment else 0,
            massCenter := if bV then D.massCenter else 0, kinetic := if bE then D.kinetic else 0,
            potential := if bE then D.potential else 0 } := by
    simp only [diagnostics, if_true, hP, hL, hK, hq, hM, hC, res_ok_bind, res_pure] at hD
    have hD := Except.ok.inj hD
    subst hD
    cases bP <;> cases bL <;> cases bE <;> cases bV <;>
      simp [diagnostics, hP, hL, hK, hq, hM, hC, res_ok_bind, res_pure]
  refine ⟨_, hd, ⟨?_, ?_, ?_, ?_⟩⟩
  · intro h
    funext k
    simp only [h, if_true]
    exact h1 k
  · intro h
    funext k
    simp only [h, if_true]
    fin_cases k
    · exact h2
    · exact h3
    · exact h4
  · intro h
    simp only [h, if_true]
    rw [h6, h7]
    rfl
  · intro h
    funext k
    simp only [h, if_true]
    exact (eq_div_iff hw).2 (h5 k)

lemma print_line {n : ℕ} {w : ℕ → ℝ} (hw : ∑ i ∈ Finset.range n, w i ≠ 0) (o : StatObj) (hn : o.count = n) (f s : Snap)
    (hf : o.stat.initialComputed = true → DiagOf n w (decide ('P' ∈ o.checkList)) (decide ('L' ∈ o.checkList))
      (decide ('E' ∈ o.checkList)) (decide ('V' ∈ o.checkList)) f o.stat.initial)
    (hs : o.stat.initialComputed = false → f = s) :
    ∃ l o', printStatistics s.computed { o with bodies := bodies n s.p s.v w, time := s.t, step := s.step } = .ok (l, o') ∧
      Line n w o.checkList f s l ∧ l.sinceLast = (s.computed + (2 ^ 64 - o.prevComputeCount)) % 2 ^ 64 ∧
      o'.prevComputeCount = s.computed ∧ o'.count = n ∧ o'.checkList = o.checkList ∧ o'.stat.initialComputed = true ∧
      DiagOf n w (decide ('P' ∈ o.checkList)) (decide ('L' ∈ o.checkList))
        (decide ('E' ∈ o.checkList)) (decide ('V' ∈ o.checkList)) f o'.stat.initial := by
  obtain ⟨d, hd, hD⟩ := diag_exists n w hw (decide ('P' ∈ o.checkList)) (decide ('L' ∈ o.checkList))
    (decide ('E' ∈ o.checkList)) (decide ('V' ∈ o.checkList)) s
  have hI : DiagOf n w (decide ('P' ∈ o.checkList)) (decide ('L' ∈ o.checkList)) (decide ('E' ∈ o.checkList))
      (decide ('V' ∈ o.checkList)) f (if o.stat.initialComputed = true then o.stat.initial else d) := by
    by_cases h : o.stat.initialComputed = true
    · rw [if_pos h]; exact hf h
    · rw [if_neg h, hs (by simpa using h)]; exact hD
  subst hn
  simp only [printStatistics, hd, res_ok_bind, res_pure]
  refine ⟨_, _, rfl, ⟨rfl, rfl, rfl, ?_, ?_, ?_, ?_, ?_, ?_, ?_, ?_⟩, rfl, rfl, rfl, rfl, rfl, hI⟩
  · intro h
    have hb : decide ('P' ∈ o.checkList) = true := by simpa using h
    refine ⟨_, if_pos hb, ?_⟩
    have := percent_spec (d.impulce - (if o.stat.initialComputed = true then o.stat.initial else d).impulce).length
      (if o.stat.initialComputed = true then o.stat.initial else d).impulce.length
    rw [length_eq, length_eq, coord_sub, hD.p hb, hI.p hb, abs_of_nonneg (len_nonneg _), abs_of_nonneg (len_nonneg _)] at this
    simp only [statUpdate, hb, if_true]
    rw [length_eq, length_eq, coord_sub, hD.p hb, hI.p hb]
    exact this
  · intro h
    have hb : decide ('L' ∈ o.checkList) = true := by simpa using h
    refine ⟨_, if_pos hb, ?_⟩
    have := percent_spec (d.impulceMoment - (if o.stat.initialComputed = true then o.stat.initial else d).impulceMoment).length
      (if o.stat.initialComputed = true then o.stat.initial else d).impulceMoment.length
    rw [length_eq, length_eq, coord_sub, hD.l hb, hI.l hb, abs_of_nonneg (len_nonneg _), abs_of_nonneg (len_nonneg _)] at this
    simp only [statUpdate, hb, if_true]
    rw [length_eq, length_eq, coord_sub, hD.l hb, hI.l hb]
    exact this
  · intro h
    have hb : decide ('E' ∈ o.checkList) = true := by simpa using h
    refine ⟨_, if_pos hb, ?_⟩
    simp only [statUpdate, hb, if_true]
    rw [hD.e hb, hI.e hb]
    exact percent_spec _ _
  · intro h ht
    have hb : decide ('V' ∈ o.checkList) = true := by simpa using h
    refine ⟨_, (if_pos hb).trans (congrArg some (if_neg ht)), ?_⟩
    simp only [statUpdate, hb, if_true]
    rw [length_eq, coord_sdiv, len_div, coord_sub, hD.c hb, hI.c hb, div_mul_cancel₀ _ (abs_ne_zero.2 ht)]
  all_goals
    intro h
    exact if_neg (by simpa using h)

/-- **Every line describes its moment, relative to the first line.**  For any number of bodies of any masses of total mass not zero, any check list and any
sequence of reports of a new object: the run of reports succeeds with one line per report; a line carries step, time and number of computations of its
moment; for the letters asked for, the deviations of momentum, angular momentum and energy in percent of their values at the *first report* (not a
number where that value is zero), and as speed of the centre of mass its way since the first report divided by the *time on the clock*. -/
theorem lines_of_reports {n : ℕ} {w : ℕ → ℝ} (hw : ∑ i ∈ Finset.range n, w i ≠ 0) (o : StatObj) (hn : o.count = n)
    (hnew : o.stat.initialComputed = false) (f : Snap) (later : List Snap) :
    ∃ ls o', reports o ((f :: later).map (entry n w)) = .ok (ls, o') ∧
      List.Forall₂ (Line n w o.checkList f) (f :: later) ls := by
  have key : ∀ (l : List Snap) (o : StatObj), o.count = n → (o.stat.initialComputed = true ∧
      DiagOf n w (decide ('P' ∈ o.checkList)) (decide ('L' ∈ o.checkList))
      (decide ('E' ∈ o.checkList)) (decide ('V' ∈ o.checkList)) f o.stat.initial) →
      ∃ ls o', reports o (l.map (entry n w)) = .ok (ls, o') ∧ List.Forall₂ (Line n w o.checkList f) l ls := by
    intro l
    induction l with
    | nil => intro o _ _; exact ⟨[], o, rfl, .nil⟩
    | cons s l ih =>
      intro o hn ho
      obtain ⟨x, o', hx, hl, _, _, hn', hcl, hi, hd⟩ := print_line hw o hn f s (fun _ => ho.2) (fun h => by simp [ho.1] at h)
      obtain ⟨ls, o'', hr, hall⟩ := ih o' hn' ⟨hi, by rw [hcl]; exact hd⟩
      refine ⟨x :: ls, o'', ?_, .cons hl (by rw [← hcl]; exact hall)⟩
      simp only [List.map_cons, entry, reports, hx, res_ok_bind]
      have hr' : reports o' (l.map (entry n w)) = .ok (ls, o'') := hr
      rw [hr']
      rfl
  obtain ⟨x, o', hx, hl, _, _, hn', hcl, hi, hd⟩ := print_line hw o hn f f (fun h => by simp [hnew] at h) (fun _ => rfl)
  obtain ⟨ls, o'', hr, hall⟩ := key later o' hn' ⟨hi, by rw [hcl]; exact hd⟩
  refine ⟨x :: ls, o'', ?_, .cons hl (by rw [← hcl]; exact hall)⟩
  simp only [List.map_cons, entry, reports, hx, res_ok_bind]
  have hr' : reports o' (later.map (entry n w)) = .ok (ls, o'') := hr
  rw [hr']
  rfl

lemma len_eq_zero {u : Fin 3 → ℝ} : len u = 0 ↔ u = 0 := by
  unfold len
  rw [Real.sqrt_eq_zero (by positivity)]
  constructor
  · intro h
    have h0 : u 0 ^ 2 = 0 := by nlinarith [sq_nonneg (u 0), sq_nonneg (u 1), sq_nonneg (u 2)]
    have h1 : u 1 ^ 2 = 0 := by nlinarith [sq_nonneg (u 0), sq_nonneg (u 1), sq_nonneg (u 2)]
    have h2 : u 2 ^ 2 = 0 := by nlinarith [sq_nonneg (u 0), sq_nonneg (u 1), sq_nonneg (u 2)]
    funext k
    fin_cases k
    · simpa using h0
    · simpa using h1
    · simpa using h2
  · rintro rfl; simp

/-- **A conserved quantity is reported as conserved only if it is not zero**: where momentum, angular momentum or energy is what it was at the first report,
the line says 0 percent if it is not zero, and "not a number" if it is zero - for a system at rest as a whole, which conserves its momentum, no line ever
says so. -/
theorem conserved_partial {n : ℕ} {w : ℕ → ℝ} {cl : List Char} {f s : Snap} {l : StatLine} (h : Line n w cl f s l) :
    ('P' ∈ cl → P n w s = P n w f → (P n w f ≠ 0 → l.dP = some (.num 0)) ∧ (P n w f = 0 → l.dP = some .nan)) ∧
    ('L' ∈ cl → L n w s = L n w f → (L n w f ≠ 0 → l.dL = some (.num 0)) ∧ (L n w f = 0 → l.dL = some .nan)) ∧
    ('E' ∈ cl → energy n w s = energy n w f →
      (energy n w f ≠ 0 → l.dE = some (.num 0)) ∧ (energy n w f = 0 → l.dE = some .nan)) := by
  have key : ∀ {b : ℝ} {r : Quo}, Percent 0 b r → (b ≠ 0 → r = .num 0) ∧ (b = 0 → r = .nan) := by
    intro b r hr
    cases r with
    | nan => exact ⟨fun hb => absurd hr.1 hb, fun _ => rfl⟩
    | inf => exact absurd rfl hr.2
    | num x =>
      refine ⟨fun hb => ?_, fun hb => absurd hb hr.1⟩
      have := hr.2
      rw [mul_zero] at this
      rw [(mul_eq_zero.1 this).resolve_right hb]
  refine ⟨fun hc e => ?_, fun hc e => ?_, fun hc e => ?_⟩
  · obtain ⟨r, hr, hp⟩ := h.dP hc
    rw [e, sub_self, len_eq_zero.2 rfl] at hp
    rw [hr]
    exact ⟨fun hb => by rw [(key hp).1 (fun h0 => hb (len_eq_zero.1 h0))],
      fun hb => by rw [(key hp).2 (len_eq_zero.2 hb)]⟩
  · obtain ⟨r, hr, hp⟩ := h.dL hc
    rw [e, sub_self, len_eq_zero.2 rfl] at hp
    rw [hr]
    exact ⟨fun hb => by rw [(key hp).1 (fun h0 => hb (len_eq_zero.1 h0))],
      fun hb => by rw [(key hp).2 (len_eq_zero.2 hb)]⟩
  · obtain ⟨r, hr, hp⟩ := h.dE hc
    rw [e, sub_self, abs_zero] at hp
    rw [hr]
    exact ⟨fun hb => by rw [(key hp).1 (abs_ne_zero.2 hb)], fun hb => by rw [(key hp).2 (abs_eq_zero.2 hb)]⟩

/-- **The speed of the centre of mass.**  Let the centre of mass move uniformly with velocity `V` between the first report and this one.  The printed speed
is the true one if the first report was at time 0, as in the player.  If the first report was later, at `t₁ > 0`, as in every run, it is the true one times
`(t - t₁) / t`: too small, and 0 at the first report. -/
theorem centre_speed_partial {n : ℕ} {w : ℕ → ℝ} {cl : List Char} {f s : Snap} {l : StatLine} (h : Line n w cl f s l) (hV : 'V' ∈ cl)
    (V : Fin 3 → ℝ) (hc : centre n w s = fun k => centre n w f k + (s.t - f.t) * V k) (hft : 0 ≤ f.t) (hst : f.t ≤ s.t)
    (hs : 0 < s.t) :
    (∃ r, l.vcm = some (.num r) ∧ r = len V * ((s.t - f.t) / s.t)) ∧
    (f.t = 0 → l.vcm = some (.num (len V))) ∧
    (0 < f.t → V ≠ 0 → ∃ r, l.vcm = some (.num r) ∧ r < len V) := by
  obtain ⟨r, hr, he⟩ := h.vcm hV hs.ne'
  have hd : centre n w s - centre n w f = fun k => (s.t - f.t) * V k := by
    funext k
    rw [Pi.sub_apply, hc]
    ring
  rw [hd, len_smul, abs_of_pos hs, abs_of_nonneg (by linarith)] at he
  have hr' : r = len V * ((s.t - f.t) / s.t) := by
    rw [← mul_div_assoc, eq_div_iff hs.ne', he]; ring
  refine ⟨⟨r, hr, hr'⟩, fun h0 => ?_, fun h0 hV0 => ⟨r, hr, ?_⟩⟩
  · rw [hr, hr', h0, sub_zero, div_self hs.ne', mul_one]
  · have hpos : 0 < len V := lt_of_le_of_ne (len_nonneg _) fun h => hV0 (len_eq_zero.1 h.symm)
    rw [hr']
    have : (s.t - f.t) / s.t < 1 := (div_lt_one hs).2 (by linarith)
    nlinarith

/-- **The number of computations since the last report**: with counts of an engine that do not decrease and fit into `size_t`, the numbers printed as
`SC` are the differences of consecutive counts. -/
theorem since_last {n : ℕ} {w : ℕ → ℝ} (hw : ∑ i ∈ Finset.range n, w i ≠ 0) (snaps : List Snap) :
    ∀ (o : StatObj), o.count = n → (∀ s ∈ snaps, s.computed < 2 ^ 64) →
    List.Pairwise (· ≤ ·) (o.prevComputeCount :: snaps.map (·.computed)) →
    ∀ ls o', reports o (snaps.map (entry n w)) = .ok (ls, o') →
      ls.map (·.sinceLast) = List.zipWith (· - ·) (snaps.map (·.computed)) (o.prevComputeCount :: snaps.map (·.computed)) ∧
      (ls.map (·.sinceLast)).sum + o.prevComputeCount = (snaps.map (·.computed)).getLastD o.prevComputeCount := by
  induction snaps with
  | nil =>
    intro o _ _ _ ls o' h
    cases h
    simp
  | cons s snaps ih =>
    intro o hn hb hp ls o' h
    obtain ⟨d, hd, hD⟩ := diag_exists n w hw (decide ('P' ∈ o.checkList)) (decide ('L' ∈ o.checkList))
      (decide ('E' ∈ o.checkList)) (decide ('V' ∈ o.checkList)) s
    have hcount : ∃ l o', printStatistics s.computed { o with bodies := bodies n s.p s.v w, time := s.t, step := s.step } = .ok (l, o') ∧
        l.sinceLast = (s.computed + (2 ^ 64 - o.prevComputeCount)) % 2 ^ 64 ∧ o'.prevComputeCount = s.computed ∧ o'.count = n := by
      subst hn
      simp only [printStatistics, hd, res_ok_bind, res_pure]
      exact ⟨_, _, rfl, rfl, rfl, rfl⟩
    obtain ⟨x, o1, hx, hsl, hpc, hn1⟩ := hcount
    have hle : o.prevComputeCount ≤ s.computed := by
      have := (List.pairwise_cons.1 hp).1 s.computed (by simp)
      exact this
    have hlt := hb s (by simp)
    have hsub : x.sinceLast = s.computed - o.prevComputeCount := by
      rw [hsl]
      have : s.computed + (2 ^ 64 - o.prevComputeCount) = (s.computed - o.prevComputeCount) + 2 ^ 64 := by omega
      rw [this, Nat.add_mod_right, Nat.mod_eq_of_lt (by omega)]
    simp only [List.map_cons, entry, reports, hx, res_ok_bind] at h
    cases hr : reports o1 (snaps.map (entry n w)) with
    | error e =>
      rw [hr] at h
      cases h
    | ok q =>
      rw [hr] at h
      cases h
      obtain ⟨h1, h2⟩ := ih o1 hn1 (fun s hs => hb s (by simp [hs]))
        (by rw [hpc]; exact (List.pairwise_cons.1 hp).2) q.1 q.2 hr
      rw [hpc] at h1 h2
      refine ⟨?_, ?_⟩
      · simp only [List.map_cons, List.zipWith_cons_cons, hsub, h1]
      · simp only [List.map_cons, List.sum_cons, hsub, List.getLastD_cons]
        rw [← h2]
        omega

/-- A new object for two bodies. -/
def fresh : StatObj :=
  ⟨2, ⟨[], [], []⟩, 0, 0, ['P', 'L', 'V'], ⟨false, ⟨⟨0, 0, 0⟩, ⟨0, 0, 0⟩, ⟨0, 0, 0⟩, 0, 0⟩, ⟨⟨0, 0, 0⟩, ⟨0, 0, 0⟩, ⟨0, 0, 0⟩, 0, 0⟩⟩, 0⟩

/-- Two equal masses that go apart along `x` with opposite velocities, seen at times 1 and 2 after 3 and 7 computations. -/
def apart (t : ℝ) (step cc : ℕ) : Snap := ⟨fun i => if i = 0 then ⟨t, 0, 0⟩ else ⟨-t, 0, 0⟩, fun i => if i = 0 then ⟨1, 0, 0⟩ else ⟨-1, 0, 0⟩, t, step, cc⟩

/-- Their momentum stays zero, and both lines say "not a number"; the centre of mass rests, and both lines say so; 3 and then 4 computations. -/
example : ∃ ls o', reports fresh ([apart 1 1 3, apart 2 2 7].map (entry 2 fun _ => 1)) = .ok (ls, o') ∧
    ls.map (·.dP) = [some .nan, some .nan] ∧ ls.map (·.vcm) = [some (.num 0), some (.num 0)] ∧ ls.map (·.sinceLast) = [3, 4] := by
  have hw : ∑ i ∈ Finset.range 2, (fun _ : ℕ => (1 : ℝ)) i ≠ 0 := by norm_num
  obtain ⟨ls, o', hr, hall⟩ := lines_of_reports (n := 2) hw fresh rfl rfl (apart 1 1 3) [apart 2 2 7]
  have hP : ∀ t a b, P 2 (fun _ => 1) (apart t a b) = 0 := by
    intro t a b
    funext k
    fin_cases k <;> simp [P, apart, Finset.sum_range_succ, Vec3.coord]
  have hC : ∀ t a b, centre 2 (fun _ => 1) (apart t a b) = 0 := by
    intro t a b
    funext k
    fin_cases k <;> simp [centre, apart, Finset.sum_range_succ, Vec3.coord]
  refine ⟨ls, o', hr, ?_⟩
  have hs := (since_last hw [apart 1 1 3, apart 2 2 7] fresh rfl (by simp [apart]) (by simp [fresh, apart]) ls o' hr).1
  match ls, hall with
  | [x, y], .cons hx (.cons hy .nil) =>
    have h1 := (((conserved_partial hx).1 (by simp [fresh])) rfl).2 (hP _ _ _)
    have h2 := (((conserved_partial hy).1 (by simp [fresh])) ((hP _ _ _).trans (hP _ _ _).symm)).2 (hP _ _ _)
    have hz : len (0 : Fin 3 → ℝ) = 0 := len_eq_zero.2 rfl
    obtain ⟨⟨r, h3, e3⟩, -⟩ := centre_speed_partial hx (by simp [fresh]) 0 (by funext k; rw [hC]; simp) (by simp [apart]) (by simp) (by simp [apart])
    obtain ⟨⟨q, h4, e4⟩, -⟩ := centre_speed_partial hy (by simp [fresh]) 0 (by funext k; rw [hC, hC]; simp) (by simp [apart])
      (by simp [apart]) (by simp [apart])
    rw [hz, zero_mul] at e3 e4
    subst e3 e4
    refine ⟨by simp [h1, h2], by simp [h3, h4], ?_⟩
    rw [hs]
    simp [apart, fresh]

/-! ### The reports of a run -/

lemma multiples_eq (m n : ℕ) : multiples m n = (List.range (n / m)).map (fun j => (j + 1) * m) := by
  induction n with
  | zero => simp [multiples]
  | succ n ih =>
    by_cases h : m ∣ n + 1
    · rw [multiples_succ_dvd h, ih, Nat.succ_div, if_pos h, List.range_succ, List.map_append]
      have : (n / m + 1) * m = n + 1 := by
        have h1 := Nat.succ_div (a := n) (b := m)
        rw [if_pos h] at h1
        rw [← h1]
        exact Nat.div_mul_cancel h
      simp [this]
    · rw [multiples_succ_not_dvd h, ih, Nat.succ_div, if_neg h, Nat.add_zero]

/-- **The speed of the centre of mass in the reports of a run.**  A run from time `t0 ≥ 0` whose centre of mass moves with the constant velocity `V`:
the run makes `⌊steps / m⌋` reports, `m` steps apart; report number `j` (from 0) says `|V| j m dt / (t0 + (j + 1) m dt)`.  From time 0 that is
`j / (j + 1)` of the true speed: 0, then a half, two thirds and so on. -/
theorem run_centre_speed {σ φ ω : Type} {E : RunEnv σ φ ω ℝ} {c : RunConf ℝ} {n : ℕ} {w : ℕ → ℝ} (hw : ∑ i ∈ Finset.range n, w i ≠ 0)
    (hclock : Clock E c.dt) (hdt : 0 < c.dt) (hcheck : 0 < c.checkDt) (hstream : c.hasStream = false) (s0 : σ) (st : ω)
    (view : φ → Snap) (htime : ∀ s, (view (E.getData s)).t = E.time s) (h0 : 0 ≤ E.time s0) (V : Fin 3 → ℝ)
    (hV : ∀ i k, centre n w (view (E.getData ((oneStep E c)^[i] s0))) k = centre n w (view (E.getData s0)) k + (i * c.dt) * V k)
    (o : StatObj) (hn : o.count = n) (hnew : o.stat.initialComputed = false) (hcl : 'V' ∈ o.checkList) (fuel : ℕ)
    (hfuel : steps (E.time s0) c.maxTime c.dt ≤ fuel) :
    ∃ r ls o', solverRun E c fuel s0 st = .ok (0, r) ∧ reports o (r.checks.map fun x => entry n w (view x)) = .ok (ls, o') ∧
      ls.length = steps (E.time s0) c.maxTime c.dt / period c.checkDt c.dt ∧
      ∀ j (hj : j < ls.length), ls[j].time = E.time s0 + (j + 1) * period c.checkDt c.dt * c.dt ∧
        Line n w o.checkList (view (E.getData ((oneStep E c)^[period c.checkDt c.dt] s0)))
          (view (E.getData ((oneStep E c)^[(j + 1) * period c.checkDt c.dt] s0))) ls[j] ∧
        (∃ r, ls[j].vcm = some (.num r) ∧
          r = len V * ((j * period c.checkDt c.dt * c.dt) / (E.time s0 + (j + 1) * period c.checkDt c.dt * c.dt))) ∧
        (E.time s0 = 0 → ∃ r, ls[j].vcm = some (.num r) ∧ r = len V * (j / (j + 1))) := by
  obtain ⟨r, hr, -, -, -, -, -, hchecks⟩ := C35.run_steps hclock hdt s0 st st fuel hfuel (fun h => by simp [hstream] at h) (fun _ => rfl)
  rw [if_pos hcheck] at hchecks
  have hm : 0 < period c.checkDt c.dt := by unfold period; omega
  rw [multiples_eq] at hchecks
  set m := period c.checkDt c.dt with hmdef
  set N := steps (E.time s0) c.maxTime c.dt with hN
  have hmr : (0 : ℝ) < m := by exact_mod_cast hm
  have ht : ∀ i, (view (E.getData ((oneStep E c)^[i] s0))).t = E.time s0 + i * c.dt := by
    intro i; rw [htime, time_iterate hclock]
  have hlist : (r.checks.map fun x => entry n w (view x)) =
      ((List.range (N / m)).map fun j => view (E.getData ((oneStep E c)^[(j + 1) * m] s0))).map (entry n w) := by
    rw [hchecks]; simp [List.map_map, Function.comp_def]
  refine ⟨r, ?_⟩
  rw [hlist]
  cases hq : N / m with
  | zero => exact ⟨[], o, hr, rfl, rfl, fun j hj => absurd hj (by simp)⟩
  | succ q =>
    rw [List.range_succ_eq_map, List.map_cons]
    obtain ⟨ls, o', hrep, hall⟩ := lines_of_reports hw o hn hnew (view (E.getData ((oneStep E c)^[(0 + 1) * m] s0)))
      (((List.range q).map Nat.succ).map fun j => view (E.getData ((oneStep E c)^[(j + 1) * m] s0)))
    have hlen := hall.length_eq
    simp only [List.length_cons, List.length_map, List.length_range] at hlen
    refine ⟨ls, o', hr, hrep, hlen.symm, fun j hj => ?_⟩
    have hline := (List.forall₂_iff_get.1 hall).2 j (by simp; omega) hj
    have hsnap : (view (E.getData ((oneStep E c)^[(0 + 1) * m] s0)) ::
        (((List.range q).map Nat.succ).map fun j => view (E.getData ((oneStep E c)^[(j + 1) * m] s0)))).get ⟨j, by simp; omega⟩ =
        view (E.getData ((oneStep E c)^[(j + 1) * m] s0)) := by
      cases j with
      | zero => rfl
      | succ j => simp
    rw [hsnap] at hline
    have htj := ht ((j + 1) * m)
    have ht0 := ht ((0 + 1) * m)
    push_cast at htj ht0
    have hpos : 0 < E.time s0 + (j + 1) * m * c.dt := by positivity
    have hc := centre_speed_partial hline hcl V (by
      funext k
      rw [hV, hV, htj, ht0]
      push_cast
      ring) (by rw [ht0]; positivity) (by
        rw [htj, ht0]
        have : (0 : ℝ) ≤ j * m * c.dt := by positivity
        nlinarith) (by rw [htj]; exact hpos)
    obtain ⟨⟨x, hx, hxe⟩, -, -⟩ := hc
    have hxe' : x = len V * ((j * m * c.dt) / (E.time s0 + (j + 1) * m * c.dt)) := by
      rw [hxe, htj, ht0]
      congr 2
      ring
    refine ⟨by rw [← htj]; exact hline.time, by simpa using hline, ⟨x, hx, hxe'⟩, fun hz => ⟨x, hx, ?_⟩⟩
    rw [hxe', hz, zero_add]
    congr 1
    have : ((j : ℝ) + 1) * m * c.dt ≠ 0 := by positivity
    have : (j : ℝ) + 1 ≠ 0 := by positivity
    field_simp

end NB.C88
