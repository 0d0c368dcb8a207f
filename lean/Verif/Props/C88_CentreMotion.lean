import Verif.Props.C88_Statistics
import Verif.Props.C19_Adaptive

/-
C88: the centre of mass moves uniformly in the runs of the simple solvers and of the explicit Runge-Kutta solvers on the direct-sum engine, so the reports
of their runs understate its speed.  Exact arithmetic.
-/

namespace NB.C88

open NB.C12 (momentum IsDirectSum)
open RunSpec

section
variable {V W : Type} [AddCommGroup V] [Module ℝ V] [AddCommGroup W] [Module ℝ W]
variable {F : ℕ → ℝ → V → V} {C P : V →ₗ[ℝ] W}

/-- `C` grows at the rate `P`, which does not change. -/
structure Uniform (F : ℕ → ℝ → V → V) (C P : V →ₗ[ℝ] W) : Prop where
  rate : ∀ c t y, C (F c t y) = P y
  conserved : ∀ c t y, P (F c t y) = 0

lemma euler_uniform (h : Uniform F C P) (dt : ℝ) (e : Eng V ℝ) :
    C (eulerAdvise F dt e).y = C e.y + dt • P e.y := by
  simp [eulerAdvise, Eng.fc, Eng.adviseTime, map_vfmadd, h.rate]

lemma midpoint_uniform (h : Uniform F C P) (dt : ℝ) (e : Eng V ℝ) :
    C (midpointAdvise F dt e).y = C e.y + dt • P e.y := by
  simp [midpointAdvise, Eng.fc, Eng.adviseTime, map_vfmadd, h.rate, h.conserved]

lemma inplace_uniform (n : ℕ) (a : V) (b : ℕ → V) (c : ℕ → ℝ) (p : W) (hb : ∀ i, i < n → C (b i) = p) :
    C (vfmaddnInplace n a b c) = C a + (∑ i ∈ Finset.range n, c i) • p := by
  rw [vfmaddnInplace_eq, map_add, map_sum, Finset.sum_smul]
  congr 1
  refine Finset.sum_congr rfl fun i hi => ?_
  rw [map_smul, hb i (Finset.mem_range.1 hi)]

lemma rk4_uniform (h : Uniform F C P) (dt : ℝ) (e : Eng V ℝ) :
    C (rk4Advise F dt e).y = C e.y + dt • P e.y := by
  simp only [rk4Advise, Eng.fc, Eng.adviseTime]
  rw [inplace_uniform (p := P e.y)]
  · congr 2
    simp [Finset.sum_range_succ]
    ring
  · intro i _
    split_ifs <;> simp [h.rate, map_vfmadd, h.conserved]

lemma trapeze_uniform (h : Uniform F C P) (refine : ℕ) (dt : ℝ) (e : Eng V ℝ) :
    C (trapezeAdvise F refine dt e).y = C e.y + dt • P e.y := by
  simp only [trapezeAdvise, Eng.fc, Eng.adviseTime]
  have := foldN_inv (n := refine + 1) (f := trapezeIter F refine e.time dt (F e.cc e.time e.y))
    (s := (vfmadd e.y (F e.cc e.time e.y) dt, ({ e with cc := e.cc + 1 } : Eng V ℝ)))
    (fun k (s : V × Eng V ℝ) => P s.1 = P e.y ∧ (k ≤ refine → s.2.y = e.y) ∧
      (k = refine + 1 → C s.2.y = C e.y + dt • P e.y))
    ⟨by simp [map_vfmadd, h.conserved], fun _ => rfl, fun h => by omega⟩ (by
      rintro i ⟨p, e'⟩ hi ⟨h1, h2, -⟩
      have h2 := h2 (by omega)
      simp only at h1 h2
      simp only [trapezeIter, Eng.fc]
      by_cases hs : i = refine
      · simp only [hs, if_true]
        refine ⟨h1, fun h => by omega, fun _ => ?_⟩
        rw [inplace_uniform (p := P e.y), h2]
        · congr 2
          simp
          ring
        · intro j _
          split_ifs
          · exact h.rate _ _ _
          · rw [h.rate, h1]
      · simp only [hs, if_false]
        refine ⟨?_, fun _ => h2, fun h => by omega⟩
        by_cases hdt : dt = 0
        · rw [vfmaddn_some_zero _ _ _ _ _ (fun _ _ => by simp [hdt]), h1]
        · rw [vfmaddn_some _ _ _ _ _ ⟨0, by omega, by simp [hdt]⟩, map_add, map_sum, h2]
          rw [Finset.sum_eq_zero, add_zero]
          intro j _
          rw [map_smul]
          split_ifs <;> simp [h.conserved])
  exact this.2.2 rfl

/-- **Any explicit table whose weights sum up to one**, with or without subdivision and correction: a step moves `C`, the sum of mass times position, by
`dt` times `P`, the momentum, and leaves `P` as it is. -/
theorem rk_uniform (h : Uniform F C P) (nrm : V → ℝ) (bt : BT ℝ) (cf : RKConf ℝ) (dt : ℝ) (r : RKState V) (e : Eng V ℝ) (hdt : dt ≠ 0)
    (hsub : 0 < cf.subdivisions) (hi : bt.implicit = false) (hrows : C16.RowsNonzero bt)
    (hb : ∑ i ∈ Finset.range bt.steps, bt.b2 i = 1) (hc : cf.correction = true → r.ycorr = 0) :
    C (rkAdvise F nrm bt cf dt r e).2.y = C e.y + dt • P e.y ∧ P (rkAdvise F nrm bt cf dt r e).2.y = P e.y := by
  obtain ⟨ls, hch, hok⟩ := C19.explicit_leaves F nrm bt cf dt r e hdt hsub hi hrows hc
  have key : ∀ (ls : List (C19.Leaf V ℝ)) (t t' : ℝ) (y y' : V), C19.Chain ls t y t' y' →
      (∀ l ∈ ls, C19.LeafOK (C19.ExplicitStages F bt) nrm bt cf dt l) → P y' = P y ∧ C y' = C y + (t' - t) • P y := by
    intro ls
    induction ls with
    | nil => rintro t t' y y' ⟨rfl, rfl⟩ _; simp
    | cons l ls ih =>
      rintro t t' y y' ⟨rfl, rfl, hch⟩ hok
      have hl := hok l (by simp)
      obtain ⟨n₀, hk⟩ := hl.stages
      have hP : ∀ i, i < bt.steps → P (l.k i) = 0 := fun i hi => by rw [hk i hi, h.conserved]
      have hC : ∀ i, i < bt.steps → C (l.k i) = P l.y := by
        intro i hi
        rw [hk i hi, h.rate, map_add, map_smul, map_sum, Finset.sum_eq_zero, smul_zero, add_zero]
        intro j hj
        rw [map_smul, hP j (by have := Finset.mem_range.1 hj; omega), smul_zero]
      have h1 : P l.y' = P l.y := by
        rw [hl.advance, map_add, map_smul, map_sum, Finset.sum_eq_zero, smul_zero, add_zero]
        intro j hj
        rw [map_smul, hP j (Finset.mem_range.1 hj), smul_zero]
      have h2 : C l.y' = C l.y + l.h • P l.y := by
        rw [hl.advance, map_add, map_smul, map_sum]
        congr 2
        rw [Finset.sum_congr rfl fun j hj => by rw [map_smul, hC j (Finset.mem_range.1 hj)], ← Finset.sum_smul, hb, one_smul]
      obtain ⟨g1, g2⟩ := ih (l.t + l.h) t' l.y' y' hch (fun l hl => hok l (by simp [hl]))
      refine ⟨g1.trans h1, ?_⟩
      rw [g2, h1, h2, add_assoc, ← add_smul]
      congr 2
      ring
  have := key ls _ _ _ _ hch hok
  rw [add_sub_cancel_left] at this
  exact ⟨this.2, this.1⟩

end

/-! ### Bodies -/

/-- Component `k` of the sum of mass times position. -/
noncomputable def moment (n : ℕ) (M : ℕ → ℝ) (k : ℕ) : (ℕ → ℝ) →ₗ[ℝ] ℝ :=
  ∑ i ∈ Finset.range n, M i • LinearMap.proj (k * n + i)

/-- What an observer sees of the state of the engine: positions in the first half, velocities in the second. -/
def snapOf (n : ℕ) (e : Eng (ℕ → ℝ) ℝ) : Snap where
  p i := ⟨e.y i, e.y (n + i), e.y (2 * n + i)⟩
  v i := ⟨e.y (3 * n + i), e.y (4 * n + i), e.y (5 * n + i)⟩
  t := e.time
  step := e.step
  computed := e.cc

lemma directSum_uniform {n : ℕ} {M : ℕ → ℝ} (hmass : ∀ i, i < n → M i ≠ 0) {F : ℕ → ℝ → (ℕ → ℝ) → ℕ → ℝ}
    (hF : IsDirectSum n M F) (k : ℕ) (hk : k < 3) : Uniform F (moment n M k) (momentum n M k) := by
  refine ⟨fun c t Y => ?_, fun c t Y => C12.directSum_momentum_rate hmass hF k hk c t Y⟩
  obtain ⟨hm, y, f, m, hyf, hmf, hy, hM, hf, hr⟩ := hF c t Y
  rw [fcompute_eq hyf hmf hy hM hf] at hr
  have hbuf : buf (6 * n) (derivVal n Y M) = buf (6 * n) (F c t Y) := by
    have := congrArg (fun m => m f) (Except.ok.inj hr)
    simpa [Mem.set] using this
  have hcell : ∀ i, i < 6 * n → derivVal n Y M i = F c t Y i := by
    intro i hi
    have := congrArg (fun l => l[i]?) hbuf
    simpa [buf, hi] using this
  simp only [moment, momentum, LinearMap.sum_apply, LinearMap.smul_apply, LinearMap.proj_apply, smul_eq_mul]
  refine Finset.sum_congr rfl fun i hi => ?_
  have := Finset.mem_range.1 hi
  have : k * n ≤ 2 * n := Nat.mul_le_mul_right n (by omega)
  rw [← hcell _ (by omega), derivVal, if_pos (by omega)]
  congr 2
  ring

lemma centre_snap (n : ℕ) (M : ℕ → ℝ) (e : Eng (ℕ → ℝ) ℝ) (k : Fin 3) :
    centre n M (snapOf n e) k = moment n M k e.y / ∑ i ∈ Finset.range n, M i := by
  unfold centre
  congr 1
  simp only [moment, LinearMap.sum_apply, LinearMap.smul_apply, LinearMap.proj_apply, smul_eq_mul]
  refine Finset.sum_congr rfl fun i _ => ?_
  congr 1
  fin_cases k
  · simp [snapOf]
  · simp [snapOf]
  · simp [snapOf]

lemma momentum_snap (n : ℕ) (M : ℕ → ℝ) (e : Eng (ℕ → ℝ) ℝ) (k : Fin 3) :
    P n M (snapOf n e) k = momentum n M k e.y := by
  unfold P
  simp only [momentum, LinearMap.sum_apply, LinearMap.smul_apply, LinearMap.proj_apply, smul_eq_mul]
  refine Finset.sum_congr rfl fun i _ => ?_
  congr 1
  fin_cases k
  · simp [snapOf]
  · simp only [snapOf, Vec3.coord]; simp; ring_nf
  · simp only [snapOf, Vec3.coord]; simp; ring_nf

/-- **The reports of a run understate the drift.**  Bodies of masses not zero under the direct-sum engine, a run of Euler's, the midpoint, the classical
Runge-Kutta or the trapeze solver from time 0 with reports, total mass not zero: report number `j` says `j / (j + 1)` of the speed `|P| / M` of the centre
of mass, and, if the momentum `P` is not zero, 0 percent change of the momentum. -/
theorem run_understates_drift {n : ℕ} {M : ℕ → ℝ} (hmass : ∀ i, i < n → M i ≠ 0) (hw : ∑ i ∈ Finset.range n, M i ≠ 0)
    {F : ℕ → ℝ → (ℕ → ℝ) → ℕ → ℝ} (hF : IsDirectSum n M F) (refine : ℕ) (clamp : (ℕ → ℝ) → ℕ → ℝ) (c : RunConf ℝ) (hdt : 0 < c.dt)
    (hcheck : 0 < c.checkDt) (hstream : c.hasStream = false) (hbox : c.clampToBox = false)
    (advise : ℝ → Eng (ℕ → ℝ) ℝ → Eng (ℕ → ℝ) ℝ)
    (hadv : advise = eulerAdvise F ∨ advise = midpointAdvise F ∨ advise = rk4Advise F ∨ advise = trapezeAdvise F refine)
    (e0 : Eng (ℕ → ℝ) ℝ) (h0 : e0.time = 0) (o : StatObj) (hn : o.count = n) (hnew : o.stat.initialComputed = false)
    (hcl : 'V' ∈ o.checkList) (fuel : ℕ) (hfuel : steps e0.time c.maxTime c.dt ≤ fuel) :
    ∃ r ls o', solverRun (C35.solverEnv advise clamp) c fuel e0 [] = .ok (0, r) ∧
      reports o (r.checks.map fun e => entry n M (snapOf n e)) = .ok (ls, o') ∧
      ls.length = steps e0.time c.maxTime c.dt / period c.checkDt c.dt ∧
      ∀ j (hj : j < ls.length), ∃ x, ls[j].vcm = some (.num x) ∧
        x = len (fun k => P n M (snapOf n e0) k / ∑ i ∈ Finset.range n, M i) * (j / (j + 1)) ∧
        ('P' ∈ o.checkList → P n M (snapOf n e0) ≠ 0 → ls[j].dP = some (.num 0)) := by
  have hclock : Clock (C35.solverEnv advise clamp) c.dt := by
    obtain ⟨h1, h2, h3, h4⟩ := C35.solver_clock F clamp c.dt refine
    rcases hadv with rfl | rfl | rfl | rfl
    exacts [h1, h2, h3, h4]
  have hstep : ∀ (e : Eng (ℕ → ℝ) ℝ) (k : ℕ), k < 3 → moment n M k (advise c.dt e).y = moment n M k e.y + c.dt * momentum n M k e.y ∧
      momentum n M k (advise c.dt e).y = momentum n M k e.y := by
    intro e k hk
    have hu := directSum_uniform hmass hF k hk
    rcases hadv with rfl | rfl | rfl | rfl
    · exact ⟨euler_uniform hu _ _, C12.euler_linear hu.conserved _ _⟩
    · exact ⟨midpoint_uniform hu _ _, C12.midpoint_linear hu.conserved _ _⟩
    · exact ⟨rk4_uniform hu _ _, C12.rk4_linear hu.conserved _ _⟩
    · exact ⟨trapeze_uniform hu _ _ _, C12.trapeze_linear hu.conserved _ _ _⟩
  have hone : ∀ e, oneStep (C35.solverEnv advise clamp) c e = advise c.dt e := by
    intro e; simp [oneStep, hbox, C35.solverEnv]
  have hiter : ∀ (i k : ℕ), k < 3 → moment n M k ((oneStep (C35.solverEnv advise clamp) c)^[i] e0).y =
      moment n M k e0.y + i * c.dt * momentum n M k e0.y ∧
      momentum n M k ((oneStep (C35.solverEnv advise clamp) c)^[i] e0).y = momentum n M k e0.y := by
    intro i k hk
    induction i with
    | zero => simp
    | succ i ih =>
      rw [Function.iterate_succ_apply', hone, (hstep _ k hk).1, (hstep _ k hk).2, ih.1, ih.2]
      refine ⟨?_, rfl⟩
      push_cast
      ring
  obtain ⟨r, ls, o', hr, hrep, hlen, hall⟩ := run_centre_speed (E := C35.solverEnv advise clamp) (c := c) hw hclock hdt hcheck hstream
    e0 [] (snapOf n) (fun _ => rfl) (le_of_eq h0.symm) (fun k => P n M (snapOf n e0) k / ∑ i ∈ Finset.range n, M i) (by
      intro i k
      show centre n M (snapOf n ((oneStep (C35.solverEnv advise clamp) c)^[i] e0)) k = centre n M (snapOf n e0) k + _
      rw [centre_snap, centre_snap, (hiter i k k.2).1, momentum_snap]
      field_simp) o hn hnew hcl fuel hfuel
  refine ⟨r, ls, o', hr, hrep, hlen, fun j hj => ?_⟩
  obtain ⟨-, hline, -, hx⟩ := hall j hj
  obtain ⟨x, hx, hxe⟩ := hx h0
  refine ⟨x, hx, hxe, fun hP hne => ?_⟩
  have hmom : ∀ i, P n M (snapOf n ((oneStep (C35.solverEnv advise clamp) c)^[i] e0)) = P n M (snapOf n e0) := by
    intro i
    funext k
    rw [momentum_snap, momentum_snap, (hiter i k k.2).2]
  have := ((conserved_partial hline).1 hP ((hmom _).trans (hmom _).symm)).1
  exact this (fun h => hne ((hmom (period c.checkDt c.dt)).symm.trans h))

/-- The hypotheses are met: two bodies of masses 1 and 3 of which the first moves, Euler's solver, two steps of 1 with a report after each.  The centre of
mass moves with the speed 1/4; the reports say 0 and 1/8. -/
example : ∃ r ls o', solverRun (C35.solverEnv (eulerAdvise fun _ _ Y => derivVal 2 Y (fun i => if i = 0 then 1 else 3)) id)
      ⟨1, 2, 0, 1, false, false⟩ 2 ⟨fun i => if i = 1 then 1 else if i = 6 then 1 else 0, 0, 0, 0⟩ [] = .ok (0, r) ∧
    reports ⟨2, ⟨[], [], []⟩, 0, 0, ['P', 'L', 'V'], ⟨false, ⟨0, 0, 0, 0, 0⟩, ⟨0, 0, 0, 0, 0⟩⟩, 0⟩
      (r.checks.map fun e => entry 2 (fun i => if i = 0 then 1 else 3) (snapOf 2 e)) = .ok (ls, o') ∧
    ls.map (fun l => (l.vcm, l.dP)) = [(some (.num 0), some (.num 0)), (some (.num (1 / 8)), some (.num 0))] := by
  have hF : IsDirectSum 2 (fun i => if i = 0 then (1 : ℝ) else 3) (fun _ _ Y => derivVal 2 Y (fun i => if i = 0 then 1 else 3)) := by
    intro c t Y
    refine ⟨0, 1, 2, fun h => if h = 0 then some (buf 2 fun i => if i = 0 then 1 else 3) else if h = 1 then some (buf (6 * 2) Y) else
      some (buf (6 * 2) fun _ => 0), by decide, by decide, by simp, by simp, by simp [Mem.shape, buf], ?_⟩
    exact fcompute_eq (by decide) (by decide) (by simp) (by simp) (by simp [Mem.shape, buf])
  have hsteps : steps (0 : ℝ) 2 1 = 2 := by
    unfold steps
    norm_num
  have hper : period (1 : ℝ) 1 = 1 := by
    unfold period
    have : ⌈(1 : ℝ) / 1 - 1 / 10⌉₊ = 1 := by rw [Nat.ceil_eq_iff (by norm_num)]; norm_num
    rw [this]
    rfl
  obtain ⟨r, ls, o', hr, hrep, hlen, hall⟩ := run_understates_drift (n := 2) (M := fun i => if i = 0 then 1 else 3)
    (by intro i _; split_ifs <;> norm_num) (by norm_num [Finset.sum_range_succ]) hF 0 id ⟨1, 2, 0, 1, false, false⟩ one_pos one_pos rfl rfl
    _ (Or.inl rfl) ⟨fun i => if i = 1 then 1 else if i = 6 then 1 else 0, 0, 0, 0⟩ rfl
    ⟨2, ⟨[], [], []⟩, 0, 0, ['P', 'L', 'V'], ⟨false, ⟨0, 0, 0, 0, 0⟩, ⟨0, 0, 0, 0, 0⟩⟩, 0⟩ rfl rfl (by simp) 2 (le_of_eq hsteps)
  refine ⟨r, ls, o', hr, hrep, ?_⟩
  simp only [hsteps, hper] at hlen
  have hP : P 2 (fun i => if i = 0 then (1 : ℝ) else 3) (snapOf 2 ⟨fun i => if i = 1 then 1 else if i = 6 then 1 else 0, 0, 0, 0⟩) = ![1, 0, 0] := by
    funext k
    fin_cases k <;> simp [P, snapOf, Finset.sum_range_succ, Vec3.coord]
  have hl : len (fun k => P 2 (fun i => if i = 0 then (1 : ℝ) else 3)
      (snapOf 2 ⟨fun i => if i = 1 then 1 else if i = 6 then 1 else 0, 0, 0, 0⟩) k / ∑ i ∈ Finset.range 2, if i = 0 then (1 : ℝ) else 3) = 1 / 4 := by
    rw [hP]
    simp [len, Finset.sum_range_succ]
    norm_num
    rw [show (16 : ℝ) = 4 ^ 2 by norm_num, Real.sqrt_sq (by norm_num)]
  have hne : P 2 (fun i => if i = 0 then (1 : ℝ) else 3) (snapOf 2 ⟨fun i => if i = 1 then 1 else if i = 6 then 1 else 0, 0, 0, 0⟩) ≠ 0 := by
    rw [hP]
    intro h
    have := congrFun h 0
    simp at this
  match ls, hlen, hall with
  | [a, b], _, hall =>
    obtain ⟨x, hx, hxe, hp⟩ := hall 0 (by simp)
    obtain ⟨y, hy, hye, hq⟩ := hall 1 (by simp)
    rw [hl] at hxe hye
    norm_num at hxe hye
    subst hxe
    subst hye
    have hp := hp (by simp) hne
    have hq := hq (by simp) hne
    simp only [List.getElem_cons_zero, List.getElem_cons_succ] at hx hy hp hq
    simp only [List.map_cons, List.map_nil, hx, hy, hp, hq]

end NB.C88
