import Verif.Lemmas.SolverOps
import Verif.Props.C02_DirectSum
import Verif.Props.C21_Neville
import Verif.Props.C23_BulirschStoer
import Mathlib.Algebra.Module.Pi
import Mathlib.LinearAlgebra.Pi
import Mathlib.Algebra.Order.Field.Basic

/-
C12: linear invariants of the derivative are invariants of every solver.

`L` is a linear map with `L (F c t y) = 0` for every call number, time and state.
-/

namespace NB.C12

variable {V W K : Type} [Field K] [LinearOrder K] [AddCommGroup V] [Module K V] [AddCommGroup W] [Module K W]

lemma map_inplace (L : V →ₗ[K] W) (n : ℕ) (a : V) (b : ℕ → V) (c : ℕ → K) (hb : ∀ i, i < n → L (b i) = 0) :
    L (vfmaddnInplace n a b c) = L a := by
  rw [vfmaddnInplace_eq, map_add, map_sum, Finset.sum_eq_zero, add_zero]
  intro i hi
  rw [map_smul, hb i (Finset.mem_range.1 hi), smul_zero]

lemma map_corr (L : V →ₗ[K] W) (n : ℕ) (a corr : V) (b : ℕ → V) (c : ℕ → K) (hc : L corr = 0)
    (hb : ∀ i, i < n → L (b i) = 0) :
    L (vfmaddnCorr n a corr b c).1 = L a ∧ L (vfmaddnCorr n a corr b c).2 = 0 := by
  unfold vfmaddnCorr
  refine foldN_inv (fun _ (s : V × V) => L s.1 = L a ∧ L s.2 = 0) ⟨rfl, hc⟩ ?_
  rintro i ⟨x, y⟩ hi ⟨h1, h2⟩
  by_cases h : c i = 0
  · simp only [h, if_true]; exact ⟨h1, h2⟩
  · simp only [h, if_false, summationK]
    simp only [map_add, map_sub, map_smul, hb i hi, h1, h2]
    simp

section Simple
variable {F : ℕ → K → V → V} {L : V →ₗ[K] W} (hL : ∀ c t y, L (F c t y) = 0)
include hL

omit [LinearOrder K] in
theorem euler_linear (dt : K) (e : Eng V K) : L (eulerAdvise F dt e).y = L e.y := by
  simp [eulerAdvise, Eng.fc, Eng.adviseTime, map_vfmadd, hL]

omit [LinearOrder K] in
theorem midpoint_linear (dt : K) (e : Eng V K) : L (midpointAdvise F dt e).y = L e.y := by
  simp [midpointAdvise, Eng.fc, Eng.adviseTime, map_vfmadd, hL]

theorem rk4_linear (dt : K) (e : Eng V K) : L (rk4Advise F dt e).y = L e.y := by
  simp only [rk4Advise, Eng.fc, Eng.adviseTime]
  apply map_inplace
  intro i _
  split_ifs <;> exact hL _ _ _

theorem trapeze_linear (refine : ℕ) (dt : K) (e : Eng V K) : L (trapezeAdvise F refine dt e).y = L e.y := by
  simp only [trapezeAdvise, Eng.fc, Eng.adviseTime]
  refine foldN_inv (fun _ (s : V × Eng V K) => L s.2.y = L e.y) rfl ?_
  rintro i ⟨p, e'⟩ _ h
  simp only [trapezeIter, Eng.fc]
  by_cases hs : i = refine
  · simp only [hs, if_true]
    rw [← h]
    apply map_inplace
    intro j _
    split_ifs <;> exact hL _ _ _
  · simpa only [hs, if_false] using h

end Simple

/-! ### Stetter's midpoint scheme, which keeps state between calls -/

/-- The operations a user can perform on the solver. -/
inductive Cmd (K : Type) where
  | advise (dt : K)
  | reset

/-- A history of calls. -/
def stetterRun (F : ℕ → K → V → V) (s : Stetter V × Eng V K) : List (Cmd K) → Stetter V × Eng V K
  | [] => s
  | .advise dt :: cs => stetterRun F (stetterAdvise F dt s.1 s.2) cs
  | .reset :: cs => stetterRun F (s.1.reset, s.2) cs

lemma stetter_step {F : ℕ → K → V → V} {L : V →ₗ[K] W} (hL : ∀ c t y, L (F c t y) = 0)
    (dt : K) (w : W) (h2 : (2 : K) ≠ 0) (s : Stetter V) (e : Eng V K) (he : L e.y = w)
    (hs : s.allocated = true → s.initiated = true → L s.u = w ∧ L s.v = w ∧ L s.fu0 = 0) :
    let r := stetterAdvise F dt s e
    L r.2.y = w ∧ (r.1.allocated = true → r.1.initiated = true → L r.1.u = w ∧ L r.1.v = w ∧ L r.1.fu0 = 0) := by
  have key : ∀ (u v fu0 : V) (e : Eng V K), L u = w → L v = w → L fu0 = 0 →
      (∀ c x, L (vfmaddnInplace 2 v (fun i => if i = 0 then fu0 else F c x (vfmadd u (F e.cc (e.time + dt / 2)
        (vfmadd v fu0 (dt / 2))) dt)) (fun _ => dt / 2)) = w) ∧
      (∀ a uu vv : V, L uu = w → L vv = w → L (vfmaddn 2 a none (fun i => if i = 0 then uu else vv)
        (fun _ => (1 : K) / 2)) = w) := by
    intro u v fu0 e hu hv hf
    refine ⟨fun c x => ?_, fun a uu vv h1 h3 => ?_⟩
    · rw [map_inplace, hv]
      intro i _
      split_ifs
      · exact hf
      · exact hL _ _ _
    · rw [vfmaddn_none, map_sum]
      simp only [Finset.sum_range_succ, Finset.range_zero, Finset.sum_empty, zero_add, map_smul, if_true,
        one_ne_zero, if_false, h1, h3]
      have h12 : (1 : K) / 2 + 1 / 2 = 1 := by field_simp; norm_num
      rw [← add_smul, h12, one_smul]
  by_cases hfirst : (!s.allocated || !s.initiated) = true
  · simp only [stetterAdvise, hfirst, if_true, Eng.fc, Eng.adviseTime]
    have k := key e.y e.y (F e.cc e.time e.y) e he he (hL _ _ _)
    have hv := k.1
    have hu : L (vfmadd e.y (F (e.cc + 1) (e.time + dt / 2) (vfmadd e.y (F e.cc e.time e.y) (dt / 2))) dt) = w := by
      rw [map_vfmadd, hL, he, smul_zero, add_zero]
    have hv' : L (vfmaddnInplace 2 e.y (fun i => if i = 0 then F e.cc e.time e.y else F (e.cc + 1 + 1) (e.time + dt)
        (vfmadd e.y (F (e.cc + 1) (e.time + dt / 2) (vfmadd e.y (F e.cc e.time e.y) (dt / 2))) dt))
        (fun _ => dt / 2)) = w := by
      rw [map_inplace, he]
      intro i _
      split_ifs <;> exact hL _ _ _
    exact ⟨k.2 _ _ _ hu hv', fun _ _ => ⟨hu, hv', hL _ _ _⟩⟩
  · have ha : s.allocated = true ∧ s.initiated = true := by simpa using hfirst
    obtain ⟨h1, h3, h4⟩ := hs ha.1 ha.2
    have hff : (!s.allocated || !s.initiated) = false := by simpa using hfirst
    simp only [stetterAdvise, hff, Bool.false_eq_true, if_false, Eng.fc, Eng.adviseTime]
    have k := key s.u s.v s.fu0 e h1 h3 h4
    have hu : L (vfmadd s.u (F e.cc (e.time + dt / 2) (vfmadd s.v s.fu0 (dt / 2))) dt) = w := by
      rw [map_vfmadd, hL, h1, smul_zero, add_zero]
    exact ⟨k.2 _ _ _ hu (k.1 _ _), fun _ _ => ⟨hu, k.1 _ _, hL _ _ _⟩⟩

/-- Every history of `advise` and `reset` calls on a new solver preserves `L y`. -/
theorem stetter_linear {F : ℕ → K → V → V} {L : V →ₗ[K] W} (hL : ∀ c t y, L (F c t y) = 0)
    (h2 : (2 : K) ≠ 0) (e : Eng V K) (cs : List (Cmd K)) :
    L (stetterRun F (Stetter.new, e) cs).2.y = L e.y := by
  have : ∀ (cs : List (Cmd K)) (s : Stetter V × Eng V K) (w : W), L s.2.y = w →
      (s.1.allocated = true → s.1.initiated = true → L s.1.u = w ∧ L s.1.v = w ∧ L s.1.fu0 = 0) →
      L (stetterRun F s cs).2.y = w := by
    intro cs
    induction cs with
    | nil => intro s w h _; exact h
    | cons c cs ih =>
      intro s w h hs
      cases c with
      | advise dt =>
        obtain ⟨a, b⟩ := stetter_step hL dt w h2 s.1 s.2 h hs
        exact ih _ w a b
      | reset => exact ih _ w h (by intro _ hi; simp [Stetter.reset] at hi)
  exact this cs _ _ rfl (by intro h; simp [Stetter.new] at h)

/-! ### Adams-Bashforth -/

/-- A history of `advise` and `reset` calls. -/
def adamsRun {σ : Type} (F : ℕ → K → V → V) (starter : K → σ × Eng V K → Res (σ × Eng V K))
    (rank : ℕ) (correction : Bool) (s : Adams V σ × Eng V K) : List (Cmd K) → Res (Adams V σ × Eng V K)
  | [] => .ok s
  | .advise dt :: cs => do
    let s ← adamsAdvise F starter rank correction dt s.1 s.2
    adamsRun F starter rank correction s cs
  | .reset :: cs => adamsRun F starter rank correction (s.1.reset, s.2) cs

lemma adams_step {σ : Type} {F : ℕ → K → V → V} {L : V →ₗ[K] W} (hL : ∀ c t y, L (F c t y) = 0)
    {starter : K → σ × Eng V K → Res (σ × Eng V K)}
    (hst : ∀ dt s s', starter dt s = .ok s' → L s'.2.y = L s.2.y)
    (rank : ℕ) (correction : Bool) (dt : K) (s : Adams V σ × Eng V K) (r : Adams V σ × Eng V K)
    (hr : adamsAdvise F starter rank correction dt s.1 s.2 = .ok r)
    (hc : L s.1.corr = 0) (hf : ∀ i, i < rank → i < s.1.mstep → L (s.1.f i) = 0) :
    L r.2.y = L s.2.y ∧ L r.1.corr = 0 ∧ ∀ i, i < rank → i < r.1.mstep → L (r.1.f i) = 0 := by
  obtain ⟨s, e⟩ := s
  simp only at hc hf hr ⊢
  unfold adamsAdvise at hr
  by_cases h0 : rank = 0
  · simp [h0] at hr
  rw [if_neg h0] at hr
  by_cases h5 : 5 < rank
  · simp [h5] at hr
  rw [if_neg h5] at hr
  cases htab : adamsTable (K := K) rank with
  | none => simp [htab] at hr
  | some al =>
    rw [htab] at hr
    simp only [Eng.fc] at hr
    have hf' : ∀ i, i < rank → i < s.mstep + 1 →
        L (upd s.f (s.mstep % rank) (F e.cc e.time e.y) i) = 0 := by
      intro i hi his
      by_cases hi' : i = s.mstep % rank
      · subst hi'; rw [upd_same]; exact hL _ _ _
      · rw [upd_ne _ _ hi']
        apply hf i hi
        rcases Nat.lt_succ_iff_lt_or_eq.1 his with h | h
        · exact h
        · subst h; exact absurd (Nat.mod_eq_of_lt hi).symm hi'
    by_cases hm : rank < s.mstep
    · rw [if_pos hm] at hr
      have hall : ∀ i, i < rank → L (upd s.f (s.mstep % rank) (F e.cc e.time e.y) i) = 0 :=
        fun i hi => hf' i hi (by omega)
      cases correction with
      | true =>
        simp only [if_true] at hr
        cases hr
        have := map_corr L rank e.y s.corr _ (adamsCoeff rank (s.mstep % rank) (fun n => al.getD n 0) dt) hc hall
        exact ⟨this.1, this.2, hf'⟩
      | false =>
        simp only [Bool.false_eq_true, if_false] at hr
        cases hr
        exact ⟨map_inplace L rank e.y _ _ hall, hc, hf'⟩
    · rw [if_neg hm] at hr
      cases hs : starter dt (s.starter, { e with cc := e.cc + 1 }) with
      | error x => rw [hs] at hr; cases hr
      | ok q =>
        rw [hs] at hr
        cases hr
        exact ⟨hst dt _ _ hs, hc, hf'⟩

/-- Every history of `advise` and `reset` calls on a new solver preserves `L y`, provided the starter does. -/
theorem adams_linear {σ : Type} {F : ℕ → K → V → V} {L : V →ₗ[K] W} (hL : ∀ c t y, L (F c t y) = 0)
    {starter : K → σ × Eng V K → Res (σ × Eng V K)}
    (hst : ∀ dt s s', starter dt s = .ok s' → L s'.2.y = L s.2.y)
    (rank : ℕ) (correction : Bool) (f0 : ℕ → V) (s0 : σ) (e : Eng V K) (cs : List (Cmd K))
    (r : Adams V σ × Eng V K)
    (hr : adamsRun F starter rank correction (⟨f0, 0, 0, s0⟩, e) cs = .ok r) : L r.2.y = L e.y := by
  have : ∀ (cs : List (Cmd K)) (s : Adams V σ × Eng V K), L s.1.corr = 0 →
      (∀ i, i < rank → i < s.1.mstep → L (s.1.f i) = 0) →
      adamsRun F starter rank correction s cs = .ok r → L r.2.y = L s.2.y := by
    intro cs
    induction cs with
    | nil => intro s _ _ h; cases h; rfl
    | cons c cs ih =>
      intro s hc hf h
      cases c with
      | advise dt =>
        simp only [adamsRun] at h
        cases hs : adamsAdvise F starter rank correction dt s.1 s.2 with
        | error x => rw [hs] at h; cases h
        | ok q =>
          rw [hs] at h
          obtain ⟨h1, h2, h3⟩ := adams_step hL hst rank correction dt s q hs hc hf
          rw [ih q h2 h3 h, h1]
      | reset => exact ih (s.1.reset, s.2) (map_zero L) (by intro i _ hi; simp [Adams.reset] at hi) h
  exact this cs _ (map_zero L) (by intro i _ hi; simp at hi) hr

/-! ### Runge-Kutta with any Butcher table, adaptive or not -/

/-- What the buffers of the solver satisfy between calls. -/
def RKInv (L : V →ₗ[K] W) (bt : BT K) (r : RKState V) : Prop :=
  L r.ycorr = 0 ∧ (r.allocated = true → bt.implicit = true → ∀ i, i < bt.steps → L (r.k i) = 0)

section RK
variable {F : ℕ → K → V → V} {L : V →ₗ[K] W} (hL : ∀ c t y, L (F c t y) = 0)
include hL

lemma explicit_k (bt : BT K) (cf : RKConf K) (y : V) (t dt : K) (s : RKState V × ℕ) (hc : L s.1.ycorr = 0) :
    (rkExplicit F bt cf y t dt s).1.allocated = s.1.allocated ∧
    L (rkExplicit F bt cf y t dt s).1.ycorr = 0 ∧
    ∀ i, i < bt.steps → L ((rkExplicit F bt cf y t dt s).1.k i) = 0 := by
  unfold rkExplicit
  refine foldN_inv (fun n (r : RKState V × ℕ) => r.1.allocated = s.1.allocated ∧ L r.1.ycorr = 0 ∧
    ∀ i, i < n → L (r.1.k i) = 0) ⟨rfl, hc, by simp⟩ ?_
  rintro i ⟨r, c⟩ hi ⟨h0, h1, h2⟩
  have hk : ∀ (k : ℕ → V) (v : V), (∀ j, j < i → L (k j) = 0) → L v = 0 →
      ∀ j, j < i + 1 → L (upd k i v j) = 0 := by
    intro k v hk hv j hj
    by_cases hji : j = i
    · subst hji; rw [upd_same]; exact hv
    · rw [upd_ne _ _ hji]; exact hk j (by omega)
  unfold rkStageExplicit
  by_cases hi0 : i = 0
  · rw [if_pos hi0]
    exact ⟨h0, h1, hk _ _ h2 (hL _ _ _)⟩
  · rw [if_neg hi0]
    cases cf.correction
    · exact ⟨h0, h1, hk _ _ h2 (hL _ _ _)⟩
    · exact ⟨h0, h1, hk _ _ h2 (hL _ _ _)⟩

lemma implicit_k (bt : BT K) (cf : RKConf K) (first : Bool) (y : V) (t dt : K) (s : RKState V × ℕ)
    (hc : L s.1.ycorr = 0) (hk : first = false → ∀ i, i < bt.steps → L (s.1.k i) = 0) :
    (rkImplicit F bt cf first y t dt s).1.allocated = s.1.allocated ∧
    L (rkImplicit F bt cf first y t dt s).1.ycorr = 0 ∧
    ∀ i, i < bt.steps → L ((rkImplicit F bt cf first y t dt s).1.k i) = 0 := by
  unfold rkImplicit
  have upd_ok : ∀ (i : ℕ) (k : ℕ → V) (v : V) (P : ℕ → Prop), (∀ j, P j → L (k j) = 0) → L v = 0 →
      ∀ j, (P j ∨ j = i) → L (upd k i v j) = 0 := by
    intro i k v P hk hv j hj
    by_cases hji : j = i
    · subst hji; rw [upd_same]; exact hv
    · rw [upd_ne _ _ hji]; exact hk j (by tauto)
  have h1 : ∀ s1, s1 = (if first then rkFirstApproach F bt y t dt s else s) →
      s1.1.allocated = s.1.allocated ∧ L s1.1.ycorr = 0 ∧ ∀ i, i < bt.steps → L (s1.1.k i) = 0 := by
    intro s1 hs1
    cases first with
    | false => simp only [Bool.false_eq_true, if_false] at hs1; subst hs1; exact ⟨rfl, hc, hk rfl⟩
    | true =>
      simp only [if_true] at hs1
      subst hs1
      unfold rkFirstApproach
      refine foldN_inv (fun n (r : RKState V × ℕ) => r.1.allocated = s.1.allocated ∧ L r.1.ycorr = 0 ∧
        ∀ i, i < n → L (r.1.k i) = 0) ⟨rfl, hc, by simp⟩ ?_
      rintro i ⟨r, c⟩ hi ⟨h0, h1, h2⟩
      refine ⟨h0, h1, fun j hj => upd_ok i r.k _ (fun j => j < i) h2 (hL _ _ _) j (by omega)⟩
  refine foldN_inv (fun n (r : RKState V × ℕ) => r.1.allocated = s.1.allocated ∧ L r.1.ycorr = 0 ∧
    ∀ i, i < bt.steps → L (r.1.k i) = 0) (h1 _ rfl) ?_
  rintro _ r _ hr
  unfold rkRefine
  refine foldN_inv (fun n (r : RKState V × ℕ) => r.1.allocated = s.1.allocated ∧ L r.1.ycorr = 0 ∧
    ∀ i, i < bt.steps → L (r.1.k i) = 0) hr ?_
  rintro i ⟨r, c⟩ hi ⟨h0, h1, h2⟩
  refine ⟨h0, h1, fun j hj => upd_ok i r.k _ (fun j => j < bt.steps) h2 (hL _ _ _) j (Or.inl hj)⟩

lemma stages_k (bt : BT K) (cf : RKConf K) (first : Bool) (y : V) (t dt : K) (s : RKState V × ℕ)
    (hc : L s.1.ycorr = 0)
    (hk : first = false → bt.implicit = true → ∀ i, i < bt.steps → L (s.1.k i) = 0) :
    (rkStages F bt cf first y t dt s).1.allocated = s.1.allocated ∧
    L (rkStages F bt cf first y t dt s).1.ycorr = 0 ∧
    ∀ i, i < bt.steps → L ((rkStages F bt cf first y t dt s).1.k i) = 0 := by
  unfold rkStages
  cases hi : bt.implicit
  · exact explicit_k hL bt cf y t dt s hc
  · exact implicit_k hL bt cf first y t dt s hc fun h => hk h hi

omit hL in
lemma advance_y (bt : BT K) (cf : RKConf K) (dt : K) (r : RKState V) (y : V) (hc : L r.ycorr = 0)
    (hk : ∀ i, i < bt.steps → L (r.k i) = 0) :
    L (rkAdvance bt cf dt r y).1 = L y ∧ L (rkAdvance bt cf dt r y).2 = 0 := by
  unfold rkAdvance
  cases cf.correction
  · exact ⟨map_inplace L _ _ _ _ hk, hc⟩
  · exact map_corr L _ _ _ _ _ hc hk

lemma subStep_inv (nrm : V → K) (bt : BT K) (cf : RKConf K) (fuel : ℕ) :
    ∀ (count : ℕ) (dt : K) (s : SubSt V K), L s.r.ycorr = 0 →
      (s.r.allocated = true → bt.implicit = true → ∀ i, i < bt.steps → L (s.r.k i) = 0) →
      L (rkSubStep F nrm bt cf fuel count dt s).y = L s.y ∧
      L (rkSubStep F nrm bt cf fuel count dt s).r.ycorr = 0 ∧
      (rkSubStep F nrm bt cf fuel count dt s).r.allocated = true ∧
      (0 < count ∨ s.r.allocated = true → bt.implicit = true →
        ∀ i, i < bt.steps → L ((rkSubStep F nrm bt cf fuel count dt s).r.k i) = 0) := by
  induction fuel with
  | zero =>
    intro count dt s hc hk
    unfold rkSubStep
    refine foldN_inv (fun n (q : SubSt V K) => L q.y = L s.y ∧ L q.r.ycorr = 0 ∧ q.r.allocated = true ∧
      (0 < n ∨ s.r.allocated = true → bt.implicit = true → ∀ i, i < bt.steps → L (q.r.k i) = 0)) ?_ ?_
    · exact ⟨rfl, hc, rfl, fun h => hk (by simpa using h)⟩
    · rintro n q hn ⟨h1, h2, hal, h3⟩
      obtain ⟨g1, g2, g3⟩ := stages_k hL bt cf (!s.r.allocated) q.y q.t dt (q.r, q.cc) h2
        (fun h hi => h3 (Or.inr (by simpa using h)) hi)
      obtain ⟨a1, a2⟩ := advance_y (L := L) bt cf dt
        { (rkStages F bt cf (!s.r.allocated) q.y q.t dt (q.r, q.cc)).1 with
          tbuf := (rkError nrm bt (rkStages F bt cf (!s.r.allocated) q.y q.t dt (q.r, q.cc)).1).1 } q.y g2 g3
      exact ⟨a1.trans h1, a2, g1.trans hal, fun _ _ => g3⟩
  | succ fuel ih =>
    intro count dt s hc hk
    unfold rkSubStep
    refine foldN_inv (fun n (q : SubSt V K) => L q.y = L s.y ∧ L q.r.ycorr = 0 ∧ q.r.allocated = true ∧
      (0 < n ∨ s.r.allocated = true → bt.implicit = true → ∀ i, i < bt.steps → L (q.r.k i) = 0)) ?_ ?_
    · exact ⟨rfl, hc, rfl, fun h => hk (by simpa using h)⟩
    · rintro n q hn ⟨h1, h2, hal, h3⟩
      obtain ⟨g1, g2, g3⟩ := stages_k hL bt cf (!s.r.allocated) q.y q.t dt (q.r, q.cc) h2
        (fun h hi => h3 (Or.inr (by simpa using h)) hi)
      obtain ⟨a1, a2⟩ := advance_y (L := L) bt cf dt
        { (rkStages F bt cf (!s.r.allocated) q.y q.t dt (q.r, q.cc)).1 with
          tbuf := (rkError nrm bt (rkStages F bt cf (!s.r.allocated) q.y q.t dt (q.r, q.cc)).1).1 } q.y g2 g3
      dsimp only
      split_ifs with hsub
      · obtain ⟨b1, b2, b4, b3⟩ := ih cf.subdivisions (dt / (cf.subdivisions : K))
          { r := { (rkStages F bt cf (!s.r.allocated) q.y q.t dt (q.r, q.cc)).1 with
              tbuf := (rkError nrm bt (rkStages F bt cf (!s.r.allocated) q.y q.t dt (q.r, q.cc)).1).1 },
            cc := (rkStages F bt cf (!s.r.allocated) q.y q.t dt (q.r, q.cc)).2, t := q.t, y := q.y } g2
          (fun _ _ => g3)
        exact ⟨b1.trans h1, b2, b4, fun _ hi => b3 (Or.inr (g1.trans hal)) hi⟩
      · exact ⟨a1.trans h1, a2, g1.trans hal, fun _ _ => g3⟩

end RK

/-- A history of `advise` and `reset` calls on the Runge-Kutta solver. -/
def rkRun (F : ℕ → K → V → V) (nrm : V → K) (bt : BT K) (cf : RKConf K) (s : RKState V × Eng V K) :
    List (Cmd K) → RKState V × Eng V K
  | [] => s
  | .advise dt :: cs => rkRun F nrm bt cf (rkAdvise F nrm bt cf dt s.1 s.2) cs
  | .reset :: cs => rkRun F nrm bt cf (s.1.reset, s.2) cs

/-- Runge-Kutta with any table, explicit or implicit, adaptive or not, with or without correction, and
any history of `advise` and `reset` calls on a new solver. -/
theorem rk_linear {F : ℕ → K → V → V} {L : V →ₗ[K] W} (hL : ∀ c t y, L (F c t y) = 0)
    (nrm : V → K) (bt : BT K) (cf : RKConf K) (e : Eng V K) (cs : List (Cmd K)) :
    L (rkRun F nrm bt cf (RKState.new, e) cs).2.y = L e.y := by
  have : ∀ (cs : List (Cmd K)) (s : RKState V × Eng V K), RKInv L bt s.1 →
      L (rkRun F nrm bt cf s cs).2.y = L s.2.y := by
    intro cs
    induction cs with
    | nil => intro s _; rfl
    | cons c cs ih =>
      rintro s ⟨hc, hk⟩
      cases c with
      | advise dt =>
        obtain ⟨a, b, _, d⟩ := subStep_inv hL nrm bt cf cf.maxRecursion 1 dt
          { r := s.1, cc := s.2.cc, t := s.2.time, y := s.2.y } hc hk
        exact (ih (rkAdvise F nrm bt cf dt s.1 s.2) ⟨b, fun _ => d (Or.inl one_pos)⟩).trans a
      | reset => exact ih (s.1.reset, s.2) ⟨map_zero L, hk⟩
  exact this cs _ ⟨map_zero L, by intro h; simp [RKState.new] at h⟩

/-! ### Bulirsch-Stoer -/

section BS
variable [IsStrictOrderedRing K]

lemma bsLevel_linear {F : ℕ → K → V → V} {L : V →ₗ[K] W} (hL : ∀ c t y, L (F c t y) = 0)
    (n : ℕ → ℕ) (dt t0 : K) (y0 : V) (c0 l : ℕ) : L (bsLevel F n dt t0 y0 c0 l) = L y0 := by
  have : ∀ m,
      let q := foldN m (Stetter.new, (⟨y0, t0, 0, c0 + bsEvals n l⟩ : Eng V K))
        (fun _ q => stetterAdvise F (dt / (n l : K)) q.1 q.2)
      L q.2.y = L y0 ∧ (q.1.allocated = true → q.1.initiated = true →
        L q.1.u = L y0 ∧ L q.1.v = L y0 ∧ L q.1.fu0 = 0) := by
    intro m
    induction m with
    | zero => exact ⟨rfl, by intro h; simp [foldN, Stetter.new] at h⟩
    | succ m ih => exact stetter_step hL _ _ two_ne_zero _ _ ih.1 ih.2
  exact (this (n l)).1

/-- The Bulirsch-Stoer solver: every history of calls, from any contents of the uninitialised tables. -/
theorem bs_linear {F : ℕ → K → V → V} {L : V →ₗ[K] W} (hL : ∀ c t y, L (F c t y) = 0)
    (nrm : V → K) {cf : BSConf K} (hcf : C23.Constructed cf) (dts : List K) :
    ∀ (b : BSState V) (e : Eng V K), C23.TablesOk cf b → ∀ r, C23.bsRun F nrm cf (b, e) dts = .ok r →
      L r.2.y = L e.y := by
  induction dts with
  | nil => intro b e _ r h; cases h; rfl
  | cons dt dts ih =>
    intro b e hb r h
    obtain ⟨r', M, hr', hb', hM, _, _, _, _, h0, h12, h3⟩ := C23.bs_step F nrm hcf dt hb e
    simp only [C23.bsRun, hr', bind, Except.bind] at h
    rw [ih r'.1 r'.2 hb' r h]
    rcases Nat.lt_or_ge cf.maxLevel 3 with hlt | hge
    · by_cases hz : cf.maxLevel = 0
      · rw [h0 hz]
      · rw [h12 (by omega), bsLevel_linear hL]
    · obtain ⟨h3M, hy, _⟩ := h3 hge
      rw [hy, bsExtrap, extrap, map_sum]
      simp only [map_smul, bsLevel_linear hL, ← Finset.sum_smul]
      have hm := C21.basis_moment (K := K) (s := Finset.Icc 0 (M - 1)) (d := 0)
        (x := fun i => 1 / (((C23.bsCount i) ^ 2 : ℕ) : K)) (by
          intro i _ j _ hij
          simp only [one_div, inv_inj] at hij
          have hij : C23.bsCount i ^ 2 = C23.bsCount j ^ 2 := by exact_mod_cast hij
          rcases Nat.lt_trichotomy i j with h | h | h
          · exact absurd hij (Nat.pow_lt_pow_left (C23.bsCount_increasing.2 _ _ h) (by decide)).ne
          · exact h
          · exact absurd hij (Nat.pow_lt_pow_left (C23.bsCount_increasing.2 _ _ h) (by decide)).ne')
        (by simp)
      simp only [pow_zero, mul_one, if_true] at hm
      rw [hm, one_smul]

end BS

/-! ### The direct-sum engine: the total momentum is such an invariant -/

/-- Component `k` of the total momentum of the state `Y` of `n` bodies of masses `M`. -/
noncomputable def momentum (n : ℕ) (M : ℕ → ℝ) (k : ℕ) : (ℕ → ℝ) →ₗ[ℝ] ℝ :=
  ∑ i ∈ Finset.range n, M i • LinearMap.proj (3 * n + k * n + i)

/-- `F` is what the direct-sum engine computes for `n` bodies of masses `M`. -/
def IsDirectSum (n : ℕ) (M : ℕ → ℝ) (F : ℕ → ℝ → (ℕ → ℝ) → ℕ → ℝ) : Prop :=
  ∀ c t Y, ∃ (hm y f : Handle) (m : Mem ℝ), y ≠ f ∧ hm ≠ f ∧ m y = some (buf (6 * n) Y) ∧
    m hm = some (buf n M) ∧ m.shape f = some (6 * n) ∧
    fcompute seqFor n hm y f m = .ok (m.set f (buf (6 * n) (F c t Y)))

/-- The momentum of the derivative computed by the direct-sum engine vanishes, so every theorem of this
file applies to it. -/
theorem directSum_momentum_rate {n : ℕ} {M : ℕ → ℝ} (hmass : ∀ i, i < n → M i ≠ 0)
    {F : ℕ → ℝ → (ℕ → ℝ) → ℕ → ℝ} (hF : IsDirectSum n M F) (k : ℕ) (hk : k < 3) (c : ℕ) (t : ℝ) (Y : ℕ → ℝ) :
    momentum n M k (F c t Y) = 0 := by
  obtain ⟨hm, y, f, m, hyf, hmf, hy, hM, hf, hr⟩ := hF c t Y
  obtain ⟨G, hG, h0, h1, h2, _⟩ := C02.fcompute_no_net_force_torque hyf hmf hy hM hf hmass
  rw [hr] at hG
  have hbuf : buf (6 * n) (F c t Y) = buf (6 * n) G := by
    have := congrArg (fun m => m f) (Except.ok.inj hG)
    simpa [Mem.set] using this
  have hcell : ∀ i, i < 6 * n → F c t Y i = G i := by
    intro i hi
    have := congrArg (fun l => l[i]?) hbuf
    simpa [buf, hi] using this
  have hsum : momentum n M k (F c t Y) = ∑ i ∈ Finset.range n, M i * G (3 * n + k * n + i) := by
    simp only [momentum, LinearMap.sum_apply, LinearMap.smul_apply, LinearMap.proj_apply, smul_eq_mul]
    refine Finset.sum_congr rfl fun i hi => ?_
    rw [hcell]
    have := Finset.mem_range.1 hi
    have : k * n ≤ 2 * n := Nat.mul_le_mul_right n (by omega)
    omega
  rw [hsum]
  have : k = 0 ∨ k = 1 ∨ k = 2 := by omega
  rcases this with rfl | rfl | rfl
  · simpa using h0
  · rw [← h1]; exact Finset.sum_congr rfl fun i _ => by congr 2; ring
  · rw [← h2]; exact Finset.sum_congr rfl fun i _ => by congr 2; ring

/-- The total momentum of any number of bodies under the direct-sum engine is the same before and after
any history of Runge-Kutta calls. -/
theorem directSum_rk_momentum {n : ℕ} {M : ℕ → ℝ} (hmass : ∀ i, i < n → M i ≠ 0)
    {F : ℕ → ℝ → (ℕ → ℝ) → ℕ → ℝ} (hF : IsDirectSum n M F) (k : ℕ) (hk : k < 3)
    (nrm : (ℕ → ℝ) → ℝ) (bt : BT ℝ) (cf : RKConf ℝ) (e : Eng (ℕ → ℝ) ℝ) (cs : List (Cmd ℝ)) :
    momentum n M k (rkRun F nrm bt cf (RKState.new, e) cs).2.y = momentum n M k e.y :=
  rk_linear (fun c t Y => directSum_momentum_rate hmass hF k hk c t Y) nrm bt cf e cs

/-- The hypothesis is met: the engine always terminates with some derivative. -/
example (n : ℕ) (M : ℕ → ℝ) : IsDirectSum n M (fun _ _ Y => derivVal n Y M) := by
  intro c t Y
  refine ⟨0, 1, 2, fun h => if h = 0 then some (buf n M) else if h = 1 then some (buf (6 * n) Y) else
    some (buf (6 * n) fun _ => 0), by decide, by decide, by simp, by simp, by simp [Mem.shape, buf], ?_⟩
  exact fcompute_eq (by decide) (by decide) (by simp) (by simp) (by simp [Mem.shape, buf])

/-- A concrete system over ℚ: two particles exchanging momentum; the sum is the invariant, and the
derivative is not zero. -/
def demoF : ℕ → ℚ → (Fin 2 → ℚ) → (Fin 2 → ℚ) := fun _ _ y => ![y 1 - y 0, y 0 - y 1]

/-- The sum of the two components. -/
def demoL : (Fin 2 → ℚ) →ₗ[ℚ] ℚ :=
  (LinearMap.proj 0 : (Fin 2 → ℚ) →ₗ[ℚ] ℚ) + (LinearMap.proj 1 : (Fin 2 → ℚ) →ₗ[ℚ] ℚ)

example : ∀ c t y, demoL (demoF c t y) = 0 := by intro c t y; simp [demoL, demoF]

example : (eulerAdvise demoF 1 ⟨![0, 4], 0, 0, 0⟩).y = ![4, 0] := by
  ext i; fin_cases i <;> simp [eulerAdvise, demoF, Eng.fc, Eng.adviseTime, vfmadd]

/-- The hypothesis on the starter of Adams is met by the starters of this file. -/
example (dt : ℚ) (s s' : Unit × Eng (Fin 2 → ℚ) ℚ)
    (h : (fun (dt : ℚ) (s : Unit × Eng (Fin 2 → ℚ) ℚ) =>
      (.ok (s.1, rk4Advise demoF dt s.2) : Res (Unit × Eng (Fin 2 → ℚ) ℚ))) dt s = .ok s') :
    demoL s'.2.y = demoL s.2.y := by
  cases h
  exact rk4_linear (by intro c t y; simp [demoL, demoF]) dt s.2

end NB.C12
