import Verif.Props.C17_Tables
import Mathlib.Algebra.Order.Field.Basic

/-
C19: the adaptive subdivision of a Runge-Kutta step.

Specification: the accepted steps ("leaves") of one `advise(dt)` form a chain that starts at the old time
and state and ends at the new ones; each has size `dt / s^k` for a depth `k` up to the recursion limit; each
is a step of the scheme with weights `b2`; each below the recursion limit and above the minimal step has an
error estimate within the threshold; and each leaf of positive depth is one of the `s` parts of an interval
on which a trial step was rejected.
-/

namespace NB.C19

open Finset

/-- An accepted step: start time, size, depth, state before and after, stage derivatives. -/
structure Leaf (V K : Type) where
  t : K
  h : K
  depth : ℕ
  y : V
  y' : V
  k : ℕ → V

/-- Consecutive leaves fit together in time and state. -/
def Chain {V K : Type} [Add K] : List (Leaf V K) → K → V → K → V → Prop
  | [], t, y, t', y' => t = t' ∧ y = y'
  | l :: ls, t, y, t', y' => l.t = t ∧ l.y = y ∧ Chain ls (t + l.h) l.y' t' y'

section
variable {V K : Type} [Field K] [LinearOrder K] [IsStrictOrderedRing K] [AddCommGroup V] [Module K V]

omit [LinearOrder K] [IsStrictOrderedRing K] [AddCommGroup V] [Module K V] in
lemma Chain.append {l₁ l₂ : List (Leaf V K)} {t t' t'' : K} {y y' y'' : V} (h₁ : Chain l₁ t y t' y')
    (h₂ : Chain l₂ t' y' t'' y'') : Chain (l₁ ++ l₂) t y t'' y'' := by
  induction l₁ generalizing t y with
  | nil => obtain ⟨rfl, rfl⟩ := h₁; exact h₂
  | cons l ls ih => exact ⟨h₁.1, h₁.2.1, ih h₁.2.2⟩

/-- The error estimate of a trial step with stages `k`. -/
def errOf (nrm : V → K) (bt : BT K) (k : ℕ → V) : K :=
  nrm (∑ i ∈ range bt.steps, (bt.b2 i - bt.b1 i) • k i)

/-- What is required of a leaf.  `Stages y t h k` says that `k` are the stage derivatives of a step of size
`h` from `(t, y)`. -/
structure LeafOK (Stages : V → K → K → (ℕ → V) → Prop) (nrm : V → K) (bt : BT K) (cf : RKConf K)
    (dt : K) (l : Leaf V K) : Prop where
  size : l.h = dt / (cf.subdivisions : K) ^ l.depth
  depth : l.depth ≤ cf.maxRecursion
  stages : Stages l.y l.t l.h l.k
  advance : l.y' = l.y + l.h • ∑ i ∈ range bt.steps, bt.b2 i • l.k i
  accepted : bt.embedded = true → l.depth < cf.maxRecursion → cf.minStep < l.h →
    errOf nrm bt l.k ≤ cf.threshold
  parent : 0 < l.depth → ∃ (j : ℕ) (tp : K) (yp : V) (kp : ℕ → V), j < cf.subdivisions ∧
    l.t = tp + j * l.h ∧ Stages yp tp (l.h * cf.subdivisions) kp ∧ bt.embedded = true ∧
    cf.minStep < l.h * cf.subdivisions ∧ cf.threshold < errOf nrm bt kp

/-- Invariant of the solver's buffers in exact arithmetic. -/
def Inv (cf : RKConf K) (r : RKState V) : Prop := cf.correction = true → r.ycorr = 0

omit [IsStrictOrderedRing K] in
lemma rkError_eq (nrm : V → K) (bt : BT K) (r : RKState V) (h : bt.embedded = true) :
    (rkError nrm bt r).2 = errOf nrm bt r.k := by
  simp [rkError, h, vfmaddn_none, errOf]

omit [IsStrictOrderedRing K] in
lemma rkAdvance_inv (bt : BT K) (cf : RKConf K) (dt : K) (r : RKState V) (y : V) (h : Inv cf r) :
    cf.correction = true → (rkAdvance bt cf dt r y).2 = 0 := by
  intro hc
  simp [rkAdvance, hc, h hc, vfmaddnCorr_eq]

omit [IsStrictOrderedRing K] in
lemma stages_ycorr (F : ℕ → K → V → V) (bt : BT K) (cf : RKConf K) (first : Bool) (r : RKState V) (cc : ℕ)
    (y : V) (t h : K) : (rkStages F bt cf first y t h (r, cc)).1.ycorr = r.ycorr := by
  unfold rkStages
  by_cases hi : bt.implicit = true
  · rw [if_pos hi]
    unfold rkImplicit
    have hfa : (if first then rkFirstApproach F bt y t h (r, cc) else (r, cc)).1.ycorr = r.ycorr := by
      cases first
      · rfl
      · simp only [if_true]
        exact foldN_inv (P := fun _ (p : RKState V × ℕ) => p.1.ycorr = r.ycorr) rfl fun i p _ hp => hp
    exact foldN_inv (P := fun _ (p : RKState V × ℕ) => p.1.ycorr = r.ycorr) hfa fun i p _ hp =>
      foldN_inv (P := fun _ (p : RKState V × ℕ) => p.1.ycorr = r.ycorr) hp fun i p _ hp => hp
  · rw [if_neg hi]
    refine foldN_inv (P := fun _ (p : RKState V × ℕ) => p.1.ycorr = r.ycorr) rfl fun i p _ hp => ?_
    unfold rkStageExplicit
    by_cases h0 : i = 0
    · rw [if_pos h0]; exact hp
    · rw [if_neg h0]
      by_cases hcorr : cf.correction = true <;> simpa [hcorr] using hp

/-- A rejected trial step at depth `d`. -/
def Rejected (Stages : V → K → K → (ℕ → V) → Prop) (nrm : V → K) (bt : BT K) (cf : RKConf K) (t h : K) : Prop :=
  ∃ yp kp, Stages yp t h kp ∧ bt.embedded = true ∧ cf.minStep < h ∧ cf.threshold < errOf nrm bt kp

lemma subStep_leaves (Stages : V → K → K → (ℕ → V) → Prop) (F : ℕ → K → V → V) (nrm : V → K) (bt : BT K)
    (cf : RKConf K) (dt0 : K) (hdt0 : dt0 ≠ 0) (hsub : 0 < cf.subdivisions)
    (hst : ∀ first r cc y t h, h ≠ 0 → Inv cf r →
      Inv cf (rkStages F bt cf first y t h (r, cc)).1 ∧ Stages y t h (rkStages F bt cf first y t h (r, cc)).1.k) :
    ∀ (fuel d : ℕ), d + fuel = cf.maxRecursion → ∀ (count : ℕ) (s : SubSt V K), Inv cf s.r →
      (d = 0 ∨ (count ≤ cf.subdivisions ∧
        Rejected Stages nrm bt cf s.t (dt0 / (cf.subdivisions : K) ^ d * cf.subdivisions))) →
      let q := rkSubStep F nrm bt cf fuel count (dt0 / (cf.subdivisions : K) ^ d) s
      Inv cf q.r ∧ q.t = s.t + count * (dt0 / (cf.subdivisions : K) ^ d) ∧
      ∃ ls : List (Leaf V K), Chain ls s.t s.y q.t q.y ∧
        (∀ l ∈ ls, LeafOK Stages nrm bt cf dt0 l) ∧ ls.length ≤ count * cf.subdivisions ^ fuel := by
  have hs0 : (cf.subdivisions : K) ≠ 0 := by exact_mod_cast hsub.ne'
  intro fuel
  induction fuel with
  | zero =>
    intro d hd count s hI hpar q
    have hh : dt0 / (cf.subdivisions : K) ^ d ≠ 0 := div_ne_zero hdt0 (pow_ne_zero _ hs0)
    have := foldN_inv (n := count) (s := { s with r := { s.r with allocated := true } })
      (f := fun _ s' =>
        let st := rkStages F bt cf (!s.r.allocated) s'.y s'.t (dt0 / (cf.subdivisions : K) ^ d) (s'.r, s'.cc)
        let er := rkError nrm bt st.1
        let r := { st.1 with tbuf := er.1 }
        let p := rkAdvance bt cf (dt0 / (cf.subdivisions : K) ^ d) r s'.y
        { r := { r with ycorr := p.2 }, cc := st.2, t := s'.t + dt0 / (cf.subdivisions : K) ^ d, y := p.1 })
      (P := fun m (s' : SubSt V K) => Inv cf s'.r ∧
        s'.t = s.t + m * (dt0 / (cf.subdivisions : K) ^ d) ∧
        ∃ ls : List (Leaf V K), Chain ls s.t s.y s'.t s'.y ∧ (∀ l ∈ ls, LeafOK Stages nrm bt cf dt0 l) ∧
          ls.length ≤ m * cf.subdivisions ^ 0)
      ⟨hI, by simp, [], ⟨rfl, rfl⟩, by simp, by simp⟩ ?_
    · exact this
    · rintro i s' hi ⟨hI', ht, ls, hc, hl, hlen⟩
      have h1 := hst (!s.r.allocated) s'.r s'.cc s'.y s'.t _ hh hI'
      refine ⟨fun hcor => rkAdvance_inv _ _ _ _ _ h1.1 hcor, by rw [ht]; push_cast; ring, ?_⟩
      refine ⟨ls ++ [⟨s'.t, dt0 / (cf.subdivisions : K) ^ d, d, s'.y, _,
        (rkStages F bt cf (!s.r.allocated) s'.y s'.t (dt0 / (cf.subdivisions : K) ^ d) (s'.r, s'.cc)).1.k⟩],
        hc.append ⟨rfl, rfl, rfl, rfl⟩, ?_, ?_⟩
      · intro l hl'
        rcases List.mem_append.1 hl' with h | h
        · exact hl l h
        · rw [List.mem_singleton] at h
          subst h
          refine ⟨rfl, by simp only; omega, h1.2, C16.rkAdvance_eq _ _ _ _ _ h1.1, ?_, ?_⟩
          · intro _ hlt; simp only at hlt; omega
          · intro h0
            simp only at h0
            rcases hpar with h | ⟨hcnt, yp, kp, hp⟩
            · omega
            · exact ⟨i, s.t, yp, kp, by omega, ht, hp⟩
      · simp only [List.length_append, List.length_singleton, pow_zero, mul_one] at hlen ⊢
        omega
  | succ fuel ih =>
    intro d hd count s hI hpar q
    have hh : dt0 / (cf.subdivisions : K) ^ d ≠ 0 := div_ne_zero hdt0 (pow_ne_zero _ hs0)
    set h := dt0 / (cf.subdivisions : K) ^ d with hdef
    have := foldN_inv (n := count) (s := { s with r := { s.r with allocated := true } })
      (f := fun _ s' =>
        let st := rkStages F bt cf (!s.r.allocated) s'.y s'.t h (s'.r, s'.cc)
        let er := rkError nrm bt st.1
        let r := { st.1 with tbuf := er.1 }
        if (bt.embedded && decide (cf.minStep < h)) && decide (cf.threshold < er.2) then
          let q := rkSubStep F nrm bt cf fuel cf.subdivisions (h / (cf.subdivisions : K))
            { r := r, cc := st.2, t := s'.t, y := s'.y }
          { q with t := s'.t + h }
        else
          let p := rkAdvance bt cf h r s'.y
          { r := { r with ycorr := p.2 }, cc := st.2, t := s'.t + h, y := p.1 })
      (P := fun m (s' : SubSt V K) => Inv cf s'.r ∧ s'.t = s.t + m * h ∧
        ∃ ls : List (Leaf V K), Chain ls s.t s.y s'.t s'.y ∧ (∀ l ∈ ls, LeafOK Stages nrm bt cf dt0 l) ∧
          ls.length ≤ m * cf.subdivisions ^ (fuel + 1))
      ⟨hI, by simp, [], ⟨rfl, rfl⟩, by simp, by simp⟩ ?_
    · exact this
    · rintro i s' hi ⟨hI', ht, ls, hc, hl, hlen⟩
      have h1 := hst (!s.r.allocated) s'.r s'.cc s'.y s'.t _ hh hI'
      dsimp only
      split
      · rename_i hcond
        simp only [Bool.and_eq_true, decide_eq_true_eq] at hcond
        obtain ⟨⟨he, hm⟩, hthr⟩ := hcond
        rw [rkError_eq _ _ _ he] at hthr
        have e1 : h / (cf.subdivisions : K) = dt0 / (cf.subdivisions : K) ^ (d + 1) := by
          rw [hdef, div_div, pow_succ]
        have e2 : dt0 / (cf.subdivisions : K) ^ (d + 1) * cf.subdivisions = h := by
          rw [← e1, div_mul_cancel₀ _ hs0]
        rw [e1]
        have key := ih (d + 1) (by omega) cf.subdivisions
          { r := { (rkStages F bt cf (!s.r.allocated) s'.y s'.t h (s'.r, s'.cc)).1 with
              tbuf := (rkError nrm bt (rkStages F bt cf (!s.r.allocated) s'.y s'.t h (s'.r, s'.cc)).1).1 },
            cc := (rkStages F bt cf (!s.r.allocated) s'.y s'.t h (s'.r, s'.cc)).2, t := s'.t, y := s'.y }
          h1.1 (Or.inr ⟨le_refl _, s'.y, _, by rw [e2]; exact h1.2, he, by rw [e2]; exact hm, hthr⟩)
        obtain ⟨k1, k2, ls', k3, k4, k5⟩ := key
        refine ⟨k1, by simp only; rw [ht]; push_cast; ring, ls ++ ls', ?_, ?_, ?_⟩
        · have : s'.t + h = (rkSubStep F nrm bt cf fuel cf.subdivisions (dt0 / (cf.subdivisions : K) ^ (d + 1))
              { r := { (rkStages F bt cf (!s.r.allocated) s'.y s'.t h (s'.r, s'.cc)).1 with
                  tbuf := (rkError nrm bt (rkStages F bt cf (!s.r.allocated) s'.y s'.t h (s'.r, s'.cc)).1).1 },
                cc := (rkStages F bt cf (!s.r.allocated) s'.y s'.t h (s'.r, s'.cc)).2, t := s'.t, y := s'.y }).t := by
            rw [k2, ← e2]; simp only; ring
          simp only
          rw [this]
          exact hc.append k3
        · intro l hl'
          rcases List.mem_append.1 hl' with h | h
          · exact hl l h
          · exact k4 l h
        · rw [List.length_append]
          calc ls.length + ls'.length
              ≤ i * cf.subdivisions ^ (fuel + 1) + cf.subdivisions * cf.subdivisions ^ fuel := by omega
            _ = (i + 1) * cf.subdivisions ^ (fuel + 1) := by ring
      · rename_i hcond
        refine ⟨fun hcor => rkAdvance_inv _ _ _ _ _ h1.1 hcor, by simp only; rw [ht]; push_cast; ring, ?_⟩
        refine ⟨ls ++ [⟨s'.t, h, d, s'.y, _,
          (rkStages F bt cf (!s.r.allocated) s'.y s'.t h (s'.r, s'.cc)).1.k⟩],
          hc.append ⟨rfl, rfl, rfl, rfl⟩, ?_, ?_⟩
        · intro l hl'
          rcases List.mem_append.1 hl' with h' | h'
          · exact hl l h'
          · rw [List.mem_singleton] at h'
            subst h'
            refine ⟨hdef, by simp only; omega, h1.2, C16.rkAdvance_eq _ _ _ _ _ h1.1, ?_, ?_⟩
            · intro he _ hms
              simp only [Bool.and_eq_true, decide_eq_true_eq, not_and, not_lt] at hcond
              rw [← rkError_eq nrm bt _ he]
              exact hcond ⟨he, hms⟩
            · intro h0
              simp only at h0
              rcases hpar with h | ⟨hcnt, yp, kp, hp⟩
              · omega
              · exact ⟨i, s.t, yp, kp, by omega, ht, hp⟩
        · have : 1 ≤ cf.subdivisions ^ (fuel + 1) := Nat.one_le_pow _ _ hsub
          rw [List.length_append, List.length_singleton, add_mul, one_mul]
          omega

/-- **The accepted steps cover the interval exactly**, for every table (explicit or implicit), derivative
function, threshold, recursion limit and number of subdivisions: they chain from the old time and state to
`t + dt` and the new state, with sizes `dt/s^k`, `k ≤ max_recursion`, and there are at most
`s^max_recursion` of them. -/
theorem leaves_cover (F : ℕ → K → V → V) (nrm : V → K) (bt : BT K) (cf : RKConf K) (dt : K)
    (r : RKState V) (e : Eng V K) (hdt : dt ≠ 0) (hsub : 0 < cf.subdivisions)
    (hc : cf.correction = true → r.ycorr = 0) :
    let e' := (rkAdvise F nrm bt cf dt r e).2
    e'.time = e.time + dt ∧ ∃ ls : List (Leaf V K), Chain ls e.time e.y e'.time e'.y ∧
      (∀ l ∈ ls, LeafOK (fun _ _ _ _ => True) nrm bt cf dt l) ∧
      1 ≤ ls.length ∧ ls.length ≤ cf.subdivisions ^ cf.maxRecursion := by
  intro e'
  have key := subStep_leaves (fun _ _ _ _ => True) F nrm bt cf dt hdt hsub
    (fun first r cc y t h _ hI => ⟨fun hcor => by rw [stages_ycorr, hI hcor], trivial⟩)
    cf.maxRecursion 0 (by omega) 1 { r := r, cc := e.cc, t := e.time, y := e.y } hc (Or.inl rfl)
  simp only [pow_zero, div_one, Nat.cast_one, one_mul] at key
  obtain ⟨_, k2, ls, k3, k4, k5⟩ := key
  refine ⟨by simp [e', rkAdvise, Eng.adviseTime], ls, ?_, k4, ?_, k5⟩
  · rw [k2] at k3
    simpa [e', rkAdvise, Eng.adviseTime] using k3
  · rcases ls with _ | ⟨l, ls⟩
    · exfalso
      obtain ⟨h, _⟩ := k3
      rw [k2] at h
      apply hdt
      simpa using h
    · simp

/-- The stage equations of the explicit scheme, with the evaluations numbered from some `n₀`. -/
def ExplicitStages (F : ℕ → K → V → V) (bt : BT K) (y : V) (t h : K) (k : ℕ → V) : Prop :=
  ∃ n₀, ∀ i, i < bt.steps → k i = F (n₀ + i) (t + bt.c i * h) (y + h • ∑ j ∈ range i, bt.a i j • k j)

/-- **For an explicit table every accepted step is a step of the scheme**, accepted only with an error
within the threshold (below the recursion limit and above the minimal step), and taken at a positive depth
only inside an interval on which the trial step had an error above the threshold. -/
theorem explicit_leaves (F : ℕ → K → V → V) (nrm : V → K) (bt : BT K) (cf : RKConf K) (dt : K)
    (r : RKState V) (e : Eng V K) (hdt : dt ≠ 0) (hsub : 0 < cf.subdivisions)
    (hi : bt.implicit = false) (hrows : C16.RowsNonzero bt)
    (hc : cf.correction = true → r.ycorr = 0) :
    let e' := (rkAdvise F nrm bt cf dt r e).2
    ∃ ls : List (Leaf V K), Chain ls e.time e.y (e.time + dt) e'.y ∧
      (∀ l ∈ ls, LeafOK (ExplicitStages F bt) nrm bt cf dt l) := by
  intro e'
  have key := subStep_leaves (ExplicitStages F bt) F nrm bt cf dt hdt hsub
    (fun first r cc y t h hh hI => by
      have := C16.rkExplicit_stages F bt cf y t h r cc hI (Or.inr hrows) (Or.inr hh)
      rw [rkStages, hi]
      exact ⟨fun hcor => by rw [← hI hcor]; exact this.2.1, cc, this.2.2⟩)
    cf.maxRecursion 0 (by omega) 1 { r := r, cc := e.cc, t := e.time, y := e.y } hc (Or.inl rfl)
  simp only [pow_zero, div_one, Nat.cast_one, one_mul] at key
  obtain ⟨_, k2, ls, k3, k4, _⟩ := key
  refine ⟨ls, ?_, k4⟩
  rw [k2] at k3
  simpa [e', rkAdvise, Eng.adviseTime] using k3

omit [IsStrictOrderedRing K] in
/-- One iteration of `sub_step` below the recursion limit. -/
lemma subStep_one (F : ℕ → K → V → V) (nrm : V → K) (bt : BT K) (cf : RKConf K) (n : ℕ) (dt : K)
    (s : SubSt V K) :
    rkSubStep F nrm bt cf (n + 1) 1 dt s =
      (if (bt.embedded && decide (cf.minStep < dt) && decide (cf.threshold < (rkError nrm bt
          (rkStages F bt cf (!s.r.allocated) s.y s.t dt ({ s.r with allocated := true }, s.cc)).1).2)) = true then
        { rkSubStep F nrm bt cf n cf.subdivisions (dt / (cf.subdivisions : K))
          { r := { (rkStages F bt cf (!s.r.allocated) s.y s.t dt ({ s.r with allocated := true }, s.cc)).1 with
              tbuf := (rkError nrm bt
                (rkStages F bt cf (!s.r.allocated) s.y s.t dt ({ s.r with allocated := true }, s.cc)).1).1 },
            cc := (rkStages F bt cf (!s.r.allocated) s.y s.t dt ({ s.r with allocated := true }, s.cc)).2,
            t := s.t, y := s.y } with t := s.t + dt }
      else
        { r := { (rkStages F bt cf (!s.r.allocated) s.y s.t dt ({ s.r with allocated := true }, s.cc)).1 with
              tbuf := (rkError nrm bt
                (rkStages F bt cf (!s.r.allocated) s.y s.t dt ({ s.r with allocated := true }, s.cc)).1).1,
              ycorr := (rkAdvance bt cf dt
                { (rkStages F bt cf (!s.r.allocated) s.y s.t dt ({ s.r with allocated := true }, s.cc)).1 with
                  tbuf := (rkError nrm bt
                    (rkStages F bt cf (!s.r.allocated) s.y s.t dt ({ s.r with allocated := true }, s.cc)).1).1 }
                s.y).2 }
          cc := (rkStages F bt cf (!s.r.allocated) s.y s.t dt ({ s.r with allocated := true }, s.cc)).2
          t := s.t + dt
          y := (rkAdvance bt cf dt
                { (rkStages F bt cf (!s.r.allocated) s.y s.t dt ({ s.r with allocated := true }, s.cc)).1 with
                  tbuf := (rkError nrm bt
                    (rkStages F bt cf (!s.r.allocated) s.y s.t dt ({ s.r with allocated := true }, s.cc)).1).1 }
                s.y).1 }) := by
  rw [rkSubStep]
  rfl

/-- **If the first trial is accepted there is one leaf**: when the error estimate of the whole step is
within the threshold, the step is not subdivided. -/
theorem accepted_not_subdivided (F : ℕ → K → V → V) (nrm : V → K) (bt : BT K) (cf : RKConf K) (dt : K)
    (r : RKState V) (e : Eng V K)
    (h : errOf nrm bt (rkStages F bt cf (!r.allocated) e.y e.time dt
      ({ r with allocated := true }, e.cc)).1.k ≤ cf.threshold)
    (hc : cf.correction = true → r.ycorr = 0) :
    (rkAdvise F nrm bt cf dt r e).2.y = e.y + dt • ∑ i ∈ range bt.steps, bt.b2 i •
      (rkStages F bt cf (!r.allocated) e.y e.time dt ({ r with allocated := true }, e.cc)).1.k i := by
  have hc' : cf.correction = true → (rkStages F bt cf (!r.allocated) e.y e.time dt
      ({ r with allocated := true }, e.cc)).1.ycorr = 0 := fun hcor => by rw [stages_ycorr]; exact hc hcor
  have hcond : (bt.embedded && decide (cf.minStep < dt) && decide (cf.threshold < (rkError nrm bt
      (rkStages F bt cf (!r.allocated) e.y e.time dt ({ r with allocated := true }, e.cc)).1).2)) = false := by
    rw [Bool.eq_false_iff]
    simp only [ne_eq, Bool.and_eq_true, decide_eq_true_eq, not_and, not_lt]
    intro ⟨he, _⟩
    rw [rkError_eq _ _ _ he]; exact h
  unfold rkAdvise
  cases hm : cf.maxRecursion with
  | zero =>
    rw [rkSubStep]
    simp only [foldN, Eng.adviseTime]; exact C16.rkAdvance_eq _ _ _ _ _ hc'
  | succ n =>
    rw [subStep_one, hcond]
    simp only [Eng.adviseTime, Bool.false_eq_true, if_false]
    exact C16.rkAdvance_eq _ _ _ _ _ hc'

end

/-- The theorem applies to a run that really subdivides: rkck on `y' = 1000 t⁵` from 0 to 1 with threshold
1/2, two subdivisions and recursion limit 2 takes more than one accepted step - its result differs from the
single step. -/
example : (rkAdvise (V := ℚ) (K := ℚ) (fun _ t _ => 1000 * t ^ 5) abs rkckTab.toBT ⟨2, 2, 1 / 2, 1, false, 0⟩ 1
      RKState.new ⟨0, 0, 0, 0⟩).2.y ≠
    (rkAdvise (V := ℚ) (K := ℚ) (fun _ t _ => 1000 * t ^ 5) abs rkckTab.toBT ⟨0, 2, 1 / 2, 1, false, 0⟩ 1
      RKState.new ⟨0, 0, 0, 0⟩).2.y := by decide +kernel

example : ∃ ls : List (Leaf ℚ ℚ), Chain ls 0 0 (0 + 1)
      (rkAdvise (V := ℚ) (K := ℚ) (fun _ t _ => 1000 * t ^ 5) abs rkckTab.toBT ⟨2, 2, 1 / 2, 1, false, 0⟩ 1
        RKState.new ⟨0, 0, 0, 0⟩).2.y ∧
      ∀ l ∈ ls, LeafOK (ExplicitStages (fun _ t _ => 1000 * t ^ 5) rkckTab.toBT) abs rkckTab.toBT
        ⟨2, 2, 1 / 2, 1, false, 0⟩ 1 l := by
  have hrows : C16.RowsNonzero rkckTab.toBT := fun i h0 hi =>
    ((by decide +kernel : C17.WellFormed rkckTab).2.2 rfl i hi).2 h0
  exact explicit_leaves (V := ℚ) (K := ℚ) (fun _ t _ => 1000 * t ^ 5) abs rkckTab.toBT
    ⟨2, 2, 1 / 2, 1, false, 0⟩ 1 RKState.new ⟨0, 0, 0, 0⟩ (by norm_num) (by norm_num) rfl hrows (by simp)

end NB.C19
