import Verif.Spec.Outcome
import Verif.Lemmas.SolverMachine2
import Verif.Lemmas.FloatForce

/-
Possible results of programs, and sums of buffers in rounded arithmetic.
-/

namespace Spec

open NB

section
variable {S : Type} [Add S] [Sub S] [Mul S] [Neg S] [Zero S] [FOps S]
variable {deriv : (Nat → S) → Nat → S} {n : Nat}

@[simp] theorem outcome_pure {α : Type} {a : α} {V : Buffers S} {r : α × Buffers S} :
    Outcome deriv n (pure a : Act S α) V r ↔ r = (a, V) := Iff.rfl

@[simp] theorem outcome_op {c : Call S} {V : Buffers S} {r : Unit × Buffers S} :
    Outcome deriv n (Act.op c) V r ↔ r = ((), Spec.call deriv n V c) := Iff.rfl

@[simp] theorem outcome_maxabs {h : Nat} {V : Buffers S} {r : S × Buffers S} :
    Outcome deriv n (Act.maxabs h) V r ↔ ∃ x, r = (x, V) := Iff.rfl

theorem outcome_bind {α β : Type} {p : Act S α} {f : α → Act S β} {r : β × Buffers S} : ∀ {V : Buffers S},
    Outcome deriv n (p >>= f) V r ↔ ∃ q, Outcome deriv n p V q ∧ Outcome deriv n (f q.1) q.2 r := by
  induction p with
  | ret a =>
    intro V
    exact ⟨fun h => ⟨_, rfl, h⟩, fun ⟨q, h1, h2⟩ => by
      have h1 : q = (a, V) := h1
      subst h1
      exact h2⟩
  | call c k ih => intro V; exact ih
  | norm h k ih =>
    intro V
    constructor
    · rintro ⟨x, hx⟩
      obtain ⟨q, h1, h2⟩ := (ih x).1 hx
      exact ⟨q, ⟨x, h1⟩, h2⟩
    · rintro ⟨q, ⟨x, h1⟩, h2⟩
      exact ⟨x, (ih x).2 ⟨q, h1, h2⟩⟩

/-- An invariant of a loop. -/
theorem outcome_forN {σ : Type} (N : Nat) {s : σ} {f : Nat → σ → Act S σ} {V : Buffers S} {r : σ × Buffers S}
    (P : Nat → σ × Buffers S → Prop) (h0 : P 0 (s, V))
    (hf : ∀ i, i < N → ∀ q q', P i q → Outcome deriv n (f i q.1) q.2 q' → P (i + 1) q')
    (h : Outcome deriv n (forN N s f) V r) : P N r := by
  induction N generalizing r with
  | zero => obtain rfl : r = (s, V) := h; exact h0
  | succ N ih =>
    rw [forN_succ, outcome_bind] at h
    obtain ⟨q, h1, h2⟩ := h
    exact hf N (by omega) q r (ih (fun i hi => hf i (by omega)) h1) h2

/-- **Simulation**: a program run on an engine ends in a possible result. -/
theorem run_outcome {α σ : Type} {E : EngineOps S σ} {H : Nat → Prop} {Rep : Buffers S → σ → Prop}
    (hE : Performs E n H deriv Rep) {p : Act S α} (hp : Allowed H p) : ∀ {V : Buffers S} {s : σ}, Rep V s →
    ∃ r s', Outcome deriv n p V r ∧ p.run E s = .ok (r.1, s') ∧ Rep r.2 s' := by
  induction p with
  | ret a => intro V s hr; exact ⟨(a, V), s, rfl, rfl, hr⟩
  | call c k ih =>
    intro V s hr
    obtain ⟨s1, h1, h2⟩ := hE.call c V s hp.1.1 hp.1.2 hr
    obtain ⟨r, s2, h3, h4, h5⟩ := ih hp.2 h2
    exact ⟨r, s2, h3, by rw [Act.run, h1]; exact h4, h5⟩
  | norm h k ih =>
    intro V s hr
    obtain ⟨x, s1, h1, h2⟩ := hE.norm h V s hp.1 hr
    obtain ⟨r, s2, h3, h4, h5⟩ := ih x (hp.2 _) h2
    exact ⟨r, s2, ⟨x, h3⟩, by rw [Act.run, h1]; exact h4, h5⟩

end

section
variable {S : Type} [Add S] [Sub S] [Mul S] [Neg S] [Div S] [Zero S] [One S] [FOps S] {val : S → ℝ} {u : ℝ}

/-- Terms of a sum: a buffer, a coefficient, and the number the coefficient stands for. -/
abbrev Terms (S : Type) := List (Nat × S × ℝ)

/-- The exact sum at index `j`, and the sum of the sizes. -/
def Terms.sum (val : S → ℝ) (V : Buffers S) (j : Nat) (ts : Terms S) : ℝ := (ts.map fun t => t.2.2 * val (V t.1 j)).sum
def Terms.size (val : S → ℝ) (V : Buffers S) (j : Nat) (ts : Terms S) : ℝ := (ts.map fun t => |t.2.2 * val (V t.1 j)|).sum

omit [Add S] [Sub S] [Mul S] [Neg S] [Div S] [Zero S] [One S] [FOps S] in
lemma Terms.congr {V W : Buffers S} {ts : Terms S} (h : ∀ t ∈ ts, V t.1 = W t.1) (j : Nat) :
    Terms.sum val V j ts = Terms.sum val W j ts ∧ Terms.size val V j ts = Terms.size val W j ts := by
  unfold Terms.sum Terms.size
  constructor <;> refine congrArg List.sum (List.map_congr_left fun t ht => ?_) <;> rw [h t ht]

lemma coef_zero (F : Spec.FloatOps val u) (hu : u < 1) {c : Nat} {γ : ℝ} {x : S} (h : Rel u c γ (val x)) :
    FOps.eqb x 0 = true ↔ γ = 0 := by
  rw [F.eqb, F.zero]
  constructor
  · intro e
    by_contra hne
    exact h.ne_zero hu hne e
  · intro e
    obtain ⟨θ, -, -, h⟩ := h
    rw [h, e, zero_mul]

lemma term_err (F : Spec.FloatOps val u) (h0 : 0 ≤ u) (hu : u < 1) {c K : Nat} {γ X A : ℝ} {x y z : S}
    (h : Rel u c γ (val x)) (hK : c + 1 ≤ K) (hz : Err u K X (val z) A) :
    Err u (K + 1) (X + γ * val y) (val (z + y * x)) (A + |γ * val y|) := by
  have h1 : Rel u (0 + c + 1) (val y * γ) (val (y * x)) := mul_rel F.toFloatModel h0 hu (Rel.refl u _) h
  have h2 : Err u K (γ * val y) (val (y * x)) |γ * val y| := by
    have := (Err.of_rel h0 hu h1).mono h0 hu (show 0 + c + 1 ≤ K by omega)
    rwa [mul_comm (val y)] at this
  exact (hz.add h2).round h0 hu (F.add _ _)

/-- `a += Σ …` in rounded arithmetic. -/
lemma foldl_err (F : Spec.FloatOps val u) (h0 : 0 ≤ u) (hu : u < 1) {a c : Nat} (ts : Terms S) :
    (∀ t ∈ ts, t.1 ≠ a) → (∀ t ∈ ts, Rel u c t.2.2 (val t.2.1)) → ∀ V : Buffers S,
    ∃ x, (ts.map fun t => (t.1, t.2.1)).foldl (addTerm a) V = put V a x ∧
      ∀ j X A K, c + 1 ≤ K → Err u K X (val (V a j)) A →
        Err u (K + ts.length) (X + Terms.sum val V j ts) (val (x j)) (A + Terms.size val V j ts) := by
  induction ts with
  | nil =>
    intro _ _ V
    exact ⟨V a, (put_self V a).symm, fun j X A K _ h => by simpa [Terms.sum, Terms.size] using h⟩
  | cons t ts ih =>
    intro ha hc V
    obtain ⟨hd, cf, γ⟩ := t
    have hr : Rel u c γ (val cf) := hc (hd, cf, γ) (by simp)
    have hha : hd ≠ a := ha (hd, cf, γ) (by simp)
    by_cases hz : γ = 0
    · obtain ⟨x, h1, h2⟩ := ih (fun t ht => ha t (by simp [ht])) (fun t ht => hc t (by simp [ht])) V
      refine ⟨x, ?_, fun j X A K hK h => ?_⟩
      · rw [List.map_cons, List.foldl_cons]
        unfold addTerm
        rw [if_pos ((coef_zero F hu hr).2 hz)]
        exact h1
      · have := (h2 j X A K hK h).mono h0 hu (show K + ts.length ≤ K + (ts.length + 1) by omega)
        simpa [Terms.sum, Terms.size, hz] using this
    · obtain ⟨x, h1, h2⟩ := ih (fun t ht => ha t (by simp [ht])) (fun t ht => hc t (by simp [ht]))
        (put V a fun j => V a j + V hd j * cf)
      refine ⟨x, ?_, fun j X A K hK h => ?_⟩
      · rw [List.map_cons, List.foldl_cons]
        conv_lhs => rw [show addTerm a V (hd, cf) = put V a fun j => V a j + V hd j * cf from
          if_neg fun e => hz ((coef_zero F hu hr).1 e)]
        rw [h1, put_put]
      · obtain ⟨g1, g2⟩ := Terms.congr (val := val) (V := put V a fun j => V a j + V hd j * cf) (W := V) (ts := ts)
          (fun t ht => put_ne _ _ (ha t (by simp [ht]))) j
        have := h2 j (X + γ * val (V hd j)) (A + |γ * val (V hd j)|) (K + 1) (by omega) (by
          rw [put_same]
          exact term_err F h0 hu hr hK h)
        rw [g1, g2] at this
        rw [show (((hd, cf, γ) :: ts : Terms S)).length = ts.length + 1 from rfl, show K + (ts.length + 1) = K + 1 + ts.length by omega]
        simp only [Terms.sum, Terms.size, List.map_cons, List.sum_cons] at this ⊢
        rw [← add_assoc, ← add_assoc]
        exact this

/-- `a = b + Σ …` in rounded arithmetic, if one of the coefficients is not zero. -/
lemma sumFrom_err (F : Spec.FloatOps val u) (h0 : 0 ≤ u) (hu : u < 1) {a b c : Nat} (ts : Terms S) :
    (∀ t ∈ ts, t.1 ≠ a) → (∀ t ∈ ts, Rel u c t.2.2 (val t.2.1)) → (∃ t ∈ ts, t.2.2 ≠ 0) → ∀ V : Buffers S,
    ∃ x, sumFrom a b V (ts.map fun t => (t.1, t.2.1)) = put V a x ∧
      ∀ j, Err u (c + 1 + ts.length) (val (V b j) + Terms.sum val V j ts) (val (x j)) (|val (V b j)| + Terms.size val V j ts) := by
  induction ts with
  | nil => rintro _ _ ⟨t, ht, _⟩; cases ht
  | cons t ts ih =>
    intro ha hc hne V
    obtain ⟨hd, cf, γ⟩ := t
    have hr : Rel u c γ (val cf) := hc (hd, cf, γ) (by simp)
    by_cases hz : γ = 0
    · obtain ⟨x, h1, h2⟩ := ih (fun t ht => ha t (by simp [ht])) (fun t ht => hc t (by simp [ht])) (by
        obtain ⟨t, ht, hn⟩ := hne
        rcases List.mem_cons.1 ht with rfl | ht
        · exact absurd hz hn
        · exact ⟨t, ht, hn⟩) V
      refine ⟨x, ?_, fun j => ?_⟩
      · rw [List.map_cons]
        unfold sumFrom
        rw [if_pos ((coef_zero F hu hr).2 hz)]
        exact h1
      · have := (h2 j).mono h0 hu (show c + 1 + ts.length ≤ c + 1 + (ts.length + 1) by omega)
        simpa [Terms.sum, Terms.size, hz] using this
    · obtain ⟨x, h1, h2⟩ := foldl_err F h0 hu (a := a) (c := c) ts (fun t ht => ha t (by simp [ht])) (fun t ht => hc t (by simp [ht]))
        (put V a fun j => V b j + V hd j * cf)
      refine ⟨x, ?_, fun j => ?_⟩
      · rw [List.map_cons]
        unfold sumFrom
        rw [if_neg fun e => hz ((coef_zero F hu hr).1 e), h1, put_put]
      · obtain ⟨g1, g2⟩ := Terms.congr (val := val) (V := put V a fun j => V b j + V hd j * cf) (W := V) (ts := ts)
          (fun t ht => put_ne _ _ (ha t (by simp [ht]))) j
        have := h2 j (val (V b j) + γ * val (V hd j)) (|val (V b j)| + |γ * val (V hd j)|) (c + 1 + 1) (by omega) (by
          rw [put_same]
          exact term_err F h0 hu hr le_rfl ((Err.of_rel h0 hu (Rel.refl u _)).mono h0 hu (by omega)))
        rw [g1, g2] at this
        rw [show (((hd, cf, γ) :: ts : Terms S)).length = ts.length + 1 from rfl,
          show c + 1 + (ts.length + 1) = c + 1 + 1 + ts.length by omega]
        simp only [Terms.sum, Terms.size, List.map_cons, List.sum_cons] at this ⊢
        rw [← add_assoc, ← add_assoc]
        exact this

end

end Spec
