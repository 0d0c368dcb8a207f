import Verif.Spec.Factory
import Verif.Model.Solvers
import Verif.Model.ButcherTables
import Verif.Props.C49_EngineFactory
import Mathlib.Tactic.SplitIfs
import Mathlib.Tactic.Tauto

/-
C50: the solver factory.
-/

namespace NB.C50

open FactorySpec

variable {V D : Type}

lemma get_text (c : Conv V D) (p : Params V) (o d : String) : p.get o c.toStr d = text c p o d := by
  unfold Params.get text; rfl

/-- The alias of the starter the documentation promises for `adams`. -/
def starterAlias (c : Conv V D) (p : Params V) : String := text c p "starter_solver" "euler"

/-- The parameters the starter is created with. -/
def starterParams (ofStr : String → V) (p : Params V) : Params V :=
  p.insert "solver" ((p "starter_solver").getD (ofStr "euler"))

lemma starter_alias (c : Conv V D) (ofStr : String → V) (hs : ∀ s, c.toStr (ofStr s) = s) (p : Params V) :
    text c (starterParams ofStr p) "solver" "" = starterAlias c p := by
  unfold starterParams starterAlias text Params.insert
  simp only [if_true]
  cases p "starter_solver" <;> simp [hs]

lemma starter_other (ofStr : String → V) (p : Params V) (o : String) (h : o ≠ "solver") :
    starterParams ofStr p o = p o := by
  unfold starterParams Params.insert
  rw [if_neg h]

/-- The result for an alias other than `adams`. -/
lemma create_plain (c : Conv V D) (ofStr : String → V) (p : Params V) (h : text c p "solver" "" ≠ "adams")
    (n m : ℕ) : createSolver c ofStr (n + 1) p = createSolver c ofStr (m + 1) p := by
  simp only [createSolver, get_text, if_neg h]

lemma create_adams (c : Conv V D) (ofStr : String → V) (p : Params V) (h : text c p "solver" "" = "adams")
    (n : ℕ) : createSolver c ofStr (n + 1) p =
      match createSolver c ofStr n (starterParams ofStr p) with
      | .error u => .error u
      | .ok none => .ok none
      | .ok (some starter) =>
        .ok (some (.adams starter (sizeOfInt (p.get "rank" c.toInt 1))
          (p.get "correction" c.toBool false) (stepSettings c p))) := by
  conv_lhs => unfold createSolver
  simp only [get_text, if_pos h]
  rfl

lemma alias_cases (a : String) : a = "adams" ∨ a = "bs" ∨ a = "euler" ∨ a = "midpoint" ∨ a = "midpoint-st" ∨
    a = "rk4" ∨ a = "rkck" ∨ a = "rkdp" ∨ a = "rkdverk" ∨ a = "rkf" ∨ a = "rkfeagin10" ∨ a = "rkfeagin12" ∨
    a = "rkfeagin14" ∨ a = "rkgl" ∨ a = "rklc" ∨ a = "trapeze" ∨ a ∉ solverAliases := by
  unfold solverAliases
  simp only [List.mem_cons, List.not_mem_nil, or_false]
  tauto

/-- Everything about an alias other than `adams`. -/
lemma plain_spec (c : Conv V D) (ofStr : String → V) (p : Params V) (h : text c p "solver" "" ≠ "adams") (n : ℕ) :
    (text c p "solver" "" ∉ solverAliases ∧ createSolver c ofStr (n + 1) p = .ok none) ∨
    (text c p "solver" "" ∈ solverAliases ∧ ∃ d, createSolver c ofStr (n + 1) p = .ok (some d) ∧
      d.typeName = solverClass (text c p "solver" "") ∧
      solverSettings d = (solverOptions c (text c p "solver" "")).map (fun o => o p)) := by
  simp only [createSolver, get_text, if_neg h]
  revert h
  generalize text c p "solver" "" = a
  rcases alias_cases a with rfl | rfl | rfl | rfl | rfl | rfl | rfl | rfl | rfl | rfl | rfl | rfl | rfl | rfl |
    rfl | rfl | hn
  · intro h; exact absurd rfl h
  all_goals intro _
  · exact .inr ⟨by simp [solverAliases], _, rfl, rfl, rfl⟩
  · exact .inr ⟨by simp [solverAliases], _, rfl, rfl, rfl⟩
  · exact .inr ⟨by simp [solverAliases], _, rfl, rfl, rfl⟩
  · exact .inr ⟨by simp [solverAliases], _, rfl, rfl, rfl⟩
  · exact .inr ⟨by simp [solverAliases], _, rfl, rfl, rfl⟩
  · exact .inr ⟨by simp [solverAliases], _, rfl, rfl, rfl⟩
  · exact .inr ⟨by simp [solverAliases], _, rfl, rfl, rfl⟩
  · exact .inr ⟨by simp [solverAliases], _, rfl, rfl, rfl⟩
  · exact .inr ⟨by simp [solverAliases], _, rfl, rfl, rfl⟩
  · exact .inr ⟨by simp [solverAliases], _, rfl, rfl, rfl⟩
  · exact .inr ⟨by simp [solverAliases], _, rfl, rfl, rfl⟩
  · exact .inr ⟨by simp [solverAliases], _, rfl, rfl, rfl⟩
  · exact .inr ⟨by simp [solverAliases], _, rfl, rfl, rfl⟩
  · exact .inr ⟨by simp [solverAliases], _, rfl, rfl, rfl⟩
  · exact .inr ⟨by simp [solverAliases], _, rfl, rfl, rfl⟩
  · refine .inl ⟨hn, ?_⟩
    simp [solverAliases] at hn
    simp [hn, rkKindFromStr]

/-- The full claim: for every parameter map and every stack with room for two nested calls the factory
returns. -/
def Returns (c : Conv V D) (ofStr : String → V) (p : Params V) : Prop :=
  ∀ n, ∃ r, createSolver c ofStr (n + 2) p = .ok r

/-- The factory returns, with a result that does not depend on the stack, unless both the solver and its
starter are `adams`. -/
theorem returns_partial (c : Conv V D) (ofStr : String → V) (hs : ∀ s, c.toStr (ofStr s) = s) (p : Params V)
    (h : ¬ (text c p "solver" "" = "adams" ∧ starterAlias c p = "adams")) :
    Returns c ofStr p ∧ ∀ n m, createSolver c ofStr (n + 2) p = createSolver c ofStr (m + 2) p := by
  by_cases ha : text c p "solver" "" = "adams"
  · have h2 : text c (starterParams ofStr p) "solver" "" ≠ "adams" := by
      rw [starter_alias c ofStr hs]; exact fun e => h ⟨ha, e⟩
    constructor
    · intro n
      rw [create_adams c ofStr p ha]
      rcases plain_spec c ofStr _ h2 n with ⟨-, e⟩ | ⟨-, d, e, -⟩ <;> rw [e] <;> exact ⟨_, rfl⟩
    · intro n m
      rw [create_adams c ofStr p ha, create_adams c ofStr p ha, create_plain c ofStr _ h2 n m]
  · constructor
    · intro n
      rcases plain_spec c ofStr _ ha (n + 1) with ⟨-, e⟩ | ⟨-, d, e, -⟩ <;> exact ⟨_, e⟩
    · intro n m
      exact create_plain c ofStr p ha (n + 1) (m + 1)

/-- `--solver=adams --starter_solver=adams` exhausts the stack, however large it is. -/
theorem adams_adams_overflows (c : Conv V D) (ofStr : String → V) (hs : ∀ s, c.toStr (ofStr s) = s)
    (p : Params V) (h : text c p "solver" "" = "adams") (h2 : starterAlias c p = "adams") (n : ℕ) :
    createSolver c ofStr n p = .error .stackOverflow := by
  induction n generalizing p with
  | zero => rfl
  | succ n ih =>
    rw [create_adams c ofStr p h, ih (starterParams ofStr p)]
    · rw [starter_alias c ofStr hs, h2]
    · unfold starterAlias text at h2 ⊢
      rw [starter_other ofStr p _ (by decide)]
      exact h2

/-- A null pointer is returned exactly for unknown aliases and for `adams` with an unknown starter. -/
theorem null_iff (c : Conv V D) (ofStr : String → V) (hs : ∀ s, c.toStr (ofStr s) = s) (p : Params V) (n : ℕ) :
    createSolver c ofStr (n + 2) p = .ok none ↔
      text c p "solver" "" ∉ solverAliases ∨
        (text c p "solver" "" = "adams" ∧ starterAlias c p ∉ solverAliases) := by
  have hin : "adams" ∈ solverAliases := by simp [solverAliases]
  by_cases ha : text c p "solver" "" = "adams"
  · by_cases h2 : starterAlias c p = "adams"
    · rw [adams_adams_overflows c ofStr hs p ha h2]
      simp [ha, h2, hin]
    · rw [create_adams c ofStr p ha]
      have h3 : text c (starterParams ofStr p) "solver" "" ≠ "adams" := by rwa [starter_alias c ofStr hs]
      rcases plain_spec c ofStr _ h3 n with ⟨h4, e⟩ | ⟨h4, d, e, -⟩ <;> rw [e] <;>
        rw [starter_alias c ofStr hs] at h4 <;> simp [ha, hin, h4]
  · rcases plain_spec c ofStr _ ha (n + 1) with ⟨h4, e⟩ | ⟨h4, d, e, -⟩ <;> rw [e] <;> simp [ha, h4]

lemma options_starter (c : Conv V D) (ofStr : String → V) (p : Params V) (a : String) :
    (solverOptions c a).map (fun o => o (starterParams ofStr p)) = (solverOptions c a).map (fun o => o p) := by
  have e : ∀ k, k ≠ "solver" → starterParams ofStr p k = p k := fun k hk => starter_other ofStr p k hk
  have e1 := e "min_step" (by decide)
  have e2 := e "max_step" (by decide)
  have e3 := e "clamp" (by decide)
  have e4 := e "rank" (by decide)
  have e5 := e "correction" (by decide)
  have e6 := e "max_level" (by decide)
  have e7 := e "error_threshold" (by decide)
  have e8 := e "refine_steps_count" (by decide)
  have e9 := e "max_recursion" (by decide)
  have e10 := e "substep_subdivisions" (by decide)
  unfold solverOptions
  simp only []
  split_ifs <;> simp only [List.map_cons, List.map_nil, optReal, optBool, optInt, optUInt, e1, e2, e3, e4, e5, e6, e7,
    e8, e9, e10]

/-- The solver returned is of the class the alias names, and every documented option has the value given on
the command line or its default.  For `adams` the starter is of the class named by `starter_solver` and has its
options from the same command line.  (`rank` must not be negative; see `negative_rank`.) -/
theorem solver_of_alias (c : Conv V D) (ofStr : String → V) (hs : ∀ s, c.toStr (ofStr s) = s) (p : Params V)
    (n : ℕ) (d : SolverDesc D) (h : createSolver c ofStr (n + 2) p = .ok (some d))
    (hr : ∀ v, p "rank" = some v → 0 ≤ c.toInt v) :
    d.typeName = solverClass (text c p "solver" "") ∧
    solverSettings d = (solverOptions c (text c p "solver" "")).map (fun o => o p) ∧
    (text c p "solver" "" = "adams" → ∃ s rank corr st, d = .adams s rank corr st ∧
      s.typeName = solverClass (starterAlias c p) ∧
      solverSettings s = (solverOptions c (starterAlias c p)).map (fun o => o p)) := by
  by_cases ha : text c p "solver" "" = "adams"
  · by_cases h2 : starterAlias c p = "adams"
    · rw [adams_adams_overflows c ofStr hs p ha h2] at h; cases h
    · rw [create_adams c ofStr p ha] at h
      have h3 : text c (starterParams ofStr p) "solver" "" ≠ "adams" := by rwa [starter_alias c ofStr hs]
      rcases plain_spec c ofStr _ h3 n with ⟨h4, e⟩ | ⟨h4, s, e, h5, h6⟩
      · rw [e] at h; cases h
      · rw [e] at h
        rw [starter_alias c ofStr hs] at h5 h6
        simp only [Except.ok.injEq, Option.some.injEq] at h
        subst h
        refine ⟨by rw [ha]; rfl, ?_, fun _ => ⟨s, _, _, _, rfl, h5, ?_⟩⟩
        · rw [ha]
          have : ((sizeOfInt (p.get "rank" c.toInt 1) : ℕ) : Int) =
              (match p "rank" with | some v => c.toInt v | none => 1) := by
            unfold Params.get sizeOfInt
            cases hp : p "rank" with
            | none => rfl
            | some v =>
              have := hr v hp
              simp only [if_pos this]
              omega
          simp only [solverSettings, solverOptions, this]
          rfl
        · rw [h6]
          exact options_starter c ofStr p _
  · rcases plain_spec c ofStr _ ha (n + 1) with ⟨h4, e⟩ | ⟨h4, d', e, h5, h6⟩
    · rw [e] at h; cases h
    · rw [e] at h
      simp only [Except.ok.injEq, Option.some.injEq] at h
      subst h
      exact ⟨h5, h6, fun h => absurd h ha⟩

/-- `rk_butcher`, listed in README.md among the method aliases, is rejected. -/
theorem rk_butcher_rejected (c : Conv V D) (ofStr : String → V) (hs : ∀ s, c.toStr (ofStr s) = s) (p : Params V)
    (h : text c p "solver" "" = "rk_butcher") (n : ℕ) : createSolver c ofStr (n + 2) p = .ok none := by
  rw [null_iff c ofStr hs, h]
  left
  simp [solverAliases]

/-- The rank of `adams` is not checked: for every rank outside 1..5, also a negative one, the factory returns a
solver whose first step is undefined. -/
theorem rank_unchecked (c : Conv V D) (ofStr : String → V) (hs : ∀ s, c.toStr (ofStr s) = s) (p : Params V)
    (h : text c p "solver" "" = "adams") (h2 : starterAlias c p ∈ solverAliases) (h3 : starterAlias c p ≠ "adams")
    (v : V) (hv : p "rank" = some v) (hr : ¬ (1 ≤ c.toInt v ∧ c.toInt v ≤ 5)) (hlo : -2 ^ 31 ≤ c.toInt v) (n : ℕ) :
    ∃ s rank corr st, createSolver c ofStr (n + 2) p = .ok (some (.adams s rank corr st)) ∧
      ∀ (W K σ : Type) [Field K] [DecidableEq K] [AddCommGroup W] [Module K W] (F : ℕ → K → W → W)
        (starter : K → σ × Eng W K → Res (σ × Eng W K)) (dt : K) (a : Adams W σ) (e : Eng W K),
        ∃ u, adamsAdvise F starter rank corr dt a e = .error u ∧ (u = .divZero ∨ u = .oob) := by
  have h4 : text c (starterParams ofStr p) "solver" "" ≠ "adams" := by rwa [starter_alias c ofStr hs]
  rw [create_adams c ofStr p h]
  rcases plain_spec c ofStr _ h4 n with ⟨h5, e⟩ | ⟨h5, s, e, -⟩
  · rw [starter_alias c ofStr hs] at h5; exact absurd h2 h5
  · rw [e]
    refine ⟨s, _, _, _, rfl, ?_⟩
    intro W K σ _ _ _ _ F starter dt a en
    have hg : p.get "rank" c.toInt 1 = c.toInt v := by unfold Params.get; rw [hv]
    rw [hg]
    generalize c.toInt v = r at hr hlo
    unfold adamsAdvise
    by_cases h0 : r = 0
    · subst h0
      exact ⟨.divZero, by simp [sizeOfInt], .inl rfl⟩
    · have h6 : sizeOfInt r ≠ 0 ∧ 5 < sizeOfInt r := by
        unfold sizeOfInt
        split_ifs <;> omega
      exact ⟨.oob, by rw [if_neg h6.1, if_pos h6.2], .inr rfl⟩

open C49 in
example : createSolver demoConv id 2 (fun k => if k = "solver" then some "adams" else if k = "rank" then some "4"
      else if k = "starter_solver" then some "rkdp" else none) =
    .ok (some (.adams (.rk .rkdp ⟨1, 8, 1, 8, false⟩ ⟨1, 1, false⟩) 4 false ⟨1, 1, false⟩)) := by
  decide +kernel

open C49 in
/-- The overflow is reachable from the command line. -/
example : ∀ n, createSolver demoConv id n
    (parseArguments ["nbody", "--solver=adams", "--starter_solver=adams"]) = .error .stackOverflow :=
  adams_adams_overflows demoConv id (fun _ => rfl) _ (by decide +kernel) (by decide +kernel)

end NB.C50
