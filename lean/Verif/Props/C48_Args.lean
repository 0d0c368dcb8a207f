import Verif.Model.Factory
import Verif.Lemmas.StreamText
import Mathlib.Data.List.Perm.Basic

/-
C48: the command line.
-/

namespace NB.C48

/-- Specification: the argument `arg` has the form `--name=value` with exactly one `=`. -/
def Binds (arg name value : String) : Prop :=
  arg = "--" ++ name ++ "=" ++ value ∧ '=' ∉ name.toList ∧ '=' ∉ value.toList

lemma splitOn_pair (l k v : List Char) : splitOn '=' l = [k, v] ↔ l = k ++ '=' :: v ∧ '=' ∉ k ∧ '=' ∉ v := by
  constructor
  · intro h
    induction l generalizing k with
    | nil => simp [splitOn] at h
    | cons c cs ih =>
      unfold splitOn at h
      by_cases hc : c = '='
      · simp only [hc, if_true, List.cons.injEq] at h
        obtain ⟨h1, h2⟩ := h
        have : cs = v ∧ '=' ∉ v := by
          clear ih
          induction cs generalizing v with
          | nil => simp [splitOn] at h2; simp [h2]
          | cons d ds ih2 =>
            unfold splitOn at h2
            by_cases hd : d = '='
            · simp only [hd, if_true, List.cons.injEq] at h2
              exact absurd h2.2 (splitOn_ne_nil _ _)
            · simp only [hd, if_false] at h2
              cases hs : splitOn '=' ds with
              | nil => exact absurd hs (splitOn_ne_nil _ _)
              | cons p ps =>
                rw [hs] at h2
                simp only [List.cons.injEq] at h2
                obtain ⟨h3, h4⟩ := h2
                have := ih2 p (by rw [hs, h4])
                subst h3
                refine ⟨by rw [this.1], ?_⟩
                simp only [List.mem_cons, not_or]
                exact ⟨fun e => hd e.symm, this.2⟩
        subst h1
        simp [hc, this.1, this.2]
      · simp only [hc, if_false] at h
        cases hs : splitOn '=' cs with
        | nil => exact absurd hs (splitOn_ne_nil _ _)
        | cons p ps =>
          rw [hs] at h
          simp only [List.cons.injEq] at h
          obtain ⟨h3, h4⟩ := h
          have := ih p (by rw [hs, h4])
          subst h3
          refine ⟨by rw [this.1]; rfl, ?_, this.2.2⟩
          simp only [List.mem_cons, not_or]
          exact ⟨fun e => hc e.symm, this.2.1⟩
  · rintro ⟨rfl, hk, hv⟩
    rw [splitOn_append _ _ _ hk, splitOn_of_notMem _ _ hv]

lemma string_ofList_inj {a b : List Char} (h : String.ofList a = String.ofList b) : a = b := by
  have := congrArg String.toList h
  simpa using this

lemma binds_iff (arg name value : String) :
    Binds arg name value ↔ "--".toList.isPrefixOf arg.toList = true ∧
      splitOn '=' (arg.toList.drop "--".toList.length) = [name.toList, value.toList] := by
  rw [splitOn_pair]
  unfold Binds
  have e : ("--" : String).toList = ['-', '-'] := rfl
  have e2 : ("=" : String).toList = ['='] := rfl
  constructor
  · rintro ⟨h, h1, h2⟩
    subst h
    simp [e, e2, h1, h2, String.toList_append]
  · rintro ⟨h, h1, h2, h3⟩
    refine ⟨?_, h2, h3⟩
    apply String.toList_injective
    rw [e] at h h1
    rw [List.isPrefixOf_iff_prefix] at h
    obtain ⟨r, hr⟩ := h
    rw [← hr] at h1 ⊢
    simp only [String.toList_append, e, e2]
    simp at h1
    simp [h1]

lemma binds_unique {arg n v n' v' : String} (h : Binds arg n v) (h' : Binds arg n' v') : n = n' ∧ v = v' := by
  rw [binds_iff] at h h'
  have := h.2.symm.trans h'.2
  simp only [List.cons.injEq, and_true] at this
  exact ⟨String.toList_injective this.1, String.toList_injective this.2⟩

lemma parseArgument_binds {arg n v : String} (h : Binds arg n v) (p : Params String) :
    parseArgument p arg = p.insert n v := by
  rw [binds_iff] at h
  unfold parseArgument
  rw [if_pos h.1, h.2]
  simp

lemma parseArgument_other {arg : String} (h : ∀ n v, ¬ Binds arg n v) (p : Params String) :
    parseArgument p arg = p := by
  unfold parseArgument
  by_cases h1 : "--".toList.isPrefixOf arg.toList = true
  · rw [if_pos h1]
    split
    · rename_i k v hs
      refine absurd ((binds_iff arg (String.ofList k) (String.ofList v)).2 ⟨h1, ?_⟩) (h _ _)
      simpa using hs
    · rfl
  · rw [if_neg h1]

lemma parse_one (p : Params String) (arg k : String) :
    (∃ v, Binds arg k v ∧ parseArgument p arg k = some v) ∨
      ((∀ v, ¬ Binds arg k v) ∧ parseArgument p arg k = p k) := by
  by_cases h : ∃ n v, Binds arg n v
  · obtain ⟨n, v, hb⟩ := h
    by_cases hk : k = n
    · subst hk
      exact .inl ⟨v, hb, by simp [parseArgument_binds hb, Params.insert]⟩
    · refine .inr ⟨fun w hw => hk (binds_unique hw hb).1, ?_⟩
      simp [parseArgument_binds hb, Params.insert, hk]
  · have h : ∀ n v, ¬ Binds arg n v := fun n v hb => h ⟨n, v, hb⟩
    exact .inr ⟨h k, by rw [parseArgument_other h]⟩

lemma fold_spec (args : List String) (p : Params String) (k : String) :
    (∃ l a r v, args = l ++ a :: r ∧ Binds a k v ∧ (∀ b ∈ r, ∀ w, ¬ Binds b k w) ∧
      args.foldl parseArgument p k = some v) ∨
    ((∀ a ∈ args, ∀ w, ¬ Binds a k w) ∧ args.foldl parseArgument p k = p k) := by
  induction args generalizing p with
  | nil => exact .inr ⟨by simp, rfl⟩
  | cons a as ih =>
    rw [List.foldl_cons]
    rcases ih (parseArgument p a) with ⟨l, b, r, v, h1, h2, h3, h4⟩ | ⟨h1, h2⟩
    · exact .inl ⟨a :: l, b, r, v, by rw [h1]; rfl, h2, h3, h4⟩
    · rcases parse_one p a k with ⟨v, h3, h4⟩ | ⟨h3, h4⟩
      · exact .inl ⟨[], a, as, v, rfl, h3, h1, by rw [h2, h4]⟩
      · refine .inr ⟨?_, by rw [h2, h4]⟩
        intro b hb
        rcases List.mem_cons.1 hb with rfl | hb
        · exact h3
        · exact h1 b hb

lemma parse_cases (prog : String) (args : List String) (k : String) :
    (∃ l a r v, args = l ++ a :: r ∧ Binds a k v ∧ (∀ b ∈ r, ∀ w, ¬ Binds b k w) ∧
      parseArguments (prog :: args) k = some v) ∨
    ((∀ a ∈ args, ∀ w, ¬ Binds a k w) ∧ parseArguments (prog :: args) k = none) :=
  fold_spec args (fun _ => none) k

/-- A parameter has the value `v` after parsing exactly when some argument after the program name is
`--k=v` and no later argument binds the same name. -/
theorem parse_some (prog : String) (args : List String) (k v : String) :
    parseArguments (prog :: args) k = some v ↔
      ∃ l a r, args = l ++ a :: r ∧ Binds a k v ∧ ∀ b ∈ r, ∀ w, ¬ Binds b k w := by
  rcases parse_cases prog args k with ⟨l, a, r, v', h1, h2, h3, h4⟩ | ⟨h1, h2⟩
  · constructor
    · intro h
      rw [h4] at h
      obtain rfl : v' = v := by simpa using h
      exact ⟨l, a, r, h1, h2, h3⟩
    · rintro ⟨l', a', r', e, hb, hr⟩
      rw [h4]
      have : a = a' := by
        rw [h1] at e
        rcases List.append_eq_append_iff.1 e with ⟨m, hm1, hm2⟩ | ⟨m, hm1, hm2⟩
        · cases m with
          | nil => simpa using (List.cons.inj hm2).1
          | cons x xs =>
            exfalso
            have : a' ∈ r := by
              have := (List.cons.inj hm2).2
              rw [this]; simp
            exact h3 a' this v hb
        · cases m with
          | nil => simpa using (List.cons.inj hm2).1.symm
          | cons x xs =>
            exfalso
            have : a ∈ r' := by
              have := (List.cons.inj hm2).2
              rw [this]; simp
            exact hr a this v' h2
      subst this
      rw [(binds_unique h2 hb).2]
  · constructor
    · intro h; rw [h2] at h; simp at h
    · rintro ⟨l, a, r, rfl, hb, -⟩
      exact absurd hb (h1 a (by simp) v)

/-- A parameter is absent after parsing exactly when no argument after the program name binds it. -/
theorem parse_none (prog : String) (args : List String) (k : String) :
    parseArguments (prog :: args) k = none ↔ ∀ a ∈ args, ∀ v, ¬ Binds a k v := by
  rcases parse_cases prog args k with ⟨l, a, r, v', h1, h2, h3, h4⟩ | ⟨h1, h2⟩
  · constructor
    · intro h; rw [h4] at h; simp at h
    · intro h; exact absurd h2 (h a (by rw [h1]; simp) v')
  · exact ⟨fun _ => h1, fun _ => h2⟩

/-- The program name is never read: with the same further arguments the result is the same, and an empty
argument vector gives no parameters. -/
theorem program_name_ignored (prog prog' : String) (args : List String) :
    parseArguments (prog :: args) = parseArguments (prog' :: args) ∧ ∀ k, parseArguments [] k = none :=
  ⟨rfl, fun _ => rfl⟩

/-- The order of the arguments does not matter when no name is bound twice. -/
theorem order_irrelevant (prog : String) (args args' : List String) (hp : args.Perm args')
    (hu : args.Pairwise (fun a b => ∀ k v w, Binds a k v → ¬ Binds b k w)) :
    parseArguments (prog :: args) = parseArguments (prog :: args') := by
  have hu' : args'.Pairwise (fun a b => ∀ k v w, Binds a k v → ¬ Binds b k w) :=
    hp.pairwise hu (fun {a b} h k v w hb ha => h k w v ha hb)
  have key : ∀ (as : List String), as.Pairwise (fun a b => ∀ k v w, Binds a k v → ¬ Binds b k w) →
      ∀ k v, parseArguments (prog :: as) k = some v ↔ ∃ a ∈ as, Binds a k v := by
    intro as hu k v
    rw [parse_some]
    constructor
    · rintro ⟨l, a, r, rfl, hb, -⟩
      exact ⟨a, by simp, hb⟩
    · rintro ⟨a, ha, hb⟩
      obtain ⟨l, r, rfl⟩ := List.append_of_mem ha
      refine ⟨l, a, r, rfl, hb, ?_⟩
      intro b hbr w hw
      have := (List.pairwise_append.1 hu).2.1
      exact (List.pairwise_cons.1 this).1 b hbr k v w hb hw
  funext k
  cases h : parseArguments (prog :: args') k with
  | none =>
    rw [parse_none] at h ⊢
    exact fun a ha => h a (hp.mem_iff.1 ha)
  | some v =>
    rw [key _ hu] 
    rw [key _ hu'] at h
    obtain ⟨a, ha, hb⟩ := h
    exact ⟨a, hp.mem_iff.2 ha, hb⟩

/-- A value containing `=` is dropped, so the parameter silently keeps its default: an output path such as
`--output=/data/run=3/out` is ignored. -/
theorem value_with_equals_ignored (prog name value : String) (h : '=' ∈ value.toList) (args : List String) :
    parseArguments (prog :: args ++ ["--" ++ name ++ "=" ++ value]) = parseArguments (prog :: args) := by
  have hn : ∀ n v, ¬ Binds ("--" ++ name ++ "=" ++ value) n v := by
    rintro n v ⟨e, h1, h2⟩
    have e' := congrArg (fun s : String => s.toList.count '=') e
    simp only [String.toList_append, List.count_append] at e'
    have := List.count_pos_iff.2 h
    rw [List.count_eq_zero.2 h1, List.count_eq_zero.2 h2] at e'
    omega
  unfold parseArguments
  simp only [List.cons_append, List.drop_succ_cons, List.drop_zero, List.foldl_append, List.foldl_cons,
    List.foldl_nil]
  exact parseArgument_other hn _

/-- Non-trivial cases: a later binding wins, an argument without `--` and one with two `=` are ignored. -/
example : parseArguments ["nbody", "--solver=rk4", "solver=bs", "--output=/a=b/s", "--solver=bs"] "solver" =
    some "bs" ∧
    parseArguments ["nbody", "--solver=rk4", "solver=bs", "--output=/a=b/s", "--solver=bs"] "output" = none := by
  constructor
  · rw [parse_some]
    refine ⟨["--solver=rk4", "solver=bs", "--output=/a=b/s"], "--solver=bs", [], rfl, ?_, by simp⟩
    refine ⟨rfl, by decide +kernel, by decide +kernel⟩
  · decide +kernel

example : Binds "--resume=" "resume" "" := ⟨rfl, by decide +kernel, by decide +kernel⟩

end NB.C48
