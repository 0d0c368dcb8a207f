import Verif.Spec.Factory
import Mathlib.Tactic.SplitIfs
import Mathlib.Tactic.Tauto

/-
C49: the engine factory.
-/

namespace NB.C49

open FactorySpec

variable {V D : Type}

lemma get_text (c : Conv V D) (p : Params V) (o d : String) : p.get o c.toStr d = text c p o d := by
  unfold Params.get text; rfl

lemma tt_some (s : String) (t : TraverseType) : traverseFromStr s = some t ↔ ttName t = s := by
  unfold traverseFromStr
  cases t <;> (split_ifs with h1 h2 <;> simp_all [ttName] <;> (try (rintro rfl; simp_all)))
  all_goals (first | exact fun h => h1 h.symm | exact fun h => h2 h.symm | skip)

lemma tt_none (s : String) : traverseFromStr s = none ↔ s ∉ ["cycle", "nested_tree"] := by
  unfold traverseFromStr
  split_ifs with h1 h2 <;> simp_all

lemma tl_cases (s : String) : (s = "tree" ∧ treeLayoutFromStr s = .tree) ∨
    (s = "heap" ∧ treeLayoutFromStr s = .heap) ∨
    (s = "heap_stackless" ∧ treeLayoutFromStr s = .heapStackless) ∨
    (s ∉ ["tree", "heap", "heap_stackless"] ∧ treeLayoutFromStr s = .unknown) := by
  unfold treeLayoutFromStr
  split_ifs with h1 h2 h3 <;> simp_all

/-- The names of the tree layouts and the layouts correspond one to one: reading a printed layout gives it
back, and only the three documented names are read. -/
theorem layout_names (l : TreeLayout) (s : String) :
    (l ≠ .unknown → treeLayoutFromStr (treeLayoutName l) = l) ∧
    (treeLayoutFromStr s ≠ .unknown → treeLayoutName (treeLayoutFromStr s) = s) ∧
    (treeLayoutFromStr s ≠ .unknown ↔ s ∈ ["tree", "heap", "heap_stackless"]) := by
  refine ⟨?_, ?_, ?_⟩
  · cases l <;> decide
  · rcases tl_cases s with ⟨h, e⟩ | ⟨h, e⟩ | ⟨h, e⟩ | ⟨h, e⟩ <;> rw [e] <;> simp [treeLayoutName, h]
  · rcases tl_cases s with ⟨h, e⟩ | ⟨h, e⟩ | ⟨h, e⟩ | ⟨h, e⟩ <;> rw [e] <;> simp_all

example : treeLayoutFromStr "heap_stackless" = .heapStackless ∧ treeLayoutFromStr "Heap" = .unknown := by decide

lemma tl_none (s : String) : treeLayoutFromStr s = .unknown ↔ s ∉ ["tree", "heap", "heap_stackless"] := by
  rcases tl_cases s with ⟨h, e⟩ | ⟨h, e⟩ | ⟨h, e⟩ | ⟨h, e⟩ <;> rw [e] <;> simp_all

lemma tl_gpu (s : String) : (treeLayoutFromStr s ≠ .heap ∧ treeLayoutFromStr s ≠ .heapStackless) ↔
    s ∉ ["heap", "heap_stackless"] := by
  rcases tl_cases s with ⟨h, e⟩ | ⟨h, e⟩ | ⟨h, e⟩ | ⟨h, e⟩ <;> rw [e] <;> simp_all

lemma tl_name (s : String) (h : treeLayoutFromStr s ≠ .unknown) : tlName (treeLayoutFromStr s) = s := by
  rcases tl_cases s with ⟨h', e⟩ | ⟨h', e⟩ | ⟨h', e⟩ | ⟨h', e⟩ <;> rw [e] at h ⊢ <;> simp_all [tlName]

/-- All aliases. -/
def aliases : List String :=
  ["ah", "block", "cuda", "cuda_bh", "cuda_bh_tex", "opencl", "opencl_bh", "openmp", "simple", "simple_bh"]

lemma alias_cases (a : String) : a = "ah" ∨ a = "block" ∨ a = "cuda" ∨ a = "cuda_bh" ∨ a = "cuda_bh_tex" ∨
    a = "opencl" ∨ a = "opencl_bh" ∨ a = "openmp" ∨ a = "simple" ∨ a = "simple_bh" ∨ a ∉ aliases := by
  unfold aliases
  simp only [List.mem_cons, List.not_mem_nil, or_false]
  tauto

/-- The factory returns an engine exactly when the documentation promises one. -/
theorem accepts_iff (b : Build) (c : Conv V D) (p : Params V) :
    (createEngine b c p).isSome = true ↔ EngineAccepted b c p := by
  unfold createEngine EngineAccepted
  simp only [get_text, tl_gpu]
  generalize text c p "engine" "" = a
  generalize text c p "device" "0" = dc
  generalize text c p "device" "0:0" = dok
  generalize text c p "tree_layout" "heap" = tlh
  generalize text c p "tree_layout" "tree" = tlt
  generalize text c p "traverse_type" "cycle" = tt
  rcases alias_cases a with rfl | rfl | rfl | rfl | rfl | rfl | rfl | rfl | rfl | rfl | h
  · simp
  · simp
  · cases b.haveCuda <;> cases h : b.cudaSelect dc <;> simp [h]
  · cases b.haveCuda <;> cases h : b.cudaSelect dc <;> simp [h]
  · cases b.haveCuda <;> cases h : b.cudaSelect dc <;> simp [h]
    tauto
  · cases b.haveOpencl <;> cases h : b.openclSelect dok <;> simp [h]
  · have ht := tt_none tt
    cases b.haveOpencl <;> cases h : b.openclSelect dok <;> cases h2 : traverseFromStr tt <;> simp [h, h2] at ht ⊢
    all_goals tauto
  · simp
  · simp
  · have ht := tt_none tt
    cases h2 : traverseFromStr tt
    · rw [h2] at ht
      simp at ht ⊢
      tauto
    · rw [h2] at ht
      simp at ht ⊢
      rcases tl_cases tlt with ⟨h, e⟩ | ⟨h, e⟩ | ⟨h, e⟩ | ⟨h, e⟩ <;> rw [e] <;> simp [h]
      · tauto
      · tauto
      · tauto
      · simp at h; tauto
  · simp [aliases] at h
    simp [h]

/-- The engine returned is of the class the alias names; for `simple_bh` the layout completes the name. -/
theorem class_of_alias (b : Build) (c : Conv V D) (p : Params V) (d : EngineDesc D)
    (h : createEngine b c p = some d) :
    d.typeName = "nbody_engine_" ++ text c p "engine" "" ++
      (if text c p "engine" "" = "simple_bh" then "_" ++ text c p "tree_layout" "tree" else "") := by
  unfold createEngine at h
  simp only [get_text, tl_gpu] at h
  revert h
  generalize text c p "engine" "" = a
  rcases alias_cases a with rfl | rfl | rfl | rfl | rfl | rfl | rfl | rfl | rfl | rfl | hn
  · simp; rintro rfl; rfl
  · simp; rintro rfl; rfl
  · simp; rintro - - rfl; rfl
  · simp; rintro - - rfl; rfl
  · simp; rintro - - - rfl; rfl
  · simp; rintro - - rfl; rfl
  · simp
    intro _ _
    cases traverseFromStr (text c p "traverse_type" "cycle") <;> simp
    rintro - rfl; rfl
  · simp; rintro rfl; rfl
  · simp; rintro rfl; rfl
  · simp
    cases traverseFromStr (text c p "traverse_type" "cycle") <;> simp
    rcases tl_cases (text c p "tree_layout" "tree") with ⟨h, e⟩ | ⟨h, e⟩ | ⟨h, e⟩ | ⟨h, e⟩ <;> rw [e] <;> simp [h]
    all_goals (rintro rfl; rfl)
  · simp [aliases] at hn
    simp [hn]

lemma opt_switch (c : Conv V D) (o : String) (p : Params V) :
    ((o, Setting.flag (p.get o c.toInt 0 != 0)) : String × Setting D) = optSwitch c o p := by
  unfold optSwitch Params.get
  cases p o with
  | none => rfl
  | some v => simp [bne, Bool.not_eq_eq_eq_not]; by_cases h : c.toInt v = 0 <;> simp [h]

/-- Every documented option of the engine has the value given on the command line, converted, or its default
when it was not given; nothing else is configured. -/
theorem settings_of_options (b : Build) (c : Conv V D) (p : Params V) (d : EngineDesc D)
    (h : createEngine b c p = some d) :
    engineSettings d = (engineOptions c (text c p "engine" "")).map (fun o => o p) := by
  unfold createEngine at h
  simp only [get_text] at h
  revert h
  generalize text c p "engine" "" = a
  rcases alias_cases a with rfl | rfl | rfl | rfl | rfl | rfl | rfl | rfl | rfl | rfl | hn
  · simp; rintro rfl; rfl
  · simp; rintro rfl; rfl
  · simp; rintro - - rfl; rfl
  · simp; rintro - - rfl; rfl
  · simp
    rintro - ht - rfl
    have e := tl_name (text c p "tree_layout" "heap") (by rintro e; simp [e] at ht)
    simp only [engineSettings, e]; rfl
  · simp; rintro - - rfl
    simp only [engineSettings, opt_switch]; rfl
  · simp
    intro _ ht
    have e := tl_name (text c p "tree_layout" "heap") (by rintro e; simp [e] at ht)
    have e2 := tt_some (text c p "traverse_type" "cycle")
    cases h2 : traverseFromStr (text c p "traverse_type" "cycle") with
    | none => simp
    | some t =>
      simp
      rintro - rfl
      have e3 := (e2 t).1 h2
      simp only [engineSettings, opt_switch, e, e3]; rfl
  · simp; rintro rfl; rfl
  · simp; rintro rfl; rfl
  · simp
    have e2 := tt_some (text c p "traverse_type" "cycle")
    cases h2 : traverseFromStr (text c p "traverse_type" "cycle") with
    | none => simp
    | some t =>
      have e3 := (e2 t).1 h2
      simp
      rcases tl_cases (text c p "tree_layout" "tree") with ⟨h, e⟩ | ⟨h, e⟩ | ⟨h, e⟩ | ⟨h, e⟩ <;> rw [e] <;> simp
      all_goals
        rintro rfl
        have e4 : optText c "tree_layout" "tree" p = ("tree_layout", .str _) := congrArg (fun x => ("tree_layout", Setting.str x)) h
        simp only [engineSettings, e3, engineOptions, List.map_cons, e4]
        rfl
  · simp [aliases] at hn
    simp [hn]

/-- A build without CUDA or OpenCL rejects the corresponding aliases, whatever the other parameters. -/
theorem gpu_needs_build (b : Build) (c : Conv V D) (p : Params V) :
    (b.haveCuda = false → text c p "engine" "" ∈ ["cuda", "cuda_bh", "cuda_bh_tex"] → createEngine b c p = none) ∧
    (b.haveOpencl = false → text c p "engine" "" ∈ ["opencl", "opencl_bh"] → createEngine b c p = none) := by
  have key : createEngine b c p = none ↔ ¬ EngineAccepted b c p := by
    rw [← accepts_iff]; simp
  rw [key]
  unfold EngineAccepted
  constructor
  · intro hb ha
    simp only [List.mem_cons, List.not_mem_nil, or_false] at ha
    rcases ha with ha | ha | ha <;> simp [ha, hb]
  · intro hb ha
    simp only [List.mem_cons, List.not_mem_nil, or_false] at ha
    rcases ha with ha | ha <;> simp [ha, hb]

/-- Decimal digits to a number, for the examples. -/
def digits (s : String) : Nat := s.toList.foldl (fun n ch => 10 * n + (ch.toNat - 48)) 0

/-- A conversion of texts used in the examples. -/
def demoConv : Conv String Int where
  toStr := id
  toUInt s := digits s
  toULongLong s := digits s
  toInt s := digits s
  toDouble s := digits s
  toBool s := s = "true"
  dec m _ := m

/-- A build without accelerators. -/
def cpuBuild : Build := ⟨false, false, fun _ => false, fun _ => false⟩

/-- Parameters of the examples. -/
def demoParams : Params String := fun k =>
  if k = "engine" then some "simple_bh" else if k = "tree_layout" then some "heap_stackless"
  else none

example : createEngine cpuBuild demoConv demoParams = some (.simpleBhHeapStackless 10 .cycle 0) := by
  decide +kernel

example : EngineAccepted cpuBuild demoConv demoParams := by
  rw [← accepts_iff]; decide +kernel

/-- Rejected: a misspelt layout gives no engine instead of the default layout. -/
example : createEngine cpuBuild demoConv (demoParams.insert "tree_layout" "Heap") = none := by decide +kernel

end NB.C49
