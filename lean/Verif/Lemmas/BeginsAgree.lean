import Verif.Lemmas.Begins
import Verif.Lemmas.FactoryAgree

/-
How the command lines of an earlier and a resumed run begin.
-/

namespace NB

open StreamSpec C39 C68

/-- Reading the stream `name` from its beginning to its end gives `A`. -/
def Reads {S C : Type} [Raw S] [Raw C] (T : TextOps S) (fs : Files) (name : FName) (n : ℕ)
    (A : List (Answer S C)) : Prop :=
  ∃ r r', Reader.new.load T fs name = (true, r) ∧ r.frameCount = A.length ∧
    readerCalls (C := C) fs (List.replicate A.length (.read n)) r = .ok (A, r')

/-- A snapshot without its box size, which only the header of a stream shows. -/
def noBox {S C : Type} (d : Snap S C) : Snap S C := { d with box := 0 }

/-- Options that do not enter the simulation. -/
def outputKeys : List String :=
  ["max_time", "output", "check_step", "check_list", "max_part_size"]

/-- Options that choose the initial state. -/
def initialKeys : List String := ["resume", "initial_state", "initial_type", "stars_count", "box_size"]

section
variable {S C D K σ : Type} [Raw S] [Raw C]

lemma noBox_content {S C : Type} {rnd : S → S} {h d d' : Snap S C} {b : Bool} (e : noBox d = noBox d') :
    content rnd h d b = content rnd h d' b := by
  unfold noBox at e
  have h1 := congrArg Snap.vrt e
  have h2 := congrArg Snap.vel e
  have h3 := congrArg Snap.time e
  have h4 := congrArg Snap.step e
  simp only at h1 h2 h3 h4
  unfold content
  rw [h1, h2, h3, h4]

lemma noBox_fits {S C : Type} {n : ℕ} {d d' : Snap S C} (e : noBox d = noBox d') (h : Fits n d) :
    Fits n d' := by
  unfold noBox at e
  have h1 := congrArg Snap.vrt e
  have h2 := congrArg Snap.vel e
  have h3 := congrArg Snap.count e
  have h4 := congrArg Snap.step e
  have h5 := congrArg Snap.mass e
  have h6 := congrArg Snap.color e
  simp only at h1 h2 h3 h4 h5 h6
  exact ⟨h3 ▸ h.count, h1 ▸ h.vrt, h2 ▸ h.vel, h5 ▸ h.mass, h6 ▸ h.color, h4 ▸ h.step⟩

lemma noBox_readBack {S C : Type} {rnd : S → S} {h : Snap S C} {L L' : List (Snap S C)}
    (e : L.map noBox = L'.map noBox) : readBack rnd h L = readBack rnd h L' := by
  have key : ∀ {L L' : List (Snap S C)}, L.map noBox = L'.map noBox →
      (L.map fun d => Answer.data (content rnd h d false)) = L'.map fun d => .data (content rnd h d false) := by
    intro L
    induction L with
    | nil => intro L' e; cases L' with
      | nil => rfl
      | cons => simp at e
    | cons d L ih => intro L' e; cases L' with
      | nil => simp at e
      | cons d' L' =>
        simp only [List.map_cons, List.cons.injEq] at e ⊢
        exact ⟨by rw [noBox_content e.1], ih e.2⟩
  cases L with
  | nil => cases L' with
    | nil => rfl
    | cons => simp at e
  | cons d L => cases L' with
    | nil => simp at e
    | cons d' L' =>
      simp only [List.map_cons, List.cons.injEq] at e
      simp only [readBack]
      rw [noBox_content e.1, key e.2]

lemma readBack_length {S C : Type} (rnd : S → S) (h : Snap S C) (L : List (Snap S C)) :
    (readBack rnd h L).length = L.length := by
  cases L <;> simp [readBack]

end

section
variable {S C D K σ : Type} [Raw S] [Raw C] [Zero S] [One S] [Add S] [Sub S] [Mul S] [Neg S] [Div S] [FOps S]
variable [Zero K] [Add K] [Sub K] [Mul K] [LT K] [LE K] [DecidableLT K] [DecidableLE K] [OfScientific K]
variable {M : MainEnv S C D K σ}

omit [Raw S] [Raw C] [Zero S] [One S] [Add S] [Sub S] [Mul S] [Neg S] [Div S] [FOps S] [Zero K] [Add K] [Sub K]
  [Mul K] [LT K] [LE K] [DecidableLT K] [DecidableLE K] [OfScientific K] in
lemma runConf_agree {p q : Params String} (h : p "dump_step" = q "dump_step") (s : SolverDesc D) :
    SameRun { M.runConf p s with maxTime := (M.runConf q s).maxTime } (M.runConf q s) :=
  ⟨rfl, rfl, by unfold MainEnv.runConf; rw [get_agree h], rfl, rfl⟩

lemma _root_.NB.Addressable.mono {k m F : ℕ} (h : Addressable k F) (hm : m ≤ k) : Addressable m F :=
  ⟨lt_of_le_of_lt hm h.1, le_trans (Nat.mul_le_mul_right F hm) h.2⟩

/-- More room for steps does not change what the program does. -/
lemma main_more {p : Params String} {fs : Files} {fuel : ℕ} {x : ℤ × Files} (m : ℕ)
    (h : M.mainWith p fuel fs = .ok x) : M.mainWith p (fuel + m) fs = .ok x := by
  rcases begins_or M p fs with ⟨name, part, d, e, s, s0, hb⟩ | hb
  · rw [main_begins hb] at h ⊢
    cases hr : solverRun M.runEnv (M.runConf p s) fuel s0
        ((Writer.new.open name (partOf M p) part fs).2,
          applyOps (Writer.new.open name (partOf M p) part fs).1 fs) with
    | error u => rw [hr] at h; cases h
    | ok q => rw [run_more m hr, ← hr]; exact h
  · unfold MainEnv.mainWith at h ⊢
    cases h1 : M.initialData fs p with
    | error u => rw [h1] at h; cases h
    | ok o =>
      rw [h1] at h
      rcases o with _ | ⟨d, name, part⟩
      · exact h
      simp only at h ⊢
      cases h2 : createEngine M.build M.conv p with
      | none => rw [h2] at h; exact h
      | some e =>
        rw [h2] at h
        simp only at h ⊢
        cases h3 : createSolver M.conv id M.depth p with
        | error u => rw [h3] at h; cases h
        | ok o =>
          rw [h3] at h
          rcases o with _ | s
          · exact h
          simp only at h ⊢
          cases h4 : M.start e s d with
          | none => rw [h4] at h; exact h
          | some s0 => exact absurd ⟨h1, h2, h3, h4⟩ (hb name part d e s s0)

omit [OfScientific K] [DecidableLE K] [DecidableLT K] [LE K] [LT K] [Mul K] [Sub K] [Add K] [Zero K] in
/-- Options that do not enter the simulation do not change how it begins. -/
lemma begins_agree {p q : Params String} {fs : Files} {name : FName} {d : DataObj S C} {e : EngineDesc D}
    {s : SolverDesc D} {s0 : σ} (hb : Begins M p fs name none d e s s0) (h : ∀ k, k ∉ outputKeys → p k = q k) :
    Begins M q fs (q.get "output" M.conv.toStr "/tmp/nbody/main-stream").toList none d e s s0 := by
  refine ⟨?_, ?_, ?_, hb.start⟩
  · have hd := hb.data
    unfold MainEnv.initialData at hd ⊢
    rw [← get_agree (h "resume" (by decide))]
    simp only at hd ⊢
    split
    · rename_i hr
      rw [if_pos hr] at hd
      split at hd <;> cases hd
    · rename_i hr
      rw [if_neg hr] at hd
      have hf : M.freshData fs p = M.freshData fs q := by
        unfold MainEnv.freshData
        rw [get_agree (h "initial_state" (by decide)), get_agree (h "initial_type" (by decide)),
          get_agree (h "box_size" (by decide)), get_agree (h "stars_count" (by decide))]
      rw [← hf]
      cases hx : M.freshData fs p with
      | error u => rw [hx] at hd; cases hd
      | ok o =>
        rw [hx] at hd
        cases o with
        | none => cases hd
        | some d' => cases hd; rfl
  · rw [← hb.engine]
    exact (engine_agree _ _ fun k hk => h k (by revert k; decide)).symm
  · rw [← hb.solver]
    exact (solver_agree _ _ _ fun k hk => h k (by revert k; decide)).symm

omit [OfScientific K] [DecidableLE K] [DecidableLT K] [LE K] [LT K] [Mul K] [Sub K] [Add K] [Zero K] in
/-- How a resumed run begins. -/
lemma begins_resume {p q : Params String} {fs fs' : Files} {name : FName} {d : DataObj S C} {e : EngineDesc D}
    {s : SolverDesc D} {s0 s' : σ} (hstr : ∀ x, M.conv.toStr x = x) (hb : Begins M p fs name none d e s s0)
    (h : ∀ k, k ∉ outputKeys → k ∉ initialKeys → p k = q k) {r : String} (hr : q "resume" = some r) (hne : r ≠ "")
    {rnd : S → S} {hd : Snap S C} {n b m : ℕ} {ds : List (Snap S C)} {locs : List (ℕ × ℕ)}
    (hst : Stored M.text rnd fs' r.toList hd n b ds locs m) (hk : ds.length ≤ sizeMax) {l : Snap S C}
    (hl : ds.getLast? = some l) (hs : M.start e s (readInto M.black n (content rnd hd l true)) = some s') :
    Begins M q fs' r.toList (some m) (readInto M.black n (content rnd hd l true)) e s s' := by
  refine ⟨?_, ?_, ?_, hs⟩
  · unfold MainEnv.initialData
    have hg : q.get "resume" M.conv.toStr "" = r := by simp [Params.get, hr, hstr]
    simp only [hg, ne_eq, hne, not_false_eq_true, if_true]
    rw [stored_last M rfl hst hk l hl]
  · rw [← hb.engine]
    exact (engine_agree _ _ fun k hk => h k (by revert k; decide) (by revert k; decide)).symm
  · rw [← hb.solver]
    exact (solver_agree _ _ _ fun k hk => h k (by revert k; decide) (by revert k; decide)).symm

end

end NB
