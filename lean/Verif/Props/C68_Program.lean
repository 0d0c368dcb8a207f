import Verif.Lemmas.SimExample
import Verif.Lemmas.BeginsAgree
import Verif.Props.C36_DumpSchedule
import Verif.Props.C38_StreamParts
import Verif.Props.C49_EngineFactory
import Verif.Props.C50_SolverFactory
import Mathlib.Data.Rat.Floor

/-
C68.  The program as a whole: what a command line does to the files.
-/

namespace NB.C68

open StreamSpec C39 FactorySpec

section
variable {S C D K σ : Type} [Raw S] [Raw C] [Zero S] [One S] [Add S] [Sub S] [Mul S] [Neg S] [Div S] [FOps S]
variable [Zero K] [Add K] [Sub K] [Mul K] [LT K] [LE K] [DecidableLT K] [DecidableLE K] [OfScientific K]

variable {M : MainEnv S C D K σ} {p : Params String} {fs : Files} {name : FName} {part : Option ℕ}
  {d : DataObj S C} {e : EngineDesc D} {s : SolverDesc D} {s0 s1 : σ}

/-- A command line that is refused changes no file: a stream to resume that cannot be loaded, an initial state that
cannot be read or has an unknown type, an engine or a solver that does not exist, an engine that cannot be
initialised.  The program returns -1. -/
theorem refused (hstr : ∀ x, M.conv.toStr x = x) (p : Params String) (fs : Files) (fuel : ℕ) :
    (∀ r, p "resume" = some r → r ≠ "" → ((Reader.new : Reader S).load M.text fs r.toList).1 = false →
      M.mainWith p fuel fs = .ok (-1, fs)) ∧
    (∀ i, (p "resume" = none ∨ p "resume" = some "") → p "initial_state" = some i → i ≠ "" →
      fs.txt i.toList = none → M.mainWith p fuel fs = .ok (-1, fs)) ∧
    (∀ i t ty, (p "resume" = none ∨ p "resume" = some "") → p "initial_state" = some i → i ≠ "" →
      fs.txt i.toList = some t → p "initial_type" = some ty →
      (∀ w ∈ ["Zeno", "G1", "SI", "ADK"], sameWord ty.toList w.toList = false) →
      M.mainWith p fuel fs = .ok (-1, fs)) ∧
    (∀ x, M.initialData fs p = .ok (some x) → ¬ EngineAccepted M.build M.conv p →
      M.mainWith p fuel fs = .ok (-1, fs)) ∧
    (∀ x k, M.initialData fs p = .ok (some x) → M.depth = k + 2 → EngineAccepted M.build M.conv p →
      text M.conv p "solver" "" ∉ solverAliases → M.mainWith p fuel fs = .ok (-1, fs)) ∧
    (∀ x e s, M.initialData fs p = .ok (some x) → createEngine M.build M.conv p = some e →
      createSolver M.conv id M.depth p = .ok (some s) → M.start e s x.1 = none →
      M.mainWith p fuel fs = .ok (-1, fs)) := by
  have hno : (p "resume" = none ∨ p "resume" = some "") → p.get "resume" M.conv.toStr "" = "" := by
    rintro (h | h) <;> simp [Params.get, h, hstr]
  have hacc : ∀ x, M.initialData fs p = .ok (some x) → ¬ EngineAccepted M.build M.conv p →
      M.mainWith p fuel fs = .ok (-1, fs) := by
    intro x hx hn
    have : createEngine M.build M.conv p = none := by
      rw [← C49.accepts_iff] at hn
      cases hc : createEngine M.build M.conv p with
      | none => rfl
      | some _ => rw [hc] at hn; simp at hn
    obtain ⟨d, nm, pt⟩ := x
    unfold MainEnv.mainWith
    simp only [hx, this]
  refine ⟨?_, ?_, ?_, hacc, ?_, ?_⟩
  · intro r hr hne hl
    have : M.initialData fs p = .ok none := by
      unfold MainEnv.initialData MainEnv.resumeData
      simp [Params.get, hr, hstr, hne, hl]
    unfold MainEnv.mainWith
    rw [this]
  · intro i h0 hi hne ht
    have : M.initialData fs p = .ok none := by
      unfold MainEnv.initialData MainEnv.freshData
      rw [hno h0]
      simp [Params.get, hi, hstr, hne, ht]
    unfold MainEnv.mainWith
    rw [this]
  · intro i t ty h0 hi hne ht hty hw
    have h1 : (emptyData S C).loadInitial M.text M.black M.white M.si M.adk M.toSize t ty.toList =
        .ok (false, emptyData S C) := by
      unfold DataObj.loadInitial
      have e1 := hw "Zeno" (by simp)
      have e2 := hw "G1" (by simp)
      have e3 := hw "SI" (by simp)
      have e4 := hw "ADK" (by simp)
      have f1 : "Zeno".toList = ['Z', 'e', 'n', 'o'] := by decide
      have f2 : "G1".toList = ['G', '1'] := by decide
      have f3 : "SI".toList = ['S', 'I'] := by decide
      have f4 : "ADK".toList = ['A', 'D', 'K'] := by decide
      rw [f1] at e1; rw [f2] at e2; rw [f3] at e3; rw [f4] at e4
      rw [e1, e2, e3, e4]
      rfl
    have : M.initialData fs p = .ok none := by
      unfold MainEnv.initialData MainEnv.freshData
      rw [hno h0]
      simp [Params.get, hi, hstr, hne, ht, hty, h1]
    unfold MainEnv.mainWith
    rw [this]
  · intro x k hx hk ha hs
    obtain ⟨d, nm, pt⟩ := x
    have h3 : createSolver M.conv id M.depth p = .ok none := by
      rw [hk, C50.null_iff M.conv id hstr]; exact .inl hs
    rw [← C49.accepts_iff] at ha
    obtain ⟨e, he⟩ := Option.isSome_iff_exists.1 ha
    unfold MainEnv.mainWith
    simp only [hx, he, h3]
  · intro x e s hx he hs hn
    obtain ⟨d, nm, pt⟩ := x
    unfold MainEnv.mainWith
    simp only [hx, he, hs, hn]

/-- Whatever the command line: the program returns 0 or -1, and either it returned -1 without touching a file, or
only files of the stream it announced (the resumed one, else the output) differ afterwards. -/
theorem only_output_touched (hstr : ∀ x, M.conv.toStr x = x) (argv : List String) (fuel : ℕ) (fs fs' : Files) (z : ℤ)
    (h : M.main argv fuel fs = .ok (z, fs')) :
    (z = 0 ∨ z = -1) ∧
    ((z = -1 ∧ fs' = fs) ∨
      OthersKept (match parseArguments argv "resume" with
        | some r => if r ≠ "" then r.toList else
            (text M.conv (parseArguments argv) "output" "/tmp/nbody/main-stream").toList
        | none => (text M.conv (parseArguments argv) "output" "/tmp/nbody/main-stream").toList) fs fs') := by
  unfold MainEnv.main at h
  generalize parseArguments argv = p at h ⊢
  rcases begins_or M p fs with ⟨name, part, d, e, s, s0, hb⟩ | hb
  · rw [main_begins hb] at h
    cases hr : solverRun M.runEnv (M.runConf p s) fuel s0
        ((Writer.new.open name (partOf M p) part fs).2,
          applyOps (Writer.new.open name (partOf M p) part fs).1 fs) with
    | error u => rw [hr] at h; cases h
    | ok q =>
      rw [hr] at h
      obtain ⟨z', q⟩ := q
      cases h
      obtain ⟨h1, h2⟩ := run_inv (P := fun w : Writer × Files => OwnWriter name w.1 ∧ OthersKept name fs w.2)
        (E := M.runEnv) (fun f w hw => own_stream f w hw) (own_open name (partOf M p) part fs) hr
      refine ⟨h2, .inr ?_⟩
      have hname : name = (match p "resume" with
        | some r => if r ≠ "" then r.toList else (text M.conv p "output" "/tmp/nbody/main-stream").toList
        | none => (text M.conv p "output" "/tmp/nbody/main-stream").toList) := by
        have hd := hb.data
        unfold MainEnv.initialData at hd
        have hfresh : (match M.freshData fs p with
            | .error u => .error u
            | .ok none => .ok none
            | .ok (some d) => .ok (some (d, (p.get "output" M.conv.toStr "/tmp/nbody/main-stream").toList, none)) :
              Res (Option (DataObj S C × FName × Option ℕ))) = .ok (some (d, name, part)) →
            name = (text M.conv p "output" "/tmp/nbody/main-stream").toList := by
          intro hx
          cases hf : M.freshData fs p with
          | error u => rw [hf] at hx; cases hx
          | ok o =>
            rw [hf] at hx
            cases o with
            | none => cases hx
            | some d' =>
              simp only [Except.ok.injEq, Option.some.injEq, Prod.mk.injEq] at hx
              rw [← hx.2.1]; rfl
        cases hr' : p "resume" with
        | none =>
          have hg : p.get "resume" M.conv.toStr "" = "" := by simp [Params.get, hr']
          simp only [hg, ne_eq, not_true, if_false] at hd
          exact hfresh hd
        | some r =>
          have hg : p.get "resume" M.conv.toStr "" = r := by simp [Params.get, hr', hstr]
          by_cases hne : r = ""
          · simp only [hg, hne, ne_eq, not_true, if_false] at hd ⊢
            exact hfresh hd
          · simp only [hg, hne, ne_eq, not_false_eq_true, if_true] at hd ⊢
            cases hf : M.resumeData fs r.toList with
            | error u => rw [hf] at hd; cases hd
            | ok o =>
              rw [hf] at hd
              rcases o with _ | ⟨d', n⟩
              · cases hd
              · simp only [Except.ok.injEq, Option.some.injEq, Prod.mk.injEq] at hd
                exact hd.2.1.symm
      rw [← hname]
      exact h1.2
  · obtain ⟨h1, h2⟩ := main_not_begins hb fuel h
    exact ⟨.inr h1, .inl ⟨h1, h2⟩⟩

/-- A run that is not resumed leaves a stream that holds exactly the frames the run offered, in order, whatever was in
the files before, in any arithmetic. -/
theorem fresh_run_stream {rnd : S → S} (hT : TextGood M.text rnd) (hb : Begins M p fs name none d e s s0)
    {f : Snap S C} {L : List (Snap S C)} (ho : Offers M.runEnv (M.runConf p s) s0 (f :: L) s1) {n b : ℕ}
    (hn : 0 < n) (hn' : n ≤ sizeMax) (hw : Raw.size S ≤ sizeMax) (hfit : ∀ x ∈ f :: L, Fits n x)
    (hbox : BoxGood f.box b) (hk : Addressable (L.length + 1) (frameSize S n)) :
    ∃ fuel0, ∀ fuel, fuel0 ≤ fuel → ∃ fs' locs q, M.mainWith p fuel fs = .ok (0, fs') ∧
      Stored M.text rnd fs' name f n b (f :: L) locs q ∧
      ∃ r r', Reader.new.load M.text fs' name = (true, r) ∧ r.frameCount = (f :: L).length ∧
        readerCalls (C := C) fs' (List.replicate (f :: L).length (.read n)) r =
          .ok (readBack rnd f (f :: L), r') := by
  obtain ⟨hf, _⟩ := open_fresh (w := Writer.new) rfl name (partOf M p) fs
  obtain ⟨w1, fs1, locs, h1, h2, _, _, _, h5, h6⟩ := fresh_writeAll M.text f L hf hk
    (fun x hx => frameBytes_length (hfit x hx))
  have hst : Stored M.text rnd fs1 name f n b (f :: L) locs w1.fileN :=
    stored_of_session hT h2 h6 h5 (by simp) hbox hfit (hfit f (by simp)) hn hn' hw (by simp)
  obtain ⟨fuel0, hrun⟩ := offers_run ho (writeAll_stream _ _ _ _ _ _ h1)
  refine ⟨fuel0, fun fuel hfuel => ?_⟩
  obtain ⟨q, q1, q2, _⟩ := hrun fuel hfuel
  refine ⟨fs1, locs, w1.fileN, ?_, hst, stored_reads hst⟩
  rw [main_begins hb, q1]
  simp only [q2]

/-- A resumed run keeps every frame of the stream and every other file, and appends exactly the frames the run
offered. -/
theorem resumed_run_stream {rnd : S → S} {h : Snap S C} {n b q : ℕ} {ds : List (Snap S C)} {locs : List (ℕ × ℕ)}
    (hst : Stored M.text rnd fs name h n b ds locs q) (hb : Begins M p fs name (some q) d e s s0)
    {L : List (Snap S C)} (ho : Offers M.runEnv (M.runConf p s) s0 L s1) (hfit : ∀ x ∈ L, Fits n x)
    (hk : Addressable (ds.length + L.length) (frameSize S n)) :
    ∃ fuel0, ∀ fuel, fuel0 ≤ fuel → ∃ fs' locs' q', M.mainWith p fuel fs = .ok (0, fs') ∧
      Stored M.text rnd fs' name h n b (ds ++ L) (locs ++ locs') q' ∧ Kept fs fs' name locs ∧
      ∃ r r', Reader.new.load M.text fs' name = (true, r) ∧ r.frameCount = (ds ++ L).length ∧
        readerCalls (C := C) fs' (List.replicate (ds ++ L).length (.read n)) r =
          .ok (readBack rnd h (ds ++ L), r') := by
  obtain ⟨fs', locs', q', h1, h2, h3⟩ := resume_appends hst (partOf M p) L hfit hk
  unfold resumeSession at h1
  have hr := hst.readable
  obtain ⟨r, g1, g2, _⟩ := load_at hr.text hr.holds hr.box hr.fits hr.head hr.pos hr.bound hr.size hr.frames
    Reader.new true rfl rfl
  have hpos : 0 < ds.length := List.length_pos_iff.2 hr.frames
  have hlast : r.lastFileN = q := by
    obtain ⟨d', l', e1, e2, _, _, e5⟩ := holds_at (rnd := rnd) hr.holds (k := ds.length - 1) (by omega)
    unfold Reader.lastFileN
    rw [g2.frames, List.getLast?_eq_getElem?, zipWith_length hr.holds, e5]
    simp only [itemOf]
    exact hst.lastPart l' (by rw [List.getLast?_eq_getElem?, hr.holds.len, e2])
  rw [g1] at h1
  simp only [hlast] at h1
  cases hw : (Writer.new.open name (partOf M p) (some q) fs).2.writeAll M.text L
      (applyOps (Writer.new.open name (partOf M p) (some q) fs).1 fs) with
  | none => rw [hw] at h1; cases h1
  | some x =>
    obtain ⟨w1, fs1⟩ := x
    rw [hw] at h1
    cases h1
    obtain ⟨fuel0, hrun⟩ := offers_run ho (writeAll_stream _ _ _ _ _ _ hw)
    refine ⟨fuel0, fun fuel hfuel => ?_⟩
    obtain ⟨qq, q1, q2, _⟩ := hrun fuel hfuel
    refine ⟨fs', locs', q', ?_, h2, h3, stored_reads h2⟩
    rw [main_begins hb, q1]
    simp only [q2]

/-- A run that is not resumed and does not dump leaves an empty stream: what was stored under that name is lost, and
the result cannot be loaded. -/
theorem no_dump_empties (hb : Begins M p fs name none d e s s0) (hd : ¬ 0 < (M.runConf p s).dumpDt) (fuel : ℕ)
    (z : ℤ) (fs' : Files) (h : M.mainWith p fuel fs = .ok (z, fs')) :
    z = 0 ∧ fs'.txt (idxName name) = some [] ∧ ((Reader.new : Reader S).load M.text fs' name).1 = false := by
  rw [main_begins hb] at h
  cases hr : solverRun M.runEnv (M.runConf p s) fuel s0
      ((Writer.new.open name (partOf M p) none fs).2,
        applyOps (Writer.new.open name (partOf M p) none fs).1 fs) with
  | error u => rw [hr] at h; cases h
  | ok q =>
    rw [hr] at h
    obtain ⟨z', q⟩ := q
    cases h
    obtain ⟨h1, h2⟩ := run_silent hd hr
    have ht : q.stream.2.txt (idxName name) = some [] := by
      rw [h2]
      simp [Writer.open, applyOps_cons, applyOps_nil]
    refine ⟨h1, ht, ?_⟩
    unfold Reader.load
    simp only [ht]
    rfl

/-- Options the program reads, apart from `check_list`, which only chooses what is printed. -/
def knownKeys : List String :=
  ["resume", "initial_state", "initial_type", "stars_count", "box_size", "output", "max_part_size", "max_time", "dump_step",
   "check_step",
   "engine", "full_recompute_rate", "max_dist", "min_force", "device", "block_size", "use_nccl",
   "distance_to_node_radius_ratio", "tree_build_rate", "tree_layout", "traverse_type", "verbose", "oclprof",
   "solver", "starter_solver", "rank", "correction", "max_level", "error_threshold", "max_recursion",
   "refine_steps_count", "substep_subdivisions", "min_step", "max_step", "clamp"]

/-- An option outside the list changes nothing: a misspelt option is ignored without a word. -/
theorem unknown_ignored {p q : Params String} (h : ∀ k ∈ knownKeys, p k = q k) (fuel : ℕ) (fs : Files) :
    M.mainWith p fuel fs = M.mainWith q fuel fs := by
  have g : ∀ {α : Type} (k : String) (f : String → α) (d : α), k ∈ knownKeys → p.get k f d = q.get k f d :=
    fun k f d hk => get_agree (h k hk) f d
  have h1 : M.initialData fs p = M.initialData fs q := by
    unfold MainEnv.initialData MainEnv.freshData
    simp only [g "resume" _ _ (by decide), g "initial_state" _ _ (by decide), g "initial_type" _ _ (by decide),
      g "stars_count" _ _ (by decide), g "box_size" _ _ (by decide), g "output" _ _ (by decide)]
  have h2 : createEngine M.build M.conv p = createEngine M.build M.conv q :=
    engine_agree _ _ fun k hk => h k (by revert k; decide)
  have h3 : createSolver M.conv id M.depth p = createSolver M.conv id M.depth q :=
    solver_agree _ _ _ fun k hk => h k (by revert k; decide)
  have h4 : M.runConf p = M.runConf q := by
    funext s
    unfold MainEnv.runConf
    simp only [g "max_time" _ _ (by decide), g "dump_step" _ _ (by decide), g "check_step" _ _ (by decide)]
  unfold MainEnv.mainWith
  rw [h1, h2, h3, h4, g "max_part_size" _ _ (by decide)]

/-- A resumed run does not look at the options that choose the initial state, nor at `--output`. -/
theorem resume_ignores (hstr : ∀ x, M.conv.toStr x = x) {p q : Params String} {r : String} (hr : p "resume" = some r)
    (hne : r ≠ "")
    (h : ∀ k, k ∉ ["initial_state", "initial_type", "stars_count", "box_size", "output"] → p k = q k)
    (fuel : ℕ) (fs : Files) : M.mainWith p fuel fs = M.mainWith q fuel fs := by
  have hr' : q "resume" = some r := by rw [← h _ (by decide)]; exact hr
  have h1 : M.initialData fs p = M.initialData fs q := by
    unfold MainEnv.initialData
    have e1 : p.get "resume" M.conv.toStr "" = r := by simp [Params.get, hr, hstr]
    have e2 : q.get "resume" M.conv.toStr "" = r := by simp [Params.get, hr', hstr]
    simp only [e1, e2, ne_eq, hne, not_false_eq_true, if_true]
  have h2 : createEngine M.build M.conv p = createEngine M.build M.conv q :=
    engine_agree _ _ fun k hk => h k (by revert k; decide)
  have h3 : createSolver M.conv id M.depth p = createSolver M.conv id M.depth q :=
    solver_agree _ _ _ fun k hk => h k (by revert k; decide)
  have h4 : M.runConf p = M.runConf q := by
    funext s
    unfold MainEnv.runConf
    rw [get_agree (h "max_time" (by decide)), get_agree (h "dump_step" (by decide)), get_agree (h "check_step" (by decide))]
  unfold MainEnv.mainWith
  rw [h1, h2, h3, h4, get_agree (h "max_part_size" (by decide))]

/-- The documented options of `main` with their defaults as text. -/
def documented : List (String × String) :=
  [("max_time", "1"), ("dump_step", "0.01"), ("check_step", "0.1"), ("max_part_size", "1073741824"),
   ("output", "/tmp/nbody/main-stream"), ("resume", ""), ("initial_state", ""), ("initial_type", "Zeno"),
   ("box_size", "100"), ("stars_count", "64")]

/-- Conversions that read these texts as the numbers they show. -/
structure ReadsNumbers (c : Conv String D) : Prop where
  str : ∀ x, c.toStr x = x
  one : c.toDouble "1" = c.dec 1 0
  tenth : c.toDouble "0.1" = c.dec 1 (-1)
  hundredth : c.toDouble "0.01" = c.dec 1 (-2)
  hundred : c.toDouble "100" = c.dec 100 0
  gib : c.toULongLong "1073741824" = 1073741824

/-- Leaving an option out is the same as giving its documented default. -/
theorem defaults (hc : ReadsNumbers M.conv) {k t : String} (hk : (k, t) ∈ documented) (hp : p k = none)
    (fuel : ℕ) (fs : Files) : M.mainWith p fuel fs = M.mainWith (p.insert k t) fuel fs := by
  have hne : ∀ {α : Type} (key : String) (f : String → α) (d : α), key ≠ k → (p.insert k t).get key f d = p.get key f d :=
    fun key f d h => get_agree (by simp [Params.insert, h]) f d
  have hsame : ∀ {α : Type} (f : String → α) (d : α), f t = d → (p.insert k t).get k f d = p.get k f d := by
    intro α f d h
    simp [Params.get, Params.insert, hp, h]
  have g : ∀ {α : Type} (key : String) (f : String → α) (d : α), (key = k → f t = d) →
      (p.insert k t).get key f d = p.get key f d := by
    intro α key f d h
    by_cases e : key = k
    · subst e; exact hsame f d (h rfl)
    · exact hne key f d e
  have hE : ∀ key, key ∉ documented.map Prod.fst → p key = (p.insert k t) key := by
    intro key h
    have : key ≠ k := by
      rintro rfl
      exact h (List.mem_map.2 ⟨_, hk, rfl⟩)
    simp [Params.insert, this]
  have h2 : createEngine M.build M.conv p = createEngine M.build M.conv (p.insert k t) :=
    engine_agree _ _ fun key hk => hE key (by revert key; decide)
  have h3 : createSolver M.conv id M.depth p = createSolver M.conv id M.depth (p.insert k t) :=
    solver_agree _ _ _ fun key hk => hE key (by revert key; decide)
  have pick : ∀ key u, (key, u) ∈ documented → key = k → t = u := by
    intro key u hu e
    subst e
    simp only [documented, List.mem_cons, List.not_mem_nil, or_false, Prod.mk.injEq] at hu hk
    rcases hu with ⟨rfl, rfl⟩ | ⟨rfl, rfl⟩ | ⟨rfl, rfl⟩ | ⟨rfl, rfl⟩ | ⟨rfl, rfl⟩ | ⟨rfl, rfl⟩ | ⟨rfl, rfl⟩ | ⟨rfl, rfl⟩ |
      ⟨rfl, rfl⟩ | ⟨rfl, rfl⟩ <;> simpa using hk
  have h1 : M.initialData fs p = M.initialData fs (p.insert k t) := by
    unfold MainEnv.initialData MainEnv.freshData
    rw [g "resume" _ _ fun e => by rw [pick _ "" (by decide) e, hc.str],
      g "initial_state" _ _ fun e => by rw [pick _ "" (by decide) e, hc.str],
      g "initial_type" _ _ fun e => by rw [pick _ "Zeno" (by decide) e, hc.str],
      g "output" _ _ fun e => by rw [pick _ "/tmp/nbody/main-stream" (by decide) e, hc.str],
      g "box_size" _ _ fun e => by rw [pick _ "100" (by decide) e, hc.hundred],
      g "stars_count" _ _ fun e => by rw [pick _ "64" (by decide) e]]
  have h4 : M.runConf p = M.runConf (p.insert k t) := by
    funext s
    unfold MainEnv.runConf
    rw [g "max_time" _ _ fun e => by rw [pick _ "1" (by decide) e, hc.one],
      g "dump_step" _ _ fun e => by rw [pick _ "0.01" (by decide) e, hc.hundredth],
      g "check_step" _ _ fun e => by rw [pick _ "0.1" (by decide) e, hc.tenth]]
  unfold MainEnv.mainWith
  rw [h1, h2, h3, h4, g "max_part_size" _ _ fun e => by rw [pick _ "1073741824" (by decide) e, hc.gib]; rfl]

/-- `--max_part_size=0`, and also a size of `2^63` or more, which becomes negative on its way to the stream: the run is
not split, however long it is; all frames are in part 0. -/
theorem one_part (hb : Begins M p fs name none d e s s0) {f : Snap S C} {L : List (Snap S C)}
    (ho : Offers M.runEnv (M.runConf p s) s0 (f :: L) s1) {n : ℕ} (hfit : ∀ x ∈ f :: L, Fits n x) {v : String}
    (hv : p "max_part_size" = some v) (h64 : M.conv.toULongLong v < 2 ^ 64)
    (hbig : M.conv.toULongLong v = 0 ∨ 2 ^ 63 ≤ M.conv.toULongLong v) :
    ∃ fuel0, ∀ fuel, fuel0 ≤ fuel → ∃ fs', M.mainWith p fuel fs = .ok (0, fs') ∧
      fs'.bin (datName name 0) = some ((f :: L).flatMap frameBytes) := by
  have hm : partOf M p ≤ 0 := by
    unfold partOf partSize
    simp only [Params.get, hv]
    split <;> omega
  obtain ⟨w1, fs1, h1, h2⟩ := C38.single_part M.text name (partOf M p) hm fs f L hfit
  obtain ⟨fuel0, hrun⟩ := offers_run ho (writeAll_stream _ _ _ _ _ _ h1)
  refine ⟨fuel0, fun fuel hfuel => ?_⟩
  obtain ⟨q, q1, q2, _⟩ := hrun fuel hfuel
  refine ⟨fs1, ?_, h2⟩
  rw [main_begins hb, q1]
  simp only [q2]

end

section
open SimExample

/-- The simulation of the example, refused for each of the six reasons. -/
example (fuel : ℕ) :
    prog.mainWith (args ["--resume=x"]) fuel files = .ok (-1, files) ∧
    prog.mainWith (args ["--initial_state=nowhere"]) fuel files = .ok (-1, files) ∧
    prog.mainWith (args ["--initial_type=Gadget"]) fuel files = .ok (-1, files) ∧
    prog.mainWith (args ["--engine=warp"]) fuel files = .ok (-1, files) ∧
    prog.mainWith (args ["--solver=leapfrog"]) fuel files = .ok (-1, files) ∧
    (base (text 1)).mainWith p1 fuel files = .ok (-1, files) := by
  have R := fun q => refused (M := prog) (fun _ => rfl) q files fuel
  refine ⟨(R _).1 "x" (by decide +kernel) (by decide) (by decide +kernel),
    (R _).2.1 "nowhere" (.inl (by decide +kernel)) (by decide +kernel) (by decide) (by decide +kernel),
    (R _).2.2.1 "start" "3 0 1 0 2 5 7\n".toList "Gadget" (.inl (by decide +kernel)) (by decide +kernel) (by decide)
      (by decide +kernel) (by decide +kernel) (by decide +kernel),
    (R _).2.2.2.1 (d0, "/tmp/nbody/main-stream".toList, none) (by rfl) (by rw [← C49.accepts_iff]; decide +kernel),
    (R _).2.2.2.2.1 (d0, "/tmp/nbody/main-stream".toList, none) 6 (by rfl) rfl
      (by rw [← C49.accepts_iff]; decide +kernel) (by decide +kernel),
    (refused (M := base (text 1)) (fun _ => rfl) p1 files fuel).2.2.2.2.2 (d0, ['a'], none) .simple solver
      (by rfl) (by decide +kernel) (by rfl) rfl⟩

lemma agree12 : ∀ k, k ∉ outputKeys → k ∉ initialKeys → p1 k = p2 k := by
  intro k hk hk'
  rw [p1_eq, p2_eq]
  simp only [outputKeys, initialKeys, List.mem_cons, List.not_mem_nil, or_false, not_or] at hk hk'
  simp [Params.insert, noParams, hk, hk']

/-- The run to time 9 leaves the frames at 0, 4, 8, and resuming it adds those at 12 and 16. -/
example : ∃ fuel1 fuel2 fs1 fs2 l1 q1 l2 q2,
    prog.mainWith p1 fuel1 files = .ok (0, fs1) ∧
    Stored (text 1) (rnd 1) fs1 ['a'] (frame 0 3 0 1 0 2 5) 1 3 frames1 l1 q1 ∧
    prog.mainWith p2 fuel2 fs1 = .ok (0, fs2) ∧
    Stored (text 1) (rnd 1) fs2 ['a'] (frame 0 3 0 1 0 2 5) 1 3 (frames1 ++ frames2') l2 q2 := by
  obtain ⟨s1, h1⟩ := offers_of run1
  obtain ⟨fuel0, h⟩ := fresh_run_stream (M := prog) (text_good 1) begins1 h1 (n := 1) (b := 3) (by decide)
    (by decide) (by decide) fits1 ⟨by decide, by decide, by decide⟩ ⟨by decide, by decide⟩
  obtain ⟨fs1, l1, q1, a1, b1, _⟩ := h fuel0 le_rfl
  have hb := begins_resume (M := prog) (q := p2) (r := "a") (s' := sim.start .simple solver resumed) (fun _ => rfl)
    begins1 agree12 (by decide +kernel) (by decide) b1 (by decide) rfl (by rfl)
  obtain ⟨s2, h2⟩ := offers_of run2
  obtain ⟨fuel1, h'⟩ := resumed_run_stream (M := prog) b1 hb h2 fits2' ⟨by decide, by decide⟩
  obtain ⟨fs2, l2, q2, a2, b2, _⟩ := h' fuel1 le_rfl
  exact ⟨fuel0, fuel1, fs1, fs2, l1, q1, _, q2, a1, b1, a2, b2⟩

/-- `--max-time` is not `--max_time`. -/
example (fuel : ℕ) (fs : Files) : prog.main ["nbody", "--max-time=3", "--engine=simple"] fuel fs =
    prog.main ["nbody", "--engine=simple"] fuel fs :=
  unknown_ignored (by decide +kernel) fuel fs

/-- `--box_size` beside `--resume`. -/
example (fuel : ℕ) (fs : Files) : prog.main ["nbody", "--resume=a", "--engine=simple", "--box_size=3"] fuel fs =
    prog.main ["nbody", "--resume=a", "--engine=simple"] fuel fs := by
  refine resume_ignores (M := prog) (r := "a") (fun _ => rfl) (by decide +kernel) (by decide) (fun k hk => ?_) fuel fs
  show ((noParams.insert "resume" "a").insert "engine" "simple").insert "box_size" "3" k =
    (noParams.insert "resume" "a").insert "engine" "simple" k
  simp only [List.mem_cons, List.not_mem_nil, or_false, not_or] at hk
  simp [Params.insert, hk]

/-- Writing the stream `a` leaves the file `start` alone. -/
example (fuel : ℕ) (fs' : Files) (h : prog.main ["nbody", "--initial_state=start", "--initial_type=g1",
      "--engine=simple", "--solver=midpoint", "--max_step=2", "--dump_step=4", "--max_time=9", "--output=a"] fuel files =
      .ok (0, fs')) :
    fs'.txt "start".toList = some "3 0 1 0 2 5 7\n".toList := by
  rcases (only_output_touched (M := prog) (fun _ => rfl) _ _ _ _ _ h).2 with ⟨h0, -⟩ | h1
  · cases h0
  · exact (h1.txt _ (by decide +kernel)).trans (by decide)

/-- Numbers of the command line in hundredths. -/
def centi : Conv String ℕ :=
  { conv with
    toDouble := fun x => if x = "0.01" then 1 else if x = "0.1" then 10 else 100 * num x
    dec := fun m e => m * 10 ^ (e + 2).toNat }

/-- Without `--dump_step` every hundredth is dumped. -/
example (fuel : ℕ) (fs : Files) : { prog with conv := centi }.main ["nbody"] fuel fs =
    { prog with conv := centi }.main ["nbody", "--dump_step=0.01"] fuel fs := by
  have hc : ReadsNumbers centi :=
    ⟨fun _ => rfl, by decide +kernel, by decide +kernel, by decide +kernel, by decide +kernel, by decide +kernel⟩
  exact defaults (M := { prog with conv := centi }) hc (k := "dump_step") (t := "0.01") (by decide) rfl fuel fs

/-- The run to time 9 in parts of at most `2^63` bytes. -/
example : ∃ fuel fs', prog.mainWith (p1.insert "max_part_size" "9223372036854775808") fuel files = .ok (0, fs') ∧
    fs'.bin (datName ['a'] 0) = some (frames1.flatMap frameBytes) := by
  obtain ⟨s1, h1⟩ := offers_of run1
  have hb : Begins prog (p1.insert "max_part_size" "9223372036854775808") files ['a'] none d0 .simple solver
      (sim.start .simple solver d0) := ⟨by rfl, by decide +kernel, by rfl, rfl⟩
  obtain ⟨fuel0, h⟩ := one_part (M := prog) hb (f := frame 0 3 0 1 0 2 5) (L := frames1.tail) (s1 := s1) h1 (n := 1) fits1
    (v := "9223372036854775808") rfl (by decide +kernel) (.inr (by decide +kernel))
  obtain ⟨fs', a1, a2⟩ := h fuel0 le_rfl
  exact ⟨fuel0, fs', a1, a2⟩

/-- With a dump step of 0 the stream is emptied. -/
example (fuel : ℕ) (z : ℤ) (fs' : Files)
    (h : prog.mainWith (args ["--output=a", "--dump_step=0", "--max_time=5"]) fuel files = .ok (z, fs')) :
    ((Reader.new : Reader Num).load (text 1) fs' ['a']).1 = false :=
  (no_dump_empties (M := prog) (d := d0) (e := .simple) (s := solver) (s0 := sim.start .simple solver d0)
    ⟨by rfl, by decide +kernel, by rfl, rfl⟩ (by decide +kernel) fuel z fs' h).2.2

end

end NB.C68
