import Verif.Lemmas.Sim
import Verif.Lemmas.SimExample
import Verif.Lemmas.SimPrograms

/-
C67.  Interrupting a simulation and resuming it.
-/

namespace NB.C67

open StreamSpec RunSpec C68

section
variable {S C D ε : Type} [Raw S] [Raw C] [Zero S] [One S] [Add S] [Sub S] [Mul S] [Neg S] [Div S] [FOps S]
variable [LT S] [LE S] [DecidableLT S] [DecidableLE S] [OfScientific S]
variable {K σ : Type} {M : MainEnv S C D K σ} {X : SimEnv S D ε}

/-- A data object whose lists have the length they should have, with a box size a stream can store. -/
structure Sound (d : DataObj S C) : Prop where
  pos : 0 < d.count
  bound : d.count ≤ sizeMax
  mass : d.mass.length = d.count
  color : d.color.length = d.count
  step : d.step ≤ sizeMax
  box : 0 < d.box
  boxBound : d.box ≤ sizeMax

omit [Zero S] [One S] [Add S] [Sub S] [Mul S] [Neg S] [Div S] [FOps S] [LT S] [LE S] [DecidableLT S] [DecidableLE S]
  [OfScientific S] [Raw S] [Raw C] in
lemma unpack_length (n k : ℕ) (x : ℕ → S) : (unpackState n k x).length = n := by simp [unpackState]

omit [One S] [LT S] [LE S] [DecidableLT S] [DecidableLE S] [OfScientific S] in
lemma sim_fits (M : MainEnv S C D K σ) {d : DataObj S C} (hd : Sound d) (c : RunConf S) (e : EngineDesc D)
    (s : SolverDesc D) (k : ℕ) :
    Fits d.count (X.getData ((oneStep (M.withSim X).runEnv c)^[k] (X.start e s d))) := by
  have hk := sim_keeps (X := X) M c (X.start e s d) k
  refine ⟨hk.count, ?_, ?_, ?_, ?_, ?_⟩
  · show (unpackState _ _ _).length = _
    rw [unpack_length, hk.count]; rfl
  · show (unpackState _ _ _).length = _
    rw [unpack_length, hk.count]; rfl
  · show ((oneStep (M.withSim X).runEnv c)^[k] (X.start e s d)).data.mass.length = _
    rw [hk.mass]; exact hd.mass
  · show ((oneStep (M.withSim X).runEnv c)^[k] (X.start e s d)).data.color.length = _
    rw [hk.color]; exact hd.color
  · show ((oneStep (M.withSim X).runEnv c)^[k] (X.start e s d)).data.step ≤ _
    cases k with
    | zero => exact hd.step
    | succ k =>
      rw [Function.iterate_succ_apply']
      generalize (oneStep (M.withSim X).runEnv c)^[k] (X.start e s d) = y
      unfold oneStep
      show wrap64 _ ≤ sizeMax
      unfold wrap64 sizeMax
      omega

/-- A run to an earlier end (`p1`), resumed with a later end (`p2`), leaves a stream that reads, frame by frame and bit
by bit, like the stream of one run to the later end (`p3`): for every solver whose step is decided by the state, every
engine without memory, without clamping, in any arithmetic, if the time of the last frame survives being printed and
is positive.  The command lines may differ in part size, output, checks, and `p2` in everything that chooses the
initial state. -/
theorem resumed_is_uninterrupted_partial {rnd : S → S} (hT : TextGood M.text rnd) (hstr : ∀ x, M.conv.toStr x = x)
    {p1 p2 p3 : Params String} {fs : Files} {name : String} {d : DataObj S C} {e : EngineDesc D} {s : SolverDesc D}
    {s0 s1 s3 : SimSt S C D ε} (hb : Begins (M.withSim X) p1 fs name.toList none d e s s0)
    (h13 : ∀ k, k ∉ outputKeys → p1 k = p3 k) (h12 : ∀ k, k ∉ outputKeys → k ∉ initialKeys → p1 k = p2 k)
    (h23 : p2 "max_time" = p3 "max_time") (hres : p2 "resume" = some name) (hne : name ≠ "")
    (hmono : ∀ x, x < ((M.withSim X).runConf p1 s).maxTime → x < ((M.withSim X).runConf p3 s).maxTime)
    {L1 L3 : List (Snap S C)} (ho1 : Offers (M.withSim X).runEnv ((M.withSim X).runConf p1 s) s0 L1 s1)
    (ho3 : Offers (M.withSim X).runEnv ((M.withSim X).runConf p3 s) s0 L3 s3)
    (hd : Sound d) (hw : Raw.size S ≤ sizeMax) (hk : Addressable L3.length (frameSize S d.count))
    (hinj : Function.Injective (X.layout 0)) (hmem : Memoryless X e)
    (hdec : DecidedByState X (X.toCoord s.step.maxStep) s) (hclamp : s.step.clamp = false)
    {l : Snap S C} (hl : L1.getLast? = some l) (ht : rnd l.time = l.time) (hpos : ¬ l.time ≤ 0) :
    ∃ fuel0, ∀ fuel, fuel0 ≤ fuel → ∃ fsA fsB fsC A, (M.withSim X).mainWith p1 fuel fs = .ok (0, fsA) ∧
      (M.withSim X).mainWith p2 fuel fsA = .ok (0, fsB) ∧ (M.withSim X).mainWith p3 fuel fs = .ok (0, fsC) ∧
      A.length = L3.length ∧ Reads (C := C) M.text fsB name.toList d.count A ∧
      Reads (C := C) M.text fsC (p3.get "output" M.conv.toStr "/tmp/nbody/main-stream").toList d.count A := by
  obtain rfl : X.start e s d = s0 := by
    have := hb.start
    exact Option.some.inj this
  obtain ⟨f, hf⟩ : ∃ f, L1.head? = some f := by
    cases L1 with
    | nil => simp at hl
    | cons a t => exact ⟨a, rfl⟩
  have hfm : f ∈ L1 := List.mem_of_mem_head? hf
  obtain ⟨kf, hkf⟩ := offers_frames ho1 hfm
  have hkeep := fun k => sim_keeps (X := X) M ((M.withSim X).runConf p1 s) (X.start e s d) k
  have hfmass : f.mass = d.mass := by rw [hkf]; exact (hkeep kf).mass
  have hfcolor : f.color = d.color := by rw [hkf]; exact (hkeep kf).color
  have hfbox : f.box = d.box := by rw [hkf]; exact (hkeep kf).box
  have hfit : ∀ x ∈ L3, Fits d.count x := by
    intro x hx
    obtain ⟨k, hk⟩ := offers_frames ho3 hx
    rw [hk]
    exact sim_fits M hd _ e s k
  have hR := sim_alike (X := X) M (c := (M.withSim X).runConf p1 s) hclamp (s := s) hinj hmem hdec
  obtain ⟨fuel0, hfin⟩ := resume_main (M := M.withSim X) hT hstr hb h13 h12 h23 hres hne hmono ho1 ho3 hd.pos hd.bound hw hfit hf hl
    (b := d.box) ⟨hfbox, hd.box, hd.boxBound⟩ hk hR
    (s' := X.start e s (readInto M.black d.count (content rnd f l true))) rfl
    (by show ¬ rnd l.time ≤ 0; rw [ht]; exact hpos) (by
      intro k hgk
      have hkk := hkeep k
      generalize (oneStep (M.withSim X).runEnv ((M.withSim X).runConf p1 s))^[k] (X.start e s d) = z at hgk hkk
      have hz : X.getData z = l := hgk
      have e1 : l.count = z.data.count := by rw [← hz]; rfl
      have e3 : l.time = z.data.time := by rw [← hz]; rfl
      have e4 : l.step = z.data.step := by rw [← hz]; rfl
      have e5 : l.vrt = unpackState z.data.count 0 (z.bufs (X.layout 0 .y)) := by rw [← hz]; rfl
      have e6 : l.vel = unpackState z.data.count 3 (z.bufs (X.layout 0 .y)) := by rw [← hz]; rfl
      have hcnt : z.data.count = d.count := hkk.count
      have hrc : (readInto M.black d.count (content rnd f l true)).count = d.count := rfl
      refine ⟨⟨hkk.engine, hkk.solver, hcnt, ?_, ?_, ?_, ?_, ?_⟩, hkk.engine, hkk.solver⟩
      · show z.data.mass = f.mass
        rw [hkk.mass, hfmass]; rfl
      · show z.data.color = f.color
        rw [hkk.color, hfcolor]; rfl
      · show z.data.time = rnd l.time
        rw [ht, e3]
      · show z.data.step = l.step
        rw [e4]
      · show Spec.Same _ _ (Spec.put X.junk (X.layout 0 .y) (packState (readInto M.black d.count (content rnd f l true)))
          (X.layout 0 .y))
        have : Spec.put X.junk (X.layout 0 .y) (packState (readInto M.black d.count (content rnd f l true)))
          (X.layout 0 .y) = packState (readInto M.black d.count (content rnd f l true)) := by
          unfold Spec.put; rw [if_pos rfl]
        rw [this, hcnt]
        apply pack_unpack (d := readInto M.black d.count (content rnd f l true))
        · show l.vrt = unpackState d.count 0 _
          rw [e5, hcnt]
        · show l.vel = unpackState d.count 3 _
          rw [e6, hcnt])
  refine ⟨fuel0, fun fuel hfuel => ?_⟩
  obtain ⟨fsA, fsB, fsC, A, g1, g2, g3, g4, g5, g6⟩ := hfin fuel hfuel
  exact ⟨fsA, fsB, fsC, A, g1, g2, g3, by rw [g4, readBack_length], g5, g6⟩

/-- The box of a resumed run has size 0, whatever `--box_size` says and whatever the stream holds, so in exact arithmetic
`--clamp` does nothing. -/
theorem resumed_has_no_box {p : Params String} {fs : Files} {name : FName} {q : ℕ} {d : DataObj S C} {e : EngineDesc D}
    {s : SolverDesc D} {s0 : SimSt S C D ε} (hb : Begins (M.withSim X) p fs name (some q) d e s s0)
    (hsub : ∀ x : S, x - FOps.lit 2 * FOps.lit 0 = x) (hadd : ∀ x : S, x + FOps.lit 2 * FOps.lit 0 = x) (k : ℕ) :
    let z := (oneStep (M.withSim X).runEnv ((M.withSim X).runConf p s))^[k] s0
    d.box = 0 ∧ z.data.box = 0 ∧ X.clamp z = z := by
  have hd : d.box = 0 := by
    have h := hb.data
    unfold MainEnv.initialData at h
    by_cases hr : p.get "resume" (M.withSim X).conv.toStr "" = ""
    · simp only [hr, ne_eq, not_true_eq_false, if_false] at h
      cases hf : (M.withSim X).freshData fs p with
      | error u => rw [hf] at h; cases h
      | ok o =>
        rw [hf] at h
        cases o with
        | none => cases h
        | some d' => cases h
    · simp only [ne_eq, hr, not_false_eq_true, if_true] at h
      cases hf : (M.withSim X).resumeData fs (p.get "resume" (M.withSim X).conv.toStr "").toList with
      | error u => rw [hf] at h; cases h
      | ok o =>
        rw [hf] at h
        cases o with
        | none => cases h
        | some x =>
          cases h
          unfold MainEnv.resumeData at hf
          simp only at hf
          generalize hs : (((Reader.new : Reader S).load (M.withSim X).text fs
            (p.get "resume" (M.withSim X).conv.toStr "").toList).2.seek fs _) = w at hf
          by_cases h1 : ((Reader.new : Reader S).load (M.withSim X).text fs
            (p.get "resume" (M.withSim X).conv.toStr "").toList).1 = false
          · rw [if_pos h1] at hf; cases hf
          · rw [if_neg h1] at hf
            by_cases h2 : w.1 = false
            · rw [if_pos h2] at hf; cases hf
            · rw [if_neg h2] at hf
              cases hq : w.2.read C fs w.2.bodyCount with
              | error u => rw [hq] at hf; cases hf
              | ok q =>
                rw [hq] at hf
                obtain ⟨o, r⟩ := q
                cases o with
                | none => cases hf
                | some o => cases hf; rfl
  obtain rfl : X.start e s d = s0 := Option.some.inj hb.start
  have hz := (sim_keeps (X := X) M ((M.withSim X).runConf p s) (X.start e s d) k).box
  have hz' : ((oneStep (M.withSim X).runEnv ((M.withSim X).runConf p s))^[k] (X.start e s d)).data.box = 0 := hz.trans hd
  refine ⟨hd, hz', ?_⟩
  generalize (oneStep (M.withSim X).runEnv ((M.withSim X).runConf p s))^[k] (X.start e s d) = z at hz'
  have hw : ∀ x : S, Spec.wrap (FOps.lit 0) x = x := by
    intro x
    unfold Spec.wrap
    simp only [hsub, hadd, ite_self]
  unfold SimEnv.clamp
  rw [hz']
  have : Spec.call (fun _ _ => (0 : S)) z.data.count z.bufs (.clamp (X.layout 0 .y) (FOps.lit 0)) = z.bufs := by
    funext h j
    simp only [Spec.call, hw, ite_self, Spec.put]
    split
    · rename_i e; rw [e]
    · rfl
  rw [this]

omit [Raw S] [Raw C] [One S] [LT S] [LE S] [DecidableLT S] [DecidableLE S] [OfScientific S] in
/-- A step of the simulation is a step of the solver's program, with the flags the solver has from the step before: on
any engine, in any arithmetic, starters of Adams solvers included. -/
theorem advise_is_step {φ : Type} {rd : (ℕ → Members) → φ} {step : φ → S → Act S φ} {fl₀ : φ}
    {z : SimSt S C D ε} (h : AsProgram X 0 z.solver φ rd step fl₀) (dt : S) :
    (rd (X.advise dt z).members, (X.advise dt z).bufs, (X.advise dt z).memory) =
      evalMem (X.fcompute z) (X.fmaxabs z) z.data.count (step (rd z.members) dt) z.bufs z.memory := by
  rw [← h.calls dt z.members, evalMem_after]
  rfl

omit [Raw S] [Raw C] [One S] [LT S] [LE S] [DecidableLT S] [DecidableLE S] [OfScientific S] in
/-- A run begins with the flags of a new solver. -/
theorem start_is_fresh {φ : Type} {rd : (ℕ → Members) → φ} {step : φ → S → Act S φ} {fl₀ : φ} {e : EngineDesc D}
    {s : SolverDesc D} {d : DataObj S C} (h : AsProgram X 0 s φ rd step fl₀) : rd (X.start e s d).members = fl₀ :=
  h.fresh

end

/-- A run to time 9, resumed to time 17 with small parts, and one run to time 17: both streams hold the frames at 0, 4,
8, 12, 16. -/
example : ∃ fuel0, ∀ fuel, fuel0 ≤ fuel → ∃ fsA fsB fsC A, SimExample.prog.mainWith SimExample.p1 fuel SimExample.files =
      .ok (0, fsA) ∧ SimExample.prog.mainWith SimExample.p2 fuel fsA = .ok (0, fsB) ∧
      SimExample.prog.mainWith SimExample.p3 fuel SimExample.files = .ok (0, fsC) ∧
      A.length = 5 ∧ Reads (C := UInt8) (SimExample.text 1) fsB ['a'] 1 A ∧
      Reads (C := UInt8) (SimExample.text 1) fsC ['b'] 1 A := by
  obtain ⟨s1, h1⟩ := SimExample.offers_of SimExample.run1
  obtain ⟨s3, h3⟩ := SimExample.offers_of SimExample.run3
  refine resumed_is_uninterrupted_partial (M := SimExample.base (SimExample.text 1)) (X := SimExample.sim) (name := "a")
    (SimExample.text_good 1) (fun _ => rfl) SimExample.begins1 ?_ ?_ (by decide +kernel) (by decide +kernel) (by decide)
    ?_ h1 h3 ⟨by decide, by decide, rfl, rfl, by decide, by decide, by decide⟩ (by decide) ⟨by decide, by decide +kernel⟩
    SimExample.layout_inj (fun _ _ _ _ _ _ => rfl) trivial rfl (l := SimExample.frame 8 (-21) 48 113 (-72) (-14) (-59)) rfl rfl
    (by decide)
  · intro k hk
    rw [SimExample.p1_eq, SimExample.p3_eq]
    simp only [outputKeys, List.mem_cons, List.not_mem_nil, or_false, not_or] at hk
    simp [Params.insert, SimExample.noParams, hk]
  · exact agree12
  · intro x hx
    have e1 : ((SimExample.prog).runConf SimExample.p1 SimExample.solver).maxTime = 9 := by decide +kernel
    have e3 : ((SimExample.prog).runConf SimExample.p3 SimExample.solver).maxTime = 17 := by decide +kernel
    show x < ((SimExample.prog).runConf SimExample.p3 SimExample.solver).maxTime
    have hx' : x < ((SimExample.prog).runConf SimExample.p1 SimExample.solver).maxTime := hx
    rw [e1] at hx'
    rw [e3]
    exact lt_trans (α := ℤ) hx' (by decide)

/-- The run of the example, resumed. -/
example : ∃ fs1 q, Begins SimExample.prog SimExample.p2 fs1 ['a'] (some q) SimExample.resumed .simple SimExample.solver
      (SimExample.sim.start .simple SimExample.solver SimExample.resumed) ∧ SimExample.d0.box = 3 ∧
      SimExample.resumed.box = 0 := by
  obtain ⟨s1, h1⟩ := SimExample.offers_of SimExample.run1
  obtain ⟨fuel0, h⟩ := fresh_run_stream (M := SimExample.prog) (SimExample.text_good 1) SimExample.begins1 h1 (n := 1)
    (b := 3) (by decide) (by decide) (by decide) SimExample.fits1 ⟨by decide, by decide, by decide⟩ ⟨by decide, by decide⟩
  obtain ⟨fs1, l1, q1, a1, b1, _⟩ := h fuel0 le_rfl
  have hb := begins_resume (M := SimExample.prog) (q := SimExample.p2) (r := "a")
    (s' := SimExample.sim.start .simple SimExample.solver SimExample.resumed) (fun _ => rfl)
    SimExample.begins1 agree12 (by decide +kernel) (by decide) b1 (by decide) rfl (by rfl)
  refine ⟨fs1, q1, hb, rfl, ?_⟩
  exact (resumed_has_no_box (M := SimExample.base (SimExample.text 1)) (X := SimExample.sim) hb SimExample.sub_zero'
    SimExample.add_zero' 0).1

/-- An Adams solver with an embedded solver as its starter. -/
example (dt : SimExample.Num) (z : SimSt SimExample.Num UInt8 ℕ Unit) (st : StepSettings ℕ) (rs : RKSettings ℕ)
    (hz : z.solver = .adams (.rk .rkf rs st) 2 true st) :
    (evalMem (SimExample.sim.fcompute z) (SimExample.sim.fmaxabs z) z.data.count (do
        (if true && (z.members 0).step == 0 then Act.op (.fill 5 0) else pure () : Act SimExample.Num Unit)
        adamsCalls (SimExample.layout 0) [3 / 2, -1 / 2] true (do
          rkCalls (SimExample.layout 1) (SimExample.sim.table .rkf) (rkConf SimExample.sim rs st) dt (z.members 1).allocated
          pure true) (z.members 1).allocated dt (z.members 0).step) z.bufs z.memory).2.1 =
      (SimExample.sim.advise dt z).bufs := by
  have h := advise_is_step (X := SimExample.sim) (z := z)
    (hz ▸ AsProgram.adams 0 2 true st [3 / 2, -1 / 2] rfl (.rk 1 .rkf rs st)) dt
  exact (congrArg (fun r => r.2.1) h).symm

section
open SimExample

/-- A run, a run that resumes it, and a single run with the same options leave streams that read differently. -/
def Differs {S C D K σ : Type} [Raw S] [Raw C] [Zero S] [One S] [Add S] [Sub S] [Mul S] [Neg S] [Div S] [FOps S]
    [Zero K] [Add K] [Sub K] [Mul K] [LT K] [LE K] [DecidableLT K] [DecidableLE K] [OfScientific K]
    (M : MainEnv S C D K σ) (fs : Files) (l1 l2 l3 : List String) : Prop :=
  ∃ fuel fsA fsB fsC n A B, M.main l1 fuel fs = .ok (0, fsA) ∧ M.main l2 fuel fsA = .ok (0, fsB) ∧
    M.main l3 fuel fs = .ok (0, fsC) ∧ Reads (C := C) M.text fsB ['a'] n A ∧ Reads (C := C) M.text fsC ['b'] n B ∧ A ≠ B

lemma contents_readBack {m : ℕ} {f : Snap Num UInt8} {L L' : List (Snap Num UInt8)}
    (h : readBack (rnd m) f L = readBack (rnd m) f L') : contents m f L = contents m f L' := by
  have key : ∀ L : List (Snap Num UInt8), readBack (rnd m) f L = (contents m f L).map .data := by
    intro L
    cases L with
    | nil => rfl
    | cons a L => simp [readBack, contents]
  rw [key, key] at h
  exact List.map_injective_iff.2 (fun _ _ e => by cases e; rfl) h

lemma skip {a key v : String} (h : ∀ p, parseArgument p a = p.insert key v) {k : String} (hk : k ≠ key)
    (p : Params String) : parseArgument p a k = p k := by
  rw [h]; simp [Params.insert, hk]

lemma agree13 {o : List String} {t : String} (hmt : ∀ p k, k ∉ outputKeys → parseArgument p t k = p k) :
    ∀ k, k ∉ outputKeys → parseArguments (line1 o t) k = parseArguments (line3 o) k := by
  intro k hk
  have hk' := hk
  simp only [outputKeys, List.mem_cons, List.not_mem_nil, or_false, not_or] at hk
  show (_ ++ o ++ [t, "--output=a"]).foldl parseArgument _ k =
    (_ ++ o ++ ["--max_time=17", "--output=b"]).foldl parseArgument _ k
  rw [List.foldl_append, List.foldl_append, List.foldl_append, List.foldl_append]
  simp only [List.foldl_cons, List.foldl_nil]
  rw [skip (a := "--output=a") (key := "output") (v := "a") (fun _ => rfl) hk.2.1, hmt _ _ hk',
    skip (a := "--output=b") (key := "output") (v := "b") (fun _ => rfl) hk.2.1,
    skip (a := "--max_time=17") (key := "max_time") (v := "17") (fun _ => rfl) hk.1]

lemma agree12' {o : List String} {t : String} (hmt : ∀ p k, k ∉ outputKeys → parseArgument p t k = p k) :
    ∀ k, k ∉ outputKeys → k ∉ initialKeys → parseArguments (line1 o t) k = parseArguments (line2 o) k := by
  intro k hk hi
  have hk' := hk
  simp only [outputKeys, List.mem_cons, List.not_mem_nil, or_false, not_or] at hk
  simp only [initialKeys, List.mem_cons, List.not_mem_nil, or_false, not_or] at hi
  show (["--initial_state=start", "--initial_type=g1"] ++ o ++ [t, "--output=a"]).foldl parseArgument _ k =
    (["--resume=a"] ++ o ++ ["--max_time=17"]).foldl parseArgument _ k
  rw [List.foldl_append, List.foldl_append, List.foldl_append, List.foldl_append]
  simp only [List.foldl_cons, List.foldl_nil]
  rw [skip (a := "--output=a") (key := "output") (v := "a") (fun _ => rfl) hk.2.1, hmt _ _ hk',
    skip (a := "--max_time=17") (key := "max_time") (v := "17") (fun _ => rfl) hk.1]
  apply parseAll_agree
  rw [skip (a := "--initial_type=g1") (key := "initial_type") (v := "g1") (fun _ => rfl) hi.2.2.1,
    skip (a := "--initial_state=start") (key := "initial_state") (v := "start") (fun _ => rfl) hi.2.1,
    skip (a := "--resume=a") (key := "resume") (v := "a") (fun _ => rfl) hi.1]

lemma trial {m : ℕ} {o : List String} {t : String} {s : SolverDesc ℕ}
    (hb : Begins (progT m) (parseArguments (line1 o t)) files ['a'] none d0 .simple s (sim.start .simple s d0))
    (hc : check m o t s = true) (hmt : ∀ p k, k ∉ outputKeys → parseArgument p t k = p k)
    (hres : parseArguments (line2 o) "resume" = some "a")
    (hout : (parseArguments (line3 o)).get "output" conv.toStr "/tmp/nbody/main-stream" = "b") :
    Differs (progT m) files (line1 o t) (line2 o) (line3 o) := by
  unfold check at hc
  split at hc
  · rename_i f L1 f' L3 e1 e3
    split at hc
    · rename_i L2 e2
      simp only [Bool.and_eq_true, Bool.not_eq_true', decide_eq_true_eq, decide_eq_false_iff_not] at hc
      obtain ⟨⟨⟨⟨rfl, hfit⟩, hbox⟩, hlen⟩, hdiff⟩ := hc
      obtain ⟨s1, h1⟩ := offers_of e1
      obtain ⟨s2, h2⟩ := offers_of e2
      obtain ⟨s3, h3⟩ := offers_of e3
      have hf : ∀ x ∈ f :: L1 ++ L2 ++ L3, Fits 1 x := fun x hx => fits_iff (List.all_eq_true.1 hfit x hx)
      simp only [List.length_append, List.length_cons] at hlen
      have hk : ∀ k, k ≤ 100 → Addressable k (frameSize Num 1) := fun k hk =>
        _root_.NB.Addressable.mono (k := 100) ⟨by decide, by decide +kernel⟩ hk
      have hl : (f :: L1).getLast? = some ((f :: L1).getLast?.getD f) := by
        cases hg : (f :: L1).getLast? with
        | none => simp at hg
        | some a => rfl
      obtain ⟨fuel, fsA, fsB, fsC, A, B, g1, g2, g3, g4, g5, g6⟩ := differs_main (M := progT m) (p2 := parseArguments (line2 o))
        (p3 := parseArguments (line3 o)) (name := "a") (b := 3) (n := 1) (text_good m) (fun _ => rfl) hb (agree13 hmt) (agree12' hmt) hres
        (by decide) h1 hl rfl h2 h3 (by decide) (by decide) (by decide) (fun x hx => hf x (by simp at hx ⊢; tauto))
        (fun x hx => hf x (by simp; tauto)) (fun x hx => hf x (by simp at hx ⊢; tauto)) ⟨hbox, by decide, by decide⟩
        (hk _ (by simp only [List.length_cons]; omega)) (hk _ (by omega)) (fun h => hdiff (contents_readBack h))
      have hout' : (parseArguments (line3 o)).get "output" (progT m).conv.toStr "/tmp/nbody/main-stream" = "b" := hout
      rw [hout'] at g5
      exact ⟨fuel, fsA, fsB, fsC, 1, A, B, g1, g2, g3, g4, g5, g6⟩
    · cases hc
  · cases hc

/-- The options of the example, and `o`. -/
def opts (solver : String) (o : List String) : List String :=
  ["--engine=simple", solver, "--max_step=2", "--dump_step=4"] ++ o

lemma time9 : ∀ (p : Params String) k, k ∉ outputKeys → parseArgument p "--max_time=9" k = p k := by
  intro p k hk
  simp only [outputKeys, List.mem_cons, List.not_mem_nil, or_false, not_or] at hk
  exact skip (key := "max_time") (v := "9") (fun _ => rfl) hk.1 p

lemma time0 : ∀ (p : Params String) k, k ∉ outputKeys → parseArgument p "--max_time=0" k = p k := by
  intro p k hk
  simp only [outputKeys, List.mem_cons, List.not_mem_nil, or_false, not_or] at hk
  exact skip (key := "max_time") (v := "0") (fun _ => rfl) hk.1 p

/-- With `--clamp` the resumed run goes on without the box. -/
theorem clamp_differs : Differs (progT 1) files (line1 (opts "--solver=midpoint" ["--clamp=1"]) "--max_time=9")
    (line2 (opts "--solver=midpoint" ["--clamp=1"])) (line3 (opts "--solver=midpoint" ["--clamp=1"])) :=
  trial (s := .midpoint ⟨1, 2, true⟩) ⟨by rfl, by decide +kernel, by rfl, rfl⟩ (by decide +kernel) time9
    (by decide +kernel) (by decide +kernel)

/-- An Adams solver starts again with its starter. -/
theorem adams_differs : Differs (progT 1) files (line1 (opts "--solver=adams" ["--rank=2"]) "--max_time=9")
    (line2 (opts "--solver=adams" ["--rank=2"])) (line3 (opts "--solver=adams" ["--rank=2"])) :=
  trial (s := .adams (.euler ⟨1, 2, false⟩) 2 false ⟨1, 2, false⟩) ⟨by rfl, by decide +kernel, by rfl, rfl⟩
    (by decide +kernel) time9 (by decide +kernel) (by decide +kernel)

/-- The Stetter solver starts again with its first step. -/
theorem stetter_differs : Differs (progT 1) files (line1 (opts "--solver=midpoint-st" []) "--max_time=9")
    (line2 (opts "--solver=midpoint-st" [])) (line3 (opts "--solver=midpoint-st" [])) :=
  trial (s := .midpointSt ⟨1, 2, false⟩) ⟨by rfl, by decide +kernel, by rfl, rfl⟩ (by decide +kernel) time9
    (by decide +kernel) (by decide +kernel)

/-- When the time of the last frame loses a digit in the index, the clock of the resumed run is wrong. -/
theorem rounding_differs : Differs (progT 5) files (line1 (opts "--solver=midpoint" []) "--max_time=9")
    (line2 (opts "--solver=midpoint" [])) (line3 (opts "--solver=midpoint" [])) :=
  trial (s := .midpoint ⟨1, 2, false⟩) ⟨by rfl, by decide +kernel, by rfl, rfl⟩ (by decide +kernel) time9
    (by decide +kernel) (by decide +kernel)

/-- When the only frame is the first, the resumed run dumps it again. -/
theorem first_frame_twice : Differs (progT 1) files (line1 (opts "--solver=midpoint" []) "--max_time=0")
    (line2 (opts "--solver=midpoint" [])) (line3 (opts "--solver=midpoint" [])) :=
  trial (s := .midpoint ⟨1, 2, false⟩) ⟨by rfl, by decide +kernel, by rfl, rfl⟩ (by decide +kernel) time0
    (by decide +kernel) (by decide +kernel)

end

end NB.C67
