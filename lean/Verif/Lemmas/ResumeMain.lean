import Verif.Props.C68_Program

/-
Two command lines, one of which resumes what the other has left.
-/

namespace NB

open StreamSpec C39 C68

section
variable {S C D K σ : Type} [Raw S] [Raw C] [Zero S] [One S] [Add S] [Sub S] [Mul S] [Neg S] [Div S] [FOps S]
variable [Zero K] [Add K] [Sub K] [Mul K] [LT K] [LE K] [DecidableLT K] [DecidableLE K] [OfScientific K]
variable {M : MainEnv S C D K σ}

/-- A run to an earlier end and a second run that resumes it leave a stream that reads like that of a single run,
provided the state built from the last frame (`R`) behaves like the state the first run had there. -/
lemma resume_main {rnd : S → S} (hT : TextGood M.text rnd) (hstr : ∀ x, M.conv.toStr x = x)
    {p1 p2 p3 : Params String} {fs : Files} {name : String} {d : DataObj S C} {e : EngineDesc D} {s : SolverDesc D}
    {s0 s1 s3 : σ} (hb : Begins M p1 fs name.toList none d e s s0)
    (h13 : ∀ k, k ∉ outputKeys → p1 k = p3 k) (h12 : ∀ k, k ∉ outputKeys → k ∉ initialKeys → p1 k = p2 k)
    (h23 : p2 "max_time" = p3 "max_time") (hres : p2 "resume" = some name) (hne : name ≠ "")
    (hmono : ∀ x, x < (M.runConf p1 s).maxTime → x < (M.runConf p3 s).maxTime)
    {L1 L3 : List (Snap S C)} (ho1 : Offers M.runEnv (M.runConf p1 s) s0 L1 s1)
    (ho3 : Offers M.runEnv (M.runConf p3 s) s0 L3 s3)
    {n b : ℕ} (hn : 0 < n) (hn' : n ≤ sizeMax) (hw : Raw.size S ≤ sizeMax) (hfit : ∀ x ∈ L3, Fits n x)
    {f l : Snap S C} (hf : L1.head? = some f) (hl : L1.getLast? = some l) (hbox : BoxGood f.box b)
    (hk : Addressable L3.length (frameSize S n))
    {R : σ → σ → Prop} (hR : Alike noBox M.runEnv (M.runConf p1 s) R) {s' : σ}
    (hs' : M.start e s (readInto M.black n (content rnd f l true)) = some s') (hpos : ¬ M.time s' ≤ 0)
    (hback : ∀ k, M.getData ((oneStep M.runEnv (M.runConf p1 s))^[k] s0) = l →
      R ((oneStep M.runEnv (M.runConf p1 s))^[k] s0) s') :
    ∃ fuel0, ∀ fuel, fuel0 ≤ fuel → ∃ fsA fsB fsC A, M.mainWith p1 fuel fs = .ok (0, fsA) ∧
      M.mainWith p2 fuel fsA = .ok (0, fsB) ∧ M.mainWith p3 fuel fs = .ok (0, fsC) ∧
      A = readBack rnd f L3 ∧ Reads (C := C) M.text fsB name.toList n A ∧
      Reads (C := C) M.text fsC (p3.get "output" M.conv.toStr "/tmp/nbody/main-stream").toList n A := by
  have hc3 : SameRun { M.runConf p1 s with maxTime := (M.runConf p3 s).maxTime } (M.runConf p3 s) :=
    runConf_agree (h13 _ (by decide)) s
  have hc2 : SameRun { M.runConf p1 s with maxTime := (M.runConf p3 s).maxTime } (M.runConf p2 s) := by
    have h1 : (M.runConf p2 s).maxTime = (M.runConf p3 s).maxTime := by
      unfold MainEnv.runConf; simp only; rw [get_agree h23]
    rw [← h1]
    exact runConf_agree (h12 _ (by decide) (by decide)) s
  -- the run to the later end with the configuration of the first
  have ho3' : Offers M.runEnv { M.runConf p1 s with maxTime := (M.runConf p3 s).maxTime } s0 L3 s3 := by
    obtain ⟨fuel, q, g1, g2, g3⟩ := ho3
    rw [run_record] at g1
    have hff : firstFrames M.runEnv { M.runConf p1 s with maxTime := (M.runConf p3 s).maxTime } s0 =
        firstFrames M.runEnv (M.runConf p3 s) s0 := by
      unfold firstFrames; rw [hc3.hasStream, hc3.dumpDt]
    obtain ⟨q', L, L', a1, a2, a3, a4, a5⟩ := loop_alike (pr := id) (R := Eq)
      (c' := { M.runConf p1 s with maxTime := (M.runConf p3 s).maxTime })
      (r' := ⟨s0, firstFrames M.runEnv (M.runConf p3 s) s0, M.runEnv.time s0, M.runEnv.time s0, []⟩)
      ⟨fun h => by rw [h], fun h => by rw [h], fun h => by rw [h]⟩
      ⟨hc3.dt.symm, hc3.maxTime.symm, hc3.dumpDt.symm, hc3.hasStream.symm, hc3.clampToBox.symm⟩ rfl rfl g1
    refine ⟨fuel, q', ?_, ?_, ?_⟩
    · rw [run_record, hff]; exact a1
    · rw [a4, ← g2, a3]
      simp only [List.map_id] at a5
      rw [a5]
    · rw [← a2, g3]
  obtain ⟨L, L', s2, _, e3, e4, ho2⟩ := (offers_resume hR hmono hc2 ho1 hl hpos hback).2 L3 s3 ho3'
  have hlen : L3.length = L1.length + L.length := by
    have := congrArg List.length e4
    simp only [List.length_map] at this
    rw [e3, List.length_append, this]
  obtain ⟨f', T1, rfl⟩ : ∃ f' T1, L1 = f' :: T1 := by
    cases L1 with
    | nil => simp at hf
    | cons a t => exact ⟨a, t, rfl⟩
  obtain rfl : f' = f := by simpa using hf
  have hfit1 : ∀ x ∈ f' :: T1, Fits n x := fun x hx => hfit x (by rw [e3]; exact List.mem_append_left _ hx)
  have hfit2 : ∀ x ∈ L, Fits n x := by
    intro x hx
    have : noBox x ∈ L'.map noBox := by rw [e4]; exact List.mem_map_of_mem hx
    obtain ⟨x', hx', ex⟩ := List.mem_map.1 this
    exact noBox_fits ex (hfit x' (by rw [e3]; exact List.mem_append_right _ hx'))
  have hkl : ∀ {m : ℕ}, m ≤ L3.length → Addressable m (frameSize S n) := fun hm => hk.mono hm
  obtain ⟨fuelA, hA⟩ := fresh_run_stream hT hb ho1 hn hn' hw hfit1 hbox
    (hkl (by rw [hlen]; simp only [List.length_cons]; omega))
  obtain ⟨fsA, locsA, qA, a1, a2, _⟩ := hA fuelA le_rfl
  have hbeg2 := begins_resume hstr hb h12 hres hne a2 (by have := hk.1; rw [hlen] at this; omega) hl hs'
  obtain ⟨fuelB, hB⟩ := resumed_run_stream a2 hbeg2 ho2 hfit2 (hkl (by omega))
  have hL3 : L3 = f' :: (T1 ++ L') := by rw [e3]; rfl
  have hbeg3 := begins_agree hb h13
  obtain ⟨fuelC, hC⟩ := fresh_run_stream (f := f') (L := T1 ++ L') hT hbeg3 (by rw [← hL3]; exact ho3) hn hn' hw
    (by rw [← hL3]; exact hfit) hbox (hkl (by rw [hL3]; simp))
  refine ⟨max fuelA (max fuelB fuelC), fun fuel hfuel => ?_⟩
  obtain ⟨fsA', locsA', qA', b1, b2, _⟩ := hA fuel (le_trans (le_max_left _ _) hfuel)
  have hsame : fsA' = fsA := by
    have := main_more (fuel - fuelA) a1
    rw [Nat.add_sub_cancel' (le_trans (le_max_left _ _) hfuel)] at this
    rw [b1] at this
    exact congrArg Prod.snd (Except.ok.inj this)
  subst hsame
  obtain ⟨fsB, locsB, qB, c1, c2, _, r1, r1', c4, c5, c6⟩ := hB fuel
    (le_trans (le_trans (le_max_left _ _) (le_max_right _ _)) hfuel)
  obtain ⟨fsC, locsC, qC, d1, d2, r2, r2', d4, d5, d6⟩ := hC fuel
    (le_trans (le_trans (le_max_right _ _) (le_max_right _ _)) hfuel)
  have hrb : readBack rnd f' ((f' :: T1) ++ L) = readBack rnd f' L3 := by
    apply noBox_readBack
    rw [e3, List.map_append, List.map_append, e4]
  refine ⟨fsA', fsB, fsC, readBack rnd f' L3, b1, c1, d1, rfl, ⟨r1, r1', c4, ?_, ?_⟩, ⟨r2, r2', d4, ?_, ?_⟩⟩
  · rw [c5, ← hrb, readBack_length]
  · rw [← hrb, readBack_length]; exact c6
  · rw [d5, readBack_length, hL3]
  · rw [readBack_length, hL3]; exact d6

/-- A run, a second run that resumes it, and a single run: if the frames they dump do not read the same, the streams
do not. -/
lemma differs_main {rnd : S → S} (hT : TextGood M.text rnd) (hstr : ∀ x, M.conv.toStr x = x)
    {p1 p2 p3 : Params String} {fs : Files} {name : String} {d : DataObj S C} {e : EngineDesc D} {s : SolverDesc D}
    {s0 s1 s2 s3 s' : σ} (hb : Begins M p1 fs name.toList none d e s s0)
    (h13 : ∀ k, k ∉ outputKeys → p1 k = p3 k) (h12 : ∀ k, k ∉ outputKeys → k ∉ initialKeys → p1 k = p2 k)
    (hres : p2 "resume" = some name) (hne : name ≠ "")
    {f l : Snap S C} {L1 L2 L3 : List (Snap S C)}
    (ho1 : Offers M.runEnv (M.runConf p1 s) s0 (f :: L1) s1) (hl : (f :: L1).getLast? = some l)
    {n b : ℕ} (hs' : M.start e s (readInto M.black n (content rnd f l true)) = some s')
    (ho2 : Offers M.runEnv (M.runConf p2 s) s' L2 s2)
    (ho3 : Offers M.runEnv (M.runConf p3 s) s0 (f :: L3) s3)
    (hn : 0 < n) (hn' : n ≤ sizeMax) (hw : Raw.size S ≤ sizeMax) (hfit1 : ∀ x ∈ f :: L1, Fits n x)
    (hfit2 : ∀ x ∈ L2, Fits n x) (hfit3 : ∀ x ∈ f :: L3, Fits n x) (hbox : BoxGood f.box b)
    (hk2 : Addressable ((f :: L1).length + L2.length) (frameSize S n))
    (hk3 : Addressable (L3.length + 1) (frameSize S n))
    (hdiff : readBack rnd f (f :: L1 ++ L2) ≠ readBack rnd f (f :: L3)) :
    ∃ fuel fsA fsB fsC A B, M.mainWith p1 fuel fs = .ok (0, fsA) ∧ M.mainWith p2 fuel fsA = .ok (0, fsB) ∧
      M.mainWith p3 fuel fs = .ok (0, fsC) ∧ Reads (C := C) M.text fsB name.toList n A ∧
      Reads (C := C) M.text fsC (p3.get "output" M.conv.toStr "/tmp/nbody/main-stream").toList n B ∧ A ≠ B := by
  obtain ⟨fuelA, hA⟩ := fresh_run_stream hT hb ho1 hn hn' hw hfit1 hbox
    (hk2.mono (by simp only [List.length_cons]; omega))
  obtain ⟨fsA, locsA, qA, a1, a2, _⟩ := hA fuelA le_rfl
  have hbeg2 := begins_resume hstr hb h12 hres hne a2 (by have := hk2.1; omega) hl hs'
  obtain ⟨fuelB, hB⟩ := resumed_run_stream a2 hbeg2 ho2 hfit2 hk2
  obtain ⟨fuelC, hC⟩ := fresh_run_stream hT (begins_agree hb h13) ho3 hn hn' hw hfit3 hbox hk3
  obtain ⟨fsB, locsB, qB, c1, c2, _, r1, r1', c4, c5, c6⟩ := hB fuelB le_rfl
  obtain ⟨fsC, locsC, qC, d1, d2, r2, r2', d4, d5, d6⟩ := hC fuelC le_rfl
  have key : ∀ {p : Params String} {fs : Files} {fuel : ℕ} {x : ℤ × Files}, M.mainWith p fuel fs = .ok x →
      fuel ≤ fuelA + fuelB + fuelC → M.mainWith p (fuelA + fuelB + fuelC) fs = .ok x := by
    intro p fs fuel x h hle
    have := main_more (fuelA + fuelB + fuelC - fuel) h
    rwa [Nat.add_sub_cancel' hle] at this
  refine ⟨_, fsA, fsB, fsC, _, _, key a1 (by omega), key c1 (by omega), key d1 (by omega),
    ⟨r1, r1', c4, ?_, ?_⟩, ⟨r2, r2', d4, ?_, ?_⟩, hdiff⟩
  · rw [c5, readBack_length]
  · rw [readBack_length]; exact c6
  · rw [d5, readBack_length]
  · rw [readBack_length]; exact d6

end

end NB
