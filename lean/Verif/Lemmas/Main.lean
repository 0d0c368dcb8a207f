import Verif.Lemmas.Resume
import Verif.Model.Main
import Verif.Props.C39_StreamResume

namespace NB

open StreamSpec RunSpec C41 C39

section
variable {S C D K σ : Type} [Raw S] [Raw C]

lemma writeAll_stream (T : TextOps S) (ds : List (Snap S C)) (w w' : Writer) (fs fs' : Files) :
    w.writeAll T ds fs = some (w', fs') → RunSpec.writeAll (streamWrite T) ds (w, fs) = (true, (w', fs')) := by
  induction ds generalizing w fs with
  | nil => intro h; cases h; rfl
  | cons d ds ih =>
    intro h
    unfold Writer.writeAll at h
    unfold RunSpec.writeAll streamWrite
    cases hw : w.write T d with
    | none => rw [hw] at h; cases h
    | some q =>
      obtain ⟨ops, w1⟩ := q
      rw [hw] at h
      exact ih w1 _ h

/-- A file name of the stream `base`. -/
inductive OwnBin (base : FName) : FName → Prop
  | dat (j : ℕ) : OwnBin base (datName base j)
  | col : OwnBin base (colName base)
  | mass : OwnBin base (massName base)

/-- All files but those of the stream `base` are the same. -/
structure OthersKept (base : FName) (fs fs' : Files) : Prop where
  txt : ∀ k, k ≠ idxName base → fs'.txt k = fs.txt k
  bin : ∀ k, ¬ OwnBin base k → fs'.bin k = fs.bin k

lemma OthersKept.refl (base : FName) (fs : Files) : OthersKept base fs fs := ⟨fun _ _ => rfl, fun _ _ => rfl⟩

lemma OthersKept.trans {base : FName} {a b c : Files} (h1 : OthersKept base a b) (h2 : OthersKept base b c) :
    OthersKept base a c :=
  ⟨fun k hk => (h2.txt k hk).trans (h1.txt k hk), fun k hk => (h2.bin k hk).trans (h1.bin k hk)⟩

/-- A change to a file of the stream. -/
def OwnOp (base : FName) : FileOp → Prop
  | .create n => OwnBin base n
  | .touch n => OwnBin base n
  | .append n _ => OwnBin base n
  | .createTxt n => n = idxName base
  | .touchTxt n => n = idxName base
  | .appendTxt n _ => n = idxName base

lemma own_op {base : FName} {o : FileOp} (h : OwnOp base o) (fs : Files) : OthersKept base fs (o.apply fs) := by
  cases o <;> constructor <;> intro k hk <;> simp only [FileOp.apply]
  all_goals
    try rfl
    split
    · rename_i e
      first
      | exact absurd h (by rw [← e]; exact hk)
      | exact absurd (e.trans h) hk
    · rfl

lemma own_ops {base : FName} {ops : List FileOp} (h : ∀ o ∈ ops, OwnOp base o) (fs : Files) :
    OthersKept base fs (applyOps ops fs) := by
  induction ops generalizing fs with
  | nil => exact OthersKept.refl base fs
  | cons o ops ih =>
    have := ih (fun o ho => h o (by simp [ho])) (o.apply fs)
    exact (own_op (h o (by simp)) fs).trans this

/-- A writer of the stream `base`. -/
structure OwnWriter (base : FName) (w : Writer) : Prop where
  name : w.base = base
  idx : ∀ i, w.idxFile = some i → i = idxName base
  dat : ∀ n p, w.dataFile = some (n, p) → OwnBin base n

lemma own_write {T : TextOps S} {base : FName} {w w' : Writer} {d : Snap S C} {ops : List FileOp}
    (hw : OwnWriter base w) (h : w.write T d = some (ops, w')) :
    OwnWriter base w' ∧ ∀ o ∈ ops, OwnOp base o := by
  unfold Writer.write at h
  split at h
  · rename_i idx dn pos e1 e2
    have hi := hw.idx _ e1
    have hd := hw.dat _ _ e2
    simp only [Option.some.injEq, Prod.mk.injEq] at h
    obtain ⟨h1, h2⟩ := h
    have hn : OwnBin base (if decide (0 < w.maxPart ∧ w.maxPart ≤ (pos : Int)) = true then
        datName w.base (if decide (0 < w.maxPart ∧ w.maxPart ≤ (pos : Int)) = true then w.fileN + 1 else w.fileN)
        else dn) := by
      split
      · rw [hw.name]; exact .dat _
      · exact hd
    constructor
    · rw [← h2]
      refine ⟨hw.name, fun i hi' => hw.idx i hi', fun n p hp => ?_⟩
      simp only [Option.some.injEq, Prod.mk.injEq] at hp
      rw [← hp.1]; exact hn
    · rw [← h1]
      intro o ho
      simp only [List.mem_append, List.mem_cons, List.not_mem_nil, or_false] at ho
      rcases ho with (ho | ho) | ho | ho | ho
      · split at ho
        · simp at ho
        · simp only [List.mem_cons, List.not_mem_nil, or_false] at ho
          rcases ho with rfl | rfl | rfl | rfl
          · show OwnBin base _; rw [hw.name]; exact .col
          · show OwnBin base _; rw [hw.name]; exact .col
          · show OwnBin base _; rw [hw.name]; exact .mass
          · show OwnBin base _; rw [hw.name]; exact .mass
      · by_cases hx : decide (0 < w.maxPart ∧ w.maxPart ≤ (pos : Int)) = true
        · rw [if_pos hx] at ho
          simp only [List.mem_singleton] at ho
          rw [ho]; exact hn
        · rw [if_neg hx] at ho
          simp at ho
      · rw [ho]; exact hn
      · rw [ho]; exact hn
      · rw [ho]; exact hi
  · cases h

lemma own_stream {T : TextOps S} {base : FName} {fs : Files} (d : Snap S C) (w : Writer × Files)
    (h : OwnWriter base w.1 ∧ OthersKept base fs w.2) :
    OwnWriter base (streamWrite T d w).2.1 ∧ OthersKept base fs (streamWrite T d w).2.2 := by
  unfold streamWrite
  split
  · exact h
  · rename_i ops w' e
    obtain ⟨h1, h2⟩ := own_write h.1 e
    exact ⟨h1, h.2.trans (own_ops h2 _)⟩

lemma own_open (base : FName) (m : ℤ) (part : Option ℕ) (fs : Files) :
    OwnWriter base (Writer.new.open base m part fs).2 ∧
      OthersKept base fs (applyOps (Writer.new.open base m part fs).1 fs) := by
  cases part with
  | none =>
    refine ⟨⟨rfl, fun i h => ?_, fun n p h => ?_⟩, own_ops ?_ fs⟩
    · simp only [Writer.open, Option.some.injEq] at h; exact h.symm
    · simp only [Writer.open, Option.some.injEq, Prod.mk.injEq] at h; rw [← h.1]; exact .dat 0
    · intro o ho
      simp only [Writer.open, List.mem_cons, List.not_mem_nil, or_false] at ho
      rcases ho with rfl | rfl
      · exact .dat 0
      · rfl
  | some k =>
    refine ⟨⟨rfl, fun i h => ?_, fun n p h => ?_⟩, own_ops ?_ fs⟩
    · simp only [Writer.open, Option.some.injEq] at h; exact h.symm
    · simp only [Writer.open, Option.some.injEq, Prod.mk.injEq] at h; rw [← h.1]; exact .dat k
    · intro o ho
      simp only [Writer.open, List.mem_cons, List.not_mem_nil, or_false] at ho
      rcases ho with rfl | rfl
      · exact .dat k
      · rfl

end

section
variable {σ φ ω K : Type}
variable [Zero K] [Add K] [Sub K] [Mul K] [LT K] [LE K] [DecidableLT K] [DecidableLE K] [OfScientific K]

/-- A run does to its stream only what `write` does, and returns 0 or -1. -/
lemma loop_inv {E : RunEnv σ φ ω K} {c : RunConf K} {P : ω → Prop} (hP : ∀ f w, P w → P (E.write f w).2)
    {fuel : ℕ} {r : RunSt σ φ ω K} {z : ℤ × RunSt σ φ ω K} (hr : P r.stream) (h : runLoop E c fuel r = .ok z) :
    P z.2.stream ∧ (z.1 = 0 ∨ z.1 = -1) := by
  induction fuel generalizing r with
  | zero =>
    by_cases ht : E.time r.s < c.maxTime
    · rw [runLoop, if_pos ht] at h; cases h
    · rw [loop_stop _ ht] at h; cases h; exact ⟨hr, .inl rfl⟩
  | succ fuel ih =>
    by_cases ht : E.time r.s < c.maxTime
    · rw [runLoop, if_pos ht] at h
      simp only at h
      have hb : P (runBody E c r).2.stream := by
        obtain ⟨_, h2, h3⟩ := body_cases E c r
        by_cases hd : dueDump c r.lastDump (E.time (oneStep E c r.s))
        · rw [(h3 hd).2.1]; exact hP _ _ hr
        · rw [(h2 hd).2.1]; exact hr
      split at h
      · exact ih hb h
      · cases h; exact ⟨hb, .inr rfl⟩
    · rw [loop_stop _ ht] at h; cases h; exact ⟨hr, .inl rfl⟩

lemma run_inv {E : RunEnv σ φ ω K} {c : RunConf K} {P : ω → Prop} (hP : ∀ f w, P w → P (E.write f w).2)
    {fuel : ℕ} {s : σ} {w : ω} {z : ℤ × RunSt σ φ ω K} (hw : P w) (h : solverRun E c fuel s w = .ok z) :
    P z.2.stream ∧ (z.1 = 0 ∨ z.1 = -1) := by
  unfold solverRun at h
  simp only at h
  split at h
  · split at h
    · exact loop_inv hP (hP _ _ hw) h
    · cases h; exact ⟨hP _ _ hw, .inr rfl⟩
  · exact loop_inv hP hw h

/-- Without dumping nothing is written. -/
lemma run_silent {E : RunEnv σ φ ω K} {c : RunConf K} (hd : ¬ 0 < c.dumpDt) {fuel : ℕ} {s : σ} {w : ω}
    {z : ℤ × RunSt σ φ ω K} (h : solverRun E c fuel s w = .ok z) : z.1 = 0 ∧ z.2.stream = w := by
  have key : ∀ (fuel : ℕ) (r : RunSt σ φ ω K), runLoop E c fuel r = .ok z → z.1 = 0 ∧ z.2.stream = r.stream := by
    intro fuel
    induction fuel with
    | zero =>
      intro r h
      by_cases ht : E.time r.s < c.maxTime
      · rw [runLoop, if_pos ht] at h; cases h
      · rw [loop_stop _ ht] at h; cases h; exact ⟨rfl, rfl⟩
    | succ fuel ih =>
      intro r h
      by_cases ht : E.time r.s < c.maxTime
      · rw [runLoop, if_pos ht] at h
        simp only at h
        obtain ⟨_, h2, _⟩ := body_cases E c r
        obtain ⟨g1, g2, _⟩ := h2 (fun hx => hd hx.2.1)
        rw [if_pos g1] at h
        rw [← g2]
        exact ih _ h
      · rw [loop_stop _ ht] at h; cases h; exact ⟨rfl, rfl⟩
  unfold solverRun at h
  simp only at h
  rw [if_neg (fun hx => hd hx.2.1)] at h
  exact key fuel _ h

end

section
variable {S C : Type} [Raw S] [Raw C]
variable {T : TextOps S} {rnd : S → S} {fs : Files} {base : FName} {h : Snap S C} {n b p : ℕ}
  {ds : List (Snap S C)} {locs : List (ℕ × ℕ)}

/-- Reading a stored stream from its beginning to its end. -/
lemma stored_reads (hs : Stored T rnd fs base h n b ds locs p) :
    ∃ r r', Reader.new.load T fs base = (true, r) ∧ r.frameCount = ds.length ∧
      readerCalls (C := C) fs (List.replicate ds.length (.read n)) r = .ok (readBack rnd h ds, r') := by
  have hr := hs.readable
  obtain ⟨r, h9, h10, _⟩ := load_at hr.text hr.holds hr.box hr.fits hr.head hr.pos hr.bound hr.size hr.frames
    Reader.new true rfl rfl
  obtain ⟨r', h11⟩ := at_calls (C := C) hr.holds hr.fits hr.head hr.pos hr.last
    (List.replicate ds.length (.read n)) h10
  refine ⟨r, r', h9, ?_, ?_⟩
  · rw [Reader.frameCount, h10.frames, zipWith_length hr.holds]
  · rw [h11, C37.answers_readBack]

/-- What `main` reads from a stored stream. -/
lemma stored_last [Zero S] {D K σ : Type} (M : MainEnv S C D K σ) (hM : M.text = T)
    (hs : Stored T rnd fs base h n b ds locs p) (hk : ds.length ≤ sizeMax) (d : Snap S C)
    (hd : ds.getLast? = some d) :
    M.resumeData fs base = .ok (some (readInto M.black n (content rnd h d true), p)) := by
  have hr := hs.readable
  have hpos : 0 < ds.length := List.length_pos_iff.2 hr.frames
  obtain ⟨r, h9, h10, _⟩ := load_at hr.text hr.holds hr.box hr.fits hr.head hr.pos hr.bound hr.size hr.frames
    Reader.new true rfl rfl
  unfold MainEnv.resumeData
  rw [hM, h9]
  simp only [Bool.true_eq_false, if_false]
  have hcnt : r.frameCount = ds.length := by rw [Reader.frameCount, h10.frames, zipWith_length hr.holds]
  have hw : wrap64 (r.frameCount + (2 ^ 64 - 1)) = ds.length - 1 := by
    rw [hcnt]; unfold wrap64
    have : ds.length + (2 ^ 64 - 1) = (ds.length - 1) + 2 ^ 64 := by omega
    rw [this, Nat.add_mod_right, Nat.mod_eq_of_lt]
    unfold sizeMax at hk
    omega
  rw [hw]
  obtain ⟨a1, a2⟩ := at_seek (n := n) hr.holds h10 (ds.length - 1)
  have hans : answer rnd h n ds ⟨0, false, true⟩ (.seek (ds.length - 1)) =
      ((.done : Answer S C), (⟨ds.length - 1, false, true⟩ : Cursor)) := by
    unfold answer
    simp only
    split
    · rename_i e; rw [e]
    · rw [if_pos (by omega)]
  rw [hans] at a1 a2
  have hseek : (r.seek fs (ds.length - 1)).1 = true := by
    by_contra hf
    rw [if_neg hf] at a1
    cases a1
  simp only at a1 a2
  rw [if_neg (by rw [hseek]; simp)]
  obtain ⟨r', b1, b2⟩ := at_read (C := C) hr.holds hr.fits hr.head hr.pos (fun hx => by cases hx) a2 n
  have hget : ds[ds.length - 1]? = some d := by rw [← List.getLast?_eq_getElem?]; exact hd
  have hans2 : (answer rnd h n ds ⟨ds.length - 1, false, true⟩ (.read n)).1 = .data (content rnd h d true) := by
    unfold answer
    simp only [ne_eq, not_true, if_false, Bool.false_eq_true]
    rw [hget]
  rw [hans2] at b1
  have hcount : (r.seek fs (ds.length - 1)).2.bodyCount = n := a2.count
  rw [hcount]
  unfold readerCall at b1
  simp only at b1
  cases hq : (r.seek fs (ds.length - 1)).2.read C fs n with
  | error e => rw [hq] at b1; cases b1
  | ok q =>
    obtain ⟨o, r1⟩ := q
    rw [hq] at b1
    cases o with
    | none => cases b1
    | some o =>
      simp only [Except.ok.injEq, Prod.mk.injEq] at b1
      obtain ⟨c1, c2⟩ := b1
      cases c1
      subst c2
      have hlast : r1.lastFileN = p := by
        obtain ⟨d', l', e1, e2, _, _, e5⟩ := holds_at (rnd := rnd) hr.holds (k := ds.length - 1) (by omega)
        unfold Reader.lastFileN
        rw [b2.frames, List.getLast?_eq_getElem?, zipWith_length hr.holds, e5]
        simp only [itemOf]
        exact hs.lastPart l' (by rw [List.getLast?_eq_getElem?, hr.holds.len, e2])
      simp only [hlast]

end

end NB
