import Verif.Model.StreamFaults
import Verif.Props.C40_StreamCrash
import Verif.Lemmas.StreamExample
import Mathlib.Tactic.SplitIfs

/-
C90: the writer of a stream on a disk that may be full.
-/

namespace NB.C90

open StreamSpec

/-! ### Files with buffers -/

/-- From call `c` on the operating system takes all bytes and opens all files. -/
def FineFrom (D : Disk) (c : ℕ) : Prop := ∀ k, c ≤ k → D.opens k = true ∧ ∀ n, n ≤ D.takes k n

lemma FineFrom.mono {D : Disk} {c c' : ℕ} (h : FineFrom D c) (hc : c ≤ c') : FineFrom D c' := fun k hk => h k (hc.trans hk)

/-- Appending nothing changes nothing; appending twice is appending once. -/
class LKind (β : Type) [FileKind β] : Prop where
  nil : ∀ n fs, (FileKind.put n ([] : List β)).apply fs = fs
  app : ∀ n (a b : List β) fs, (FileKind.put n b).apply ((FileKind.put n a).apply fs) = (FileKind.put n (a ++ b)).apply fs

instance : LKind UInt8 where
  nil n fs := by
    show (FileOp.append n []).apply fs = fs
    have : (fun m => if m = n then (fs.bin n).map (· ++ []) else fs.bin m) = fs.bin := by
      funext m
      by_cases hm : m = n
      · rw [if_pos hm, hm]; simp
      · rw [if_neg hm]
    show ({ fs with bin := fun m => if m = n then (fs.bin n).map (· ++ []) else fs.bin m } : Files) = fs
    rw [this]
  app n a b fs := by
    show ({ fs with bin := _ } : Files) = { fs with bin := _ }
    congr 1
    funext m
    by_cases hm : m = n
    · simp only [hm, FileKind.put, FileOp.apply, if_true, Option.map_map]
      congr 1
      funext x
      simp
    · simp [hm, FileKind.put, FileOp.apply]

instance : LKind Char where
  nil n fs := by
    have : (fun m => if m = n then (fs.txt n).map (· ++ []) else fs.txt m) = fs.txt := by
      funext m
      by_cases hm : m = n
      · rw [if_pos hm, hm]; simp
      · rw [if_neg hm]
    show ({ fs with txt := fun m => if m = n then (fs.txt n).map (· ++ []) else fs.txt m } : Files) = fs
    rw [this]
  app n a b fs := by
    show ({ fs with txt := _ } : Files) = { fs with txt := _ }
    congr 1
    funext m
    by_cases hm : m = n
    · simp only [hm, FileKind.put, FileOp.apply, if_true, Option.map_map]
      congr 1
      funext x
      simp
    · simp [hm, FileKind.put, FileOp.apply]

section
variable {β : Type} [FileKind β] [LKind β] {D : Disk}

omit [LKind β] in
lemma sysWrite_fine {W : World} (h : FineFrom D W.calls) (n : FName) (b : List β) :
    sysWrite D W n b = (b.length, ⟨(FileKind.put n b).apply W.fs, W.calls + 1⟩) := by
  unfold sysWrite
  simp only [Nat.min_eq_right ((h _ (Nat.le_refl _)).2 _), List.take_length]

lemma flush_fine {W : World} (h : FineFrom D W.calls) (f : BFile β) :
    ∃ W', f.flush D W = (true, { f with buf := [] }, W') ∧ W.calls ≤ W'.calls ∧ W'.fs = (FileKind.put f.name f.buf).apply W.fs := by
  unfold BFile.flush
  split_ifs with hb
  · have := List.eq_nil_of_length_eq_zero hb
    refine ⟨W, ?_, Nat.le_refl _, by rw [this, LKind.nil]⟩
    cases f; simp only at this; subst this; rfl
  · rw [sysWrite_fine h]
    exact ⟨⟨(FileKind.put f.name f.buf).apply W.fs, W.calls + 1⟩, by simp, Nat.le_succ _, rfl⟩

lemma write_fine {W : World} (h : FineFrom D W.calls) (f : BFile β) (b : List β) :
    ∃ f' W', f.write D b W = (some b.length, f', W') ∧ W.calls ≤ W'.calls ∧ f'.name = f.name ∧ f'.pos = f.pos + b.length ∧
      (FileKind.put f.name f'.buf).apply W'.fs = (FileKind.put f.name (f.buf ++ b)).apply W.fs := by
  obtain ⟨W1, h1, h2, h3⟩ := flush_fine h f
  unfold BFile.write
  by_cases hc : fileChunk < f.buf.length + b.length
  · simp only [if_pos hc, h1, Bool.true_eq_false, if_false]
    by_cases hb : fileChunk < b.length
    · rw [if_pos hb, sysWrite_fine (h.mono h2)]
      have : b.length ≠ 0 := by unfold fileChunk at hb; omega
      simp only [this, if_false]
      exact ⟨_, _, rfl, h2.trans (Nat.le_succ _), rfl, rfl, by rw [LKind.nil, h3, LKind.app]⟩
    · rw [if_neg hb]
      exact ⟨_, _, rfl, h2, rfl, rfl, by rw [h3, List.nil_append, LKind.app]⟩
  · have hb : ¬ fileChunk < b.length := by omega
    simp only [if_neg hc, Bool.true_eq_false, if_false, if_neg hb]
    exact ⟨_, _, rfl, Nat.le_refl _, rfl, rfl, rfl⟩

end

lemma tflush_fine {D : Disk} {W : World} (h : FineFrom D W.calls) (t : TStream) (ht : t.ok = true) (f : BFile Char) (hf : f.buf = []) :
    ∃ f' W', t.flush D f W = (⟨true, []⟩, f', W') ∧ W.calls ≤ W'.calls ∧ f'.name = f.name ∧ f'.buf = [] ∧
      W'.fs = (FileOp.appendTxt f.name t.buf).apply W.fs := by
  unfold TStream.flush
  by_cases hb : t.buf.length = 0
  · rw [if_pos (Or.inr hb)]
    have := List.eq_nil_of_length_eq_zero hb
    refine ⟨f, W, ?_, Nat.le_refl _, rfl, hf, by rw [this]; exact (LKind.nil (β := Char) _ _).symm⟩
    cases t; simp only at ht this; subst ht this; rfl
  · rw [if_neg (by simp [ht, hb])]
    obtain ⟨f', W', h1, h2, h3, -, h5⟩ := write_fine h f t.buf
    simp only [h1]
    obtain ⟨W'', g1, g2, g3⟩ := flush_fine (h.mono h2) f'
    simp only [g1]
    refine ⟨{ f' with buf := [] }, W'', by simp, h2.trans g2, h3, rfl, ?_⟩
    rw [g3, h3, h5, hf, List.nil_append]
    rfl

/-! ### The writer on a disk with room -/

/-- The writer with buffers and the writer of C37 are in the same state, and nothing is in the buffers. -/
structure Same (b : BWriter) (w : Writer) : Prop where
  fileN : b.fileN = w.fileN
  maxPart : b.maxPart = w.maxPart
  base : b.base = w.base
  header : b.headerWritten = w.headerWritten
  data : ∃ n p, b.data = some ⟨n, p, []⟩ ∧ w.dataFile = some (n, p)
  idx : ∃ n p, b.idx = some ⟨n, p, []⟩ ∧ w.idxFile = some n
  text : b.text = ⟨true, []⟩

section
variable {S C : Type} [Raw S] [Raw C] {D : Disk}

lemma whole_fine {W : World} (h : FineFrom D W.calls) (n : FName) (b : List UInt8) :
    ∃ W', writeWhole D n b W = (true, W') ∧ W.calls ≤ W'.calls ∧ W'.fs = (FileOp.append n b).apply ((FileOp.create n).apply W.fs) := by
  unfold writeWhole sysOpen
  simp only [(h _ (Nat.le_refl _)).1, if_true, Bool.true_eq_false, if_false]
  have h1 : FineFrom D (W.calls + 1) := h.mono (Nat.le_succ _)
  obtain ⟨f', W', g1, g2, g3, -, g5⟩ := write_fine (W := ⟨(FileOp.create n).apply W.fs, W.calls + 1⟩) h1 (⟨n, 0, []⟩ : BFile UInt8) b
  simp only [g1]
  obtain ⟨W'', k1, k2, k3⟩ := flush_fine (h1.mono g2) f'
  simp only [k1]
  refine ⟨W'', by simp, (Nat.le_succ _).trans (g2.trans k2), ?_⟩
  rw [k3, g3, g5]
  rfl

omit [Raw C] in
lemma frame_fine {W : World} (h : FineFrom D W.calls) (b : BWriter) {n : FName} {p : ℕ} (hb : b.data = some ⟨n, p, []⟩) (d : Snap S C) :
    ∃ W', b.frame D d W = (true, { b with data := some ⟨n, p + (encVecs d.vrt).length + (encVecs d.vel).length, []⟩ }, W') ∧ W.calls ≤ W'.calls ∧
      W'.fs = (FileOp.append n (encVecs d.vel)).apply ((FileOp.append n (encVecs d.vrt)).apply W.fs) := by
  unfold BWriter.frame
  rw [hb]
  obtain ⟨f1, W1, a1, a2, a3, a4, a5⟩ := write_fine h (⟨n, p, []⟩ : BFile UInt8) (encVecs d.vrt)
  obtain ⟨f2, W2, b1, b2, b3, b4, b5⟩ := write_fine (h.mono a2) f1 (encVecs d.vel)
  obtain ⟨W3, c1, c2, c3⟩ := flush_fine (h.mono (a2.trans b2)) f2
  simp only [a1, if_true, b1, c1]
  simp only at a3 a4 a5
  refine ⟨W3, ?_, a2.trans (b2.trans c2), ?_⟩
  · rw [b3, b4, a3, a4]
  · rw [c3, b3, b5, a3, ← LKind.app, a5]
    rfl

/-- One call of `write` on a disk with room does what the writer of C37 does. -/
lemma write_same (T : TextOps S) {b : BWriter} {w : Writer} (hs : Same b w) {W : World} (h : FineFrom D W.calls) (d : Snap S C) :
    ∃ b' W' ops w', b.write D T d W = (true, b', W') ∧ w.write T d = some (ops, w') ∧ Same b' w' ∧ W.calls ≤ W'.calls ∧
      W'.fs = applyOps ops W.fs := by
  obtain ⟨dn, dp, d1, d2⟩ := hs.data
  obtain ⟨ix, ip, i1, i2⟩ := hs.idx
  -- the header
  obtain ⟨b1, W1, e1, e2, e3, e4⟩ : ∃ b1 W1, (if b.headerWritten then (true, b, W) else b.header D d W) = (true, b1, W1) ∧
      b1 = { b with text := ⟨true, if w.headerWritten then [] else headerText d⟩, headerWritten := true } ∧ W.calls ≤ W1.calls ∧
      W1.fs = applyOps (hdrOps w d) W.fs := by
    by_cases hh : b.headerWritten = true
    · rw [if_pos hh]
      have hw : w.headerWritten = true := by rw [← hs.header]; exact hh
      refine ⟨_, _, rfl, ?_, Nat.le_refl _, ?_⟩
      · rw [if_pos hw, ← hs.text]
        cases b; simp only at hh; subst hh; rfl
      · unfold hdrOps; rw [if_pos hw]; rfl
    · rw [if_neg hh]
      have hw : ¬ w.headerWritten = true := by rw [← hs.header]; exact hh
      unfold BWriter.header
      obtain ⟨Wc, c1, c2, c3⟩ := whole_fine h (colName b.base) (encList d.color)
      obtain ⟨Wm, m1, m2, m3⟩ := whole_fine (h.mono c2) (massName b.base) (encList d.mass)
      simp only [c1, m1, Bool.true_eq_false, if_false]
      refine ⟨_, _, rfl, ?_, c2.trans m2, ?_⟩
      · rw [if_neg hw, hs.text]; rfl
      · unfold hdrOps
        rw [if_neg hw, m3, c3, hs.base]
        rfl
  -- the part
  have hb1d : b1.data = some ⟨dn, dp, []⟩ := by rw [e2]; exact d1
  have hpos : b1.dataPos = dp := by unfold BWriter.dataPos; rw [hb1d]
  have hmp : b1.maxPart = w.maxPart := by rw [e2]; exact hs.maxPart
  have hbase : b1.base = w.base := by rw [e2]; exact hs.base
  have hfn : b1.fileN = w.fileN := by rw [e2]; exact hs.fileN
  have hb1i : b1.idx = some ⟨ix, ip, []⟩ := by rw [e2]; exact i1
  obtain ⟨next, hnext⟩ : ∃ next : Bool, next = decide (0 < w.maxPart ∧ w.maxPart ≤ (dp : Int)) := ⟨_, rfl⟩
  obtain ⟨fN, hfN⟩ : ∃ fN, fN = if next then w.fileN + 1 else w.fileN := ⟨_, rfl⟩
  obtain ⟨dn', hdn'⟩ : ∃ dn', dn' = if next then datName w.base fN else dn := ⟨_, rfl⟩
  obtain ⟨fp, hfp⟩ : ∃ fp, fp = if next then 0 else dp := ⟨_, rfl⟩
  obtain ⟨W2, g1, g2, g3⟩ : ∃ W2, b1.part D W1 = (true, { b1 with fileN := fN, data := some ⟨dn', fp, []⟩ }, W2) ∧ W1.calls ≤ W2.calls ∧
      W2.fs = applyOps (if next then [FileOp.create dn'] else []) W1.fs := by
    unfold BWriter.part
    rw [hpos, hmp]
    by_cases hn : 0 < w.maxPart ∧ w.maxPart ≤ (dp : Int)
    · have hnt : next = true := by rw [hnext]; simpa using hn
      rw [if_pos hn, hb1d]
      have hfl : BFile.flush D (⟨dn, dp, []⟩ : BFile UInt8) W1 = (true, ⟨dn, dp, []⟩, W1) := by simp [BFile.flush]
      simp only [hfl, sysOpen, (h.mono e3 _ (Nat.le_refl _)).1, if_true]
      refine ⟨⟨(FileOp.create dn').apply W1.fs, W1.calls + 1⟩, ?_, Nat.le_succ _, ?_⟩
      · rw [hdn', hfp, hfN, hnt, hbase, hfn, ← hmp]; rfl
      · rw [hnt]; rfl
    · have hnf : next = false := by rw [hnext]; simpa using hn
      rw [if_neg hn]
      refine ⟨_, ?_, Nat.le_refl _, ?_⟩
      · rw [hdn', hfp, hfN, hnf]
        simp only [Bool.false_eq_true, if_false]
        rw [← hb1d, ← hfn, ← hmp]
      · rw [hnf]; rfl
  -- the frame and the line
  obtain ⟨b2, hb2⟩ : ∃ b2 : BWriter, b2 = { b1 with fileN := fN, data := some ⟨dn', fp, []⟩ } := ⟨_, rfl⟩
  rw [← hb2] at g1
  have hb2d : b2.data = some ⟨dn', fp, []⟩ := by rw [hb2]
  obtain ⟨W3, k1, k2, k3⟩ := frame_fine (h.mono (e3.trans g2)) b2 hb2d d
  obtain ⟨b3, hb3⟩ : ∃ b3 : BWriter, b3 = { b2 with data := some ⟨dn', fp + (encVecs d.vrt).length + (encVecs d.vel).length, []⟩ } := ⟨_, rfl⟩
  rw [← hb3] at k1
  have hb3i : b3.idx = some ⟨ix, ip, []⟩ := by rw [hb3, hb2]; exact hb1i
  have hb3t : b3.text = ⟨true, if w.headerWritten then [] else headerText d⟩ := by rw [hb3, hb2, e2]
  obtain ⟨f', W4, l1, l2, l3, l4, l5⟩ := tflush_fine (h.mono (e3.trans (g2.trans k2)))
    (⟨true, (if w.headerWritten then [] else headerText d) ++ frameLine T d.step d.time fN fp⟩ : TStream) rfl ⟨ix, ip, []⟩ rfl
  have hline : b3.line D T d b2.dataPos W3 = ({ b3 with text := ⟨true, []⟩, idx := some f' }, W4) := by
    unfold BWriter.line
    rw [hb3i]
    have hp2 : b2.dataPos = fp := by unfold BWriter.dataPos; rw [hb2d]
    have hf3 : b3.fileN = fN := by rw [hb3, hb2]
    simp only [hb3t, hp2, hf3, l1]
  refine ⟨{ b3 with text := ⟨true, []⟩, idx := some f' }, W4, ?_⟩
  have hwr : b.write D T d W = (true, { b3 with text := ⟨true, []⟩, idx := some f' }, W4) := by
    unfold BWriter.write
    rw [i1]
    simp only [Option.isNone_some, Bool.false_eq_true, if_false, e1, Bool.true_eq_false, g1, k1, hline]
  refine ⟨_, _, hwr, by unfold Writer.write; rw [i2, d2], ?_, e3.trans (g2.trans (k2.trans l2)), ?_⟩
  · refine ⟨?_, ?_, ?_, ?_, ⟨dn', fp + (encVecs d.vrt).length + (encVecs d.vel).length, ?_, ?_⟩, ⟨ix, f'.pos, ?_, ?_⟩, rfl⟩
    · simp only [hb3, hb2, hfN, hnext, decide_eq_true_eq]
    · simp only [hb3, hb2]; exact hmp
    · simp only [hb3, hb2]; exact hbase
    · simp only [hb3, hb2, e2]
    · simp only [hb3]
    · simp only [hdn', hfp, hfN, hnext, decide_eq_true_eq]
    · cases f'; simp only at l3 l4; subst l3 l4; rfl
    · rfl
  · rw [l5, k3, g3, e4]
    simp only [hdrOps, applyOps_append, applyOps_cons, applyOps_nil, hdn', hfp, hfN, hnext, decide_eq_true_eq]

/-- Several calls. -/
lemma writes_same (T : TextOps S) (ds : List (Snap S C)) : ∀ {b : BWriter} {w : Writer} {W : World}, Same b w → FineFrom D W.calls →
    ∃ w' fs' b' W', w.writeAll T ds W.fs = some (w', fs') ∧ b.writes D T ds W = (List.replicate ds.length true, b', W') ∧ Same b' w' ∧
      W'.fs = fs' ∧ W.calls ≤ W'.calls := by
  induction ds with
  | nil => intro b w W hs _; exact ⟨w, W.fs, b, W, rfl, rfl, hs, rfl, Nat.le_refl _⟩
  | cons d ds ih =>
    intro b w W hs h
    obtain ⟨b1, W1, ops, w1, h1, h2, h3, h4, h5⟩ := write_same T hs h d
    obtain ⟨w', fs', b', W', g1, g2, g3, g4, g5⟩ := ih h3 (h.mono h4)
    refine ⟨w', fs', b', W', ?_, ?_, g3, g4, h4.trans g5⟩
    · rw [Writer.writeAll, h2]
      simp only
      rw [← h5]
      exact g1
    · simp only [BWriter.writes, h1, g2, List.length_cons, List.replicate_succ]

lemma open_same (base : FName) (maxPart : ℤ) {W : World} (h : FineFrom D W.calls) :
    ∃ b W', BWriter.new.open D base maxPart W = (true, b, W') ∧ Same b (Writer.new.open base maxPart none W.fs).2 ∧
      W'.fs = applyOps (Writer.new.open base maxPart none W.fs).1 W.fs ∧ W.calls ≤ W'.calls := by
  unfold BWriter.open sysOpen
  simp only [(h _ (Nat.le_refl _)).1, (h _ (Nat.le_succ _)).1, if_true, Bool.true_eq_false, if_false]
  exact ⟨_, ⟨_, W.calls + 1 + 1⟩, rfl, ⟨rfl, rfl, rfl, rfl, ⟨_, _, rfl, rfl⟩, ⟨_, _, rfl, rfl⟩, rfl⟩, rfl, by simp; omega⟩

lemma close_same {b : BWriter} {w : Writer} (hs : Same b w) (W : World) : b.close D W = W := by
  obtain ⟨dn, dp, d1, -⟩ := hs.data
  obtain ⟨ix, ip, i1, -⟩ := hs.idx
  unfold BWriter.close
  rw [d1, i1, hs.text]
  simp [BFile.flush, TStream.flush]

/-- **With room on the disk the buffers do not matter**: opening succeeds, every `write` returns 0, and the files - before and after closing - are those of
the writer without buffers of C37 to C42. -/
theorem room_as_unbuffered (T : TextOps S) (base : FName) (maxPart : ℤ) {W : World} (h : FineFrom D W.calls) (ds : List (Snap S C)) :
    let o := Writer.new.open base maxPart none W.fs
    ∃ b W1 b' W' w' fs', BWriter.new.open D base maxPart W = (true, b, W1) ∧
      b.writes D T ds W1 = (List.replicate ds.length true, b', W') ∧
      o.2.writeAll T ds (applyOps o.1 W.fs) = some (w', fs') ∧ W'.fs = fs' ∧ (b'.close D W').fs = fs' := by
  intro o
  obtain ⟨b, W1, h1, h2, h3, h4⟩ := open_same base maxPart h
  obtain ⟨w', fs', b', W', g1, g2, g3, g4, g5⟩ := writes_same T ds h2 (h.mono h4)
  rw [h3] at g1
  exact ⟨b, W1, b', W', w', fs', h1, g2, g1, g4, by rw [close_same g3]; exact g4⟩

/-! ### A disk that may fail -/

/-- Only file `n` was touched, and it only grew. -/
structure Grew (n : FName) (fs fs' : Files) : Prop where
  txt : fs'.txt = fs.txt
  other : ∀ m, m ≠ n → fs'.bin m = fs.bin m
  grows : Grows fs fs' n

lemma Grew.refl (n : FName) (fs : Files) : Grew n fs fs := ⟨rfl, fun _ _ => rfl, Grows.refl _ _⟩

lemma Grew.trans {n : FName} {a b c : Files} (h1 : Grew n a b) (h2 : Grew n b c) : Grew n a c :=
  ⟨h2.txt.trans h1.txt, fun m hm => (h2.other m hm).trans (h1.other m hm), h1.grows.trans h2.grows⟩

lemma sysWrite_grew (D : Disk) (W : World) (n : FName) (b : List UInt8) : Grew n W.fs (sysWrite D W n b).2.fs := by
  refine ⟨rfl, fun m hm => ?_, fun x hx => ?_⟩
  · simp [sysWrite, FileKind.put, hm]
  · exact ⟨_, by simp [sysWrite, FileKind.put, hx]; rfl⟩

lemma flush_grew (D : Disk) (f : BFile UInt8) (W : World) :
    Grew f.name W.fs (f.flush D W).2.2.fs ∧ (f.flush D W).2.1.name = f.name := by
  unfold BFile.flush
  split_ifs
  · exact ⟨Grew.refl _ _, rfl⟩
  · exact ⟨sysWrite_grew D W f.name f.buf, rfl⟩

lemma write_grew (D : Disk) (f : BFile UInt8) (b : List UInt8) (W : World) :
    Grew f.name W.fs (f.write D b W).2.2.fs ∧ (f.write D b W).2.1.name = f.name := by
  obtain ⟨r, hr⟩ : ∃ r, r = if fileChunk < f.buf.length + b.length then f.flush D W else (true, f, W) := ⟨_, rfl⟩
  have h1 : Grew f.name W.fs r.2.2.fs ∧ r.2.1.name = f.name := by
    rw [hr]
    split_ifs
    · exact flush_grew D f W
    · exact ⟨Grew.refl _ _, rfl⟩
  unfold BFile.write
  simp only [← hr]
  split_ifs
  · exact h1
  · exact ⟨h1.1.trans (by rw [← h1.2]; exact sysWrite_grew D r.2.2 r.2.1.name b), h1.2⟩
  · exact ⟨h1.1.trans (by rw [← h1.2]; exact sysWrite_grew D r.2.2 r.2.1.name b), h1.2⟩
  · exact h1

omit [Raw C] in
lemma frame_grew (D : Disk) (b : BWriter) {f : BFile UInt8} (hf : b.data = some f) (d : Snap S C) (W : World) :
    ∃ r f' W', b.frame D d W = (r, { b with data := some f' }, W') ∧ f'.name = f.name ∧ Grew f.name W.fs W'.fs := by
  unfold BWriter.frame
  rw [hf]
  obtain ⟨a1, a2⟩ := write_grew D f (encVecs d.vrt) W
  obtain ⟨r, hr⟩ : ∃ r, r = f.write D (encVecs d.vrt) W := ⟨_, rfl⟩
  obtain ⟨b1, b2⟩ := write_grew D r.2.1 (encVecs d.vel) r.2.2
  obtain ⟨s, hs⟩ : ∃ s, s = r.2.1.write D (encVecs d.vel) r.2.2 := ⟨_, rfl⟩
  obtain ⟨c1, c2⟩ := flush_grew D s.2.1 s.2.2
  rw [← hr] at a1 a2
  rw [← hs] at b1 b2
  rw [a2] at b1 b2
  rw [b2] at c1 c2
  simp only [← hr, ← hs]
  split_ifs
  · exact ⟨_, _, _, rfl, c2, a1.trans (b1.trans c1)⟩
  · exact ⟨_, _, _, rfl, b2, a1.trans b1⟩
  · exact ⟨_, _, _, rfl, a2, a1⟩

lemma part_cases (D : Disk) (b : BWriter) {dn : FName} {dp : ℕ} (hd : b.data = some ⟨dn, dp, []⟩) (W : World) :
    (¬ (0 < b.maxPart ∧ b.maxPart ≤ (dp : ℤ)) → b.part D W = (true, b, W)) ∧
    (0 < b.maxPart ∧ b.maxPart ≤ (dp : ℤ) → D.opens W.calls = true →
      b.part D W = (true, { b with fileN := b.fileN + 1, data := some ⟨datName b.base (b.fileN + 1), 0, []⟩ },
        ⟨(FileOp.create (datName b.base (b.fileN + 1))).apply W.fs, W.calls + 1⟩)) ∧
    (0 < b.maxPart ∧ b.maxPart ≤ (dp : ℤ) → D.opens W.calls = false →
      b.part D W = (false, { b with fileN := b.fileN + 1, data := none }, ⟨W.fs, W.calls + 1⟩)) := by
  have hpos : b.dataPos = dp := by unfold BWriter.dataPos; rw [hd]
  have hfl : BFile.flush D (⟨dn, dp, []⟩ : BFile UInt8) W = (true, ⟨dn, dp, []⟩, W) := by simp [BFile.flush]
  unfold BWriter.part
  rw [hpos, hd]
  refine ⟨fun hn => by rw [if_neg hn], fun hn ho => ?_, fun hn ho => ?_⟩
  · rw [if_pos hn]
    simp only [hfl, sysOpen, ho, if_true]
  · rw [if_pos hn]
    simp only [hfl, sysOpen, ho, Bool.false_eq_true, if_false]

/-- What a failed call may do to the files of a stream. -/
structure Harmless (base : FName) (part : ℕ) (fs fs' : Files) : Prop where
  txt : fs'.txt = fs.txt
  grows : ∀ k, k ≤ part → Grows fs fs' (datName base k)
  col : fs'.bin (colName base) = fs.bin (colName base)
  mass : fs'.bin (massName base) = fs.bin (massName base)

omit [Raw C] in
lemma grew_harmless {base : FName} {part k : ℕ} {fs fs' : Files} (h : Grew (datName base k) fs fs') : Harmless base part fs fs' := by
  refine ⟨h.txt, fun j _ => ?_, h.other _ (datName_ne_colName _ _ _).symm, h.other _ (datName_ne_massName _ _ _).symm⟩
  by_cases hj : datName base j = datName base k
  · rw [hj]; exact h.grows
  · intro x hx
    exact ⟨[], by rw [h.other _ hj, hx, List.append_nil]⟩

lemma create_harmless {base : FName} {part : ℕ} (fs : Files) : Harmless base part fs ((FileOp.create (datName base (part + 1))).apply fs) := by
  refine ⟨rfl, fun j hj x hx => ⟨[], ?_⟩, ?_, ?_⟩
  · rw [create_bin, if_neg (fun hh => by have := datName_inj hh; omega), hx, List.append_nil]
  · rw [create_bin, if_neg (datName_ne_colName _ _ _).symm]
  · rw [create_bin, if_neg (datName_ne_massName _ _ _).symm]

lemma Harmless.trans {base : FName} {part : ℕ} {a b c : Files} (h1 : Harmless base part a b) (h2 : Harmless base part b c) :
    Harmless base part a c :=
  ⟨h2.txt.trans h1.txt, fun k hk => (h1.grows k hk).trans (h2.grows k hk), h2.col.trans h1.col, h2.mass.trans h1.mass⟩

omit [Raw C] in
lemma Harmless.refl {base : FName} {part : ℕ} (a : Files) : Harmless base part a a := ⟨rfl, fun _ _ => Grows.refl _ _, rfl, rfl⟩

lemma harmless_holds {T : TextOps S} {base : FName} {part : ℕ} {fs fs' : Files} {h : Snap S C} {ds : List (Snap S C)} {locs : List (ℕ × ℕ)}
    (hh : Holds T fs base h ds locs) (hb : ∀ l ∈ locs, l.1 ≤ part) (hf : Harmless base part fs fs') : Holds T fs' base h ds locs :=
  ⟨hh.len, by rw [hf.txt]; exact hh.idx,
    fun k d l h1 h2 => frameAt_grows (hh.frame k d l h1 h2) (hf.grows _ (hb l (List.mem_of_getElem? h2))), hh.loc,
    hf.col.trans hh.col, hf.mass.trans hh.mass⟩

/-- A failed call of `write` and the closing of the files after it. -/
lemma failed_harmless (T : TextOps S) {b : BWriter} {w : Writer} {W : World} {base : FName} (hs : Same b w) (hy : Sync w W.fs base)
    (hh : w.headerWritten = true) (d : Snap S C) (D D' : Disk) (hf : (b.write D T d W).1 = false) :
    Harmless base w.fileN W.fs ((b.write D T d W).2.1.close D' (b.write D T d W).2.2).fs := by
  obtain ⟨dn, dp, d1, d2⟩ := hs.data
  obtain ⟨ix, ip, i1, i2⟩ := hs.idx
  obtain ⟨x, x1, x2⟩ := hy.data
  have hdn : dn = datName base w.fileN := by rw [d2] at x2; exact (Prod.mk.inj (Option.some.inj x2)).1
  have hclose : ∀ (b' : BWriter) (W' : World), b'.idx = b.idx → b'.text = b.text → (b'.data = none → (b'.close D' W').fs = W'.fs) ∧
      ∀ f, b'.data = some f → Grew f.name W'.fs (b'.close D' W').fs := by
    intro b' W' e1 e2
    constructor
    · intro hn
      unfold BWriter.close
      rw [e1, i1, e2, hs.text, hn]
      simp [BFile.flush, TStream.flush]
    · intro f hn
      unfold BWriter.close
      rw [e1, i1, e2, hs.text, hn]
      have h0 : BFile.flush D' (⟨ix, ip, []⟩ : BFile Char) W' = (true, ⟨ix, ip, []⟩, W') := by simp [BFile.flush]
      have h1 : TStream.flush D' ⟨true, []⟩ (⟨ix, ip, []⟩ : BFile Char) W' = (⟨true, []⟩, ⟨ix, ip, []⟩, W') := by simp [TStream.flush]
      simp only [h0, h1]
      exact (flush_grew D' f W').1
  -- the frame in an open part
  have hframe : ∀ (b' : BWriter) (W' : World) (k : ℕ), b'.idx = b.idx → b'.text = b.text → b'.data = some ⟨datName base k, 0, []⟩ ∨
      b'.data = some ⟨datName base k, dp, []⟩ →
      Harmless base w.fileN W'.fs ((b'.frame D d W').2.1.close D' (b'.frame D d W').2.2).fs := by
    intro b' W' k e1 e2 e3
    rcases e3 with e3 | e3 <;>
    · obtain ⟨r, f', W2, g1, g2, g3⟩ := frame_grew D b' e3 d W'
      rw [g1]
      have := (hclose { b' with data := some f' } W2 e1 e2).2 f' rfl
      rw [g2] at this
      exact grew_harmless (g3.trans this)
  have hhb : b.headerWritten = true := by rw [hs.header]; exact hh
  unfold BWriter.write at hf ⊢
  rw [i1] at hf ⊢
  simp only [Option.isNone_some, Bool.false_eq_true, if_false, hhb, if_true, Bool.true_eq_false] at hf ⊢
  obtain ⟨p1, p2, p3⟩ := part_cases D b d1 W
  have hb' : b.base = base := by rw [hs.base]; exact hy.name
  by_cases hn : 0 < b.maxPart ∧ b.maxPart ≤ (dp : ℤ)
  · cases ho : D.opens W.calls with
    | false =>
      rw [p3 hn ho]
      simp only [if_true]
      rw [(hclose { b with fileN := b.fileN + 1, data := none } _ rfl rfl).1 rfl]
      exact Harmless.refl _
    | true =>
      rw [p2 hn ho] at hf ⊢
      simp only [Bool.true_eq_false, if_false] at hf ⊢
      split_ifs at hf ⊢ with hr
      rw [hb', hs.fileN]
      refine (create_harmless W.fs).trans ?_
      exact hframe { b with fileN := w.fileN + 1, data := some ⟨datName base (w.fileN + 1), 0, []⟩, base := base }
          ⟨(FileOp.create (datName base (w.fileN + 1))).apply W.fs, W.calls + 1⟩ (w.fileN + 1) rfl rfl (Or.inl rfl)
  · rw [p1 hn] at hf ⊢
    simp only [Bool.true_eq_false, if_false] at hf ⊢
    split_ifs at hf ⊢ with hr
    exact hframe b W w.fileN rfl rfl (Or.inr (by rw [d1, hdn]))

/-- A stream written with room on the disk. -/
lemma session_room {n : ℕ} (T : TextOps S) (base : FName) (maxPart : ℤ) {W : World} (h : FineFrom D W.calls) (d : Snap S C) (ds : List (Snap S C))
    (hfit : ∀ y ∈ d :: ds, Fits n y) (hk : Addressable (ds.length + 1) (frameSize S n)) :
    ∃ b W1 b' W' w' locs, BWriter.new.open D base maxPart W = (true, b, W1) ∧
      b.writes D T (d :: ds) W1 = (List.replicate (ds.length + 1) true, b', W') ∧ Same b' w' ∧ Session T w' W'.fs base d (d :: ds) locs ∧
      Used w' W'.fs base (ds.length + 1) (frameSize S n) := by
  obtain ⟨b, W1, h1, h2, h3, h4⟩ := open_same base maxPart h
  obtain ⟨hf, _⟩ := open_fresh (w := Writer.new) rfl base maxPart W.fs
  obtain ⟨w', fs', locs, g1, g2, _, _, _, g6, _⟩ := fresh_writeAll T d ds hf hk (fun y hy => frameBytes_length (hfit y hy))
  obtain ⟨w2, fs2, b', W', k1, k2, k3, k4, _⟩ := writes_same T (d :: ds) h2 (h.mono h4)
  rw [h3, g1] at k1
  obtain ⟨rfl, rfl⟩ := Prod.mk.inj (Option.some.inj k1)
  rw [← k4] at g2 g6
  exact ⟨b, W1, b', W', w', locs, h1, k2, k3, g2, g6⟩

/-- **A `write` that fails costs nothing that was written before.**  Frames are written with room on the disk; the next `write` meets a disk that takes as
much of each block as it likes and opens files as it likes (`D'`), and returns -1, whereupon the program ends and the files are closed.  Then the stream can
be loaded, and all the frames written before are read back.  (The answers of the operating system are numbered by its calls, so two disks one after the other
are one disk.) -/
theorem failed_write_keeps_frames {T : TextOps S} {rnd : S → S} {n bx : ℕ} (hT : TextGood T rnd) (base : FName) (maxPart : ℤ) {W : World}
    (h : FineFrom D W.calls) (d : Snap S C) (ds : List (Snap S C)) (x : Snap S C) (hn : 0 < n) (hn' : n ≤ sizeMax) (hw : Raw.size S ≤ sizeMax)
    (hfit : ∀ y ∈ d :: ds, Fits n y) (hb : BoxGood d.box bx) (hk : Addressable (ds.length + 1) (frameSize S n)) (D' : Disk) :
    ∃ b W1 b' W', BWriter.new.open D base maxPart W = (true, b, W1) ∧
      b.writes D T (d :: ds) W1 = (List.replicate (ds.length + 1) true, b', W') ∧
      ((b'.write D' T x W').1 = false →
        ∃ r r', Reader.new.load T ((b'.write D' T x W').2.1.close D' (b'.write D' T x W').2.2).fs base = (true, r) ∧ r.frameCount = ds.length + 1 ∧
          readerCalls (C := C) ((b'.write D' T x W').2.1.close D' (b'.write D' T x W').2.2).fs (List.replicate (ds.length + 1) (.read n)) r =
            .ok (readBack rnd d (d :: ds), r')) := by
  obtain ⟨b, W1, b', W', w', locs, h1, h2, h3, h4, -⟩ := session_room T base maxPart h d ds hfit hk
  refine ⟨b, W1, b', W', h1, h2, fun hf => ?_⟩
  have hh := harmless_holds h4.holds h4.below (failed_harmless T h3 h4.sync h4.header x D' D' hf)
  have ht : HoldsTail T ((b'.write D' T x W').2.1.close D' (b'.write D' T x W').2.2).fs base d (d :: ds) locs [] :=
    ⟨hh.len, by rw [List.append_nil]; exact hh.idx, hh.frame, hh.loc, hh.col, hh.mass⟩
  obtain ⟨r, r', k1, k2, k3⟩ := C40.crash_readable_partial hT ht hb hfit (hfit d (by simp)) hn hn' hw (by simp)
  exact ⟨r, r', k1, k2, k3⟩

/-! ### Which failures are noticed -/

lemma sysWrite_full {β : Type} [FileKind β] (D : Disk) (W : World) (m : FName) (b : List β) (hk : (sysWrite D W m b).1 = b.length) :
    (sysWrite D W m b).2 = ⟨(FileKind.put m b).apply W.fs, W.calls + 1⟩ := by
  unfold sysWrite at hk ⊢
  simp only at hk ⊢
  rw [hk, List.take_length]

lemma write_big (D : Disk) (m : FName) (p : ℕ) (b : List UInt8) (W : World) (hb : fileChunk < b.length)
    (hk : (BFile.write D ⟨m, p, []⟩ b W).1 = some b.length) :
    BFile.write D ⟨m, p, []⟩ b W = (some b.length, ⟨m, p + b.length, []⟩, ⟨(FileOp.append m b).apply W.fs, W.calls + 1⟩) := by
  have hfl : BFile.flush D (⟨m, p, []⟩ : BFile UInt8) W = (true, ⟨m, p, []⟩, W) := by simp [BFile.flush]
  unfold BFile.write at hk ⊢
  have hc : fileChunk < ([] : List UInt8).length + b.length := by simpa using hb
  simp only [if_pos hc, hfl, Bool.true_eq_false, if_false, if_pos hb] at hk ⊢
  by_cases h0 : (sysWrite D W m b).1 = 0
  · rw [if_pos h0] at hk; cases hk
  · rw [if_neg h0] at hk ⊢
    have he : (sysWrite D W m b).1 = b.length := Option.some.inj hk
    rw [sysWrite_full D W m b he, he]
    rfl

omit [Raw C] in
lemma frame_big (D : Disk) (b : BWriter) {m : FName} {p : ℕ} (hb : b.data = some ⟨m, p, []⟩) (d : Snap S C) (W : World)
    (h1 : fileChunk < (encVecs d.vrt).length) (h2 : fileChunk < (encVecs d.vel).length) (hf : (b.frame D d W).1 = true) :
    ∃ W', b.frame D d W = (true, { b with data := some ⟨m, p + (encVecs d.vrt).length + (encVecs d.vel).length, []⟩ }, W') ∧
      W'.fs = (FileOp.append m (encVecs d.vel)).apply ((FileOp.append m (encVecs d.vrt)).apply W.fs) := by
  unfold BWriter.frame at hf ⊢
  rw [hb] at hf ⊢
  simp only at hf ⊢
  by_cases g1 : (BFile.write D ⟨m, p, []⟩ (encVecs d.vrt) W).1 = some (encVecs d.vrt).length
  · rw [if_pos g1] at hf ⊢
    rw [write_big D m p _ W h1 g1] at hf ⊢
    simp only at hf ⊢
    by_cases g2 : (BFile.write D ⟨m, p + (encVecs d.vrt).length, []⟩ (encVecs d.vel)
        ⟨(FileOp.append m (encVecs d.vrt)).apply W.fs, W.calls + 1⟩).1 = some (encVecs d.vel).length
    · rw [if_pos g2] at hf ⊢
      rw [write_big D m _ _ _ h2 g2]
      simp only [BFile.flush, List.length_nil, if_true]
      exact ⟨_, rfl, rfl⟩
    · rw [if_neg g2] at hf; cases hf
  · rw [if_neg g1] at hf; cases hf

/-- What a flush of the index does on any disk. -/
lemma tflush_any (D : Disk) (t : TStream) (ht : t.ok = true) (m : FName) (p : ℕ) (W : World) :
    ∃ a f' W' o, t.flush D ⟨m, p, []⟩ W = (⟨o, []⟩, f', W') ∧ f'.name = m ∧ W'.fs = (FileOp.appendTxt m a).apply W.fs ∧ a ++ f'.buf <+: t.buf ∧
      (o = true → a = t.buf ∧ f'.buf = []) := by
  unfold TStream.flush
  by_cases hb : t.buf.length = 0
  · rw [if_pos (Or.inr hb)]
    have := List.eq_nil_of_length_eq_zero hb
    refine ⟨[], ⟨m, p, []⟩, W, true, ?_, rfl, (LKind.nil (β := Char) _ _).symm, by simp, fun _ => ⟨this.symm, rfl⟩⟩
    cases t; simp only at ht this; subst ht this; rfl
  · rw [if_neg (by simp [ht, hb])]
    have hfl : BFile.flush D (⟨m, p, []⟩ : BFile Char) W = (true, ⟨m, p, []⟩, W) := by simp [BFile.flush]
    by_cases hc : fileChunk < t.buf.length
    · have hc' : fileChunk < ([] : List Char).length + t.buf.length := by simpa using hc
      have hwr : BFile.write D (⟨m, p, []⟩ : BFile Char) t.buf W = if (sysWrite D W m t.buf).1 = 0 then (none, ⟨m, p, []⟩, (sysWrite D W m t.buf).2)
          else (some (sysWrite D W m t.buf).1, ⟨m, p + (sysWrite D W m t.buf).1, []⟩, (sysWrite D W m t.buf).2) := by
        unfold BFile.write
        simp only [if_pos hc', hfl, Bool.true_eq_false, if_false, if_pos hc]
      rw [hwr]
      have hpre : t.buf.take (sysWrite D W m t.buf).1 ++ [] <+: t.buf := by rw [List.append_nil]; exact List.take_prefix _ _
      by_cases h0 : (sysWrite D W m t.buf).1 = 0
      · simp only [h0, if_true]
        exact ⟨_, _, _, _, rfl, rfl, rfl, hpre, by simp⟩
      · simp only [h0, if_false]
        have hfl' : BFile.flush D (⟨m, p + (sysWrite D W m t.buf).1, []⟩ : BFile Char) (sysWrite D W m t.buf).2 =
            (true, ⟨m, p + (sysWrite D W m t.buf).1, []⟩, (sysWrite D W m t.buf).2) := by simp [BFile.flush]
        rw [hfl']
        refine ⟨t.buf.take (sysWrite D W m t.buf).1, _, _, _, rfl, rfl, rfl, hpre, fun ho => ⟨?_, rfl⟩⟩
        have : (sysWrite D W m t.buf).1 = t.buf.length := by simpa using ho
        rw [this, List.take_length]
    · have hc' : ¬ fileChunk < ([] : List Char).length + t.buf.length := by simpa using hc
      have hwr : BFile.write D (⟨m, p, []⟩ : BFile Char) t.buf W = (some t.buf.length, ⟨m, p + t.buf.length, t.buf⟩, W) := by
        unfold BFile.write
        simp only [if_neg hc', Bool.true_eq_false, if_false, if_neg hc, List.nil_append]
      have hfl' : BFile.flush D (⟨m, p + t.buf.length, t.buf⟩ : BFile Char) W = ((sysWrite D W m t.buf).1 == t.buf.length,
          ⟨m, p + t.buf.length, t.buf.drop (sysWrite D W m t.buf).1⟩, (sysWrite D W m t.buf).2) := by
        unfold BFile.flush
        rw [if_neg hb]
      simp only [hwr, hfl']
      refine ⟨t.buf.take (sysWrite D W m t.buf).1, _, _, _, rfl, rfl, rfl, by simp, fun ho => ?_⟩
      have : (sysWrite D W m t.buf).1 = t.buf.length := by simpa using ho
      rw [this, List.take_length, List.drop_length]
      exact ⟨rfl, rfl⟩


/-- The next part, if there was one to open, has been opened. -/
lemma part_true (D : Disk) (b : BWriter) {dn : FName} {dp : ℕ} (hd : b.data = some ⟨dn, dp, []⟩) (W : World) (hp : (b.part D W).1 = true)
    (next : Bool) (hnext : next = decide (0 < b.maxPart ∧ b.maxPart ≤ (dp : ℤ))) :
    ∃ W2, b.part D W = (true, { b with
        fileN := if next then b.fileN + 1 else b.fileN
        data := some ⟨if next then datName b.base (b.fileN + 1) else dn, if next then 0 else dp, []⟩ }, W2) ∧
      W2.fs = applyOps (if next then [FileOp.create (datName b.base (b.fileN + 1))] else []) W.fs := by
  obtain ⟨p1, p2, p3⟩ := part_cases D b hd W
  by_cases hn : 0 < b.maxPart ∧ b.maxPart ≤ (dp : ℤ)
  · have hnt : next = true := by rw [hnext]; simpa using hn
    rw [hnt]
    cases ho : D.opens W.calls with
    | false => rw [p3 hn ho] at hp; cases hp
    | true => exact ⟨_, p2 hn ho, rfl⟩
  · have hnf : next = false := by rw [hnext]; simpa using hn
    rw [hnf]
    refine ⟨W, ?_, rfl⟩
    rw [p1 hn]
    simp only [Bool.false_eq_true, if_false]
    rw [← hd]

/-- A call of `write` with blocks that are too large for the buffer, on any disk. -/
lemma write_big_same (T : TextOps S) {b : BWriter} {w : Writer} (hs : Same b w) (hw : w.headerWritten = true) (W : World) (d : Snap S C)
    (h1 : fileChunk < (encVecs d.vrt).length) (h2 : fileChunk < (encVecs d.vel).length) (D : Disk) (hr : (b.write D T d W).1 = true) :
    ∃ ops w', w.write T d = some (ops, w') ∧ (b.write D T d W).2.2.fs.bin = (applyOps ops W.fs).bin ∧
      ((b.write D T d W).2.1.text.ok = true → Same (b.write D T d W).2.1 w' ∧ (b.write D T d W).2.2.fs = applyOps ops W.fs) := by
  obtain ⟨dn, dp, d1, d2⟩ := hs.data
  obtain ⟨ix, ip, i1, i2⟩ := hs.idx
  have hh : b.headerWritten = true := by rw [hs.header]; exact hw
  obtain ⟨next, hnext⟩ : ∃ next : Bool, next = decide (0 < b.maxPart ∧ b.maxPart ≤ (dp : Int)) := ⟨_, rfl⟩
  have hp : (b.part D W).1 = true := by
    cases hp : (b.part D W).1 with
    | true => rfl
    | false =>
      unfold BWriter.write at hr
      rw [i1] at hr
      simp only [Option.isNone_some, Bool.false_eq_true, if_false, hh, if_true, Bool.true_eq_false, hp] at hr
  obtain ⟨W2, g1, g3⟩ := part_true D b d1 W hp next hnext
  obtain ⟨b2, hb2⟩ : ∃ b2 : BWriter, b2 = { b with
        fileN := if next then b.fileN + 1 else b.fileN
        data := some ⟨if next then datName b.base (b.fileN + 1) else dn, if next then 0 else dp, []⟩ } := ⟨_, rfl⟩
  rw [← hb2] at g1
  have hb2d : b2.data = some ⟨if next then datName b.base (b.fileN + 1) else dn, if next then 0 else dp, []⟩ := by rw [hb2]
  have hf : (b2.frame D d W2).1 = true := by
    cases hp : (b2.frame D d W2).1 with
    | true => rfl
    | false =>
      unfold BWriter.write at hr
      rw [i1] at hr
      simp only [Option.isNone_some, Bool.false_eq_true, if_false, hh, if_true, Bool.true_eq_false, g1, hp] at hr
  obtain ⟨W3, k1, k3⟩ := frame_big D b2 hb2d d W2 h1 h2 hf
  obtain ⟨b3, hb3⟩ : ∃ b3 : BWriter, b3 = { b2 with data := some ⟨if next then datName b.base (b.fileN + 1) else dn,
      (if next then 0 else dp) + (encVecs d.vrt).length + (encVecs d.vel).length, []⟩ } := ⟨_, rfl⟩
  rw [← hb3] at k1
  have hb3i : b3.idx = some ⟨ix, ip, []⟩ := by rw [hb3, hb2]; exact i1
  have hb3t : b3.text = ⟨true, []⟩ := by rw [hb3, hb2]; exact hs.text
  have hp2 : b2.dataPos = if next then 0 else dp := by unfold BWriter.dataPos; rw [hb2d]
  have hf3 : b3.fileN = if next then b.fileN + 1 else b.fileN := by rw [hb3, hb2]
  obtain ⟨a, f', W4, o, l1, l2, l3, -, l5⟩ := tflush_any D (⟨true, frameLine T d.step d.time (if next then b.fileN + 1 else b.fileN)
    (if next then 0 else dp)⟩ : TStream) rfl ix ip W3
  have hline : b3.line D T d b2.dataPos W3 = ({ b3 with text := ⟨o, []⟩, idx := some f' }, W4) := by
    unfold BWriter.line
    rw [hb3i]
    simp only [hb3t, hp2, hf3, List.nil_append, l1]
  have hwr : b.write D T d W = (true, { b3 with text := ⟨o, []⟩, idx := some f' }, W4) := by
    unfold BWriter.write
    rw [i1]
    simp only [Option.isNone_some, Bool.false_eq_true, if_false, hh, if_true, Bool.true_eq_false, g1, k1, hline]
  refine ⟨_, _, by unfold Writer.write; rw [i2, d2], ?_⟩
  rw [hwr]
  have hnext' : next = decide (0 < w.maxPart ∧ w.maxPart ≤ (dp : Int)) := by rw [hnext, hs.maxPart]
  constructor
  · simp only
    rw [l3]
    show W3.fs.bin = _
    rw [k3, g3]
    simp only [hw, if_true, List.nil_append, applyOps_append, applyOps_cons, applyOps_nil, hs.base, hs.fileN, hnext', decide_eq_true_eq]
    split_ifs <;> rfl
  · intro ho
    simp only at ho
    obtain ⟨m1, m2⟩ := l5 ho
    refine ⟨⟨?_, ?_, ?_, ?_, ⟨if next then datName b.base (b.fileN + 1) else dn,
      (if next then 0 else dp) + (encVecs d.vrt).length + (encVecs d.vel).length, ?_, ?_⟩, ⟨ix, f'.pos, ?_, rfl⟩, ?_⟩, ?_⟩
    · simp only [hf3, hnext', decide_eq_true_eq, hs.fileN]
    · simp only [hb3, hb2]; exact hs.maxPart
    · simp only [hb3, hb2]; exact hs.base
    · simp only [hb3, hb2]; exact hh
    · simp only [hb3]
    · simp only [hnext', decide_eq_true_eq, hs.fileN, hs.base]
      split_ifs <;> rfl
    · cases f'; simp only at l2 m2; subst l2 m2; rfl
    · rw [ho]
    · simp only
      rw [l3, m1, k3, g3]
      simp only [hw, if_true, List.nil_append, applyOps_append, applyOps_cons, applyOps_nil, hs.base, hs.fileN, hnext', decide_eq_true_eq]
      split_ifs <;> rfl

/-- **With frames too large for the buffer of a file a failure to write them is noticed.**  On any disk: if `write` returns 0 for a frame of which positions
and velocities take more than 16384 bytes each, its bytes are on the disk in full; and if moreover the status of the index stream is `Ok`, the stream
holds the frame. -/
theorem large_frames_noticed {T : TextOps S} {n : ℕ} (base : FName) (maxPart : ℤ) {W : World} (h : FineFrom D W.calls) (d : Snap S C)
    (ds : List (Snap S C)) (x : Snap S C) (hfit : ∀ y ∈ d :: ds, Fits n y) (hx : Fits n x) (hbig : fileChunk < 3 * Raw.size S * n)
    (hk : Addressable (ds.length + 2) (frameSize S n)) (D' : Disk) :
    ∃ b W1 b' W', BWriter.new.open D base maxPart W = (true, b, W1) ∧
      b.writes D T (d :: ds) W1 = (List.replicate (ds.length + 1) true, b', W') ∧
      ((b'.write D' T x W').1 = true → (∃ l, FrameAt (b'.write D' T x W').2.2.fs base x l) ∧
        ((b'.write D' T x W').2.1.text.ok = true → ∃ locs, Holds T (b'.write D' T x W').2.2.fs base d (d :: ds ++ [x]) locs)) := by
  obtain ⟨b, W1, b', W', w', locs, h1, h2, h3, h4, h5⟩ := session_room T base maxPart h d ds hfit (addressable_le hk (by omega))
  refine ⟨b, W1, b', W', h1, h2, fun hf => ?_⟩
  obtain ⟨y, hy, -⟩ := h4.sync.data
  obtain ⟨ops, w'', g1, g2, g3⟩ := write_big_same T h3 h4.header W' x (by rw [encVecs_length, hx.vrt]; exact hbig)
    (by rw [encVecs_length, hx.vel]; exact hbig) D' hf
  obtain ⟨ops', w3, k1, k2, k3, -⟩ := session_step T h4 hy x (used_loc h5 hk hy)
  rw [g1] at k1
  obtain ⟨rfl, rfl⟩ := Prod.mk.inj (Option.some.inj k1)
  refine ⟨?_, fun ho => ?_⟩
  · obtain ⟨pre, post, q1, q2⟩ := k2.frame
    exact ⟨_, pre, post, by rw [g2]; exact q1, q2⟩
  · exact ⟨_, by rw [(g3 ho).2]; exact k3.holds⟩

/-! ### Which failures are not noticed -/

/-- The status of the index stream is `WriteFailed`. -/
structure Dead (b : BWriter) (f : BFile Char) : Prop where
  header : b.headerWritten = true
  data : b.data.isSome = true
  idx : b.idx = some f
  text : b.text.ok = false

omit [Raw C] in
lemma frame_any_fine {W : World} (h : FineFrom D W.calls) (b : BWriter) {f : BFile UInt8} (hb : b.data = some f) (d : Snap S C) :
    ∃ f' W', b.frame D d W = (true, { b with data := some f' }, W') ∧ W.calls ≤ W'.calls ∧ W'.fs.txt = W.fs.txt := by
  unfold BWriter.frame
  rw [hb]
  obtain ⟨f1, W1, a1, a2, -⟩ := write_fine h f (encVecs d.vrt)
  obtain ⟨f2, W2, b1, b2, -⟩ := write_fine (h.mono a2) f1 (encVecs d.vel)
  obtain ⟨W3, c1, c2, c3⟩ := flush_fine (h.mono (a2.trans b2)) f2
  have t1 := (write_grew D f (encVecs d.vrt) W).1.txt
  have t2 := (write_grew D f1 (encVecs d.vel) W1).1.txt
  have t3 := (flush_grew D f2 W2).1.txt
  rw [a1] at t1
  rw [b1] at t2
  rw [c1] at t3
  simp only [a1, if_true, b1, c1]
  exact ⟨_, _, rfl, a2.trans (b2.trans c2), t3.trans (t2.trans t1)⟩

lemma part_any_fine {W : World} (h : FineFrom D W.calls) (b : BWriter) {f : BFile UInt8} (hb : b.data = some f) :
    ∃ k f' W', b.part D W = (true, { b with fileN := k, data := some f' }, W') ∧ W.calls ≤ W'.calls ∧ W'.fs.txt = W.fs.txt := by
  unfold BWriter.part
  split_ifs with hn
  · rw [hb]
    obtain ⟨W3, c1, c2, c3⟩ := flush_fine h f
    have t3 := (flush_grew D f W).1.txt
    rw [c1] at t3
    simp only [c1, sysOpen, (h.mono c2 _ (Nat.le_refl _)).1, if_true]
    exact ⟨_, _, ⟨_, W3.calls + 1⟩, rfl, c2.trans (Nat.le_succ _), t3⟩
  · exact ⟨b.fileN, f, W, by rw [← hb], Nat.le_refl _, rfl⟩

lemma dead_step (T : TextOps S) {b : BWriter} {f : BFile Char} (hd : Dead b f) {W : World} (h : FineFrom D W.calls) (d : Snap S C) :
    ∃ b' W', b.write D T d W = (true, b', W') ∧ Dead b' f ∧ W.calls ≤ W'.calls ∧ W'.fs.txt = W.fs.txt := by
  obtain ⟨g, hg⟩ := Option.isSome_iff_exists.1 hd.data
  obtain ⟨k, g', W1, p1, p2, p3⟩ := part_any_fine h b hg
  obtain ⟨b1, hb1⟩ : ∃ b1 : BWriter, b1 = { b with fileN := k, data := some g' } := ⟨_, rfl⟩
  rw [← hb1] at p1
  obtain ⟨g'', W2, q1, q2, q3⟩ := frame_any_fine (h.mono p2) b1 (f := g') (by rw [hb1]) d
  obtain ⟨b2, hb2⟩ : ∃ b2 : BWriter, b2 = { b1 with data := some g'' } := ⟨_, rfl⟩
  rw [← hb2] at q1
  have hi : b2.idx = some f := by rw [hb2, hb1]; exact hd.idx
  have ht : b2.text.ok = false := by rw [hb2, hb1]; exact hd.text
  obtain ⟨t, hl, ht'⟩ : ∃ t : TStream, b2.line D T d b1.dataPos W2 = ({ b2 with text := t, idx := some f }, W2) ∧ t.ok = false := by
    unfold BWriter.line
    rw [hi]
    simp only [TStream.flush, ht, true_or, if_true]
    exact ⟨_, rfl, rfl⟩
  refine ⟨{ b2 with text := t, idx := some f }, W2, ?_, ⟨?_, ?_, rfl, ht'⟩, p2.trans q2, q3.trans p3⟩
  · unfold BWriter.write
    rw [hd.idx]
    simp only [Option.isNone_some, Bool.false_eq_true, if_false, hd.header, if_true, Bool.true_eq_false, p1, q1, hl]
  · rw [hb2, hb1]; exact hd.header
  · rw [hb2]; rfl

lemma dead_writes (T : TextOps S) {f : BFile Char} (xs : List (Snap S C)) : ∀ {b : BWriter} {W : World}, Dead b f → FineFrom D W.calls →
    ∃ b' W', b.writes D T xs W = (List.replicate xs.length true, b', W') ∧ Dead b' f ∧ W.calls ≤ W'.calls ∧ W'.fs.txt = W.fs.txt := by
  induction xs with
  | nil => intro b W hd _; exact ⟨b, W, rfl, hd, Nat.le_refl _, rfl⟩
  | cons x xs ih =>
    intro b W hd h
    obtain ⟨b1, W1, a1, a2, a3, a4⟩ := dead_step T hd h x
    obtain ⟨b2, W2, c1, c2, c3, c4⟩ := ih a2 (h.mono a3)
    refine ⟨b2, W2, ?_, c2, a3.trans c3, c4.trans a4⟩
    simp only [BWriter.writes, a1, c1, List.length_cons, List.replicate_succ]


lemma dead_close {b : BWriter} {f : BFile Char} (hd : Dead b f) {W : World} (h : FineFrom D W.calls) :
    (b.close D W).fs.txt f.name = (W.fs.txt f.name).map (· ++ f.buf) := by
  obtain ⟨W1, c1, c2, c3⟩ := flush_fine h f
  obtain ⟨g, hg⟩ := Option.isSome_iff_exists.1 hd.data
  unfold BWriter.close
  rw [hd.idx, hg]
  simp only [c1, TStream.flush, hd.text, true_or, if_true]
  rw [(flush_grew D g W1).1.txt, c3]
  simp [FileKind.put]

/-- Whatever the disk does, a call that returns 0 has added at most its own line to the index. -/
lemma write_any (T : TextOps S) {b : BWriter} {w : Writer} (hs : Same b w) (hw : w.headerWritten = true) (W : World) (d : Snap S C) (D : Disk)
    (hr : (b.write D T d W).1 = true) (ho : (b.write D T d W).2.1.text.ok = false) :
    ∃ f l a, Dead (b.write D T d W).2.1 f ∧ w.idxFile = some f.name ∧ a ++ f.buf <+: entry T d l ++ ['\n'] ∧
      (b.write D T d W).2.2.fs.txt f.name = (W.fs.txt f.name).map (· ++ a) := by
  obtain ⟨dn, dp, d1, d2⟩ := hs.data
  obtain ⟨ix, ip, i1, i2⟩ := hs.idx
  have hh : b.headerWritten = true := by rw [hs.header]; exact hw
  obtain ⟨next, hnext⟩ : ∃ next : Bool, next = decide (0 < b.maxPart ∧ b.maxPart ≤ (dp : Int)) := ⟨_, rfl⟩
  have hp : (b.part D W).1 = true := by
    cases hp : (b.part D W).1 with
    | true => rfl
    | false =>
      unfold BWriter.write at hr
      rw [i1] at hr
      simp only [Option.isNone_some, Bool.false_eq_true, if_false, hh, if_true, Bool.true_eq_false, hp] at hr
  obtain ⟨W2, g1, g3⟩ := part_true D b d1 W hp next hnext
  obtain ⟨b2, hb2⟩ : ∃ b2 : BWriter, b2 = { b with
        fileN := if next then b.fileN + 1 else b.fileN
        data := some ⟨if next then datName b.base (b.fileN + 1) else dn, if next then 0 else dp, []⟩ } := ⟨_, rfl⟩
  rw [← hb2] at g1
  have hb2d : b2.data = some ⟨if next then datName b.base (b.fileN + 1) else dn, if next then 0 else dp, []⟩ := by rw [hb2]
  obtain ⟨r, f2, W3, k1, -, k3⟩ := frame_grew D b2 hb2d d W2
  have hr' : r = true := by
    cases r with
    | true => rfl
    | false =>
      unfold BWriter.write at hr
      rw [i1] at hr
      simp only [Option.isNone_some, Bool.false_eq_true, if_false, hh, if_true, Bool.true_eq_false, g1, k1] at hr
  subst hr'
  obtain ⟨b3, hb3⟩ : ∃ b3 : BWriter, b3 = { b2 with data := some f2 } := ⟨_, rfl⟩
  rw [← hb3] at k1
  have hb3i : b3.idx = some ⟨ix, ip, []⟩ := by rw [hb3, hb2]; exact i1
  have hb3t : b3.text = ⟨true, []⟩ := by rw [hb3, hb2]; exact hs.text
  obtain ⟨a, f', W4, o, l1, l2, l3, l4, -⟩ := tflush_any D (⟨true, frameLine T d.step d.time b3.fileN b2.dataPos⟩ : TStream) rfl ix ip W3
  have hline : b3.line D T d b2.dataPos W3 = ({ b3 with text := ⟨o, []⟩, idx := some f' }, W4) := by
    unfold BWriter.line
    rw [hb3i]
    simp only [hb3t, List.nil_append, l1]
  have hwr : b.write D T d W = (true, { b3 with text := ⟨o, []⟩, idx := some f' }, W4) := by
    unfold BWriter.write
    rw [i1]
    simp only [Option.isNone_some, Bool.false_eq_true, if_false, hh, if_true, Bool.true_eq_false, g1, k1, hline]
  rw [hwr] at ho ⊢
  refine ⟨f', (b3.fileN, b2.dataPos), a, ⟨?_, ?_, rfl, ho⟩, by rw [l2]; exact i2, ?_, ?_⟩
  · simp only [hb3, hb2]; exact hh
  · simp only [hb3, Option.isSome_some]
  · rw [← frameLine_eq]; exact l4
  · simp only
    rw [l3, l2, appendTxt_txt, if_pos rfl, k3.txt, g3]
    split_ifs <;> rfl

/-- **A failure to write the index is not noticed, and all later frames are lost** (a user expects that a frame whose `write` returned 0 can be read).
Frames are written with room on the disk; then the index line of one frame is not taken in full (the status of the index stream is not `Ok` any more),
though `write` returns 0.  From then on, although the disk has room again, every `write` returns 0 - so `run` goes on to the end and reports success - and
none of their index lines reaches the file: after closing, the index has the lines of the frames before and at most that of the frame at which it failed. -/
theorem index_failure_silent {T : TextOps S} {n : ℕ} (base : FName) (maxPart : ℤ) {W : World} (h : FineFrom D W.calls) (d : Snap S C)
    (ds : List (Snap S C)) (x : Snap S C) (hfit : ∀ y ∈ d :: ds, Fits n y) (hk : Addressable (ds.length + 1) (frameSize S n)) (D' : Disk) :
    ∃ b W1 b' W' locs, BWriter.new.open D base maxPart W = (true, b, W1) ∧
      b.writes D T (d :: ds) W1 = (List.replicate (ds.length + 1) true, b', W') ∧ Holds T W'.fs base d (d :: ds) locs ∧
      ((b'.write D' T x W').1 = true → (b'.write D' T x W').2.1.text.ok = false →
        ∃ l tail, tail <+: entry T x l ++ ['\n'] ∧ ∀ (D'' : Disk) (xs : List (Snap S C)), FineFrom D'' (b'.write D' T x W').2.2.calls →
          ∃ b2 W2, (b'.write D' T x W').2.1.writes D'' T xs (b'.write D' T x W').2.2 = (List.replicate xs.length true, b2, W2) ∧
            (b2.close D'' W2).fs.txt (idxName base) = some (headerText d ++ entries T (d :: ds) locs ++ tail)) := by
  obtain ⟨b, W1, b', W', w', locs, h1, h2, h3, h4, h5⟩ := session_room T base maxPart h d ds hfit hk
  refine ⟨b, W1, b', W', locs, h1, h2, h4.holds, fun hr ho => ?_⟩
  obtain ⟨f, l, a, q1, q2, q3, q4⟩ := write_any T h3 h4.header W' x D' hr ho
  have hfn : f.name = idxName base := by
    have := h4.sync.idx
    rw [q2] at this
    exact Option.some.inj this
  refine ⟨l, a ++ f.buf, q3, fun D'' xs hD => ?_⟩
  obtain ⟨b2, W2, r1, r2, r3, r4⟩ := dead_writes T xs q1 hD
  refine ⟨b2, W2, r1, ?_⟩
  have := dead_close r2 (hD.mono r3)
  rw [r4, q4, hfn, h4.holds.idx] at this
  rw [this]
  simp


/-- A full disk: files can be made, but no byte is taken. -/
structure Full (D : Disk) : Prop where
  opens : ∀ k, D.opens k = true
  takes : ∀ k n, D.takes k n = 0

lemma sysWrite_fullDisk {β : Type} [FileKind β] [LKind β] (hD : Full D) (W : World) (m : FName) (b : List β) :
    sysWrite D W m b = (0, ⟨W.fs, W.calls + 1⟩) := by
  unfold sysWrite
  simp only [hD.takes, Nat.zero_min, List.take_zero, LKind.nil]

lemma flush_fullDisk {β : Type} [FileKind β] [LKind β] (hD : Full D) (f : BFile β) (W : World) :
    ∃ r W', f.flush D W = (r, f, W') ∧ W'.fs = W.fs := by
  unfold BFile.flush
  split_ifs
  · exact ⟨_, _, rfl, rfl⟩
  · rw [sysWrite_fullDisk hD]
    exact ⟨_, ⟨W.fs, W.calls + 1⟩, rfl, rfl⟩

lemma write_fullDisk {β : Type} [FileKind β] [LKind β] (hD : Full D) (f : BFile β) (b : List β) (W : World) :
    (f.write D b W).2.2.fs = W.fs ∧
    (f.buf.length + b.length ≤ fileChunk → f.write D b W = (some b.length, { f with pos := f.pos + b.length, buf := f.buf ++ b }, W)) := by
  constructor
  · obtain ⟨r, hr⟩ : ∃ r, r = if fileChunk < f.buf.length + b.length then f.flush D W else (true, f, W) := ⟨_, rfl⟩
    have h1 : r.2.2.fs = W.fs := by
      rw [hr]
      split_ifs
      · obtain ⟨_, W', g1, g2⟩ := flush_fullDisk hD f W
        rw [g1]; exact g2
      · rfl
    unfold BFile.write
    simp only [← hr, sysWrite_fullDisk hD, if_true]
    split_ifs <;> exact h1
  · intro hle
    unfold BFile.write
    rw [if_neg (by omega : ¬ fileChunk < f.buf.length + b.length)]
    simp only [Bool.true_eq_false, if_false, if_neg (by omega : ¬ fileChunk < b.length)]

lemma tflush_fullDisk (hD : Full D) (t : TStream) (f : BFile Char) (W : World) : (t.flush D f W).2.2.fs = W.fs := by
  unfold TStream.flush
  split_ifs
  · rfl
  · have h1 := (write_fullDisk hD f t.buf W).1
    simp only
    split
    · exact h1
    · obtain ⟨r, W', g1, g2⟩ := flush_fullDisk hD (f.write D t.buf W).2.1 (f.write D t.buf W).2.2
      rw [g1]
      exact g2.trans h1

/-- Files were at most emptied. -/
structure Hollow (fs fs' : Files) : Prop where
  bin : ∀ m, fs'.bin m = fs.bin m ∨ fs'.bin m = some []
  txt : ∀ m, fs'.txt m = fs.txt m ∨ fs'.txt m = some []

lemma Hollow.refl (fs : Files) : Hollow fs fs := ⟨fun _ => Or.inl rfl, fun _ => Or.inl rfl⟩

lemma Hollow.trans {a b c : Files} (h1 : Hollow a b) (h2 : Hollow b c) : Hollow a c :=
  ⟨fun m => (h2.bin m).elim (fun h => (h1.bin m).elim (fun h' => Or.inl (h.trans h')) fun h' => Or.inr (h.trans h')) Or.inr,
    fun m => (h2.txt m).elim (fun h => (h1.txt m).elim (fun h' => Or.inl (h.trans h')) fun h' => Or.inr (h.trans h')) Or.inr⟩

lemma create_hollow (n : FName) (fs : Files) : Hollow fs ((FileOp.create n).apply fs) :=
  ⟨fun m => by rw [create_bin]; split_ifs <;> simp, fun m => Or.inl rfl⟩

lemma whole_fullDisk (hD : Full D) (n : FName) (b : List UInt8) (hb : b.length ≤ fileChunk) (W : World) :
    ∃ W', writeWhole D n b W = (true, W') ∧ Hollow W.fs W'.fs := by
  unfold writeWhole sysOpen
  simp only [hD.opens, if_true, Bool.true_eq_false, if_false]
  rw [(write_fullDisk hD (⟨n, 0, []⟩ : BFile UInt8) b _).2 (by simpa using hb)]
  obtain ⟨r, W', g1, g2⟩ := flush_fullDisk hD (⟨n, 0 + b.length, [] ++ b⟩ : BFile UInt8) ⟨(FileOp.create n).apply W.fs, W.calls + 1⟩
  simp only [g1]
  exact ⟨W', by simp, by rw [g2]; exact create_hollow n W.fs⟩

/-- What is left of the buffer of the data file. -/
structure Roomy (b : BWriter) (k : ℕ) : Prop where
  data : ∃ f, b.data = some f ∧ f.buf.length + k ≤ fileChunk
  idx : b.idx.isSome = true

lemma write_fullDisk_ok (hD : Full D) (T : TextOps S) {b : BWriter} {d : Snap S C} {k : ℕ} (hb : Roomy b ((frameBytes d).length + k)) (W : World)
    (hc : b.headerWritten = false → (encList d.color).length ≤ fileChunk ∧ (encList d.mass).length ≤ fileChunk) :
    ∃ b' W', b.write D T d W = (true, b', W') ∧ b'.headerWritten = true ∧ Roomy b' k ∧ Hollow W.fs W'.fs := by
  obtain ⟨f, d1, d2⟩ := hb.data
  obtain ⟨g, i1⟩ := Option.isSome_iff_exists.1 hb.idx
  obtain ⟨b1, W1, e1, e2, e3, e4, e5⟩ : ∃ b1 W1, (if b.headerWritten then (true, b, W) else b.header D d W) = (true, b1, W1) ∧
      b1.data = some f ∧ b1.idx = some g ∧ b1.headerWritten = true ∧ Hollow W.fs W1.fs := by
    cases hh : b.headerWritten with
    | true => exact ⟨b, W, rfl, d1, i1, hh, Hollow.refl _⟩
    | false =>
      simp only [Bool.false_eq_true, if_false]
      unfold BWriter.header
      obtain ⟨Wc, c1, c2⟩ := whole_fullDisk hD (colName b.base) (encList d.color) (hc hh).1 W
      obtain ⟨Wm, m1, m2⟩ := whole_fullDisk hD (massName b.base) (encList d.mass) (hc hh).2 Wc
      simp only [c1, m1, Bool.true_eq_false, if_false]
      exact ⟨_, _, rfl, d1, i1, rfl, c2.trans m2⟩
  obtain ⟨b2, W2, f2, p1, p2, p3, p4, p5, p6⟩ : ∃ b2 W2 f2, b1.part D W1 = (true, b2, W2) ∧ b2.data = some f2 ∧
      f2.buf.length + ((frameBytes d).length + k) ≤ fileChunk ∧ b2.idx = some g ∧ b2.headerWritten = true ∧ Hollow W1.fs W2.fs := by
    unfold BWriter.part
    split_ifs with hn
    · rw [e2]
      obtain ⟨r, W', g1, g2⟩ := flush_fullDisk hD f W1
      simp only [g1, sysOpen, hD.opens, if_true]
      refine ⟨_, _, _, rfl, rfl, ?_, e3, e4, ?_⟩
      · simp only [List.length_nil]; omega
      · simp only
        rw [g2]
        exact create_hollow _ _
    · exact ⟨b1, W1, f, rfl, e2, d2, e3, e4, Hollow.refl _⟩
  have hlen : (frameBytes d).length = (encVecs d.vrt).length + (encVecs d.vel).length := by rw [frameBytes, List.length_append]
  obtain ⟨f3, W3, q1, q2, q3⟩ : ∃ f3 W3, b2.frame D d W2 = (true, { b2 with data := some f3 }, W3) ∧ f3.buf.length + k ≤ fileChunk ∧
      W3.fs = W2.fs := by
    unfold BWriter.frame
    rw [p2]
    simp only
    rw [(write_fullDisk hD f2 (encVecs d.vrt) W2).2 (by omega)]
    simp only [if_true]
    rw [(write_fullDisk hD _ (encVecs d.vel) W2).2 (by simp only [List.length_append]; omega)]
    simp only [if_true]
    obtain ⟨r, W', g1, g2⟩ := flush_fullDisk hD (⟨f2.name, f2.pos + (encVecs d.vrt).length + (encVecs d.vel).length,
      f2.buf ++ encVecs d.vrt ++ encVecs d.vel⟩ : BFile UInt8) W2
    rw [g1]
    exact ⟨_, _, rfl, by simp only [List.length_append]; omega, g2⟩
  obtain ⟨b3, hb3⟩ : ∃ b3 : BWriter, b3 = { b2 with data := some f3 } := ⟨_, rfl⟩
  rw [← hb3] at q1
  have hb3i : b3.idx = some g := by rw [hb3]; exact p4
  obtain ⟨t, ht⟩ : ∃ t, t = TStream.flush D ⟨b3.text.ok, b3.text.buf ++ frameLine T d.step d.time b3.fileN b2.dataPos⟩ g W3 := ⟨_, rfl⟩
  have hline : b3.line D T d b2.dataPos W3 = ({ b3 with text := t.1, idx := some t.2.1 }, t.2.2) := by
    unfold BWriter.line
    rw [hb3i]
    simp only [← ht]
  refine ⟨{ b3 with text := t.1, idx := some t.2.1 }, t.2.2, ?_, ?_, ⟨⟨f3, ?_, q2⟩, rfl⟩, ?_⟩
  · unfold BWriter.write
    rw [i1]
    simp only [Option.isNone_some, Bool.false_eq_true, if_false, e1, Bool.true_eq_false, p1, q1, hline]
  · simp only [hb3]; exact p5
  · simp only [hb3]
  · have : t.2.2.fs = W3.fs := by rw [ht]; exact tflush_fullDisk hD _ _ _
    rw [this, q3]
    exact e5.trans p6

lemma writes_fullDisk (hD : Full D) (T : TextOps S) (ds : List (Snap S C)) : ∀ {b : BWriter} (W : World),
    Roomy b ((ds.map fun d => (frameBytes d).length).sum) →
    (b.headerWritten = false → ∀ d ∈ ds, (encList d.color).length ≤ fileChunk ∧ (encList d.mass).length ≤ fileChunk) →
    ∃ b' W', b.writes D T ds W = (List.replicate ds.length true, b', W') ∧ Hollow W.fs W'.fs := by
  induction ds with
  | nil => intro b W _ _; exact ⟨b, W, rfl, Hollow.refl _⟩
  | cons d ds ih =>
    intro b W hb hc
    rw [List.map_cons, List.sum_cons] at hb
    obtain ⟨b1, W1, h1, h2, h3, h4⟩ := write_fullDisk_ok hD T hb W (fun hh => hc hh d (by simp))
    obtain ⟨b2, W2, g1, g2⟩ := ih W1 h3 (fun hh => by rw [h2] at hh; cases hh)
    refine ⟨b2, W2, ?_, h4.trans g2⟩
    simp only [BWriter.writes, h1, g1, List.length_cons, List.replicate_succ]

/-- **A small stream can be written to a full disk.**  On a disk that takes no byte, opening a stream succeeds and every `write` returns 0 as long as all frames
together have at most 16384 bytes (they stay in the buffer, and the failure of `flush` is not looked at); and no file holds anything of them, also after
closing: each file is as before or empty. -/
theorem full_disk_unnoticed (hD : Full D) (T : TextOps S) (base : FName) (maxPart : ℤ) (W : World) (ds : List (Snap S C))
    (hsum : (ds.map fun d => (frameBytes d).length).sum ≤ fileChunk)
    (hcol : ∀ d ∈ ds, (encList d.color).length ≤ fileChunk ∧ (encList d.mass).length ≤ fileChunk) :
    ∃ b W1 b' W', BWriter.new.open D base maxPart W = (true, b, W1) ∧ b.writes D T ds W1 = (List.replicate ds.length true, b', W') ∧
      Hollow W.fs (b'.close D W').fs := by
  obtain ⟨b, W1, h1, h2, h3, h4⟩ : ∃ b W1, BWriter.new.open D base maxPart W = (true, b, W1) ∧
      Roomy b ((ds.map fun d => (frameBytes d).length).sum) ∧ b.headerWritten = false ∧ Hollow W.fs W1.fs := by
    unfold BWriter.open sysOpen
    simp only [hD.opens, if_true, Bool.true_eq_false, if_false]
    refine ⟨_, _, rfl, ⟨⟨_, rfl, by simpa using hsum⟩, rfl⟩, rfl, (create_hollow _ _).trans ⟨fun _ => Or.inl rfl, fun m => ?_⟩⟩
    rw [createTxt_txt]
    split_ifs <;> simp
  obtain ⟨b', W', g1, g2⟩ := writes_fullDisk hD T ds W1 h2 (fun _ => hcol)
  refine ⟨b, W1, b', W', h1, g1, h4.trans (g2.trans ?_)⟩
  have hf : ∀ (f : BFile UInt8) (V : World), (f.flush D V).2.2.fs = V.fs := by
    intro f V
    obtain ⟨r, V', k1, k2⟩ := flush_fullDisk hD f V
    rw [k1]; exact k2
  have hg : ∀ (f : BFile Char) (V : World), (f.flush D V).2.2.fs = V.fs := by
    intro f V
    obtain ⟨r, V', k1, k2⟩ := flush_fullDisk hD f V
    rw [k1]; exact k2
  have hfin : (b'.close D W').fs = W'.fs := by
    unfold BWriter.close
    cases hi : b'.idx <;> cases hd : b'.data <;> simp only [hf, hg, tflush_fullDisk hD]
  rw [hfin]
  exact Hollow.refl _

lemma write_fullDisk_over {β : Type} [FileKind β] [LKind β] (hD : Full D) (f : BFile β) (b : List β) (W : World)
    (h : fileChunk < f.buf.length + b.length) : (f.write D b W).1 = none := by
  unfold BFile.write
  rw [if_pos h]
  unfold BFile.flush
  by_cases h0 : f.buf.length = 0
  · simp only [if_pos h0, Bool.true_eq_false, if_false]
    rw [if_pos (by omega), sysWrite_fullDisk hD]
    rfl
  · simp only [if_neg h0, sysWrite_fullDisk hD]
    rw [if_pos (beq_eq_false_iff_ne.2 (Ne.symm h0))]

/-- All that was written to the data file is still in its buffer. -/
structure Waiting (b : BWriter) (k : ℕ) : Prop where
  data : ∃ f, b.data = some f ∧ f.buf.length = k ∧ f.pos = k
  max : b.maxPart ≤ 0 ∨ (fileChunk : ℤ) < b.maxPart
  le : k ≤ fileChunk

lemma header_keeps (D : Disk) (b : BWriter) (d : Snap S C) (W : World) :
    (b.header D d W).2.1.data = b.data ∧ (b.header D d W).2.1.maxPart = b.maxPart ∧ (b.header D d W).2.1.idx = b.idx ∧
      (b.header D d W).2.1.base = b.base ∧ (b.header D d W).2.1.fileN = b.fileN := by
  unfold BWriter.header
  simp only
  split_ifs <;> exact ⟨rfl, rfl, rfl, rfl, rfl⟩

lemma write_waiting (hD : Full D) (T : TextOps S) {b : BWriter} {d : Snap S C} {k : ℕ} (hb : Waiting b k) (W : World)
    (hw : (b.write D T d W).1 = true) : Waiting (b.write D T d W).2.1 (k + (frameBytes d).length) := by
  have hlen : (frameBytes d).length = (encVecs d.vrt).length + (encVecs d.vel).length := by rw [frameBytes, List.length_append]
  obtain ⟨h, hh⟩ : ∃ h, h = (if b.headerWritten then (true, b, W) else b.header D d W) := ⟨_, rfl⟩
  have hk : h.2.1.data = b.data ∧ h.2.1.maxPart = b.maxPart := by
    rw [hh]
    split_ifs
    · exact ⟨rfl, rfl⟩
    · exact ⟨(header_keeps D b d W).1, (header_keeps D b d W).2.1⟩
  obtain ⟨f, d1, d2, d3⟩ := hb.data
  have hp : h.2.1.part D h.2.2 = (true, h.2.1, h.2.2) := by
    unfold BWriter.part BWriter.dataPos
    rw [hk.1, hk.2, d1]
    simp only
    rw [if_neg]
    have h1 := hb.le
    have h2 := hb.max
    omega
  unfold BWriter.write at hw ⊢
  by_cases hi : b.idx.isNone = true
  · rw [if_pos hi] at hw; cases hw
  rw [if_neg hi] at hw ⊢
  simp only [← hh] at hw ⊢
  by_cases h1 : h.1 = false
  · rw [if_pos h1] at hw; rw [h1] at hw; cases hw
  rw [if_neg h1] at hw ⊢
  simp only [hp, Bool.true_eq_false, if_false] at hw ⊢
  by_cases hr : (h.2.1.frame D d h.2.2).1 = false
  · rw [if_pos hr] at hw; rw [hr] at hw; cases hw
  rw [if_neg hr] at hw ⊢
  have hr' : (h.2.1.frame D d h.2.2).1 = true := by simpa using hr
  have key : ∃ f', (h.2.1.frame D d h.2.2).2.1 = { h.2.1 with data := some f' } ∧ f'.buf.length = k + (frameBytes d).length ∧
      f'.pos = k + (frameBytes d).length ∧ k + (frameBytes d).length ≤ fileChunk := by
    unfold BWriter.frame at hr' ⊢
    rw [hk.1, d1] at hr' ⊢
    simp only at hr' ⊢
    by_cases c1 : f.buf.length + (encVecs d.vrt).length ≤ fileChunk
    · rw [(write_fullDisk hD f (encVecs d.vrt) h.2.2).2 c1] at hr' ⊢
      simp only [if_true] at hr' ⊢
      by_cases c2 : (f.buf ++ encVecs d.vrt).length + (encVecs d.vel).length ≤ fileChunk
      · rw [(write_fullDisk hD ⟨f.name, f.pos + (encVecs d.vrt).length, f.buf ++ encVecs d.vrt⟩ (encVecs d.vel) h.2.2).2 c2]
        simp only [if_true]
        obtain ⟨r, W', g1, g2⟩ := flush_fullDisk hD (⟨f.name, f.pos + (encVecs d.vrt).length + (encVecs d.vel).length,
          f.buf ++ encVecs d.vrt ++ encVecs d.vel⟩ : BFile UInt8) h.2.2
        rw [g1]
        rw [List.length_append] at c2
        exact ⟨_, rfl, by simp only [List.length_append]; omega, by simp only; omega, by omega⟩
      · rw [write_fullDisk_over hD ⟨f.name, f.pos + (encVecs d.vrt).length, f.buf ++ encVecs d.vrt⟩ (encVecs d.vel) h.2.2 (by simpa using c2)] at hr'
        simp at hr'
    · rw [write_fullDisk_over hD f (encVecs d.vrt) h.2.2 (by omega)] at hr'
      simp at hr'
  obtain ⟨f', k1, k2, k3, k4⟩ := key
  obtain ⟨x, hx⟩ : ∃ x, x = (h.2.1.frame D d h.2.2).2.1 := ⟨_, rfl⟩
  have hl : ∀ p V, (x.line D T d p V).1.data = x.data ∧ (x.line D T d p V).1.maxPart = x.maxPart := by
    intro p V
    unfold BWriter.line
    split
    · exact ⟨rfl, rfl⟩
    · exact ⟨rfl, rfl⟩
  simp only [← hx] at k1 ⊢
  refine ⟨⟨f', ?_, k2, k3⟩, ?_, k4⟩
  · rw [(hl _ _).1, k1]
  · rw [(hl _ _).2, k1]
    simp only [hk.2]
    exact hb.max

lemma writes_waiting (hD : Full D) (T : TextOps S) (ds : List (Snap S C)) : ∀ {b : BWriter} (W : World) {k : ℕ}, Waiting b k →
    (∀ r ∈ (b.writes D T ds W).1, r = true) → k + (ds.map fun d => (frameBytes d).length).sum ≤ fileChunk := by
  induction ds with
  | nil => intro b W k hb _; simpa using hb.le
  | cons d ds ih =>
    intro b W k hb hall
    have h1 := hall _ (List.mem_cons_self ..)
    have := ih _ (write_waiting hD T hb W h1) fun r hr => hall r (List.mem_cons_of_mem _ hr)
    rw [List.map_cons, List.sum_cons]
    omega

/-- **A full disk is noticed as soon as the buffer of the data file is full.**  On a disk that takes no byte, opening a stream succeeds; if the frames written
together have more than 16384 bytes and parts are not smaller than that, one of the calls of `write` does not return 0.  So the bound in
`full_disk_unnoticed` is the exact one. -/
theorem full_disk_noticed (hD : Full D) (T : TextOps S) (base : FName) (maxPart : ℤ) (W : World) (ds : List (Snap S C))
    (hmax : maxPart ≤ 0 ∨ (fileChunk : ℤ) < maxPart) (hsum : fileChunk < (ds.map fun d => (frameBytes d).length).sum) :
    ∃ b W1, BWriter.new.open D base maxPart W = (true, b, W1) ∧ false ∈ (b.writes D T ds W1).1 := by
  obtain ⟨b, W1, h1, h2⟩ : ∃ b W1, BWriter.new.open D base maxPart W = (true, b, W1) ∧ Waiting b 0 := by
    unfold BWriter.open sysOpen
    simp only [hD.opens, if_true, Bool.true_eq_false, if_false]
    exact ⟨_, _, rfl, ⟨⟨_, rfl, rfl, rfl⟩, hmax, Nat.zero_le _⟩⟩
  refine ⟨b, W1, h1, ?_⟩
  by_contra hc
  have := writes_waiting hD T ds W1 h2 (fun r hr => by
    cases r with
    | true => rfl
    | false => exact absurd hr hc)
  omega

lemma whole_big (D : Disk) (n : FName) (b : List UInt8) (W : World) (hb : fileChunk < b.length) (h : (writeWhole D n b W).1 = true) :
    (writeWhole D n b W).2.fs = (FileOp.append n b).apply ((FileOp.create n).apply W.fs) := by
  unfold writeWhole sysOpen at h ⊢
  by_cases ho : D.opens W.calls = true
  · simp only [ho, if_true, Bool.true_eq_false, if_false, beq_iff_eq] at h ⊢
    rw [write_big D n 0 b _ hb h]
    simp [BFile.flush]
  · simp [ho] at h

/-- **With a large number of bodies a failure during the first frame is noticed too.**  On any disk: if a stream is opened and the first `write` returns 0, and
colours, masses, positions and velocities take more than 16384 bytes each, then the files of the colours and of the masses and the first data
file hold exactly these bytes; and if moreover the status of the index stream is `Ok`, the index file holds its header and the line of the frame. -/
theorem large_first_frame_noticed (D : Disk) (T : TextOps S) (base : FName) (maxPart : ℤ) (W : World) (d : Snap S C) {b : BWriter} {W1 : World}
    (ho : BWriter.new.open D base maxPart W = (true, b, W1)) (hc : fileChunk < (encList d.color).length) (hm : fileChunk < (encList d.mass).length)
    (hr : fileChunk < (encVecs d.vrt).length) (hv : fileChunk < (encVecs d.vel).length) (hw : (b.write D T d W1).1 = true) :
    (b.write D T d W1).2.2.fs.bin (colName base) = some (encList d.color) ∧
    (b.write D T d W1).2.2.fs.bin (massName base) = some (encList d.mass) ∧
    (b.write D T d W1).2.2.fs.bin (datName base 0) = some (encVecs d.vrt ++ encVecs d.vel) ∧
    ((b.write D T d W1).2.1.text.ok = true →
      (b.write D T d W1).2.2.fs.txt (idxName base) = some (headerText d ++ frameLine T d.step d.time 0 0)) := by
  -- what `open` leaves
  obtain ⟨b1, b2, b3⟩ : b = ⟨0, maxPart, base, some ⟨datName base 0, 0, []⟩, some ⟨idxName base, 0, []⟩, ⟨true, []⟩, false⟩ ∧
      W1.fs.bin (datName base 0) = some [] ∧ W1.fs.txt (idxName base) = some [] := by
    unfold BWriter.open sysOpen at ho
    by_cases h1 : D.opens W.calls = true
    · simp only [h1, if_true, Bool.true_eq_false, if_false] at ho
      by_cases h2 : D.opens (W.calls + 1) = true
      · simp only [h2, if_true, Bool.true_eq_false, if_false] at ho
        obtain ⟨-, q1, q2⟩ := by simpa only [Prod.mk.injEq] using ho
        subst q1 q2
        exact ⟨rfl, by simp [FileOp.apply], by simp [FileOp.apply]⟩
      · simp [h2] at ho
    · simp [h1] at ho
  subst b1
  unfold BWriter.write at hw ⊢
  simp only [Option.isNone_some, Bool.false_eq_true, if_false] at hw ⊢
  obtain ⟨h, hh⟩ : ∃ h, h = (BWriter.header D (⟨0, maxPart, base, some ⟨datName base 0, 0, []⟩, some ⟨idxName base, 0, []⟩, ⟨true, []⟩, false⟩ : BWriter) d W1) := ⟨_, rfl⟩
  simp only [← hh] at hw ⊢
  by_cases g1 : h.1 = false
  · rw [if_pos g1] at hw; rw [g1] at hw; cases hw
  rw [if_neg g1] at hw ⊢
  obtain ⟨e1, e2⟩ : h.2.1 = ⟨0, maxPart, base, some ⟨datName base 0, 0, []⟩, some ⟨idxName base, 0, []⟩, ⟨true, headerText d⟩, true⟩ ∧
      h.2.2.fs = (FileOp.append (massName base) (encList d.mass)).apply ((FileOp.create (massName base)).apply
        ((FileOp.append (colName base) (encList d.color)).apply ((FileOp.create (colName base)).apply W1.fs))) := by
    have g1' : h.1 = true := by simpa using g1
    unfold BWriter.header at hh
    simp only [List.nil_append] at hh
    by_cases c1 : (writeWhole D (colName base) (encList d.color) W1).1 = true
    · simp only [c1, Bool.true_eq_false, if_false] at hh
      by_cases c2 : (writeWhole D (massName base) (encList d.mass) (writeWhole D (colName base) (encList d.color) W1).2).1 = true
      · simp only [c2, Bool.true_eq_false, if_false] at hh
        rw [hh]
        refine ⟨rfl, ?_⟩
        simp only
        rw [whole_big D _ _ _ hm c2, whole_big D _ _ _ hc c1]
      · simp only [c2, if_true] at hh
        rw [hh] at g1'; cases g1'
    · simp only [c1, if_true] at hh
      rw [hh] at g1'; cases g1'
  have hp : h.2.1.part D h.2.2 = (true, h.2.1, h.2.2) := by
    unfold BWriter.part BWriter.dataPos
    rw [e1]
    simp only
    rw [if_neg (by simp)]
  simp only [hp, Bool.true_eq_false, if_false] at hw ⊢
  by_cases g2 : (h.2.1.frame D d h.2.2).1 = false
  · rw [if_pos g2] at hw; rw [g2] at hw; cases hw
  rw [if_neg g2] at hw ⊢
  obtain ⟨W3, f1, f2⟩ := frame_big D h.2.1 (m := datName base 0) (p := 0) (by rw [e1]) d h.2.2 hr hv (by simpa using g2)
  have hdp : h.2.1.dataPos = 0 := by rw [e1]; rfl
  simp only [f1, hdp]
  rw [e1]
  unfold BWriter.line
  simp only
  obtain ⟨a, f', W4, o, t1, t2, t3, t4, t5⟩ := tflush_any D ⟨true, headerText d ++ frameLine T d.step d.time 0 0⟩ rfl (idxName base) 0 W3
  rw [t1]
  simp only [t3, f2, e2]
  refine ⟨?_, ?_, ?_, fun hk => ?_⟩
  · simp [(datName_ne_colName _ _ _).symm, colName_ne_massName]
  · simp [(datName_ne_massName _ _ _).symm]
  · simp [datName_ne_colName, datName_ne_massName, b2]
  · simp [b3, (t5 hk).1]

/-! ### What the buffers keep -/

/-- What the data file will hold once its buffer is written. -/
def due (f : BFile UInt8) (fs : Files) : Option (List UInt8) := (fs.bin f.name).map (· ++ f.buf)

lemma flush_due (D : Disk) (f : BFile UInt8) (W : World) :
    due (f.flush D W).2.1 (f.flush D W).2.2.fs = due f W.fs ∧ ((f.flush D W).1 = true → (f.flush D W).2.1.buf = []) := by
  unfold BFile.flush
  by_cases h0 : f.buf.length = 0
  · rw [if_pos h0]
    exact ⟨rfl, fun _ => List.eq_nil_of_length_eq_zero h0⟩
  · rw [if_neg h0]
    constructor
    · simp only [due, sysWrite, FileKind.put, append_bin, if_true, Option.map_map]
      congr 1
      funext x
      simp
    · simp only [beq_iff_eq]
      intro h
      rw [h, List.drop_length]

lemma write_due (D : Disk) (f : BFile UInt8) (b : List UInt8) (W : World) (h : (f.write D b W).1 = some b.length) :
    due (f.write D b W).2.1 (f.write D b W).2.2.fs = (due f W.fs).map (· ++ b) := by
  obtain ⟨r, hr⟩ : ∃ r, r = if fileChunk < f.buf.length + b.length then f.flush D W else (true, f, W) := ⟨_, rfl⟩
  have h1 : due r.2.1 r.2.2.fs = due f W.fs ∧ (fileChunk < b.length → r.1 = true → r.2.1.buf = []) := by
    rw [hr]
    split_ifs with hc
    · exact ⟨(flush_due D f W).1, fun _ => (flush_due D f W).2⟩
    · exact ⟨rfl, fun hb => absurd hb (by omega)⟩
  unfold BFile.write at h ⊢
  simp only [← hr] at h ⊢
  by_cases g1 : r.1 = false
  · rw [if_pos g1] at h; cases h
  rw [if_neg g1] at h ⊢
  by_cases g2 : fileChunk < b.length
  · rw [if_pos g2] at h ⊢
    by_cases g3 : (sysWrite D r.2.2 r.2.1.name b).1 = 0
    · rw [if_pos g3] at h; cases h
    · rw [if_neg g3] at h ⊢
      have he : (sysWrite D r.2.2 r.2.1.name b).1 = b.length := Option.some.inj h
      rw [← h1.1]
      simp only [sysWrite_full D r.2.2 r.2.1.name b he, due, FileKind.put, append_bin, if_true, h1.2 g2 (by simpa using g1), Option.map_map]
      congr 1
      funext x
      simp
  · rw [if_neg g2]
    rw [← h1.1]
    simp only [due, Option.map_map]
    congr 1
    funext x
    simp

omit [Raw C] in
lemma frame_due (D : Disk) (w : BWriter) {f : BFile UInt8} (hf : w.data = some f) (d : Snap S C) (W : World) (h : (w.frame D d W).1 = true) :
    ∃ f', (w.frame D d W).2.1 = { w with data := some f' } ∧ f'.name = f.name ∧
      due f' (w.frame D d W).2.2.fs = (due f W.fs).map (· ++ frameBytes d) := by
  unfold BWriter.frame at h ⊢
  rw [hf] at h ⊢
  simp only at h ⊢
  by_cases g1 : (f.write D (encVecs d.vrt) W).1 = some (encVecs d.vrt).length
  · rw [if_pos g1] at h ⊢
    by_cases g2 : ((f.write D (encVecs d.vrt) W).2.1.write D (encVecs d.vel) (f.write D (encVecs d.vrt) W).2.2).1 = some (encVecs d.vel).length
    · rw [if_pos g2] at h ⊢
      refine ⟨_, rfl, ?_, ?_⟩
      · rw [(flush_grew D _ _).2, (write_grew D _ _ _).2, (write_grew D _ _ _).2]
      · rw [(flush_due D _ _).1, write_due D _ _ _ g2, write_due D _ _ _ g1, Option.map_map]
        congr 1
        funext x
        simp [frameBytes]
    · rw [if_neg g2] at h; cases h
  · rw [if_neg g1] at h; cases h

lemma whole_other (D : Disk) (n : FName) (b : List UInt8) (W : World) {m : FName} (hm : m ≠ n) :
    (writeWhole D n b W).2.fs.bin m = W.fs.bin m := by
  unfold writeWhole sysOpen
  by_cases ho : D.opens W.calls = true
  · simp only [ho, if_true, Bool.true_eq_false, if_false]
    obtain ⟨r, hr⟩ : ∃ r, r = BFile.write D ⟨n, 0, []⟩ b ⟨(FileOp.create n).apply W.fs, W.calls + 1⟩ := ⟨_, rfl⟩
    have h1 := write_grew D ⟨n, 0, []⟩ b ⟨(FileOp.create n).apply W.fs, W.calls + 1⟩
    rw [← hr] at h1 ⊢
    have h2 := flush_grew D r.2.1 r.2.2
    rw [h2.1.other m (by rw [h1.2]; exact hm), h1.1.other m hm]
    simp [hm]
  · simp [ho]

lemma header_other (D : Disk) (w : BWriter) (d : Snap S C) (W : World) {m : FName} (h1 : m ≠ colName w.base) (h2 : m ≠ massName w.base) :
    (w.header D d W).2.2.fs.bin m = W.fs.bin m := by
  unfold BWriter.header
  simp only
  split_ifs
  · exact whole_other D _ _ W h1
  · exact (whole_other D _ _ _ h2).trans (whole_other D _ _ W h1)
  · exact (whole_other D _ _ _ h2).trans (whole_other D _ _ W h1)

lemma cflush_bin (D : Disk) (f : BFile Char) (W : World) : (f.flush D W).2.2.fs.bin = W.fs.bin := by
  unfold BFile.flush
  split_ifs
  · rfl
  · rfl

lemma cwrite_bin (D : Disk) (f : BFile Char) (b : List Char) (W : World) : (f.write D b W).2.2.fs.bin = W.fs.bin := by
  obtain ⟨r, hr⟩ : ∃ r, r = if fileChunk < f.buf.length + b.length then f.flush D W else (true, f, W) := ⟨_, rfl⟩
  have h1 : r.2.2.fs.bin = W.fs.bin := by
    rw [hr]
    split_ifs
    · exact cflush_bin D f W
    · rfl
  unfold BFile.write
  simp only [← hr]
  split_ifs
  · exact h1
  · exact h1
  · exact h1
  · exact h1

lemma tflush_bin (D : Disk) (t : TStream) (f : BFile Char) (W : World) : (t.flush D f W).2.2.fs.bin = W.fs.bin := by
  unfold TStream.flush
  split_ifs
  · rfl
  · simp only
    split
    · exact cwrite_bin D f _ W
    · exact (cflush_bin D _ _).trans (cwrite_bin D f _ W)

omit [Raw S] [Raw C] in
lemma line_bin (D : Disk) (T : TextOps S) (w : BWriter) (d : Snap S C) (p : ℕ) (W : World) :
    (w.line D T d p W).2.fs.bin = W.fs.bin ∧ (w.line D T d p W).1.data = w.data ∧ (w.line D T d p W).1.base = w.base ∧
      (w.line D T d p W).1.maxPart = w.maxPart := by
  unfold BWriter.line
  split
  · exact ⟨rfl, rfl, rfl, rfl⟩
  · exact ⟨tflush_bin D _ _ W, rfl, rfl, rfl⟩

lemma flush_calls {β : Type} [FileKind β] (D : Disk) (f : BFile β) (W : World) : W.calls ≤ (f.flush D W).2.2.calls := by
  unfold BFile.flush
  split_ifs
  · exact Nat.le_refl _
  · exact Nat.le_succ _

lemma write_calls {β : Type} [FileKind β] (D : Disk) (f : BFile β) (b : List β) (W : World) : W.calls ≤ (f.write D b W).2.2.calls := by
  obtain ⟨r, hr⟩ : ∃ r, r = if fileChunk < f.buf.length + b.length then f.flush D W else (true, f, W) := ⟨_, rfl⟩
  have h1 : W.calls ≤ r.2.2.calls := by
    rw [hr]
    split_ifs
    · exact flush_calls D f W
    · exact Nat.le_refl _
  unfold BFile.write
  simp only [← hr]
  split_ifs
  · exact h1
  · exact h1.trans (Nat.le_succ _)
  · exact h1.trans (Nat.le_succ _)
  · exact h1

lemma tflush_calls (D : Disk) (t : TStream) (f : BFile Char) (W : World) : W.calls ≤ (t.flush D f W).2.2.calls := by
  unfold TStream.flush
  split_ifs
  · exact Nat.le_refl _
  · simp only
    split
    · exact write_calls D f _ W
    · exact (write_calls D f _ W).trans (flush_calls D _ _)

/-- The data file of a stream in one part will hold `x`. -/
structure Due (base : FName) (b : BWriter) (fs : Files) (x : List UInt8) : Prop where
  data : ∃ f, b.data = some f ∧ f.name = datName base 0 ∧ due f fs = some x
  base : b.base = base
  max : b.maxPart ≤ 0

lemma write_Due (D : Disk) (T : TextOps S) {base : FName} {b : BWriter} {x : List UInt8} (W : World) (hb : Due base b W.fs x) (d : Snap S C)
    (hw : (b.write D T d W).1 = true) : Due base (b.write D T d W).2.1 (b.write D T d W).2.2.fs (x ++ frameBytes d) := by
  obtain ⟨f, d1, d2, d3⟩ := hb.data
  obtain ⟨h, hh⟩ : ∃ h, h = (if b.headerWritten then (true, b, W) else b.header D d W) := ⟨_, rfl⟩
  obtain ⟨k1, k2, k3, k4⟩ : h.2.1.data = b.data ∧ h.2.1.maxPart = b.maxPart ∧ h.2.1.base = b.base ∧ h.2.2.fs.bin f.name = W.fs.bin f.name := by
    rw [hh]
    split_ifs
    · exact ⟨rfl, rfl, rfl, rfl⟩
    · have := header_keeps D b d W
      refine ⟨this.1, this.2.1, this.2.2.2.1, header_other D b d W ?_ ?_⟩
      · rw [d2]; exact datName_ne_colName _ _ _
      · rw [d2]; exact datName_ne_massName _ _ _
  have hp : h.2.1.part D h.2.2 = (true, h.2.1, h.2.2) := by
    unfold BWriter.part
    rw [k2, if_neg]
    have := hb.max
    omega
  unfold BWriter.write at hw ⊢
  by_cases hi : b.idx.isNone = true
  · rw [if_pos hi] at hw; cases hw
  rw [if_neg hi] at hw ⊢
  simp only [← hh] at hw ⊢
  by_cases h1 : h.1 = false
  · rw [if_pos h1] at hw; rw [h1] at hw; cases hw
  rw [if_neg h1] at hw ⊢
  simp only [hp, Bool.true_eq_false, if_false] at hw ⊢
  by_cases hr : (h.2.1.frame D d h.2.2).1 = false
  · rw [if_pos hr] at hw; rw [hr] at hw; cases hw
  rw [if_neg hr] at hw ⊢
  obtain ⟨f', q1, q2, q3⟩ := frame_due D h.2.1 (k1.trans d1) d h.2.2 (by simpa using hr)
  obtain ⟨l1, l2, l3, l4⟩ := line_bin D T (h.2.1.frame D d h.2.2).2.1 d h.2.1.dataPos (h.2.1.frame D d h.2.2).2.2
  refine ⟨⟨f', ?_, q2.trans d2, ?_⟩, ?_, ?_⟩
  · rw [l2, q1]
  · have e : due f h.2.2.fs = some x := by unfold due at d3 ⊢; rw [k4]; exact d3
    rw [e] at q3
    unfold due at q3 ⊢
    simp only
    rw [l1, q3]
    rfl
  · rw [l3, q1]; exact k3.trans hb.base
  · rw [l4, q1]; simp only [k2]; exact hb.max

lemma writes_Due (D : Disk) (T : TextOps S) {base : FName} (ds : List (Snap S C)) : ∀ {b : BWriter} {x : List UInt8} (W : World), Due base b W.fs x →
    (∀ r ∈ (b.writes D T ds W).1, r = true) →
    Due base (b.writes D T ds W).2.1 (b.writes D T ds W).2.2.fs (x ++ (ds.map frameBytes).flatten) := by
  induction ds with
  | nil => intro b x W hb _; simpa [BWriter.writes] using hb
  | cons d ds ih =>
    intro b x W hb hall
    have h1 := hall _ (List.mem_cons_self ..)
    have := ih _ (write_Due D T W hb d h1) fun r hr => hall r (List.mem_cons_of_mem _ hr)
    rw [List.map_cons, List.flatten_cons, ← List.append_assoc]
    exact this

/-- **What the disk does not take is kept for later.**  On any disk: if a stream without parts is opened and every `write` returns 0, and the disk has room
when the stream is closed, the data file holds all frames one after the other, however many of the calls before were refused or taken in part. -/
theorem data_file_complete (D D' : Disk) (T : TextOps S) (base : FName) (maxPart : ℤ) (hmax : maxPart ≤ 0) (W : World) (ds : List (Snap S C))
    {b : BWriter} {W1 : World} (ho : BWriter.new.open D base maxPart W = (true, b, W1))
    (hall : ∀ r ∈ (b.writes D T ds W1).1, r = true) (hfine : FineFrom D' (b.writes D T ds W1).2.2.calls) :
    ((b.writes D T ds W1).2.1.close D' (b.writes D T ds W1).2.2).fs.bin (datName base 0) = some (ds.map frameBytes).flatten := by
  have h0 : Due base b W1.fs [] := by
    unfold BWriter.open sysOpen at ho
    by_cases h1 : D.opens W.calls = true
    · simp only [h1, if_true, Bool.true_eq_false, if_false] at ho
      by_cases h2 : D.opens (W.calls + 1) = true
      · simp only [h2, if_true, Bool.true_eq_false, if_false] at ho
        obtain ⟨-, q1, q2⟩ := by simpa only [Prod.mk.injEq] using ho
        subst q1 q2
        exact ⟨⟨_, rfl, rfl, by simp [due, FileOp.apply]⟩, rfl, hmax⟩
      · simp [h2] at ho
    · simp [h1] at ho
  obtain ⟨⟨f, e1, e2, e3⟩, -, -⟩ := writes_Due D T ds W1 h0 hall
  rw [List.nil_append] at e3
  obtain ⟨x, hx⟩ : ∃ x, x = b.writes D T ds W1 := ⟨_, rfl⟩
  rw [← hx] at e1 e3 hfine ⊢
  have fin : ∀ V : World, V.fs.bin = x.2.2.fs.bin → FineFrom D' V.calls →
      (f.flush D' V).2.2.fs.bin (datName base 0) = some (ds.map frameBytes).flatten := by
    intro V v1 v2
    obtain ⟨W', g1, -, g2⟩ := flush_fine v2 f
    rw [g1]
    simp only [g2, FileKind.put]
    unfold due at e3
    rw [append_bin, if_pos e2.symm, v1]
    exact e3
  unfold BWriter.close
  cases x.2.1.idx with
  | none =>
    simp only [e1]
    exact fin _ rfl hfine
  | some g =>
    simp only [e1]
    exact fin _ ((tflush_bin D' _ _ _).trans (cflush_bin D' _ _)) (hfine.mono ((flush_calls D' g _).trans (tflush_calls D' _ _ _)))

end

/-- Calls 6 and 8 fail: the flush of the data file in the first `write`, and the one when the part is closed. -/
def failsTwice : Disk := ⟨fun j n => if j = 6 ∨ j = 8 then 0 else n, fun _ => true⟩

open StreamExample in
/-- **With parts it is not kept.**  A stream with parts of one byte: the disk refuses the flush of the first frame and the one made when the first part is closed,
and has room for everything else.  Both calls of `write` return 0, and after closing the stream the file of the first part is empty, although the index
names the frame in it. -/
theorem part_change_loses_frame :
    let o := BWriter.new.open failsTwice "a".toList 1 ⟨⟨fun _ => none, fun _ => none⟩, 0⟩
    let w := o.2.1.writes failsTwice text [snap 1 10 7, snap 2 20 8] o.2.2
    o.1 = true ∧ w.1 = [true, true] ∧ FineFrom failsTwice w.2.2.calls ∧
    (w.2.1.close failsTwice w.2.2).fs.bin (datName "a".toList 0) = some [] ∧
    (w.2.1.close failsTwice w.2.2).fs.bin (datName "a".toList 1) = some (frameBytes (snap 2 20 8)) ∧
    (w.2.1.close failsTwice w.2.2).fs.txt (idxName "a".toList) =
      some (headerText (snap 1 10 7) ++ frameLine text (snap 1 10 7).step (snap 1 10 7).time 0 0 ++
        frameLine text (snap 2 20 8).step (snap 2 20 8).time 1 0) := by
  intro o w
  refine ⟨by decide +kernel, by decide +kernel, ?_, by decide +kernel, by decide +kernel, by decide +kernel⟩
  have h : 9 ≤ w.2.2.calls := by decide +kernel
  intro k hk
  refine ⟨rfl, fun n => ?_⟩
  have : ¬ (k = 6 ∨ k = 8) := by omega
  simp [failsTwice, this]

/-! ### Cases -/

/-- A disk with room. -/
example (c : ℕ) : FineFrom ⟨fun _ n => n, fun _ => true⟩ c := fun _ _ => ⟨rfl, fun _ => le_refl _⟩

/-- Call `k` fails. -/
def failsAt (k : ℕ) : Disk := ⟨fun j n => if j = k then 0 else n, fun j => decide (j ≠ k)⟩

/-- A disk with room. -/
def roomy : Disk := ⟨fun _ n => n, fun _ => true⟩

open StreamExample in
/-- A write that fails (case of `failed_write_keeps_frames`): parts of 1 byte, and the next part cannot be opened. -/
example : let o := BWriter.new.open roomy "a".toList 1 ⟨⟨fun _ => none, fun _ => none⟩, 0⟩
    let w := o.2.1.writes roomy text [snap 1 10 7] o.2.2
    w.1 = [true] ∧ (w.2.1.write (failsAt w.2.2.calls) text (snap 2 20 8) w.2.2).1 = false := by decide +kernel

open StreamExample in
/-- A write that does not fail although its index line is lost (case of `index_failure_silent`): the second call of the operating system is the one for the line. -/
example : let o := BWriter.new.open roomy "a".toList 0 ⟨⟨fun _ => none, fun _ => none⟩, 0⟩
    let w := o.2.1.writes roomy text [snap 1 10 7] o.2.2
    let x := w.2.1.write (failsAt (w.2.2.calls + 1)) text (snap 2 20 8) w.2.2
    x.1 = true ∧ x.2.1.text.ok = false := by decide +kernel

/-- Frames of which each block is larger than the buffer (case of `large_frames_noticed`): 683 bodies in double precision. -/
example : fileChunk < 3 * Raw.size UInt64 * 683 := by decide +kernel

/-- A full disk. -/
example : Full ⟨fun _ _ => 0, fun _ => true⟩ := ⟨fun _ => rfl, fun _ _ => rfl⟩

open StreamExample in
/-- 170 frames of two bodies fit the buffer (case of `full_disk_unnoticed`). -/
example : (((List.range 170).map fun k => snap k 10 7).map fun d => (frameBytes d).length).sum ≤ fileChunk := by decide +kernel

open StreamExample in
/-- 171 frames of two bodies do not fit the buffer (case of `full_disk_noticed`, with the preset part size). -/
example : fileChunk < (((List.range 171).map fun k => snap k 10 7).map fun d => (frameBytes d).length).sum ∧
    (fileChunk : ℤ) < BWriter.new.maxPart := by decide +kernel

/-- Blocks that are all larger than the buffer (case of `large_first_frame_noticed`): 2049 bodies in double precision. -/
example : fileChunk < Raw.size UInt64 * 2049 := by decide +kernel

open StreamExample in
/-- A disk that refuses the flush of the first frame (case of `data_file_complete`): no part size. -/
example : let o := BWriter.new.open (failsAt 6) "a".toList 0 ⟨⟨fun _ => none, fun _ => none⟩, 0⟩
    let w := o.2.1.writes (failsAt 6) text [snap 1 10 7] o.2.2
    o.1 = true ∧ w.1 = [true] ∧ w.2.2.fs.bin (datName "a".toList 0) = some [] ∧ 7 ≤ w.2.2.calls ∧
      (w.2.1.close (failsAt 6) w.2.2).fs.bin (datName "a".toList 0) = some (frameBytes (snap 1 10 7)) := by decide +kernel

end NB.C90
