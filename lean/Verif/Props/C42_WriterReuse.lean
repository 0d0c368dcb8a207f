import Verif.Lemmas.StreamExample
import Verif.Props.C37_StreamRoundTrip

/-
C42: using a stream writer for a second stream.
-/

namespace NB.C42

open StreamSpec

section
variable {S C : Type} [Raw S] [Raw C]

/-- The flag of a writer after one call. -/
lemma flag_call (T : TextOps S) (w : Writer) (fs : Files) (q : WCall S C) :
    (writerCall T w fs q).2.1.headerWritten = true ↔
      w.headerWritten = true ∨ Wrote1 (q, (writerCall T w fs q).1) := by
  cases q with
  | openNew name m => simp [writerCall, Writer.open, Wrote1]
  | openAppend name m k => simp [writerCall, Writer.open, Wrote1]
  | close => simp [writerCall, Writer.close, Wrote1]
  | write d =>
    cases e : w.write T d with
    | none => simp [writerCall, e, Wrote1]
    | some p =>
      obtain ⟨ops, w'⟩ := p
      have h : w'.headerWritten = true := by
        unfold Writer.write at e
        split at e
        · simp only [Option.some.injEq, Prod.mk.injEq] at e
          rw [← e.2]
        · cases e
      simp [writerCall, e, Wrote1, h]

/-- The flag of a writer after a history. -/
lemma flag_calls (T : TextOps S) (qs : List (WCall S C)) : ∀ (w : Writer) (fs : Files),
    (writerCalls T qs w fs).2.1.headerWritten = true ↔
      w.headerWritten = true ∨ ∃ a ∈ (writerCalls T qs w fs).1, Wrote1 a := by
  induction qs with
  | nil => intro w fs; simp [writerCalls]
  | cons q qs ih =>
    intro w fs
    simp only [writerCalls, ih, flag_call, List.mem_cons, exists_eq_or_imp, or_assoc]

/-- An index made of break-free lines without a comment among them. -/
def Bare (fs : Files) (base : FName) : Prop :=
  ∃ ls : List (List Char), fs.txt (idxName base) = some (unlines ls) ∧ ∀ l ∈ ls, '\n' ∉ l ∧ l.head? ≠ some '#'

lemma bare_writeAll {T : TextOps S} {rnd : S → S} (hT : TextGood T rnd) {base : FName} (ds : List (Snap S C)) :
    ∀ {w : Writer} {fs : Files}, Sync w fs base → w.headerWritten = true → Bare fs base →
      ∃ w' fs', w.writeAll T ds fs = some (w', fs') ∧ Bare fs' base := by
  induction ds with
  | nil => intro w fs _ _ hb; exact ⟨w, fs, rfl, hb⟩
  | cons d ds ih =>
    intro w fs hs hh hb
    obtain ⟨b, hb1, _⟩ := hs.data
    obtain ⟨ops, w', h1, h2, h3, _⟩ := write_wrote T hs hb1 d
    obtain ⟨ls, hl1, hl2⟩ := hb
    have hbare : Bare (applyOps ops fs) base := by
      refine ⟨ls ++ [entry T d (placeNext w.maxPart w.fileN b.length)], ?_, ?_⟩
      · rw [h3, hl1, hh]
        simp [unlines]
      · intro l hl
        rcases List.mem_append.1 hl with hl | hl
        · exact hl2 l hl
        · rw [List.mem_singleton] at hl
          subst hl
          exact ⟨entry_noBreak hT _ _, entry_head _ _ _⟩
    obtain ⟨w2, fs2, h4, h5⟩ := ih h2.sync h2.header hbare
    exact ⟨w2, fs2, by rw [Writer.writeAll, h1]; exact h4, h5⟩

lemma loadLines_bare (T : TextOps S) (ls : List (List Char)) : ∀ (r : Reader S),
    (∀ l ∈ ls, l.head? ≠ some '#') → (Reader.loadLines T ls r).2.bodyCount = r.bodyCount := by
  induction ls with
  | nil => intro r _; rfl
  | cons l ls ih =>
    intro r h
    rw [Reader.loadLines, if_neg (h l (by simp))]
    split
    · rfl
    · rw [ih _ (fun l hl => h l (by simp [hl]))]

lemma bare_load {T : TextOps S} {fs : Files} {base : FName} (hb : Bare fs base) (r : Reader S)
    (hr : r.bodyCount = 0) : (r.load T fs base).1 = false := by
  obtain ⟨ls, h1, h2⟩ := hb
  have e : textLines (unlines ls) = ls := by
    have := textLines_unlines ls [] (fun l hl => (h2 l hl).1) (by simp)
    simpa using this
  cases hq : Reader.loadLines T (textLines (unlines ls)) r.close with
  | mk ok q =>
    cases ok with
    | false => exact load_fails_lines h1 (by rw [hq])
    | true =>
      have : q.bodyCount = 0 := by
        have := loadLines_bare T ls r.close (fun l hl => (h2 l hl).2)
        rw [← e, hq] at this
        exact this.trans hr
      rw [load_fails_header h1 hq (Or.inl this)]

/-- Negation of the full claim: a writer that has written a frame, or has been opened for appending, at any
time before, can open a new stream and write any frames to it, but no new reader can load that stream. -/
theorem reused_unloadable {T : TextOps S} {rnd : S → S} (hT : TextGood T rnd) (qs : List (WCall S C))
    (fs : Files) (hused : ∃ a ∈ (writerCalls T qs Writer.new fs).1, Wrote1 a) (base : FName) (maxPart : ℤ)
    (ds : List (Snap S C)) :
    let s := (writerCalls T qs Writer.new fs).2
    let o := s.1.open base maxPart none s.2
    ∃ w' fs', o.2.writeAll T ds (applyOps o.1 s.2) = some (w', fs') ∧
      ((Reader.new : Reader S).load T fs' base).1 = false := by
  intro s o
  have hh : s.1.headerWritten = true := (flag_calls T qs Writer.new fs).2 (Or.inr hused)
  have hs : Sync o.2 (applyOps o.1 s.2) base := ⟨rfl, rfl, [], by simp [o, Writer.open, applyOps_cons, applyOps_nil],
    rfl⟩
  obtain ⟨w', fs', h1, h2⟩ := bare_writeAll hT ds hs hh
    ⟨[], by simp [o, Writer.open, applyOps_cons, applyOps_nil, unlines], by simp⟩
  exact ⟨w', fs', h1, bare_load h2 _ rfl⟩

/-- What remains of the claim: a writer that was only opened and closed, or whose writes all failed, behaves
for the next stream as a new one. -/
theorem reused_loadable_partial {T : TextOps S} {rnd : S → S} (hT : TextGood T rnd) (qs : List (WCall S C))
    (fs : Files) (hunused : ¬ ∃ a ∈ (writerCalls T qs Writer.new fs).1, Wrote1 a) (base : FName) (maxPart : ℤ)
    (d : Snap S C) (ds : List (Snap S C)) {n b : ℕ} (hn : 0 < n) (hn' : n ≤ sizeMax)
    (hw : Raw.size S ≤ sizeMax) (hfit : ∀ x ∈ d :: ds, Fits n x) (hb : BoxGood d.box b)
    (hk : Addressable (ds.length + 1) (frameSize S n)) :
    let s := (writerCalls T qs Writer.new fs).2
    let o := s.1.open base maxPart none s.2
    ∃ w' fs', o.2.writeAll T (d :: ds) (applyOps o.1 s.2) = some (w', fs') ∧
      ∃ r, Reader.new.load T fs' base = (true, r) ∧ r.frameCount = (d :: ds).length ∧
        ∃ r', readerCalls (C := C) fs' (List.replicate (d :: ds).length (.read n)) r =
          .ok (readBack rnd d (d :: ds), r') := by
  intro s o
  have hh : s.1.headerWritten = false := by
    have := (flag_calls T qs Writer.new fs).not.2 (by simp only [not_or]; exact ⟨by decide, hunused⟩)
    simpa using this
  obtain ⟨hf, _⟩ := open_fresh (w := s.1) hh base maxPart s.2
  obtain ⟨w', fs', locs, h1, h2, _, _, _, _, h6⟩ := fresh_writeAll T d ds hf hk
    (fun x hx => frameBytes_length (hfit x hx))
  obtain ⟨r, h7, h8, h9, _⟩ := load_at hT h2.holds hb hfit (hfit d (by simp)) hn hn' hw (by simp) Reader.new true
    rfl rfl
  obtain ⟨r', h10⟩ := at_calls (C := C) h2.holds hfit (hfit d (by simp)) hn h6
    (List.replicate (d :: ds).length (.read n)) h8
  refine ⟨w', fs', h1, r, h7, ?_, r', ?_⟩
  · rw [Reader.frameCount, h8.frames, zipWith_length h2.holds]
  · rw [h10, C37.answers_readBack]

end

/-! ### Concrete cases -/

open StreamExample

/-- A history that makes a writer unusable for a second stream: one stream of one frame, closed. -/
example : ∃ a ∈ (writerCalls text [.openNew ['s'] 100, .write (snap 0 0 1), .close] Writer.new
    ⟨fun _ => none, fun _ => none⟩).1, Wrote1 a :=
  ⟨(.write (snap 0 0 1), true), by
    simp [writerCalls, writerCall, Writer.open, Writer.write], rfl⟩

/-- A history that does not: a write without an open file, an open and a close. -/
example : ¬ ∃ a ∈ (writerCalls text [.write (snap 0 0 1), .openNew ['s'] 100, .close] Writer.new
    ⟨fun _ => none, fun _ => none⟩).1, Wrote1 a := by
  simp [writerCalls, writerCall, Writer.open, Writer.write, Writer.new, Wrote1]

end NB.C42
