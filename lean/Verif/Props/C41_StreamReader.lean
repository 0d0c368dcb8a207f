import Verif.Props.C37_StreamRoundTrip
import Mathlib.Tactic.SplitIfs

/-
C41: sequences of `seek` and `read`.
-/

namespace NB.C41

open StreamSpec

section
variable {S C : Type} [Raw S] [Raw C]

/-- A stream on disk that a reader can load. -/
structure Readable (T : TextOps S) (rnd : S → S) (fs : Files) (base : FName) (h : Snap S C) (n b : ℕ)
    (ds : List (Snap S C)) (locs : List (ℕ × ℕ)) : Prop where
  text : TextGood T rnd
  holds : Holds T fs base h ds locs
  last : LastAtEnd fs base ds locs
  box : BoxGood h.box b
  fits : ∀ d ∈ ds, Fits n d
  head : Fits n h
  pos : 0 < n
  bound : n ≤ sizeMax
  size : Raw.size S ≤ sizeMax
  frames : ds ≠ []

variable {T : TextOps S} {rnd : S → S} {fs : Files} {base : FName} {h : Snap S C} {n b : ℕ}
  {ds : List (Snap S C)} {locs : List (ℕ × ℕ)}

/-- After a whole sequence of writes by a new writer the stream is readable in this sense. -/
theorem written_readable (hT : TextGood T rnd) (base : FName) (maxPart : ℤ) (fs : Files) (d : Snap S C)
    (ds : List (Snap S C)) (hn : 0 < n) (hn' : n ≤ sizeMax) (hw : Raw.size S ≤ sizeMax)
    (hfit : ∀ x ∈ d :: ds, Fits n x) (hb : BoxGood d.box b)
    (hk : Addressable (ds.length + 1) (frameSize S n)) :
    let o := Writer.new.open base maxPart none fs
    ∃ w' fs' locs, o.2.writeAll T (d :: ds) (applyOps o.1 fs) = some (w', fs') ∧
      Readable T rnd fs' base d n b (d :: ds) locs := by
  intro o
  obtain ⟨hf, _⟩ := open_fresh (w := Writer.new) rfl base maxPart fs
  obtain ⟨w', fs', locs, h1, h2, _, _, _, _, h6⟩ := fresh_writeAll T d ds hf hk
    (fun x hx => frameBytes_length (hfit x hx))
  exact ⟨w', fs', locs, h1, hT, h2.holds, h6, hb, hfit, hfit d (by simp), hn, hn', hw, by simp⟩

lemma cursor_calls (hr : Readable T rnd fs base h n b ds locs) :
    ∃ r, Reader.new.load T fs base = (true, r) ∧
      ∀ qs, ∃ r', readerCalls (C := C) fs qs r = .ok (answers rnd h n ds ⟨0, false, true⟩ qs, r') := by
  obtain ⟨r, h1, h2, _⟩ := load_at hr.text hr.holds hr.box hr.fits hr.head hr.pos hr.bound hr.size hr.frames
    Reader.new true rfl rfl
  exact ⟨r, h1, fun qs => at_calls hr.holds hr.fits hr.head hr.pos hr.last qs h2⟩

/-- Every sequence of calls is answered as the specification says, without undefined behaviour. -/
theorem calls_answered (hr : Readable T rnd fs base h n b ds locs) (qs : List Call) :
    ∃ r r', Reader.new.load T fs base = (true, r) ∧
      readerCalls (C := C) fs qs r = .ok (answers rnd h n ds ⟨0, false, true⟩ qs, r') := by
  obtain ⟨r, h1, h2⟩ := cursor_calls hr
  obtain ⟨r', h3⟩ := h2 qs
  exact ⟨r, r', h1, h3⟩

/-- The cursor after a sequence of calls. -/
def after (rnd : S → S) (h : Snap S C) (n : ℕ) (ds : List (Snap S C)) : Cursor → List Call → Cursor
  | c, [] => c
  | c, q :: qs => after rnd h n ds (answer rnd h n ds c q).2 qs

lemma answers_append (c : Cursor) (ps qs : List Call) :
    answers rnd h n ds c (ps ++ qs) = answers rnd h n ds c ps ++ answers rnd h n ds (after rnd h n ds c ps) qs := by
  induction ps generalizing c with
  | nil => rfl
  | cons p ps ih => simp [answers, after, ih]

/-- A cursor inside the stream. -/
def Inside (ds : List (Snap S C)) (c : Cursor) : Prop :=
  c.frame < ds.length ∧ (c.spent = true → c.frame + 1 = ds.length)

lemma answer_inside {c : Cursor} (hc : Inside ds c) (q : Call) : Inside ds (answer rnd h n ds c q).2 := by
  obtain ⟨h1, h2⟩ := hc
  cases q with
  | seek k =>
    unfold answer
    simp only
    split
    · exact ⟨h1, h2⟩
    · split
      · exact ⟨by assumption, fun hq => by cases hq⟩
      · exact ⟨h1, h2⟩
  | read m =>
    unfold answer
    simp only
    split
    · exact ⟨h1, h2⟩
    · split
      · exact ⟨h1, h2⟩
      · rw [List.getElem?_eq_getElem h1]
        simp only
        split
        · rename_i hlt; exact ⟨hlt, fun hq => by cases hq⟩
        · exact ⟨h1, fun _ => by simp only; omega⟩

lemma after_inside (qs : List Call) {c : Cursor} (hc : Inside ds c) : Inside ds (after rnd h n ds c qs) := by
  induction qs generalizing c with
  | nil => exact hc
  | cons q qs ih => exact ih (answer_inside hc q)

/-- After any calls, `seek(k)` to a frame other than the last followed by `read` delivers frame `k`.  The
claim for the last frame is false in general, see `last_frame_once`. -/
theorem seek_read_partial (hr : Readable T rnd fs base h n b ds locs) (qs : List Call) (k : ℕ) (d : Snap S C)
    (hk : ds[k]? = some d) (hlast : k + 1 ≠ ds.length) :
    ∃ r r' as f, Reader.new.load T fs base = (true, r) ∧ as.length = qs.length ∧
      readerCalls (C := C) fs (qs ++ [.seek k, .read n]) r =
        .ok (as ++ [.done, .data (content rnd h d f)], r') := by
  obtain ⟨r, h1, h2⟩ := cursor_calls hr
  obtain ⟨r', h3⟩ := h2 (qs ++ [.seek k, .read n])
  have hin : Inside ds (after rnd h n ds ⟨0, false, true⟩ qs) :=
    after_inside qs ⟨List.length_pos_iff.2 hr.frames, fun hq => by cases hq⟩
  set c := after rnd h n ds ⟨0, false, true⟩ qs with hc
  have hlt : k < ds.length := (List.getElem?_eq_some_iff.1 hk).1
  refine ⟨r, r', answers rnd h n ds ⟨0, false, true⟩ qs, c.first, h1, ?_, ?_⟩
  · clear h3 hin hc c
    generalize (⟨0, false, true⟩ : Cursor) = c0
    induction qs generalizing c0 with
    | nil => rfl
    | cons q qs ih => simp [answers, ih]
  · rw [h3, answers_append, ← hc]
    simp only [answers]
    have e1 : answer rnd h n ds c (.seek k) = (.done, ⟨k, false, c.first⟩) := by
      by_cases he : k = c.frame
      · have hsp : c.spent = false := by
          cases hs : c.spent with
          | false => rfl
          | true => exact absurd (hin.2 hs) (by rw [← he]; exact hlast)
        have : c = ⟨k, false, c.first⟩ := by rw [he, ← hsp]
        unfold answer
        simp only
        rw [if_pos he, ← this]
      · unfold answer
        simp only
        rw [if_neg he, if_pos hlt]
    have e2 : (answer rnd h n ds ⟨k, false, c.first⟩ (.read n)).1 = .data (content rnd h d c.first) := by
      unfold answer
      simp [hk]
    rw [e1]
    simp only
    rw [e2]

/-- `seek` beyond the end fails and changes nothing that a client can see. -/
theorem seek_out_of_range (hr : Readable T rnd fs base h n b ds locs) (ps qs : List Call) (k : ℕ)
    (hk : ds.length ≤ k) :
    ∃ r r1 r2 as bs, Reader.new.load T fs base = (true, r) ∧ as.length = ps.length ∧
      readerCalls (C := C) fs (ps ++ qs) r = .ok (as ++ bs, r1) ∧
      readerCalls (C := C) fs (ps ++ .seek k :: qs) r = .ok (as ++ .failed :: bs, r2) := by
  obtain ⟨r, h1, h2⟩ := cursor_calls hr
  obtain ⟨r1, h3⟩ := h2 (ps ++ qs)
  obtain ⟨r2, h4⟩ := h2 (ps ++ .seek k :: qs)
  have hin : Inside ds (after rnd h n ds ⟨0, false, true⟩ ps) :=
    after_inside ps ⟨List.length_pos_iff.2 hr.frames, fun hq => by cases hq⟩
  refine ⟨r, r1, r2, answers rnd h n ds ⟨0, false, true⟩ ps,
    answers rnd h n ds (after rnd h n ds ⟨0, false, true⟩ ps) qs, h1, ?_, by rw [h3, answers_append], ?_⟩
  · clear h3 h4 hin
    generalize (⟨0, false, true⟩ : Cursor) = c0
    induction ps generalizing c0 with
    | nil => rfl
    | cons q qs ih => simp [answers, ih]
  · rw [h4, answers_append]
    have e : answer rnd h n ds (after rnd h n ds ⟨0, false, true⟩ ps) (.seek k) =
        (.failed, after rnd h n ds ⟨0, false, true⟩ ps) := by
      unfold answer
      simp only
      rw [if_neg (by have := hin.1; omega), if_neg (by omega)]
    simp only [answers, e]

lemma after_reads (hne : ds ≠ []) : ∀ (m k : ℕ) (f : Bool), k + m + 1 = ds.length →
    after rnd h n ds ⟨k, false, f⟩ (List.replicate (m + 1) (.read n)) = ⟨ds.length - 1, true, false⟩ := by
  intro m
  induction m with
  | zero =>
    intro k f hk
    have hlt : k < ds.length := by omega
    simp only [List.replicate_succ, List.replicate_zero, after, answer]
    simp only [ne_eq, not_true_eq_false, if_false, Bool.false_eq_true, List.getElem?_eq_getElem hlt]
    rw [if_neg (by omega)]
    simp only [Cursor.mk.injEq, and_true]
    omega
  | succ m ih =>
    intro k f hk
    have hlt : k < ds.length := by omega
    rw [List.replicate_succ, after]
    have e : (answer rnd h n ds ⟨k, false, f⟩ (.read n)).2 = ⟨k + 1, false, false⟩ := by
      unfold answer
      simp only [ne_eq, not_true_eq_false, if_false, Bool.false_eq_true, List.getElem?_eq_getElem hlt]
      rw [if_pos (by omega)]
    rw [e, ih (k + 1) false (by omega)]

/-- Negation of the full claim: once the stream has been read to its end, reading again fails, and so does
reading after `seek` to the last frame, although that `seek` reports success and frame `ds.length - 1`
exists. -/
theorem last_frame_once (hr : Readable T rnd fs base h n b ds locs) :
    ∃ r r1 r2, Reader.new.load T fs base = (true, r) ∧
      readerCalls (C := C) fs (List.replicate ds.length (.read n) ++ [.read n]) r =
        .ok (answers rnd h n ds ⟨0, false, true⟩ (List.replicate ds.length (.read n)) ++ [.failed], r1) ∧
      readerCalls (C := C) fs (List.replicate ds.length (.read n) ++ [.seek (ds.length - 1), .read n]) r =
        .ok (answers rnd h n ds ⟨0, false, true⟩ (List.replicate ds.length (.read n)) ++ [.done, .failed], r2) := by
  obtain ⟨r, h1, h2⟩ := cursor_calls hr
  obtain ⟨r1, h3⟩ := h2 (List.replicate ds.length (.read n) ++ [.read n])
  obtain ⟨r2, h4⟩ := h2 (List.replicate ds.length (.read n) ++ [.seek (ds.length - 1), .read n])
  have hpos : 0 < ds.length := List.length_pos_iff.2 hr.frames
  have ha : after rnd h n ds ⟨0, false, true⟩ (List.replicate ds.length (.read n)) =
      ⟨ds.length - 1, true, false⟩ := by
    have := after_reads (rnd := rnd) (h := h) (n := n) hr.frames (ds.length - 1) 0 true (by omega)
    rwa [Nat.sub_add_cancel hpos] at this
  refine ⟨r, r1, r2, h1, ?_, ?_⟩
  · rw [h3, answers_append, ha]
    simp [answers, answer]
  · rw [h4, answers_append, ha]
    simp [answers, answer]

/-- Reading from a reader that was never loaded indexes an empty vector when the target is empty, and so does
reading from a closed reader when the target has the size of the stream read before. -/
theorem read_without_load (fs : Files) (r : Reader S) :
    (Reader.new : Reader S).read C fs 0 = .error .oob ∧ r.close.read C fs r.bodyCount = .error .oob := by
  constructor <;> simp [Reader.read, Reader.new, Reader.close]

/-! ### Colours and masses are delivered once -/

/-- One `read` after another, the files changing in between (a simulation still writing, say). -/
def readsOver (C : Type) [Raw C] (n : ℕ) : List Files → Reader S → Res (List (Option (ReadOut S C)) × Reader S)
  | [], r => .ok ([], r)
  | fs :: fss, r => do
    let a ← r.read C fs n
    let b ← readsOver C n fss a.2
    pure (a.1 :: b.1, b.2)

lemma seek_keeps (fs : Files) (r : Reader S) (k : ℕ) : (r.seek fs k).2.base = r.base ∧
    (r.seek fs k).2.massesRead = r.massesRead ∧ (r.seek fs k).2.colorsRead = r.colorsRead := by
  unfold Reader.seek
  by_cases h : k = r.current
  · rw [if_pos h]; exact ⟨rfl, rfl, rfl⟩
  · rw [if_neg h]
    dsimp only
    split
    · exact ⟨rfl, rfl, rfl⟩
    · split
      · exact ⟨rfl, rfl, rfl⟩
      · split
        · exact ⟨rfl, rfl, rfl⟩
        · exact ⟨rfl, rfl, rfl⟩

lemma advance_keeps (fs : Files) (r : Reader S) : (r.advance fs).base = r.base ∧
    (r.advance fs).massesRead = r.massesRead ∧ (r.advance fs).colorsRead = r.colorsRead := by
  unfold Reader.advance
  split
  · exact seek_keeps fs r _
  · exact ⟨rfl, rfl, rfl⟩

/-- What one `read` does to the flags and what it delivers. -/
lemma read_once {fs : Files} {r r' : Reader S} {o : Option (ReadOut S C)} (h : r.read C fs n = .ok (o, r')) :
    r'.base = r.base ∧
    match o with
    | none => r'.massesRead = r.massesRead ∧ r'.colorsRead = r.colorsRead
    | some o => o.mass = (if r.massesRead then none else readArray fs (massName r.base) n) ∧
        o.color = (if r.colorsRead then none else readArray fs (colName r.base) n) ∧
        r'.massesRead = (r.massesRead || o.mass.isSome) ∧ r'.colorsRead = (r.colorsRead || o.color.isSome) := by
  unfold Reader.read at h
  split at h
  · cases h; exact ⟨rfl, rfl, rfl⟩
  · split at h
    · cases h
    · split at h
      · cases h; exact ⟨rfl, rfl, rfl⟩
      · dsimp only at h
        split at h
        · cases h; exact ⟨rfl, rfl, rfl⟩
        · split at h
          · cases h; exact ⟨rfl, rfl, rfl⟩
          · cases h
            obtain ⟨h1, h2, h3⟩ := advance_keeps fs
              { r with file := some (‹FName›, ‹ℕ› + 3 * Raw.size S * n + 3 * Raw.size S * n) }
            simp only [Reader.readOnce, h1, h2, h3]
            exact ⟨trivial, trivial, trivial, trivial, trivial⟩

/-- Masses are delivered by the first successful `read` that finds a complete mass file, and by no later one;
an incomplete or missing file only puts the delivery off.  The same for colours. -/
theorem once_delivered (n : ℕ) (r r' : Reader S) (hm : r.massesRead = false) (hc : r.colorsRead = false)
    (fss : List Files) (outs : List (Option (ReadOut S C))) (h : readsOver C n fss r = .ok (outs, r'))
    (i : ℕ) (fs : Files) (o : ReadOut S C) (hfs : fss[i]? = some fs) (ho : outs[i]? = some (some o)) :
    ((∃ j p, j < i ∧ outs[j]? = some (some p) ∧ p.mass.isSome) → o.mass = none) ∧
    ((∀ j p, j < i → outs[j]? = some (some p) → p.mass = none) → o.mass = readArray fs (massName r.base) n) ∧
    ((∃ j p, j < i ∧ outs[j]? = some (some p) ∧ p.color.isSome) → o.color = none) ∧
    ((∀ j p, j < i → outs[j]? = some (some p) → p.color = none) → o.color = readArray fs (colName r.base) n) := by
  -- with flags `a`, `b` for what was delivered before
  have key : ∀ (fss : List Files) (r r' : Reader S) (outs : List (Option (ReadOut S C))) (i : ℕ),
      readsOver C n fss r = .ok (outs, r') → fss[i]? = some fs → outs[i]? = some (some o) →
      ((r.massesRead = true ∨ ∃ j p, j < i ∧ outs[j]? = some (some p) ∧ p.mass.isSome) → o.mass = none) ∧
      (r.massesRead = false → (∀ j p, j < i → outs[j]? = some (some p) → p.mass = none) →
        o.mass = readArray fs (massName r.base) n) ∧
      ((r.colorsRead = true ∨ ∃ j p, j < i ∧ outs[j]? = some (some p) ∧ p.color.isSome) → o.color = none) ∧
      (r.colorsRead = false → (∀ j p, j < i → outs[j]? = some (some p) → p.color = none) →
        o.color = readArray fs (colName r.base) n) := by
    intro fss
    induction fss with
    | nil => intro r r' outs i _ hfs; simp at hfs
    | cons f fss ih =>
      intro r r' outs i h hfs ho
      simp only [readsOver] at h
      cases ha : r.read C f n with
      | error e => rw [ha] at h; cases h
      | ok a =>
        rw [ha] at h
        change (readsOver C n fss a.2 >>= fun b => pure (a.1 :: b.1, b.2)) = _ at h
        cases hb : readsOver C n fss a.2 with
        | error e => rw [hb] at h; cases h
        | ok b =>
          rw [hb] at h
          cases h
          obtain ⟨a1, a2⟩ := a
          obtain ⟨hbase, hone⟩ := read_once ha
          cases i with
          | zero =>
            simp only [List.getElem?_cons_zero, Option.some.injEq] at hfs ho
            subst hfs; subst ho
            obtain ⟨q1, q2, _, _⟩ := hone
            refine ⟨?_, fun h0 _ => by rw [q1, h0]; rfl, ?_, fun h0 _ => by rw [q2, h0]; rfl⟩
            · rintro (h0 | ⟨j, p, hj, _⟩)
              · rw [q1, h0]; rfl
              · omega
            · rintro (h0 | ⟨j, p, hj, _⟩)
              · rw [q2, h0]; rfl
              · omega
          | succ i =>
            simp only [List.getElem?_cons_succ] at hfs ho
            obtain ⟨k1, k2, k3, k4⟩ := ih a2 _ b.1 i hb hfs ho
            have e1 : a2.massesRead = (r.massesRead || a1.any (fun p => p.mass.isSome)) := by
              cases a1 with
              | none => simpa using hone.1
              | some p => exact hone.2.2.1
            have e2 : a2.colorsRead = (r.colorsRead || a1.any (fun p => p.color.isSome)) := by
              cases a1 with
              | none => simpa using hone.2
              | some p => exact hone.2.2.2
            refine ⟨?_, ?_, ?_, ?_⟩
            · rintro (h0 | ⟨j, p, hj, hp, hs⟩)
              · exact k1 (Or.inl (by rw [e1, h0, Bool.true_or]))
              · cases j with
                | zero =>
                  simp only [List.getElem?_cons_zero, Option.some.injEq] at hp
                  subst hp
                  exact k1 (Or.inl (by rw [e1]; simp [hs]))
                | succ j => exact k1 (Or.inr ⟨j, p, by omega, by simpa using hp, hs⟩)
            · intro h0 hall
              rw [← hbase]
              refine k2 ?_ fun j p hj hp => hall (j + 1) p (by omega) (by simpa using hp)
              rw [e1, h0]
              cases a1 with
              | none => rfl
              | some p => simp [hall 0 p (by omega) (by simp)]
            · rintro (h0 | ⟨j, p, hj, hp, hs⟩)
              · exact k3 (Or.inl (by rw [e2, h0, Bool.true_or]))
              · cases j with
                | zero =>
                  simp only [List.getElem?_cons_zero, Option.some.injEq] at hp
                  subst hp
                  exact k3 (Or.inl (by rw [e2]; simp [hs]))
                | succ j => exact k3 (Or.inr ⟨j, p, by omega, by simpa using hp, hs⟩)
            · intro h0 hall
              rw [← hbase]
              refine k4 ?_ fun j p hj hp => hall (j + 1) p (by omega) (by simpa using hp)
              rw [e2, h0]
              cases a1 with
              | none => rfl
              | some p => simp [hall 0 p (by omega) (by simp)]
  obtain ⟨k1, k2, k3, k4⟩ := key fss r r' outs i h hfs ho
  exact ⟨fun h => k1 (Or.inr h), k2 hm, fun h => k3 (Or.inr h), k4 hc⟩

omit [Raw S] in
lemma headerLine_keeps (r : Reader S) (l : List Char) : (r.headerLine l).massesRead = r.massesRead ∧
    (r.headerLine l).colorsRead = r.colorsRead := by
  unfold Reader.headerLine
  split
  · split
    · split_ifs <;> exact ⟨rfl, rfl⟩
    · exact ⟨rfl, rfl⟩
  · exact ⟨rfl, rfl⟩

omit [Raw S] in
lemma loadLines_keeps (T : TextOps S) (ls : List (List Char)) (r : Reader S) :
    (Reader.loadLines T ls r).2.massesRead = r.massesRead ∧
    (Reader.loadLines T ls r).2.colorsRead = r.colorsRead := by
  induction ls generalizing r with
  | nil => exact ⟨rfl, rfl⟩
  | cons l ls ih =>
    rw [Reader.loadLines]
    split
    · have := headerLine_keeps r l
      rw [← this.1, ← this.2]; exact ih _
    · split
      · exact ⟨rfl, rfl⟩
      · exact ih _

/-- A reader that has loaded a stream for the first time, successfully or not, meets the hypotheses of
`once_delivered`. -/
theorem loaded_fresh (T : TextOps S) (fs : Files) (base : FName) :
    ((Reader.new : Reader S).load T fs base).2.massesRead = false ∧
    ((Reader.new : Reader S).load T fs base).2.colorsRead = false := by
  unfold Reader.load
  dsimp only
  split
  · exact ⟨rfl, rfl⟩
  · have := loadLines_keeps T (textLines ‹_›) (Reader.new : Reader S).close
    split_ifs
    · exact this
    · exact this
    · exact this
    · obtain ⟨_, h2, h3⟩ := seek_keeps fs
        { (Reader.loadLines T (textLines ‹_›) (Reader.new : Reader S).close).2 with base := base } 0
      rw [h2, h3]; exact this

end

/-! ### Concrete cases -/

open StreamExample

/-- A stream of three frames in parts of at most 100 bytes, read in an arbitrary way. -/
example : let o := Writer.new.open ['s'] 100 none ⟨fun _ => none, fun _ => none⟩
    ∃ w' fs' r r', o.2.writeAll text [snap 0 0 11, snap 5 50 12, snap 10 100 13]
        (applyOps o.1 ⟨fun _ => none, fun _ => none⟩) = some (w', fs') ∧
      Reader.new.load text fs' ['s'] = (true, r) ∧
      readerCalls (C := UInt8) fs' [.read 2, .seek 2, .read 2, .seek 7, .seek 2, .read 2, .seek 0, .read 2] r =
        .ok ([.data (content id (snap 0 0 11) (snap 0 0 11) true), .done,
          .data (content id (snap 0 0 11) (snap 10 100 13) false), .failed, .done, .failed, .done,
          .data (content id (snap 0 0 11) (snap 0 0 11) false)], r') := by
  intro o
  obtain ⟨w', fs', locs, h1, h2⟩ := written_readable text_good ['s'] 100 ⟨fun _ => none, fun _ => none⟩
    (snap 0 0 11) [snap 5 50 12, snap 10 100 13] (n := 2) (by decide) (by decide) (by decide)
    (fun x hx => by
      simp only [List.mem_cons, List.not_mem_nil, or_false] at hx
      rcases hx with rfl | rfl | rfl <;> exact snap_fits _ _ _ (by decide))
    (box_good 0 0 11) ⟨by decide, by decide⟩
  obtain ⟨r, r', h3, h4⟩ := calls_answered h2
    [.read 2, .seek 2, .read 2, .seek 7, .seek 2, .read 2, .seek 0, .read 2]
  exact ⟨w', fs', r, r', h1, h3, h4⟩

/-- The mass file is missing at the first read of a stream of one body, incomplete at the second and complete
at the third and fourth: the third read delivers the masses. -/
example :
    let fs (m : Option (List UInt8)) : Files := ⟨fun _ => none, fun k => if k = massName ['s'] then m else
      if k = datName ['s'] 0 then some (List.replicate 96 0) else none⟩
    let fr (k : ℕ) : Item UInt8 := ⟨k, 0, 0, 6 * k⟩
    let r : Reader UInt8 := ⟨[fr 0, fr 1, fr 2, fr 3], ['s'], some (datName ['s'] 0, 0), sizeMax, 0, 1, 1, 1, false, false⟩
    (readsOver UInt8 1 [fs none, fs (some []), fs (some [7]), fs (some [7])] r).map
        (fun q => q.1.map (fun o => o.map (·.mass))) =
      .ok [some none, some none, some (some [7]), some none] := by
  decide +kernel

end NB.C41
