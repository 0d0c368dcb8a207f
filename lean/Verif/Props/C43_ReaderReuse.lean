import Verif.Props.C41_StreamReader
import Verif.Props.C42_WriterReuse

/-
C43: using a stream reader for a second stream.
-/

namespace NB.C43

open StreamSpec C41

section
variable {S C : Type} [Raw S] [Raw C]

/-- An answer without colours and masses. -/
def plain : Answer S C → Answer S C
  | .data o => .data { o with color := none, mass := none }
  | a => a

/-- Readers that differ at most in the flags for colours and masses. -/
def Alike (r q : Reader S) : Prop := ∃ c m, q = { r with colorsRead := c, massesRead := m }

lemma alike_seek {r q : Reader S} (h : Alike r q) (fs : Files) (k : ℕ) :
    (q.seek fs k).1 = (r.seek fs k).1 ∧ Alike (r.seek fs k).2 (q.seek fs k).2 := by
  obtain ⟨c, m, rfl⟩ := h
  unfold Reader.seek
  simp only
  split
  · exact ⟨rfl, c, m, rfl⟩
  · split
    · exact ⟨rfl, c, m, rfl⟩
    · split
      · exact ⟨rfl, c, m, rfl⟩
      · split
        · exact ⟨rfl, c, m, rfl⟩
        · exact ⟨rfl, c, m, rfl⟩

lemma alike_advance {r q : Reader S} (h : Alike r q) (fs : Files) : Alike (r.advance fs) (q.advance fs) := by
  have h' := h
  obtain ⟨c, m, e⟩ := h
  unfold Reader.advance
  have e1 : q.current = r.current := by rw [e]
  have e2 : q.frames = r.frames := by rw [e]
  rw [e1, e2]
  split
  · exact (alike_seek h' fs _).2
  · exact h'

lemma alike_readOnce (C : Type) [Raw C] {r q : Reader S} (h : Alike r q) (fs : Files) (n : ℕ) :
    Alike (r.readOnce C fs n).2.2 (q.readOnce C fs n).2.2 := by
  obtain ⟨c, m, rfl⟩ := h
  exact ⟨_, _, rfl⟩

lemma alike_call {r q : Reader S} (h : Alike r q) (fs : Files) (cl : Call) {a : Answer S C} {r' : Reader S}
    (hr : readerCall (C := C) fs r cl = .ok (a, r')) :
    ∃ a' q', readerCall (C := C) fs q cl = .ok (a', q') ∧ plain a' = plain a ∧ Alike r' q' := by
  cases cl with
  | seek k =>
    simp only [readerCall, Except.ok.injEq, Prod.mk.injEq] at hr ⊢
    obtain ⟨h1, h2⟩ := alike_seek h fs k
    refine ⟨_, _, ⟨rfl, rfl⟩, ?_, ?_⟩
    · rw [← hr.1, h1]
    · rw [← hr.2]; exact h2
  | read n =>
    obtain ⟨c, m, rfl⟩ := h
    simp only [readerCall, Reader.read] at hr ⊢
    split_ifs at hr ⊢ with hn
    · simp only [Except.ok.injEq, Prod.mk.injEq] at hr
      obtain ⟨rfl, rfl⟩ := hr
      exact ⟨_, _, rfl, rfl, c, m, rfl⟩
    · cases hfr : r.frames[r.current]? with
      | none => rw [hfr] at hr; simp only at hr; cases hr
      | some fr =>
        rw [hfr] at hr
        simp only at hr ⊢
        cases hfile : r.file with
        | none =>
          rw [hfile] at hr
          simp only [Except.ok.injEq, Prod.mk.injEq] at hr ⊢
          obtain ⟨rfl, rfl⟩ := hr
          exact ⟨_, _, ⟨rfl, rfl⟩, rfl, c, m, by rw [hfile]⟩
        | some p =>
          obtain ⟨name, pos⟩ := p
          rw [hfile] at hr
          simp only at hr ⊢
          by_cases h1 : (fileRead fs name pos (3 * Raw.size S * n)).length ≠ 3 * Raw.size S * n
          · rw [if_pos h1] at hr ⊢
            simp only [Except.ok.injEq, Prod.mk.injEq] at hr ⊢
            obtain ⟨rfl, rfl⟩ := hr
            exact ⟨_, _, ⟨rfl, rfl⟩, rfl, c, m, rfl⟩
          · rw [if_neg h1] at hr ⊢
            by_cases h2 : (fileRead fs name (pos + 3 * Raw.size S * n) (3 * Raw.size S * n)).length ≠
                3 * Raw.size S * n
            · rw [if_pos h2] at hr ⊢
              simp only [Except.ok.injEq, Prod.mk.injEq] at hr ⊢
              obtain ⟨rfl, rfl⟩ := hr
              exact ⟨_, _, ⟨rfl, rfl⟩, rfl, c, m, rfl⟩
            · rw [if_neg h2] at hr ⊢
              simp only [Except.ok.injEq, Prod.mk.injEq] at hr ⊢
              obtain ⟨rfl, rfl⟩ := hr
              exact ⟨_, _, ⟨rfl, rfl⟩, rfl, alike_readOnce C (alike_advance ⟨c, m, rfl⟩ fs) fs n⟩

lemma alike_calls (fs : Files) (qs : List Call) : ∀ {r q : Reader S} {as : List (Answer S C)} {r' : Reader S},
    Alike r q → readerCalls (C := C) fs qs r = .ok (as, r') →
    ∃ as' q', readerCalls (C := C) fs qs q = .ok (as', q') ∧ as'.map plain = as.map plain := by
  induction qs with
  | nil =>
    intro r q as r' h hr
    simp only [readerCalls, Except.ok.injEq, Prod.mk.injEq] at hr
    obtain ⟨rfl, rfl⟩ := hr
    exact ⟨[], q, rfl, rfl⟩
  | cons cl qs ih =>
    intro r q as r' h hr
    rw [readerCalls] at hr
    cases h1 : readerCall (C := C) fs r cl with
    | error e => rw [h1] at hr; cases hr
    | ok p =>
      obtain ⟨a, r1⟩ := p
      rw [h1] at hr
      simp only at hr
      cases h2 : readerCalls (C := C) fs qs r1 with
      | error e => rw [h2] at hr; cases hr
      | ok p =>
        obtain ⟨as1, r2⟩ := p
        rw [h2] at hr
        simp only [Except.ok.injEq, Prod.mk.injEq] at hr
        obtain ⟨rfl, rfl⟩ := hr
        obtain ⟨a', q1, e1, e2, e3⟩ := alike_call h fs cl h1
        obtain ⟨as', q2, e4, e5⟩ := ih e3 h2
        refine ⟨a' :: as', q2, ?_, ?_⟩
        · rw [readerCalls, e1]; simp only [e4]
        · simp [e2, e5]

variable {T : TextOps S} {rnd : S → S} {fs : Files}

/-- What holds of the claim: whatever a reader was used for before, it loads a stream that has its header,
and every sequence of calls is answered as by a new reader up to colours and masses. -/
theorem reused_reader_partial {base : FName} {h : Snap S C} {n b : ℕ} {ds : List (Snap S C)}
    {locs : List (ℕ × ℕ)} (hr : Readable T rnd fs base h n b ds locs) (r : Reader S) :
    ∃ r1, r.load T fs base = (true, r1) ∧ r1.frameCount = ds.length ∧ r1.bodyCount = n ∧ r1.boxSize = b ∧
      ∀ qs, ∃ as r', readerCalls (C := C) fs qs r1 = .ok (as, r') ∧
        as.map plain = (answers rnd h n ds ⟨0, false, true⟩ qs).map plain := by
  -- the same reader with both flags down
  obtain ⟨r0, h1, h2, h3, _⟩ := load_at hr.text hr.holds hr.box hr.fits hr.head hr.pos hr.bound hr.size hr.frames
    ({ r with colorsRead := false, massesRead := false } : Reader S) true rfl rfl
  have hcount : h.count ≤ sizeMax := by rw [hr.head.count]; exact hr.bound
  have hpos : 0 < h.count := by rw [hr.head.count]; exact hr.pos
  have e1 := load_eq hr.text hr.holds hr.box hcount hpos hr.size (fun d hd => (hr.fits d hd).step) r
  have e0 := load_eq hr.text hr.holds hr.box hcount hpos hr.size (fun d hd => (hr.fits d hd).step)
    ({ r with colorsRead := false, massesRead := false } : Reader S)
  have hal : Alike (loadedReader ({ r with colorsRead := false, massesRead := false } : Reader S) rnd base
      h.count b ds locs) (loadedReader r rnd base h.count b ds locs) := ⟨_, _, rfl⟩
  obtain ⟨a1, a2⟩ := alike_seek hal fs 0
  rw [← e0, ← e1, h1] at a1 a2
  refine ⟨(r.load T fs base).2, Prod.ext a1 rfl, ?_, ?_, ?_, fun qs => ?_⟩
  · obtain ⟨c, m, e⟩ := a2
    rw [e]
    simp only [Reader.frameCount, h2.frames]
    exact zipWith_length hr.holds
  · obtain ⟨c, m, e⟩ := a2
    rw [e]; exact h2.count
  · obtain ⟨c, m, e⟩ := a2
    rw [e]; exact h3
  · obtain ⟨r', h4⟩ := at_calls (C := C) hr.holds hr.fits hr.head hr.pos hr.last qs h2
    obtain ⟨as, q', h5, h6⟩ := alike_calls fs qs a2 h4
    exact ⟨as, q', h5, h6⟩

lemma answers_reads_plain (rnd : S → S) (h : Snap S C) (n : ℕ) (ds : List (Snap S C)) :
    answers rnd h n ds ⟨0, false, false⟩ (List.replicate ds.length (.read n)) =
      ds.map (fun d => Answer.data (content rnd h d false)) := by
  rw [C37.answers_reads rnd h n ds ds.length 0 false (by omega), List.drop_zero, List.mapIdx_eq_zipIdx_map]
  apply List.ext_getElem
  · simp
  · intro i h1 h2
    simp

/-- Negation of the full claim, first form: a reader that has read a frame of one stream loads another, but
never delivers the colours and masses of that other stream. -/
theorem second_stream_without_masses {base base' : FName} {h h' : Snap S C} {n n' b b' : ℕ}
    {ds ds' : List (Snap S C)} {locs locs' : List (ℕ × ℕ)} (hr : Readable T rnd fs base h n b ds locs)
    (hr' : Readable T rnd fs base' h' n' b' ds' locs') :
    ∃ r1 a r2 r3 r4, Reader.new.load T fs base = (true, r1) ∧
      readerCalls (C := C) fs [.read n] r1 = .ok ([a], r2) ∧ r2.load T fs base' = (true, r3) ∧
      readerCalls (C := C) fs (List.replicate ds'.length (.read n')) r3 =
        .ok (ds'.map (fun d => Answer.data (content rnd h' d false)), r4) := by
  obtain ⟨r1, h1, h2, _, _⟩ := load_at hr.text hr.holds hr.box hr.fits hr.head hr.pos hr.bound hr.size hr.frames
    Reader.new true rfl rfl
  obtain ⟨r2, h3, h4⟩ := at_read hr.holds hr.fits hr.head hr.pos (by intro hh; cases hh) h2 n
  have hlt : 0 < ds.length := List.length_pos_iff.2 hr.frames
  have e : (answer rnd h n ds ⟨0, false, true⟩ (.read n)).2.first = false := by
    unfold answer
    simp only [ne_eq, not_true_eq_false, if_false, Bool.false_eq_true, List.getElem?_eq_getElem hlt]
    split <;> rfl
  obtain ⟨r3, h5, h6, _, _⟩ := load_at hr'.text hr'.holds hr'.box hr'.fits hr'.head hr'.pos hr'.bound hr'.size
    hr'.frames r2 false (by rw [h4.colors, e]) (by rw [h4.masses, e])
  obtain ⟨r4, h7⟩ := at_calls (C := C) hr'.holds hr'.fits hr'.head hr'.pos hr'.last
    (List.replicate ds'.length (.read n')) h6
  refine ⟨r1, (answer rnd h n ds ⟨0, false, true⟩ (.read n)).1, r2, r3, r4, h1, ?_, h5, ?_⟩
  · rw [readerCalls, h3]; rfl
  · rw [h7, answers_reads_plain]

/-- Negation of the full claim, second form: a stream without header, such as a reused writer leaves, is
rejected by every new reader, but accepted by a reader that has loaded another stream before, with the body
count and the box size of that other stream. -/
theorem headerless_stream_accepted (hT : TextGood T rnd) {base' : FName} {ds' : List (Snap S C)}
    {locs' : List (ℕ × ℕ)} (hne : ds' ≠ []) (hs : ∀ d ∈ ds', d.step ≤ sizeMax)
    (hlen : locs'.length = ds'.length) (hloc : ∀ l ∈ locs', LocOk l)
    (hidx : fs.txt (idxName base') = some (entries T ds' locs'))
    (hframe : ∀ (k : ℕ) (d : Snap S C) (l : ℕ × ℕ), ds'[k]? = some d → locs'[k]? = some l → FrameAt fs base' d l)
    {base : FName} {h : Snap S C} {n b : ℕ} {ds : List (Snap S C)} {locs : List (ℕ × ℕ)}
    (hr : Readable T rnd fs base h n b ds locs) :
    (∃ q, (Reader.new : Reader S).load T fs base' = (false, q)) ∧
    ∃ r1 r2, Reader.new.load T fs base = (true, r1) ∧ r1.load T fs base' = (true, r2) ∧
      r2.frameCount = ds'.length ∧ r2.bodyCount = n ∧ r2.boxSize = b := by
  constructor
  · have : C42.Bare fs base' := ⟨List.zipWith (entry T) ds' locs', by rw [hidx, entries_eq], fun l hl => by
      refine ⟨zipWith_noBreak hT ds' locs' l hl, ?_⟩
      rw [← List.map_uncurry_zip_eq_zipWith] at hl
      obtain ⟨⟨d, q⟩, _, rfl⟩ := List.mem_map.1 hl
      exact entry_head _ _ _⟩
    exact ⟨((Reader.new : Reader S).load T fs base').2, Prod.ext (C42.bare_load this Reader.new rfl) rfl⟩
  · obtain ⟨r1, h1, h2, h3, h3'⟩ := load_at hr.text hr.holds hr.box hr.fits hr.head hr.pos hr.bound hr.size
      hr.frames Reader.new true rfl rfl
    have e : textLines (entries T ds' locs') = List.zipWith (entry T) ds' locs' := by
      have := textLines_unlines (List.zipWith (entry T) ds' locs') [] (zipWith_noBreak hT ds' locs') (by simp)
      simpa [entries_eq] using this
    have hl : Reader.loadLines T (textLines (entries T ds' locs')) r1.close =
        (true, { r1.close with frames := List.zipWith (itemOf rnd) ds' locs' }) := by
      rw [e, C37.loadLines_entries_keep hT ds' locs' _ hs hloc]
      rfl
    have hload := load_of hidx hl (by
      have := Raw.size_pos (S := S)
      have := hr.box.pos
      have := hr.pos
      simp only [Reader.close, h3, h3', h2.count]
      omega) (by simp only [Reader.close, h3'])
    have hlt : 0 < ds'.length := List.length_pos_iff.2 hne
    have hlt' : 0 < locs'.length := by omega
    obtain ⟨pre, post, f1, _⟩ := hframe 0 ds'[0] locs'[0] (List.getElem?_eq_getElem hlt) (List.getElem?_eq_getElem hlt')
    have hz : (List.zipWith (itemOf rnd) ds' locs')[0]? = some (itemOf rnd ds'[0] locs'[0]) := by
      rw [List.getElem?_zipWith, List.getElem?_eq_getElem hlt, List.getElem?_eq_getElem hlt']
    have hok : ¬ ((locs'[0].2 : ℤ) < 0) := by omega
    have hseek : (r1.load T fs base') = (true, { r1.close with
        frames := List.zipWith (itemOf rnd) ds' locs', base := base',
        file := some (datName base' locs'[0].1, locs'[0].2), current := 0 }) := by
      rw [hload]
      unfold Reader.seek
      rw [if_neg (by simp only [Reader.close]; decide)]
      simp only [hz, Reader.close]
      simp only [itemOf, f1]
      simp [hok]
    exact ⟨r1, _, h1, hseek, by simp [Reader.frameCount, hlen], h2.count, h3⟩

end

/-! ### Concrete cases -/

open StreamExample

/-- A stream of the example snapshots is readable. -/
example : ∃ w' fs' locs, (Writer.new.open ['s'] 100 none ⟨fun _ => none, fun _ => none⟩).2.writeAll text
    [snap 0 0 1, snap 5 50 2] (applyOps (Writer.new.open ['s'] 100 none ⟨fun _ => none, fun _ => none⟩).1
      ⟨fun _ => none, fun _ => none⟩) = some (w', fs') ∧
    Readable text id fs' ['s'] (snap 0 0 1) 2 100 [snap 0 0 1, snap 5 50 2] locs :=
  written_readable text_good ['s'] 100 _ _ _ (by decide) (by decide) (by decide)
    (fun x hx => by
      simp only [List.mem_cons, List.not_mem_nil, or_false] at hx
      rcases hx with rfl | rfl <;> exact snap_fits _ _ _ (by decide))
    (box_good 0 0 1) ⟨by decide, by decide⟩

end NB.C43
