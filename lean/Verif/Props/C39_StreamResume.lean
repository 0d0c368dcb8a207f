import Verif.Props.C41_StreamReader

/-
C39: resuming a stream appends to it.
-/

namespace NB.C39

open StreamSpec C41

section
variable {S C : Type} [Raw S] [Raw C]

/-- A stream as sessions leave it. -/
structure Stored (T : TextOps S) (rnd : S → S) (fs : Files) (base : FName) (h : Snap S C) (n b : ℕ)
    (ds : List (Snap S C)) (locs : List (ℕ × ℕ)) (p : ℕ) : Prop where
  readable : Readable T rnd fs base h n b ds locs
  below : ∀ l ∈ locs, l.1 ≤ p
  lastPart : ∀ l, locs.getLast? = some l → l.1 = p
  small : p ≤ ds.length
  part : ∃ b, fs.bin (datName base p) = some b ∧ b.length ≤ ds.length * frameSize S n

/-- Nothing that was in the files of the stream is changed: the index and the parts only grow, colours,
masses and all other files stay. -/
structure Kept (fs fs' : Files) (base : FName) (locs : List (ℕ × ℕ)) : Prop where
  idx : ∃ q, fs'.txt (idxName base) = (fs.txt (idxName base)).map (· ++ q)
  parts : ∀ l ∈ locs, ∃ q, fs'.bin (datName base l.1) = (fs.bin (datName base l.1)).map (· ++ q)
  col : fs'.bin (colName base) = fs.bin (colName base)
  mass : fs'.bin (massName base) = fs.bin (massName base)
  otherTxt : ∀ k, k ≠ idxName base → fs'.txt k = fs.txt k
  otherBin : ∀ k, (∀ j, k ≠ datName base j) → fs'.bin k = fs.bin k

variable {T : TextOps S} {rnd : S → S} {fs : Files} {base : FName} {h : Snap S C} {n b p : ℕ}
  {ds : List (Snap S C)} {locs : List (ℕ × ℕ)}

lemma entries_append (T : TextOps S) (as bs : List (Snap S C)) (xs ys : List (ℕ × ℕ))
    (hl : as.length = xs.length) :
    entries T (as ++ bs) (xs ++ ys) = entries T as xs ++ entries T bs ys := by
  unfold entries
  rw [List.zipWith_append hl, List.flatMap_append]

lemma stored_of_session {w : Writer} {m : ℕ} (hT : TextGood T rnd)
    (hs : Session T w fs base h ds locs) (hl : LastAtEnd fs base ds locs)
    (hu : Used w fs base m (frameSize S n)) (hm : m = ds.length) (hb : BoxGood h.box b)
    (hf : ∀ d ∈ ds, Fits n d) (hh : Fits n h) (h1 : 0 < n) (h2 : n ≤ sizeMax) (h3 : Raw.size S ≤ sizeMax)
    (hne : ds ≠ []) : Stored T rnd fs base h n b ds locs w.fileN := by
  subst hm
  obtain ⟨x, hx, _⟩ := hs.sync.data
  exact ⟨⟨hT, hs.holds, hl, hb, hf, hh, h1, h2, h3, hne⟩, hs.below, hs.lastPart, hu.1, x, hx, hu.2 x hx⟩

/-- Resuming a stored stream with any part size succeeds, appends the new frames and keeps everything else. -/
theorem resume_appends (hs : Stored T rnd fs base h n b ds locs p) (maxPart : ℤ) (new : List (Snap S C))
    (hnew : ∀ d ∈ new, Fits n d) (hk : Addressable (ds.length + new.length) (frameSize S n)) :
    ∃ fs' locs' p', resumeSession T base maxPart new fs = some fs' ∧
      Stored T rnd fs' base h n b (ds ++ new) (locs ++ locs') p' ∧ Kept fs fs' base locs := by
  have hr := hs.readable
  obtain ⟨r, h1, h2, _⟩ := load_at hr.text hr.holds hr.box hr.fits hr.head hr.pos hr.bound hr.size hr.frames
    Reader.new true rfl rfl
  have hpos : 0 < ds.length := List.length_pos_iff.2 hr.frames
  have hlast : r.lastFileN = p := by
    obtain ⟨d', l', e1, e2, _, _, e5⟩ := holds_at (rnd := rnd) hr.holds (k := ds.length - 1) (by omega)
    unfold Reader.lastFileN
    rw [h2.frames, List.getLast?_eq_getElem?, zipWith_length hr.holds, e5]
    simp only [itemOf]
    exact hs.lastPart l' (by rw [List.getLast?_eq_getElem?, hr.holds.len, e2])
  unfold resumeSession
  rw [h1]
  simp only
  rw [hlast]
  obtain ⟨x, hx, hxl⟩ := hs.part
  set o := Writer.new.open base maxPart (some p) fs with ho
  have hbin : ∀ k, (applyOps o.1 fs).bin k = fs.bin k := by
    intro k
    simp only [ho, Writer.open, applyOps_cons, applyOps_nil, touchTxt_bin, touch_bin]
    split
    · rename_i e; rw [e, hx]; rfl
    · rfl
  have htxt : ∀ k, (applyOps o.1 fs).txt k = fs.txt k := by
    intro k
    simp only [ho, Writer.open, applyOps_cons, applyOps_nil, touchTxt_txt, touch_txt]
    split
    · rename_i e; rw [e, hr.holds.idx]; rfl
    · rfl
  have hsess : Session T o.2 (applyOps o.1 fs) base h ds locs := by
    refine ⟨⟨rfl, rfl, x, ?_, ?_⟩, rfl, ?_, hs.below, hs.lastPart⟩
    · rw [hbin]; exact hx
    · simp [ho, Writer.open, hx]
    · constructor
      · exact hr.holds.len
      · rw [htxt]; exact hr.holds.idx
      · intro k d l hd hl
        obtain ⟨pre, post, q1, q2⟩ := hr.holds.frame k d l hd hl
        exact ⟨pre, post, by rw [hbin]; exact q1, q2⟩
      · exact hr.holds.loc
      · rw [hbin]; exact hr.holds.col
      · rw [hbin]; exact hr.holds.mass
  have hused : Used o.2 (applyOps o.1 fs) base ds.length (frameSize S n) := by
    refine ⟨hs.small, fun b' hb' => ?_⟩
    rw [hbin, show o.2.fileN = p from rfl, hx] at hb'
    rw [← Option.some.inj hb']; exact hxl
  obtain ⟨w', fs', locs', q1, q2, q3, q4, q5, q6, q7, q8, q9, q10⟩ := session_writeAll T new hsess hused hk
    (fun d hd => frameBytes_length (hnew d hd))
  rw [q1]
  have hlast0 : LastAtEnd (applyOps o.1 fs) base ds locs := by
    intro d l hd hl
    obtain ⟨pre, e1, e2⟩ := hr.last d l hd hl
    exact ⟨pre, by rw [hbin]; exact e1, e2⟩
  refine ⟨fs', locs', w'.fileN, rfl, ?_, ?_⟩
  · refine stored_of_session hr.text q3 (q10 (.inl hlast0)) q9 (by simp) hr.box ?_ hr.head hr.pos hr.bound hr.size
      (by simp [hr.frames])
    intro d hd
    rcases List.mem_append.1 hd with hd | hd
    · exact hr.fits d hd
    · exact hnew d hd
  · constructor
    · refine ⟨entries T new locs', ?_⟩
      rw [q3.holds.idx, hr.holds.idx, entries_append T _ _ _ _ hr.holds.len.symm]
      simp
    · intro l hl
      have hle := hs.below l hl
      obtain ⟨k, hk'⟩ := List.getElem?_of_mem hl
      have hkl : k < locs.length := (List.getElem?_eq_some_iff.1 hk').1
      obtain ⟨d, hd⟩ : ∃ d, ds[k]? = some d :=
        ⟨ds[k]'(by rw [← hr.holds.len]; exact hkl), List.getElem?_eq_getElem _⟩
      obtain ⟨pre, post, e1, _⟩ := hr.holds.frame k d l hd hk'
      obtain ⟨q, hq⟩ := q6 l.1 hle _ (by rw [hbin]; exact e1)
      exact ⟨q, by rw [hq, e1]; rfl⟩
    · rw [q3.holds.col, hr.holds.col]
    · rw [q3.holds.mass, hr.holds.mass]
    · intro k hk'; rw [q7 k hk', htxt]
    · intro k hk'
      by_cases e1 : k = colName base
      · rw [e1, q3.holds.col, hr.holds.col]
      · by_cases e2 : k = massName base
        · rw [e2, q3.holds.mass, hr.holds.mass]
        · rw [q8 k hk' e1 e2, hbin]

/-- All frames of several sessions. -/
def allFrames (ss : List (ℤ × List (Snap S C))) : List (Snap S C) := ss.flatMap (·.2)

lemma resume_all (ss : List (ℤ × List (Snap S C))) :
    ∀ {fs : Files} {ds : List (Snap S C)} {locs : List (ℕ × ℕ)} {p : ℕ},
    Stored T rnd fs base h n b ds locs p → (∀ d ∈ allFrames ss, Fits n d) →
    Addressable (ds.length + (allFrames ss).length) (frameSize S n) →
    ∃ fs' locs' p', resumeSessions T base ss fs = some fs' ∧
      Stored T rnd fs' base h n b (ds ++ allFrames ss) locs' p' := by
  induction ss with
  | nil =>
    intro fs ds locs p hs _ _
    exact ⟨fs, locs, p, rfl, by simpa [allFrames] using hs⟩
  | cons s ss ih =>
    intro fs ds locs p hs hf hk
    obtain ⟨m, new⟩ := s
    have e : allFrames ((m, new) :: ss) = new ++ allFrames ss := by simp [allFrames]
    rw [e] at hf hk ⊢
    rw [List.length_append] at hk
    obtain ⟨fs1, l1, p1, h1, h2, _⟩ := resume_appends hs m new (fun d hd => hf d (by simp [hd]))
      (addressable_le hk (by omega))
    obtain ⟨fs', l', p', h3, h4⟩ := ih h2 (fun d hd => hf d (by simp [hd]))
      (by rw [List.length_append]; rw [Nat.add_assoc]; exact hk)
    refine ⟨fs', l', p', ?_, by simpa [List.append_assoc] using h4⟩
    rw [resumeSessions, h1]; exact h3

/-- A stream written in one session and resumed any number of times, with any part sizes, reads back as the
frames of all sessions in order. -/
theorem sessions_read_back (hT : TextGood T rnd) (base : FName) (maxPart : ℤ) (fs : Files) (d : Snap S C)
    (ds : List (Snap S C)) (ss : List (ℤ × List (Snap S C))) (hn : 0 < n) (hn' : n ≤ sizeMax)
    (hw : Raw.size S ≤ sizeMax) (hfit : ∀ x ∈ d :: ds, Fits n x) (hss : ∀ x ∈ allFrames ss, Fits n x)
    (hb : BoxGood d.box b) (hk : Addressable (ds.length + 1 + (allFrames ss).length) (frameSize S n)) :
    let o := Writer.new.open base maxPart none fs
    ∃ w1 fs1 fs' r r', o.2.writeAll T (d :: ds) (applyOps o.1 fs) = some (w1, fs1) ∧
      resumeSessions T base ss fs1 = some fs' ∧
      Reader.new.load T fs' base = (true, r) ∧ r.frameCount = (d :: ds ++ allFrames ss).length ∧
      readerCalls (C := C) fs' (List.replicate (d :: ds ++ allFrames ss).length (.read n)) r =
        .ok (readBack rnd d (d :: ds ++ allFrames ss), r') := by
  intro o
  obtain ⟨hf, _⟩ := open_fresh (w := Writer.new) rfl base maxPart fs
  obtain ⟨w1, fs1, locs, h1, h2, _, _, _, h5, h6⟩ := fresh_writeAll T d ds hf (addressable_le hk (by omega))
    (fun x hx => frameBytes_length (hfit x hx))
  have hst : Stored T rnd fs1 base d n b (d :: ds) locs w1.fileN :=
    stored_of_session hT h2 h6 h5 (by simp) hb hfit (hfit d (by simp)) hn hn' hw (by simp)
  obtain ⟨fs', l', p', h7, h8⟩ := resume_all ss hst hss hk
  have hr := h8.readable
  obtain ⟨r, h9, h10, _⟩ := load_at hr.text hr.holds hr.box hr.fits hr.head hr.pos hr.bound hr.size hr.frames
    Reader.new true rfl rfl
  obtain ⟨r', h11⟩ := at_calls (C := C) hr.holds hr.fits hr.head hr.pos hr.last
    (List.replicate (d :: ds ++ allFrames ss).length (.read n)) h10
  refine ⟨w1, fs1, fs', r, r', h1, h7, h9, ?_, ?_⟩
  · rw [Reader.frameCount, h10.frames, zipWith_length hr.holds]
  · rw [h11, C37.answers_readBack]

end

/-! ### Concrete case -/

open StreamExample

/-- Two frames, then a session with one frame and smaller parts, then one with none, then one with two. -/
example : let fs : Files := ⟨fun _ => none, fun _ => none⟩
    let o := Writer.new.open ['s'] 1000 none fs
    let ss : List (ℤ × List (Snap UInt64 UInt8)) :=
      [(50, [snap 6 60 3]), (0, []), (100, [snap 7 70 4, snap 8 80 5])]
    ∃ w1 fs1 fs' r r', o.2.writeAll text [snap 0 0 1, snap 5 50 2] (applyOps o.1 fs) = some (w1, fs1) ∧
      resumeSessions text ['s'] ss fs1 = some fs' ∧
      Reader.new.load text fs' ['s'] = (true, r) ∧ r.frameCount = 5 ∧
      readerCalls (C := UInt8) fs' (List.replicate 5 (.read 2)) r =
        .ok (readBack id (snap 0 0 1) [snap 0 0 1, snap 5 50 2, snap 6 60 3, snap 7 70 4, snap 8 80 5], r') := by
  intro fs o ss
  exact sessions_read_back text_good ['s'] 1000 fs (snap 0 0 1) [snap 5 50 2] ss (n := 2) (b := 100) (by decide)
    (by decide) (by decide)
    (fun x hx => by
      simp only [List.mem_cons, List.not_mem_nil, or_false] at hx
      rcases hx with rfl | rfl <;> exact snap_fits _ _ _ (by decide))
    (fun x hx => by
      simp only [ss, allFrames, List.flatMap_cons, List.flatMap_nil, List.mem_append, List.mem_cons,
        List.not_mem_nil, or_false, false_or] at hx
      rcases hx with rfl | rfl | rfl <;> exact snap_fits _ _ _ (by decide))
    (box_good 0 0 1) ⟨by decide, by decide⟩

end NB.C39
