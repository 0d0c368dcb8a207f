import Verif.Lemmas.StreamExample

/-
C37: a stream reads back as it was written.
-/

namespace NB.C37

open StreamSpec

section
variable {S C : Type} [Raw S] [Raw C]

lemma answers_reads (rnd : S → S) (h : Snap S C) (n : ℕ) (ds : List (Snap S C)) :
    ∀ (m k : ℕ) (f : Bool), k + m = ds.length →
      answers rnd h n ds ⟨k, false, f⟩ (List.replicate m (.read n)) =
        (ds.drop k).mapIdx (fun i d => Answer.data (content rnd h d (if i = 0 then f else false))) := by
  intro m
  induction m with
  | zero =>
    intro k f hk
    rw [List.drop_eq_nil_of_le (by omega)]
    rfl
  | succ m ih =>
    intro k f hk
    have hlt : k < ds.length := by omega
    rw [List.replicate_succ, answers, List.drop_eq_getElem_cons hlt, List.mapIdx_cons]
    have e : answer rnd h n ds ⟨k, false, f⟩ (.read n) = (.data (content rnd h ds[k] f),
        if k + 1 < ds.length then ⟨k + 1, false, false⟩ else ⟨k, true, false⟩) := by
      unfold answer
      simp [List.getElem?_eq_getElem hlt]
    rw [e]
    simp only [if_true]
    congr 1
    cases m with
    | zero => rw [List.drop_eq_nil_of_le (by omega)]; rfl
    | succ m =>
      rw [if_pos (by omega), ih (k + 1) false (by omega)]
      congr 1
      funext i d
      simp

lemma answers_readBack (rnd : S → S) (h : Snap S C) (n : ℕ) (ds : List (Snap S C)) :
    answers rnd h n ds ⟨0, false, true⟩ (List.replicate ds.length (.read n)) = readBack rnd h ds := by
  rw [answers_reads rnd h n ds ds.length 0 true (by omega), List.drop_zero]
  cases ds with
  | nil => rfl
  | cons d ds =>
    rw [List.mapIdx_cons, readBack, if_pos rfl]
    congr 1
    rw [List.mapIdx_eq_zipIdx_map]
    simp only [Nat.add_eq_zero_iff, one_ne_zero, and_false, if_false]
    apply List.ext_getElem
    · simp
    · intro i h1 h2
      simp

/-- A stream written by a new writer, over whatever files there were, loads and reads back: the same number
of frames in the same order, with identical positions, velocities and step numbers, with times as their text
says, for every maximum part size; colours and masses come with the first frame. -/
theorem round_trip {T : TextOps S} {rnd : S → S} (hT : TextGood T rnd) (base : FName) (maxPart : ℤ)
    (fs : Files) (d : Snap S C) (ds : List (Snap S C)) {n b : ℕ} (hn : 0 < n) (hn' : n ≤ sizeMax)
    (hw : Raw.size S ≤ sizeMax) (hfit : ∀ x ∈ d :: ds, Fits n x) (hb : BoxGood d.box b)
    (hk : Addressable (ds.length + 1) (frameSize S n)) :
    let o := Writer.new.open base maxPart none fs
    ∃ w' fs', o.2.writeAll T (d :: ds) (applyOps o.1 fs) = some (w', fs') ∧
      ∃ r, Reader.new.load T fs' base = (true, r) ∧ r.frameCount = (d :: ds).length ∧ r.bodyCount = n ∧
        r.boxSize = b ∧ r.stepsCount = ((d :: ds).getLast (by simp)).step ∧
        ∃ r', readerCalls (C := C) fs' (List.replicate (d :: ds).length (.read n)) r =
          .ok (readBack rnd d (d :: ds), r') := by
  intro o
  obtain ⟨hf, _⟩ := open_fresh (w := Writer.new) rfl base maxPart fs
  obtain ⟨w', fs', locs, h1, h2, _, _, _, _, h6⟩ := fresh_writeAll T d ds hf hk
    (fun x hx => frameBytes_length (hfit x hx))
  obtain ⟨r, h7, h8, h9, _⟩ := load_at hT h2.holds hb hfit (hfit d (by simp)) hn hn' hw (by simp) Reader.new true
    rfl rfl
  obtain ⟨r', h10⟩ := at_calls (C := C) h2.holds hfit (hfit d (by simp)) hn h6
    (List.replicate (d :: ds).length (.read n)) h8
  refine ⟨w', fs', h1, r, h7, ?_, h8.count, h9, ?_, r', ?_⟩
  · rw [Reader.frameCount, h8.frames, zipWith_length h2.holds]
  · have hlt : (d :: ds).length - 1 < (d :: ds).length := by simp
    obtain ⟨d', l', e1, _, _, _, e5⟩ := holds_at (rnd := rnd) h2.holds hlt
    unfold Reader.stepsCount
    rw [h8.frames, List.getLast?_eq_getElem?, zipWith_length h2.holds, e5]
    simp only [itemOf]
    have := List.getLast?_eq_some_getLast (l := d :: ds) (by simp)
    rw [List.getLast?_eq_getElem?, e1] at this
    rw [Option.some.inj this]
  · rw [h10, answers_readBack]

/-- A stream into which no frame was written cannot be loaded. -/
theorem no_frames_unloadable (T : TextOps S) (base : FName) (maxPart : ℤ) (fs : Files) (w : Writer) :
    let o := w.open base maxPart none fs
    ((Reader.new : Reader S).load T (applyOps o.1 fs) base).1 = false := by
  intro o
  have ht : (applyOps o.1 fs).txt (idxName base) = some [] := by
    simp [o, Writer.open, applyOps_cons, applyOps_nil]
  have hl : Reader.loadLines T (textLines []) (Reader.new : Reader S).close = (true, (Reader.new : Reader S).close) := by
    rfl
  rw [load_fails_header ht hl (Or.inl rfl)]

/-- The reader's fields of the header, as far as they matter for `load`. -/
lemma loadLines_entries_keep {T : TextOps S} {rnd : S → S} (hT : TextGood T rnd) (ds : List (Snap S C))
    (locs : List (ℕ × ℕ)) (r : Reader S) (hs : ∀ d ∈ ds, d.step ≤ sizeMax) (hl : ∀ l ∈ locs, LocOk l) :
    Reader.loadLines T (List.zipWith (entry T) ds locs) r =
      (true, { r with frames := r.frames ++ List.zipWith (itemOf rnd) ds locs }) := by
  have := loadLines_entries hT ds locs [] r hs hl
  rw [List.append_nil] at this
  rw [this]
  rfl

/-- A stream of data whose box size is 0, as it is for a new object until `make_universe` or `load_initial` is
called, is written without complaint but cannot be loaded. -/
theorem box_unloadable {T : TextOps S} {rnd : S → S} (hT : TextGood T rnd) (base : FName) (maxPart : ℤ)
    (fs : Files) (d : Snap S C) (ds : List (Snap S C)) {n : ℕ} (hn' : n ≤ sizeMax)
    (hw : Raw.size S ≤ sizeMax) (hfit : ∀ x ∈ d :: ds, Fits n x)
    (hbox : d.box = 0)
    (hk : Addressable (ds.length + 1) (frameSize S n)) :
    let o := Writer.new.open base maxPart none fs
    ∃ w' fs', o.2.writeAll T (d :: ds) (applyOps o.1 fs) = some (w', fs') ∧
      ((Reader.new : Reader S).load T fs' base).1 = false := by
  intro o
  obtain ⟨hf, _⟩ := open_fresh (w := Writer.new) rfl base maxPart fs
  obtain ⟨w', fs', locs, h1, h2, _, _, _, _, _⟩ := fresh_writeAll T d ds hf hk
    (fun x hx => frameBytes_length (hfit x hx))
  refine ⟨w', fs', h1, ?_⟩
  have e := textLines_index hT d (d :: ds) locs [] (by simp)
  rw [List.append_nil, if_pos rfl, List.append_nil] at e
  have hbl : ∀ r : Reader S,
      (r.headerLine (['#', 'b', 'o', 'x', '_', 's', 'i', 'z', 'e'] ++ ' ' :: Nat.toDigits 10 d.box)).boxSize = 0 := by
    intro r
    unfold Reader.headerLine
    rw [splitOn_append _ _ _ (by decide), splitOn_of_notMem _ _ (notMem_digits (by decide)), hbox]
    simp only [toULongLong_toDigits (n := 0) (by decide)]
    rfl
  have hc : d.count ≤ sizeMax := by rw [(hfit d (by simp)).count]; exact hn'
  have hl : ∃ q, Reader.loadLines T (textLines (headerText d ++ entries T (d :: ds) locs))
      (Reader.new : Reader S).close = (true, q) ∧ q.boxSize = 0 := by
    rw [e]
    unfold headerLines
    rw [List.cons_append, loadLines_hash T _ _ _ rfl, List.cons_append, loadLines_hash T _ _ _ rfl,
      List.cons_append, loadLines_hash T _ _ _ rfl, headerLine_coord _ hw, headerLine_count _ hc, List.nil_append,
      loadLines_entries_keep hT _ _ _ (fun x hx => (hfit x hx).step) h2.holds.loc]
    exact ⟨_, rfl, hbl _⟩
  obtain ⟨q, hq1, hq2⟩ := hl
  rw [load_fails_header h2.holds.idx hq1 (Or.inr (Or.inr hq2))]

end

/-! ### Concrete cases -/

open StreamExample

example : let o := Writer.new.open ['s'] 100 none ⟨fun _ => none, fun _ => some [1, 2, 3]⟩
    ∃ w' fs', o.2.writeAll text [snap 0 0 11, snap 5 50 12, snap 10 100 13]
        (applyOps o.1 ⟨fun _ => none, fun _ => some [1, 2, 3]⟩) = some (w', fs') ∧
      ∃ r, Reader.new.load text fs' ['s'] = (true, r) ∧ r.frameCount = 3 ∧ r.bodyCount = 2 ∧
        r.boxSize = 100 ∧ r.stepsCount = 10 ∧
        ∃ r', readerCalls (C := UInt8) fs' (List.replicate 3 (.read 2)) r =
          .ok (readBack id (snap 0 0 11) [snap 0 0 11, snap 5 50 12, snap 10 100 13], r') :=
  round_trip text_good ['s'] 100 _ _ _ (by decide) (by decide) (by decide)
    (fun x hx => by
      simp only [List.mem_cons, List.not_mem_nil, or_false] at hx
      rcases hx with rfl | rfl | rfl <;> exact snap_fits _ _ _ (by decide))
    (box_good 0 0 11) ⟨by decide, by decide⟩

/-- The conditions of `box_unloadable` for a snapshot with box size 0. -/
example : ∀ x ∈ [{ snap 0 0 11 with box := 0 }], Fits 2 x := by
  intro x hx
  rw [List.mem_singleton] at hx
  subst hx
  exact ⟨rfl, rfl, rfl, rfl, rfl, by decide⟩

end NB.C37
