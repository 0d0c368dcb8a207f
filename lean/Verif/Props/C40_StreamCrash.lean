import Verif.Props.C39_StreamResume
import Verif.Lemmas.StreamCrash

/-
C40: what is left of a stream when the process dies.
-/

namespace NB.C40

open StreamSpec C39 C41

section
variable {S C : Type} [Raw S] [Raw C]
variable {T : TextOps S} {rnd : S → S} {n b : ℕ}

lemma splitOn_length (sep : Char) (l : List Char) : (splitOn sep l).length = l.count sep + 1 := by
  induction l with
  | nil => rfl
  | cons c r ih =>
    unfold splitOn
    by_cases hc : c = sep
    · rw [if_pos hc, List.length_cons, ih, hc, List.count_cons_self]
    · rw [if_neg hc, List.count_cons_of_ne hc, ← ih]
      cases hs : splitOn sep r with
      | nil => exact absurd hs (splitOn_ne_nil sep r)
      | cons p ps => simp

lemma parseItem_none {T : TextOps S} {line : List Char} (h : line.count '\t' ≠ 3) : parseItem T line = none := by
  have hl := splitOn_length '\t' line
  unfold parseItem
  split
  · rename_i a b c e heq
    rw [heq] at hl
    simp at hl
    omega
  · rfl

/-- If the process dies at any point while frames are written after the first, then the index consists of
complete lines for the first `m` of them and possibly an incomplete line of the next; the bytes of every frame
with a complete line, the colours and the masses are unchanged, and so are the bytes of the frame with the
incomplete line. -/
theorem crash_keeps_frames (base : FName) (maxPart : ℤ) (fs : Files) (d : Snap S C)
    (old new : List (Snap S C)) (hfit : ∀ x ∈ d :: old ++ new, Fits n x)
    (hk : Addressable (old.length + 1 + new.length) (frameSize S n)) :
    let o := Writer.new.open base maxPart none fs
    ∃ w1 fs1 ops, o.2.writeAll T (d :: old) (applyOps o.1 fs) = some (w1, fs1) ∧
      w1.writeOps T new = some ops ∧ ∀ fs', Crashed ops fs1 fs' →
        ∃ m locs tail, m ≤ new.length ∧ HoldsTail T fs' base d (d :: old ++ new.take m) locs tail ∧
          TornTail T fs' base new[m]? tail := by
  intro o
  obtain ⟨hf, _⟩ := open_fresh (w := Writer.new) rfl base maxPart fs
  obtain ⟨w1, fs1, locs, h1, h2, _, _, _, h5, _⟩ := fresh_writeAll T d old hf (addressable_le hk (by omega))
    (fun x hx => frameBytes_length (hfit x (by simp at hx ⊢; tauto)))
  obtain ⟨ops, h7, h8⟩ := crash_session new h2 (by simpa using h5) (by simpa using hk)
    (fun x hx => frameBytes_length (hfit x (by simp [hx])))
  refine ⟨w1, fs1, ops, h1, h7, fun fs' hc => ?_⟩
  obtain ⟨m, l, tail, q1, q2, q3⟩ := h8 fs' hc
  exact ⟨m, _, tail, q1, q2, q3⟩

/-- When no incomplete line is left, the stream loads and every frame with a line is read back.  The claim
for other crash points is false, see `crash_unloadable` and `crash_wrong_frame`. -/
theorem crash_readable_partial (hT : TextGood T rnd) {fs : Files} {base : FName} {h : Snap S C}
    {ds : List (Snap S C)} {locs : List (ℕ × ℕ)} (hh : HoldsTail T fs base h ds locs [])
    (hb : BoxGood h.box b) (hfit : ∀ x ∈ ds, Fits n x) (hhf : Fits n h) (hn : 0 < n) (hn' : n ≤ sizeMax)
    (hw : Raw.size S ≤ sizeMax) (hne : ds ≠ []) :
    ∃ r r', Reader.new.load T fs base = (true, r) ∧ r.frameCount = ds.length ∧
      readerCalls (C := C) fs (List.replicate ds.length (.read n)) r = .ok (readBack rnd h ds, r') := by
  have hh' : Holds T fs base h ds locs :=
    ⟨hh.len, by rw [hh.idx, List.append_nil], hh.frame, hh.loc, hh.col, hh.mass⟩
  obtain ⟨r, h1, h2, _⟩ := load_at hT hh' hb hfit hhf hn hn' hw hne Reader.new true rfl rfl
  obtain ⟨r', h3⟩ := at_calls_unspent (C := C) hh' hfit hhf hn (List.replicate ds.length (.read n))
    (unspent_reads rnd h n ds ds.length 0 true (by omega)) h2
  exact ⟨r, r', h1, by rw [Reader.frameCount, h2.frames, zipWith_length hh'], by rw [h3, C37.answers_readBack]⟩

/-- Loading an index with an incomplete last line. -/
lemma load_tail (hT : TextGood T rnd) {fs : Files} {base : FName} {h : Snap S C}
    {ds : List (Snap S C)} {locs : List (ℕ × ℕ)} {tail : List Char} (hh : HoldsTail T fs base h ds locs tail)
    (hb : BoxGood h.box b) (hfit : ∀ x ∈ ds, Fits n x) (hhf : Fits n h) (hn' : n ≤ sizeMax)
    (hw : Raw.size S ≤ sizeMax) (hne : tail ≠ []) (hnl : '\n' ∉ tail) (hhash : tail.head? ≠ some '#')
    (r : Reader S) :
    Reader.loadLines T (textLines (headerText h ++ entries T ds locs ++ tail)) r.close =
      match parseItem T tail with
      | none => (false, { loadedReader r rnd base n b ds locs with base := [] })
      | some i => (true, { loadedReader r rnd base n b ds locs with
          base := [], frames := List.zipWith (itemOf rnd) ds locs ++ [i] }) := by
  rw [textLines_index hT h ds locs tail hnl, if_neg hne,
    loadLines_header hb (by rw [hhf.count]; exact hn') hw,
    loadLines_entries hT ds locs _ _ (fun x hx => (hfit x hx).step) hh.loc, Reader.loadLines, if_neg hhash,
    hhf.count]
  cases parseItem T tail with
  | none => rfl
  | some i => rfl

lemma entry_take_head (T : TextOps S) (d : Snap S C) (l : ℕ × ℕ) (k : ℕ) :
    ((entry T d l ++ ['\n']).take (k + 1)).head? ≠ some '#' := by
  have := entry_head T d l
  obtain ⟨c, r, e, _⟩ := toDigits_cons d.step
  unfold entry at this ⊢
  rw [e] at this ⊢
  simpa using this

lemma take_noBreak (hT : TextGood T rnd) (d : Snap S C) (l : ℕ × ℕ) (k : ℕ) (hk : k ≤ (entry T d l).length) :
    '\n' ∉ (entry T d l ++ ['\n']).take k := by
  intro hm
  rw [List.take_append_of_le_length hk] at hm
  exact entry_noBreak hT d l (List.mem_of_mem_take hm)

/-- Negation of the full claim: whatever has been written, the process can die during the next frame in such
a way that all frames are still in the files but `load` returns -1. -/
theorem crash_unloadable (hT : TextGood T rnd) (base : FName) (maxPart : ℤ) (fs : Files) (d : Snap S C)
    (old : List (Snap S C)) (next : Snap S C) (hfit : ∀ x ∈ d :: old, Fits n x) (hn' : n ≤ sizeMax)
    (hw : Raw.size S ≤ sizeMax) (hb : BoxGood d.box b)
    (hk : Addressable (old.length + 1) (frameSize S n)) :
    let o := Writer.new.open base maxPart none fs
    ∃ w1 fs1 ops fs' locs tail, o.2.writeAll T (d :: old) (applyOps o.1 fs) = some (w1, fs1) ∧
      w1.writeOps T [next] = some ops ∧ Crashed ops fs1 fs' ∧
      HoldsTail T fs' base d (d :: old) locs tail ∧
      ((Reader.new : Reader S).load T fs' base).1 = false := by
  intro o
  obtain ⟨hf, _⟩ := open_fresh (w := Writer.new) rfl base maxPart fs
  obtain ⟨w1, fs1, locs, h1, h2, _, _, _, h5, _⟩ := fresh_writeAll T d old hf hk
    (fun x hx => frameBytes_length (hfit x hx))
  obtain ⟨x, hx, _⟩ := h2.sync.data
  obtain ⟨ops, w2, q1, _⟩ := write_wrote T h2.sync hx next
  obtain ⟨fs', c1, c2⟩ := crash_at h2 hx next q1 1
  set l := placeNext w1.maxPart w1.fileN x.length
  refine ⟨w1, fs1, ops, fs', locs, _, h1, ?_, c1, c2, ?_⟩
  · simp [Writer.writeOps, q1]
  · obtain ⟨c, r, e, hc⟩ := toDigits_cons next.step
    have ht : (entry T next l ++ ['\n']).take 1 = [c] := by unfold entry; rw [e]; simp
    rw [ht] at c2
    apply load_fails_lines c2.idx
    rw [load_tail hT c2 hb hfit (hfit d (by simp)) hn' hw (by simp)
      (by simp only [List.mem_singleton]; exact (not_digit_of hc (by decide)).symm)
      (by simp only [List.head?_cons, ne_eq, Option.some.injEq]; exact not_digit_of hc (by decide))
      Reader.new, parseItem_none]
    have hct : c ≠ '\t' := not_digit_of hc (by decide)
    rw [List.count_cons_of_ne hct]
    simp

lemma ofDigitChars_lt (t : List Char) (h : ∀ c ∈ t, c.isDigit = true) (a : ℕ) :
    Nat.ofDigitChars 10 t a < (a + 1) * 10 ^ t.length := by
  induction t generalizing a with
  | nil => simp [Nat.ofDigitChars]
  | cons c t ih =>
    have hc := digit_range (h c (by simp))
    rw [Nat.ofDigitChars_cons]
    have := ih (fun x hx => h x (by simp [hx])) (10 * a + (c.toNat - '0'.toNat))
    refine lt_of_lt_of_le this ?_
    rw [List.length_cons, pow_succ]
    have h0 : '0'.toNat = 48 := rfl
    have : 10 * a + (c.toNat - '0'.toNat) + 1 ≤ (a + 1) * 10 := by rw [h0]; omega
    calc (10 * a + (c.toNat - '0'.toNat) + 1) * 10 ^ t.length ≤ (a + 1) * 10 * 10 ^ t.length :=
          Nat.mul_le_mul_right _ this
      _ = (a + 1) * (10 ^ t.length * 10) := by ring

/-- Cutting digits off a number changes it. -/
lemma cut_number {m j : ℕ} (hj : 0 < j) (hlt : j < (Nat.toDigits 10 m).length) :
    Nat.ofDigitChars 10 ((Nat.toDigits 10 m).take j) 0 < m := by
  have h1 := ofDigitChars_lt ((Nat.toDigits 10 m).take j)
    (fun c hc => digits_digit c (List.mem_of_mem_take hc)) 0
  rw [List.length_take, Nat.min_eq_left (Nat.le_of_lt hlt), Nat.zero_add, Nat.one_mul] at h1
  have h2 : ¬ m < 10 ^ j := fun h => by
    have := (Nat.length_toDigits_le_iff (b := 10) (by decide) hj).2 h
    omega
  omega

lemma seek_frames (fs : Files) (r : Reader S) (k : ℕ) : (r.seek fs k).2.frames = r.frames := by
  unfold Reader.seek
  split
  · rfl
  · split
    · rfl
    · simp only
      split
      · rfl
      · split <;> rfl

/-- Negation of the full claim, second form: when the next frame goes to an offset of two or more digits, the
process can die in such a way that `load` succeeds but reports one more frame, at a wrong offset. -/
theorem crash_wrong_frame (hT : TextGood T rnd) (base : FName) (maxPart : ℤ) (fs : Files) (d : Snap S C)
    (old : List (Snap S C)) (next : Snap S C) (hfit : ∀ x ∈ next :: d :: old, Fits n x) (hn : 0 < n)
    (hn' : n ≤ sizeMax) (hw : Raw.size S ≤ sizeMax) (hb : BoxGood d.box b)
    (hk : Addressable (old.length + 2) (frameSize S n)) :
    let o := Writer.new.open base maxPart none fs
    ∃ w1 fs1 ops x, o.2.writeAll T (d :: old) (applyOps o.1 fs) = some (w1, fs1) ∧
      w1.writeOps T [next] = some ops ∧ fs1.bin (datName base w1.fileN) = some x ∧
      (10 ≤ (placeNext w1.maxPart w1.fileN x.length).2 →
        ∃ fs' r, Crashed ops fs1 fs' ∧ Reader.new.load T fs' base = (true, r) ∧
          r.frameCount = old.length + 2 ∧ ∃ i, r.frames.getLast? = some i ∧ i.step = next.step ∧
            i.filePos < ((placeNext w1.maxPart w1.fileN x.length).2 : ℤ)) := by
  intro o
  obtain ⟨hf, _⟩ := open_fresh (w := Writer.new) rfl base maxPart fs
  obtain ⟨w1, fs1, locs, h1, h2, _, _, _, h5, _⟩ := fresh_writeAll T d old hf (addressable_le hk (by omega))
    (fun x hx => frameBytes_length (hfit x (by simp at hx ⊢; tauto)))
  obtain ⟨x, hx, _⟩ := h2.sync.data
  obtain ⟨ops, w2, q1, q2, _⟩ := write_wrote T h2.sync hx next
  refine ⟨w1, fs1, ops, x, h1, by simp [Writer.writeOps, q1], hx, fun h10 => ?_⟩
  have hl := used_loc (k := old.length + 1) h5 hk hx
  set l := placeNext w1.maxPart w1.fileN x.length with hldef
  -- everything but all digits of the offset after the first
  set pfx := Nat.toDigits 10 next.step ++ '\t' :: (T.fmt next.time ++ '\t' :: (Nat.toDigits 10 l.1 ++ ['\t'])) with hpfx
  have hent : entry T next l = pfx ++ Nat.toDigits 10 l.2 := by simp [entry, hpfx]
  have hentlen : (entry T next l).length = pfx.length + (Nat.toDigits 10 l.2).length := by
    clear_value pfx
    rw [hent, List.length_append]
  have h2digits : 1 < (Nat.toDigits 10 l.2).length := by
    by_contra hle
    have := (Nat.length_toDigits_le_iff (b := 10) (n := l.2) (k := 1) (by decide) (by decide)).1 (by omega)
    omega
  obtain ⟨fs', c1, c2⟩ := crash_at h2 hx next q1 (pfx.length + 1)
  rw [← hldef] at c2
  have htake : (entry T next l ++ ['\n']).take (pfx.length + 1) = pfx ++ (Nat.toDigits 10 l.2).take 1 := by
    rw [List.take_append_of_le_length (by rw [hentlen]; omega), hent, List.take_append,
      List.take_of_length_le (by omega)]
    simp
  rw [htake] at c2
  set q := (Nat.toDigits 10 l.2).take 1 with hq
  have hqd : ∀ c ∈ q, c.isDigit = true := fun c hc => digits_digit c (List.mem_of_mem_take hc)
  have hqne : q ≠ [] := by
    intro e
    have := congrArg List.length e
    rw [hq, List.length_take] at this
    simp at this
  have hval : Nat.ofDigitChars 10 q 0 < l.2 := cut_number (by decide) h2digits
  have hparse : parseItem T (pfx ++ q) = some ⟨next.step, rnd next.time, l.1, ((Nat.ofDigitChars 10 q 0 : ℕ) : ℤ)⟩ := by
    have hs : splitOn '\t' (pfx ++ q) = [Nat.toDigits 10 next.step, T.fmt next.time, Nat.toDigits 10 l.1, q] := by
      have : pfx ++ q = Nat.toDigits 10 next.step ++ '\t' :: (T.fmt next.time ++ '\t' :: (Nat.toDigits 10 l.1 ++ '\t' :: q)) := by
        simp [hpfx]
      rw [this, splitOn_append _ _ _ (notMem_digits (by decide)), splitOn_append _ _ _ (hT.noTab _),
        splitOn_append _ _ _ (notMem_digits (by decide)),
        splitOn_of_notMem _ _ (fun hm => not_digit_of (hqd _ hm) (by decide) rfl)]
    unfold parseItem
    rw [hs]
    have hqb : Nat.ofDigitChars 10 q 0 ≤ 9223372036854775807 := by have := hl.2; omega
    simp only [toULongLong_toDigits (hfit next (by simp)).step, hT.back,
      toULongLong_toDigits (Nat.le_of_lt hl.1), toLongLong_digits hqne hqd hqb]
  have hpne : pfx ++ q ≠ [] := by simp [hqne]
  have hhead : (pfx ++ q).head? ≠ some '#' := by
    obtain ⟨c, r, e, hc⟩ := toDigits_cons next.step
    rw [hpfx, e]
    simp only [List.cons_append, List.head?_cons, ne_eq, Option.some.injEq]
    exact not_digit_of hc (by decide)
  have hnl : '\n' ∉ pfx ++ q := by
    rw [← htake]
    exact take_noBreak hT next l _ (by rw [hentlen]; omega)
  have hdfit : ∀ y ∈ d :: old, Fits n y := fun y hy => hfit y (by simp at hy ⊢; tauto)
  have hlines := load_tail hT c2 hb hdfit (hfit d (by simp)) hn' hw hpne hnl hhead Reader.new
  rw [hparse] at hlines
  simp only at hlines
  have hload := load_of c2.idx hlines (by
    have := Raw.size_pos (S := S)
    have := hb.pos
    simp only [loadedReader]
    omega) rfl
  -- frame 0 can be opened
  have hlen : locs.length = (d :: old).length := c2.len
  have hlt : 0 < locs.length := by rw [hlen]; simp
  obtain ⟨pre, post, f1, _⟩ := c2.frame 0 d locs[0] rfl (List.getElem?_eq_getElem hlt)
  have hz : (List.zipWith (itemOf rnd) (d :: old) locs ++
      [⟨next.step, rnd next.time, l.1, ((Nat.ofDigitChars 10 q 0 : ℕ) : ℤ)⟩])[0]? =
      some (itemOf rnd d locs[0]) := by
    rw [List.getElem?_append_left (by simp [hlt]), List.getElem?_zipWith]
    simp [List.getElem?_eq_getElem hlt]
  obtain ⟨r, hr1, hr2⟩ : ∃ r, Reader.new.load T fs' base = (true, r) ∧
      r.frames = List.zipWith (itemOf rnd) (d :: old) locs ++
        [⟨next.step, rnd next.time, l.1, ((Nat.ofDigitChars 10 q 0 : ℕ) : ℤ)⟩] := by
    have h1 : (Reader.new.load T fs' base).1 = true := by
      rw [hload]
      unfold Reader.seek
      rw [if_neg (by simp only [loadedReader]; decide)]
      simp only [hz, loadedReader]
      simp only [itemOf, f1]
      have : ¬ ((locs[0].2 : ℤ) < 0) := by omega
      simp [this]
    have h2 : (Reader.new.load T fs' base).2.frames = List.zipWith (itemOf rnd) (d :: old) locs ++
        [⟨next.step, rnd next.time, l.1, ((Nat.ofDigitChars 10 q 0 : ℕ) : ℤ)⟩] := by
      rw [hload, seek_frames]
    exact ⟨_, Prod.ext h1 rfl, h2⟩
  refine ⟨fs', r, c1, hr1, by simp [Reader.frameCount, hr2, hlen],
    ⟨next.step, rnd next.time, l.1, ((Nat.ofDigitChars 10 q 0 : ℕ) : ℤ)⟩,
    by rw [hr2, List.getLast?_concat], rfl, ?_⟩
  simp only
  exact_mod_cast hval

end

/-! ### Concrete cases -/

open StreamExample

/-- The hypotheses of the theorems hold for a stream of two frames and two further ones. -/
example : (∀ x ∈ [snap 0 0 1, snap 5 50 2] ++ [snap 6 60 3, snap 7 70 4], Fits 2 x) ∧
    Addressable (1 + 1 + 2) (frameSize UInt64 2) ∧ BoxGood (snap 0 0 1).box 100 := by
  refine ⟨fun x hx => ?_, ⟨by decide, by decide⟩, box_good _ _ _⟩
  simp only [List.cons_append, List.nil_append, List.mem_cons, List.not_mem_nil, or_false] at hx
  rcases hx with rfl | rfl | rfl | rfl <;> exact snap_fits _ _ _ (by decide)

/-- With frames of 96 bytes the second frame of a stream is at offset 96, so that the wrong frame of
`crash_wrong_frame` does occur. -/
example : let o := Writer.new.open ['s'] 1000 none ⟨fun _ => none, fun _ => none⟩
    ∃ w1 fs1, o.2.writeAll text [snap 0 0 1] (applyOps o.1 ⟨fun _ => none, fun _ => none⟩) = some (w1, fs1) ∧
      (fs1.bin (datName ['s'] w1.fileN)).map (fun x => (placeNext w1.maxPart w1.fileN x.length).2) = some 96 :=
  ⟨_, _, rfl, by decide +kernel⟩

end NB.C40
