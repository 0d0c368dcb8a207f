import Verif.Lemmas.StreamWrite

/-
Sessions: opening a stream and writing frames keeps the files in a state that holds the stream.
-/

namespace NB

open StreamSpec

section
variable {S C : Type} [Raw S] [Raw C]

/-- A writer in the middle of a stream that has its header. -/
structure Session (T : TextOps S) (w : Writer) (fs : Files) (base : FName) (h : Snap S C)
    (ds : List (Snap S C)) (locs : List (ℕ × ℕ)) : Prop where
  sync : Sync w fs base
  header : w.headerWritten = true
  holds : Holds T fs base h ds locs
  below : ∀ l ∈ locs, l.1 ≤ w.fileN
  lastPart : ∀ l, locs.getLast? = some l → l.1 = w.fileN

/-- A writer that has just opened a new stream. -/
structure Fresh (w : Writer) (fs : Files) (base : FName) : Prop where
  sync : Sync w fs base
  header : w.headerWritten = false
  part : w.fileN = 0
  data : fs.bin (datName base 0) = some []
  idx : fs.txt (idxName base) = some []

/-- What one successful `write` does. -/
structure Wrote (T : TextOps S) (w : Writer) (fs : Files) (base : FName) (d : Snap S C) (b : List UInt8)
    (w' : Writer) (fs' : Files) : Prop where
  sync : Sync w' fs' base
  header : w'.headerWritten = true
  maxPart : w'.maxPart = w.maxPart
  part : w'.fileN = (placeNext w.maxPart w.fileN b.length).1
  size : ∀ b', fs'.bin (datName base w'.fileN) = some b' →
    b'.length = (placeNext w.maxPart w.fileN b.length).2 + (frameBytes d).length
  grows : ∀ k, k ≤ w.fileN → Grows fs fs' (datName base k)
  frame : FrameAt fs' base d (placeNext w.maxPart w.fileN b.length)
  txt : ∀ k, k ≠ idxName base → fs'.txt k = fs.txt k
  bin : ∀ k, k ≠ datName base w'.fileN → k ≠ colName base → k ≠ massName base → fs'.bin k = fs.bin k
  content : ∃ old, old.length = (placeNext w.maxPart w.fileN b.length).2 ∧
    ((placeNext w.maxPart w.fileN b.length).1 = w.fileN → old = b) ∧
    fs'.bin (datName base w'.fileN) = some (old ++ frameBytes d)

lemma hdrOps_apply (w : Writer) (fs : Files) (d : Snap S C) (k : FName) (h1 : k ≠ colName w.base)
    (h2 : k ≠ massName w.base) : (applyOps (hdrOps w d) fs).bin k = fs.bin k := by
  unfold hdrOps
  split
  · rfl
  · simp [applyOps_cons, applyOps_nil, h1, h2]

lemma hdrOps_txt (w : Writer) (fs : Files) (d : Snap S C) (k : FName) :
    (applyOps (hdrOps w d) fs).txt k = fs.txt k := by
  unfold hdrOps
  split
  · rfl
  · simp [applyOps_cons, applyOps_nil]

lemma write_wrote (T : TextOps S) {w : Writer} {fs : Files} {base : FName} (hw : Sync w fs base)
    {b : List UInt8} (hb : fs.bin (datName base w.fileN) = some b) (d : Snap S C) :
    ∃ ops w', w.write T d = some (ops, w') ∧ Wrote T w fs base d b w' (applyOps ops fs) ∧
      (applyOps ops fs).txt (idxName base) = (fs.txt (idxName base)).map
        (· ++ ((if w.headerWritten then [] else headerText d) ++
          (entry T d (placeNext w.maxPart w.fileN b.length) ++ ['\n']))) ∧
      (w.headerWritten = true → ∀ k, k ≠ datName base w'.fileN → (applyOps ops fs).bin k = fs.bin k) ∧
      (w.headerWritten = false → (applyOps ops fs).bin (colName base) = some (encList d.color) ∧
        (applyOps ops fs).bin (massName base) = some (encList d.mass)) := by
  set l := placeNext w.maxPart w.fileN b.length with hl
  refine ⟨_, _, write_eq T hw hb d, ?_⟩
  rw [applyOps_append, ← hl]
  set fs1 := applyOps (hdrOps w d) fs with hfs1
  have hb1 : fs1.bin (datName base w.fileN) = some b := by
    rw [hfs1, hdrOps_apply _ _ _ _ (datName_ne_colName _ _ _) (datName_ne_massName _ _ _), hb]
  obtain ⟨ht, ⟨old, ho1, ho2, ho3⟩, hbin⟩ := bodyOps_apply T (m := w.maxPart) hb1
    (if w.headerWritten then [] else headerText d) d
  rw [← hl] at ht ho1 ho2 ho3 hbin
  set fs2 := applyOps (bodyOps T base (decide (0 < w.maxPart ∧ w.maxPart ≤ (b.length : ℤ))) l
    (if w.headerWritten then [] else headerText d) d) fs1 with hfs2
  have htxt1 : ∀ k, fs1.txt k = fs.txt k := fun k => hdrOps_txt w fs d k
  refine ⟨?_, ?_, ?_, ?_⟩
  · constructor
    · refine ⟨hw.name, hw.idx, _, ho3, ?_⟩
      simp only [List.length_append, frameBytes, ho1, Nat.add_assoc]
    · rfl
    · rfl
    · rfl
    · intro b' hb'
      rw [show (datName base l.1) = datName base l.1 from rfl] at hb'
      rw [ho3] at hb'
      simp only [Option.some.injEq] at hb'
      rw [← hb', List.length_append, ho1, ← hl]
    · intro k hk x hx
      have hx1 : fs1.bin (datName base k) = some x := by
        rw [hfs1, hdrOps_apply _ _ _ _ (datName_ne_colName _ _ _) (datName_ne_massName _ _ _), hx]
      by_cases e : k = l.1
      · have hlw : l.1 = w.fileN := by
          have := placeNext_le w.maxPart w.fileN b.length
          rw [← hl] at this; omega
        have hkw : k = w.fileN := by omega
        refine ⟨frameBytes d, ?_⟩
        rw [e, ho3, ho2 hlw]
        rw [hkw, hb] at hx
        rw [Option.some.inj hx]
      · exact ⟨[], by rw [hbin _ (fun h => e (datName_inj h)), hx1, List.append_nil]⟩
    · exact ⟨old, [], by rw [List.append_nil, ← hl]; exact ho3, by rw [ho1, ← hl]⟩
    · intro k hk
      rw [ht k, if_neg hk, htxt1]
    · intro k h1 h2 h3
      rw [hbin k h1, hfs1, hdrOps_apply _ _ _ _ (by rw [hw.name]; exact h2) (by rw [hw.name]; exact h3)]
    · exact ⟨old, by rw [← hl]; exact ho1, by rw [← hl]; exact ho2, ho3⟩
  · rw [ht, if_pos rfl, htxt1]
  · intro hh k hk
    rw [hbin k hk, hfs1]
    unfold hdrOps
    rw [if_pos hh, applyOps_nil]
  · intro hh
    rw [hbin _ (datName_ne_colName _ _ _).symm, hbin _ (datName_ne_massName _ _ _).symm, hfs1]
    unfold hdrOps
    rw [if_neg (by simp [hh]), hw.name]
    have h1 := colName_ne_massName base base
    simp [applyOps_cons, applyOps_nil, h1, h1.symm]

lemma zipWith_snoc {α β γ : Type} (f : α → β → γ) (as : List α) (bs : List β) (a : α) (b : β)
    (h : as.length = bs.length) :
    List.zipWith f (as ++ [a]) (bs ++ [b]) = List.zipWith f as bs ++ [f a b] := by
  rw [List.zipWith_append h]; rfl

lemma entries_snoc (T : TextOps S) (ds : List (Snap S C)) (locs : List (ℕ × ℕ)) (d : Snap S C) (l : ℕ × ℕ)
    (h : ds.length = locs.length) :
    entries T (ds ++ [d]) (locs ++ [l]) = entries T ds locs ++ (entry T d l ++ ['\n']) := by
  unfold entries
  rw [zipWith_snoc _ _ _ _ _ h]
  simp

lemma getElem?_snoc {α : Type} (as : List α) (a x : α) (k : ℕ) (h : (as ++ [a])[k]? = some x) :
    as[k]? = some x ∨ (k = as.length ∧ x = a) := by
  rcases Nat.lt_trichotomy k as.length with hk | hk | hk
  · left; rwa [List.getElem?_append_left hk] at h
  · right
    rw [hk, List.getElem?_append_right (Nat.le_refl _)] at h
    simp at h
    exact ⟨hk, h.symm⟩
  · rw [List.getElem?_append_right (Nat.le_of_lt hk), List.getElem?_eq_none] at h
    · cases h
    · simp; omega

lemma wrote_last {T : TextOps S} {w w' : Writer} {fs fs' : Files} {base : FName} {d : Snap S C}
    {b : List UInt8} (hw : Wrote T w fs base d b w' fs') (ds : List (Snap S C)) (locs : List (ℕ × ℕ)) :
    LastAtEnd fs' base (ds ++ [d]) (locs ++ [placeNext w.maxPart w.fileN b.length]) := by
  intro x l hx hl
  simp only [List.getLast?_append, List.getLast?_singleton, Option.some_or, Option.some.injEq] at hx hl
  subst hx hl
  obtain ⟨old, o1, _, o3⟩ := hw.content
  rw [hw.part] at o3
  exact ⟨old, o3, o1⟩

/-- One more frame in a session. -/
lemma session_step (T : TextOps S) {w : Writer} {fs : Files} {base : FName} {h : Snap S C}
    {ds : List (Snap S C)} {locs : List (ℕ × ℕ)} (hs : Session T w fs base h ds locs)
    {b : List UInt8} (hb : fs.bin (datName base w.fileN) = some b) (d : Snap S C)
    (hl : LocOk (placeNext w.maxPart w.fileN b.length)) :
    ∃ ops w', w.write T d = some (ops, w') ∧ Wrote T w fs base d b w' (applyOps ops fs) ∧
      Session T w' (applyOps ops fs) base h (ds ++ [d])
        (locs ++ [placeNext w.maxPart w.fileN b.length]) ∧
      LastAtEnd (applyOps ops fs) base (ds ++ [d]) (locs ++ [placeNext w.maxPart w.fileN b.length]) := by
  obtain ⟨ops, w', h1, h2, h3, h4, _⟩ := write_wrote T hs.sync hb d
  refine ⟨ops, w', h1, h2, ⟨h2.sync, h2.header, ?_, ?_, ?_⟩, wrote_last h2 ds locs⟩
  · constructor
    · simp [hs.holds.len]
    · rw [h3, hs.holds.idx, if_pos hs.header, entries_snoc _ _ _ _ _ hs.holds.len.symm]
      simp
    · intro k x l hx hlk
      rcases getElem?_snoc _ _ _ _ hx with hx | ⟨e, rfl⟩
      · rcases getElem?_snoc _ _ _ _ hlk with hlk | ⟨e, rfl⟩
        · exact frameAt_grows (hs.holds.frame k x l hx hlk) (h2.grows _ (hs.below l (List.mem_of_getElem? hlk)))
        · have : k < ds.length := (List.getElem?_eq_some_iff.1 hx).1
          have := hs.holds.len
          omega
      · have e' : k = locs.length := by rw [e, hs.holds.len]
        rcases getElem?_snoc _ _ _ _ hlk with hlk | ⟨_, rfl⟩
        · have : k < locs.length := (List.getElem?_eq_some_iff.1 hlk).1
          omega
        · exact h2.frame
    · intro l hlm
      rcases List.mem_append.1 hlm with hlm | hlm
      · exact hs.holds.loc l hlm
      · rw [List.mem_singleton.1 hlm]; exact hl
    · rw [h4 hs.header _ (datName_ne_colName _ _ _).symm]; exact hs.holds.col
    · rw [h4 hs.header _ (datName_ne_massName _ _ _).symm]; exact hs.holds.mass
  · intro l hlm
    rw [h2.part]
    rcases List.mem_append.1 hlm with hlm | hlm
    · exact Nat.le_trans (hs.below l hlm) (placeNext_le _ _ _)
    · rw [List.mem_singleton.1 hlm]
  · intro l hlm
    simp only [List.getLast?_append, List.getLast?_singleton, Option.some_or, Option.some.injEq] at hlm
    rw [← hlm, h2.part]

/-- The first frame of a stream. -/
lemma fresh_step (T : TextOps S) {w : Writer} {fs : Files} {base : FName} (hs : Fresh w fs base)
    (d : Snap S C) :
    ∃ ops w', w.write T d = some (ops, w') ∧ Wrote T w fs base d [] w' (applyOps ops fs) ∧
      placeNext w.maxPart w.fileN 0 = (0, 0) ∧
      Session T w' (applyOps ops fs) base d [d] [(0, 0)] ∧ LastAtEnd (applyOps ops fs) base [d] [(0, 0)] := by
  have hp := hs.part
  have hb : fs.bin (datName base w.fileN) = some [] := by rw [hp]; exact hs.data
  obtain ⟨ops, w', h1, h2, h3, _, h5⟩ := write_wrote T hs.sync hb d
  have e : placeNext w.maxPart w.fileN ([] : List UInt8).length = (0, 0) := by
    unfold placeNext
    rw [if_neg, hp]
    · rfl
    · rintro ⟨q1, q2⟩
      simp only [List.length_nil, Int.ofNat_zero] at q2
      exact absurd q1 (Int.not_lt.2 q2)
  obtain ⟨hc, hm⟩ := h5 hs.header
  refine ⟨ops, w', h1, h2, e, ⟨h2.sync, h2.header, ?_, ?_, ?_⟩, by rw [← e]; exact wrote_last h2 [] []⟩
  · constructor
    · rfl
    · rw [h3, hs.idx, if_neg (by simp [hs.header]), e]
      simp [entries]
    · intro k x l hx hlk
      cases k with
      | zero =>
        simp only [List.getElem?_cons_zero, Option.some.injEq] at hx hlk
        subst hx hlk
        have := h2.frame
        rwa [e] at this
      | succ k => simp at hx
    · intro l hlm
      rw [List.mem_singleton.1 hlm]
      exact ⟨by decide, by decide⟩
    · exact hc
    · exact hm
  · intro l hlm
    rw [List.mem_singleton.1 hlm]
    exact Nat.zero_le _
  · intro l hlm
    simp only [List.getLast?_singleton, Option.some.injEq] at hlm
    rw [← hlm, h2.part, e]

/-- After `k` frames of `F` bytes each, part numbers and offsets are not larger than they have to be. -/
def Used (w : Writer) (fs : Files) (base : FName) (k F : ℕ) : Prop :=
  w.fileN ≤ k ∧ ∀ b, fs.bin (datName base w.fileN) = some b → b.length ≤ k * F

/-- `k` frames of `F` bytes can be addressed. -/
def Addressable (k F : ℕ) : Prop := k < sizeMax ∧ k * F ≤ 9223372036854775807

lemma used_loc {w : Writer} {fs : Files} {base : FName} {k F : ℕ} (hr : Used w fs base k F)
    (hk : Addressable (k + 1) F) {b : List UInt8} (hb : fs.bin (datName base w.fileN) = some b) :
    LocOk (placeNext w.maxPart w.fileN b.length) := by
  have h1 := hr.1
  have h2 := hr.2 b hb
  obtain ⟨h3, h4⟩ := hk
  rw [Nat.add_mul, Nat.one_mul] at h4
  unfold placeNext
  split
  · exact ⟨by simp only; omega, by simp⟩
  · exact ⟨by simp only; omega, by simp only; omega⟩

lemma used_next {T : TextOps S} {w w' : Writer} {fs fs' : Files} {base : FName} {k F : ℕ} {d : Snap S C}
    {b : List UInt8} (hr : Used w fs base k F) (hb : fs.bin (datName base w.fileN) = some b)
    (hw : Wrote T w fs base d b w' fs') (hF : (frameBytes d).length = F) : Used w' fs' base (k + 1) F := by
  have h1 := hr.1
  have h2 := hr.2 b hb
  refine ⟨?_, fun b' hb' => ?_⟩
  · rw [hw.part]
    unfold placeNext
    split <;> simp only <;> omega
  · rw [hw.size b' hb', hF, Nat.add_mul, Nat.one_mul]
    unfold placeNext
    split <;> simp only <;> omega

lemma addressable_le {j k F : ℕ} (h : Addressable k F) (hj : j ≤ k) : Addressable j F :=
  ⟨Nat.lt_of_le_of_lt hj h.1, Nat.le_trans (Nat.mul_le_mul_right F hj) h.2⟩

/-- Several more frames in a session. -/
lemma session_writeAll (T : TextOps S) {base : FName} {h : Snap S C} {F : ℕ} (ds : List (Snap S C)) :
    ∀ {w : Writer} {fs : Files} {ds0 : List (Snap S C)} {locs0 : List (ℕ × ℕ)},
    Session T w fs base h ds0 locs0 → Used w fs base ds0.length F →
    Addressable (ds0.length + ds.length) F → (∀ d ∈ ds, (frameBytes d).length = F) →
    ∃ w' fs' locs, w.writeAll T ds fs = some (w', fs') ∧ locs.length = ds.length ∧
      Session T w' fs' base h (ds0 ++ ds) (locs0 ++ locs) ∧ w'.maxPart = w.maxPart ∧
      w.fileN ≤ w'.fileN ∧
      (∀ k, k ≤ w.fileN → Grows fs fs' (datName base k)) ∧
      (∀ k, k ≠ idxName base → fs'.txt k = fs.txt k) ∧
      (∀ k, (∀ j, k ≠ datName base j) → k ≠ colName base → k ≠ massName base → fs'.bin k = fs.bin k) ∧
      Used w' fs' base (ds0.length + ds.length) F ∧
      (LastAtEnd fs base ds0 locs0 ∨ ds ≠ [] → LastAtEnd fs' base (ds0 ++ ds) (locs0 ++ locs)) := by
  induction ds with
  | nil =>
    intro w fs ds0 locs0 hs hr _ _
    exact ⟨w, fs, [], rfl, rfl, by simpa using hs, rfl, Nat.le_refl _, fun k _ => Grows.refl _ _,
      fun k _ => rfl, fun k _ _ _ => rfl, hr, fun hq => by simpa using hq⟩
  | cons d ds ih =>
    intro w fs ds0 locs0 hs hr hk hF
    rw [List.length_cons] at hk
    obtain ⟨b, hb, _⟩ := hs.sync.data
    obtain ⟨ops, w1, h1, h2, h3, h4⟩ := session_step T hs hb d
      (used_loc hr (addressable_le hk (by omega)) hb)
    obtain ⟨w', fs', locs, q1, q2, q3, q4, q5, q6, q7, q8, q9, q10⟩ := ih h3
      (by simpa using used_next hr hb h2 (hF d (by simp)))
      (by simpa [Nat.add_assoc, Nat.add_comm 1] using hk) (fun x hx => hF x (by simp [hx]))
    have hle : w.fileN ≤ w1.fileN := by rw [h2.part]; exact placeNext_le _ _ _
    refine ⟨w', fs', placeNext w.maxPart w.fileN b.length :: locs, ?_, by simp [q2], by simpa using q3,
      q4.trans h2.maxPart, Nat.le_trans hle q5, ?_, ?_, ?_,
      by simpa [Nat.add_assoc, Nat.add_comm 1] using q9, fun _ => by simpa using q10 (.inl h4)⟩
    · rw [Writer.writeAll, h1]; exact q1
    · intro k hk
      exact (h2.grows k hk).trans (q6 k (Nat.le_trans hk hle))
    · intro k hk; rw [q7 k hk, h2.txt k hk]
    · intro k a b c; rw [q8 k a b c, h2.bin k (a _) b c]

/-- All frames of a new stream. -/
lemma fresh_writeAll (T : TextOps S) {base : FName} {F : ℕ} {w : Writer} {fs : Files} (d : Snap S C)
    (ds : List (Snap S C)) (hs : Fresh w fs base) (hk : Addressable (ds.length + 1) F)
    (hF : ∀ x ∈ d :: ds, (frameBytes x).length = F) :
    ∃ w' fs' locs, w.writeAll T (d :: ds) fs = some (w', fs') ∧
      Session T w' fs' base d (d :: ds) locs ∧ w'.maxPart = w.maxPart ∧
      (∀ k, k ≠ idxName base → fs'.txt k = fs.txt k) ∧
      (∀ k, (∀ j, k ≠ datName base j) → k ≠ colName base → k ≠ massName base → fs'.bin k = fs.bin k) ∧
      Used w' fs' base (ds.length + 1) F ∧ LastAtEnd fs' base (d :: ds) locs := by
  have hb : fs.bin (datName base w.fileN) = some [] := by rw [hs.part]; exact hs.data
  obtain ⟨ops, w1, h1, h2, _, h3, h4⟩ := fresh_step T hs d
  obtain ⟨w', fs', locs, q1, q2, q3, q4, q5, q6, q7, q8, q9, q10⟩ := session_writeAll T ds h3
    (used_next (k := 0) ⟨by rw [hs.part], fun b hb' => by rw [hb] at hb'; rw [← Option.some.inj hb']; simp⟩ hb h2
      (hF d (by simp))) (by simpa [Nat.add_comm] using hk) (fun x hx => hF x (by simp [hx]))
  refine ⟨w', fs', [(0, 0)] ++ locs, ?_, by simpa using q3, q4.trans h2.maxPart, ?_, ?_,
    by simpa [Nat.add_comm] using q9,
    by simpa using q10 (.inl h4)⟩
  · rw [Writer.writeAll, h1]; exact q1
  · intro k hk; rw [q7 k hk, h2.txt k hk]
  · intro k a b c; rw [q8 k a b c, h2.bin k (a _) b c]

/-- Opening a new stream with a new writer. -/
lemma open_fresh {w : Writer} (hh : w.headerWritten = false) (base : FName) (m : ℤ) (fs : Files) :
    Fresh (w.open base m none fs).2 (applyOps (w.open base m none fs).1 fs) base ∧
      (w.open base m none fs).2.maxPart = m := by
  refine ⟨⟨⟨rfl, rfl, [], ?_, rfl⟩, hh, rfl, ?_, ?_⟩, rfl⟩ <;>
    simp [Writer.open, applyOps_cons, applyOps_nil]

end

end NB
