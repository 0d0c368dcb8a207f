import Verif.Lemmas.StreamLoad
import Mathlib.Tactic.Ring

/-
Writing frames: the files after each call.
-/

namespace NB

open StreamSpec

section
variable {S C : Type} [Raw S] [Raw C]

/-! ### Memory images -/

lemma encVec_length (v : Vec3 S) : (encVec v).length = 3 * Raw.size S := by
  simp only [encVec, List.length_append, Raw.enc_length]; ring

lemma encVecs_length (l : List (Vec3 S)) : (encVecs l).length = 3 * Raw.size S * l.length := by
  induction l with
  | nil => simp [encVecs]
  | cons v l ih =>
    have : encVecs (v :: l) = encVec v ++ encVecs l := by simp [encVecs]
    rw [this, List.length_append, encVec_length, ih, List.length_cons]; ring

lemma encList_length {α : Type} [Raw α] (l : List α) : (encList l).length = Raw.size α * l.length := by
  induction l with
  | nil => simp [encList]
  | cons v l ih =>
    have : encList (v :: l) = Raw.enc v ++ encList l := by simp [encList]
    rw [this, List.length_append, Raw.enc_length, ih, List.length_cons]; ring

lemma decVecs_encVecs (l : List (Vec3 S)) (rest : List UInt8) :
    decVecs l.length (encVecs l ++ rest) = l := by
  induction l generalizing rest with
  | nil => rfl
  | cons v l ih =>
    have e : encVecs (v :: l) ++ rest = Raw.enc v.x ++ (Raw.enc v.y ++ (Raw.enc v.z ++ (encVecs l ++ rest))) := by
      simp [encVecs, encVec]
    have hx : (Raw.enc v.x).length = Raw.size S := Raw.enc_length _
    have hy : (Raw.enc v.y).length = Raw.size S := Raw.enc_length _
    have hz : (Raw.enc v.z).length = Raw.size S := Raw.enc_length _
    rw [List.length_cons, decVecs, e]
    have d1 : (Raw.enc v.x ++ (Raw.enc v.y ++ (Raw.enc v.z ++ (encVecs l ++ rest)))).drop (Raw.size S) =
        Raw.enc v.y ++ (Raw.enc v.z ++ (encVecs l ++ rest)) := List.drop_left' hx
    have d2 : (Raw.enc v.x ++ (Raw.enc v.y ++ (Raw.enc v.z ++ (encVecs l ++ rest)))).drop (2 * Raw.size S) =
        Raw.enc v.z ++ (encVecs l ++ rest) := by
      rw [two_mul, ← List.drop_drop, d1]; exact List.drop_left' hy
    have d3 : (Raw.enc v.x ++ (Raw.enc v.y ++ (Raw.enc v.z ++ (encVecs l ++ rest)))).drop (3 * Raw.size S) =
        encVecs l ++ rest := by
      rw [show 3 * Raw.size S = 2 * Raw.size S + Raw.size S by ring, ← List.drop_drop, d2]
      exact List.drop_left' hz
    simp only [d1, d2, d3]
    rw [List.take_left' hx, List.take_left' hy, List.take_left' hz, ih, Raw.dec_enc, Raw.dec_enc, Raw.dec_enc]

lemma decVecs_encVecs' (l : List (Vec3 S)) {n : ℕ} (h : l.length = n) : decVecs n (encVecs l) = l := by
  have := decVecs_encVecs l []
  rw [List.append_nil, h] at this
  exact this

lemma decList_encList {α : Type} [Raw α] (l : List α) (rest : List UInt8) :
    decList l.length (encList l ++ rest) = l := by
  induction l generalizing rest with
  | nil => rfl
  | cons v l ih =>
    have e : encList (v :: l) ++ rest = Raw.enc v ++ (encList l ++ rest) := by simp [encList]
    have hx : (Raw.enc v).length = Raw.size α := Raw.enc_length _
    rw [List.length_cons, decList, e, List.take_left' hx, List.drop_left' hx, ih, Raw.dec_enc]

lemma readArray_eq {α : Type} [Raw α] {fs : Files} {n : FName} {l : List α} {count : ℕ}
    (h : fs.bin n = some (encList l)) (hl : l.length = count) : readArray fs n count = some l := by
  unfold readArray
  rw [h]
  have hlen := encList_length l
  have e := decList_encList l []
  rw [List.append_nil, hl] at e
  simp only [e]
  rw [List.take_of_length_le (by rw [hlen, hl])]
  rw [if_pos (by rw [hlen, hl])]

lemma frameBytes_length {n : ℕ} {d : Snap S C} (h : Fits n d) :
    (frameBytes d).length = frameSize S n := by
  rw [frameBytes, List.length_append, encVecs_length, encVecs_length, h.vrt, h.vel, frameSize]; ring

/-! ### File operations -/

lemma applyOps_nil (fs : Files) : applyOps [] fs = fs := rfl

lemma applyOps_cons (o : FileOp) (ops : List FileOp) (fs : Files) :
    applyOps (o :: ops) fs = applyOps ops (o.apply fs) := rfl

lemma applyOps_append (a b : List FileOp) (fs : Files) :
    applyOps (a ++ b) fs = applyOps b (applyOps a fs) := by
  simp [applyOps, List.foldl_append]

@[simp] lemma create_bin (n m : FName) (fs : Files) :
    ((FileOp.create n).apply fs).bin m = if m = n then some [] else fs.bin m := rfl
@[simp] lemma create_txt (n m : FName) (fs : Files) : ((FileOp.create n).apply fs).txt m = fs.txt m := rfl
@[simp] lemma append_bin (n m : FName) (b : List UInt8) (fs : Files) :
    ((FileOp.append n b).apply fs).bin m = if m = n then (fs.bin n).map (· ++ b) else fs.bin m := rfl
@[simp] lemma append_txt (n m : FName) (b : List UInt8) (fs : Files) :
    ((FileOp.append n b).apply fs).txt m = fs.txt m := rfl
@[simp] lemma touch_bin (n m : FName) (fs : Files) :
    ((FileOp.touch n).apply fs).bin m = if m = n then some ((fs.bin n).getD []) else fs.bin m := rfl
@[simp] lemma touch_txt (n m : FName) (fs : Files) : ((FileOp.touch n).apply fs).txt m = fs.txt m := rfl
@[simp] lemma createTxt_bin (n m : FName) (fs : Files) :
    ((FileOp.createTxt n).apply fs).bin m = fs.bin m := rfl
@[simp] lemma createTxt_txt (n m : FName) (fs : Files) :
    ((FileOp.createTxt n).apply fs).txt m = if m = n then some [] else fs.txt m := rfl
@[simp] lemma touchTxt_bin (n m : FName) (fs : Files) :
    ((FileOp.touchTxt n).apply fs).bin m = fs.bin m := rfl
@[simp] lemma touchTxt_txt (n m : FName) (fs : Files) :
    ((FileOp.touchTxt n).apply fs).txt m = if m = n then some ((fs.txt n).getD []) else fs.txt m := rfl
@[simp] lemma appendTxt_bin (n m : FName) (t : List Char) (fs : Files) :
    ((FileOp.appendTxt n t).apply fs).bin m = fs.bin m := rfl
@[simp] lemma appendTxt_txt (n m : FName) (t : List Char) (fs : Files) :
    ((FileOp.appendTxt n t).apply fs).txt m = if m = n then (fs.txt n).map (· ++ t) else fs.txt m := rfl

/-- A file only grows. -/
def Grows (fs fs' : Files) (n : FName) : Prop := ∀ b, fs.bin n = some b → ∃ q, fs'.bin n = some (b ++ q)

lemma Grows.refl (fs : Files) (n : FName) : Grows fs fs n := fun b h => ⟨[], by rw [h, List.append_nil]⟩

lemma Grows.trans {a b c : Files} {n : FName} (h1 : Grows a b n) (h2 : Grows b c n) : Grows a c n := by
  intro x hx
  obtain ⟨q, hq⟩ := h1 x hx
  obtain ⟨q', hq'⟩ := h2 _ hq
  exact ⟨q ++ q', by rw [hq', List.append_assoc]⟩

lemma frameAt_grows {fs fs' : Files} {base : FName} {d : Snap S C} {l : ℕ × ℕ}
    (h : FrameAt fs base d l) (hg : Grows fs fs' (datName base l.1)) : FrameAt fs' base d l := by
  obtain ⟨pre, post, h1, h2⟩ := h
  obtain ⟨q, hq⟩ := hg _ h1
  exact ⟨pre, post ++ q, by rw [hq, List.append_assoc], h2⟩

/-! ### The writer and the files agree -/

/-- The writer has the stream `base` open and stands at the end of part `w.fileN`. -/
structure Sync (w : Writer) (fs : Files) (base : FName) : Prop where
  name : w.base = base
  idx : w.idxFile = some (idxName base)
  data : ∃ b, fs.bin (datName base w.fileN) = some b ∧ w.dataFile = some (datName base w.fileN, b.length)

/-- Where the next frame goes when the writer stands at offset `pos` of part `n`. -/
def placeNext (maxPart : ℤ) (n pos : ℕ) : ℕ × ℕ :=
  if 0 < maxPart ∧ maxPart ≤ (pos : ℤ) then (n + 1, 0) else (n, pos)

/-- The changes of `write` that concern colours and masses. -/
def hdrOps (w : Writer) (d : Snap S C) : List FileOp :=
  if w.headerWritten then [] else
      [.create (colName w.base), .append (colName w.base) (encList d.color),
       .create (massName w.base), .append (massName w.base) (encList d.mass)]

/-- The changes of `write` that concern the frame. -/
def bodyOps (T : TextOps S) (base : FName) (next : Bool) (l : ℕ × ℕ) (hdr : List Char) (d : Snap S C) :
    List FileOp :=
  (if next then [FileOp.create (datName base l.1)] else []) ++
    [.append (datName base l.1) (encVecs d.vrt), .append (datName base l.1) (encVecs d.vel),
     .appendTxt (idxName base) (hdr ++ (entry T d l ++ ['\n']))]

lemma write_eq (T : TextOps S) {w : Writer} {fs : Files} {base : FName} (hw : Sync w fs base)
    {b : List UInt8} (hb : fs.bin (datName base w.fileN) = some b) (d : Snap S C) :
    w.write T d = some
      (hdrOps w d ++ bodyOps T base (decide (0 < w.maxPart ∧ w.maxPart ≤ (b.length : ℤ)))
        (placeNext w.maxPart w.fileN b.length) (if w.headerWritten then [] else headerText d) d,
       { w with
         fileN := (placeNext w.maxPart w.fileN b.length).1
         dataFile := some (datName base (placeNext w.maxPart w.fileN b.length).1,
           (placeNext w.maxPart w.fileN b.length).2 + (encVecs d.vrt).length + (encVecs d.vel).length)
         headerWritten := true }) := by
  obtain ⟨b', h1, h2⟩ := hw.data
  have : b' = b := by rw [hb] at h1; simpa using h1.symm
  subst this
  unfold Writer.write
  rw [hw.idx, h2]
  simp only [Option.some.injEq, Prod.mk.injEq]
  unfold placeNext bodyOps hdrOps
  rw [hw.name]
  by_cases hc : 0 < w.maxPart ∧ w.maxPart ≤ (b'.length : ℤ)
  · simp [hc, ← frameLine_eq]
  · simp [hc, ← frameLine_eq]

lemma placeNext_le (m : ℤ) (n pos : ℕ) : n ≤ (placeNext m n pos).1 := by
  unfold placeNext; split <;> simp

/-- The files after the frame has been written. -/
lemma bodyOps_apply (T : TextOps S) {fs : Files} {base : FName} {n : ℕ} {m : ℤ} {b : List UInt8}
    (hb : fs.bin (datName base n) = some b) (hdr : List Char) (d : Snap S C) :
    let l := placeNext m n b.length
    let fs' := applyOps (bodyOps T base (decide (0 < m ∧ m ≤ (b.length : ℤ))) l hdr d) fs
    (∀ k, fs'.txt k = if k = idxName base then (fs.txt k).map (· ++ (hdr ++ (entry T d l ++ ['\n']))) else fs.txt k) ∧
    (∃ old, old.length = l.2 ∧ (l.1 = n → old = b) ∧ fs'.bin (datName base l.1) = some (old ++ frameBytes d)) ∧
    (∀ k, k ≠ datName base l.1 → fs'.bin k = fs.bin k) := by
  intro l fs'
  have hl : l = placeNext m n b.length := rfl
  have hfs : fs' = applyOps (bodyOps T base (decide (0 < m ∧ m ≤ (b.length : ℤ))) l hdr d) fs := rfl
  clear_value l fs'
  by_cases hc : 0 < m ∧ m ≤ (b.length : ℤ)
  · have e : l = (n + 1, 0) := by rw [hl]; exact if_pos hc
    subst e
    have : fs' = applyOps [.create (datName base (n + 1)), .append (datName base (n + 1)) (encVecs d.vrt),
        .append (datName base (n + 1)) (encVecs d.vel),
        .appendTxt (idxName base) (hdr ++ (entry T d (n + 1, 0) ++ ['\n']))] fs := by
      rw [hfs]; simp [bodyOps, hc]
    subst this
    simp only [applyOps_cons, applyOps_nil]
    refine ⟨fun k => ?_, ⟨[], rfl, fun h => absurd h (by simp), ?_⟩, fun k hk => ?_⟩
    · simp only [appendTxt_txt, append_txt, create_txt]
      split
      · rename_i h; rw [h]
      · rfl
    · simp [frameBytes]
    · simp [hk]
  · have e : l = (n, b.length) := by rw [hl]; exact if_neg hc
    subst e
    have : fs' = applyOps [.append (datName base n) (encVecs d.vrt),
        .append (datName base n) (encVecs d.vel),
        .appendTxt (idxName base) (hdr ++ (entry T d (n, b.length) ++ ['\n']))] fs := by
      rw [hfs]; simp [bodyOps, hc]
    subst this
    simp only [applyOps_cons, applyOps_nil]
    refine ⟨fun k => ?_, ⟨b, rfl, fun _ => rfl, ?_⟩, fun k hk => ?_⟩
    · simp only [appendTxt_txt, append_txt]
      split
      · rename_i h; rw [h]
      · rfl
    · simp [frameBytes, hb]
    · simp [hk]

end

end NB
