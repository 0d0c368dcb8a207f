import Verif.Props.C37_StreamRoundTrip
import Mathlib.Data.List.Induction

/-
C38: parts of a stream are split at frame boundaries.
-/

namespace NB.C38

open StreamSpec

/-- Part numbers and offsets when the frames are grouped into parts: each part starts at offset 0 and its
frames of `F` bytes follow each other. -/
def partLocs (F : ℕ) (ns : List ℕ) : List (ℕ × ℕ) :=
  ns.zipIdx.flatMap (fun q => (List.range q.1).map (fun i => (q.2, i * F)))

section
variable {S C : Type} [Raw S] [Raw C]

/-- The files of the stream `base` hold the frames grouped into `parts`. -/
structure Split (T : TextOps S) (fs : Files) (base : FName) (h : Snap S C) (F : ℕ)
    (parts : List (List (Snap S C))) : Prop where
  idx : fs.txt (idxName base) =
    some (headerText h ++ entries T parts.flatten (partLocs F (parts.map List.length)))
  files : ∀ (j : ℕ) (p : List (Snap S C)), parts[j]? = some p →
    fs.bin (datName base j) = some (p.flatMap frameBytes)

lemma partLocs_snoc (F : ℕ) (ns : List ℕ) (k : ℕ) :
    partLocs F (ns ++ [k]) = partLocs F ns ++ (List.range k).map (fun i => (ns.length, i * F)) := by
  simp [partLocs, List.zipIdx_append]

lemma partLocs_length (F : ℕ) (ns : List ℕ) : (partLocs F ns).length = ns.sum := by
  induction ns using List.reverseRecOn with
  | nil => rfl
  | append_singleton ns k ih => rw [partLocs_snoc]; simp [ih]

lemma flatten_length (ps : List (List (Snap S C))) : ps.flatten.length = (ps.map List.length).sum := by
  simp [List.length_flatten]

lemma flatMap_bytes_length {n : ℕ} (p : List (Snap S C)) (h : ∀ d ∈ p, Fits n d) :
    (p.flatMap frameBytes).length = p.length * frameSize S n := by
  induction p with
  | nil => simp
  | cons d p ih =>
    rw [List.flatMap_cons, List.length_append, frameBytes_length (h d (by simp)),
      ih (fun x hx => h x (by simp [hx])), List.length_cons]
    ring

variable {T : TextOps S}

/-- The invariant of a session that started a new stream: closed parts `init`, current part `p`. -/
structure Inv (T : TextOps S) (w : Writer) (fs : Files) (base : FName) (h : Snap S C) (n : ℕ) (m : ℤ)
    (init : List (List (Snap S C))) (p : List (Snap S C)) : Prop where
  sync : Sync w fs base
  header : w.headerWritten = true
  max : w.maxPart = m
  part : w.fileN = init.length
  split : Split T fs base h (frameSize S n) (init ++ [p])
  fits : ∀ q ∈ init ++ [p], ∀ d ∈ q, Fits n d
  closed : ∀ q ∈ init, 0 < m ∧ m ≤ (q.length * frameSize S n : ℕ)
  tight : ∀ q ∈ init ++ [p], q ≠ [] ∧ (0 < m → ((q.length - 1 : ℕ) * frameSize S n : ℕ) < m)

lemma inv_step {w : Writer} {fs : Files} {base : FName} {h : Snap S C} {n : ℕ} {m : ℤ}
    {init : List (List (Snap S C))} {p : List (Snap S C)} (hi : Inv T w fs base h n m init p) (d : Snap S C)
    (hd : Fits n d) :
    ∃ ops w' init' p', w.write T d = some (ops, w') ∧ Inv T w' (applyOps ops fs) base h n m init' p' ∧
      (init' ++ [p']).flatten = (init ++ [p]).flatten ++ [d] := by
  set F := frameSize S n with hF
  have hbp : fs.bin (datName base init.length) = some (p.flatMap frameBytes) :=
    hi.split.files init.length p (by simp)
  have hb : fs.bin (datName base w.fileN) = some (p.flatMap frameBytes) := by rw [hi.part]; exact hbp
  obtain ⟨ops, w', h1, h2, h3, h4, _⟩ := write_wrote T hi.sync hb d
  have hlen : (p.flatMap frameBytes).length = p.length * F :=
    flatMap_bytes_length p (hi.fits p (by simp))
  have hpart := h2.part
  obtain ⟨old, o1, o2, o3⟩ := h2.content
  rw [hlen, hi.max] at hpart o1 o2 h3
  rw [hi.part] at hpart o1 o2 h3
  have hloc : ∀ ps : List (List (Snap S C)), ps.flatten.length = (partLocs F (ps.map List.length)).length := by
    intro ps; rw [partLocs_length, flatten_length]
  by_cases hc : 0 < m ∧ m ≤ ((p.length * F : ℕ) : ℤ)
  · have e : placeNext m init.length (p.length * F) = (init.length + 1, 0) := if_pos hc
    rw [e] at hpart o1 o2 h3
    refine ⟨ops, w', init ++ [p], [d], h1, ?_, by simp⟩
    have hold : old = [] := List.eq_nil_of_length_eq_zero o1
    constructor
    · exact h2.sync
    · exact h2.header
    · rw [h2.maxPart, hi.max]
    · rw [hpart]; simp
    · constructor
      · rw [h3, hi.split.idx, if_pos hi.header]
        have e1 : (init ++ [p] ++ [[d]]).flatten = (init ++ [p]).flatten ++ [d] := by simp
        have e2 : partLocs F ((init ++ [p] ++ [[d]]).map List.length) =
            partLocs F ((init ++ [p]).map List.length) ++ [(init.length + 1, 0)] := by
          rw [List.map_append, List.map_singleton, partLocs_snoc]
          simp [List.range_succ]
        rw [e1, e2, entries_snoc _ _ _ _ _ (hloc _), Option.map_some, List.nil_append, List.append_assoc]
      · intro j q hq
        rcases getElem?_snoc _ _ _ _ hq with hq | ⟨rfl, rfl⟩
        · have hj : j < (init ++ [p]).length := (List.getElem?_eq_some_iff.1 hq).1
          rw [List.length_append, List.length_singleton] at hj
          rw [h4 hi.header _ (by rw [hpart]; intro he; have := datName_inj he; omega)]
          exact hi.split.files j q hq
        · rw [hpart, hold] at o3
          simpa using o3
    · intro q hq x hx
      rcases List.mem_append.1 hq with hq | hq
      · exact hi.fits q hq x hx
      · rw [List.mem_singleton.1 hq] at hx
        rw [List.mem_singleton.1 hx]; exact hd
    · intro q hq
      rcases List.mem_append.1 hq with hq | hq
      · exact hi.closed q hq
      · rw [List.mem_singleton.1 hq]; exact hc
    · intro q hq
      rcases List.mem_append.1 hq with hq | hq
      · exact hi.tight q hq
      · rw [List.mem_singleton.1 hq]
        exact ⟨by simp, fun hm => by simpa using hm⟩
  · have e : placeNext m init.length (p.length * F) = (init.length, p.length * F) := if_neg hc
    rw [e] at hpart o1 o2 h3
    refine ⟨ops, w', init, p ++ [d], h1, ?_, by simp⟩
    have hold : old = p.flatMap frameBytes := o2 rfl
    constructor
    · exact h2.sync
    · exact h2.header
    · rw [h2.maxPart, hi.max]
    · exact hpart
    · constructor
      · rw [h3, hi.split.idx, if_pos hi.header]
        have e1 : (init ++ [p ++ [d]]).flatten = (init ++ [p]).flatten ++ [d] := by simp
        have e2 : partLocs F ((init ++ [p ++ [d]]).map List.length) =
            partLocs F ((init ++ [p]).map List.length) ++ [(init.length, p.length * F)] := by
          rw [List.map_append, List.map_singleton, partLocs_snoc, List.map_append, List.map_singleton,
            partLocs_snoc]
          simp [List.range_succ]
        rw [e1, e2, entries_snoc _ _ _ _ _ (hloc _), Option.map_some, List.nil_append, List.append_assoc]
      · intro j q hq
        rcases getElem?_snoc _ _ _ _ hq with hq | ⟨rfl, rfl⟩
        · have hj : j < init.length := (List.getElem?_eq_some_iff.1 hq).1
          rw [h4 hi.header _ (by rw [hpart]; intro he; have := datName_inj he; omega)]
          exact hi.split.files j q (by rw [List.getElem?_append_left hj]; exact hq)
        · rw [hpart, hold] at o3
          simpa using o3
    · intro q hq x hx
      rcases List.mem_append.1 hq with hq | hq
      · exact hi.fits q (by simp [hq]) x hx
      · rw [List.mem_singleton.1 hq] at hx
        rcases List.mem_append.1 hx with hx | hx
        · exact hi.fits p (by simp) x hx
        · rw [List.mem_singleton.1 hx]; exact hd
    · exact hi.closed
    · intro q hq
      rcases List.mem_append.1 hq with hq | hq
      · exact hi.tight q (by simp [hq])
      · rw [List.mem_singleton.1 hq]
        refine ⟨by simp, fun hm => ?_⟩
        rw [List.length_append, List.length_singleton, Nat.add_sub_cancel]
        by_contra hge
        exact hc ⟨hm, Int.not_lt.1 hge⟩

lemma inv_writeAll {base : FName} {h : Snap S C} {n : ℕ} {m : ℤ} (ds : List (Snap S C)) :
    ∀ {w : Writer} {fs : Files} {init : List (List (Snap S C))} {p : List (Snap S C)},
    Inv T w fs base h n m init p → (∀ d ∈ ds, Fits n d) →
    ∃ w' fs' init' p', w.writeAll T ds fs = some (w', fs') ∧ Inv T w' fs' base h n m init' p' ∧
      (init' ++ [p']).flatten = (init ++ [p]).flatten ++ ds := by
  induction ds with
  | nil => intro w fs init p hi _; exact ⟨w, fs, init, p, rfl, hi, by simp⟩
  | cons d ds ih =>
    intro w fs init p hi hf
    obtain ⟨ops, w1, i1, p1, h1, h2, h3⟩ := inv_step hi d (hf d (by simp))
    obtain ⟨w', fs', i', p', h4, h5, h6⟩ := ih h2 (fun x hx => hf x (by simp [hx]))
    refine ⟨w', fs', i', p', ?_, h5, ?_⟩
    · rw [Writer.writeAll, h1]; exact h4
    · rw [h6, h3]; simp

/-- The frames of a stream are divided into non-empty parts; part `j` is the file number `j` and consists of
the bytes of its frames and nothing else; the index gives each frame its part and its offset in it.  Every
part but the last has reached the maximum size, and no part reached it before its last frame. -/
theorem parts (T : TextOps S) (base : FName) (maxPart : ℤ) (fs : Files) (d : Snap S C) (ds : List (Snap S C))
    {n : ℕ} (hfit : ∀ x ∈ d :: ds, Fits n x) :
    let o := Writer.new.open base maxPart none fs
    ∃ w' fs' ps, o.2.writeAll T (d :: ds) (applyOps o.1 fs) = some (w', fs') ∧
      ps.flatten = d :: ds ∧ Split T fs' base d (frameSize S n) ps ∧ (∀ p ∈ ps, p ≠ []) ∧
      (∀ (j : ℕ) (p : List (Snap S C)), ps[j]? = some p → j + 1 < ps.length →
        0 < maxPart ∧ ∃ bs, fs'.bin (datName base j) = some bs ∧
          maxPart ≤ (bs.length : ℤ) ∧ (bs.length : ℤ) < maxPart + (frameSize S n : ℤ)) ∧
      (∀ (j : ℕ) (p : List (Snap S C)), ps[j]? = some p → 0 < maxPart →
        (((p.length - 1 : ℕ) * frameSize S n : ℕ) : ℤ) < maxPart) := by
  intro o
  obtain ⟨hf, hmax⟩ := open_fresh (w := Writer.new) rfl base maxPart fs
  have hb : (applyOps o.1 fs).bin (datName base o.2.fileN) = some [] := by rw [hf.part]; exact hf.data
  obtain ⟨ops, w1, h1, h2, h3, h4, _⟩ := fresh_step T hf d
  have hinv : Inv T w1 (applyOps ops (applyOps o.1 fs)) base d n maxPart [] [d] := by
    obtain ⟨old, o1, _, o3⟩ := h2.content
    have hp : w1.fileN = 0 := by rw [h2.part, List.length_nil, h3]
    rw [List.length_nil, h3] at o1
    have hold : old = [] := List.eq_nil_of_length_eq_zero o1
    constructor
    · exact h2.sync
    · exact h2.header
    · rw [h2.maxPart, hmax]
    · rw [hp]; rfl
    · constructor
      · rw [h4.holds.idx]
        simp [partLocs, List.range_succ]
      · intro j q hq
        cases j with
        | zero =>
          simp at hq
          rw [hp, hold] at o3
          rw [← hq]
          simpa using o3
        | succ j => simp at hq
    · intro q hq x hx
      simp at hq
      rw [hq] at hx
      rw [List.mem_singleton.1 hx]; exact hfit d (by simp)
    · intro q hq; cases hq
    · intro q hq
      simp at hq
      rw [hq]
      exact ⟨by simp, fun hm => by simpa using hm⟩
  obtain ⟨w', fs', init, p, h5, h6, h7⟩ := inv_writeAll ds hinv (fun x hx => hfit x (by simp [hx]))
  refine ⟨w', fs', init ++ [p], ?_, by simpa using h7, h6.split, fun q hq => (h6.tight q hq).1, ?_,
    fun j q hq hm => (h6.tight q (List.mem_of_getElem? hq)).2 hm⟩
  · rw [Writer.writeAll, h1]; exact h5
  · intro j q hq hj
    rw [List.length_append, List.length_singleton] at hj
    have hqi : q ∈ init := by
      rw [List.getElem?_append_left (by omega)] at hq
      exact List.mem_of_getElem? hq
    obtain ⟨hm, hle⟩ := h6.closed q hqi
    obtain ⟨hne, ht⟩ := h6.tight q (by simp [hqi])
    refine ⟨hm, _, h6.split.files j q hq, ?_, ?_⟩
    · rw [flatMap_bytes_length q (h6.fits q (by simp [hqi]))]; exact hle
    · rw [flatMap_bytes_length q (h6.fits q (by simp [hqi]))]
      have hl : 0 < q.length := List.length_pos_iff.2 hne
      have hlt := ht hm
      have e : q.length * frameSize S n = (q.length - 1) * frameSize S n + frameSize S n := by
        conv_lhs => rw [← Nat.sub_add_cancel hl]
        ring
      rw [e]
      push_cast at hlt ⊢
      omega

lemma partLocs_next (F : ℕ) (ns : List ℕ) (hpos : ∀ k ∈ ns, 0 < k) :
    ∀ (i : ℕ) (l l' : ℕ × ℕ), (partLocs F ns)[i]? = some l → (partLocs F ns)[i + 1]? = some l' →
      l' = (l.1, l.2 + F) ∨ l' = (l.1 + 1, 0) := by
  suffices key : ∀ ns : List ℕ, (∀ k ∈ ns, 0 < k) →
      ((∀ (i : ℕ) (l l' : ℕ × ℕ), (partLocs F ns)[i]? = some l → (partLocs F ns)[i + 1]? = some l' →
        l' = (l.1, l.2 + F) ∨ l' = (l.1 + 1, 0)) ∧
      ∀ l, (partLocs F ns).getLast? = some l → l.1 + 1 = ns.length) from (key ns hpos).1
  intro ns
  induction ns using List.reverseRecOn with
  | nil => intro _; exact ⟨fun i l l' h => by simp [partLocs] at h, fun l h => by simp [partLocs] at h⟩
  | append_singleton ns k ih =>
    intro hk
    obtain ⟨ih1, ih2⟩ := ih (fun x hx => hk x (by simp [hx]))
    have hk0 := hk k (by simp)
    rw [partLocs_snoc]
    set A := partLocs F ns with hA
    have hB : ∀ j, ((List.range k).map (fun i => (ns.length, i * F)))[j]? =
        if j < k then some (ns.length, j * F) else none := by
      intro j
      by_cases hj : j < k
      · rw [if_pos hj]; simp [hj]
      · rw [if_neg hj]; simp; omega
    refine ⟨fun i l l' h h' => ?_, fun l h => ?_⟩
    · rcases Nat.lt_trichotomy (i + 1) A.length with hlt | heq | hgt
      · rw [List.getElem?_append_left (by omega)] at h
        rw [List.getElem?_append_left hlt] at h'
        exact ih1 i l l' h h'
      · rw [List.getElem?_append_left (by omega)] at h
        rw [List.getElem?_append_right (by omega), hB, heq, Nat.sub_self, if_pos hk0] at h'
        right
        have := ih2 l (by rw [List.getLast?_eq_getElem?, ← heq, Nat.add_sub_cancel]; exact h)
        rw [← Option.some.inj h', this]
        simp
      · rw [List.getElem?_append_right (by omega), hB] at h h'
        split at h
        · split at h'
          · left
            rw [← Option.some.inj h', ← Option.some.inj h]
            simp only [Prod.mk.injEq, true_and]
            rw [show i + 1 - A.length = i - A.length + 1 by omega]; ring
          · cases h'
        · cases h
    · rw [List.getLast?_append] at h
      have : ((List.range k).map (fun i => (ns.length, i * F))).getLast? = some (ns.length, (k - 1) * F) := by
        rw [List.getLast?_eq_getElem?, hB]
        simp [hk0]
      rw [this] at h
      simp at h
      rw [← h]
      simp

/-- Part numbers never decrease and grow by at most one from frame to frame: a frame follows its predecessor
directly or starts the next part. -/
theorem part_numbers {T : TextOps S} {fs : Files} {base : FName} {h : Snap S C} {F : ℕ}
    {ps : List (List (Snap S C))} (_hs : Split T fs base h F ps) (hne : ∀ p ∈ ps, p ≠ []) (i : ℕ) (l l' : ℕ × ℕ)
    (h1 : (partLocs F (ps.map List.length))[i]? = some l)
    (h2 : (partLocs F (ps.map List.length))[i + 1]? = some l') :
    l' = (l.1, l.2 + F) ∨ l' = (l.1 + 1, 0) :=
  partLocs_next F _ (fun k hk => by
    obtain ⟨p, hp, rfl⟩ := List.mem_map.1 hk
    exact List.length_pos_iff.2 (hne p hp)) i l l' h1 h2

/-- Without a positive maximum everything goes into part 0. -/
theorem single_part (T : TextOps S) (base : FName) (maxPart : ℤ) (hm : maxPart ≤ 0) (fs : Files) (d : Snap S C)
    (ds : List (Snap S C)) {n : ℕ} (hfit : ∀ x ∈ d :: ds, Fits n x) :
    let o := Writer.new.open base maxPart none fs
    ∃ w' fs', o.2.writeAll T (d :: ds) (applyOps o.1 fs) = some (w', fs') ∧
      fs'.bin (datName base 0) = some ((d :: ds).flatMap frameBytes) := by
  intro o
  obtain ⟨w', fs', ps, h1, h2, h3, _, h5, _⟩ := parts T base maxPart fs d ds hfit
  refine ⟨w', fs', h1, ?_⟩
  match ps, h2, h3, h5 with
  | [], h2, _, _ => simp at h2
  | [p], h2, h3, _ =>
    rw [h3.files 0 p rfl, ← h2]; simp
  | p :: q :: ps, _, _, h5 =>
    have := (h5 0 p rfl (by simp)).1
    omega

end

/-! ### Concrete case -/

open StreamExample

/-- Frames of 96 bytes in parts of at least 100 bytes: two frames per part. -/
example : let o := Writer.new.open ['s'] 100 none ⟨fun _ => none, fun _ => none⟩
    ∃ w' fs', o.2.writeAll text [snap 0 0 1, snap 1 1 2, snap 2 2 3, snap 3 3 4, snap 4 4 5]
        (applyOps o.1 ⟨fun _ => none, fun _ => none⟩) = some (w', fs') ∧ w'.fileN = 2 ∧
      (fs'.bin (datName ['s'] 0)).map List.length = some 192 ∧
      (fs'.bin (datName ['s'] 1)).map List.length = some 192 ∧
      (fs'.bin (datName ['s'] 2)).map List.length = some 96 :=
  ⟨_, _, rfl, by decide +kernel, by decide +kernel, by decide +kernel, by decide +kernel⟩

example : ∀ x ∈ [snap 0 0 1, snap 1 1 2, snap 2 2 3, snap 3 3 4, snap 4 4 5], Fits 2 x := by
  intro x hx
  simp only [List.mem_cons, List.not_mem_nil, or_false] at hx
  rcases hx with rfl | rfl | rfl | rfl | rfl <;> exact snap_fits _ _ _ (by decide)

end NB.C38
