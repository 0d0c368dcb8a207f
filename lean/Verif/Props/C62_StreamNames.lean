import Verif.Props.C41_StreamReader
import Mathlib.Data.List.Induction

/-
C62: streams with different names do not disturb each other.
-/

namespace NB.C62

open StreamSpec C41

/-- The names of the files of a stream. -/
inductive FileOf (base : FName) : FName → Prop
  | idx : FileOf base (idxName base)
  | dat (k : ℕ) : FileOf base (datName base k)
  | col : FileOf base (colName base)
  | mass : FileOf base (massName base)

/-- Within a stream the data files of different parts are different files, and none of them is the file of
colours or masses or the index. -/
theorem own_files_distinct (base : FName) :
    (∀ i j, i ≠ j → datName base i ≠ datName base j) ∧
    (∀ i, datName base i ≠ colName base ∧ datName base i ≠ massName base ∧ datName base i ≠ idxName base) ∧
    colName base ≠ massName base ∧ colName base ≠ idxName base ∧ massName base ≠ idxName base := by
  refine ⟨fun i j h e => h (datName_inj e), fun i => ⟨datName_ne_colName _ _ _, datName_ne_massName _ _ _, ?_⟩,
    colName_ne_massName _ _, ?_, ?_⟩
  · intro h
    have := congrArg List.getLast? h
    simp [datName, idxName] at this
  · intro h
    have := congrArg List.getLast? h
    simp [colName, idxName] at this
  · intro h
    have := congrArg List.getLast? h
    simp [massName, idxName] at this

/-- Names of which neither, followed by a number, is the other followed by a number. -/
def Apart (a b : FName) : Prop := a ≠ b ∧ ∀ i j : ℕ, a ++ Nat.toDigits 10 i ≠ b ++ Nat.toDigits 10 j

/-- Names that do not end with a digit. -/
def EndsPlain (a : FName) : Prop := ∀ c, a.getLast? = some c → c.isDigit = false

lemma eq_of_digits (a b : FName) (ha : EndsPlain a) (hb : EndsPlain b) (x y : List Char)
    (hx : ∀ c ∈ x, c.isDigit = true) (hy : ∀ c ∈ y, c.isDigit = true) (h : a ++ x = b ++ y) : a = b := by
  induction x using List.reverseRecOn generalizing y with
  | nil =>
    rcases List.eq_nil_or_concat y with rfl | ⟨y', c, rfl⟩
    · simpa using h
    · rw [List.append_nil] at h
      have := ha c (by rw [h]; simp)
      rw [hy c (by simp)] at this
      cases this
  | append_singleton x c ih =>
    rcases List.eq_nil_or_concat y with rfl | ⟨y', c', rfl⟩
    · rw [List.append_nil] at h
      have := hb c (by rw [← h]; simp)
      rw [hx c (by simp)] at this
      cases this
    · rw [← List.append_assoc, List.concat_eq_append, ← List.append_assoc] at h
      have := List.append_inj' h rfl
      exact ih y' (fun c hc => hx c (by simp [hc])) (fun c hc => hy c (by simp [hc])) this.1

/-- Names that do not end with a digit are apart unless they are equal. -/
theorem plain_apart (a b : FName) (ha : EndsPlain a) (hb : EndsPlain b) (h : a ≠ b) : Apart a b :=
  ⟨h, fun _ _ e => h (eq_of_digits a b ha hb _ _ (fun _ => digits_digit _) (fun _ => digits_digit _) e)⟩

/-- Streams whose names are apart have no file in common; otherwise they do. -/
theorem apart_iff (a b : FName) : Apart a b ↔ ∀ f, ¬ (FileOf a f ∧ FileOf b f) := by
  constructor
  · rintro ⟨h1, h2⟩ f ⟨hf, hg⟩
    have key : ∀ {x y : FName}, x = y → x.getLast? = y.getLast? := fun h => congrArg _ h
    cases hf with
    | idx =>
      generalize e : idxName a = f at hg
      cases hg with
      | idx => exact h1 (List.append_cancel_right e)
      | dat k => have := key e; simp [idxName, datName] at this
      | col => have := key e; simp [idxName, colName] at this
      | mass => have := key e; simp [idxName, massName] at this
    | dat i =>
      generalize e : datName a i = f at hg
      cases hg with
      | idx => have := key e; simp [idxName, datName] at this
      | dat k => exact h2 i k (List.append_cancel_right e)
      | col => exact datName_ne_colName _ _ _ e
      | mass => exact datName_ne_massName _ _ _ e
    | col =>
      generalize e : colName a = f at hg
      cases hg with
      | idx => have := key e; simp [idxName, colName] at this
      | dat k => exact datName_ne_colName _ _ _ e.symm
      | col => exact h1 (List.append_cancel_right e)
      | mass => exact colName_ne_massName _ _ e
    | mass =>
      generalize e : massName a = f at hg
      cases hg with
      | idx => have := key e; simp [idxName, massName] at this
      | dat k => exact datName_ne_massName _ _ _ e.symm
      | col => exact colName_ne_massName _ _ e.symm
      | mass => exact h1 (List.append_cancel_right e)
  · intro h
    refine ⟨fun e => h _ ⟨.idx, e ▸ .idx⟩, fun i j e => h (datName a i) ⟨.dat i, ?_⟩⟩
    have : datName a i = datName b j := by unfold datName; rw [e]
    rw [this]
    exact .dat j

section
variable {S C : Type} [Raw S] [Raw C]
variable {T : TextOps S} {rnd : S → S} {fs : Files} {base : FName} {h : Snap S C} {n b : ℕ}
  {ds : List (Snap S C)} {locs : List (ℕ × ℕ)}

/-- Files of a stream that are left alone keep the stream. -/
lemma readable_keep {fs' : Files} (hr : Readable T rnd fs base h n b ds locs)
    (ht : ∀ f, FileOf base f → fs'.txt f = fs.txt f) (hb : ∀ f, FileOf base f → fs'.bin f = fs.bin f) :
    Readable T rnd fs' base h n b ds locs := by
  refine ⟨hr.text, ⟨hr.holds.len, ?_, ?_, hr.holds.loc, ?_, ?_⟩, ?_, hr.box, hr.fits, hr.head, hr.pos, hr.bound,
    hr.size, hr.frames⟩
  · rw [ht _ .idx]; exact hr.holds.idx
  · intro k d l h1 h2
    obtain ⟨pre, post, h3, h4⟩ := hr.holds.frame k d l h1 h2
    exact ⟨pre, post, by rw [hb _ (.dat _)]; exact h3, h4⟩
  · rw [hb _ .col]; exact hr.holds.col
  · rw [hb _ .mass]; exact hr.holds.mass
  · intro d l h1 h2
    obtain ⟨pre, h3, h4⟩ := hr.last d l h1 h2
    exact ⟨pre, by rw [hb _ (.dat _)]; exact h3, h4⟩

/-- The name of the open stream is the one of the open files. -/
structure Own (w : Writer) (base : FName) : Prop where
  name : w.base = base
  idx : ∀ f, w.idxFile = some f → f = idxName base
  data : ∀ f k, w.dataFile = some (f, k) → f = datName base w.fileN

lemma own_write {w : Writer} {base' : FName} (hw : Own w base') (d : Snap S C) {ops : List FileOp} {w' : Writer}
    (e : w.write T d = some (ops, w')) (fs : Files) :
    Own w' base' ∧ (∀ f, ¬ FileOf base' f → (applyOps ops fs).txt f = fs.txt f) ∧
      (∀ f, ¬ FileOf base' f → (applyOps ops fs).bin f = fs.bin f) := by
  unfold Writer.write at e
  split at e
  · rename_i idx dn pos hi hd
    simp only [Option.some.injEq, Prod.mk.injEq] at e
    obtain ⟨rfl, rfl⟩ := e
    have e1 := hw.idx _ hi
    have e2 := hw.data _ _ hd
    have e3 := hw.name
    refine ⟨⟨e3, fun f hf => hw.idx f hf, ?_⟩, ?_, ?_⟩
    · intro f k hf
      simp only [Option.some.injEq, Prod.mk.injEq] at hf
      rw [← hf.1]
      split_ifs
      · rw [e3]
      · exact e2
    · intro f hf
      have : f ≠ idx := by rintro rfl; exact hf (e1 ▸ .idx)
      split_ifs <;> simp [applyOps_cons, applyOps_nil, this]
    · intro f hf
      have h1 : f ≠ dn := by rintro rfl; exact hf (e2 ▸ .dat _)
      have h2 : f ≠ datName w.base (w.fileN + 1) := by rintro rfl; exact hf (e3 ▸ .dat _)
      have h3 : f ≠ colName w.base := by rintro rfl; exact hf (e3 ▸ .col)
      have h4 : f ≠ massName w.base := by rintro rfl; exact hf (e3 ▸ .mass)
      split_ifs <;> simp [applyOps_cons, applyOps_nil, h1, h2, h3, h4]
  · cases e

lemma own_writeAll (ds' : List (Snap S C)) : ∀ {w : Writer} {base' : FName} {fs : Files} {w' : Writer} {fs' : Files},
    Own w base' → w.writeAll T ds' fs = some (w', fs') →
    (∀ f, ¬ FileOf base' f → fs'.txt f = fs.txt f) ∧ (∀ f, ¬ FileOf base' f → fs'.bin f = fs.bin f) := by
  induction ds' with
  | nil =>
    intro w base' fs w' fs' _ e
    simp only [Writer.writeAll, Option.some.injEq, Prod.mk.injEq] at e
    obtain ⟨rfl, rfl⟩ := e
    exact ⟨fun _ _ => rfl, fun _ _ => rfl⟩
  | cons d ds' ih =>
    intro w base' fs w' fs' hw e
    rw [Writer.writeAll] at e
    cases h1 : w.write T d with
    | none => rw [h1] at e; cases e
    | some p =>
      obtain ⟨ops, w1⟩ := p
      rw [h1] at e
      obtain ⟨o1, o2, o3⟩ := own_write hw d h1 fs
      obtain ⟨i1, i2⟩ := ih o1 e
      exact ⟨fun f hf => (i1 f hf).trans (o2 f hf), fun f hf => (i2 f hf).trans (o3 f hf)⟩

/-- Writing a stream, new or continued, leaves a stream whose name is apart as it was. -/
theorem other_stream_kept (hr : Readable T rnd fs base h n b ds locs) {other : FName} (hap : Apart base other)
    (w : Writer) (maxPart : ℤ) (app : Option ℕ) (ds' : List (Snap S C)) {w' : Writer} {fs' : Files} :
    let o := w.open other maxPart app fs
    o.2.writeAll T ds' (applyOps o.1 fs) = some (w', fs') → Readable T rnd fs' base h n b ds locs := by
  intro o e
  have hno : ∀ f, FileOf base f → ¬ FileOf other f := fun f h1 h2 => (apart_iff base other).1 hap f ⟨h1, h2⟩
  have hown : Own o.2 other := by
    cases app with
    | none => exact ⟨rfl, fun f hf => (Option.some.inj hf).symm, fun f k hf => (congrArg Prod.fst (Option.some.inj hf)).symm⟩
    | some k => exact ⟨rfl, fun f hf => (Option.some.inj hf).symm, fun f k hf => (congrArg Prod.fst (Option.some.inj hf)).symm⟩
  obtain ⟨k1, k2⟩ := own_writeAll ds' hown e
  have hopen : (∀ f, ¬ FileOf other f → (applyOps o.1 fs).txt f = fs.txt f) ∧
      (∀ f, ¬ FileOf other f → (applyOps o.1 fs).bin f = fs.bin f) := by
    constructor
    · intro f hf
      have h1 : f ≠ idxName other := by rintro rfl; exact hf .idx
      cases app <;> simp [o, Writer.open, applyOps_cons, applyOps_nil, h1]
    · intro f hf
      have h2 : ∀ k, f ≠ datName other k := by rintro k rfl; exact hf (.dat k)
      cases app <;> simp [o, Writer.open, applyOps_cons, applyOps_nil, h2]
  exact readable_keep hr (fun f hf => (k1 f (hno f hf)).trans (hopen.1 f (hno f hf)))
    (fun f hf => (k2 f (hno f hf)).trans (hopen.2 f (hno f hf)))

/-- Seeking to a frame whose data file exists. -/
lemma seek_exists {r : Reader S} {q : Item S} {m : ℕ} {x : List UInt8} (hne : m ≠ r.current)
    (hq : r.frames[m]? = some q) (hfn : r.fileN ≠ q.fileN) (hp : 0 ≤ q.filePos)
    (hx : fs.bin (datName r.base q.fileN) = some x) :
    r.seek fs m = (true, { r with file := some (datName r.base q.fileN, q.filePos.toNat), current := m }) := by
  have hp' : ¬ q.filePos < 0 := by omega
  unfold Reader.seek
  rw [if_neg hne, hq]
  cases hfile : r.file with
  | none => simp [hx, hp']
  | some p => simp [hx, hp', hfn]

/-- Negation for names that are not apart: opening a stream whose first data file has the name of part `k` of
another stream destroys every frame of that part.  The other stream still loads with its full number of
frames, but no frame of that part can be read. -/
theorem other_stream_destroyed (hr : Readable T rnd fs base h n b ds locs) {other : FName} {k : ℕ}
    (hclash : datName other 0 = datName base k) (hidx : other ≠ base) (w : Writer) (maxPart : ℤ) {m : ℕ}
    {l : ℕ × ℕ} (hm : locs[m]? = some l) (hl : l.1 = k) :
    let fs' := applyOps (w.open other maxPart none fs).1 fs
    ∃ r r1 r2, Reader.new.load T fs' base = (true, r) ∧ r.frameCount = ds.length ∧
      r.seek fs' m = (true, r1) ∧ r1.read C fs' n = .ok (none, r2) := by
  intro fs'
  have hempty : fs'.bin (datName base k) = some [] := by
    simp only [fs', Writer.open, applyOps_cons, applyOps_nil, hclash]
    simp [FileOp.apply]
  have hbin : ∀ (j : ℕ), (∃ x, fs.bin (datName base j) = some x) → ∃ x, fs'.bin (datName base j) = some x := by
    rintro j ⟨x, hx⟩
    by_cases e : datName base j = datName base k
    · exact ⟨[], by rw [e]; exact hempty⟩
    · refine ⟨x, ?_⟩
      simp only [fs', Writer.open, applyOps_cons, applyOps_nil, hclash]
      simp [FileOp.apply, e, hx]
  have hne : idxName base ≠ idxName other := fun e => hidx (List.append_cancel_right e).symm
  have htxt : fs'.txt (idxName base) = some (headerText h ++ entries T ds locs) := by
    rw [← hr.holds.idx]
    simp only [fs', Writer.open, applyOps_cons, applyOps_nil]
    simp [FileOp.apply, hne]
  have hload := load_idx hr.text htxt hr.holds.loc hr.box (by rw [hr.head.count]; exact hr.bound)
    (by rw [hr.head.count]; exact hr.pos) hr.size (fun d hd => (hr.fits d hd).step) Reader.new
  -- seeking works for every frame
  have hsk : ∀ (q : Reader S) (i : ℕ), i < ds.length → q.frames = List.zipWith (itemOf rnd) ds locs →
      q.base = base → q.fileN = sizeMax → i ≠ q.current → ∀ (l' : ℕ × ℕ), locs[i]? = some l' →
      q.seek fs' i = (true, { q with file := some (datName base l'.1, l'.2), current := i }) := by
    intro q i hi q1 q2 q3 q4 l' hl'
    obtain ⟨d, l2, g1, g2, g3, ⟨pre, post, g4, _⟩, g5⟩ := holds_at (rnd := rnd) hr.holds hi
    have : l2 = l' := by rw [g2] at hl'; exact Option.some.inj hl'
    subst this
    obtain ⟨x, hx⟩ := hbin l2.1 ⟨_, g4⟩
    have := seek_exists (fs := fs') (r := q) (q := itemOf rnd d l2) (m := i) (x := x) q4 (by rw [q1]; exact g5)
      (by rw [q3]; exact Ne.symm (Nat.ne_of_lt g3.1)) (Int.natCast_nonneg _) (by rw [q2]; exact hx)
    rw [this, q2]
    rfl
  have hmlt : m < ds.length := by
    rw [← hr.holds.len]
    by_contra hh
    rw [List.getElem?_eq_none (by omega)] at hm
    cases hm
  obtain ⟨d0, l0, _, z2, _⟩ := holds_at (rnd := rnd) hr.holds (k := 0) (by omega)
  rw [hsk _ 0 (by omega) rfl rfl rfl (by simp only [loadedReader]; decide) l0 z2] at hload
  obtain ⟨d, l2, g1, g2, g3, _, g5⟩ := holds_at (rnd := rnd) hr.holds hmlt
  have hpos : 0 < 3 * Raw.size S * n :=
    Nat.mul_pos (Nat.mul_pos (by decide) Raw.size_pos) hr.pos
  -- reading there gives nothing
  have hread : ∀ q : Reader S, q.frames = List.zipWith (itemOf rnd) ds locs → q.bodyCount = n → q.current = m →
      q.file = some (datName base k, l.2) → ∃ q2, q.read C fs' n = .ok (none, q2) := by
    intro q q1 q2 q3 q4
    have e : fileRead fs' (datName base k) l.2 (3 * Raw.size S * n) = [] := fileRead_end hempty (by simp)
    unfold Reader.read
    simp only [q2, ne_eq, not_true_eq_false, if_false, q1, q3, g5, q4, e, List.length_nil]
    rw [if_pos (by omega)]
    exact ⟨_, rfl⟩
  have hzl : (List.zipWith (itemOf rnd) ds locs).length = ds.length := zipWith_length hr.holds
  by_cases hm0 : m = 0
  · subst hm0
    have : l0 = l := by rw [z2] at hm; exact Option.some.inj hm
    subst this
    obtain ⟨q2, hq2⟩ := hread { (loadedReader Reader.new rnd base h.count b ds locs) with
        file := some (datName base l0.1, l0.2), current := 0 } rfl hr.head.count rfl (by simp only [hl])
    exact ⟨_, _, q2, hload, hzl, by unfold Reader.seek; rw [if_pos rfl], hq2⟩
  · have hs := hsk { (loadedReader Reader.new rnd base h.count b ds locs) with
        file := some (datName base l0.1, l0.2), current := 0 } m hmlt rfl rfl rfl hm0 l hm
    obtain ⟨q2, hq2⟩ := hread { (loadedReader Reader.new rnd base h.count b ds locs) with
        file := some (datName base l.1, l.2), current := m } rfl hr.head.count rfl (by simp only [hl])
    exact ⟨_, _, q2, hload, hzl, hs, hq2⟩

end

/-! ### Concrete cases -/

/-- Names that end with a letter are apart. -/
example : Apart ['r', 'u', 'n', 'a'] ['r', 'u', 'n'] :=
  plain_apart _ _ (by intro c h; simp at h; subst h; decide) (by intro c h; simp at h; subst h; decide) (by decide)

/-- The clash: part 10 of `x` and part 0 of `x1` are the same file. -/
example : datName ['x', '1'] 0 = datName ['x'] 10 := by decide +kernel

open StreamExample in
/-- It does happen: a stream `x` of eleven frames, one per part, loses its last frame when `x1` is opened. -/
example : let o := Writer.new.open ['x'] 1 none ⟨fun _ => none, fun _ => none⟩
    ∃ w' fs', o.2.writeAll text ((List.range 11).map (fun k => snap k 0 1))
        (applyOps o.1 ⟨fun _ => none, fun _ => none⟩) = some (w', fs') ∧ w'.fileN = 10 ∧
      (fs'.bin (datName ['x'] 10)).map List.length = some 96 ∧
      ((applyOps (Writer.new.open ['x', '1'] 1 none fs').1 fs').bin (datName ['x'] 10)).map List.length = some 0 :=
  ⟨_, _, rfl, by decide +kernel, by decide +kernel, by decide +kernel⟩

example : ¬ Apart ['x'] ['x', '1'] := fun h => h.2 10 0 (by decide +kernel)

end NB.C62
