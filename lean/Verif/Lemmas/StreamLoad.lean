import Verif.Lemmas.StreamText
import Verif.Spec.Stream

/-
Loading the index of a stream.
-/

namespace NB

open StreamSpec

section
variable {S C : Type} [Raw S] [Raw C]

lemma frameLine_eq (T : TextOps S) (d : Snap S C) (l : ℕ × ℕ) :
    frameLine T d.step d.time l.1 l.2 = entry T d l ++ ['\n'] := by
  simp [frameLine, entry]

lemma entry_noBreak {T : TextOps S} {rnd : S → S} (hT : TextGood T rnd) (d : Snap S C) (l : ℕ × ℕ) :
    '\n' ∉ entry T d l := by
  unfold entry
  simp only [List.mem_append, List.mem_cons, not_or]
  exact ⟨notMem_digits (by decide), by decide, hT.noBreak _, by decide, notMem_digits (by decide), by decide,
    notMem_digits (by decide)⟩

lemma toDigits_cons (n : ℕ) : ∃ c r, Nat.toDigits 10 n = c :: r ∧ c.isDigit = true := by
  have h := digits_digit (n := n)
  cases e : Nat.toDigits 10 n with
  | nil => exact absurd e Nat.toDigits_ne_nil
  | cons c r => exact ⟨c, r, rfl, h c (by rw [e]; simp)⟩

lemma entry_head (T : TextOps S) (d : Snap S C) (l : ℕ × ℕ) : (entry T d l).head? ≠ some '#' := by
  obtain ⟨c, r, e, hc⟩ := toDigits_cons d.step
  unfold entry
  rw [e]
  simp only [List.cons_append, List.head?_cons, ne_eq, Option.some.injEq]
  exact not_digit_of hc (by decide)

lemma entry_split {T : TextOps S} {rnd : S → S} (hT : TextGood T rnd) (d : Snap S C) (l : ℕ × ℕ) :
    splitOn '\t' (entry T d l) = [Nat.toDigits 10 d.step, T.fmt d.time, Nat.toDigits 10 l.1, Nat.toDigits 10 l.2] := by
  unfold entry
  rw [splitOn_append _ _ _ (notMem_digits (by decide)), splitOn_append _ _ _ (hT.noTab _),
    splitOn_append _ _ _ (notMem_digits (by decide)), splitOn_of_notMem _ _ (notMem_digits (by decide))]

/-- The item of a frame. -/
def itemOf (rnd : S → S) (d : Snap S C) (l : ℕ × ℕ) : Item S := ⟨d.step, rnd d.time, l.1, (l.2 : ℤ)⟩

lemma parseItem_entry {T : TextOps S} {rnd : S → S} (hT : TextGood T rnd) (d : Snap S C) (l : ℕ × ℕ)
    (hs : d.step ≤ sizeMax) (hl : LocOk l) : parseItem T (entry T d l) = some (itemOf rnd d l) := by
  unfold parseItem
  rw [entry_split hT]
  simp only [toULongLong_toDigits hs, hT.back, toULongLong_toDigits (Nat.le_of_lt hl.1), toLongLong_toDigits hl.2]
  rfl

lemma loadLines_entries {T : TextOps S} {rnd : S → S} (hT : TextGood T rnd) (ds : List (Snap S C))
    (locs : List (ℕ × ℕ)) (rest : List (List Char)) (r : Reader S)
    (hs : ∀ d ∈ ds, d.step ≤ sizeMax) (hl : ∀ l ∈ locs, LocOk l) :
    Reader.loadLines T (List.zipWith (entry T) ds locs ++ rest) r =
      Reader.loadLines T rest { r with frames := r.frames ++ List.zipWith (itemOf rnd) ds locs } := by
  induction ds generalizing locs r with
  | nil => simp
  | cons d ds ih =>
    cases locs with
    | nil => simp
    | cons l locs =>
      rw [List.zipWith_cons_cons, List.cons_append, Reader.loadLines, if_neg (entry_head T d l),
        parseItem_entry hT d l (hs d (by simp)) (hl l (by simp))]
      simp only
      rw [ih locs _ (fun x hx => hs x (by simp [hx])) (fun x hx => hl x (by simp [hx]))]
      simp

/-- The header lines without line breaks. -/
def headerLines (d : Snap S C) : List (List Char) :=
  [['#', 'c', 'o', 'o', 'r', 'd', '_', 's', 'i', 'z', 'e'] ++ ' ' :: Nat.toDigits 10 (Raw.size S),
   ['#', 'b', 'o', 'd', 'y', '_', 'c', 'o', 'u', 'n', 't'] ++ ' ' :: Nat.toDigits 10 d.count,
   ['#', 'b', 'o', 'x', '_', 's', 'i', 'z', 'e'] ++ ' ' :: Nat.toDigits 10 d.box]

lemma headerText_eq (d : Snap S C) : headerText d = unlines (headerLines d) := by
  simp [headerText, headerLines, unlines]

lemma headerLines_noBreak (d : Snap S C) :
    ∀ l ∈ headerLines d, '\n' ∉ l := by
  intro l hl
  simp only [headerLines, List.mem_cons, List.not_mem_nil, or_false] at hl
  rcases hl with rfl | rfl | rfl
  · simp only [List.mem_append, List.mem_cons, not_or]
    exact ⟨by decide, by decide, notMem_digits (by decide)⟩
  · simp only [List.mem_append, List.mem_cons, not_or]
    exact ⟨by decide, by decide, notMem_digits (by decide)⟩
  · simp only [List.mem_append, List.mem_cons, not_or]
    exact ⟨by decide, by decide, notMem_digits (by decide)⟩

lemma headerLine_coord (r : Reader S) (h : Raw.size S ≤ sizeMax) :
    r.headerLine (['#', 'c', 'o', 'o', 'r', 'd', '_', 's', 'i', 'z', 'e'] ++ ' ' :: Nat.toDigits 10 (Raw.size S)) =
      { r with coordSize := Raw.size S } := by
  unfold Reader.headerLine
  rw [splitOn_append _ _ _ (by decide), splitOn_of_notMem _ _ (notMem_digits (by decide))]
  simp only [toULongLong_toDigits h]
  rfl

lemma headerLine_count (r : Reader S) {n : ℕ} (h : n ≤ sizeMax) :
    r.headerLine (['#', 'b', 'o', 'd', 'y', '_', 'c', 'o', 'u', 'n', 't'] ++ ' ' :: Nat.toDigits 10 n) =
      { r with bodyCount := n } := by
  unfold Reader.headerLine
  rw [splitOn_append _ _ _ (by decide), splitOn_of_notMem _ _ (notMem_digits (by decide))]
  simp only [toULongLong_toDigits h]
  rfl

lemma headerLine_box (r : Reader S) {box b : ℕ} (h : BoxGood box b) :
    r.headerLine (['#', 'b', 'o', 'x', '_', 's', 'i', 'z', 'e'] ++ ' ' :: Nat.toDigits 10 box) =
      { r with boxSize := b } := by
  unfold Reader.headerLine
  rw [splitOn_append _ _ _ (by decide), splitOn_of_notMem _ _ (notMem_digits (by decide))]
  rw [h.value]
  simp only [toULongLong_toDigits h.bound]
  rfl

lemma loadLines_hash (T : TextOps S) (line : List Char) (ls : List (List Char)) (r : Reader S)
    (h : line.head? = some '#') :
    Reader.loadLines T (line :: ls) r = Reader.loadLines T ls (r.headerLine line) := by
  rw [Reader.loadLines]; exact if_pos h

lemma loadLines_header {T : TextOps S} {d : Snap S C} {b : ℕ} (hb : BoxGood d.box b)
    (hn : d.count ≤ sizeMax) (hw : Raw.size S ≤ sizeMax) (rest : List (List Char)) (r : Reader S) :
    Reader.loadLines T (headerLines d ++ rest) r =
      Reader.loadLines T rest { r with coordSize := Raw.size S, bodyCount := d.count, boxSize := b } := by
  unfold headerLines
  rw [List.cons_append, loadLines_hash T _ _ _ rfl, List.cons_append, loadLines_hash T _ _ _ rfl,
    List.cons_append, loadLines_hash T _ _ _ rfl, headerLine_coord r hw, headerLine_count _ hn,
    headerLine_box _ hb, List.nil_append]

lemma entries_eq (T : TextOps S) (ds : List (Snap S C)) (locs : List (ℕ × ℕ)) :
    entries T ds locs = unlines (List.zipWith (entry T) ds locs) := rfl

lemma unlines_append (a b : List (List Char)) : unlines (a ++ b) = unlines a ++ unlines b := by
  simp [unlines]

lemma zipWith_noBreak {T : TextOps S} {rnd : S → S} (hT : TextGood T rnd) (ds : List (Snap S C))
    (locs : List (ℕ × ℕ)) : ∀ l ∈ List.zipWith (entry T) ds locs, '\n' ∉ l := by
  intro l hl
  rw [← List.map_uncurry_zip_eq_zipWith] at hl
  obtain ⟨⟨d, q⟩, _, rfl⟩ := List.mem_map.1 hl
  exact entry_noBreak hT d q

/-- The lines of an index file with header, entries and an unfinished last line. -/
lemma textLines_index {T : TextOps S} {rnd : S → S} (hT : TextGood T rnd) (h : Snap S C)
    (ds : List (Snap S C)) (locs : List (ℕ × ℕ)) (tail : List Char) (ht : '\n' ∉ tail) :
    textLines (headerText h ++ entries T ds locs ++ tail) =
      headerLines h ++ (List.zipWith (entry T) ds locs ++ (if tail = [] then [] else [tail])) := by
  rw [headerText_eq, entries_eq, ← unlines_append, textLines_unlines _ _ _ ht, List.append_assoc]
  intro l hl
  rcases List.mem_append.1 hl with hl | hl
  · exact headerLines_noBreak h l hl
  · exact zipWith_noBreak hT ds locs l hl

/-- The reader after loading a stream. -/
def loadedReader (r : Reader S) (rnd : S → S) (base : FName) (n b : ℕ) (ds : List (Snap S C))
    (locs : List (ℕ × ℕ)) : Reader S :=
  { frames := List.zipWith (itemOf rnd) ds locs, base := base, file := none, fileN := sizeMax,
    current := sizeMax, coordSize := Raw.size S, bodyCount := n, boxSize := b, colorsRead := r.colorsRead,
    massesRead := r.massesRead }

lemma load_of {T : TextOps S} {fs : Files} {base : FName} {r q : Reader S} {t : List Char}
    (ht : fs.txt (idxName base) = some t) (hl : Reader.loadLines T (textLines t) r.close = (true, q))
    (hq : ¬ (q.bodyCount = 0 ∨ q.coordSize = 0 ∨ q.boxSize = 0)) (hc : q.coordSize = Raw.size S) :
    r.load T fs base = ({ q with base := base } : Reader S).seek fs 0 := by
  unfold Reader.load
  simp only [ht, hl]
  rw [if_neg (by decide), if_neg hq, if_neg (not_not.2 hc)]

lemma load_fails_lines {T : TextOps S} {fs : Files} {base : FName} {r : Reader S} {t : List Char}
    (ht : fs.txt (idxName base) = some t) (hl : (Reader.loadLines T (textLines t) r.close).1 = false) :
    (r.load T fs base).1 = false := by
  unfold Reader.load
  simp only [ht, hl, if_true]

lemma load_fails_header {T : TextOps S} {fs : Files} {base : FName} {r q : Reader S} {t : List Char}
    (ht : fs.txt (idxName base) = some t) (hl : Reader.loadLines T (textLines t) r.close = (true, q))
    (hq : q.bodyCount = 0 ∨ q.coordSize = 0 ∨ q.boxSize = 0) :
    r.load T fs base = (false, q) := by
  unfold Reader.load
  simp only [ht, hl]
  rw [if_neg (by decide), if_pos hq]

lemma load_idx {T : TextOps S} {rnd : S → S} (hT : TextGood T rnd) {fs : Files} {base : FName} {h : Snap S C}
    {ds : List (Snap S C)} {locs : List (ℕ × ℕ)} {b : ℕ}
    (hidx : fs.txt (idxName base) = some (headerText h ++ entries T ds locs)) (hloc : ∀ l ∈ locs, LocOk l)
    (hb : BoxGood h.box b) (hn : h.count ≤ sizeMax) (hn0 : 0 < h.count) (hw : Raw.size S ≤ sizeMax)
    (hs : ∀ d ∈ ds, d.step ≤ sizeMax) (r : Reader S) :
    r.load T fs base = (loadedReader r rnd base h.count b ds locs).seek fs 0 := by
  have e := textLines_index hT h ds locs [] (by simp)
  rw [List.append_nil, if_pos rfl] at e
  have hl : Reader.loadLines T (textLines (headerText h ++ entries T ds locs)) r.close =
      (true, { loadedReader r rnd base h.count b ds locs with base := [] }) := by
    rw [e, loadLines_header hb hn hw, loadLines_entries hT ds locs _ _ hs hloc]
    rfl
  rw [load_of hidx hl]
  · rfl
  · have := Raw.size_pos (S := S)
    have := hb.pos
    simp only [loadedReader]
    omega
  · rfl

lemma load_eq {T : TextOps S} {rnd : S → S} (hT : TextGood T rnd) {fs : Files} {base : FName} {h : Snap S C}
    {ds : List (Snap S C)} {locs : List (ℕ × ℕ)} {b : ℕ} (hh : Holds T fs base h ds locs)
    (hb : BoxGood h.box b) (hn : h.count ≤ sizeMax) (hn0 : 0 < h.count) (hw : Raw.size S ≤ sizeMax)
    (hs : ∀ d ∈ ds, d.step ≤ sizeMax) (r : Reader S) :
    r.load T fs base = (loadedReader r rnd base h.count b ds locs).seek fs 0 :=
  load_idx hT hh.idx hh.loc hb hn hn0 hw hs r

end

end NB
