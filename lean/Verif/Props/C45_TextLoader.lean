import Verif.Props.C44_TextRoundTrip

/-
C45.  `load` accepts exactly the files whose lines are blank, comments or bodies.
-/

namespace NB.C45

open TextSpec

variable {S C : Type} [Zero S] [Mul S]

/-- The lines of a text are determined, and every text has lines. -/
theorem lines_unique (t : List Char) : ∃! ls, Lines t ls := by
  obtain ⟨ls, h⟩ := lines_exist t
  exact ⟨ls, h, fun ls' h' => by rw [← lines_textLines h', lines_textLines h]⟩

/-- What a line stands for is determined. -/
theorem means_unique (T : TextOps S) (line : List Char) (o o' : Option (BodyLine S)) (h : Means T.parse line o)
    (h' : Means T.parse line o') : o = o' := by
  have e : resultOf o = resultOf o' := by rw [← readLine_means h, readLine_means h']
  cases o with
  | none => cases o' with
    | none => rfl
    | some b => simp [resultOf] at e
  | some b => cases o' with
    | none => simp [resultOf] at e
    | some b' =>
      simp only [resultOf, LineResult.body.injEq] at e
      cases b; cases b'
      simp_all

/-- `load` returns true exactly for the texts in which every line stands for something. -/
theorem load_iff (T : TextOps S) (white : C) (factor : S) (d : DataObj S C) (t : List Char)
    (ls : List (List Char)) (hl : Lines t ls) :
    (d.load T white factor t).1 = true ↔ ∀ l ∈ ls, ∃ o, Means T.parse l o := by
  unfold DataObj.load
  rw [lines_textLines hl]
  rcases means_split T ls with ⟨os, h⟩ | ⟨good, bad, rest, os, h1, h2, h3⟩
  · have := loadLines_good h [] (white := white) (factor := factor) d.clear
    rw [List.append_nil] at this
    rw [this, DataObj.loadLines]
    simp only [true_iff]
    clear this hl
    induction h with
    | nil => simp
    | @cons l' o ls os h1 h2 ih =>
      intro l hmem
      rcases List.mem_cons.1 hmem with rfl | hmem
      · exact ⟨o, h1⟩
      · exact ih l hmem
  · rw [h1, loadLines_good h2, loadLines_bad h3]
    constructor
    · intro h; cases h
    · intro h
      exact absurd (h bad (by simp)) h3

/-- On success the object holds one body per line that describes one, in their order, and nothing of what it held
before but time, step and box size. -/
theorem load_bodies (T : TextOps S) (white : C) (factor : S) (d : DataObj S C) (t : List Char)
    (ls : List (List Char)) (hl : Lines t ls) (os : List (Option (BodyLine S)))
    (hos : List.Forall₂ (Means T.parse) ls os) (bs : List (BodyLine S)) (hbs : bs = os.filterMap id) :
    d.load T white factor t = (true,
      { count := bs.length, time := d.time, step := d.step, box := d.box,
        vrt := bs.map (·.pos), vel := bs.map (·.vel), mass := bs.map (·.mass * factor),
        radius := bs.map (·.radius), color := bs.map (fun _ => white) }) := by
  unfold DataObj.load
  rw [lines_textLines hl]
  have := loadLines_good hos [] (white := white) (factor := factor) d.clear
  rw [List.append_nil] at this
  rw [this, DataObj.loadLines, hbs]
  simp [DataObj.addBodies, DataObj.clear]

/-- On failure the previous bodies are gone and the bodies before the first line that stands for nothing are there:
loading is not all or nothing. -/
theorem load_failure (T : TextOps S) (white : C) (factor : S) (d : DataObj S C) (t : List Char)
    (good rest : List (List Char)) (bad : List Char) (hl : Lines t (good ++ bad :: rest))
    (os : List (Option (BodyLine S))) (hos : List.Forall₂ (Means T.parse) good os)
    (hbad : ¬ ∃ o, Means T.parse bad o) (bs : List (BodyLine S)) (hbs : bs = os.filterMap id) :
    d.load T white factor t = (false,
      { count := bs.length, time := d.time, step := d.step, box := d.box,
        vrt := bs.map (·.pos), vel := bs.map (·.vel), mass := bs.map (·.mass * factor),
        radius := bs.map (·.radius), color := bs.map (fun _ => white) }) := by
  unfold DataObj.load
  rw [lines_textLines hl, loadLines_good hos, loadLines_bad hbad, hbs]
  simp [DataObj.addBodies, DataObj.clear]

/-- Whatever the text, afterwards all arrays have as many entries as the count says. -/
theorem load_consistent (T : TextOps S) (white : C) (factor : S) (d d' : DataObj S C) (t : List Char) (ok : Bool)
    (h : d.load T white factor t = (ok, d')) :
    d'.vrt.length = d'.count ∧ d'.vel.length = d'.count ∧ d'.mass.length = d'.count ∧
      d'.radius.length = d'.count ∧ d'.color.length = d'.count := by
  obtain ⟨ls, hl⟩ := lines_exist t
  rcases means_split T ls with ⟨os, h1⟩ | ⟨good, bad, rest, os, rfl, h2, h3⟩
  · rw [load_bodies T white factor d t ls hl os h1 _ rfl] at h
    simp only [Prod.mk.injEq] at h
    rw [← h.2]
    simp
  · rw [load_failure T white factor d t good rest bad hl os h2 h3 _ rfl] at h
    simp only [Prod.mk.injEq] at h
    rw [← h.2]
    simp

/-! A file with a comment, a blank line, a body without a radius and a body with one and a further column. -/

open StreamExample

/-- The text of the example. -/
def file : List Char := "// two bodies\n\n 1 2  3 4 5 6 7 // first\n8 9 10 11 12 13 14 15 sun".toList

/-- The lines of the example. -/
def fileLines : List (List Char) :=
  ["// two bodies".toList, [], " 1 2  3 4 5 6 7 // first".toList, "8 9 10 11 12 13 14 15 sun".toList]

lemma file_lines : Lines file fileLines :=
  ⟨by decide, Or.inr ⟨fileLines.take 3, fileLines[3], rfl, by decide, by decide⟩⟩

omit [Mul S] in
/-- A line the model accepts stands for something. -/
lemma means_of_read {T : TextOps S} {l : List Char} (h : readLine T l ≠ .fail) : ∃ o, Means T.parse l o := by
  by_contra hn
  exact h (readLine_fails hn)

example : (C44.two.load text 0 1 file).1 = true := by
  rw [load_iff text 0 1 C44.two file fileLines file_lines]
  intro l hl
  apply means_of_read
  simp only [fileLines, List.mem_cons, List.not_mem_nil, or_false] at hl
  rcases hl with rfl | rfl | rfl | rfl
  · rw [show readLine text "// two bodies".toList = .skip by rfl]; simp
  · rw [show readLine text [] = .skip by rfl]; simp
  · rw [show readLine text " 1 2  3 4 5 6 7 // first".toList = .body ⟨1, 2, 3⟩ ⟨4, 5, 6⟩ 7 0 by rfl]; simp
  · rw [show readLine text "8 9 10 11 12 13 14 15 sun".toList = .body ⟨8, 9, 10⟩ ⟨11, 12, 13⟩ 14 15 by rfl]; simp

/-- A line of six numbers stands for nothing. -/
example : ¬ ∃ o, Means text.parse "1 2 3 4 5 6".toList o := by
  rintro ⟨o, h⟩
  have := readLine_means (T := text) h
  rw [show readLine text "1 2 3 4 5 6".toList = .fail by rfl] at this
  cases o <;> simp [resultOf] at this

end NB.C45
