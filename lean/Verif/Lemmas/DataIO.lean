import Verif.Model.DataIO
import Verif.Spec.TextData
import Verif.Lemmas.StreamText

/-
The text functions of the loader compute what the specification of the file format says.
-/

namespace NB

open TextSpec

lemma isSpace_iff (c : Char) : isSpace c = true ↔ Blank c := by
  simp [isSpace, Blank, or_assoc]

/-! ### Lines -/

lemma lines_textLines {t : List Char} {ls : List (List Char)} (h : Lines t ls) : textLines t = ls := by
  obtain ⟨h1, h | ⟨init, last, h2, h3, h4⟩⟩ := h
  · have := textLines_unlines ls [] h1 (by simp)
    rw [h]
    simpa [unlines] using this
  · have := textLines_unlines init last (fun l hl => h1 l (by rw [h2]; simp [hl])) (h1 last (by rw [h2]; simp))
    rw [h4, h2]
    rw [if_neg h3] at this
    exact this

lemma lines_exist (t : List Char) : ∃ ls, Lines t ls := by
  induction t with
  | nil => exact ⟨[], by simp, Or.inl rfl⟩
  | cons c t ih =>
    obtain ⟨ls, h1, h2⟩ := ih
    by_cases hc : c = '\n'
    · subst hc
      refine ⟨[] :: ls, by simpa using h1, ?_⟩
      rcases h2 with h2 | ⟨init, last, e1, e2, e3⟩
      · left; simp [h2]
      · right; exact ⟨[] :: init, last, by simp [e1], e2, by simp [e3]⟩
    · cases ls with
      | nil =>
        rcases h2 with h2 | ⟨init, last, e1, e2, e3⟩
        · refine ⟨[[c]], by simpa using Ne.symm hc, Or.inr ⟨[], [c], rfl, by simp, ?_⟩⟩
          simp [h2]
        · simp at e1
      | cons l ls =>
        refine ⟨(c :: l) :: ls, ?_, ?_⟩
        · intro x hx
          rcases List.mem_cons.1 hx with rfl | hx
          · simp only [List.mem_cons, not_or]
            exact ⟨Ne.symm hc, h1 l (by simp)⟩
          · exact h1 x (by simp [hx])
        · rcases h2 with h2 | ⟨init, last, e1, e2, e3⟩
          · left; simp [h2]
          · right
            cases init with
            | nil =>
              simp only [List.nil_append, List.cons.injEq] at e1
              obtain ⟨rfl, rfl⟩ := e1
              exact ⟨[], c :: l, rfl, by simp, by simpa using e3⟩
            | cons i init =>
              simp only [List.cons_append, List.cons.injEq] at e1
              obtain ⟨rfl, rfl⟩ := e1
              exact ⟨(c :: l) :: init, last, rfl, e2, by simp [e3]⟩

/-! ### Comments -/

lemma cutComment_cons {c : Char} {r : List Char} (h : ¬ (c = '/' ∧ r.head? = some '/')) :
    cutComment (c :: r) = c :: cutComment r := by
  cases r with
  | nil => simp [cutComment]
  | cons e r =>
    rw [cutComment]
    rintro x h1 h2
    simp only [List.cons.injEq] at h2
    exact h ⟨h1, by simp [h2.1]⟩

lemma infix_cons {c : Char} {r : List Char} :
    ['/', '/'] <:+: c :: r ↔ (c = '/' ∧ r.head? = some '/') ∨ ['/', '/'] <:+: r := by
  rw [List.infix_cons_iff]
  constructor
  · rintro (h | h)
    · left
      rw [List.cons_prefix_cons] at h
      obtain ⟨rfl, h⟩ := h
      cases r with
      | nil => simp at h
      | cons e r =>
        rw [List.cons_prefix_cons] at h
        exact ⟨rfl, by simp [← h.1]⟩
    · exact Or.inr h
  · rintro (⟨rfl, h⟩ | h)
    · left
      cases r with
      | nil => simp at h
      | cons e r =>
        simp only [List.head?_cons, Option.some.injEq] at h
        subst h
        exact ⟨r, rfl⟩
    · exact Or.inr h

lemma cutComment_spec (line : List Char) : BeforeComment line (cutComment line) := by
  induction line with
  | nil => left; exact ⟨rfl, by simp⟩
  | cons c r ih =>
    by_cases h : c = '/' ∧ r.head? = some '/'
    · obtain ⟨rfl, h⟩ := h
      cases r with
      | nil => simp at h
      | cons e r =>
        simp only [List.head?_cons, Option.some.injEq] at h
        subst h
        right
        exact ⟨r, by simp [cutComment], by simp [cutComment]; decide⟩
    · rw [cutComment_cons h]
      rcases ih with ⟨h1, h2⟩ | ⟨post, h1, h2⟩
      · left
        refine ⟨by rw [h1], ?_⟩
        rw [infix_cons, not_or]
        exact ⟨h, h2⟩
      · right
        refine ⟨post, by rw [List.cons_append, ← h1], ?_⟩
        rw [List.cons_append, infix_cons, not_or]
        refine ⟨?_, h2⟩
        rintro ⟨h3, h4⟩
        apply h
        refine ⟨h3, ?_⟩
        rw [h1]
        cases hq : cutComment r with
        | nil => simp
        | cons e q => rw [hq] at h4; simpa using h4

lemma cutComment_eq {line pre : List Char} (h : BeforeComment line pre) : cutComment line = pre := by
  induction line generalizing pre with
  | nil =>
    rcases h with ⟨h1, _⟩ | ⟨post, h1, _⟩
    · rw [h1]; rfl
    · simp at h1
  | cons c r ih =>
    rcases h with ⟨h1, h2⟩ | ⟨post, h1, h2⟩
    · rw [infix_cons, not_or] at h2
      rw [cutComment_cons h2.1, ih (Or.inl ⟨rfl, h2.2⟩), h1]
    · cases pre with
      | nil =>
        simp only [List.nil_append, List.cons.injEq] at h1
        obtain ⟨rfl, rfl⟩ := h1
        rw [cutComment]
      | cons e pre =>
        simp only [List.cons_append, List.cons.injEq] at h1
        obtain ⟨rfl, h1⟩ := h1
        rw [List.cons_append, infix_cons, not_or] at h2
        have hh : ¬ (c = '/' ∧ r.head? = some '/') := by
          rintro ⟨h3, h4⟩
          apply h2.1
          refine ⟨h3, ?_⟩
          rw [h1] at h4
          cases pre with
          | nil => rfl
          | cons e q => simpa using h4
        rw [cutComment_cons hh, ih (Or.inr ⟨post, h1, h2.2⟩)]

/-! ### Blanks at the ends -/

lemma dropWhile_all {p : Char → Bool} {a t : List Char} (ha : ∀ c ∈ a, p c = true)
    (ht : ∀ c, t.head? = some c → p c = false) : (a ++ t).dropWhile p = t := by
  induction a with
  | nil =>
    cases t with
    | nil => rfl
    | cons c t => simp [ht c rfl]
  | cons c a ih =>
    rw [List.cons_append, List.dropWhile_cons_of_pos (ha c (by simp)), ih (fun x hx => ha x (by simp [hx]))]

lemma not_blank {c : Char} (h : ¬ Blank c) : isSpace c = false := by
  rw [← Bool.not_eq_true, isSpace_iff]; exact h

lemma trimSpace_eq {t core : List Char} (h : Trimmed t core) : trimSpace t = core := by
  obtain ⟨a, b, rfl, ha, hb, hh, hl⟩ := h
  have ha' : ∀ c ∈ a, isSpace c = true := fun c hc => (isSpace_iff c).2 (ha c hc)
  have hb' : ∀ c ∈ b, isSpace c = true := fun c hc => (isSpace_iff c).2 (hb c hc)
  unfold trimSpace
  by_cases he : core = []
  · subst he
    rw [List.append_nil, List.dropWhile_append_of_pos (by simpa using ha'),
      show b.dropWhile isSpace = [] from by simpa using dropWhile_all hb' (t := []) (by simp)]
    rfl
  · rw [List.append_assoc, dropWhile_all ha' (fun c hc => by
      have : core.head? = some c := by
        cases core with
        | nil => exact absurd rfl he
        | cons e q => simpa using hc
      exact not_blank (hh c this)), List.reverse_append, dropWhile_all (by simpa using hb') (fun c hc => by
      rw [List.head?_reverse] at hc
      exact not_blank (hl c hc)), List.reverse_reverse]

lemma takeWhile_space (t : List Char) : ∀ c ∈ t.takeWhile isSpace, Blank c := by
  induction t with
  | nil => simp
  | cons a t ih =>
    intro c hc
    by_cases ha : isSpace a = true
    · rw [List.takeWhile_cons_of_pos ha] at hc
      rcases List.mem_cons.1 hc with rfl | hc
      · exact (isSpace_iff c).1 ha
      · exact ih c hc
    · rw [List.takeWhile_cons_of_neg ha] at hc
      simp at hc

lemma dropWhile_head {t : List Char} {c : Char} (h : (t.dropWhile isSpace).head? = some c) : ¬ Blank c := by
  induction t with
  | nil => simp at h
  | cons a t ih =>
    by_cases ha : isSpace a = true
    · rw [List.dropWhile_cons_of_pos ha] at h
      exact ih h
    · rw [List.dropWhile_cons_of_neg ha] at h
      simp only [List.head?_cons, Option.some.injEq] at h
      rw [← isSpace_iff, ← h]; exact ha

lemma trimSpace_spec (t : List Char) : Trimmed t (trimSpace t) := by
  refine ⟨t.takeWhile isSpace, ((t.dropWhile isSpace).reverse.takeWhile isSpace).reverse, ?_, takeWhile_space t, ?_, ?_, ?_⟩
  · unfold trimSpace
    have e1 : t = t.takeWhile isSpace ++ t.dropWhile isSpace := (List.takeWhile_append_dropWhile).symm
    have e2 : (t.dropWhile isSpace).reverse =
        (t.dropWhile isSpace).reverse.takeWhile isSpace ++ (t.dropWhile isSpace).reverse.dropWhile isSpace :=
      (List.takeWhile_append_dropWhile).symm
    have e3 := congrArg List.reverse e2
    rw [List.reverse_reverse, List.reverse_append] at e3
    rw [List.append_assoc, ← e3]
    exact e1
  · intro c hc
    exact takeWhile_space _ c (List.mem_reverse.1 hc)
  · intro c hc
    -- the first character left is the first of the part without leading blanks
    have e2 : (t.dropWhile isSpace) =
        ((t.dropWhile isSpace).reverse.dropWhile isSpace).reverse ++
          ((t.dropWhile isSpace).reverse.takeWhile isSpace).reverse := by
      have := congrArg List.reverse (List.takeWhile_append_dropWhile (p := isSpace) (l := (t.dropWhile isSpace).reverse))
      rw [List.reverse_reverse, List.reverse_append] at this
      exact this.symm
    apply dropWhile_head (t := t)
    rw [e2]
    unfold trimSpace at hc
    cases hq : ((t.dropWhile isSpace).reverse.dropWhile isSpace).reverse with
    | nil => rw [hq] at hc; simp at hc
    | cons e q => rw [hq] at hc; simpa using hc
  · intro c hc
    unfold trimSpace at hc
    rw [List.getLast?_reverse] at hc
    exact dropWhile_head hc

lemma trimSpace_nil {t : List Char} : trimSpace t = [] ↔ ∀ c ∈ t, Blank c := by
  constructor
  · intro h c hc
    obtain ⟨a, b, e, ha, hb, _⟩ := trimSpace_spec t
    rw [h, List.append_nil] at e
    rw [e] at hc
    rcases List.mem_append.1 hc with hc | hc
    · exact ha c hc
    · exact hb c hc
  · intro h
    exact trimSpace_eq ⟨t, [], by simp, h, by simp, by simp, by simp⟩

/-! ### Columns -/

lemma splitSkip_spaces (k : ℕ) : splitSkip ' ' (List.replicate k ' ') = [] := by
  induction k with
  | zero => rfl
  | succ k ih =>
    unfold splitSkip at ih ⊢
    rw [List.replicate_succ, splitOn, if_pos rfl, List.filter_cons_of_neg (by simp), ih]

lemma splitSkip_space (t : List Char) : splitSkip ' ' (' ' :: t) = splitSkip ' ' t := by
  unfold splitSkip
  rw [splitOn, if_pos rfl, List.filter_cons_of_neg (by simp)]

lemma splitSkip_replicate (k : ℕ) (t : List Char) : splitSkip ' ' (List.replicate k ' ' ++ t) = splitSkip ' ' t := by
  induction k with
  | zero => rfl
  | succ k ih => rw [List.replicate_succ, List.cons_append, splitSkip_space, ih]

lemma columns_eq {t : List Char} {cs : List (List Char)} (h : Columns t cs) : splitSkip ' ' t = cs := by
  induction h with
  | nil k => exact splitSkip_spaces k
  | cons k f rest cs h1 h2 h3 _ ih =>
    rw [splitSkip_replicate]
    rcases h3 with rfl | h3
    · have : cs = [] := by rw [← ih]; rfl
      subst this
      unfold splitSkip
      rw [List.append_nil, splitOn_of_notMem _ _ h2, List.filter_cons_of_pos (by simpa using h1)]
      rfl
    · cases rest with
      | nil => simp at h3
      | cons e r =>
        simp only [List.head?_cons, Option.some.injEq] at h3
        subst h3
        rw [splitSkip_space] at ih
        unfold splitSkip at ih ⊢
        rw [splitOn_append _ _ _ h2, List.filter_cons_of_pos (by simpa using h1), ih]

lemma columns_exist (t : List Char) : ∃ cs, Columns t cs := by
  induction t with
  | nil => exact ⟨[], Columns.nil 0⟩
  | cons c t ih =>
    obtain ⟨cs, h⟩ := ih
    by_cases hc : c = ' '
    · subst hc
      cases h with
      | nil k => exact ⟨[], by rw [← List.replicate_succ]; exact Columns.nil (k + 1)⟩
      | cons k f rest cs h1 h2 h3 h4 =>
        exact ⟨f :: cs, by rw [← List.cons_append, ← List.replicate_succ]; exact Columns.cons (k + 1) f rest cs h1 h2 h3 h4⟩
    · cases h with
      | nil k =>
        refine ⟨[[c]], ?_⟩
        have := Columns.cons 0 [c] (List.replicate k ' ') [] (by simp) (by simpa using Ne.symm hc)
          (by cases k with
            | zero => left; rfl
            | succ k => right; simp [List.replicate_succ]) (Columns.nil k)
        simpa using this
      | cons k f rest cs h1 h2 h3 h4 =>
        cases k with
        | zero =>
          refine ⟨(c :: f) :: cs, ?_⟩
          have := Columns.cons 0 (c :: f) rest cs (by simp) (by simp [h2, Ne.symm hc]) h3 h4
          simpa using this
        | succ k =>
          refine ⟨[c] :: f :: cs, ?_⟩
          have := Columns.cons 0 [c] (List.replicate (k + 1) ' ' ++ (f ++ rest)) (f :: cs) (by simp)
            (by simpa using Ne.symm hc) (Or.inr (by simp [List.replicate_succ])) (Columns.cons (k + 1) f rest cs h1 h2 h3 h4)
          simpa using this

lemma splitSkip_spec (t : List Char) : Columns t (splitSkip ' ' t) := by
  obtain ⟨cs, h⟩ := columns_exist t
  rw [columns_eq h]
  exact h

/-! ### A line -/

section
variable {S : Type} [Zero S]

/-- The result of the model for a line that stands for something. -/
def resultOf : Option (BodyLine S) → LineResult S
  | none => .skip
  | some b => .body b.pos b.vel b.mass b.radius

/-- The part of `readLine` after the columns are found. -/
def readCols (T : TextOps S) (cols : List (List Char)) : LineResult S :=
  if cols.length < 7 then .fail
  else
    match parseCols T (cols.take 7) with
    | some [x, y, z, vx, vy, vz, m] =>
      match cols[7]? with
      | none => .body ⟨x, y, z⟩ ⟨vx, vy, vz⟩ m 0
      | some q =>
        match T.parse q with
        | none => .fail
        | some q => .body ⟨x, y, z⟩ ⟨vx, vy, vz⟩ m q
    | _ => .fail

lemma readLine_eq (T : TextOps S) (line : List Char) :
    readLine T line = if trimSpace (cutComment line) = [] then .skip
      else readCols T (splitSkip ' ' (trimSpace (cutComment line))) := rfl

lemma readCols_numbers {T : TextOps S} {cs : List (List Char)} {b : BodyLine S} (h : Numbers T.parse cs b) :
    readCols T cs = .body b.pos b.vel b.mass b.radius := by
  cases h <;> simp [readCols, parseCols, *]

lemma readCols_body {T : TextOps S} {cs : List (List Char)} (h : readCols T cs ≠ .fail) :
    ∃ b, Numbers T.parse cs b := by
  unfold readCols at h
  split at h
  · exact absurd rfl h
  · rename_i hlen
    match cs, hlen with
    | a :: b :: c :: d :: e :: f :: g :: rest, _ =>
      simp only [List.take_succ_cons, List.take_zero, parseCols] at h
      cases ha : T.parse a with
      | none => simp [ha] at h
      | some x =>
      cases hb : T.parse b with
      | none => simp [ha, hb] at h
      | some y =>
      cases hc : T.parse c with
      | none => simp [ha, hb, hc] at h
      | some z =>
      cases hd : T.parse d with
      | none => simp [ha, hb, hc, hd] at h
      | some vx =>
      cases he : T.parse e with
      | none => simp [ha, hb, hc, hd, he] at h
      | some vy =>
      cases hf : T.parse f with
      | none => simp [ha, hb, hc, hd, he, hf] at h
      | some vz =>
      cases hg : T.parse g with
      | none => simp [ha, hb, hc, hd, he, hf, hg] at h
      | some m =>
      cases rest with
      | nil => exact ⟨_, .seven a b c d e f g x y z vx vy vz m ha hb hc hd he hf hg⟩
      | cons q rest =>
        cases hq : T.parse q with
        | none => simp [ha, hb, hc, hd, he, hf, hg, hq] at h
        | some qv => exact ⟨_, .more a b c d e f g q rest x y z vx vy vz m qv ha hb hc hd he hf hg hq⟩
    | [], hl => simp at hl
    | [_], hl => simp at hl
    | [_, _], hl => simp at hl
    | [_, _, _], hl => simp at hl
    | [_, _, _, _], hl => simp at hl
    | [_, _, _, _, _], hl => simp at hl
    | [_, _, _, _, _, _], hl => simp at hl

lemma readLine_means {T : TextOps S} {line : List Char} {o : Option (BodyLine S)} (h : Means T.parse line o) :
    readLine T line = resultOf o := by
  rw [readLine_eq]
  cases h with
  | blank pre h1 h2 => rw [cutComment_eq h1, if_pos (trimSpace_nil.2 h2)]; rfl
  | body pre core cs b h1 h2 h3 h4 h5 =>
    rw [cutComment_eq h1, trimSpace_eq h2, if_neg h3, columns_eq h4, readCols_numbers h5]
    rfl

lemma readLine_fails {T : TextOps S} {line : List Char} (h : ¬ ∃ o, Means T.parse line o) :
    readLine T line = .fail := by
  by_contra hne
  apply h
  rw [readLine_eq] at hne
  by_cases hb : trimSpace (cutComment line) = []
  · exact ⟨none, .blank line _ (cutComment_spec line) (trimSpace_nil.1 hb)⟩
  · rw [if_neg hb] at hne
    obtain ⟨b, hb'⟩ := readCols_body hne
    exact ⟨some b, .body line _ _ _ b (cutComment_spec line) (trimSpace_spec _) hb (splitSkip_spec _) hb'⟩

end

end NB

namespace NB

open TextSpec

section
variable {S C : Type} [Zero S]

/-- An object with the given bodies added. -/
def DataObj.addBodies [Mul S] (d : DataObj S C) (white : C) (factor : S) (bs : List (BodyLine S)) : DataObj S C :=
  { d with
    count := d.count + bs.length
    vrt := d.vrt ++ bs.map (·.pos)
    vel := d.vel ++ bs.map (·.vel)
    mass := d.mass ++ bs.map (·.mass * factor)
    color := d.color ++ bs.map (fun _ => white)
    radius := d.radius ++ bs.map (·.radius) }

variable [Mul S]

omit [Zero S] in
lemma addBodies_nil (d : DataObj S C) (white : C) (factor : S) : d.addBodies white factor [] = d := by
  cases d
  simp [DataObj.addBodies]

omit [Zero S] in
lemma addBodies_cons (d : DataObj S C) (white : C) (factor : S) (b : BodyLine S) (bs : List (BodyLine S)) :
    (d.addBody b.pos b.vel (b.mass * factor) white b.radius).addBodies white factor bs =
      d.addBodies white factor (b :: bs) := by
  simp only [DataObj.addBodies, DataObj.addBody, List.append_assoc, List.map_cons, List.length_cons, List.singleton_append,
    DataObj.mk.injEq, and_true, true_and]
  omega

lemma loadLines_good {T : TextOps S} {white : C} {factor : S} {ls : List (List Char)}
    {os : List (Option (BodyLine S))} (h : List.Forall₂ (Means T.parse) ls os) (tail : List (List Char))
    (d : DataObj S C) :
    DataObj.loadLines T white factor (ls ++ tail) d =
      DataObj.loadLines T white factor tail (d.addBodies white factor (os.filterMap id)) := by
  induction h generalizing d with
  | nil => simp [addBodies_nil]
  | @cons l o ls os h1 h2 ih =>
    rw [List.cons_append, DataObj.loadLines, readLine_means h1]
    cases o with
    | none => simp only [resultOf]; rw [ih]; rfl
    | some b =>
      simp only [resultOf]
      rw [ih, addBodies_cons]
      rfl

lemma loadLines_bad {T : TextOps S} {white : C} {factor : S} {l : List Char} (h : ¬ ∃ o, Means T.parse l o)
    (tail : List (List Char)) (d : DataObj S C) : DataObj.loadLines T white factor (l :: tail) d = (false, d) := by
  rw [DataObj.loadLines, readLine_fails h]

lemma means_split (T : TextOps S) (ls : List (List Char)) :
    (∃ os, List.Forall₂ (Means T.parse) ls os) ∨
    ∃ good bad rest os, ls = good ++ bad :: rest ∧ List.Forall₂ (Means T.parse) good os ∧
      ¬ ∃ o, Means T.parse bad o := by
  induction ls with
  | nil => exact Or.inl ⟨[], .nil⟩
  | cons l ls ih =>
    by_cases h : ∃ o, Means T.parse l o
    · obtain ⟨o, h⟩ := h
      rcases ih with ⟨os, h1⟩ | ⟨good, bad, rest, os, h1, h2, h3⟩
      · exact Or.inl ⟨o :: os, .cons h h1⟩
      · exact Or.inr ⟨l :: good, bad, rest, o :: os, by rw [h1]; rfl, .cons h h2, h3⟩
    · exact Or.inr ⟨[], l, ls, [], rfl, .nil, h⟩

end

/-! ### Saving -/

section
variable {S C : Type}

/-- The line of a body, without the line break. -/
def bodyText (fmt : S → List Char) (b : BodyLine S) : List Char :=
  fmt b.pos.x ++ ' ' :: (fmt b.pos.y ++ ' ' :: (fmt b.pos.z ++ ' ' :: (fmt b.vel.x ++ ' ' :: (fmt b.vel.y ++ ' ' ::
    (fmt b.vel.z ++ ' ' :: (fmt b.mass ++ ' ' :: fmt b.radius))))))

/-- The object holds exactly these bodies. -/
structure Holds (d : DataObj S C) (bs : List (BodyLine S)) : Prop where
  count : d.count = bs.length
  vrt : d.vrt = bs.map (·.pos)
  vel : d.vel = bs.map (·.vel)
  mass : d.mass = bs.map (·.mass)
  radius : d.radius = bs.map (·.radius)

lemma holds_exist {d : DataObj S C} (h1 : d.vrt.length = d.count) (h2 : d.vel.length = d.count)
    (h3 : d.mass.length = d.count) (h4 : d.radius.length = d.count) : ∃ bs, Holds d bs := by
  have aux : ∀ (n : ℕ) (a b : List (Vec3 S)) (m q : List S), a.length = n → b.length = n → m.length = n →
      q.length = n → ∃ bs : List (BodyLine S), bs.length = n ∧ a = bs.map (·.pos) ∧ b = bs.map (·.vel) ∧
        m = bs.map (·.mass) ∧ q = bs.map (·.radius) := by
    intro n
    induction n with
    | zero =>
      intro a b m q ha hb hm hq
      rw [List.length_eq_zero_iff] at ha hb hm hq
      exact ⟨[], by simp [ha, hb, hm, hq]⟩
    | succ n ih =>
      intro a b m q ha hb hm hq
      obtain ⟨x, a, rfl⟩ := List.exists_cons_of_length_eq_add_one ha
      obtain ⟨y, b, rfl⟩ := List.exists_cons_of_length_eq_add_one hb
      obtain ⟨z, m, rfl⟩ := List.exists_cons_of_length_eq_add_one hm
      obtain ⟨w, q, rfl⟩ := List.exists_cons_of_length_eq_add_one hq
      obtain ⟨bs, e1, e2, e3, e4, e5⟩ := ih a b m q (by simpa using ha) (by simpa using hb) (by simpa using hm)
        (by simpa using hq)
      exact ⟨⟨x, y, z, w⟩ :: bs, by simp [e1, ← e2, ← e3, ← e4, ← e5]⟩
  obtain ⟨bs, e1, e2, e3, e4, e5⟩ := aux d.count d.vrt d.vel d.mass d.radius h1 h2 h3 h4
  exact ⟨bs, ⟨e1.symm, e2, e3, e4, e5⟩⟩

lemma saveLine_eq {T : TextOps S} {d : DataObj S C} {bs : List (BodyLine S)} (h : Holds d bs) {n : ℕ}
    {b : BodyLine S} (hb : bs[n]? = some b) : saveLine T d n = .ok (bodyText T.fmt b ++ ['\n']) := by
  unfold saveLine rd
  rw [h.vrt, h.vel, h.mass, h.radius]
  simp only [List.getElem?_map, hb, Option.map_some]
  change Except.ok _ = _
  simp [bodyText]

lemma save_eq {T : TextOps S} {d : DataObj S C} {bs : List (BodyLine S)} (h : Holds d bs) :
    d.save T = .ok ((bs.map (bodyText T.fmt)).flatMap (· ++ ['\n'])) := by
  have aux : ∀ n, n ≤ bs.length → forN (m := Res) n ([] : List Char) (fun n t => do
      let l ← saveLine T d n
      pure (t ++ l)) = .ok (((bs.take n).map (bodyText T.fmt)).flatMap (· ++ ['\n'])) := by
    intro n
    induction n with
    | zero => intro _; rfl
    | succ n ih =>
      intro hn
      have hb : bs[n]? = some (bs[n]'(by omega)) := List.getElem?_eq_getElem (by omega)
      rw [forN, ih (by omega)]
      change (do
        let l ← saveLine T d n
        pure ((((bs.take n).map (bodyText T.fmt)).flatMap (· ++ ['\n'])) ++ l) : Res (List Char)) = _
      rw [saveLine_eq h hb]
      change Except.ok _ = _
      rw [List.take_add_one, hb]
      simp only [Option.toList_some, List.map_append, List.flatMap_append, List.map_cons, List.map_nil,
        List.flatMap_cons, List.flatMap_nil, List.append_nil]
  have := aux d.count (Nat.le_of_eq h.count)
  rw [h.count, List.take_length] at this
  unfold DataObj.save
  rw [h.count]
  exact this

end

section
variable {S : Type} [Zero S]

lemma space_blank : Blank ' ' := Or.inl rfl

lemma beforeComment_of {t : List Char} (h : '/' ∉ t) : BeforeComment t t := by
  left
  refine ⟨rfl, fun hi => h ?_⟩
  exact hi.subset (by simp)

lemma bodyText_means {fmt : S → List Char} {parse : List Char → Option S} {rnd : S → S}
    (hT : Formats fmt parse rnd) (b : BodyLine S) :
    Means parse (bodyText fmt b)
      (some ⟨⟨rnd b.pos.x, rnd b.pos.y, rnd b.pos.z⟩, ⟨rnd b.vel.x, rnd b.vel.y, rnd b.vel.z⟩, rnd b.mass,
        rnd b.radius⟩) := by
  have hsl : ∀ x, '/' ∉ fmt x := fun x hx => (hT.clean x _ hx).2 rfl
  have hsp : ∀ x, ' ' ∉ fmt x := fun x hx => (hT.clean x _ hx).1 space_blank
  have hcol : ∀ (x : S) (rest : List Char) (cs : List (List Char)), Columns rest cs →
      Columns (fmt x ++ ' ' :: rest) (fmt x :: cs) := by
    intro x rest cs h
    have h' : Columns (' ' :: rest) cs := by
      cases h with
      | nil k => rw [← List.replicate_succ]; exact .nil (k + 1)
      | cons k f r cs h1 h2 h3 h4 =>
        rw [← List.cons_append, ← List.replicate_succ]; exact .cons (k + 1) f r cs h1 h2 h3 h4
    exact .cons 0 (fmt x) (' ' :: rest) cs (hT.ne x) (hsp x) (Or.inr rfl) h'
  have hlast : Columns (fmt b.radius) [fmt b.radius] := by
    simpa using Columns.cons 0 (fmt b.radius) [] [] (hT.ne _) (hsp _) (Or.inl rfl) (Columns.nil 0)
  refine .body (bodyText fmt b) (bodyText fmt b) (bodyText fmt b) _ _ (beforeComment_of ?_) ⟨[], [], by simp, by simp, by simp, ?_, ?_⟩ ?_
    (hcol _ _ _ (hcol _ _ _ (hcol _ _ _ (hcol _ _ _ (hcol _ _ _ (hcol _ _ _ (hcol _ _ _ hlast)))))))
    (.more _ _ _ _ _ _ _ _ [] _ _ _ _ _ _ _ _ (hT.back _) (hT.back _) (hT.back _) (hT.back _) (hT.back _) (hT.back _)
      (hT.back _) (hT.back _))
  · simp [bodyText, hsl]
  · intro c hc
    unfold bodyText at hc
    cases hf : fmt b.pos.x with
    | nil => exact absurd hf (hT.ne _)
    | cons e q =>
      rw [hf] at hc
      simp only [List.cons_append, List.head?_cons, Option.some.injEq] at hc
      subst hc
      exact (hT.clean b.pos.x e (by rw [hf]; simp)).1
  · intro c hc
    have hl : ∀ (a : List Char) (x : List Char), x ≠ [] → (a ++ x).getLast? = x.getLast? := by
      intro a x hx
      rw [List.getLast?_append, List.getLast?_eq_some_getLast hx]
      rfl
    have e : bodyText fmt b = (fmt b.pos.x ++ ' ' :: (fmt b.pos.y ++ ' ' :: (fmt b.pos.z ++ ' ' :: (fmt b.vel.x ++ ' ' ::
        (fmt b.vel.y ++ ' ' :: (fmt b.vel.z ++ ' ' :: (fmt b.mass ++ [' '])))))))  ++ fmt b.radius := by
      simp [bodyText]
    rw [e, hl _ _ (hT.ne _)] at hc
    exact (hT.clean b.radius c (List.mem_of_getLast? hc)).1
  · simp [bodyText, hT.ne]

end

end NB

/-! ### Zeno files -/

namespace NB

open TextSpec

section
variable {S C : Type} [Zero S]

lemma value_toDouble0 (T : TextOps S) (t : List Char) : Value T.parse t (toDouble0 T t) := by
  unfold Value toDouble0
  cases h : T.parse t with
  | none => right; exact ⟨rfl, rfl⟩
  | some x => left; rfl

lemma value_unique {parse : List Char → Option S} {t : List Char} {x y : S} (hx : Value parse t x)
    (hy : Value parse t y) : x = y := by
  rcases hx with hx | ⟨hx, rfl⟩ <;> rcases hy with hy | ⟨hy, rfl⟩
  · rw [hx] at hy; exact Option.some.inj hy
  · rw [hx] at hy; cases hy
  · rw [hx] at hy; cases hy
  · rfl

lemma zenoVec_iff {T : TextOps S} {t : List Char} {v : Vec3 S} : zenoVec T t = some v ↔ VecLine T.parse t v := by
  constructor
  · intro h
    unfold zenoVec at h
    split at h
    · rename_i a b c hs
      simp only [Option.some.injEq] at h
      subst h
      refine ⟨a, b, c, ?_, value_toDouble0 T a, value_toDouble0 T b, value_toDouble0 T c⟩
      rw [← hs]
      exact splitSkip_spec t
    · cases h
  · rintro ⟨a, b, c, h, h1, h2, h3⟩
    unfold zenoVec
    rw [columns_eq h]
    simp only [Option.some.injEq]
    cases v
    simp only [Vec3.mk.injEq]
    exact ⟨value_unique (value_toDouble0 T a) h1, value_unique (value_toDouble0 T b) h2, value_unique (value_toDouble0 T c) h3⟩

lemma take_set_succ {α : Type} (l : List α) (i : ℕ) (x : α) (h : i < l.length) :
    (l.set i x).take (i + 1) = l.take i ++ [x] := by
  rw [List.take_add_one, List.getElem?_set_self h, List.take_set_of_le (Nat.le_refl i)]
  rfl

lemma zenoMasses_cases (T : TextOps S) (k i : ℕ) (ls : List (List Char)) (d : DataObj S C)
    (h : d.mass.length = i + k) :
    (∃ ml ms rest, ls = ml ++ rest ∧ List.Forall₂ (Value T.parse) ml ms ∧ ms.length = k ∧
      zenoMasses T k i ls d = .ok (true, rest, { d with mass := d.mass.take i ++ ms })) ∨
    (∃ ls' m', zenoMasses T k i ls d = .ok (false, ls', { d with mass := m' }) ∧ m'.length = d.mass.length ∧
      ls.length < k) := by
  induction k generalizing i ls d with
  | zero =>
    left
    refine ⟨[], [], ls, rfl, .nil, rfl, ?_⟩
    rw [zenoMasses, List.append_nil, List.take_of_length_le (by omega)]
  | succ k ih =>
    cases ls with
    | nil => right; exact ⟨[], d.mass, rfl, rfl, by simp⟩
    | cons l ls =>
      have hw : wr d.mass i (toDouble0 T l) = .ok (d.mass.set i (toDouble0 T l)) := by
        unfold wr; rw [if_pos (by omega)]
      have e : zenoMasses T (k + 1) i (l :: ls) d =
          zenoMasses T k (i + 1) ls { d with mass := d.mass.set i (toDouble0 T l) } := by
        rw [zenoMasses, hw]; rfl
      rw [e]
      rcases ih (i + 1) ls { d with mass := d.mass.set i (toDouble0 T l) } (by simp; omega) with
        ⟨ml, ms, rest, h1, h2, h3, h4⟩ | ⟨ls', m', h1, h2, h3⟩
      · left
        refine ⟨l :: ml, toDouble0 T l :: ms, rest, by rw [h1]; rfl, .cons (value_toDouble0 T l) h2, by simp [h3], ?_⟩
        rw [h4]
        simp only [take_set_succ d.mass i _ (show i < d.mass.length by omega), List.append_assoc, List.singleton_append]
      · right
        exact ⟨ls', m', h1, by rw [h2]; simp, by simp; omega⟩

lemma zenoVecs_cases (T : TextOps S) (k i : ℕ) (ls : List (List Char)) (a : List (Vec3 S))
    (h : a.length = i + k) :
    (∃ pl ps rest, ls = pl ++ rest ∧ List.Forall₂ (VecLine T.parse) pl ps ∧ ps.length = k ∧
      zenoVecs T k i ls a = .ok (true, rest, a.take i ++ ps)) ∨
    (∃ ls' a', zenoVecs T k i ls a = .ok (false, ls', a') ∧ a'.length = a.length ∧
      ¬ ∃ pl ps rest, ls = pl ++ rest ∧ List.Forall₂ (VecLine T.parse) pl ps ∧ ps.length = k) := by
  induction k generalizing i ls a with
  | zero =>
    left
    refine ⟨[], [], ls, rfl, .nil, rfl, ?_⟩
    rw [zenoVecs, List.append_nil, List.take_of_length_le (by omega)]
  | succ k ih =>
    cases ls with
    | nil =>
      right
      refine ⟨[], a, rfl, rfl, ?_⟩
      rintro ⟨pl, ps, rest, h1, h2, h3⟩
      have : pl = [] := by
        cases pl with
        | nil => rfl
        | cons _ _ => simp at h1
      subst this
      cases h2
      simp at h3
    | cons l ls =>
      cases hv : zenoVec T l with
      | none =>
        right
        refine ⟨ls, a, by rw [zenoVecs, hv], rfl, ?_⟩
        rintro ⟨pl, ps, rest, h1, h2, h3⟩
        cases h2 with
        | nil => simp at h3
        | cons h4 h5 =>
          simp only [List.cons_append, List.cons.injEq] at h1
          rw [← h1.1, ← zenoVec_iff, hv] at h4
          cases h4
      | some v =>
        have hw : wr a i v = .ok (a.set i v) := by
          unfold wr; rw [if_pos (by omega)]
        have e : zenoVecs T (k + 1) i (l :: ls) a = zenoVecs T k (i + 1) ls (a.set i v) := by
          rw [zenoVecs, hv]; simp only; rw [hw]; rfl
        rw [e]
        rcases ih (i + 1) ls (a.set i v) (by simp; omega) with ⟨pl, ps, rest, h1, h2, h3, h4⟩ | ⟨ls', a', h1, h2, h3⟩
        · left
          refine ⟨l :: pl, v :: ps, rest, by rw [h1]; rfl, .cons (zenoVec_iff.1 hv) h2, by simp [h3], ?_⟩
          rw [h4, take_set_succ a i v (by omega)]
          simp
        · right
          refine ⟨ls', a', h1, by rw [h2]; simp, ?_⟩
          rintro ⟨pl, ps, rest, g1, g2, g3⟩
          cases g2 with
          | nil => simp at g3
          | @cons _ w _ ps h4 h5 =>
            simp only [List.cons_append, List.cons.injEq] at g1
            exact h3 ⟨_, ps, rest, g1.2, h5, by simpa using g3⟩

end

end NB
