import Verif.Props.C46_Zeno
import Verif.Model.RealScalar
import Mathlib.Algebra.Order.Floor.Semiring
import Mathlib.Data.Real.Archimedean
import Mathlib.Tactic.Linarith

/-
C63.  `load_initial` picks the loader by the type and sets the size of the box from the positions.
-/

namespace NB.C63

/-- Conversion of an exact number to `size_t`: cut to a whole number; undefined behaviour when that does not fit. -/
noncomputable def realToSize (x : ℝ) : Res ℕ := if -1 < x ∧ x < 2 ^ 64 then .ok ⌊x⌋₊ else .error .badArith

/-- The greatest of 1 and all coordinates. -/
structure IsTop (vrt : List (Vec3 ℝ)) (m : ℝ) : Prop where
  one : 1 ≤ m
  bound : ∀ v ∈ vrt, v.x ≤ m ∧ v.y ≤ m ∧ v.z ≤ m
  attained : m = 1 ∨ ∃ v ∈ vrt, m = v.x ∨ m = v.y ∨ m = v.z

lemma stdMax_real (a b : ℝ) : stdMax a b = max a b := by
  unfold stdMax
  rw [real_lt]
  by_cases h : a < b
  · simp [h, max_eq_right h.le]
  · simp [h, max_eq_left (not_lt.1 h)]

lemma fold_top (vrt : List (Vec3 ℝ)) (pre : List (Vec3 ℝ)) (r : Vec3 ℝ) (hr : 1 ≤ r.x ∧ 1 ≤ r.y ∧ 1 ≤ r.z)
    (hb : ∀ v ∈ pre, v.x ≤ r.x ∧ v.y ≤ r.y ∧ v.z ≤ r.z)
    (ha : (r.x = 1 ∨ ∃ v ∈ pre, r.x = v.x) ∧ (r.y = 1 ∨ ∃ v ∈ pre, r.y = v.y) ∧ (r.z = 1 ∨ ∃ v ∈ pre, r.z = v.z)) :
    let s := vrt.foldl (fun (r : Vec3 ℝ) v => ⟨stdMax v.x r.x, stdMax v.y r.y, stdMax v.z r.z⟩) r
    (1 ≤ s.x ∧ 1 ≤ s.y ∧ 1 ≤ s.z) ∧ (∀ v ∈ pre ++ vrt, v.x ≤ s.x ∧ v.y ≤ s.y ∧ v.z ≤ s.z) ∧
    ((s.x = 1 ∨ ∃ v ∈ pre ++ vrt, s.x = v.x) ∧ (s.y = 1 ∨ ∃ v ∈ pre ++ vrt, s.y = v.y) ∧
      (s.z = 1 ∨ ∃ v ∈ pre ++ vrt, s.z = v.z)) := by
  induction vrt generalizing pre r with
  | nil => simpa using ⟨hr, hb, ha⟩
  | cons w vrt ih =>
    have e : pre ++ w :: vrt = (pre ++ [w]) ++ vrt := by simp
    rw [e, List.foldl_cons]
    have pick : ∀ (f : Vec3 ℝ → ℝ) (q : ℝ), (q = 1 ∨ ∃ v ∈ pre, q = f v) →
        (max (f w) q = 1 ∨ ∃ v ∈ pre ++ [w], max (f w) q = f v) := by
      intro f q h
      rcases le_total (f w) q with hq | hq
      · rw [max_eq_right hq]
        rcases h with h | ⟨v, hv, h⟩
        · exact Or.inl h
        · exact Or.inr ⟨v, by simp [hv], h⟩
      · rw [max_eq_left hq]
        exact Or.inr ⟨w, by simp, rfl⟩
    apply ih
    · simp only [stdMax_real]
      exact ⟨le_max_of_le_right hr.1, le_max_of_le_right hr.2.1, le_max_of_le_right hr.2.2⟩
    · intro v hv
      simp only [stdMax_real]
      rcases List.mem_append.1 hv with hv | hv
      · have := hb v hv
        exact ⟨le_max_of_le_right this.1, le_max_of_le_right this.2.1, le_max_of_le_right this.2.2⟩
      · rw [List.mem_singleton] at hv
        subst hv
        exact ⟨le_max_left _ _, le_max_left _ _, le_max_left _ _⟩
    · simp only [stdMax_real]
      exact ⟨pick (·.x) r.x ha.1, pick (·.y) r.y ha.2.1, pick (·.z) r.z ha.2.2⟩

lemma boxOf_top (vrt : List (Vec3 ℝ)) : ∃ m, IsTop vrt m ∧ boxOf realToSize vrt = realToSize m := by
  obtain ⟨h1, h2, h3⟩ := fold_top vrt [] ⟨1, 1, 1⟩ ⟨le_refl _, le_refl _, le_refl _⟩ (by simp)
    ⟨Or.inl rfl, Or.inl rfl, Or.inl rfl⟩
  simp only [List.nil_append] at h2 h3
  refine ⟨_, ⟨?_, ?_, ?_⟩, rfl⟩
  · rw [stdMax_real]
    exact le_max_of_le_left h1.1
  · intro v hv
    have := h2 v hv
    rw [stdMax_real, stdMax_real]
    exact ⟨le_max_of_le_left this.1, le_max_of_le_right (le_max_of_le_left this.2.1),
      le_max_of_le_right (le_max_of_le_right this.2.2)⟩
  · rw [stdMax_real, stdMax_real]
    generalize hs : List.foldl (fun (r : Vec3 ℝ) v => (⟨stdMax v.x r.x, stdMax v.y r.y, stdMax v.z r.z⟩ : Vec3 ℝ))
      ⟨1, 1, 1⟩ vrt = s at *
    rcases max_choice s.x (max s.y s.z) with h | h
    · rw [h]
      rcases h3.1 with g | ⟨v, hv, g⟩
      · exact Or.inl g
      · exact Or.inr ⟨v, hv, Or.inl g⟩
    · rw [h]
      rcases max_choice s.y s.z with h | h
      · rw [h]
        rcases h3.2.1 with g | ⟨v, hv, g⟩
        · exact Or.inl g
        · exact Or.inr ⟨v, hv, Or.inr (Or.inl g)⟩
      · rw [h]
        rcases h3.2.2 with g | ⟨v, hv, g⟩
        · exact Or.inl g
        · exact Or.inr ⟨v, hv, Or.inr (Or.inr g)⟩

/-- The size of the box, if all coordinates are less than 2^64: it is at least 1, so the state can be written to a
stream and read back; no coordinate reaches the size plus 1; and unless the size is 1 some coordinate reaches it. -/
theorem box_size (vrt : List (Vec3 ℝ)) (h : ∀ v ∈ vrt, v.x < 2 ^ 64 ∧ v.y < 2 ^ 64 ∧ v.z < 2 ^ 64) :
    ∃ b : ℕ, boxOf realToSize vrt = .ok b ∧ 1 ≤ b ∧ b < 2 ^ 64 ∧
      (∀ v ∈ vrt, v.x < b + 1 ∧ v.y < b + 1 ∧ v.z < b + 1) ∧
      (b = 1 ∨ ∃ v ∈ vrt, (b : ℝ) ≤ v.x ∨ (b : ℝ) ≤ v.y ∨ (b : ℝ) ≤ v.z) := by
  obtain ⟨m, hm, e⟩ := boxOf_top vrt
  have hlt : m < 2 ^ 64 := by
    rcases hm.attained with h1 | ⟨v, hv, h1 | h1 | h1⟩
    · rw [h1]; norm_num
    · rw [h1]; exact (h v hv).1
    · rw [h1]; exact (h v hv).2.1
    · rw [h1]; exact (h v hv).2.2
  have h0 : (0 : ℝ) ≤ m := by linarith [hm.one]
  refine ⟨⌊m⌋₊, ?_, ?_, ?_, ?_, ?_⟩
  · rw [e, realToSize, if_pos ⟨by linarith, hlt⟩]
  · rw [Nat.le_floor_iff h0]
    simpa using hm.one
  · rw [Nat.floor_lt h0]
    norm_num at hlt ⊢
    exact hlt
  · intro v hv
    have h1 := Nat.lt_floor_add_one m
    have h2 := hm.bound v hv
    exact ⟨h2.1.trans_lt h1, h2.2.1.trans_lt h1, h2.2.2.trans_lt h1⟩
  · have hf := Nat.floor_le h0
    rcases hm.attained with h1 | ⟨v, hv, h1⟩
    · left; rw [h1]; simp
    · right
      refine ⟨v, hv, ?_⟩
      rcases h1 with h1 | h1 | h1
      · exact Or.inl (h1 ▸ hf)
      · exact Or.inr (Or.inl (h1 ▸ hf))
      · exact Or.inr (Or.inr (h1 ▸ hf))

/-- A coordinate of 2^64 or more makes the conversion undefined behaviour. -/
theorem box_overflow (vrt : List (Vec3 ℝ)) (v : Vec3 ℝ) (hv : v ∈ vrt)
    (h : 2 ^ 64 ≤ v.x ∨ 2 ^ 64 ≤ v.y ∨ 2 ^ 64 ≤ v.z) : boxOf realToSize vrt = .error .badArith := by
  obtain ⟨m, hm, e⟩ := boxOf_top vrt
  have hb := hm.bound v hv
  have : 2 ^ 64 ≤ m := by
    rcases h with h | h | h
    · exact h.trans hb.1
    · exact h.trans hb.2.1
    · exact h.trans hb.2.2
  rw [e, realToSize, if_neg (fun h => by linarith [h.2])]

/-- Negative coordinates do not count: if no coordinate exceeds 1 the size is 1, however far out on the negative side
the bodies are, although the box into which bodies are clamped reaches from minus the size to plus the size. -/
theorem box_ignores_negative (vrt : List (Vec3 ℝ)) (h : ∀ v ∈ vrt, v.x ≤ 1 ∧ v.y ≤ 1 ∧ v.z ≤ 1) :
    boxOf realToSize vrt = .ok 1 := by
  obtain ⟨m, hm, e⟩ := boxOf_top vrt
  have : m = 1 := by
    rcases hm.attained with h1 | ⟨v, hv, h1 | h1 | h1⟩
    · exact h1
    · exact le_antisymm (h1 ▸ (h v hv).1) hm.one
    · exact le_antisymm (h1 ▸ (h v hv).2.1) hm.one
    · exact le_antisymm (h1 ▸ (h v hv).2.2) hm.one
  rw [e, realToSize, this, if_pos (by norm_num)]
  simp

/-- So the loaded bodies need not lie in the box: the claim that they do is false. -/
theorem bodies_outside_box : ¬ ∀ (vrt : List (Vec3 ℝ)) (b : ℕ), boxOf realToSize vrt = .ok b →
    ∀ v ∈ vrt, |v.x| ≤ b ∧ |v.y| ≤ b ∧ |v.z| ≤ b := by
  intro h
  have h1 := h [⟨-5, 0, 0⟩] 1 (box_ignores_negative _ (by simp; norm_num)) ⟨-5, 0, 0⟩ (by simp)
  norm_num at h1

section
variable {S C : Type} [Zero S] [One S] [Mul S] [FOps S]

/-- A type that is none of the four known words: false, and the object is as before. -/
theorem unknown_type (T : TextOps S) (black white : C) (si adk : S) (toSize : S → Res ℕ) (t type : List Char)
    (d : DataObj S C) (h : type.map Char.toLower ∉ ["zeno".toList, "g1".toList, "si".toList, "adk".toList]) :
    d.loadInitial T black white si adk toSize t type = .ok (false, d) := by
  simp only [List.mem_cons, List.not_mem_nil, or_false, not_or] at h
  obtain ⟨h1, h2, h3, h4⟩ := h
  have e1 : sameWord type ['Z', 'e', 'n', 'o'] = false := by
    unfold sameWord; rw [beq_eq_false_iff_ne]; exact h1
  have e2 : sameWord type ['G', '1'] = false := by
    unfold sameWord; rw [beq_eq_false_iff_ne]; exact h2
  have e3 : sameWord type ['S', 'I'] = false := by
    unfold sameWord; rw [beq_eq_false_iff_ne]; exact h3
  have e4 : sameWord type ['A', 'D', 'K'] = false := by
    unfold sameWord; rw [beq_eq_false_iff_ne]; exact h4
  unfold DataObj.loadInitial
  rw [e1, e2, e3, e4]
  rfl

/-- The three unit systems of text files and the factor masses are multiplied with. -/
def factorOf (si adk : S) : List (List Char × S) :=
  [("g1".toList, 1), ("si".toList, si), ("adk".toList, adk)]

/-- A text file in one of the three unit systems, its name in any capitalisation: the result is that of `load` with
the factor of the system, and after a success the box is set from the positions. -/
theorem text_types (T : TextOps S) (black white : C) (si adk : S) (toSize : S → Res ℕ) (t type : List Char)
    (d : DataObj S C) (f : S) (h : (type.map Char.toLower, f) ∈ factorOf si adk) :
    (∀ d', d.load T white f t = (false, d') → d.loadInitial T black white si adk toSize t type = .ok (false, d')) ∧
    (∀ d', d.load T white f t = (true, d') → d.loadInitial T black white si adk toSize t type =
      (boxOf toSize d'.vrt).map (fun b => (true, { d' with box := b }))) := by
  have key : ∀ b d', d.load T white f t = (b, d') → d.loadInitial T black white si adk toSize t type =
      (if b = false then pure (false, d') else do
        let b ← boxOf toSize d'.vrt
        pure (true, { d' with box := b })) := by
    intro b d' hl
    simp only [factorOf, List.mem_cons, Prod.mk.injEq, List.not_mem_nil, or_false] at h
    unfold DataObj.loadInitial sameWord
    rcases h with ⟨e, rfl⟩ | ⟨e, rfl⟩ | ⟨e, rfl⟩
    · rw [e, hl]; rfl
    · rw [e, hl]; rfl
    · rw [e, hl]; rfl
  constructor
  · intro d' hl
    rw [key false d' hl]
    rfl
  · intro d' hl
    rw [key true d' hl]
    cases boxOf toSize d'.vrt <;> rfl

/-- A Zeno file, likewise. -/
theorem zeno_type (T : TextOps S) (black white : C) (si adk : S) (toSize : S → Res ℕ) (t type : List Char)
    (d : DataObj S C) (h : type.map Char.toLower = "zeno".toList) :
    (∀ d', d.loadZeno T black white t = .ok (false, d') →
      d.loadInitial T black white si adk toSize t type = .ok (false, d')) ∧
    (∀ d', d.loadZeno T black white t = .ok (true, d') → d.loadInitial T black white si adk toSize t type =
      (boxOf toSize d'.vrt).map (fun b => (true, { d' with box := b }))) := by
  constructor
  · intro d' hl
    unfold DataObj.loadInitial sameWord
    rw [h, hl]
    rfl
  · intro d' hl
    unfold DataObj.loadInitial sameWord
    rw [h, hl]
    cases hb : boxOf toSize d'.vrt <;> simp [bind, Except.bind, Except.map, pure, Except.pure, hb]

end

/-! A body at (2.5, 0, -7). -/

example : ∃ b : ℕ, boxOf realToSize [⟨2.5, 0, -7⟩] = .ok b ∧ b = 2 := by
  obtain ⟨b, h1, h2, -, h3, h4⟩ := box_size [⟨2.5, 0, -7⟩] (by simp; norm_num)
  refine ⟨b, h1, ?_⟩
  have h5 := (h3 ⟨2.5, 0, -7⟩ (by simp)).1
  simp only at h5
  have h6 : (1.5 : ℝ) < b := by linarith
  have h7 : 1 < b := by
    by_contra hc
    have : b = 1 := by omega
    subst this
    norm_num at h6
  rcases h4 with h4 | ⟨v, hv, h4⟩
  · omega
  · simp only [List.mem_singleton] at hv
    subst hv
    have h8 : (b : ℝ) < 3 := by
      rcases h4 with h4 | h4 | h4 <;> simp only at h4 <;> linarith
    have : b < 3 := by exact_mod_cast h8
    omega

example : (("Si".toList).map Char.toLower, (4 : ℝ)) ∈ factorOf 4 9 := by
  simp [factorOf]

end NB.C63
