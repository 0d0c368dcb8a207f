import Verif.Model.Video
import Verif.Lemmas.Bench
import Mathlib.Tactic.Ring

/-
C93: recording a video.
-/

namespace NB.C93

variable {β : Type}

/-! Specification -/

/-- The picture as lines of pixels. -/
def lines (p : Picture β) : List (List (Rgb β)) := (List.range p.h).map fun y => (List.range p.w).map fun x => p.px x y

/-- A name ends in `.avi`, in any mixture of cases. -/
def IsAvi (s : List Char) : Prop := ∃ t a v i, s = t ++ ['.', a, v, i] ∧
  (a = 'a' ∨ a = 'A') ∧ (v = 'v' ∨ v = 'V') ∧ (i = 'i' ∨ i = 'I')

/-! Bytes -/

lemma stride (w : ℕ) : 3 * w ≤ bytesPerLine w := by unfold bytesPerLine; omega

lemma stride_eq {w : ℕ} (h : w % 4 = 0) : bytesPerLine w = 3 * w := by unfold bytesPerLine; omega

lemma stride_gt {w : ℕ} (h : w % 4 ≠ 0) : 3 * w < bytesPerLine w := by unfold bytesPerLine; omega

/-- An element of blocks of equal length. -/
lemma block_get {α : Type} (f : ℕ → List α) (L n : ℕ) (hf : ∀ y, y < n → (f y).length = L) (y k : ℕ) (hy : y < n)
    (hk : k < L) : ((List.range n).flatMap f)[y * L + k]? = (f y)[k]? := by
  induction n with
  | zero => omega
  | succ n ih =>
    have hlen : ∀ m, m ≤ n → ((List.range m).flatMap f).length = m * L := by
      intro m hm
      induction m with
      | zero => simp
      | succ m ihm =>
        rw [List.range_succ, List.flatMap_append, List.length_append, ihm (by omega)]
        simp [hf m (by omega)]; ring
    rw [List.range_succ, List.flatMap_append]
    rcases Nat.lt_succ_iff_lt_or_eq.1 hy with h | rfl
    · rw [List.getElem?_append_left, ih (fun y hy => hf y (by omega)) h]
      rw [hlen n (le_refl _)]
      calc y * L + k < y * L + L := by omega
        _ = (y + 1) * L := by ring
        _ ≤ n * L := Nat.mul_le_mul_right L h
    · rw [List.getElem?_append_right (by rw [hlen y (le_refl _)]; omega), hlen y (le_refl _)]
      simp

/-- Component `c` of a pixel as it lies in memory. -/
def comp (q : Rgb β) : ℕ → β
  | 0 => q.b
  | 1 => q.g
  | _ => q.r

lemma line_get (p : Picture β) (y x c : ℕ) (hx : x < p.w) (hc : c < 3) :
    ((List.range p.w).flatMap fun x => [(p.px x y).b, (p.px x y).g, (p.px x y).r])[x * 3 + c]? =
      some (comp (p.px x y) c) := by
  rw [block_get _ 3 p.w (fun _ _ => rfl) x c hx hc]
  match c, hc with
  | 0, _ => rfl
  | 1, _ => rfl
  | 2, _ => rfl

lemma line_length (p : Picture β) (y n : ℕ) :
    ((List.range n).flatMap fun x => [(p.px x y).b, (p.px x y).g, (p.px x y).r]).length = 3 * n := by
  induction n with
  | zero => rfl
  | succ n ih => rw [List.range_succ, List.flatMap_append, List.length_append, ih]; simp; ring

lemma row_length (p : Picture β) (pad : ℕ → ℕ → β) (y : ℕ) :
    (((List.range p.w).flatMap fun x => [(p.px x y).b, (p.px x y).g, (p.px x y).r]) ++
      (List.range (bytesPerLine p.w - 3 * p.w)).map (pad y)).length = bytesPerLine p.w := by
  rw [List.length_append, line_length, List.length_map, List.length_range]
  have := stride p.w
  omega

lemma bits_get (p : Picture β) (pad : ℕ → ℕ → β) (y x c : ℕ) (hy : y < p.h) (hx : x < p.w) (hc : c < 3) :
    (rgbBits p pad)[y * bytesPerLine p.w + (x * 3 + c)]? = some (comp (p.px x y) c) := by
  have hs := stride p.w
  unfold rgbBits
  rw [block_get _ (bytesPerLine p.w) p.h (fun y _ => row_length p pad y) y _ hy (by omega),
    List.getElem?_append_left (by rw [line_length]; omega)]
  exact line_get p y x c hx hc

lemma bits_pad (p : Picture β) (pad : ℕ → ℕ → β) (y k : ℕ) (hy : y < p.h) (hk : 3 * p.w + k < bytesPerLine p.w) :
    (rgbBits p pad)[y * bytesPerLine p.w + (3 * p.w + k)]? = some (pad y k) := by
  unfold rgbBits
  rw [block_get _ (bytesPerLine p.w) p.h (fun y _ => row_length p pad y) y _ hy hk,
    List.getElem?_append_right (by rw [line_length]; omega), line_length]
  have : k < bytesPerLine p.w - 3 * p.w := by omega
  simp [this]

lemma bits_length (p : Picture β) (pad : ℕ → ℕ → β) : (rgbBits p pad).length = p.h * bytesPerLine p.w := by
  unfold rgbBits
  generalize p.h = n
  induction n with
  | zero => simp
  | succ n ih =>
    rw [List.range_succ, List.flatMap_append, List.length_append, ih]
    simp only [List.flatMap_cons, List.flatMap_nil, List.append_nil, row_length]
    ring

/-! Pictures -/

/-- The image given to the encoder never reads outside the memory of the picture. -/
theorem video_image_defined (p : Picture β) (pad : ℕ → ℕ → β) : ∃ img, videoImage p pad = .ok img := by
  have hpx : ∀ y x, y < p.h → x < p.w → ∃ q, matPixel (rgbBits p pad) p.w x y = .ok q := by
    intro y x hy hx
    have hlen := bits_length p pad
    have hs := stride p.w
    have h1 : y * (3 * p.w) + 3 * p.w ≤ p.h * bytesPerLine p.w := by
      calc y * (3 * p.w) + 3 * p.w = (y + 1) * (3 * p.w) := by ring
        _ ≤ p.h * bytesPerLine p.w := Nat.mul_le_mul hy hs
    unfold matPixel rd
    rw [List.getElem?_eq_getElem (by omega), List.getElem?_eq_getElem (by omega), List.getElem?_eq_getElem (by omega)]
    exact ⟨_, rfl⟩
  have ex : ∀ {α γ : Type} (f : α → Res γ) (l : List α), (∀ a ∈ l, ∃ q, f a = .ok q) → ∃ r, l.mapM f = .ok r := by
    intro α γ f l
    induction l with
    | nil => exact fun _ => ⟨[], rfl⟩
    | cons a l ih =>
      intro h
      obtain ⟨q, hq⟩ := h a (by simp)
      obtain ⟨r, hr⟩ := ih fun b hb => h b (by simp [hb])
      exact ⟨q :: r, by rw [List.mapM_cons, hq, hr]; rfl⟩
  unfold videoImage
  exact ex _ _ fun y hy => ex _ _ fun x hx => hpx y x (List.mem_range.1 hy) (List.mem_range.1 hx)

/-- When the width is a multiple of four, the encoder is given the picture, every pixel in its place and in its colour,
whatever the padding. -/
theorem video_image_partial (p : Picture β) (pad : ℕ → ℕ → β) (h : p.w % 4 = 0) :
    videoImage p pad = .ok (lines p) := by
  unfold videoImage
  refine mapM_eq _ _ _ fun y hy => ?_
  refine mapM_eq _ _ _ fun x hx => ?_
  have hy' := List.mem_range.1 hy
  have hx' := List.mem_range.1 hx
  have hb := fun c hc => bits_get p pad y x c hy' hx' hc
  rw [stride_eq h] at hb
  have e : ∀ c, y * (3 * p.w) + 3 * x + c = y * (3 * p.w) + (x * 3 + c) := by intro c; ring
  unfold matPixel rd
  rw [show y * (3 * p.w) + 3 * x = y * (3 * p.w) + 3 * x + 0 from rfl, e 0, hb 0 (by omega)]
  rw [show y * (3 * p.w) + (x * 3 + 0) + 1 = y * (3 * p.w) + (x * 3 + 1) from rfl, hb 1 (by omega)]
  rw [show y * (3 * p.w) + (x * 3 + 0) + 2 = y * (3 * p.w) + (x * 3 + 2) from rfl, hb 2 (by omega)]
  rfl

/-- For any other width the second line of the video begins with a byte of the padding: the lines are sheared. -/
theorem video_image_sheared (p : Picture β) (pad : ℕ → ℕ → β) (h : p.w % 4 ≠ 0) (hh : 2 ≤ p.h) :
    ∃ q, matPixel (rgbBits p pad) p.w 0 1 = .ok q ∧ q.b = pad 0 0 := by
  have hs := stride_gt h
  have hlen := bits_length p pad
  have h2 : 2 * bytesPerLine p.w ≤ p.h * bytesPerLine p.w := Nat.mul_le_mul_right _ hh
  have hw : 0 < p.w := by
    rcases Nat.eq_zero_or_pos p.w with h0 | h0
    · rw [h0] at h; omega
    · exact h0
  have h0 := bits_pad p pad 0 0 (by omega) (by omega)
  unfold matPixel rd
  rw [show 1 * (3 * p.w) + 3 * 0 = 0 * bytesPerLine p.w + (3 * p.w + 0) by ring, h0,
    List.getElem?_eq_getElem (by omega), List.getElem?_eq_getElem (by omega)]
  exact ⟨_, rfl, rfl⟩

/-- So for such a width there are pictures, even of a single colour, that are not recorded as they are. -/
theorem video_image_differs (w h : ℕ) (hw : w % 4 ≠ 0) (hh : 2 ≤ h) (a b : β) (hab : a ≠ b) :
    videoImage ⟨w, h, fun _ _ => ⟨a, a, a⟩⟩ (fun _ _ => b) ≠ .ok (lines ⟨w, h, fun _ _ => ⟨a, a, a⟩⟩) := by
  intro he
  obtain ⟨q, hq, hb⟩ := video_image_sheared (⟨w, h, fun _ _ => ⟨a, a, a⟩⟩ : Picture β) (fun _ _ => b) hw hh
  have hw0 : 0 < w := by
    rcases Nat.eq_zero_or_pos w with h0 | h0
    · rw [h0] at hw; omega
    · exact h0
  have get : ∀ {α γ : Type} (f : α → Res γ) (l : List α) (r : List γ), l.mapM f = .ok r → ∀ (i : ℕ) (a : α), l[i]? = some a →
      ∃ c, r[i]? = some c ∧ f a = .ok c := by
    intro α γ f l
    induction l with
    | nil => intro r _ i a hi; simp at hi
    | cons a l ih =>
      intro r hr i a' hi
      rw [List.mapM_cons] at hr
      rcases hfa : f a with e | c
      · rw [hfa] at hr; cases hr
      · rw [hfa] at hr
        rcases hl : l.mapM f with e | r'
        · rw [hl] at hr; cases hr
        · rw [hl] at hr
          cases hr
          cases i with
          | zero =>
            rw [List.getElem?_cons_zero] at hi
            cases hi
            exact ⟨c, rfl, hfa⟩
          | succ i => exact ih r' hl i a' (by simpa using hi)
  obtain ⟨row, h1, h2⟩ := get _ _ _ he 1 1 (List.getElem?_range (show 1 < h by omega))
  obtain ⟨c, h3, h4⟩ := get _ _ _ h2 0 0 (List.getElem?_range hw0)
  rw [show matPixel _ _ 0 1 = Except.ok q from hq] at h4
  cases h4
  unfold lines at h1
  simp only [List.getElem?_map] at h1
  rw [List.getElem?_range (by omega)] at h1
  cases h1
  rw [List.getElem?_map, List.getElem?_range hw0] at h3
  cases h3
  exact hab hb

/-! Recordings -/

lemma pushAll_cons (p : Picture β × (ℕ → ℕ → β)) (l : List (Picture β × (ℕ → ℕ → β))) (v : Video β) :
    v.pushAll (p :: l) = (v.push p.1 p.2).bind fun v => v.pushAll l := rfl

lemma push_opened (p : Picture β) (pad : ℕ → ℕ → β) (hp : p.w % 4 = 0) (v : Video β) (hv : v.opened = true) :
    v.push p pad = .ok { v with images := v.images ++ [lines p] } := by
  unfold Video.push
  simp only [hv, Bool.true_or, if_true]
  rw [video_image_partial p pad hp]
  cases v
  simp only at hv
  subst hv
  rfl

lemma pushAll_opened (l : List (Picture β × (ℕ → ℕ → β))) (hl : ∀ p ∈ l, p.1.w % 4 = 0) (v : Video β)
    (hv : v.opened = true) : v.pushAll l = .ok { v with images := v.images ++ l.map fun p => lines p.1 } := by
  induction l generalizing v with
  | nil => simp [Video.pushAll, pure, Except.pure]
  | cons p l ih =>
    rw [pushAll_cons, push_opened p.1 p.2 (hl p (by simp)) v hv]
    show Video.pushAll l { v with images := v.images ++ [lines p.1] } = _
    rw [ih (fun q hq => hl q (by simp [hq])) { v with images := v.images ++ [lines p.1] } hv]
    simp

/-- The pictures of a recording are the images of the video, in order and complete, from the first call of `open` on
that succeeds; the pictures before it are dropped, and nobody is told. -/
theorem recording_partial (l : List (Picture β × (ℕ → ℕ → β))) (hl : ∀ p ∈ l, p.1.w % 4 = 0) (k : ℕ) (rest : List Bool) :
    ∃ v, Video.pushAll l { answers := List.replicate k false ++ true :: rest } = .ok v ∧
      v.images = (l.drop k).map fun p => lines p.1 := by
  induction l generalizing k with
  | nil => exact ⟨_, rfl, by simp⟩
  | cons p l ih =>
    rw [pushAll_cons]
    cases k with
    | zero =>
      have h1 : Video.push p.1 p.2 { answers := List.replicate 0 false ++ true :: rest } =
          .ok ⟨true, [lines p.1], rest⟩ := by
        unfold Video.push
        simp only [List.replicate_zero, List.nil_append, List.headD_cons, Bool.or_true, if_true, List.tail_cons]
        rw [video_image_partial p.1 p.2 (hl p (by simp))]
        rfl
      rw [h1]
      refine ⟨_, pushAll_opened l (fun q hq => hl q (by simp [hq])) ⟨true, [lines p.1], rest⟩ rfl, by simp⟩
    | succ k =>
      have h1 : Video.push p.1 p.2 { answers := List.replicate (k + 1) false ++ true :: rest } =
          .ok { answers := List.replicate k false ++ true :: rest } := by
        unfold Video.push
        simp [List.replicate_succ, pure, Except.pure]
      rw [h1]
      obtain ⟨v, h2, h3⟩ := ih (fun q hq => hl q (by simp [hq])) k
      exact ⟨v, h2, by simpa using h3⟩

/-- A recording whose file can be opened at once holds every picture of the size the player renders. -/
theorem recording_complete (l : List (Picture β × (ℕ → ℕ → β)))
    (hl : ∀ p ∈ l, (p.1.w, p.1.h) = renderSize) (rest : List Bool) :
    ∃ v, Video.pushAll l { answers := true :: rest } = .ok v ∧ v.images = l.map fun p => lines p.1 := by
  obtain ⟨v, h1, h2⟩ := recording_partial l (fun p hp => by
    have := congrArg Prod.fst (hl p hp)
    simp only [renderSize] at this
    omega) 0 rest
  exact ⟨v, h1, by simpa using h2⟩

/-- A file that can never be opened: no picture is recorded, every call behaves as if it were. -/
theorem recording_silent (l : List (Picture β × (ℕ → ℕ → β))) (k : ℕ) (hk : l.length ≤ k) :
    ∃ v, Video.pushAll l { answers := List.replicate k false } = .ok v ∧ v.images = [] := by
  induction l generalizing k with
  | nil => exact ⟨_, rfl, rfl⟩
  | cons p l ih =>
    obtain ⟨k, rfl⟩ : ∃ k', k = k' + 1 := ⟨k - 1, by simp at hk; omega⟩
    rw [pushAll_cons]
    have h1 : Video.push p.1 p.2 { answers := List.replicate (k + 1) false } =
        .ok { answers := List.replicate k false } := by
      unfold Video.push
      simp [List.replicate_succ, pure, Except.pure]
    rw [h1]
    exact ih k (by simpa using hk)

/-! Names -/

lemma toLower_eq (c d : Char) (h1 : 97 ≤ d.toNat) (h2 : d.toNat ≤ 122) :
    c.toLower = d ↔ c = d ∨ c.toNat + 32 = d.toNat := by
  have key : ∀ a b : Char, a = b ↔ a.toNat = b.toNat :=
    fun a b => ⟨fun h => h ▸ rfl, fun h => Char.ext (UInt32.toNat_inj.1 h)⟩
  have hA : ('A'.val : UInt32).toNat = 65 := rfl
  have hZ : ('Z'.val : UInt32).toNat = 90 := rfl
  rw [key, key]
  unfold Char.toLower
  split
  · rename_i h
    have h3 : 65 ≤ c.toNat := h.1
    have h4 : c.toNat ≤ 90 := h.2
    have : (c.val + 32).toNat = c.toNat + 32 := by
      rw [UInt32.toNat_add]
      show (c.toNat + 32) % 2 ^ 32 = _
      omega
    constructor
    · intro e
      right
      rw [← this]
      exact e
    · rintro (e | e)
      · omega
      · show (c.val + 32).toNat = _
        rw [this]; exact e
  · rename_i h
    constructor
    · exact .inl
    · rintro (e | e)
      · exact e
      · exfalso
        exact h ⟨show 65 ≤ c.toNat by omega, show c.toNat ≤ 90 by omega⟩

lemma toLower_dot (c : Char) : c.toLower = '.' ↔ c = '.' := by
  have key : ∀ a b : Char, a = b ↔ a.toNat = b.toNat :=
    fun a b => ⟨fun h => h ▸ rfl, fun h => Char.ext (UInt32.toNat_inj.1 h)⟩
  have hd : '.'.toNat = 46 := rfl
  rw [key, key, hd]
  unfold Char.toLower
  split
  · rename_i h
    have h3 : 65 ≤ c.toNat := h.1
    have h4 : c.toNat ≤ 90 := h.2
    have : (c.val + 32).toNat = c.toNat + 32 := by
      rw [UInt32.toNat_add]
      show (c.toNat + 32) % 2 ^ 32 = _
      omega
    have h5 : ∀ hv, (Char.mk (c.val + 32) hv).toNat = c.toNat + 32 := fun _ => this
    constructor
    · intro e
      have := (h5 _).symm.trans e
      omega
    · intro e
      omega
  · rfl

lemma letter (c d D : Char) (h1 : 97 ≤ d.toNat) (h2 : d.toNat ≤ 122) (hD : D.toNat + 32 = d.toNat) :
    c.toLower = d ↔ c = d ∨ c = D := by
  rw [toLower_eq c d h1 h2]
  have key : ∀ a b : Char, a = b ↔ a.toNat = b.toNat :=
    fun a b => ⟨fun h => h ▸ rfl, fun h => Char.ext (UInt32.toNat_inj.1 h)⟩
  rw [key c D]
  constructor
  · rintro (h | h)
    · exact .inl h
    · exact .inr (by omega)
  · rintro (h | h)
    · exact .inl h
    · exact .inr (by omega)

lemma endsWithAvi_iff (s : List Char) : endsWithAvi s = true ↔ IsAvi s := by
  unfold endsWithAvi IsAvi
  rw [beq_iff_eq]
  have ha := fun c => letter c 'a' 'A' (by decide) (by decide) (by decide)
  have hv := fun c => letter c 'v' 'V' (by decide) (by decide) (by decide)
  have hi := fun c => letter c 'i' 'I' (by decide) (by decide) (by decide)
  constructor
  · intro h
    obtain ⟨r, hr⟩ : ∃ r, r = s.reverse := ⟨_, rfl⟩
    have hs : s = r.reverse := by rw [hr, List.reverse_reverse]
    rw [← hr] at h
    match r, h, hs with
    | i :: v :: a :: d :: t, h, hs =>
      simp only [List.take_succ_cons, List.take_zero, List.map_cons, List.map_nil, List.cons.injEq, and_true] at h
      obtain ⟨h1, h2, h3, h4⟩ := h
      rw [toLower_dot] at h4
      refine ⟨t.reverse, a, v, i, ?_, (ha a).1 h3, (hv v).1 h2, (hi i).1 h1⟩
      rw [hs, h4]
      simp
    | [], h, _ => simp at h
    | [_], h, _ => simp at h
    | [_, _], h, _ => simp at h
    | [_, _, _], h, _ => simp at h
  · rintro ⟨t, a, v, i, rfl, h1, h2, h3⟩
    simp only [List.reverse_append, List.reverse_cons, List.reverse_nil, List.nil_append, List.cons_append,
      List.take_succ_cons, List.take_zero, List.map_cons, List.map_nil]
    rw [(ha a).2 h1, (hv v).2 h2, (hi i).2 h3, (toLower_dot '.').2 rfl]

/-- Choosing the video: the file recorded to is the one named if the name ends in `.avi` in any case, and otherwise the
name with `.avi` appended; the result always ends so. -/
theorem avi_name (out : List Char) (h : out ≠ []) :
    ∃ out', startRecord "Avi (*.avi)" out = .ok (some (.opencv, out')) ∧ IsAvi out' ∧
      (IsAvi out → out' = out) ∧ (¬ IsAvi out → out' = out ++ ".avi".toList) := by
  have he : out.isEmpty = false := by cases out with
    | nil => exact absurd rfl h
    | cons => rfl
  have hr : startRecord "Avi (*.avi)" out =
      .ok (some (.opencv, if endsWithAvi out then out else out ++ ['.', 'a', 'v', 'i'])) := by
    unfold startRecord
    rw [he]
    rfl
  refine ⟨_, hr, ?_⟩
  by_cases hq : endsWithAvi out = true
  · rw [if_pos hq]
    exact ⟨(endsWithAvi_iff _).1 hq, fun _ => rfl, fun hn => absurd ((endsWithAvi_iff _).1 hq) hn⟩
  · rw [if_neg hq]
    exact ⟨⟨out, 'a', 'v', 'i', rfl, .inl rfl, .inl rfl, .inl rfl⟩, fun hn => absurd ((endsWithAvi_iff _).2 hn) hq,
      fun _ => rfl⟩

/-- Choosing the frames: images under the name given.  Nothing is recorded when the dialog is cancelled or the filter
is neither of the two. -/
theorem record_choice (selected : String) (out : List Char) :
    (out ≠ [] → startRecord "PNG frames (*.png)" out = .ok (some (.image, out))) ∧
    startRecord selected [] = .ok none ∧
    (selected ≠ "Avi (*.avi)" → selected ≠ "PNG frames (*.png)" → startRecord selected out = .ok none) := by
  refine ⟨fun h => ?_, rfl, fun h1 h2 => ?_⟩
  · cases out with
    | nil => exact absurd rfl h
    | cons c t => rfl
  · cases out with
    | nil => rfl
    | cons c t =>
      unfold startRecord createCompresser
      simp only [List.isEmpty_cons, Bool.false_eq_true, if_false]
      simp [rd, h1, h2, pure, Except.pure, bind, Except.bind]

/-! Examples -/

/-- Five pixels wide: a line has 16 bytes of which the video takes 15. -/
example : bytesPerLine 5 = 16 ∧ bytesPerLine 1920 = 5760 := by decide

/-- Two lines of one white pixel: the second comes out in another colour, made of the byte left over. -/
example : videoImage ⟨1, 2, fun _ _ => ⟨255, 255, 255⟩⟩ (fun _ _ => (0 : ℕ)) =
    .ok [[⟨255, 255, 255⟩], [⟨255, 255, 0⟩]] := by decide +kernel

/-- Four pixels wide: as it is. -/
example : videoImage ⟨4, 2, fun x y => ⟨x, y, 7⟩⟩ (fun _ _ => (0 : ℕ)) =
    .ok (lines ⟨4, 2, fun x y => ⟨x, y, 7⟩⟩) := video_image_partial _ _ (by decide)

/-- The size that is rendered. -/
example : ∃ v, Video.pushAll [(⟨1920, 1080, fun x y => ⟨x, y, 0⟩⟩, fun _ _ => (0 : ℕ))] { answers := [true] } = .ok v ∧
    v.images = [lines ⟨1920, 1080, fun x y => ⟨x, y, 0⟩⟩] :=
  recording_complete _ (by simp [renderSize]) []

/-- Two failures to open, three pictures: one is recorded. -/
example : ∃ v, Video.pushAll
      [(⟨4, 1, fun _ _ => ⟨1, 1, 1⟩⟩, fun _ _ => (0 : ℕ)), (⟨4, 1, fun _ _ => ⟨2, 2, 2⟩⟩, fun _ _ => 0),
        (⟨4, 1, fun _ _ => ⟨3, 3, 3⟩⟩, fun _ _ => 0)] { answers := [false, false, true] } = .ok v ∧
    v.images = [lines ⟨4, 1, fun _ _ => ⟨3, 3, 3⟩⟩] :=
  recording_partial _ (by simp) 2 []

example : startRecord "Avi (*.avi)" "a".toList = .ok (some (.opencv, "a.avi".toList)) ∧
    startRecord "Avi (*.avi)" "a.AvI".toList = .ok (some (.opencv, "a.AvI".toList)) ∧
    startRecord "Avi (*.avi)" "avi".toList = .ok (some (.opencv, "avi.avi".toList)) := by decide +kernel

end NB.C93
