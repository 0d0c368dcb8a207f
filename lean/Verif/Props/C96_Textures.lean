import Verif.Model.Texture
import Mathlib.Data.List.Basic
import Mathlib.Tactic.Lemma
import Mathlib.Tactic.Ring

/-
C96: what a kernel reads through a texture is what is in the buffer.
-/

namespace NB.C96

/-- The words of a double in memory, the low one first. -/
def words (v : UInt64) : List UInt32 := [UInt32.ofNat (v.toNat % 2 ^ 32), UInt32.ofNat (v.toNat / 2 ^ 32)]

/-- A buffer of doubles as words. -/
def inMemory (ds : List UInt64) : List UInt32 := ds.flatMap words

lemma hiLo_words (v : UInt64) :
    hiLo (UInt32.ofNat (v.toNat / 2 ^ 32)) (UInt32.ofNat (v.toNat % 2 ^ 32)) = v := by
  have h := v.toNat_lt
  apply UInt64.toNat.inj
  unfold hiLo
  rw [UInt64.toNat_ofNat', UInt32.toNat_ofNat', UInt32.toNat_ofNat']
  omega

lemma inMemory_length (ds : List UInt64) : (inMemory ds).length = 2 * ds.length := by
  induction ds with
  | nil => rfl
  | cons d ds ih =>
    show (words d ++ inMemory ds).length = _
    rw [List.length_append, ih]
    simp [words]
    ring

lemma inMemory_drop (ds : List UInt64) (i : ℕ) : (inMemory ds).drop (2 * i) = inMemory (ds.drop i) := by
  induction i generalizing ds with
  | zero => simp
  | succ i ih =>
    cases ds with
    | nil => simp [inMemory]
    | cons d ds =>
      show (words d ++ inMemory ds).drop (2 * (i + 1)) = _
      rw [show 2 * (i + 1) = (words d).length + 2 * i by simp [words]; ring, List.drop_append,
        Nat.add_sub_cancel_left, ih, List.drop_eq_nil_of_le (by omega)]
      simp

lemma drop_eq {α : Type} {l : List α} {i : ℕ} {x : α} (h : l[i]? = some x) : l.drop i = x :: l.drop (i + 1) := by
  obtain ⟨hi, rfl⟩ := List.getElem?_eq_some_iff.1 h
  exact List.drop_eq_getElem_cons hi

/-- A double that is read through the texture the buffer gives for single numbers is the one in the buffer. -/
theorem double_fetch (ds : List UInt64) (i : ℕ) (v : UInt64) (h : ds[i]? = some v) :
    ∃ c, setupTexture .double .evs1 = some c ∧ fetchDouble (inMemory ds) c i = .ok v := by
  refine ⟨2, rfl, ?_⟩
  have hi := (List.getElem?_eq_some_iff.1 h).1
  have e : tex1D (inMemory ds) 2 2 i = .ok (words v) := by
    unfold tex1D
    rw [if_neg (by simp), if_neg (by rw [inMemory_length]; omega), inMemory_drop, drop_eq h]
    rfl
  unfold fetchDouble
  rw [e]
  exact congrArg _ (hiLo_words v)

/-- Four doubles that are read through the texture the buffer gives for groups of four are the four in the buffer, as
long as their number fits an `int` twice. -/
theorem double_fetch4 (ds : List UInt64) (i : ℕ) (x y z r : UInt64) (hx : ds[4 * i]? = some x)
    (hy : ds[4 * i + 1]? = some y) (hz : ds[4 * i + 2]? = some z) (hr : ds[4 * i + 3]? = some r)
    (hi : i < 2 ^ 30) :
    ∃ c, setupTexture .double .evs4 = some c ∧ fetchDouble4 (inMemory ds) c i = .ok [x, y, z, r] := by
  refine ⟨4, rfl, ?_⟩
  have hl := (List.getElem?_eq_some_iff.1 hr).1
  have e1 : tex1D (inMemory ds) 4 4 (2 * i) = .ok (words x ++ words y) := by
    unfold tex1D
    rw [if_neg (by simp), if_neg (by rw [inMemory_length]; omega), show 4 * (2 * i) = 2 * (4 * i) by ring,
      inMemory_drop, drop_eq hx, drop_eq hy]
    rfl
  have e2 : tex1D (inMemory ds) 4 4 (2 * i + 1) = .ok (words z ++ words r) := by
    unfold tex1D
    rw [if_neg (by simp), if_neg (by rw [inMemory_length]; omega),
      show 4 * (2 * i + 1) = 2 * (4 * i + 2) by ring, inMemory_drop, drop_eq hz, drop_eq hr]
    rfl
  unfold fetchDouble4
  rw [if_neg (by omega)]
  simp only [e1, e2]
  show Except.ok [_, _, _, _] = _
  rw [hiLo_words, hiLo_words, hiLo_words, hiLo_words]

/-- The same for `float`. -/
theorem float_fetch (ds : List UInt32) (i : ℕ) (v : UInt32) (h : ds[i]? = some v) :
    ∃ c, setupTexture .float .evs1 = some c ∧ fetchFloat ds c i = .ok v := by
  refine ⟨1, rfl, ?_⟩
  have hi := (List.getElem?_eq_some_iff.1 h).1
  have e : tex1D ds 1 1 i = .ok [v] := by
    unfold tex1D
    rw [if_neg (by simp), if_neg (by omega), one_mul, drop_eq h]
    rfl
  unfold fetchFloat
  rw [e]
  rfl

/-- The same for four numbers of type `float`, without a bound. -/
theorem float_fetch4 (ds : List UInt32) (i : ℕ) (x y z r : UInt32) (hx : ds[4 * i]? = some x)
    (hy : ds[4 * i + 1]? = some y) (hz : ds[4 * i + 2]? = some z) (hr : ds[4 * i + 3]? = some r) :
    ∃ c, setupTexture .float .evs4 = some c ∧ fetchFloat4 ds c i = .ok [x, y, z, r] := by
  refine ⟨4, rfl, ?_⟩
  have hl := (List.getElem?_eq_some_iff.1 hr).1
  unfold fetchFloat4 tex1D
  rw [if_neg (by simp), if_neg (by omega), drop_eq hx, drop_eq hy, drop_eq hz, drop_eq hr]
  rfl

/-- Calls of `tex` on one buffer: device and size of the elements. -/
def calls (kind : CoordKind) : List (ℕ × VecSize) → TexState → Res (List (Option ℕ) × TexState)
  | [], s => .ok ([], s)
  | (d, v) :: l, s => do
    let (c, s) ← s.get kind d v
    let (cs, s) ← calls kind l s
    pure (c :: cs, s)

/-- Bookkeeping: a device has a texture of `c` channels or none, and as many were made. -/
def Kept (D : ℕ) (p : Option ℕ → Prop) (s : TexState) : Prop :=
  s.tex.length = D ∧ s.made.length = D ∧ ∀ d, d < D →
    (s.tex[d]? = some none ∧ s.made[d]? = some 0) ∨ ∃ c, p (some c) ∧ s.tex[d]? = some (some c) ∧ s.made[d]? = some 1

lemma get_kept {kind : CoordKind} {D d : ℕ} {v : VecSize} {p : Option ℕ → Prop} (hp : p (setupTexture kind v))
    {s : TexState} (h : Kept D p s) (hd : d < D) :
    ∃ c s', s.get kind d v = .ok (c, s') ∧ p c ∧ Kept D p s' ∧ (setupTexture kind v ≠ none → c ≠ none) ∧
      ∀ k, k < D → s.tex[k]? ≠ some none → s'.tex[k]? = s.tex[k]? := by
  obtain ⟨h1, h2, h3⟩ := h
  rcases h3 d hd with ⟨a, b⟩ | ⟨c, hc, a, b⟩
  · cases hs : setupTexture kind v with
    | none =>
      refine ⟨none, s, ?_, hs ▸ hp, ⟨h1, h2, h3⟩, fun h => absurd rfl h, fun _ _ _ => rfl⟩
      unfold TexState.get rd
      rw [a]
      show (match setupTexture kind v with | none => _ | some c => _) = _
      rw [hs]
      rfl
    | some c =>
      refine ⟨some c, ⟨s.tex.set d (some c), s.made.set d 1⟩, ?_, hs ▸ hp, ⟨by simp [h1], by simp [h2], ?_⟩,
        fun _ => by simp, ?_⟩
      · unfold TexState.get rd
        rw [a]
        show (match setupTexture kind v with | none => _ | some c => _) = _
        rw [hs]
        simp only []
        rw [b]
        rfl
      · intro k hk
        by_cases e : k = d
        · subst e
          right
          exact ⟨c, hs ▸ hp, by simp [h1, hk], by simp [h2, hk]⟩
        · have e' : d ≠ k := fun q => e q.symm
          rcases h3 k hk with ⟨x, y⟩ | ⟨c', hc', x, y⟩
          · left; simp [e', x, y]
          · right; exact ⟨c', hc', by simp [e', x], by simp [e', y]⟩
      · intro k hk hne
        have e' : d ≠ k := by rintro rfl; exact hne a
        simp [e']
  · refine ⟨some c, s, ?_, hc, ⟨h1, h2, h3⟩, fun _ => by simp, fun _ _ _ => rfl⟩
    unfold TexState.get rd
    rw [a]
    rfl

lemma calls_kept {kind : CoordKind} {D : ℕ} {p : Option ℕ → Prop} (l : List (ℕ × VecSize))
    (hl : ∀ q ∈ l, q.1 < D ∧ p (setupTexture kind q.2)) {s : TexState} (h : Kept D p s) :
    ∃ cs s', calls kind l s = .ok (cs, s') ∧ cs.length = l.length ∧ (∀ c ∈ cs, p c) ∧ Kept D p s' := by
  induction l generalizing s with
  | nil => exact ⟨[], s, rfl, rfl, by simp, h⟩
  | cons q l ih =>
    obtain ⟨d, v⟩ := q
    obtain ⟨hd, hp⟩ := hl (d, v) (by simp)
    obtain ⟨c, s1, e1, hc, k1, -⟩ := get_kept hp h hd
    obtain ⟨cs, s2, e2, hlen, hcs, k2⟩ := ih (fun q hq => hl q (by simp [hq])) k1
    refine ⟨c :: cs, s2, ?_, by simp [hlen], ?_, k2⟩
    · unfold calls
      rw [e1]
      show (do
        let (cs, s) ← calls kind l s1
        pure (c :: cs, s)) = _
      rw [e2]
      rfl
    · intro x hx
      rcases List.mem_cons.1 hx with rfl | hx
      · exact hc
      · exact hcs x hx

lemma new_kept (D : ℕ) (p : Option ℕ → Prop) : Kept D p (TexState.new D) := by
  refine ⟨by simp [TexState.new], by simp [TexState.new], fun d hd => .inl ?_⟩
  simp [TexState.new, hd]

/-- However often, and on whatever devices in whatever order, the textures of a buffer are asked for with one size of
elements, as the engine does, every answer is the texture for that size; at most one is made for a device, and the
destructor destroys as many as were made. -/
theorem one_size (kind : CoordKind) (D : ℕ) (v : VecSize) (l : List ℕ) (hl : ∀ d ∈ l, d < D) :
    ∃ s, calls kind (l.map (·, v)) (TexState.new D) = .ok (List.replicate l.length (setupTexture kind v), s) ∧
      ∀ d, d < D → ∃ n, s.made[d]? = some n ∧ n ≤ 1 ∧ s.destroyed d = n := by
  obtain ⟨cs, s, e, hlen, hcs, k⟩ := calls_kept (kind := kind) (D := D) (p := (· = setupTexture kind v))
    (l.map (·, v)) (by
      intro q hq
      obtain ⟨d, hd, rfl⟩ := List.mem_map.1 hq
      exact ⟨hl d hd, rfl⟩) (new_kept D _)
  refine ⟨s, ?_, fun d hd => ?_⟩
  · rw [e, List.eq_replicate_of_mem hcs, hlen, List.length_map]
  · rcases k.2.2 d hd with ⟨a, b⟩ | ⟨c, -, a, b⟩
    · exact ⟨0, b, by omega, by unfold TexState.destroyed; rw [a]⟩
    · exact ⟨1, b, le_refl _, by unfold TexState.destroyed; rw [a]⟩

/-- When a buffer of doubles was asked for groups of four, a later request for single numbers gets the texture for
groups, and reading a single number through it has no defined result. -/
theorem other_size (D d : ℕ) (hd : d < D) (mem : List UInt32) (i : ℕ) :
    ∃ s, calls .double [(d, .evs4), (d, .evs1)] (TexState.new D) = .ok ([some 4, some 4], s) ∧
      fetchDouble mem 4 i = .error .badArith := by
  refine ⟨⟨(TexState.new D).tex.set d (some 4), (TexState.new D).made.set d 1⟩, ?_, rfl⟩
  have e1 : (TexState.new D).get .double d .evs4 =
      .ok (some 4, ⟨(TexState.new D).tex.set d (some 4), (TexState.new D).made.set d 1⟩) := by
    unfold TexState.get rd
    simp [TexState.new, hd, setupTexture]
    rfl
  have e2 : (⟨(TexState.new D).tex.set d (some 4), (TexState.new D).made.set d 1⟩ : TexState).get .double d .evs1 =
      .ok (some 4, ⟨(TexState.new D).tex.set d (some 4), (TexState.new D).made.set d 1⟩) := by
    unfold TexState.get rd
    simp [TexState.new, hd]
    rfl
  unfold calls
  rw [e1]
  show (do
    let (cs, s) ← calls .double [(d, .evs1)] ⟨(TexState.new D).tex.set d (some 4), (TexState.new D).made.set d 1⟩
    pure (some 4 :: cs, s)) = _
  unfold calls
  rw [e2]
  rfl

/-- From the 2^30-th group on, the number of the first half of a group of doubles is no `int` any more. -/
theorem group_overflow (mem : List UInt32) (c i : ℕ) (h : 2 ^ 30 ≤ i) : fetchDouble4 mem c i = .error .badArith := by
  unfold fetchDouble4
  rw [if_pos (by omega)]
  rfl

/-! A buffer with two groups of four. -/

/-- Eight numbers, some of them with both words in use. -/
def eight : List UInt64 := [0x3ff0000000000001, 2, 3, 0xc000000000000004, 5, 0x7fefffffffffffff, 7, 8]

example : ∃ c, setupTexture .double .evs4 = some c ∧
    fetchDouble4 (inMemory eight) c 1 = .ok [5, 0x7fefffffffffffff, 7, 8] :=
  double_fetch4 eight 1 _ _ _ _ rfl rfl rfl rfl (by norm_num)

example : ∃ c, setupTexture .double .evs1 = some c ∧ fetchDouble (inMemory eight) c 3 = .ok 0xc000000000000004 :=
  double_fetch eight 3 _ rfl

example : ∃ c, setupTexture .float .evs1 = some c ∧ fetchFloat [1, 2, 3] c 2 = .ok 3 := float_fetch [1, 2, 3] 2 3 rfl

example : ∃ c, setupTexture .float .evs4 = some c ∧ fetchFloat4 [1, 2, 3, 4, 5, 6, 7, 8] c 1 = .ok [5, 6, 7, 8] :=
  float_fetch4 _ 1 _ _ _ _ rfl rfl rfl rfl

example : ∃ s, calls .double [(1, .evs4), (0, .evs4), (1, .evs4)] (TexState.new 2) = .ok ([some 4, some 4, some 4], s) ∧
    ∀ d, d < 2 → ∃ n, s.made[d]? = some n ∧ n ≤ 1 ∧ s.destroyed d = n :=
  one_size .double 2 .evs4 [1, 0, 1] (by decide)

example : ∃ s, calls .double [(0, .evs4), (0, .evs1)] (TexState.new 1) = .ok ([some 4, some 4], s) ∧
    fetchDouble (inMemory eight) 4 3 = .error .badArith := other_size 1 0 (by decide) _ _

example : fetchDouble4 (inMemory eight) 4 (2 ^ 30) = .error .badArith := group_overflow _ _ _ (le_refl _)

end NB.C96
