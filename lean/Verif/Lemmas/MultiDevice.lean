import Verif.Model.MultiDevice
import Verif.Lemmas.ParEngine
import Mathlib.Tactic.Ring
import Mathlib.Tactic.Push
import Mathlib.Tactic.Tauto
import Mathlib.Tactic.SplitIfs

/-
Copies between replicas and the passes built from them.
-/

namespace NB

variable {S : Type}

open Classical in
/-- Rule for loops that only move cells: no source of a move is a target of one. -/
theorem seqFor_move {n : Nat} {body : Nat → Prog S Unit} {m : Mem S}
    (T : Nat → Handle → Nat → Prop) (src : Handle → Nat → Handle)
    (hsrc : ∀ i i' x j, i < n → i' < n → T i x j → ¬ T i' (src x j) j)
    (hb : ∀ i m', i < n → m'.shape = m.shape →
      ∃ m'', (body i).run m' = .ok ((), m'') ∧
        (∀ x j, m''.cell x j = if T i x j then m'.cell (src x j) j else m'.cell x j)) :
    ∃ m', seqFor n body m = .ok m' ∧ m'.shape = m.shape ∧
      ∀ x j, m'.cell x j = if (∃ i, i < n ∧ T i x j) then m.cell (src x j) j else m.cell x j := by
  have := forN_inv (n := n) (s := m) (f := fun i m => do let r ← (body i).run m; pure r.2)
    (fun k m' => m'.shape = m.shape ∧ ∀ x j, m'.cell x j =
        if (∃ i, i < k ∧ T i x j) then m.cell (src x j) j else m.cell x j)
    ?_ ?_
  · obtain ⟨t, h1, h2, h3⟩ := this
    exact ⟨t, h1, h2, h3⟩
  · refine ⟨rfl, fun x j => ?_⟩
    rw [if_neg]
    rintro ⟨i, h, _⟩; omega
  · rintro i m' hi ⟨hs, hc⟩
    obtain ⟨m'', hrun, hc''⟩ := hb i m' hi hs
    refine ⟨m'', by simp [hrun], ?_, ?_⟩
    · rw [Prog.run_shape hrun, hs]
    · intro x j
      rw [hc'']
      by_cases h1 : T i x j
      · rw [if_pos h1, hc, if_neg, if_pos ⟨i, by omega, h1⟩]
        rintro ⟨o, ho, ho'⟩
        exact hsrc i o x j hi (by omega) h1 ho'
      · rw [if_neg h1, hc]
        by_cases h2 : ∃ o, o < i ∧ T o x j
        · obtain ⟨o, hlt, ho⟩ := h2
          rw [if_pos ⟨o, hlt, ho⟩, if_pos ⟨o, by omega, ho⟩]
        · rw [if_neg h2, if_neg]
          rintro ⟨o, hlt, ho⟩
          by_cases ho' : o = i
          · subst ho'; exact h1 ho
          · exact h2 ⟨o, by omega, ho⟩

/-! ### Rectangles -/

/-- The cells a rectangular copy touches. -/
def InRect (off w rows pitch j : Nat) : Prop := ∃ r, r < rows ∧ ∃ i, i < w ∧ j = off + r * pitch + i

theorem inRect_iff {off w rows pitch j : Nat} (h : off + w ≤ pitch) :
    InRect off w rows pitch j ↔ j < rows * pitch ∧ off ≤ j % pitch ∧ j % pitch < off + w := by
  constructor
  · rintro ⟨r, hr, i, hi, rfl⟩
    have hm : (off + r * pitch + i) % pitch = off + i := by
      rw [show off + r * pitch + i = (off + i) + pitch * r by ring, Nat.add_mul_mod_self_left,
        Nat.mod_eq_of_lt (by omega)]
    refine ⟨?_, by omega, by omega⟩
    have : (r + 1) * pitch ≤ rows * pitch := Nat.mul_le_mul_right _ hr
    have : (r + 1) * pitch = r * pitch + pitch := by ring
    omega
  · rintro ⟨h1, h2, h3⟩
    have hp : 0 < pitch := by
      rcases Nat.eq_zero_or_pos pitch with h0 | h0
      · subst h0; omega
      · exact h0
    refine ⟨j / pitch, Nat.div_lt_of_lt_mul (by rwa [Nat.mul_comm]), j % pitch - off, by omega, ?_⟩
    have := Nat.div_add_mod j pitch
    have h4 : j / pitch * pitch = pitch * (j / pitch) := Nat.mul_comm _ _
    omega

open Classical in
theorem copyRect_run {src dst : Handle} (hne : src ≠ dst) {off w rows pitch : Nat} {m : Mem S}
    (hs : ∀ j, InRect off w rows pitch j → (m.cell src j).isSome)
    (hd : ∀ j, InRect off w rows pitch j → (m.cell dst j).isSome) :
    ∃ m', (copyRect src dst off w rows pitch : Prog S Unit).run m = .ok ((), m') ∧
      m'.shape = m.shape ∧
      ∀ x j, m'.cell x j = if x = dst ∧ InRect off w rows pitch j then m.cell src j else m.cell x j := by
  unfold copyRect
  rw [Prog.run_forN]
  have outer := forN_inv (n := rows) (s := (((), m) : Unit × Mem S))
    (f := fun r s => (forN w () (fun i _ => do
      let v ← Prog.get src (off + r * pitch + i)
      Prog.put dst (off + r * pitch + i) v) : Prog S Unit).run s.2)
    (fun r s => s.2.shape = m.shape ∧ ∀ x j, s.2.cell x j =
      if x = dst ∧ InRect off w r pitch j then m.cell src j else m.cell x j) ?_ ?_
  · obtain ⟨t, h1, h2, h3⟩ := outer
    exact ⟨t.2, h1, h2, h3⟩
  · refine ⟨rfl, fun x j => ?_⟩
    rw [if_neg]
    rintro ⟨_, r, hr, _⟩; omega
  · rintro r ⟨⟨⟩, m1⟩ hr ⟨hsh, hc⟩
    rw [Prog.run_forN]
    have inner := forN_inv (n := w) (s := (((), m1) : Unit × Mem S))
      (f := fun i s => (do
        let v ← Prog.get src (off + r * pitch + i)
        Prog.put dst (off + r * pitch + i) v : Prog S Unit).run s.2)
      (fun i s => s.2.shape = m.shape ∧ ∀ x j, s.2.cell x j =
        if x = dst ∧ (InRect off w r pitch j ∨ ∃ i', i' < i ∧ j = off + r * pitch + i') then
          m.cell src j else m.cell x j) ?_ ?_
    · obtain ⟨t, h1, h2, h3⟩ := inner
      refine ⟨t, h1, h2, fun x j => ?_⟩
      rw [h3]
      have : InRect off w (r + 1) pitch j ↔
          (InRect off w r pitch j ∨ ∃ i', i' < w ∧ j = off + r * pitch + i') := by
        constructor
        · rintro ⟨r', hr', h⟩
          by_cases hrr : r' = r
          · subst hrr; exact Or.inr h
          · exact Or.inl ⟨r', by omega, h⟩
        · rintro (⟨r', hr', h⟩ | h)
          · exact ⟨r', by omega, h⟩
          · exact ⟨r, by omega, h⟩
      exact if_congr (by rw [this]) rfl rfl
    · refine ⟨hsh, fun x j => ?_⟩
      rw [hc]
      have : (∃ i', i' < 0 ∧ j = off + r * pitch + i') ↔ False :=
        ⟨fun ⟨_, h, _⟩ => by omega, False.elim⟩
      simp only [this, or_false]
    · rintro i ⟨⟨⟩, m2⟩ hi ⟨hsh2, hc2⟩
      have hin : InRect off w rows pitch (off + r * pitch + i) := ⟨r, hr, i, hi, rfl⟩
      obtain ⟨v, hv⟩ := Option.isSome_iff_exists.1 (hs _ hin)
      have hgs : m2.cell src (off + r * pitch + i) = some v := by
        rw [hc2, if_neg (fun h => hne h.1), hv]
      have hgd : (m2.cell dst (off + r * pitch + i)).isSome := by
        have := hd _ hin
        rw [Mem.isSome_cell] at this ⊢
        simp only at hsh2
        rw [hsh2]; exact this
      refine ⟨((), m2.setCell dst (off + r * pitch + i) v), ?_, by simpa using hsh2, ?_⟩
      · simp only [Prog.run_bind, Prog.run_get hgs, res_ok_bind, Prog.run_put _ hgd]
      · intro x j
        rw [Mem.cell_setCell]
        by_cases h1 : x = dst ∧ j = off + r * pitch + i
        · obtain ⟨rfl, rfl⟩ := h1
          obtain ⟨u, hu⟩ := Option.isSome_iff_exists.1 hgd
          rw [if_pos ⟨rfl, rfl⟩, hu, if_pos ⟨rfl, Or.inr ⟨i, by omega, rfl⟩⟩, hv]; rfl
        · rw [if_neg h1, hc2]
          by_cases hx : x = dst
          · subst hx
            have hj : j ≠ off + r * pitch + i := fun h => h1 ⟨rfl, h⟩
            have : (∃ i', i' < i ∧ j = off + r * pitch + i') ↔
                (∃ i', i' < i + 1 ∧ j = off + r * pitch + i') := by
              constructor
              · rintro ⟨i', h, h'⟩; exact ⟨i', by omega, h'⟩
              · rintro ⟨i', h, h'⟩
                refine ⟨i', ?_, h'⟩
                by_cases hii : i' = i
                · subst hii; exact absurd h' hj
                · omega
            exact if_congr (by rw [this]) rfl rfl
          · rw [if_neg (fun h => hx h.1), if_neg (fun h => hx h.1)]

theorem copyRect_within {src dst : Handle} {off w rows pitch : Nat} {R W : Handle → Nat → Prop}
    (hR : ∀ j, InRect off w rows pitch j → R src j) (hW : ∀ j, InRect off w rows pitch j → W dst j) :
    (copyRect src dst off w rows pitch : Prog S Unit).Within R W := by
  unfold copyRect
  apply Prog.Within.forN
  intro r _ hr
  apply Prog.Within.forN
  intro i _ hi
  refine Prog.Within.bind (Prog.Within.get (hR _ ⟨r, hr, i, hi, rfl⟩)) fun v =>
    Prog.Within.put (hW _ ⟨r, hr, i, hi, rfl⟩)

/-! ### Replicas -/

theorem rep_inj {D h h' d d' : Nat} (hd : d < D) (hd' : d' < D) :
    rep D h d = rep D h' d' ↔ h = h' ∧ d = d' := by
  unfold rep
  constructor
  · intro e
    have h1 : (h * D + d) / D = h := by
      rw [Nat.mul_comm, Nat.mul_add_div (by omega), Nat.div_eq_of_lt hd, Nat.add_zero]
    have h2 : (h' * D + d') / D = h' := by
      rw [Nat.mul_comm, Nat.mul_add_div (by omega), Nat.div_eq_of_lt hd', Nat.add_zero]
    have : h = h' := by rw [← h1, ← h2, e]
    subst this
    exact ⟨rfl, Nat.add_left_cancel e⟩
  · rintro ⟨rfl, rfl⟩; rfl

theorem rep_div {D h d : Nat} (hd : d < D) : rep D h d / D = h := by
  unfold rep
  rw [Nat.mul_comm, Nat.mul_add_div (by omega), Nat.div_eq_of_lt hd, Nat.add_zero]

theorem rep_mod {D h d : Nat} (hd : d < D) : rep D h d % D = d := by
  unfold rep
  rw [Nat.mul_comm, Nat.mul_add_mod, Nat.mod_eq_of_lt hd]

theorem rep_eta (D x : Nat) : rep D (x / D) (x % D) = x := by
  unfold rep
  rw [Nat.mul_comm]; exact Nat.div_add_mod x D

/-! ### One pass of the exchange -/

/-- Copy `p` of a pass fills this cell. -/
def PassTarget (D : Nat) (h : Handle) (w rows pitch s p : Nat) (x : Handle) (j : Nat) : Prop :=
  if p % 2 = 0 then x = rep D h (p / 2 / s * (2 * s) + p / 2 % s + s) ∧
    InRect (2 * (p / 2 / s) * w) w rows pitch j
  else x = rep D h (p / 2 / s * (2 * s) + p / 2 % s) ∧ InRect (2 * (p / 2 / s) * w + w) w rows pitch j

/-- Copy `p` of a pass reads this cell. -/
def PassSource (D : Nat) (h : Handle) (w rows pitch s p : Nat) (x : Handle) (j : Nat) : Prop :=
  if p % 2 = 0 then x = rep D h (p / 2 / s * (2 * s) + p / 2 % s) ∧
    InRect (2 * (p / 2 / s) * w) w rows pitch j
  else x = rep D h (p / 2 / s * (2 * s) + p / 2 % s + s) ∧ InRect (2 * (p / 2 / s) * w + w) w rows pitch j

/-- The other device of the pair of device `d`. -/
def partner (s d : Nat) : Nat := if d % (2 * s) < s then d + s else d - s

section pass
variable {D h w rows pitch s : Nat}

theorem pair_div {g k : Nat} (hk : k < 2 * s) : (g * (2 * s) + k) / (2 * s) = g := by
  rw [Nat.mul_comm, Nat.mul_add_div (by omega), Nat.div_eq_of_lt hk, Nat.add_zero]

theorem pair_mod {g k : Nat} (hk : k < 2 * s) : (g * (2 * s) + k) % (2 * s) = k := by
  rw [Nat.mul_comm, Nat.mul_add_mod, Nat.mod_eq_of_lt hk]

theorem pair_lt {g : Nat} (hg : g < D / (2 * s)) {k : Nat} (hk : k < 2 * s) : g * (2 * s) + k < D := by
  have h1 : (g + 1) * (2 * s) ≤ D / (2 * s) * (2 * s) := Nat.mul_le_mul_right _ hg
  have h2 : D / (2 * s) * (2 * s) ≤ D := Nat.div_mul_le_self _ _
  have h3 : (g + 1) * (2 * s) = g * (2 * s) + 2 * s := by ring
  omega

theorem copy_group (hs : 0 < s) {G p : Nat} (hp : p < G * s * 2) : p / 2 / s < G := by
  apply Nat.div_lt_of_lt_mul
  have : s * G = G * s := Nat.mul_comm _ _
  omega

theorem pass_fit (hfit : D / (2 * s) * 2 * w ≤ pitch) {g : Nat} (hg : g < D / (2 * s)) :
    2 * g * w + w ≤ pitch ∧ 2 * g * w + w + w ≤ pitch := by
  have h1 : (g + 1) * 2 * w ≤ D / (2 * s) * 2 * w :=
    Nat.mul_le_mul_right _ (Nat.mul_le_mul_right _ hg)
  have h2 : (g + 1) * 2 * w = 2 * g * w + w + w := by ring
  omega

theorem inRect_block (hw : 0 < w) {b j : Nat} (hfit : b * w + w ≤ pitch) :
    InRect (b * w) w rows pitch j ↔ j < rows * pitch ∧ j % pitch / w = b := by
  rw [inRect_iff hfit]
  constructor
  · rintro ⟨h1, h2, h3⟩
    exact ⟨h1, Nat.div_eq_of_lt_le h2 (by rw [Nat.add_mul, Nat.one_mul]; exact h3)⟩
  · rintro ⟨h1, rfl⟩
    refine ⟨h1, Nat.div_mul_le_self _ _, ?_⟩
    have := Nat.lt_div_mul_add (a := j % pitch) hw
    exact this

theorem passTarget_iff (hs : 0 < s) (hw : 0 < w) (hfit : D / (2 * s) * 2 * w ≤ pitch) {p : Nat}
    (hp : p < D / (2 * s) * s * 2) {x : Handle} {j : Nat} :
    PassTarget D h w rows pitch s p x j ↔ j < rows * pitch ∧
      ((p % 2 = 0 ∧ x = rep D h (p / 2 / s * (2 * s) + (p / 2 % s + s)) ∧ j % pitch / w = 2 * (p / 2 / s)) ∨
       (p % 2 = 1 ∧ x = rep D h (p / 2 / s * (2 * s) + p / 2 % s) ∧ j % pitch / w = 2 * (p / 2 / s) + 1)) := by
  have hg := copy_group hs hp
  obtain ⟨f1, f2⟩ := pass_fit hfit hg
  have e : 2 * (p / 2 / s) * w + w = (2 * (p / 2 / s) + 1) * w := by ring
  unfold PassTarget
  rw [e] at f2 ⊢
  rw [inRect_block hw f1, inRect_block hw f2]
  by_cases hq : p % 2 = 0
  · have hq1 : ¬ p % 2 = 1 := by omega
    simp only [hq, if_true, true_and, Nat.add_assoc]
    tauto
  · have hq1 : p % 2 = 1 := by omega
    simp only [hq1, if_true, true_and, Nat.add_assoc]
    simp
    tauto

theorem passSource_iff (hs : 0 < s) (hw : 0 < w) (hfit : D / (2 * s) * 2 * w ≤ pitch) {p : Nat}
    (hp : p < D / (2 * s) * s * 2) {x : Handle} {j : Nat} :
    PassSource D h w rows pitch s p x j ↔ j < rows * pitch ∧
      ((p % 2 = 0 ∧ x = rep D h (p / 2 / s * (2 * s) + p / 2 % s) ∧ j % pitch / w = 2 * (p / 2 / s)) ∨
       (p % 2 = 1 ∧ x = rep D h (p / 2 / s * (2 * s) + (p / 2 % s + s)) ∧
         j % pitch / w = 2 * (p / 2 / s) + 1)) := by
  have hg := copy_group hs hp
  obtain ⟨f1, f2⟩ := pass_fit hfit hg
  have e : 2 * (p / 2 / s) * w + w = (2 * (p / 2 / s) + 1) * w := by ring
  unfold PassSource
  rw [e] at f2 ⊢
  rw [inRect_block hw f1, inRect_block hw f2]
  by_cases hq : p % 2 = 0
  · have hq1 : ¬ p % 2 = 1 := by omega
    simp only [hq, if_true, true_and, Nat.add_assoc]
    tauto
  · have hq1 : p % 2 = 1 := by omega
    simp only [hq1, if_true, true_and, Nat.add_assoc]
    simp
    tauto

theorem rep_pair {g k g' k' : Nat} (hg : g < D / (2 * s)) (hg' : g' < D / (2 * s)) (hk : k < 2 * s)
    (hk' : k' < 2 * s) (e : rep D h (g * (2 * s) + k) = rep D h (g' * (2 * s) + k')) : g = g' ∧ k = k' := by
  have e' := ((rep_inj (pair_lt hg hk) (pair_lt hg' hk')).1 e).2
  have h1 := pair_div (s := s) (g := g) hk
  have h2 := pair_div (s := s) (g := g') hk'
  have h3 := pair_mod (s := s) (g := g) hk
  have h4 := pair_mod (s := s) (g := g') hk'
  rw [e'] at h1 h3
  exact ⟨h1.symm.trans h2, h3.symm.trans h4⟩

theorem pass_target_unique (hs : 0 < s) (hw : 0 < w) (hfit : D / (2 * s) * 2 * w ≤ pitch) {p p' : Nat}
    (hp : p < D / (2 * s) * s * 2) (hp' : p' < D / (2 * s) * s * 2) {x : Handle} {j : Nat}
    (h1 : PassTarget D h w rows pitch s p x j) (h2 : PassTarget D h w rows pitch s p' x j) : p = p' := by
  rw [passTarget_iff hs hw hfit hp] at h1
  rw [passTarget_iff hs hw hfit hp'] at h2
  have g1 := copy_group hs hp
  have g2 := copy_group hs hp'
  have k1 : p / 2 % s < s := Nat.mod_lt _ hs
  have k2 : p' / 2 % s < s := Nat.mod_lt _ hs
  have d1 := Nat.div_add_mod (p / 2) s
  have d2 := Nat.div_add_mod (p' / 2) s
  obtain ⟨_, ⟨q1, e1, b1⟩ | ⟨q1, e1, b1⟩⟩ := h1 <;> obtain ⟨_, ⟨q2, e2, b2⟩ | ⟨q2, e2, b2⟩⟩ := h2
  · obtain ⟨a, b⟩ := rep_pair g1 g2 (by omega) (by omega) (e1.symm.trans e2)
    rw [a, show p / 2 % s = p' / 2 % s by omega] at d1
    omega
  · obtain ⟨a, b⟩ := rep_pair g1 g2 (by omega) (by omega) (e1.symm.trans e2)
    omega
  · obtain ⟨a, b⟩ := rep_pair g1 g2 (by omega) (by omega) (e1.symm.trans e2)
    omega
  · obtain ⟨a, b⟩ := rep_pair g1 g2 (by omega) (by omega) (e1.symm.trans e2)
    rw [a, b] at d1
    omega

theorem pass_target_source (hs : 0 < s) (hw : 0 < w) (hfit : D / (2 * s) * 2 * w ≤ pitch) {p p' : Nat}
    (hp : p < D / (2 * s) * s * 2) (hp' : p' < D / (2 * s) * s * 2) {x : Handle} {j : Nat}
    (h1 : PassTarget D h w rows pitch s p x j) : ¬ PassSource D h w rows pitch s p' x j := by
  intro h2
  rw [passTarget_iff hs hw hfit hp] at h1
  rw [passSource_iff hs hw hfit hp'] at h2
  have g1 := copy_group hs hp
  have g2 := copy_group hs hp'
  have k1 : p / 2 % s < s := Nat.mod_lt _ hs
  have k2 : p' / 2 % s < s := Nat.mod_lt _ hs
  obtain ⟨_, ⟨q1, e1, b1⟩ | ⟨q1, e1, b1⟩⟩ := h1 <;> obtain ⟨_, ⟨q2, e2, b2⟩ | ⟨q2, e2, b2⟩⟩ := h2 <;>
  · obtain ⟨a, b⟩ := rep_pair g1 g2 (by omega) (by omega) (e1.symm.trans e2)
    omega

theorem gatherCopy_within {p : Nat} :
    (gatherCopy D h w rows pitch s p : Prog S Unit).Within (PassSource D h w rows pitch s p)
      (PassTarget D h w rows pitch s p) := by
  unfold gatherCopy
  dsimp only
  by_cases hq : p % 2 = 0
  · rw [if_pos hq]
    refine copyRect_within ?_ ?_
    · intro j hj; rw [PassSource, if_pos hq]; exact ⟨rfl, hj⟩
    · intro j hj; rw [PassTarget, if_pos hq]; exact ⟨rfl, hj⟩
  · rw [if_neg hq]
    refine copyRect_within ?_ ?_
    · intro j hj; rw [PassSource, if_neg hq]; exact ⟨rfl, hj⟩
    · intro j hj; rw [PassTarget, if_neg hq]; exact ⟨rfl, hj⟩

theorem gatherCopy_independent (hs : 0 < s) (hw : 0 < w) (hfit : D / (2 * s) * 2 * w ≤ pitch) :
    Independent (S := S) (D / (2 * s) * s * 2) (gatherCopy D h w rows pitch s) :=
  ⟨⟨PassSource D h w rows pitch s, PassTarget D h w rows pitch s, fun _ _ => gatherCopy_within,
    fun _ _ _ _ hi hj hij hb => ⟨pass_target_source hs hw hfit hi hj hb,
      fun hb' => hij (pass_target_unique hs hw hfit hi hj hb hb')⟩⟩⟩

open Classical in
/-- What one copy does. -/
theorem gatherCopy_run (hs : 0 < s) (hw : 0 < w) (hfit : D / (2 * s) * 2 * w ≤ pitch) {p : Nat}
    (hp : p < D / (2 * s) * s * 2) {m : Mem S}
    (hall : ∀ d j, d < D → j < rows * pitch → (m.cell (rep D h d) j).isSome) :
    ∃ m', (gatherCopy D h w rows pitch s p : Prog S Unit).run m = .ok ((), m') ∧ m'.shape = m.shape ∧
      ∀ x j, m'.cell x j = if PassTarget D h w rows pitch s p x j then
        m.cell (rep D h (partner s (x % D))) j else m.cell x j := by
  have hg := copy_group hs hp
  have hk : p / 2 % s < s := Nat.mod_lt _ hs
  have l1 : p / 2 / s * (2 * s) + p / 2 % s < D := pair_lt hg (by omega)
  have l2 : p / 2 / s * (2 * s) + (p / 2 % s + s) < D := pair_lt hg (by omega)
  rw [← Nat.add_assoc] at l2
  obtain ⟨f1, f2⟩ := pass_fit hfit hg
  have p1 : partner s (p / 2 / s * (2 * s) + p / 2 % s) = p / 2 / s * (2 * s) + p / 2 % s + s := by
    rw [partner, pair_mod (by omega), if_pos hk]
  have p2 : partner s (p / 2 / s * (2 * s) + p / 2 % s + s) = p / 2 / s * (2 * s) + p / 2 % s := by
    rw [partner, Nat.add_assoc, pair_mod (by omega), if_neg (by omega)]; omega
  unfold gatherCopy
  dsimp only
  by_cases hq : p % 2 = 0
  · rw [if_pos hq]
    obtain ⟨m', h1, h2, h3⟩ := copyRect_run (S := S) (m := m)
      (src := rep D h (p / 2 / s * (2 * s) + p / 2 % s))
      (dst := rep D h (p / 2 / s * (2 * s) + p / 2 % s + s)) (off := 2 * (p / 2 / s) * w) (w := w)
      (rows := rows) (pitch := pitch)
      (fun e => by have := ((rep_inj l1 l2).1 e).2; omega)
      (fun j hj => hall _ _ l1 ((inRect_iff f1).1 hj).1) (fun j hj => hall _ _ l2 ((inRect_iff f1).1 hj).1)
    refine ⟨m', h1, h2, fun x j => ?_⟩
    rw [h3]
    unfold PassTarget
    simp only [hq, if_true]
    by_cases hx : x = rep D h (p / 2 / s * (2 * s) + p / 2 % s + s)
    · subst hx
      rw [rep_mod l2, p2]
    · simp only [hx, false_and, if_false]
  · rw [if_neg hq]
    obtain ⟨m', h1, h2, h3⟩ := copyRect_run (S := S) (m := m)
      (src := rep D h (p / 2 / s * (2 * s) + p / 2 % s + s))
      (dst := rep D h (p / 2 / s * (2 * s) + p / 2 % s)) (off := 2 * (p / 2 / s) * w + w) (w := w)
      (rows := rows) (pitch := pitch)
      (fun e => by have := ((rep_inj l2 l1).1 e).2; omega)
      (fun j hj => hall _ _ l2 ((inRect_iff f2).1 hj).1) (fun j hj => hall _ _ l1 ((inRect_iff f2).1 hj).1)
    refine ⟨m', h1, h2, fun x j => ?_⟩
    rw [h3]
    unfold PassTarget
    simp only [hq, if_false]
    by_cases hx : x = rep D h (p / 2 / s * (2 * s) + p / 2 % s)
    · subst hx
      rw [rep_mod l1, p1]
    · simp only [hx, false_and, if_false]

/-- Device `d` receives block `b` in the pass with distance `s`: its group is complete, the block belongs to
the other half of the group. -/
def Receives (D s d b : Nat) : Prop := d / (2 * s) < D / (2 * s) ∧ b / (2 * s) = d / (2 * s) ∧ b / s ≠ d / s

instance {D s d b : Nat} : Decidable (Receives D s d b) := by unfold Receives; infer_instance

theorem div_two_mul (s d : Nat) : d / (2 * s) = d / s / 2 := by
  rw [Nat.div_div_eq_div_mul, Nat.mul_comm]

theorem mod_two_mul_lt (hs : 0 < s) (d : Nat) : d % (2 * s) < s ↔ d / s % 2 = 0 := by
  rw [Nat.mul_comm, Nat.mod_mul]
  have := Nat.mod_lt d hs
  rcases Nat.mod_two_eq_zero_or_one (d / s) with h | h <;> rw [h] <;> omega

theorem partner_div (hs : 0 < s) (d : Nat) :
    partner s d / s = if d / s % 2 = 0 then d / s + 1 else d / s - 1 := by
  unfold partner
  simp only [mod_two_mul_lt hs]
  split
  · rw [Nat.add_div_right _ hs]
  · rename_i hodd
    have h1 : s * 1 ≤ d := by
      rw [Nat.mul_one]
      by_contra hc
      rw [Nat.div_eq_of_lt (by omega)] at hodd
      exact hodd rfl
    have := Nat.sub_mul_div d s 1
    rwa [Nat.mul_one] at this

theorem partner_lt (hs : 0 < s) {d : Nat} (hd : d / (2 * s) < D / (2 * s)) : partner s d < D := by
  have h1 := Nat.div_add_mod d (2 * s)
  have h2 : d % (2 * s) < 2 * s := Nat.mod_lt _ (by omega)
  rw [Nat.mul_comm] at h1
  have h0 := pair_lt hd (k := d % (2 * s)) h2
  unfold partner
  split
  · have := pair_lt hd (k := d % (2 * s) + s) (by omega)
    omega
  · omega

theorem receives_div (hs : 0 < s) {d b : Nat} (h : Receives D s d b) : b / s = partner s d / s := by
  obtain ⟨_, r2, r3⟩ := h
  rw [partner_div hs]
  rw [div_two_mul, div_two_mul _ d] at r2
  generalize b / s = x at *
  generalize d / s = y at *
  split <;> omega

theorem passTarget_rep (hs : 0 < s) {w0 : Nat} (hw : 0 < w0) (hfit : D / (2 * s) * 2 * (s * w0) ≤ pitch)
    {d j : Nat} (hd : d < D) :
    (∃ p, p < D / (2 * s) * s * 2 ∧ PassTarget D h (s * w0) rows pitch s p (rep D h d) j) ↔
      j < rows * pitch ∧ Receives D s d (j % pitch / w0) := by
  have hsw : 0 < s * w0 := Nat.mul_pos hs hw
  have hdiv : j % pitch / (s * w0) = j % pitch / w0 / s := by
    rw [Nat.div_div_eq_div_mul, Nat.mul_comm w0 s]
  unfold Receives
  rw [div_two_mul s (j % pitch / w0), div_two_mul s d]
  constructor
  · rintro ⟨p, hp, ht⟩
    rw [passTarget_iff hs hsw hfit hp, hdiv] at ht
    have hg := copy_group hs hp
    have hk : p / 2 % s < s := Nat.mod_lt _ hs
    obtain ⟨h1, ⟨q1, e1, b1⟩ | ⟨q1, e1, b1⟩⟩ := ht
    · have e := ((rep_inj hd (pair_lt hg (by omega))).1 e1).2
      have a1 := pair_div (s := s) (g := p / 2 / s) (k := p / 2 % s + s) (by omega)
      have a2 := pair_mod (s := s) (g := p / 2 / s) (k := p / 2 % s + s) (by omega)
      rw [← e] at a1 a2
      have a3 : ¬ d % (2 * s) < s := by omega
      rw [mod_two_mul_lt hs] at a3
      rw [div_two_mul] at a1
      refine ⟨h1, by omega, by omega, by omega⟩
    · have e := ((rep_inj hd (pair_lt hg (by omega))).1 e1).2
      have a1 := pair_div (s := s) (g := p / 2 / s) (k := p / 2 % s) (by omega)
      have a2 := pair_mod (s := s) (g := p / 2 / s) (k := p / 2 % s) (by omega)
      rw [← e] at a1 a2
      have a3 : d % (2 * s) < s := by omega
      rw [mod_two_mul_lt hs] at a3
      rw [div_two_mul] at a1
      refine ⟨h1, by omega, by omega, by omega⟩
  · rintro ⟨h1, h2, h3, h4⟩
    set g := d / (2 * s) with hg
    have hgd : g = d / s / 2 := div_two_mul s d
    have hda := Nat.div_add_mod d (2 * s)
    rw [← hg] at hda
    have hm : d % (2 * s) < 2 * s := Nat.mod_lt _ (by omega)
    have hgl : g < D / (2 * s) := by omega
    by_cases hlow : d % (2 * s) < s
    · have hl := (mod_two_mul_lt hs d).1 hlow
      have hpl : 2 * (g * s + d % (2 * s)) + 1 < D / (2 * s) * s * 2 := by
        have : (g + 1) * s ≤ D / (2 * s) * s := Nat.mul_le_mul_right _ hgl
        have : (g + 1) * s = g * s + s := by ring
        omega
      have e0 : (2 * (g * s + d % (2 * s)) + 1) / 2 = g * s + d % (2 * s) := by omega
      have e1 : (g * s + d % (2 * s)) / s = g := by
        rw [Nat.mul_comm, Nat.mul_add_div hs, Nat.div_eq_of_lt hlow, Nat.add_zero]
      have e2 : (g * s + d % (2 * s)) % s = d % (2 * s) := by
        rw [Nat.mul_comm, Nat.mul_add_mod, Nat.mod_eq_of_lt hlow]
      refine ⟨2 * (g * s + d % (2 * s)) + 1, hpl, ?_⟩
      rw [passTarget_iff hs hsw hfit hpl, e0, e1, e2, hdiv]
      refine ⟨h1, Or.inr ⟨by omega, ?_, by omega⟩⟩
      rw [Nat.mul_comm g, hda]
    · have hl := (mod_two_mul_lt hs d).not.1 hlow
      have hlow' : d % (2 * s) - s < s := by omega
      have hpl : 2 * (g * s + (d % (2 * s) - s)) < D / (2 * s) * s * 2 := by
        have : (g + 1) * s ≤ D / (2 * s) * s := Nat.mul_le_mul_right _ hgl
        have : (g + 1) * s = g * s + s := by ring
        omega
      have e0 : (2 * (g * s + (d % (2 * s) - s))) / 2 = g * s + (d % (2 * s) - s) := by omega
      have e1 : (g * s + (d % (2 * s) - s)) / s = g := by
        rw [Nat.mul_comm, Nat.mul_add_div hs, Nat.div_eq_of_lt hlow', Nat.add_zero]
      have e2 : (g * s + (d % (2 * s) - s)) % s = d % (2 * s) - s := by
        rw [Nat.mul_comm, Nat.mul_add_mod, Nat.mod_eq_of_lt hlow']
      refine ⟨2 * (g * s + (d % (2 * s) - s)), hpl, ?_⟩
      rw [passTarget_iff hs hsw hfit hpl, e0, e1, e2, hdiv]
      refine ⟨h1, Or.inl ⟨by omega, ?_, by omega⟩⟩
      rw [show d % (2 * s) - s + s = d % (2 * s) by omega, Nat.mul_comm g, hda]

theorem passTarget_handle {p j : Nat} {x : Handle} (hs : 0 < s) (hw : 0 < w)
    (hfit : D / (2 * s) * 2 * w ≤ pitch) (hp : p < D / (2 * s) * s * 2)
    (ht : PassTarget D h w rows pitch s p x j) : x / D = h := by
  rw [passTarget_iff hs hw hfit hp] at ht
  have hg := copy_group hs hp
  have hk : p / 2 % s < s := Nat.mod_lt _ hs
  obtain ⟨_, ⟨_, e1, _⟩ | ⟨_, e1, _⟩⟩ := ht
  · rw [e1, rep_div (pair_lt hg (by omega))]
  · rw [e1, rep_div (pair_lt hg (by omega))]

/-- The replicas of the buffer have at least the cells of the rectangle. -/
def Replicated (D : Nat) (h : Handle) (size : Nat) (m : Mem S) : Prop :=
  ∀ d j, d < D → j < size → (m.cell (rep D h d) j).isSome

theorem Replicated.of_shape {size : Nat} {m m' : Mem S} (hr : Replicated D h size m)
    (hsh : m'.shape = m.shape) : Replicated D h size m' := by
  intro d j hd hj
  have := hr d j hd hj
  rw [Mem.isSome_cell] at this ⊢
  rw [hsh]; exact this

theorem pass_fit_of (hw : D * w ≤ pitch) : D / (2 * s) * 2 * (s * w) ≤ pitch := by
  have h1 : D / (2 * s) * (2 * s) ≤ D := Nat.div_mul_le_self _ _
  have h2 : D / (2 * s) * 2 * (s * w) = D / (2 * s) * (2 * s) * w := by ring
  rw [h2]
  exact le_trans (Nat.mul_le_mul_right _ h1) hw

/-- One pass, for all device counts and all interleavings of the copies. -/
theorem gatherPass_run {loop : Loop S} (hl : IsParLoop loop) (hs : 0 < s) {w0 : Nat} (hw : 0 < w0)
    (hfit : D * w0 ≤ pitch) {m : Mem S} (hall : Replicated D h (rows * pitch) m) :
    ∃ m', gatherPass loop D h rows pitch s (s * w0, m) = .ok (2 * s * w0, m') ∧ m'.shape = m.shape ∧
      (∀ d j, d < D → m'.cell (rep D h d) j =
        if j < rows * pitch ∧ Receives D s d (j % pitch / w0) then m.cell (rep D h (partner s d)) j
        else m.cell (rep D h d) j) ∧
      (∀ x j, x / D ≠ h → m'.cell x j = m.cell x j) := by
  classical
  have hsw : 0 < s * w0 := Nat.mul_pos hs hw
  have hf := pass_fit_of (s := s) hfit
  obtain ⟨m', h1, h2, h3⟩ := seqFor_move (n := D / (2 * s) * s * 2)
    (body := gatherCopy D h (s * w0) rows pitch s) (m := m)
    (PassTarget D h (s * w0) rows pitch s) (fun x _ => rep D h (partner s (x % D)))
    (by
      intro i i' x j hi hi' h1 h2
      refine pass_target_source hs hsw hf hi' hi h2 ?_
      rw [passTarget_iff hs hsw hf hi] at h1
      rw [passSource_iff hs hsw hf hi]
      have hg := copy_group hs hi
      have hk : i / 2 % s < s := Nat.mod_lt _ hs
      obtain ⟨hj, ⟨q, e, b⟩ | ⟨q, e, b⟩⟩ := h1
      · refine ⟨hj, Or.inl ⟨q, ?_, b⟩⟩
        rw [e, rep_mod (pair_lt hg (by omega)), partner, pair_mod (by omega), if_neg (by omega)]
        congr 1; omega
      · refine ⟨hj, Or.inr ⟨q, ?_, b⟩⟩
        rw [e, rep_mod (pair_lt hg (by omega)), partner, pair_mod (by omega), if_pos hk, Nat.add_assoc])
    (by
      intro i m1 hi hsh
      obtain ⟨m2, a1, _, a3⟩ := gatherCopy_run (S := S) (h := h) (rows := rows) hs hsw hf hi
        (hall.of_shape hsh)
      exact ⟨m2, a1, a3⟩)
  refine ⟨m', ?_, h2, ?_, ?_⟩
  · unfold gatherPass
    dsimp only
    rw [parLoop_eq_seq hl (gatherCopy_independent hs hsw hf) h1]
    show Except.ok (2 * (s * w0), m') = _
    rw [Nat.mul_assoc]
  · intro d j hd
    rw [h3]
    simp only [passTarget_rep hs hw hf hd, rep_mod hd]
  · intro x j hx
    rw [h3, if_neg]
    rintro ⟨p, hp, ht⟩
    exact hx (passTarget_handle hs hsw hf hp ht)

end pass

/-! ### The doubling loop -/

theorem shiftLoop_inv {σ : Type} {D : Nat} {body : Nat → σ → Res σ} {s : σ} (P : Nat → σ → Prop)
    (h0 : P 0 s)
    (hstep : ∀ k t, 2 ^ k < D → P k t → ∃ t', body (2 ^ k) t = .ok t' ∧ P (k + 1) t') :
    ∃ k t, shiftLoop D body 1 s = .ok t ∧ P k t ∧ D ≤ 2 ^ k ∧ (∀ i, i < k → 2 ^ i < D) := by
  have key : ∀ n k t, D - 2 ^ k ≤ n → P k t → (∀ i, i < k → 2 ^ i < D) →
      ∃ k' t', shiftLoop D body (2 ^ k) t = .ok t' ∧ P k' t' ∧ D ≤ 2 ^ k' ∧ (∀ i, i < k' → 2 ^ i < D) := by
    intro n
    induction n with
    | zero =>
      intro k t hn hP hi
      refine ⟨k, t, ?_, hP, by omega, hi⟩
      rw [shiftLoop.eq_def, dif_neg (by omega)]
    | succ n ih =>
      intro k t hn hP hi
      by_cases hk : 2 ^ k < D
      · obtain ⟨t', h1, h2⟩ := hstep k t hk hP
        have hpos : 0 < 2 ^ k := Nat.two_pow_pos k
        have hdbl : 2 * 2 ^ k = 2 ^ (k + 1) := by rw [Nat.pow_succ]; omega
        obtain ⟨k', t'', h3, h4⟩ := ih (k + 1) t' (by omega) h2 (by
          intro i hik
          by_cases he : i = k
          · subst he; exact hk
          · exact hi i (by omega))
        refine ⟨k', t'', ?_, h4⟩
        rw [shiftLoop.eq_def, dif_pos ⟨hpos, hk⟩, h1]
        show shiftLoop D body (2 * 2 ^ k) t' = _
        rw [hdbl]; exact h3
      · refine ⟨k, t, ?_, hP, by omega, hi⟩
        rw [shiftLoop.eq_def, dif_neg (by omega)]
  obtain ⟨k, t, h1, h2, h3, h4⟩ := key (D - 2 ^ 0) 0 s le_rfl h0 (by intro i hi; omega)
  exact ⟨k, t, h1, h2, h3, h4⟩

/-! ### All-gather -/

section gather
variable {D h rows pitch w0 : Nat}

/-- The whole exchange for a power of two. -/
theorem allGather_run {loop : Loop S} (hl : IsParLoop loop) {K : Nat} (hD : D = 2 ^ K) (hw : 0 < w0)
    (hfit : D * w0 ≤ pitch) {m : Mem S} (hall : Replicated D h (rows * pitch) m) :
    ∃ w' m', shiftLoop D (gatherPass loop D h rows pitch) 1 (w0, m) = .ok (w', m') ∧ m'.shape = m.shape ∧
      (∀ d j, d < D → m'.cell (rep D h d) j =
        if j < rows * pitch ∧ j % pitch / w0 < D then m.cell (rep D h (j % pitch / w0)) j
        else m.cell (rep D h d) j) ∧
      (∀ x j, x / D ≠ h → m'.cell x j = m.cell x j) := by
  obtain ⟨k, ⟨w', m'⟩, h1, ⟨h2, h3, h4, h5⟩, h6, h7⟩ := shiftLoop_inv (D := D)
    (body := gatherPass loop D h rows pitch) (s := (w0, m))
    (fun k t => t.1 = 2 ^ k * w0 ∧ t.2.shape = m.shape ∧
      (∀ d j, d < D → t.2.cell (rep D h d) j =
        if j < rows * pitch ∧ j % pitch / w0 / 2 ^ k = d / 2 ^ k then m.cell (rep D h (j % pitch / w0)) j
        else m.cell (rep D h d) j) ∧
      (∀ x j, x / D ≠ h → t.2.cell x j = m.cell x j))
    ⟨by simp, rfl, fun d j _ => by
      dsimp only
      split
      · rename_i hh
        rw [Nat.pow_zero, Nat.div_one, Nat.div_one] at hh
        rw [hh.2]
      · rfl, fun _ _ _ => rfl⟩
    (by
      rintro k ⟨w, m1⟩ hk ⟨rfl, hsh, hc, ho⟩
      have hs : 0 < 2 ^ k := Nat.two_pow_pos k
      obtain ⟨m2, a1, a2, a3, a4⟩ := gatherPass_run hl hs hw hfit (hall.of_shape hsh)
      have hkK : k + 1 ≤ K := by
        rw [hD] at hk
        exact (Nat.pow_lt_pow_iff_right (by omega)).1 hk
      refine ⟨_, a1, by rw [Nat.pow_succ]; ring, a2.trans hsh, ?_, fun x j hx => (a4 x j hx).trans (ho x j hx)⟩
      intro d j hd
      have hfull : d / (2 * 2 ^ k) < D / (2 * 2 ^ k) := by
        have e : 2 * 2 ^ k = 2 ^ (k + 1) := by rw [Nat.pow_succ]; omega
        rw [e]
        have hdv : D / 2 ^ (k + 1) * 2 ^ (k + 1) = D := by
          rw [hD]; exact Nat.div_mul_cancel (pow_dvd_pow 2 hkK)
        apply Nat.div_lt_of_lt_mul
        rw [Nat.mul_comm, hdv]; exact hd
      have e2 : ∀ a, a / 2 ^ (k + 1) = a / 2 ^ k / 2 := fun a => by
        rw [Nat.pow_succ, Nat.div_div_eq_div_mul]
      rw [a3 d j hd]
      by_cases hj : j < rows * pitch
      · by_cases hrec : Receives D (2 ^ k) d (j % pitch / w0)
        · rw [if_pos ⟨hj, hrec⟩, hc _ _ (partner_lt hs hrec.1), if_pos ⟨hj, receives_div hs hrec⟩, if_pos]
          refine ⟨hj, ?_⟩
          have := hrec.2.1
          rw [div_two_mul, div_two_mul _ d] at this
          rw [e2, e2]; exact this
        · rw [if_neg (fun h => hrec h.2), hc d j hd]
          have : j % pitch / w0 / 2 ^ k = d / 2 ^ k ↔ j % pitch / w0 / 2 ^ (k + 1) = d / 2 ^ (k + 1) := by
            rw [e2, e2]
            constructor
            · intro h; rw [h]
            · intro h
              by_contra hne
              exact hrec ⟨hfull, by rw [div_two_mul, div_two_mul _ d]; exact h, hne⟩
          simp only [hj, true_and, this]
      · rw [if_neg (fun h => hj h.1), hc d j hd, if_neg (fun h => hj h.1), if_neg (fun h => hj h.1)])
  have hkK : k = K := by
    rw [hD] at h6
    have a := (Nat.pow_le_pow_iff_right (a := 2) (by omega)).1 h6
    by_contra hne
    have := h7 K (by omega)
    omega
  subst hkK
  refine ⟨w', m', h1, h3, ?_, h5⟩
  intro d j hd
  rw [h4 d j hd, ← hD, Nat.div_eq_of_lt hd]
  have hDp : 0 < D := by omega
  simp only [Nat.div_eq_zero_iff, show ¬ D = 0 by omega, false_or]

/-- The whole exchange for any device count ends, and no device gets a block from the other side of the
largest power of two below the device count. -/
theorem allGather_misses {loop : Loop S} (hl : IsParLoop loop) {K : Nat} (h1 : 2 ^ K < D) (h2 : D < 2 ^ (K + 1))
    (hw : 0 < w0) (hfit : D * w0 ≤ pitch) {m : Mem S} (hall : Replicated D h (rows * pitch) m) :
    ∃ w' m', shiftLoop D (gatherPass loop D h rows pitch) 1 (w0, m) = .ok (w', m') ∧ m'.shape = m.shape ∧
      (∀ d j, d < D → j % pitch / w0 / 2 ^ K ≠ d / 2 ^ K → m'.cell (rep D h d) j = m.cell (rep D h d) j) := by
  obtain ⟨k, ⟨w', m'⟩, h1, ⟨_, h3, h4⟩, h6, h7⟩ := shiftLoop_inv (D := D)
    (body := gatherPass loop D h rows pitch) (s := (w0, m))
    (fun k t => t.1 = 2 ^ k * w0 ∧ t.2.shape = m.shape ∧
      (∀ d j, d < D → j % pitch / w0 / 2 ^ (min k K) ≠ d / 2 ^ (min k K) →
        t.2.cell (rep D h d) j = m.cell (rep D h d) j))
    ⟨by simp, rfl, fun d j _ _ => rfl⟩
    (by
      rintro k ⟨w, m1⟩ hk ⟨rfl, hsh, hc⟩
      have hs : 0 < 2 ^ k := Nat.two_pow_pos k
      obtain ⟨m2, a1, a2, a3, _⟩ := gatherPass_run hl hs hw hfit (hall.of_shape hsh)
      refine ⟨_, a1, by rw [Nat.pow_succ]; ring, a2.trans hsh, ?_⟩
      intro d j hd hne
      have e : 2 * 2 ^ k = 2 ^ (k + 1) := by rw [Nat.pow_succ]; omega
      have e2 : ∀ a, a / 2 ^ (k + 1) = a / 2 ^ k / 2 := fun a => by
        rw [Nat.pow_succ, Nat.div_div_eq_div_mul]
      have hkK : k ≤ K := by
        have : 2 ^ k < 2 ^ (K + 1) := by omega
        have := (Nat.pow_lt_pow_iff_right (a := 2) (by omega)).1 this
        omega
      rw [a3 d j hd]
      by_cases hlt : k < K
      · have m1 : min (k + 1) K = k + 1 := by omega
        have m2 : min k K = k := by omega
        rw [m1] at hne
        rw [m2] at hc
        rw [if_neg, hc d j hd]
        · intro h; apply hne; rw [e2, e2, h]
        · rintro ⟨_, _, r2, _⟩
          rw [e] at r2; exact hne r2
      · have hkK' : k = K := by omega
        subst hkK'
        have m1 : min (k + 1) k = k := by omega
        have m2 : min k k = k := by omega
        rw [m1] at hne
        rw [m2] at hc
        rw [if_neg, hc d j hd hne]
        rintro ⟨_, r1, _⟩
        rw [e, Nat.div_eq_of_lt h2] at r1
        exact absurd r1 (Nat.not_lt_zero _))
  have hkK : K ≤ k := by
    by_contra hne
    have : 2 ^ k ≤ 2 ^ K := Nat.pow_le_pow_right (by omega) (by omega)
    omega
  rw [show min k K = K by omega] at h4
  exact ⟨w', m', h1, h3, h4⟩

/-! ### Exchange through the host -/

/-- Every device fills its columns of the host array. -/
theorem readColumns_run {loop : Loop S} (hl : IsParLoop loop) {host : Handle} (hne : h ≠ host) (hD : 0 < D)
    (hw : 0 < w0) (hfit : D * w0 ≤ pitch) {m : Mem S} (hall : Replicated D h (rows * pitch) m)
    (hhost : ∀ j, j < rows * pitch → (m.cell (rep D host 0) j).isSome) :
    ∃ m', loop D (readColumns D h host w0 rows pitch) m = .ok m' ∧ m'.shape = m.shape ∧
      (∀ j, j < rows * pitch → j % pitch / w0 < D →
        m'.cell (rep D host 0) j = m.cell (rep D h (j % pitch / w0)) j) ∧
      (∀ x j, x ≠ rep D host 0 → m'.cell x j = m.cell x j) := by
  classical
  have hb : ∀ d, d < D → d * w0 + w0 ≤ pitch := fun d hd => by
    have := Nat.mul_le_mul_right w0 (show d + 1 ≤ D from hd)
    rw [Nat.add_mul, Nat.one_mul] at this
    exact le_trans this hfit
  have hnr : ∀ d, d < D → rep D h d ≠ rep D host 0 := fun d hd e => hne ((rep_inj hd hD).1 e).1
  have hind : Independent (S := S) D (readColumns D h host w0 rows pitch) := by
    refine ⟨⟨fun d x j => x = rep D h d, fun d x j => x = rep D host 0 ∧ InRect (d * w0) w0 rows pitch j,
      ?_, ?_⟩⟩
    · intro d hd
      exact copyRect_within (fun j _ => rfl) (fun j hj => ⟨rfl, hj⟩)
    · rintro d d' x j hd hd' hdd ⟨rfl, hr⟩
      refine ⟨fun e => hnr d' hd' e.symm, ?_⟩
      rintro ⟨_, hr'⟩
      rw [inRect_block hw (hb d hd)] at hr
      rw [inRect_block hw (hb d' hd')] at hr'
      omega
  obtain ⟨m', h1, h2, h3⟩ := seqFor_move (n := D) (body := readColumns D h host w0 rows pitch) (m := m)
    (fun d x j => x = rep D host 0 ∧ j < rows * pitch ∧ j % pitch / w0 = d)
    (fun _ j => rep D h (j % pitch / w0))
    (by
      rintro d d' x j hd hd' ⟨rfl, hj, rfl⟩ ⟨e, _, _⟩
      exact hnr _ hd e)
    (by
      intro d m1 hd hsh
      obtain ⟨m2, a1, _, a3⟩ := copyRect_run (m := m1) (hnr d hd) (off := d * w0) (w := w0) (rows := rows)
        (pitch := pitch)
        (fun j hj => hall.of_shape hsh d j hd ((inRect_iff (hb d hd)).1 hj).1)
        (fun j hj => by
          have := hhost j ((inRect_iff (hb d hd)).1 hj).1
          rw [Mem.isSome_cell] at this ⊢
          rw [hsh]; exact this)
      refine ⟨m2, a1, fun x j => ?_⟩
      rw [a3]
      simp only [inRect_block hw (hb d hd)]
      by_cases hc : x = rep D host 0 ∧ j < rows * pitch ∧ j % pitch / w0 = d
      · rw [if_pos hc, if_pos hc, hc.2.2]
      · rw [if_neg hc, if_neg hc])
  refine ⟨m', parLoop_eq_seq hl hind h1, h2, ?_, ?_⟩
  · intro j hj hjd
    rw [h3, if_pos ⟨_, hjd, rfl, hj, rfl⟩]
  · intro x j hx
    rw [h3, if_neg]
    rintro ⟨_, _, e, _⟩; exact hx e

theorem mdReadBuffer_run {loop : Loop S} (hl : IsParLoop loop) {host size : Nat} (hne : h ≠ host) (hD : 0 < D)
    (hw : D ≤ size) {m : Mem S} (hall : Replicated D h size m)
    (hhost : ∀ j, j < size → (m.cell (rep D host 0) j).isSome) :
    ∃ m', mdReadBuffer loop D host h size m = .ok m' ∧ m'.shape = m.shape ∧
      (∀ j, j < size → j / (size / D) < D →
        m'.cell (rep D host 0) j = m.cell (rep D h (j / (size / D))) j) ∧
      (∀ x j, x ≠ rep D host 0 → m'.cell x j = m.cell x j) := by
  have hr := readColumns_run (S := S) hl hne hD (w0 := size / D) (pitch := size) (rows := 1) (m := m)
    (Nat.div_pos hw hD) (Nat.mul_div_le _ _) (by rwa [Nat.one_mul]) (by rwa [Nat.one_mul])
  obtain ⟨m', h1, h2, h3, h4⟩ := hr
  refine ⟨m', h1, h2, ?_, h4⟩
  intro j hj hb
  have := h3 j (by omega) (by rwa [Nat.mod_eq_of_lt hj])
  rwa [Nat.mod_eq_of_lt hj] at this

theorem mdWriteBuffer_run {loop : Loop S} (hl : IsParLoop loop) {host size : Nat} (hne : h ≠ host) (hD : 0 < D)
    {m : Mem S} (hall : Replicated D h size m)
    (hhost : ∀ j, j < size → (m.cell (rep D host 0) j).isSome) :
    ∃ m', mdWriteBuffer loop D h host size m = .ok m' ∧ m'.shape = m.shape ∧
      (∀ d j, d < D → j < size → m'.cell (rep D h d) j = m.cell (rep D host 0) j) ∧
      (∀ d j, d < D → size ≤ j → m'.cell (rep D h d) j = m.cell (rep D h d) j) ∧
      (∀ x j, x / D ≠ h → m'.cell x j = m.cell x j) := by
  classical
  have hnr : ∀ d, d < D → rep D host 0 ≠ rep D h d := fun d hd e => hne ((rep_inj hD hd).1 e).1.symm
  have hin : ∀ j, InRect 0 size 1 size j ↔ j < size := fun j => by
    rw [inRect_iff (by omega)]
    constructor
    · rintro ⟨h, _⟩; omega
    · intro h; exact ⟨by omega, by omega, by rw [Nat.mod_eq_of_lt h]; omega⟩
  have hind : Independent (S := S) D (fun d => copyRect (rep D host 0) (rep D h d) 0 size 1 size) := by
    refine ⟨⟨fun _ x _ => x = rep D host 0, fun d x _ => x = rep D h d, ?_, ?_⟩⟩
    · intro d hd
      exact copyRect_within (fun j _ => rfl) (fun j hj => rfl)
    · rintro d d' x j hd hd' hdd rfl
      exact ⟨fun e => hnr d hd e.symm, fun e => hdd ((rep_inj hd hd').1 e).2⟩
  obtain ⟨m', h1, h2, h3⟩ := seqFor_move (n := D)
    (body := fun d => copyRect (rep D host 0) (rep D h d) 0 size 1 size) (m := m)
    (fun d x j => x = rep D h d ∧ j < size) (fun _ _ => rep D host 0)
    (by
      rintro d d' x j hd hd' ⟨rfl, hj⟩ ⟨e, _⟩
      exact hnr _ hd' e)
    (by
      intro d m1 hd hsh
      obtain ⟨m2, a1, _, a3⟩ := copyRect_run (m := m1) (hnr d hd) (off := 0) (w := size) (rows := 1)
        (pitch := size)
        (fun j hj => by
          have := hhost j ((hin j).1 hj)
          rw [Mem.isSome_cell] at this ⊢
          rw [hsh]; exact this)
        (fun j hj => hall.of_shape hsh d j hd ((hin j).1 hj))
      refine ⟨m2, a1, fun x j => ?_⟩
      rw [a3]
      by_cases hc : x = rep D h d ∧ j < size
      · rw [if_pos hc, if_pos ⟨hc.1, (hin j).2 hc.2⟩]
      · rw [if_neg hc, if_neg (fun h => hc ⟨h.1, (hin j).1 h.2⟩)])
  refine ⟨m', parLoop_eq_seq hl hind h1, h2, ?_, ?_, ?_⟩
  · intro d j hd hj
    rw [h3, if_pos ⟨d, hd, rfl, hj⟩]
  · intro d j hd hj
    rw [h3, if_neg]
    rintro ⟨_, _, _, hh⟩; omega
  · intro x j hx
    rw [h3, if_neg]
    rintro ⟨d, hd, rfl, _⟩; exact hx (rep_div hd)

end gather

theorem isPowerOfTwo_iff (v : Nat) : isPowerOfTwo v = true ↔ ∃ k, v = 2 ^ k := by
  unfold isPowerOfTwo
  simp only [Bool.and_eq_true, decide_eq_true_eq, beq_iff_eq]
  constructor
  · rintro ⟨h0, h1⟩
    induction v using Nat.strong_induction_on with
    | _ v ih =>
      have hdiv : (Nat.land v (v - 1)) / 2 = Nat.land (v / 2) ((v - 1) / 2) := Nat.and_div_two ..
      rw [h1] at hdiv
      by_cases hv : v = 1
      · exact ⟨0, hv⟩
      · rcases Nat.mod_two_eq_zero_or_one v with he | he
        · rw [show (v - 1) / 2 = v / 2 - 1 by omega] at hdiv
          obtain ⟨k, hk⟩ := ih (v / 2) (by omega) (by omega) hdiv.symm
          exact ⟨k + 1, by rw [Nat.pow_succ]; omega⟩
        · rw [show (v - 1) / 2 = v / 2 by omega] at hdiv
          have : Nat.land (v / 2) (v / 2) = v / 2 := Nat.and_self _
          omega
  · rintro ⟨k, rfl⟩
    refine ⟨Nat.two_pow_pos k, ?_⟩
    have := Nat.and_two_pow_sub_one_eq_mod (2 ^ k) k
    rw [Nat.mod_self] at this
    exact this

/-! ### All-reduce -/

open Classical in
/-- Rule for loops whose cells are computed from cells not written by the loop before. -/
theorem seqFor_owned {n : Nat} {body : Nat → Prog S Unit} {m : Mem S}
    (T : Nat → Handle → Nat → Prop) (val : Handle → Nat → S)
    (hb : ∀ i m', i < n → m'.shape = m.shape →
      (∀ x j, (∀ i', i' < i → ¬ T i' x j) → m'.cell x j = m.cell x j) →
      ∃ m'', (body i).run m' = .ok ((), m'') ∧
        (∀ x j, m''.cell x j = if T i x j then some (val x j) else m'.cell x j)) :
    ∃ m', seqFor n body m = .ok m' ∧ m'.shape = m.shape ∧
      ∀ x j, m'.cell x j = if (∃ i, i < n ∧ T i x j) then some (val x j) else m.cell x j := by
  have := forN_inv (n := n) (s := m) (f := fun i m => do let r ← (body i).run m; pure r.2)
    (fun k m' => m'.shape = m.shape ∧ ∀ x j, m'.cell x j =
        if (∃ i, i < k ∧ T i x j) then some (val x j) else m.cell x j)
    ?_ ?_
  · obtain ⟨t, h1, h2, h3⟩ := this
    exact ⟨t, h1, h2, h3⟩
  · refine ⟨rfl, fun x j => ?_⟩
    rw [if_neg]
    rintro ⟨i, h, _⟩; omega
  · rintro i m' hi ⟨hs, hc⟩
    obtain ⟨m'', hrun, hc''⟩ := hb i m' hi hs (fun x j hno => by
      rw [hc, if_neg]
      rintro ⟨i', hi', ht⟩; exact hno i' hi' ht)
    refine ⟨m'', by simp [hrun], ?_, ?_⟩
    · rw [Prog.run_shape hrun, hs]
    · intro x j
      rw [hc'']
      by_cases h1 : T i x j
      · rw [if_pos h1, if_pos ⟨i, by omega, h1⟩]
      · rw [if_neg h1, hc]
        by_cases h2 : ∃ o, o < i ∧ T o x j
        · obtain ⟨o, hlt, ho⟩ := h2
          rw [if_pos ⟨o, hlt, ho⟩, if_pos ⟨o, by omega, ho⟩]
        · rw [if_neg h2, if_neg]
          rintro ⟨o, hlt, ho⟩
          by_cases ho' : o = i
          · subst ho'; exact h1 ho
          · exact h2 ⟨o, by omega, ho⟩

/-- The device `i` places before device `d` on the ring of `D` devices. -/
def ringBack (D d i : Nat) : Nat := (d + i * (D - 1)) % D

section reduce
variable {D f fsync size s : Nat}

theorem ringBack_lt (hD : 0 < D) (d i : Nat) : ringBack D d i < D := Nat.mod_lt _ hD

theorem ringBack_ringBack (d i k : Nat) : ringBack D (ringBack D d i) k = ringBack D d (i + k) := by
  unfold ringBack
  rw [Nat.mod_add_mod]
  congr 1; ring

theorem ringBack_send (hD : 0 < D) {d : Nat} (hd : d < D) (s : Nat) : ringBack D ((d + s) % D) s = d := by
  unfold ringBack
  rw [Nat.mod_add_mod]
  have : d + s + s * (D - 1) = d + s * D := by
    obtain ⟨E, rfl⟩ : ∃ E, D = E + 1 := ⟨D - 1, by omega⟩
    simp only [Nat.add_sub_cancel]; ring
  rw [this, Nat.add_mul_mod_self_right, Nat.mod_eq_of_lt hd]

theorem send_ringBack (hD : 0 < D) {d : Nat} (hd : d < D) (s : Nat) : (ringBack D d s + s) % D = d := by
  unfold ringBack
  rw [Nat.mod_add_mod]
  have : d + s * (D - 1) + s = d + s * D := by
    obtain ⟨E, rfl⟩ : ∃ E, D = E + 1 := ⟨D - 1, by omega⟩
    simp only [Nat.add_sub_cancel]; ring
  rw [this, Nat.add_mul_mod_self_right, Nat.mod_eq_of_lt hd]

theorem inRect_row (j : Nat) : InRect 0 size 1 size j ↔ j < size := by
  rw [inRect_iff (by omega)]
  constructor
  · rintro ⟨h, _⟩; omega
  · intro h; exact ⟨by omega, by omega, by rw [Nat.mod_eq_of_lt h]; omega⟩

theorem sumCopies_run {loop : Loop S} (hl : IsParLoop loop) (hD : 0 < D) (hne : f ≠ fsync) {m : Mem S}
    (h1 : Replicated D f size m) (h2 : Replicated D fsync size m) :
    ∃ m', loop D (sumCopy D f fsync size s) m = .ok m' ∧ m'.shape = m.shape ∧
      (∀ d j, d < D → j < size → m'.cell (rep D fsync d) j = m.cell (rep D f (ringBack D d s)) j) ∧
      (∀ x j, x / D ≠ fsync → m'.cell x j = m.cell x j) := by
  classical
  have hr : ∀ d, (d + s) % D < D := fun d => Nat.mod_lt _ hD
  have hnr : ∀ d d', d < D → d' < D → rep D f d ≠ rep D fsync d' :=
    fun d d' hd hd' e => hne ((rep_inj hd hd').1 e).1
  have hind : Independent (S := S) D (sumCopy D f fsync size s) := by
    refine ⟨⟨fun d x _ => x = rep D f d, fun d x _ => x = rep D fsync ((d + s) % D), ?_, ?_⟩⟩
    · intro d hd
      exact copyRect_within (fun j _ => rfl) (fun j hj => rfl)
    · rintro d d' x j hd hd' hdd rfl
      refine ⟨fun e => hnr d' _ hd' (hr d) e.symm, fun e => hdd ?_⟩
      have := ((rep_inj (hr d) (hr d')).1 e).2
      rw [← ringBack_send hD hd s, ← ringBack_send hD hd' s, this]
  obtain ⟨m', a1, a2, a3⟩ := seqFor_move (n := D) (body := sumCopy D f fsync size s) (m := m)
    (fun d x j => x = rep D fsync ((d + s) % D) ∧ j < size) (fun x _ => rep D f (ringBack D (x % D) s))
    (by
      rintro d d' x j hd hd' ⟨rfl, hj⟩ ⟨e, _⟩
      exact hnr _ _ (ringBack_lt hD _ _) (hr d') e)
    (by
      intro d m1 hd hsh
      obtain ⟨m2, b1, _, b3⟩ := copyRect_run (m := m1) (hnr d _ hd (hr d)) (off := 0) (w := size)
        (rows := 1) (pitch := size)
        (fun j hj => h1.of_shape hsh d j hd ((inRect_row j).1 hj))
        (fun j hj => h2.of_shape hsh _ j (hr d) ((inRect_row j).1 hj))
      refine ⟨m2, b1, fun x j => ?_⟩
      rw [b3]
      by_cases hc : x = rep D fsync ((d + s) % D) ∧ j < size
      · rw [if_pos hc, if_pos ⟨hc.1, (inRect_row j).2 hc.2⟩, hc.1, rep_mod (hr d), ringBack_send hD hd]
      · rw [if_neg hc, if_neg (fun h => hc ⟨h.1, (inRect_row j).1 h.2⟩)])
  refine ⟨m', parLoop_eq_seq hl hind a1, a2, ?_, ?_⟩
  · intro d j hd hj
    rw [a3, if_pos ⟨ringBack D d s, ringBack_lt hD _ _, by rw [send_ringBack hD hd], hj⟩, rep_mod hd]
  · intro x j hx
    rw [a3, if_neg]
    rintro ⟨d, hd, rfl, _⟩; exact hx (rep_div (hr d))

/-- Flat index of a (device, element) pair. -/
theorem flat_div {d j : Nat} (hj : j < size) : (d * size + j) / size = d := by
  rw [Nat.mul_comm, Nat.mul_add_div (by omega), Nat.div_eq_of_lt hj, Nat.add_zero]

theorem flat_mod {d j : Nat} (hj : j < size) : (d * size + j) % size = j := by
  rw [Nat.mul_comm, Nat.mul_add_mod, Nat.mod_eq_of_lt hj]

theorem flat_lt {d j : Nat} (hd : d < D) (hj : j < size) : d * size + j < D * size := by
  have := Nat.mul_le_mul_right size (show d + 1 ≤ D from hd)
  rw [Nat.add_mul, Nat.one_mul] at this
  omega

theorem sumAdds_run [Add S] [Mul S] [One S] {loop : Loop S} (hl : IsParLoop loop) (hne : f ≠ fsync)
    {m : Mem S} {A B : Nat → Nat → S}
    (hA : ∀ d j, d < D → j < size → m.cell (rep D f d) j = some (A d j))
    (hB : ∀ d j, d < D → j < size → m.cell (rep D fsync d) j = some (B d j)) :
    ∃ m', loop (D * size) (sumAdd D f fsync size) m = .ok m' ∧ m'.shape = m.shape ∧
      (∀ d j, d < D → j < size → m'.cell (rep D f d) j = some (A d j + B d j * 1)) ∧
      (∀ x j, x / D ≠ f → m'.cell x j = m.cell x j) := by
  classical
  have hdm : ∀ p, p < D * size → p / size < D ∧ p % size < size := fun p hp => by
    have h0 : 0 < size := by
      rcases Nat.eq_zero_or_pos size with h | h
      · subst h; omega
      · exact h
    exact ⟨Nat.div_lt_of_lt_mul (by rwa [Nat.mul_comm]), Nat.mod_lt _ h0⟩
  have hind : Independent (S := S) (D * size) (sumAdd D f fsync size) := by
    refine ⟨⟨fun p x j => (x = rep D f (p / size) ∨ x = rep D fsync (p / size)) ∧ j = p % size,
      fun p x j => x = rep D f (p / size) ∧ j = p % size, ?_, ?_⟩⟩
    · intro p hp
      unfold sumAdd fmaddInplaceBody
      within
      · exact ⟨Or.inl rfl, rfl⟩
      · exact ⟨Or.inr rfl, rfl⟩
      · exact ⟨rfl, rfl⟩
    · rintro p p' x j hp hp' hpp ⟨rfl, rfl⟩
      have key : ∀ (_ : rep D f (p / size) = rep D f (p' / size)), p % size = p' % size → False := by
        intro e e'
        have := ((rep_inj (hdm p hp).1 (hdm p' hp').1).1 e).2
        apply hpp
        rw [← Nat.div_add_mod p size, ← Nat.div_add_mod p' size, this, e']
      refine ⟨?_, fun e => key e.1 e.2⟩
      rintro ⟨e | e, e'⟩
      · exact key e e'
      · exact hne ((rep_inj (hdm p hp).1 (hdm p' hp').1).1 e).1
  obtain ⟨m', a1, a2, a3⟩ := seqFor_owned (n := D * size) (body := sumAdd D f fsync size) (m := m)
    (fun p x j => x = rep D f (p / size) ∧ j = p % size) (fun x j => A (x % D) j + B (x % D) j * 1)
    (by
      intro p m1 hp hsh hold
      obtain ⟨q1, q2⟩ := hdm p hp
      have c1 : m1.cell (rep D f (p / size)) (p % size) = some (A (p / size) (p % size)) := by
        rw [hold _ _ ?_, hA _ _ q1 q2]
        rintro p' hp' ⟨e, e'⟩
        have := ((rep_inj q1 (hdm p' (by omega)).1).1 e).2
        have e1 := Nat.div_add_mod p size
        have e2 := Nat.div_add_mod p' size
        rw [this, e'] at e1
        omega
      have c2 : m1.cell (rep D fsync (p / size)) (p % size) = some (B (p / size) (p % size)) := by
        rw [hold _ _ ?_, hB _ _ q1 q2]
        rintro p' hp' ⟨e, _⟩
        exact hne ((rep_inj q1 (hdm p' (by omega)).1).1 e).1.symm
      refine ⟨m1.setCell (rep D f (p / size)) (p % size)
        (A (p / size) (p % size) + B (p / size) (p % size) * 1), ?_, ?_⟩
      · unfold sumAdd fmaddInplaceBody
        simp only [Prog.run_bind, Prog.run_get c1, Prog.run_get c2, res_ok_bind]
        exact Prog.run_put _ (by rw [c1]; rfl)
      · intro x j
        rw [Mem.cell_setCell]
        by_cases hc : x = rep D f (p / size) ∧ j = p % size
        · rw [if_pos hc, if_pos hc, c1, hc.1, hc.2, rep_mod q1]; rfl
        · rw [if_neg hc, if_neg hc])
  refine ⟨m', parLoop_eq_seq hl hind a1, a2, ?_, ?_⟩
  · intro d j hd hj
    rw [a3, if_pos ⟨d * size + j, flat_lt hd hj, by rw [flat_div hj], by rw [flat_mod hj]⟩, rep_mod hd]
  · intro x j hx
    rw [a3, if_neg]
    rintro ⟨p, hp, rfl, _⟩; exact hx (rep_div (hdm p hp).1)

/-- The order in which the contributions are added: after `k` passes. -/
def reduceTree [Add S] [Mul S] [One S] (D : Nat) (x : Nat → S) : Nat → Nat → S
  | 0, d => x d
  | k + 1, d => reduceTree D x k d + reduceTree D x k (ringBack D d (2 ^ k)) * 1

/-- The whole all-reduce, for every device count and any arithmetic. -/
theorem synchronizeSum_run [Add S] [Mul S] [One S] {loop : Loop S} (hl : IsParLoop loop) (hD : 0 < D)
    (hne : f ≠ fsync) {m : Mem S} {A : Nat → Nat → S}
    (hA : ∀ d j, d < D → j < size → m.cell (rep D f d) j = some (A d j)) (h2 : Replicated D fsync size m) :
    ∃ k m', synchronizeSum loop D f fsync size m = .ok m' ∧ m'.shape = m.shape ∧
      D ≤ 2 ^ k ∧ (∀ i, i < k → 2 ^ i < D) ∧
      (∀ d j, d < D → j < size → m'.cell (rep D f d) j = some (reduceTree D (fun b => A b j) k d)) ∧
      (∀ x j, x / D ≠ f → x / D ≠ fsync → m'.cell x j = m.cell x j) := by
  obtain ⟨k, m', a1, ⟨a2, a3, a4⟩, a5, a6⟩ := shiftLoop_inv (D := D) (body := sumPass loop D f fsync size) (s := m)
    (fun k t => t.shape = m.shape ∧
      (∀ d j, d < D → j < size → t.cell (rep D f d) j = some (reduceTree D (fun b => A b j) k d)) ∧
      (∀ x j, x / D ≠ f → x / D ≠ fsync → t.cell x j = m.cell x j))
    ⟨rfl, hA, fun _ _ _ _ => rfl⟩
    (by
      rintro k m1 hk ⟨hsh, hc, ho⟩
      have hr1 : Replicated D f size m1 := fun d j hd hj => by rw [hc d j hd hj]; rfl
      obtain ⟨m2, b1, b2, b3, b4⟩ := sumCopies_run (s := 2 ^ k) hl hD hne hr1 (h2.of_shape hsh)
      obtain ⟨m3, c1, c2, c3, c4⟩ := sumAdds_run (D := D) (size := size) hl hne (m := m2)
        (A := fun d j => reduceTree D (fun b => A b j) k d)
        (B := fun d j => reduceTree D (fun b => A b j) k (ringBack D d (2 ^ k)))
        (fun d j hd hj => by
          rw [b4 _ _ (by rw [rep_div hd]; exact hne), hc d j hd hj])
        (fun d j hd hj => by
          rw [b3 d j hd hj, hc _ j (ringBack_lt hD _ _) hj])
      refine ⟨m3, ?_, c2.trans (b2.trans hsh), c3, ?_⟩
      · unfold sumPass
        rw [b1]; exact c1
      · intro x j hx1 hx2
        rw [c4 x j hx1, b4 x j hx2, ho x j hx1 hx2])
  refine ⟨k, m', ?_, a2, a5, a6, a3, a4⟩
  unfold synchronizeSum
  by_cases hD2 : D < 2
  · rw [if_pos hD2]
    have : D = 1 := by omega
    subst this
    rw [shiftLoop.eq_def, dif_neg (by omega)] at a1
    exact a1
  · rw [if_neg hD2]; exact a1

/-- Host sum of one element. -/
theorem sumHostBody_run [Add S] {host : Handle} {i : Nat} (hD : 0 < D) {m : Mem S} {x : Nat → S}
    (hx : ∀ d, d < D → m.cell (rep D host d) i = some (x d)) :
    (sumHostBody D host i : Prog S Unit).run m =
      .ok ((), m.setCell (rep D host 0) i (foldN (D - 1) (x 0) (fun k acc => acc + x (k + 1)))) := by
  unfold sumHostBody
  rw [Prog.run_forN]
  have h00 := hx 0 hD
  obtain ⟨t, h1, h2⟩ := forN_inv (n := D - 1) (s := (((), m) : Unit × Mem S))
    (f := fun k s => (do
      let a ← Prog.get (rep D host 0) i
      let b ← Prog.get (rep D host (k + 1)) i
      Prog.put (rep D host 0) i (a + b) : Prog S Unit).run s.2)
    (fun k s => s.2 = m.setCell (rep D host 0) i (foldN k (x 0) (fun k acc => acc + x (k + 1))))
    (by
      apply Mem.ext_cells
      · simp
      · intro h j
        rw [Mem.cell_setCell]
        split
        · rename_i hh; rw [hh.1, hh.2, h00]; rfl
        · rfl)
    (by
      rintro k ⟨⟨⟩, m1⟩ hk rfl
      have c1 : (m.setCell (rep D host 0) i (foldN k (x 0) (fun k acc => acc + x (k + 1)))).cell
          (rep D host 0) i = some (foldN k (x 0) (fun k acc => acc + x (k + 1))) := by
        rw [Mem.cell_setCell, if_pos ⟨rfl, rfl⟩, h00]; rfl
      have c2 : (m.setCell (rep D host 0) i (foldN k (x 0) (fun k acc => acc + x (k + 1)))).cell
          (rep D host (k + 1)) i = some (x (k + 1)) := by
        rw [Mem.cell_setCell, if_neg, hx (k + 1) (by omega)]
        rintro ⟨e, _⟩
        have := ((rep_inj (show k + 1 < D by omega) hD).1 e).2
        omega
      refine ⟨((), m.setCell (rep D host 0) i (foldN (k + 1) (x 0) (fun k acc => acc + x (k + 1)))), ?_, rfl⟩
      simp only [Prog.run_bind, Prog.run_get c1, Prog.run_get c2, res_ok_bind]
      rw [Prog.run_put _ (by rw [c1]; rfl)]
      congr 2
      apply Mem.ext_cells
      · simp
      · intro h j
        simp only [Mem.cell_setCell]
        by_cases hh : h = rep D host 0 ∧ j = i
        · simp only [hh, and_self, if_true]
          rw [h00]; rfl
        · simp only [hh, if_false])
  rw [h1]
  obtain ⟨⟨⟩, t2⟩ := t
  simp only at h2
  rw [h2]

/-- The host variant, for every device count and any arithmetic. -/
theorem synchronizeSumHost_run [Add S] {host : Handle} {loop : Loop S} (hl : IsParLoop loop) (hD : 0 < D)
    (hne : f ≠ host) {m : Mem S} {A : Nat → Nat → S}
    (hA : ∀ d j, d < D → j < size → m.cell (rep D f d) j = some (A d j)) (h2 : Replicated D host size m) :
    ∃ m', synchronizeSumHost loop D f host size m = .ok m' ∧ m'.shape = m.shape ∧
      (∀ d j, d < D → j < size →
        m'.cell (rep D f d) j = some (foldN (D - 1) (A 0 j) (fun k acc => acc + A (k + 1) j))) ∧
      (∀ x j, x / D ≠ f → x / D ≠ host → m'.cell x j = m.cell x j) := by
  classical
  have h1 : Replicated D f size m := fun d j hd hj => by rw [hA d j hd hj]; rfl
  have hnr : ∀ d d', d < D → d' < D → rep D f d ≠ rep D host d' :=
    fun d d' hd hd' e => hne ((rep_inj hd hd').1 e).1
  -- the copies to the host
  have hind : Independent (S := S) D (fun d => copyRect (rep D f d) (rep D host d) 0 size 1 size) := by
    refine ⟨⟨fun d x _ => x = rep D f d, fun d x _ => x = rep D host d, ?_, ?_⟩⟩
    · intro d hd
      exact copyRect_within (fun j _ => rfl) (fun j hj => rfl)
    · rintro d d' x j hd hd' hdd rfl
      exact ⟨fun e => hnr d' d hd' hd e.symm, fun e => hdd ((rep_inj hd hd').1 e).2⟩
  obtain ⟨m1, a1, a2, a3⟩ := seqFor_move (n := D)
    (body := fun d => copyRect (rep D f d) (rep D host d) 0 size 1 size) (m := m)
    (fun d x j => x = rep D host d ∧ j < size) (fun x _ => rep D f (x % D))
    (by
      rintro d d' x j hd hd' ⟨rfl, hj⟩ ⟨e, _⟩
      rw [rep_mod hd] at e
      exact hnr _ _ hd hd' e)
    (by
      intro d m1 hd hsh
      obtain ⟨m2, b1, _, b3⟩ := copyRect_run (m := m1) (hnr d d hd hd) (off := 0) (w := size)
        (rows := 1) (pitch := size)
        (fun j hj => h1.of_shape hsh d j hd ((inRect_row j).1 hj))
        (fun j hj => h2.of_shape hsh _ j hd ((inRect_row j).1 hj))
      refine ⟨m2, b1, fun x j => ?_⟩
      rw [b3]
      by_cases hc : x = rep D host d ∧ j < size
      · rw [if_pos hc, if_pos ⟨hc.1, (inRect_row j).2 hc.2⟩, hc.1, rep_mod hd]
      · rw [if_neg hc, if_neg (fun h => hc ⟨h.1, (inRect_row j).1 h.2⟩)])
  have hm1 : ∀ d j, d < D → j < size → m1.cell (rep D host d) j = some (A d j) := fun d j hd hj => by
    rw [a3, if_pos ⟨d, hd, rfl, hj⟩, rep_mod hd, hA d j hd hj]
  have hm1' : ∀ x j, x / D ≠ host → m1.cell x j = m.cell x j := fun x j hx => by
    rw [a3, if_neg]
    rintro ⟨d, hd, rfl, _⟩; exact hx (rep_div hd)
  -- the sum on the host
  have hind2 : Independent (S := S) size (sumHostBody D host) := by
    apply elementwise_independent
    intro i hi
    unfold sumHostBody
    apply Prog.Within.forN
    intro k _ _
    within <;> rfl
  obtain ⟨m2, c1, c2, c3⟩ := seqFor_owned (n := size) (body := sumHostBody D host) (m := m1)
    (fun i x j => x = rep D host 0 ∧ j = i)
    (fun _ j => foldN (D - 1) (A 0 j) (fun k acc => acc + A (k + 1) j))
    (by
      intro i m' hi hsh hold
      have hx : ∀ d, d < D → m'.cell (rep D host d) i = some (A d i) := fun d hd => by
        rw [hold, hm1 d i hd hi]
        rintro i' hi' ⟨_, e⟩; omega
      refine ⟨_, sumHostBody_run hD hx, fun x j => ?_⟩
      rw [Mem.cell_setCell]
      by_cases hc : x = rep D host 0 ∧ j = i
      · rw [if_pos hc, if_pos hc, hx 0 hD, hc.2]; rfl
      · rw [if_neg hc, if_neg hc])
  have hm2 : ∀ x j, x / D ≠ host → m2.cell x j = m1.cell x j := fun x j hx => by
    rw [c3, if_neg]
    rintro ⟨i, hi, rfl, _⟩; exact hx (rep_div hD)
  obtain ⟨m3, d1, d2, d3, d4, d5⟩ := mdWriteBuffer_run (S := S) (m := m2) (h := f) (host := host) (size := size)
    hl hne hD (h1.of_shape (c2.trans a2))
    (fun j hj => by rw [c3, if_pos ⟨j, hj, rfl, rfl⟩]; rfl)
  refine ⟨m3, ?_, d2.trans (c2.trans a2), ?_, ?_⟩
  · unfold synchronizeSumHost
    rw [parLoop_eq_seq hl hind a1]
    simp only [res_ok_bind]
    rw [parLoop_eq_seq hl hind2 c1]
    exact d1
  · intro d j hd hj
    rw [d3 d j hd hj, c3, if_pos ⟨j, hj, rfl, rfl⟩]
  · intro x j hx1 hx2
    rw [d5 x j hx1, hm2 x j hx2, hm1' x j hx2]

end reduce

end NB
