import Verif.Lemmas.MultiDevice
import Mathlib.Algebra.BigOperators.Intervals
import Mathlib.Algebra.BigOperators.Group.Finset.Basic

/-
C52: after `synchronize_sum` every device holds the sum of all devices' buffers, for every power of two of
devices and every interleaving between two waits; for other device counts contributions are counted twice.
-/

namespace NB.C52

open Finset

/-! ### Specification -/

/-- Device `d` of `m` holds `A d j` in element `j` of the buffer. -/
def Holds {S : Type} (D : ℕ) (f : Handle) (size : ℕ) (m : Mem S) (A : ℕ → ℕ → S) : Prop :=
  ∀ d j, d < D → j < size → m.cell (rep D f d) j = some (A d j)

/-- The device `i` places before `d`, going round. -/
def before (D d i : ℕ) : ℕ := (d + D - i) % D

lemma ringBack_mod {D : ℕ} (hD : 0 < D) (d i : ℕ) : ringBack D d (D + i) = ringBack D d i := by
  unfold ringBack
  rw [show d + (D + i) * (D - 1) = d + i * (D - 1) + (D - 1) * D by ring, Nat.add_mul_mod_self_right]

lemma ringBack_eq {D d i : ℕ} (hi : i ≤ D) : ringBack D d i = before D d i := by
  unfold ringBack before
  rcases Nat.eq_zero_or_pos D with h | h
  · obtain rfl : i = 0 := by omega
    subst h; simp
  · rcases Nat.eq_zero_or_pos i with h0 | h0
    · subst h0; simp
    · obtain ⟨E, rfl⟩ : ∃ E, D = E + 1 := ⟨D - 1, by omega⟩
      obtain ⟨j, rfl⟩ : ∃ j, i = j + 1 := ⟨i - 1, by omega⟩
      have : d + (j + 1) * (E + 1 - 1) = d + (E + 1) - (j + 1) + (E + 1) * j := by
        have e1 : d + (E + 1) - (j + 1) = d + (E - j) := by omega
        obtain ⟨k, rfl⟩ : ∃ k, E = j + k := ⟨E - j, by omega⟩
        rw [e1]
        simp only [Nat.add_sub_cancel, Nat.add_sub_cancel_left]
        ring
      rw [this, Nat.add_mul_mod_self_left]

lemma before_before {D d i : ℕ} (hd : d < D) (hi : i < D) : before D d (before D d i) = i := by
  unfold before
  have key : (d + D - i) % D = if i ≤ d then d - i else d + D - i := by
    split
    · rw [show d + D - i = (d - i) + D by omega, Nat.add_mod_right, Nat.mod_eq_of_lt (by omega)]
    · rw [Nat.mod_eq_of_lt (by omega)]
  rw [key]
  split
  · rw [show d + D - (d - i) = i + D by omega, Nat.add_mod_right, Nat.mod_eq_of_lt hi]
  · rw [show d + D - (d + D - i) = i by omega, Nat.mod_eq_of_lt hi]

section
variable {S : Type} [AddCommMonoid S] [MulOneClass S]

lemma tree_sum (D : ℕ) (x : ℕ → S) (k d : ℕ) (hd : d < D) :
    reduceTree D x k d = ∑ i ∈ range (2 ^ k), x (ringBack D d i) := by
  induction k generalizing d with
  | zero => simp [reduceTree, ringBack, Nat.mod_eq_of_lt hd]
  | succ k ih =>
    rw [reduceTree, ih d hd, ih _ (ringBack_lt (by omega) _ _), mul_one, Nat.pow_succ, Nat.mul_two,
      sum_range_add]
    simp only [ringBack_ringBack]

omit [MulOneClass S] in
lemma ring_sum {D : ℕ} (x : ℕ → S) {d : ℕ} (hd : d < D) :
    ∑ i ∈ range D, x (ringBack D d i) = ∑ b ∈ range D, x b := by
  have hD : 0 < D := by omega
  apply sum_nbij' (ringBack D d) (ringBack D d)
  · intro i _; exact mem_range.2 (ringBack_lt hD _ _)
  · intro i _; exact mem_range.2 (ringBack_lt hD _ _)
  · intro i hi
    have hi := mem_range.1 hi
    rw [ringBack_eq (ringBack_lt hD _ _).le, ringBack_eq hi.le, before_before hd hi]
  · intro i hi
    have hi := mem_range.1 hi
    rw [ringBack_eq (ringBack_lt hD _ _).le, ringBack_eq hi.le, before_before hd hi]
  · intro i _; rfl

variable {loop : Loop S} {f fsync : Handle} {m : Mem S} {A : ℕ → ℕ → S} {size : ℕ}

/-- Powers of two: every device ends with the sum over all devices; no buffer but `f` and `m_f_sync`
changes. -/
theorem all_reduce_sums (hl : IsParLoop loop) (K : ℕ) (hne : f ≠ fsync) (hA : Holds (2 ^ K) f size m A)
    (hs : Replicated (2 ^ K) fsync size m) :
    ∃ m', synchronizeSum loop (2 ^ K) f fsync size m = .ok m' ∧
      Holds (2 ^ K) f size m' (fun _ j => ∑ b ∈ range (2 ^ K), A b j) ∧
      m'.shape = m.shape ∧
      ∀ x j, (∀ d, d < 2 ^ K → x ≠ rep (2 ^ K) f d ∧ x ≠ rep (2 ^ K) fsync d) → m'.cell x j = m.cell x j := by
  have hD : 0 < 2 ^ K := Nat.two_pow_pos K
  obtain ⟨k, m', a1, a2, a3, a4, a5, a6⟩ := synchronizeSum_run hl hD hne hA hs
  have hk : k = K := by
    have := (Nat.pow_le_pow_iff_right (a := 2) (by omega)).1 a3
    by_contra hne
    have := a4 K (by omega)
    omega
  subst hk
  refine ⟨m', a1, ?_, a2, ?_⟩
  · intro d j hd hj
    rw [a5 d j hd hj, tree_sum _ _ _ _ hd, ring_sum (fun b => A b j) hd]
  · intro x j hx
    apply a6
    · intro e; exact (hx (x % 2 ^ k) (Nat.mod_lt _ hD)).1 (by rw [← e, rep_eta])
    · intro e; exact (hx (x % 2 ^ k) (Nat.mod_lt _ hD)).2 (by rw [← e, rep_eta])

/-- Every device count: with `2 ^ k` the smallest power of two that is not below it, device `d` gets the sum
and, a second time, the contributions of the devices `d`, `d - 1`, ..., `d - (2 ^ k - D) + 1` (going round). -/
theorem all_reduce_counts (hl : IsParLoop loop) (D k : ℕ) (hk : D ≤ 2 ^ k) (hk' : 2 ^ k < 2 * D)
    (hne : f ≠ fsync) (hA : Holds D f size m A) (hs : Replicated D fsync size m) :
    ∃ m', synchronizeSum loop D f fsync size m = .ok m' ∧
      Holds D f size m' (fun d j =>
        (∑ b ∈ range D, A b j) + ∑ i ∈ range (2 ^ k - D), A (before D d i) j) := by
  have hD : 0 < D := by omega
  obtain ⟨k', m', a1, a2, a3, a4, a5, a6⟩ := synchronizeSum_run hl hD hne hA hs
  have hkk : k' = k := by
    rcases Nat.lt_trichotomy k' k with h | h | h
    · have h1 : 2 ^ (k' + 1) ≤ 2 ^ k := Nat.pow_le_pow_right (by omega) h
      rw [Nat.pow_succ] at h1
      omega
    · exact h
    · have := a4 k h; omega
  subst hkk
  refine ⟨m', a1, ?_⟩
  intro d j hd hj
  rw [a5 d j hd hj, tree_sum _ _ _ _ hd]
  congr 1
  conv_lhs => rw [show 2 ^ k' = D + (2 ^ k' - D) by omega, sum_range_add, ring_sum (fun b => A b j) hd]
  congr 1
  apply sum_congr rfl
  intro i hi
  have := mem_range.1 hi
  rw [ringBack_mod hD, ringBack_eq (by omega)]

end

/-- For every device count that is no power of two some contents are summed wrongly on every device: the
device's own contribution is counted twice. -/
theorem own_counted_twice {loop : Loop ℕ} (hl : IsParLoop loop) (D : ℕ) (hD0 : 0 < D) (hD : ∀ K, D ≠ 2 ^ K)
    (f fsync : Handle) (hne : f ≠ fsync) (d : ℕ) (hd : d < D) (m : Mem ℕ) (hs : Replicated D fsync 1 m)
    (hm : Holds D f 1 m (fun b _ => if b = d then 1 else 0)) :
    ∃ m', synchronizeSum loop D f fsync 1 m = .ok m' ∧ m'.cell (rep D f d) 0 = some 2 := by
  have h1 := Nat.log2_self_le (n := D) (by omega)
  have h2 := Nat.lt_log2_self (n := D)
  have h3 := hD (Nat.log2 D)
  have h4 : 2 ^ (Nat.log2 D + 1) = 2 * 2 ^ Nat.log2 D := by rw [Nat.pow_succ]; omega
  obtain ⟨m', a1, a2⟩ := all_reduce_counts hl D (Nat.log2 D + 1) (by omega) (by omega) hne hm hs
  refine ⟨m', a1, ?_⟩
  rw [a2 d 0 hd (by omega)]
  congr 1
  have e1 : (∑ b ∈ range D, if b = d then 1 else 0) = 1 := by
    rw [sum_ite_eq' (range D) d (fun _ => 1), if_pos (mem_range.2 hd)]
  have e2 : (∑ i ∈ range (2 ^ (Nat.log2 D + 1) - D), if before D d i = d then 1 else 0) = 1 := by
    have hiff : ∀ i ∈ range (2 ^ (Nat.log2 D + 1) - D),
        (if before D d i = d then 1 else 0) = if i = 0 then 1 else (0 : ℕ) := by
      intro i hi
      have hi := mem_range.1 hi
      have hb0 : before D d 0 = d := by
        unfold before
        rw [Nat.sub_zero, Nat.add_mod_right, Nat.mod_eq_of_lt hd]
      by_cases h0 : i = 0
      · subst h0; rw [hb0, if_pos rfl, if_pos rfl]
      · rw [if_neg h0, if_neg]
        intro e
        have k1 := before_before hd (show i < D by omega)
        have k2 := before_before hd (show 0 < D by omega)
        rw [e] at k1
        rw [hb0] at k2
        omega
    rw [sum_congr rfl hiff, sum_ite_eq' (range _) 0 (fun _ => 1), if_pos (mem_range.2 (by omega))]
  dsimp only
  rw [e1, e2]

/-! ### Without rounding error when only one device contributes -/

/-- The use of the tree engines: every element is computed by one device, the others hold zero.  With an
arithmetic in which adding zero and multiplying by one change nothing (nothing else is assumed, so rounding
does not matter), every device ends with exactly that element. -/
theorem one_contributor_exact {S : Type} [Add S] [Mul S] [One S] [Zero S] {loop : Loop S} (hl : IsParLoop loop)
    (h0 : ∀ v : S, 0 + v = v ∧ v + 0 = v ∧ v * 1 = v) (K : ℕ) (f fsync : Handle) (hne : f ≠ fsync) (size : ℕ)
    (m : Mem S) (who : ℕ → ℕ) (v : ℕ → S) (hwho : ∀ j, j < size → who j < 2 ^ K)
    (hA : Holds (2 ^ K) f size m (fun d j => if d = who j then v j else 0))
    (hs : Replicated (2 ^ K) fsync size m) :
    ∃ m', synchronizeSum loop (2 ^ K) f fsync size m = .ok m' ∧ Holds (2 ^ K) f size m' (fun _ j => v j) := by
  have hD : 0 < 2 ^ K := Nat.two_pow_pos K
  obtain ⟨k, m', a1, a2, a3, a4, a5, a6⟩ := synchronizeSum_run hl hD hne hA hs
  have hk : k = K := by
    have := (Nat.pow_le_pow_iff_right (a := 2) (by omega)).1 a3
    by_contra hne
    have := a4 K (by omega)
    omega
  subst hk
  refine ⟨m', a1, ?_⟩
  intro d j hd hj
  rw [a5 d j hd hj]
  congr 1
  -- after `k'` passes device `d` has the value iff the contributor is at most `2 ^ k' - 1` places before it
  have key : ∀ k' i d, k' ≤ k → i < 2 ^ k → d < 2 ^ k → ringBack (2 ^ k) d i = who j →
      reduceTree (2 ^ k) (fun b => if b = who j then v j else 0) k' d = if i < 2 ^ k' then v j else 0 := by
    intro k'
    induction k' with
    | zero =>
      intro i d _ hi hd e
      rw [reduceTree]
      by_cases hi0 : i = 0
      · subst hi0
        rw [ringBack, Nat.zero_mul, Nat.add_zero, Nat.mod_eq_of_lt hd] at e
        rw [if_pos e, if_pos (by omega)]
      · rw [if_neg, if_neg (by omega)]
        intro ed
        have k1 := before_before hd hi
        have k2 := before_before hd hD
        rw [← ringBack_eq hi.le, e] at k1
        rw [← ringBack_eq hD.le, ringBack, Nat.zero_mul, Nat.add_zero, Nat.mod_eq_of_lt hd] at k2
        rw [← ed] at k1
        omega
    | succ k' ih =>
      intro i d hk' hi hd e
      have hdbl : 2 ^ (k' + 1) = 2 ^ k' + 2 ^ k' := by rw [Nat.pow_succ]; omega
      have hle : 2 ^ (k' + 1) ≤ 2 ^ k := Nat.pow_le_pow_right (by omega) hk'
      have hp : 0 < 2 ^ k' := Nat.two_pow_pos k'
      rw [reduceTree, ih i d (by omega) hi hd e, (h0 _).2.2]
      by_cases hc : 2 ^ k' ≤ i
      · rw [ih (i - 2 ^ k') (ringBack (2 ^ k) d (2 ^ k')) (by omega) (by omega) (ringBack_lt hD _ _) (by
          rw [ringBack_ringBack, show 2 ^ k' + (i - 2 ^ k') = i by omega]; exact e),
          if_neg (by omega), (h0 _).1]
        exact if_congr (by omega) rfl rfl
      · rw [ih (i + 2 ^ k - 2 ^ k') (ringBack (2 ^ k) d (2 ^ k')) (by omega) (by omega) (ringBack_lt hD _ _) (by
          rw [ringBack_ringBack, show 2 ^ k' + (i + 2 ^ k - 2 ^ k') = 2 ^ k + i by omega, ringBack_mod hD]
          exact e), if_pos (by omega), if_neg (by omega), (h0 _).2.1, if_pos (by omega)]
  have hb := before_before hd (hwho j hj)
  rw [← ringBack_eq (hwho j hj).le] at hb
  rw [key k (ringBack (2 ^ k) d (who j)) d le_rfl (ringBack_lt hD _ _) hd (by
    rw [ringBack_eq (ringBack_lt hD _ _).le, ringBack_eq (hwho j hj).le, before_before hd (hwho j hj)]),
    if_pos (ringBack_lt hD _ _)]

/-! ### Devices in different contexts -/

/-- Through host buffers the devices are added in order, for every device count. -/
theorem all_reduce_host {S : Type} [AddCommMonoid S] {loop : Loop S} (hl : IsParLoop loop) (D : ℕ) (hD : 0 < D)
    (f host : Handle) (hne : f ≠ host) (size : ℕ) (m : Mem S) (A : ℕ → ℕ → S) (hA : Holds D f size m A)
    (hs : Replicated D host size m) :
    ∃ m', synchronizeSumHost loop D f host size m = .ok m' ∧
      Holds D f size m' (fun _ j => ∑ b ∈ range D, A b j) := by
  obtain ⟨m', a1, _, a3, _⟩ := synchronizeSumHost_run hl hD hne hA hs
  refine ⟨m', a1, ?_⟩
  intro d j hd hj
  rw [a3 d j hd hj]
  congr 1
  obtain ⟨E, rfl⟩ : ∃ E, D = E + 1 := ⟨D - 1, by omega⟩
  rw [Nat.add_sub_cancel]
  have key : ∀ E, foldN E (A 0 j) (fun k acc => acc + A (k + 1) j) = ∑ b ∈ range (E + 1), A b j := by
    intro E
    induction E with
    | zero => simp [foldN]
    | succ E ih => rw [foldN, ih, sum_range_succ _ (E + 1)]
  exact key E

/-! ### Concrete cases -/

/-- Device `d` holds `d + 1` in one element of buffer 1; buffer 2 is `m_f_sync`. -/
def example_mem (D : ℕ) : Mem ℕ := fun x => some [if x / D = 1 then x % D + 1 else 0]

lemma example_holds (D : ℕ) : Holds D 1 1 (example_mem D) (fun d _ => d + 1) := by
  intro d j hd hj
  obtain rfl : j = 0 := by omega
  simp [example_mem, Mem.cell, rep_div hd, rep_mod hd]

lemma example_sync (D : ℕ) : Replicated D 2 1 (example_mem D) := by
  intro d j hd hj
  obtain rfl : j = 0 := by omega
  simp [example_mem, Mem.cell]

/-- Four devices with 1, 2, 3, 4: all end with 10. -/
example {loop : Loop ℕ} (hl : IsParLoop loop) : ∃ m', synchronizeSum loop (2 ^ 2) 1 2 1 (example_mem 4) = .ok m' ∧
    ∀ d, d < 4 → m'.cell (rep 4 1 d) 0 = some 10 := by
  obtain ⟨m', h1, h2, _⟩ := all_reduce_sums hl 2 (by decide) (example_holds 4) (example_sync 4)
  exact ⟨m', h1, fun d hd => h2 d 0 hd (by decide)⟩

/-- Three devices with 1, 2, 3: they end with 7, 8 and 9. -/
example {loop : Loop ℕ} (hl : IsParLoop loop) : ∃ m', synchronizeSum loop 3 1 2 1 (example_mem 3) = .ok m' ∧
    ∀ d, d < 3 → m'.cell (rep 3 1 d) 0 = some (7 + d) := by
  obtain ⟨m', h1, h2⟩ := all_reduce_counts hl 3 2 (by decide) (by decide) (by decide) (example_holds 3)
    (example_sync 3)
  refine ⟨m', h1, fun d hd => ?_⟩
  rw [h2 d 0 hd (by decide)]
  match d, hd with
  | 0, _ => rfl
  | 1, _ => rfl
  | 2, _ => rfl

/-- Three devices through the host: 6 everywhere. -/
example {loop : Loop ℕ} (hl : IsParLoop loop) : ∃ m', synchronizeSumHost loop 3 1 2 1 (example_mem 3) = .ok m' ∧
    ∀ d, d < 3 → m'.cell (rep 3 1 d) 0 = some 6 := by
  obtain ⟨m', h1, h2⟩ := all_reduce_host hl 3 (by decide) 1 2 (by decide) 1 _ _ (example_holds 3)
    (example_sync 3)
  exact ⟨m', h1, fun d hd => h2 d 0 hd (by decide)⟩

/-- Four devices of which only number 2 contributes, the value 7. -/
example {loop : Loop ℕ} (hl : IsParLoop loop) :
    ∃ m', synchronizeSum loop (2 ^ 2) 1 2 1 (fun x => some [if x % 4 = 2 then 7 else 0]) = .ok m' ∧
      ∀ d, d < 4 → m'.cell (rep 4 1 d) 0 = some 7 := by
  obtain ⟨m', h1, h2⟩ := one_contributor_exact hl (fun v => ⟨zero_add v, add_zero v, mul_one v⟩) 2 1 2 (by decide) 1
    (fun x => some [if x % 4 = 2 then 7 else 0]) (fun _ => 2) (fun _ => 7) (fun _ _ => by decide)
    (fun d j hd hj => by
      obtain rfl : j = 0 := by omega
      have hr : rep 4 1 d % 4 = d := rep_mod hd
      simp [Mem.cell, hr])
    (fun d j hd hj => by
      obtain rfl : j = 0 := by omega
      simp [Mem.cell])
  exact ⟨m', h1, fun d hd => h2 d 0 hd (by decide)⟩

/-- Three devices: device 1 alone contributes 1 and ends with 2. -/
example {loop : Loop ℕ} (hl : IsParLoop loop) :
    ∃ m', synchronizeSum loop 3 1 2 1 (fun x => some [if x % 3 = 1 then 1 else 0]) = .ok m' ∧
      m'.cell (rep 3 1 1) 0 = some 2 :=
  own_counted_twice hl 3 (by decide) (fun K e => by
      match K with
      | 0 => omega
      | 1 => omega
      | K + 2 => rw [Nat.pow_add] at e; omega) 1 2 (by decide) 1 (by decide) _
    (fun d j hd hj => by
      obtain rfl : j = 0 := by omega
      simp [Mem.cell])
    (fun d j hd hj => by
      obtain rfl : j = 0 := by omega
      simp [Mem.cell, rep_mod hd])

end NB.C52
