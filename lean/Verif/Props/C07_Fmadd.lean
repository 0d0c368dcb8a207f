import Verif.Lemmas.EngineSimple
import Verif.Lemmas.Sums
import Verif.Model.RealScalar

/-
C07: buffer arithmetic.  `fmadd`, `fmadd_inplace`, `copy_buffer` and `fill_buffer` for arbitrary scalars;
the n-ary forms for exact arithmetic (ℝ), where skipping zero coefficients makes no difference.
A buffer list is `buf L b`: handles `b 0, …, b (L-1)`; a coefficient array is `buf D c`.
-/

namespace NB.C07

section
variable {S : Type} [Add S] [Mul S]

/-- `a = b + c*d`, also when some of the buffers are the same. -/
theorem fmadd_formula {n : Nat} {a b c : Handle} {A B C : Nat → S} (d : S) {m : Mem S}
    (ha : m a = some (buf n A)) (hb : m b = some (buf n B)) (hc : m c = some (buf n C)) :
    fmadd seqFor n a b c d m = .ok (m.set a (buf n (fun i => B i + C i * d))) := fmadd_eq d ha hb hc

/-- `a += b*c`, also when the buffers are the same. -/
theorem fmadd_inplace_formula {n : Nat} {a b : Handle} {A B : Nat → S} (c : S) {m : Mem S}
    (ha : m a = some (buf n A)) (hb : m b = some (buf n B)) :
    fmaddInplace seqFor n a b c m = .ok (m.set a (buf n (fun i => A i + B i * c))) :=
  fmaddInplace_eq c ha hb

omit [Add S] [Mul S] in
/-- `copy_buffer`. -/
theorem copy_formula {n : Nat} {a b : Handle} {A B : Nat → S} {m : Mem S}
    (ha : m a = some (buf n A)) (hb : m b = some (buf n B)) :
    copyBuffer seqFor n a b m = .ok (m.set a (buf n B)) := copyBuffer_eq ha hb

omit [Add S] [Mul S] in
/-- `fill_buffer`. -/
theorem fill_formula {N : Nat} {a : Handle} {A : Nat → S} (v : S) {m : Mem S}
    (ha : m a = some (buf N A)) :
    fillBuffer seqFor a v m = .ok (m.set a (buf N (fun _ => v))) := by
  rw [fillBuffer_eq v ha, buf_length]

end

lemma zip_take_buf {S : Type} {L D k : Nat} {b : Nat → Handle} {c : Nat → S} (h1 : k ≤ L) (h2 : k ≤ D) :
    ((buf L b).zip (buf D c)).take k = buf k (fun j => (b j, c j)) := by
  apply List.ext_getElem?
  intro i
  rw [List.getElem?_take, buf_getElem?]
  by_cases hi : i < k
  · have a : i < L := by omega
    have b : i < D := by omega
    simp [hi, List.getElem?_zip_eq_some, buf_getElem?, a, b]
  · simp [hi]

lemma accTerms_sum (x : ℝ) (k : ℕ) (v c : ℕ → ℝ) :
    accTerms x (buf k (fun j => (v j, c j))) = x + ∑ j ∈ Finset.range k, v j * c j := by
  unfold accTerms buf
  induction k with
  | zero => simp
  | succ k ih =>
    rw [List.range_succ, List.map_append, List.foldl_append, ih, Finset.sum_range_succ]
    simp only [List.map_cons, List.map_nil, List.foldl_cons, List.foldl_nil, real_eqb,
      decide_eq_true_eq]
    split
    · next h => rw [h]; ring
    · ring

lemma map_buf {α β : Type _} (k : Nat) (g : Nat → α) (f : α → β) :
    (buf k g).map f = buf k (fun j => f (g j)) := by simp [buf]

lemma mem_buf {α : Type _} {k : Nat} {g : Nat → α} {x : α} (h : x ∈ buf k g) : ∃ j, j < k ∧ x = g j := by
  simp only [buf, List.mem_map, List.mem_range] at h
  obtain ⟨j, hj, rfl⟩ := h
  exact ⟨j, hj, rfl⟩

/-- `a += Σ b_k c_k` over the first `csize` coefficients; only `a` changes. -/
theorem fmaddn_inplace_formula {n : ℕ} {a : Handle} {A : ℕ → ℝ} {L D csize : ℕ} {b : ℕ → Handle}
    {c : ℕ → ℝ} {V : Handle → ℕ → ℝ} {m : Mem ℝ} (hL : csize ≤ L) (hD : csize ≤ D)
    (ha : m a = some (buf n A))
    (hb : ∀ k, k < csize → b k ≠ a ∧ m (b k) = some (buf n (V (b k)))) :
    fmaddnInplace seqFor n a (buf L b) (some (buf D c)) csize m =
      .ok (m.set a (buf n (fun i => A i + ∑ k ∈ Finset.range csize, V (b k) i * c k))) := by
  have h1 : ¬ csize > L := by omega
  have h2 : ¬ D < csize := by omega
  simp only [fmaddnInplace, buf_length, h1, h2, if_false, zip_take_buf hL hD]
  rw [fmaddnInplaceTerms_eq (V := V) _ ha]
  · congr 3
    funext i
    rw [map_buf, accTerms_sum]
  · intro t ht
    obtain ⟨j, hj, rfl⟩ := mem_buf ht
    exact hb j hj

/-- `a = Σ c_k d_k` for a null `b`, including the case where all coefficients are zero (then `a = 0`). -/
theorem fmaddn_null_formula {n : ℕ} {a : Handle} {A : ℕ → ℝ} {L D dsize : ℕ} {c : ℕ → Handle}
    {d : ℕ → ℝ} {V : Handle → ℕ → ℝ} {m : Mem ℝ} (hL : dsize ≤ L) (hD : dsize ≤ D)
    (ha : m a = some (buf n A))
    (hc : ∀ k, k < dsize → c k ≠ a ∧ m (c k) = some (buf n (V (c k)))) :
    fmaddn seqFor n a none (buf L c) (some (buf D d)) dsize m =
      .ok (m.set a (buf n (fun i => ∑ k ∈ Finset.range dsize, V (c k) i * d k))) := by
  have h1 : ¬ dsize > L := by omega
  have h2 : ¬ D < dsize := by omega
  simp only [fmaddn, buf_length, h1, h2, if_false, zip_take_buf hL hD]
  rw [fillBuffer_eq _ ha, res_ok_bind, buf_length,
    fmaddnTerms_true_eq (V := V) _ (A := fun _ => 0) (by simp)]
  · rw [Mem.set_set]
    congr 3
    funext i
    rw [map_buf, accTerms_sum, zero_add]
  · intro t ht
    obtain ⟨j, hj, rfl⟩ := mem_buf ht
    obtain ⟨h3, h4⟩ := hc j hj
    exact ⟨h3, by rw [Mem.set_ne _ _ h3, h4]⟩

/-- `a = b + Σ c_k d_k` for a non-null `b` (which may be `a` itself), **provided some coefficient is not
zero** or `b` is `a`.  Missing from the full statement: the all-zero case with another `b`, where the code
leaves `a` unchanged, see `fmaddn_all_zero_keeps_a` and `fmaddn_formula_violated`. -/
theorem fmaddn_formula_partial {n : ℕ} {a b : Handle} {A B : ℕ → ℝ} {L D dsize : ℕ} {c : ℕ → Handle}
    {d : ℕ → ℝ} {V : Handle → ℕ → ℝ} {m : Mem ℝ} (hL : dsize ≤ L) (hD : dsize ≤ D)
    (ha : m a = some (buf n A)) (hb : m b = some (buf n B))
    (hc : ∀ k, k < dsize → c k ≠ a ∧ m (c k) = some (buf n (V (c k))))
    (hd : b = a ∨ ∃ k, k < dsize ∧ d k ≠ 0) :
    fmaddn seqFor n a (some b) (buf L c) (some (buf D d)) dsize m =
      .ok (m.set a (buf n (fun i => B i + ∑ k ∈ Finset.range dsize, V (c k) i * d k))) := by
  have h1 : ¬ dsize > L := by omega
  have h2 : ¬ D < dsize := by omega
  simp only [fmaddn, buf_length, h1, h2, if_false, zip_take_buf hL hD]
  rw [fmaddnTerms_false_eq (V := V) _ ha hb]
  · have e : (fun i => accTerms (B i) (List.map (fun t : Handle × ℝ => (V t.1 i, t.2))
        (buf dsize fun j => (c j, d j)))) = fun i => B i + ∑ k ∈ Finset.range dsize, V (c k) i * d k := by
      funext i
      rw [map_buf, accTerms_sum]
    rw [e]
    split
    · next hz =>
      have hz' : ∀ k, k < dsize → d k = 0 := by
        intro k hk
        have := hz (c k, d k) (by simp only [buf, List.mem_map, List.mem_range]; exact ⟨k, hk, rfl⟩)
        simpa using this
      rcases hd with rfl | ⟨k, hk, hne⟩
      · congr 1
        funext h
        by_cases hh : h = b
        · subst hh
          rw [Mem.set_same, hb]
          congr 1
          apply buf_congr
          intro i _
          rw [Finset.sum_eq_zero, add_zero]
          intro k hk
          rw [hz' k (Finset.mem_range.1 hk), mul_zero]
        · rw [Mem.set_ne _ _ hh]
      · exact absurd (hz' k hk) hne
    · rfl
  · intro t ht
    obtain ⟨j, hj, rfl⟩ := mem_buf ht
    exact hc j hj

/-- With a non-null `b` and only zero coefficients `fmaddn` does nothing at all. -/
theorem fmaddn_all_zero_keeps_a {n : ℕ} {a b : Handle} {A B : ℕ → ℝ} {L D dsize : ℕ} {c : ℕ → Handle}
    {d : ℕ → ℝ} {V : Handle → ℕ → ℝ} {m : Mem ℝ} (hL : dsize ≤ L) (hD : dsize ≤ D)
    (ha : m a = some (buf n A)) (hb : m b = some (buf n B))
    (hc : ∀ k, k < dsize → c k ≠ a ∧ m (c k) = some (buf n (V (c k))))
    (hd : ∀ k, k < dsize → d k = 0) :
    fmaddn seqFor n a (some b) (buf L c) (some (buf D d)) dsize m = .ok m := by
  have h1 : ¬ dsize > L := by omega
  have h2 : ¬ D < dsize := by omega
  simp only [fmaddn, buf_length, h1, h2, if_false, zip_take_buf hL hD]
  rw [fmaddnTerms_false_eq (V := V) _ ha hb, if_pos]
  · intro t ht
    obtain ⟨j, hj, rfl⟩ := mem_buf ht
    simpa using hd j hj
  · intro t ht
    obtain ⟨j, hj, rfl⟩ := mem_buf ht
    exact hc j hj

/-- The documented formula fails: `a = 5`, `b = 7`, `c = 1`, coefficient 0 should give `a = 7`, the code
leaves `a = 5`. -/
theorem fmaddn_formula_violated :
    ∃ (m m' : Mem ℝ) (B C : ℝ), m 0 = some [5] ∧ m 1 = some [B] ∧ m 2 = some [C] ∧
      fmaddn seqFor 1 0 (some 1) [2] (some [0]) 1 m = .ok m' ∧ m' 0 ≠ some [B + C * 0] := by
  let m : Mem ℝ := fun h => if h = 0 then some [5] else if h = 1 then some [7] else some [1]
  refine ⟨m, m, 7, 1, by simp [m], by simp [m], by simp [m], ?_, ?_⟩
  · exact fmaddn_all_zero_keeps_a (n := 1) (a := 0) (b := 1) (A := fun _ => 5) (B := fun _ => 7) (L := 1)
      (D := 1) (dsize := 1) (c := fun _ => 2) (d := fun _ => 0) (V := fun _ _ => 1) (m := m)
      (by omega) (by omega) (by simp [m, buf]) (by simp [m, buf]) (by intro k _; simp [m, buf])
      (by simp)
  · simp [m]

section
variable {S : Type} [Add S] [Mul S] [Zero S] [FOps S] (loop : Loop S)

/-- A null coefficient array changes nothing. -/
theorem null_coefficients_noop (n : Nat) (a : Handle) (b : Option Handle) (c : List Handle) (k : Nat)
    (m : Mem S) :
    fmaddnInplace loop n a c none k m = .ok m ∧ fmaddn loop n a b c none k m = .ok m := ⟨rfl, rfl⟩

/-- More coefficients than buffers change nothing. -/
theorem too_many_coefficients_noop (n : Nat) (a : Handle) (b : Option Handle) (c : List Handle)
    (d : List S) (k : Nat) (m : Mem S) (h : c.length < k) :
    fmaddnInplace loop n a c (some d) k m = .ok m ∧ fmaddn loop n a b c (some d) k m = .ok m := by
  simp [fmaddnInplace, fmaddn, h]

/-- A coefficient array shorter than the announced size is read outside its bounds. -/
theorem short_coefficients_oob (n : Nat) (a : Handle) (b : Option Handle) (c : List Handle)
    (d : List S) (k : Nat) (m : Mem S) (h : k ≤ c.length) (hd : d.length < k) :
    fmaddnInplace loop n a c (some d) k m = .error .oob ∧
    fmaddn loop n a b c (some d) k m = .error .oob := by
  have : ¬ c.length < k := by omega
  simp [fmaddnInplace, fmaddn, this, hd]

/-- Operations on something that is not a buffer of this engine change nothing. -/
theorem foreign_buffer_noop (n : Nat) (a b c : Handle) (d : S) (m : Mem S)
    (h : m a = none ∨ m b = none ∨ m c = none) : fmadd loop n a b c d m = .ok m := by
  rcases h with h | h | h
  · simp [fmadd, Mem.has, h]
  · simp [fmadd, Mem.has, h]
  · simp only [fmadd, Mem.has, h]
    split_ifs <;> first | rfl | simp_all

end

/-- Two terms with coefficients 2 and 0 on concrete two-element buffers: hypotheses of the n-ary theorems
hold. -/
example : ∃ m : Mem ℝ, fmaddn seqFor 2 0 (some 1) (buf 2 (fun k => k + 2))
      (some (buf 2 (fun k => if k = 0 then (2 : ℝ) else 0))) 2 m =
    .ok (m.set 0 (buf 2 (fun i => (10 : ℝ) + ∑ k ∈ Finset.range 2,
      ((k + 2 : ℕ) : ℝ) * (if k = 0 then 2 else 0)))) := by
  refine ⟨fun h => if h = 0 then some (buf 2 (fun _ => 0)) else if h = 1 then some (buf 2 (fun _ => 10))
    else some (buf 2 (fun _ => (h : ℝ))), ?_⟩
  exact fmaddn_formula_partial (A := fun _ => 0) (B := fun _ => 10) (V := fun h _ => (h : ℝ))
    (Nat.le_refl 2) (Nat.le_refl 2) (by simp) (by simp) (by intro k _; simp)
    (Or.inr ⟨0, by omega, by simp⟩)

end NB.C07
