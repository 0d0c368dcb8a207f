import Verif.Lemmas.EngineAH
import Verif.Lemmas.Vec3Group
import Verif.Props.C02_DirectSum
import Mathlib.Algebra.BigOperators.Fin

/-
C05: the Ahmad-Cohen engine splits the direct sum without losing or duplicating a pair.
-/

namespace NB.C05

/-- A full recomputation (step number divisible by the rate) is the simple engine's `fcompute`, bit for
bit, for any scalar arithmetic, any thresholds and any previous state of the engine. -/
theorem full_eq_simple {S : Type} [Add S] [Sub S] [Mul S] [Neg S] [Div S] [Zero S] [One S] [FOps S]
    (p : AHParams S) {step n : ℕ} (hrate : p.rate ≠ 0) (hstep : p.rate ∣ step)
    {hm y f : Handle} (hyf : y ≠ f) (hmf : hm ≠ f) {Y M : ℕ → S}
    {m : Mem S} (hy : m y = some (buf (6 * n) Y)) (hM : m hm = some (buf n M))
    (hf : m.shape f = some (6 * n)) (st : AHState S) :
    ∃ st' m', ahFcompute p step n hm y f st m = .ok (st', m') ∧ fcompute seqFor n hm y f m = .ok m' := by
  have h1 : m.has y = true := by simp [Mem.has, hy]
  have h2 : m.has f = true := by rw [Mem.has_eq, hf]; rfl
  have h3 : step % p.rate = 0 := Nat.mod_eq_zero_of_dvd hstep
  refine ⟨ahStateOf p n Y M, m.set f (buf (6 * n) (derivVal n Y M)), ?_, fcompute_eq hyf hmf hy hM hf⟩
  simp only [ahFcompute, h1, h2, hrate, h3, Bool.not_true, Bool.false_eq_true, if_false, if_true]
  exact ahFull_eq p hyf hmf hy hM hf

/-- Squared length of the textbook force. -/
noncomputable def newtonSq (p q : Fin 3 → ℝ) (m1 m2 : ℝ) : ℝ :=
  ∑ k : Fin 3, Spec.newton 1e-8 p q m1 m2 k ^ 2

lemma norm_coord (v : Vec3 ℝ) : v.norm = ∑ k : Fin 3, v.coord k ^ 2 := by
  simp only [Vec3.norm, Fin.sum_univ_three, Vec3.coord_zero, Vec3.coord_one, Vec3.coord_two]
  ring

lemma nearOf_iff (rate : ℕ) (D F : ℝ) (n : ℕ) (Y M : ℕ → ℝ) (i j : ℕ) :
    nearOf (AHParams.make rate D F) n Y M i j = true ↔
      Spec.dist2 (C02.pos n Y i) (C02.pos n Y j) < D ^ 2 ∨
        F ^ 2 < newtonSq (C02.pos n Y i) (C02.pos n Y j) (M i) (M j) := by
  have h1 : (posOf n Y i - posOf n Y j).norm = Spec.dist2 (C02.pos n Y i) (C02.pos n Y j) := norm_eq_dist2 _ _
  have h2 : (force (posOf n Y i) (posOf n Y j) (M i) (M j)).norm =
      newtonSq (C02.pos n Y i) (C02.pos n Y j) (M i) (M j) := by
    rw [norm_coord]
    unfold newtonSq
    exact Finset.sum_congr rfl fun k _ => by rw [force_coord]; rfl
  simp [nearOf, ahNear, AHParams.make, h1, h2, sq]

lemma foldN_erase_filter {A : Type} [AddCommMonoid A] (n i : ℕ) (P : ℕ → Bool) (g : ℕ → A) :
    foldN n 0 (fun j t => if i = j then t else if P j = true then t else t + g j) =
      ∑ j ∈ (Finset.range n).filter (fun j => j ≠ i ∧ P j = false), g j := by
  induction n with
  | zero => simp [foldN]
  | succ n ih =>
    simp only [foldN, ih]
    rw [Finset.range_add_one, Finset.filter_insert]
    by_cases h : i = n
    · subst h; simp
    · by_cases hp : P n = true
      · simp [h, hp]
      · have hp' : P n = false := by simpa using hp
        have hne : n ≠ i := fun h' => h h'.symm
        rw [if_neg h, if_neg hp, if_pos ⟨hne, hp'⟩, Finset.sum_insert (by simp), add_comm]

/-- What a full recomputation stores.  For every body `i`: the neighbour list has no repetition, does not
contain `i`, and contains another body `j` exactly when `j` is closer than `max_dist` or pulls harder
than `min_force`; the stored far force is the sum of the textbook forces of exactly the other bodies. -/
theorem full_partition {rate : ℕ} (D F : ℝ) {step n : ℕ} (hrate : rate ≠ 0) (hstep : rate ∣ step)
    {hm y f : Handle} (hyf : y ≠ f) (hmf : hm ≠ f) {Y M : ℕ → ℝ}
    {m : Mem ℝ} (hy : m y = some (buf (6 * n) Y)) (hM : m hm = some (buf n M))
    (hf : m.shape f = some (6 * n)) (st : AHState ℝ) :
    ∃ U L m', ahFcompute (AHParams.make rate D F) step n hm y f st m = .ok (⟨buf n U, buf n L⟩, m') ∧
      ∀ i, i < n →
        (L i).Nodup ∧
        (∀ j, j ∈ L i ↔ j < n ∧ j ≠ i ∧
          (Spec.dist2 (C02.pos n Y i) (C02.pos n Y j) < D ^ 2 ∨
            F ^ 2 < newtonSq (C02.pos n Y i) (C02.pos n Y j) (M i) (M j))) ∧
        (∀ k : Fin 3, (U i).coord k =
          ∑ j ∈ (Finset.range n).filter (fun j => j ≠ i ∧ j ∉ L i),
            Spec.newton 1e-8 (C02.pos n Y i) (C02.pos n Y j) (M i) (M j) k) := by
  have h1 : m.has y = true := by simp [Mem.has, hy]
  have h2 : m.has f = true := by rw [Mem.has_eq, hf]; rfl
  have h3 : step % rate = 0 := Nat.mod_eq_zero_of_dvd hstep
  set p := AHParams.make rate D F with hp
  have hpr : p.rate = rate := rfl
  refine ⟨farForce p n Y M, nbrs p n Y M, m.set f (buf (6 * n) (derivVal n Y M)), ?_, ?_⟩
  · simp only [ahFcompute, h1, h2, hpr, hrate, h3, Bool.not_true, Bool.false_eq_true, if_false, if_true]
    exact ahFull_eq p hyf hmf hy hM hf
  · intro i hi
    have hmem : ∀ j, j ∈ nbrs p n Y M i ↔ j < n ∧ j ≠ i ∧ nearOf p n Y M i j = true := by
      intro j
      simp only [nbrs, List.mem_filter, List.mem_range, Bool.and_eq_true, decide_eq_true_eq, ne_eq]
      rw [eq_comm (a := i)]
    refine ⟨List.nodup_range.filter _, fun j => by rw [hmem, ← nearOf_iff rate D F], fun k => ?_⟩
    have : farForce p n Y M i = ∑ j ∈ (Finset.range n).filter (fun j => j ≠ i ∧ nearOf p n Y M i j = false),
        force (posOf n Y i) (posOf n Y j) (M i) (M j) :=
      foldN_erase_filter n i (nearOf p n Y M i) _
    rw [this, Vec3.sum_coord]
    have hset : (Finset.range n).filter (fun j => j ≠ i ∧ nearOf p n Y M i j = false) =
        (Finset.range n).filter (fun j => j ≠ i ∧ j ∉ nbrs p n Y M i) := by
      ext j
      simp only [Finset.mem_filter, Finset.mem_range, hmem]
      constructor
      · rintro ⟨a, b, c⟩; exact ⟨a, b, by simp [c]⟩
      · rintro ⟨a, b, c⟩; exact ⟨a, b, by simpa [a, b] using c⟩
    rw [hset]
    exact Finset.sum_congr rfl fun j _ => force_coord _ _ _ _ k

lemma foldl_add_sum {A : Type} [AddCommMonoid A] (l : List ℕ) (hn : l.Nodup) (u : A) (g : ℕ → A) :
    l.foldl (fun t j => t + g j) u = u + ∑ j ∈ l.toFinset, g j := by
  induction l generalizing u with
  | nil => simp
  | cons a l ih =>
    rw [List.nodup_cons] at hn
    rw [List.foldl_cons, ih hn.2, List.toFinset_cons, Finset.sum_insert (by simpa using hn.1), add_assoc]

/-- A sparse recomputation that follows a full one.  The full one saw the positions `Y`, the sparse one
sees the state `Y'` (same masses, same buffers or others).  The sparse one stays inside its buffers, and
the acceleration of body `i` is the sum of the forces of the neighbours at the new positions and of
the other bodies at the old positions, divided by the mass. -/
theorem sparse_after_full {rate : ℕ} (D F : ℝ) {step step' n : ℕ} (hrate : rate ≠ 0) (hstep : rate ∣ step)
    (hstep' : ¬ rate ∣ step')
    {hm y f : Handle} (hyf : y ≠ f) (hmf : hm ≠ f) {Y Y' M : ℕ → ℝ}
    {m m2 : Mem ℝ} (hy : m y = some (buf (6 * n) Y)) (hM : m hm = some (buf n M))
    (hf : m.shape f = some (6 * n)) (hy2 : m2 y = some (buf (6 * n) Y')) (hM2 : m2 hm = some (buf n M))
    (hf2 : m2.shape f = some (6 * n)) (st : AHState ℝ) :
    ∃ st' m', ahFcompute (AHParams.make rate D F) step n hm y f st m = .ok (st', m') ∧
      ∃ G : ℕ → ℝ, ahFcompute (AHParams.make rate D F) step' n hm y f st' m2 =
          .ok (st', m2.set f (buf (6 * n) G)) ∧
        (∀ i, i < 3 * n → G i = Y' (3 * n + i)) ∧
        ∀ i, i < n → ∀ k : Fin 3,
          G ((3 + k) * n + i) =
            (∑ j ∈ (Finset.range n).erase i,
              (if Spec.dist2 (C02.pos n Y i) (C02.pos n Y j) < D ^ 2 ∨
                  F ^ 2 < newtonSq (C02.pos n Y i) (C02.pos n Y j) (M i) (M j)
                then Spec.newton 1e-8 (C02.pos n Y' i) (C02.pos n Y' j) (M i) (M j) k
                else Spec.newton 1e-8 (C02.pos n Y i) (C02.pos n Y j) (M i) (M j) k)) / M i := by
  obtain ⟨U, L, m', hfull, hpart⟩ := full_partition D F hrate hstep hyf hmf hy hM hf st
  refine ⟨_, m', hfull, rowDeriv n Y' M (fun i => sparseForce n Y' M i (U i) (L i)), ?_, ?_, ?_⟩
  · have h1 : m2.has y = true := by simp [Mem.has, hy2]
    have h2 : m2.has f = true := by rw [Mem.has_eq, hf2]; rfl
    have h3 : ¬ step' % rate = 0 := fun h => hstep' (Nat.dvd_of_mod_eq_zero h)
    have hpr : (AHParams.make rate D F).rate = rate := rfl
    simp only [ahFcompute, h1, h2, hpr, hrate, h3, Bool.not_true, Bool.false_eq_true, if_false]
    rw [ahSparse_eq hyf hmf hy2 hM2 hf2 fun i hi j hj => (((hpart i hi).2.1 j).1 hj).1]
    rfl
  · intro i hi; simp [rowDeriv, hi]
  · intro i hi k
    obtain ⟨hnd, hmem, hU⟩ := hpart i hi
    have hsf : ∀ k, (sparseForce n Y' M i (U i) (L i)).coord k =
        ∑ j ∈ (Finset.range n).erase i,
              (if Spec.dist2 (C02.pos n Y i) (C02.pos n Y j) < D ^ 2 ∨
                  F ^ 2 < newtonSq (C02.pos n Y i) (C02.pos n Y j) (M i) (M j)
                then Spec.newton 1e-8 (C02.pos n Y' i) (C02.pos n Y' j) (M i) (M j) k
                else Spec.newton 1e-8 (C02.pos n Y i) (C02.pos n Y j) (M i) (M j) k) := by
      intro k
      have e1 : sparseForce n Y' M i (U i) (L i) = U i +
          ∑ j ∈ (L i).toFinset, force (posOf n Y' i) (posOf n Y' j) (M i) (M j) :=
        foldl_add_sum _ hnd _ _
      have e2 : (sparseForce n Y' M i (U i) (L i)).coord k = (U i).coord k +
          ∑ j ∈ (L i).toFinset, (force (posOf n Y' i) (posOf n Y' j) (M i) (M j)).coord k := by
        rw [e1, ← Vec3.sum_coord]
        fin_cases k <;> rfl
      rw [e2, hU, Finset.sum_ite]
      rw [add_comm]
      congr 1
      · refine Finset.sum_congr ?_ fun j _ => force_coord _ _ _ _ k
        ext j
        simp only [List.mem_toFinset, hmem, Finset.mem_filter, Finset.mem_erase, Finset.mem_range]
        tauto
      · refine Finset.sum_congr ?_ fun j _ => rfl
        ext j
        simp only [hmem, Finset.mem_filter, Finset.mem_erase, Finset.mem_range]
        tauto
    obtain ⟨_, _, _, c3, c4, c5⟩ := rowDeriv_cells (Y := Y') (M := M)
      (T := fun i => sparseForce n Y' M i (U i) (L i)) hi
    fin_cases k
    · exact c3.trans (by rw [← hsf]; rfl)
    · exact c4.trans (by rw [← hsf]; rfl)
    · exact c5.trans (by rw [← hsf]; rfl)

/-- In particular, at the same positions the sparse recomputation returns the textbook accelerations, as
the full one does. -/
theorem sparse_same_positions {rate : ℕ} (D F : ℝ) {step step' n : ℕ} (hrate : rate ≠ 0) (hstep : rate ∣ step)
    (hstep' : ¬ rate ∣ step')
    {hm y f : Handle} (hyf : y ≠ f) (hmf : hm ≠ f) {Y M : ℕ → ℝ}
    {m m2 : Mem ℝ} (hy : m y = some (buf (6 * n) Y)) (hM : m hm = some (buf n M))
    (hf : m.shape f = some (6 * n)) (hy2 : m2 y = some (buf (6 * n) Y)) (hM2 : m2 hm = some (buf n M))
    (hf2 : m2.shape f = some (6 * n)) (hmass : ∀ i, i < n → M i ≠ 0) (st : AHState ℝ) :
    ∃ st' m', ahFcompute (AHParams.make rate D F) step n hm y f st m = .ok (st', m') ∧
      ∃ G : ℕ → ℝ, ahFcompute (AHParams.make rate D F) step' n hm y f st' m2 =
          .ok (st', m2.set f (buf (6 * n) G)) ∧
        (∀ i, i < 3 * n → G i = Y (3 * n + i)) ∧
        ∀ i, i < n → ∀ k : Fin 3, G ((3 + k) * n + i) = Spec.accel 1e-8 n (C02.pos n Y) M i k := by
  obtain ⟨st', m', h1, G, h2, h3, h4⟩ :=
    sparse_after_full D F hrate hstep hstep' hyf hmf hy hM hf hy2 hM2 hf2 st
  refine ⟨st', m', h1, G, h2, h3, fun i hi k => ?_⟩
  rw [h4 i hi k]
  simp only [ite_self]
  rw [Finset.sum_div]
  unfold Spec.accel
  exact Finset.sum_congr rfl fun j _ => C02.newton_div _ _ _ _ _ (hmass i hi) k

lemma forN_first_error {σ : Type} {n : ℕ} (hn : 0 < n) {s : σ} {f : ℕ → σ → Res σ} {e : UB}
    (h : f 0 s = .error e) : forN n s f = .error e := by
  induction n with
  | zero => omega
  | succ n ih =>
    rw [forN_succ]
    by_cases hn' : n = 0
    · subst hn'; exact h
    · rw [ih (by omega)]; rfl

/-- A recompute rate of zero is a division by zero in every call with valid buffers. -/
theorem rate_zero_ub {S : Type} [Add S] [Sub S] [Mul S] [Neg S] [Div S] [Zero S] [One S] [FOps S]
    (p : AHParams S) (hr : p.rate = 0) (step n : ℕ) {hm y f : Handle} {m : Mem S} (hy : m.has y = true)
    (hf : m.has f = true) (st : AHState S) : ahFcompute p step n hm y f st m = .error .divZero := by
  simp [ahFcompute, hy, hf, hr]

/-- A sparse recomputation before any full one (the engine is new, its vectors are empty, and the step
number - for instance that of a resumed run - is not a multiple of the rate) reads outside them. -/
theorem sparse_before_full_ub {S : Type} [Add S] [Sub S] [Mul S] [Neg S] [Div S] [Zero S] [One S] [FOps S]
    (p : AHParams S) (hr : p.rate ≠ 0) {step n : ℕ} (hs : ¬ p.rate ∣ step) (hn : 0 < n)
    {hm y f : Handle} {m : Mem S} (hy : m.has y = true) (hf : m.has f = true) :
    ahFcompute p step n hm y f ⟨[], []⟩ m = .error .oob := by
  have h3 : ¬ step % p.rate = 0 := fun h => hs (Nat.dvd_of_mod_eq_zero h)
  simp only [ahFcompute, hy, hf, hr, h3, Bool.not_true, Bool.false_eq_true, if_false]
  have : ahSparse n hm y f (⟨[], []⟩ : AHState S) m = .error .oob := by
    unfold ahSparse
    exact forN_first_error hn rfl
  rw [this]
  rfl

/-- Three bodies at different places, a rate of 10, a full step 20 and a sparse step 23. -/
example : ∃ m : Mem ℝ, m 0 = some (buf 3 (fun i => (i : ℝ) + 1)) ∧
    m 1 = some (buf (6 * 3) (fun i => ((i * i : ℕ) : ℝ))) ∧ m.shape 2 = some (6 * 3) ∧
    (1 : Handle) ≠ 2 ∧ (0 : Handle) ≠ 2 ∧ (∀ i : ℕ, i < 3 → ((i : ℝ) + 1) ≠ 0) ∧
    (10 : ℕ) ≠ 0 ∧ 10 ∣ 20 ∧ ¬ 10 ∣ 23 := by
  refine ⟨fun h => if h = 0 then some (buf 3 (fun i => (i : ℝ) + 1))
    else if h = 1 then some (buf (6 * 3) (fun i => ((i * i : ℕ) : ℝ)))
    else some (buf (6 * 3) (fun _ => 0)), by simp, by simp, by simp [Mem.shape], by decide, by decide, ?_,
    by decide, by decide, by decide⟩
  intro i _
  exact Nat.cast_add_one_ne_zero i

end NB.C05
