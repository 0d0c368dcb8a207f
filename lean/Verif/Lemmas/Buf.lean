import Verif.Lemmas.Par

namespace NB

variable {S : Type} {α : Type _}

@[simp] theorem buf_length (n : Nat) (g : Nat → α) : (buf n g).length = n := by simp [buf]

theorem buf_getElem? (n : Nat) (g : Nat → α) (i : Nat) :
    (buf n g)[i]? = if i < n then some (g i) else none := by
  simp only [buf, List.getElem?_map]
  by_cases h : i < n
  · simp [h]
  · simp [h]

@[simp] theorem buf_getElem (n : Nat) (g : Nat → α) (i : Nat) (h : i < (buf n g).length) :
    (buf n g)[i] = g i := by
  simp [buf]

theorem buf_congr {n : Nat} {g g' : Nat → α} (h : ∀ i, i < n → g i = g' i) : buf n g = buf n g' := by
  apply List.ext_getElem?
  intro i
  simp only [buf_getElem?]
  split
  · rw [h i ‹_›]
  · rfl

/-- Every list is a `buf`. -/
theorem eq_buf [Inhabited α] (l : List α) : l = buf l.length (fun i => l.getD i default) := by
  apply List.ext_getElem?
  intro i
  rw [buf_getElem?]
  split
  · next h => simp [h]
  · next h => simp [h]

theorem buf_inj {n : Nat} {g g' : Nat → α} (h : buf n g = buf n g') {i : Nat} (hi : i < n) :
    g i = g' i := by
  have := congrArg (fun l => l[i]?) h
  simpa [hi] using this

theorem rd_buf {n : Nat} {g : Nat → α} {i : Nat} (h : i < n) : rd (buf n g) i = .ok (g i) := by
  simp [rd, h]

theorem rd_buf_ge {n : Nat} {g : Nat → α} {i : Nat} (h : n ≤ i) :
    rd (buf n g) i = .error .oob := by
  have : ¬ i < n := by omega
  simp [rd, this]

theorem wr_buf {n : Nat} {g : Nat → α} {i : Nat} (x : α) (h : i < n) :
    wr (buf n g) i x = .ok (buf n (fun j => if j = i then x else g j)) := by
  simp only [wr, buf_length, h, if_true]
  congr 1
  apply List.ext_getElem?
  intro j
  rw [List.getElem?_set, buf_getElem?, buf_getElem?]
  by_cases hj : i = j
  · subst hj; simp [h]
  · simp [hj, Ne.symm hj]

theorem Mem.cell_buf {m : Mem S} {h : Handle} {n : Nat} {g : Nat → S} (hm : m h = some (buf n g))
    (i : Nat) : m.cell h i = if i < n then some (g i) else none := by
  rw [Mem.cell_of_eq hm, buf_getElem?]

theorem Mem.shape_buf {m : Mem S} {h : Handle} {n : Nat} {g : Nat → S}
    (hm : m h = some (buf n g)) : m.shape h = some n := by
  rw [Mem.shape_of_eq hm, buf_length]

/-- A loop of programs whose body leaves the memory alone and returns a pure value. -/
theorem Prog.run_forN_pure {σ : Type} {n : Nat} {s : σ} {f : Nat → σ → Prog S σ} {m : Mem S}
    (g : Nat → σ → σ) (h : ∀ i t, i < n → (f i t).run m = .ok (g i t, m)) :
    (forN n s f).run m = .ok (foldN n s g, m) := by
  rw [Prog.run_forN]
  induction n with
  | zero => rfl
  | succ n ih =>
    rw [forN_succ, ih fun i t hi => h i t (by omega)]
    exact h n _ (by omega)

theorem foldN_congr {σ : Type _} {n : Nat} {s : σ} {f g : Nat → σ → σ}
    (h : ∀ i t, i < n → f i t = g i t) : foldN n s f = foldN n s g := by
  induction n with
  | zero => rfl
  | succ n ih =>
    simp only [foldN]
    rw [ih fun i t hi => h i t (by omega), h n _ (by omega)]

/-- Rule for sequential loops: after `k` iterations exactly the cells `owned` by iterations below `k`
have their final value. -/
theorem seqFor_cells {n : Nat} {body : Nat → Prog S Unit} {m : Mem S}
    (owner : Handle → Nat → Option Nat) (val : Handle → Nat → S)
    (hb : ∀ i m', i < n → m'.shape = m.shape →
      (∀ h j, m'.cell h j =
        (m.cell h j).map (fun v => if (owner h j).any (fun o => decide (o < i)) then val h j else v)) →
      ∃ m'', (body i).run m' = .ok ((), m'') ∧
        (∀ h j, m''.cell h j =
          (m'.cell h j).map (fun v => if owner h j = some i then val h j else v))) :
    ∃ m', seqFor n body m = .ok m' ∧ m'.shape = m.shape ∧
      ∀ h j, m'.cell h j =
        (m.cell h j).map (fun v => if (owner h j).any (fun o => decide (o < n)) then val h j else v) := by
  have := forN_inv (n := n) (s := m) (f := fun i m => do let r ← (body i).run m; pure r.2)
    (fun k m' => m'.shape = m.shape ∧ ∀ h j, m'.cell h j =
        (m.cell h j).map (fun v => if (owner h j).any (fun o => decide (o < k)) then val h j else v))
    ?_ ?_
  · obtain ⟨t, h1, h2, h3⟩ := this
    exact ⟨t, h1, h2, h3⟩
  · refine ⟨rfl, fun h j => ?_⟩
    cases m.cell h j <;> cases owner h j <;> simp
  · rintro i m' hi ⟨hs, hc⟩
    obtain ⟨m'', hrun, hc''⟩ := hb i m' hi hs hc
    refine ⟨m'', by simp [hrun], ?_, ?_⟩
    · rw [Prog.run_shape hrun, hs]
    · intro h j
      rw [hc'', hc]
      cases m.cell h j with
      | none => rfl
      | some v =>
        cases owner h j with
        | none => simp
        | some o =>
          simp only [Option.map_some, Option.any_some, decide_eq_true_eq, Option.some.injEq]
          by_cases h1 : o = i
          · subst h1; simp
          · by_cases h2 : o < i
            · have : o < i + 1 := by omega
              simp [h2, this]
            · have : ¬ o < i + 1 := by omega
              simp [h1, h2, this]

theorem Mem.cell_set (m : Mem S) (h : Handle) (l : List S) (h' : Handle) (j : Nat) :
    (m.set h l).cell h' j = if h' = h then l[j]? else m.cell h' j := by
  by_cases hh : h' = h
  · subst hh; simp [Mem.cell, Mem.set]
  · simp [Mem.cell, Mem.set, hh]

@[simp] theorem Mem.set_same (m : Mem S) (h : Handle) (l : List S) : (m.set h l) h = some l := by
  simp [Mem.set]

theorem Mem.set_ne (m : Mem S) {h h' : Handle} (l : List S) (hne : h' ≠ h) : (m.set h l) h' = m h' := by
  simp [Mem.set, hne]

@[simp] theorem Mem.set_set (m : Mem S) (h : Handle) (l l' : List S) :
    (m.set h l).set h l' = m.set h l' := by
  funext h'; by_cases hh : h' = h <;> simp [Mem.set, hh]

theorem Mem.shape_set {m : Mem S} {h : Handle} {l : List S} (hs : m.shape h = some l.length) :
    (m.set h l).shape = m.shape := by
  funext h'
  by_cases hh : h' = h
  · subst hh; rw [hs]; simp [Mem.shape, Mem.set]
  · simp [Mem.shape, Mem.set, hh]

/-- Loops in which iteration `i` writes exactly the cells of buffer `a` owned by `i`. -/
theorem seqFor_update {n N : Nat} {body : Nat → Prog S Unit} {m : Mem S} {a : Handle}
    (hs : m.shape a = some N) (own : Nat → Nat) (val : Nat → S)
    (hown : ∀ j, j < N → own j < n)
    (hb : ∀ i m', i < n → m'.shape = m.shape →
      (∀ h j, m'.cell h j =
        (m.cell h j).map (fun v => if h = a ∧ own j < i then val j else v)) →
      ∃ m'', (body i).run m' = .ok ((), m'') ∧
        (∀ h j, m''.cell h j =
          (m'.cell h j).map (fun v => if h = a ∧ own j = i then val j else v))) :
    seqFor n body m = .ok (m.set a (buf N val)) := by
  obtain ⟨m', hrun, hsh, hc⟩ := seqFor_cells (n := n) (body := body) (m := m)
    (fun h j => if h = a then some (own j) else none) (fun _ j => val j) (by
      intro i m' hi hs' hc'
      obtain ⟨m'', h1, h2⟩ := hb i m' hi hs' (by
        intro h j
        rw [hc']
        by_cases hh : h = a <;> simp [hh])
      refine ⟨m'', h1, fun h j => ?_⟩
      rw [h2]
      by_cases hh : h = a <;> simp [hh])
  rw [hrun]
  congr 1
  apply Mem.ext_cells
  · rw [hsh, Mem.shape_set (by simpa using hs)]
  · intro h j
    rw [hc, Mem.cell_set, buf_getElem?]
    by_cases hh : h = a
    · subst hh
      simp only [if_true, Option.any_some, decide_eq_true_eq]
      by_cases hj : j < N
      · have hsome : (m.cell h j).isSome := (Mem.isSome_cell_iff m h j).2 ⟨N, hs, hj⟩
        obtain ⟨w, hw⟩ := Option.isSome_iff_exists.1 hsome
        simp [hw, hown j hj, hj]
      · have : ¬ (m.cell h j).isSome := by
          rw [Mem.isSome_cell_iff]
          rintro ⟨N', h1, h2⟩
          rw [hs] at h1
          cases h1
          exact hj h2
        have hnone : m.cell h j = none := by simpa using this
        simp [hnone, hj]
    · simp only [hh, if_false, Option.any_none]
      cases m.cell h j <;> simp

end NB
