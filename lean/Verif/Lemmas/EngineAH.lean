import Verif.Model.EngineAH
import Verif.Lemmas.EngineBlock

namespace NB

section
variable {S : Type} [Add S] [Sub S] [Mul S] [Neg S] [Div S] [Zero S] [One S] [FOps S]

/-- Element `idx` of the derivative buffer when the forces are `T`. -/
def rowDeriv (n : Nat) (Y M : Nat → S) (T : Nat → Vec3 S) (idx : Nat) : S :=
  if idx < 3 * n then Y (3 * n + idx)
  else if idx < 4 * n then (T (idx - 3 * n)).x / M (idx - 3 * n)
  else if idx < 5 * n then (T (idx - 4 * n)).y / M (idx - 4 * n)
  else (T (idx - 5 * n)).z / M (idx - 5 * n)

theorem derivVal_eq_rowDeriv (n : Nat) (Y M : Nat → S) :
    derivVal n Y M = rowDeriv n Y M (totalForce n Y M) := rfl

omit [Add S] [Sub S] [Mul S] [Neg S] [Zero S] [One S] [FOps S] in
theorem rowDeriv_cells {n i : Nat} {Y M : Nat → S} {T : Nat → Vec3 S} (hi : i < n) :
    rowDeriv n Y M T i = Y (3 * n + i) ∧
    rowDeriv n Y M T (n + i) = Y (4 * n + i) ∧
    rowDeriv n Y M T (2 * n + i) = Y (5 * n + i) ∧
    rowDeriv n Y M T (3 * n + i) = (T i).x / M i ∧
    rowDeriv n Y M T (4 * n + i) = (T i).y / M i ∧
    rowDeriv n Y M T (5 * n + i) = (T i).z / M i := by
  unfold rowDeriv
  refine ⟨?_, ?_, ?_, ?_, ?_, ?_⟩ <;> split_ifs <;> first
    | omega
    | (simp only [Nat.add_sub_cancel_left])
    | (congr 1; omega)

omit [Add S] [Sub S] [Mul S] [Neg S] [Zero S] [One S] [FOps S] in
theorem ahWrite_run {n : Nat} {hm y f : Handle} (hyf : y ≠ f) (hmf : hm ≠ f) {Y M : Nat → S}
    {m : Mem S} (hy : ∀ j, j < 6 * n → m.cell y j = some (Y j))
    (hM : ∀ j, j < n → m.cell hm j = some (M j)) (hf : m.shape f = some (6 * n))
    {i : Nat} (hi : i < n) (T : Nat → Vec3 S) :
    ∃ m'', (ahWrite n hm y f i (T i)).run m = .ok ((), m'') ∧
      ∀ h j, m''.cell h j =
        (m.cell h j).map (fun v => if h = f ∧ bodyOf n j = i then rowDeriv n Y M T j else v) := by
  have hfs : ∀ j, j < 6 * n → (m.cell f j).isSome := fun j hj =>
    (Mem.isSome_cell_iff m f j).2 ⟨_, hf, hj⟩
  refine ⟨((((((m.setCell f i (Y (3 * n + i))).setCell f (n + i) (Y (4 * n + i))).setCell f (2 * n + i)
        (Y (5 * n + i))).setCell f (3 * n + i) ((T i).x / M i)).setCell f (4 * n + i)
        ((T i).y / M i)).setCell f (5 * n + i) ((T i).z / M i)), ?_, ?_⟩
  · unfold ahWrite
    simp only [Prog.run_bind]
    rw [Prog.run_get (hy (3 * n + i) (by omega))]
    simp only [res_ok_bind]
    rw [Prog.run_put _ (hfs i (by omega))]
    simp only [res_ok_bind]
    rw [Prog.run_get (v := Y (4 * n + i)) (by simp [Mem.cell_setCell, hyf, hy (4 * n + i) (by omega)])]
    simp only [res_ok_bind]
    rw [Prog.run_put _ (by simpa using hfs (n + i) (by omega))]
    simp only [res_ok_bind]
    rw [Prog.run_get (v := Y (5 * n + i)) (by simp [Mem.cell_setCell, hyf, hy (5 * n + i) (by omega)])]
    simp only [res_ok_bind]
    rw [Prog.run_put _ (by simpa using hfs (2 * n + i) (by omega))]
    simp only [res_ok_bind]
    rw [Prog.run_get (v := M i) (by simp [Mem.cell_setCell, hmf, hM i hi])]
    simp only [res_ok_bind]
    rw [Prog.run_put _ (by simpa using hfs (3 * n + i) (by omega))]
    simp only [res_ok_bind]
    rw [Prog.run_put _ (by simpa using hfs (4 * n + i) (by omega))]
    simp only [res_ok_bind]
    rw [Prog.run_put _ (by simpa using hfs (5 * n + i) (by omega))]
  · intro h j
    simp only [Mem.cell_setCell', Option.map_map, Function.comp_def]
    by_cases hh : h = f
    · subst hh
      cases hw : m.cell h j with
      | none => rfl
      | some w =>
        have hj : j < 6 * n := by
          obtain ⟨N, h1, h2⟩ := (Mem.isSome_cell_iff m h j).1 (by rw [hw]; rfl)
          rw [hf] at h1; cases h1; exact h2
        simp only [Option.map_some, true_and]
        obtain ⟨d0, d1, d2, d3, d4, d5⟩ := rowDeriv_cells (Y := Y) (M := M) (T := T) hi
        rw [← d0, ← d1, ← d2, ← d3, ← d4, ← d5, six_cells hi hj]
    · simp [hh]

/-- Is `j` a neighbour of `i`? -/
def nearOf (p : AHParams S) (n : Nat) (Y M : Nat → S) (i j : Nat) : Bool :=
  ahNear p (posOf n Y i) (posOf n Y j) (force (posOf n Y i) (posOf n Y j) (M i) (M j))

/-- Neighbours of `i` in increasing order. -/
def nbrs (p : AHParams S) (n : Nat) (Y M : Nat → S) (i : Nat) : List Nat :=
  (List.range n).filter (fun j => decide (i ≠ j) && nearOf p n Y M i j)

/-- Far force on `i`, in the order of the code. -/
def farForce (p : AHParams S) (n : Nat) (Y M : Nat → S) (i : Nat) : Vec3 S :=
  foldN n 0 (fun j t => if i = j then t else if nearOf p n Y M i j then t
    else t + force (posOf n Y i) (posOf n Y j) (M i) (M j))

theorem ahScan (p : AHParams S) (n : Nat) (Y M : Nat → S) (i k : Nat) :
    foldN k (((0 : Vec3 S), ([] : List Nat)), (0 : Vec3 S)) (fun j r =>
      if i = j then r
      else if nearOf p n Y M i j then
        ((r.1.1, r.1.2 ++ [j]), r.2 + force (posOf n Y i) (posOf n Y j) (M i) (M j))
      else ((r.1.1 + force (posOf n Y i) (posOf n Y j) (M i) (M j), r.1.2),
        r.2 + force (posOf n Y i) (posOf n Y j) (M i) (M j))) =
    ((foldN k 0 (fun j t => if i = j then t else if nearOf p n Y M i j then t
        else t + force (posOf n Y i) (posOf n Y j) (M i) (M j)),
      (List.range k).filter (fun j => decide (i ≠ j) && nearOf p n Y M i j)),
     foldN k 0 (fun j t => if i = j then t
        else t + force (posOf n Y i) (posOf n Y j) (M i) (M j))) := by
  induction k with
  | zero => rfl
  | succ k ih =>
    simp only [foldN, ih, List.range_succ, List.filter_append]
    by_cases h : i = k
    · simp [h]
    · by_cases h2 : nearOf p n Y M i k
      · simp [h, h2]
      · simp [h, h2]

theorem ahFullBody_run (p : AHParams S) {n : Nat} {hm y f : Handle} (hyf : y ≠ f) (hmf : hm ≠ f)
    {Y M : Nat → S} {m : Mem S} (hy : ∀ j, j < 6 * n → m.cell y j = some (Y j))
    (hM : ∀ j, j < n → m.cell hm j = some (M j)) (hf : m.shape f = some (6 * n))
    {i : Nat} (hi : i < n) :
    ∃ m'', (ahFullBody p n hm y f i).run m = .ok ((farForce p n Y M i, nbrs p n Y M i), m'') ∧
      ∀ h j, m''.cell h j =
        (m.cell h j).map (fun v => if h = f ∧ bodyOf n j = i then derivVal n Y M j else v) := by
  obtain ⟨m'', hw, hc⟩ := ahWrite_run hyf hmf hy hM hf hi (totalForce n Y M)
  refine ⟨m'', ?_, hc⟩
  have hloop : (forN n (((0 : Vec3 S), ([] : List Nat)), (0 : Vec3 S)) (fun body2 r =>
      if i = body2 then pure r
      else do
        let x2 ← Prog.get y body2
        let y2 ← Prog.get y (n + body2)
        let z2 ← Prog.get y (2 * n + body2)
        let m1 ← Prog.get hm i
        let m2 ← Prog.get hm body2
        let v2 : Vec3 S := ⟨x2, y2, z2⟩
        let fc := force (posOf n Y i) v2 m1 m2
        if ahNear p (posOf n Y i) v2 fc then pure ((r.1.1, r.1.2 ++ [body2]), r.2 + fc)
        else pure ((r.1.1 + fc, r.1.2), r.2 + fc))).run m
      = .ok (((farForce p n Y M i, nbrs p n Y M i), totalForce n Y M i), m) := by
    unfold farForce nbrs totalForce
    rw [← ahScan]
    apply Prog.run_forN_pure
    intro j t hj
    by_cases hij : i = j
    · simp [hij]
    · simp only [hij, if_false]
      simp only [Prog.run_bind, Prog.run_get (hy j (by omega)), Prog.run_get (hy (n + j) (by omega)),
        Prog.run_get (hy (2 * n + j) (by omega)), Prog.run_get (hM i hi), Prog.run_get (hM j hj),
        res_ok_bind]
      have hp : (⟨Y j, Y (n + j), Y (2 * n + j)⟩ : Vec3 S) = posOf n Y j := rfl
      rw [hp]
      unfold nearOf
      split_ifs <;> rfl
  unfold ahFullBody
  simp only [Prog.run_bind, Prog.run_get (hy i (by omega)), Prog.run_get (hy (n + i) (by omega)),
      Prog.run_get (hy (2 * n + i) (by omega)), res_ok_bind]
  have hp : (⟨Y i, Y (n + i), Y (2 * n + i)⟩ : Vec3 S) = posOf n Y i := rfl
  rw [hp, hloop]
  simp only [res_ok_bind]
  rw [hw]
  rfl

/-- The vectors after the full computation. -/
def ahStateOf (p : AHParams S) (n : Nat) (Y M : Nat → S) : AHState S :=
  ⟨buf n (farForce p n Y M), buf n (nbrs p n Y M)⟩

omit [Add S] [Sub S] [Mul S] [Neg S] [Div S] [Zero S] [One S] [FOps S] in
theorem replicate_buf {α : Type _} (n : Nat) (a : α) : List.replicate n a = buf n (fun _ => a) := by
  apply List.ext_getElem?
  intro i
  rw [buf_getElem?, List.getElem?_replicate]

theorem ahFull_eq (p : AHParams S) {n : Nat} {hm y f : Handle} (hyf : y ≠ f) (hmf : hm ≠ f) {Y M : Nat → S}
    {m : Mem S} (hy : m y = some (buf (6 * n) Y)) (hM : m hm = some (buf n M))
    (hf : m.shape f = some (6 * n)) :
    ahFull p n hm y f m = .ok (ahStateOf p n Y M, m.set f (buf (6 * n) (derivVal n Y M))) := by
  have key := forN_inv (σ := AHState S × Mem S) (n := n)
    (s := ((⟨List.replicate n 0, List.replicate n []⟩ : AHState S), m))
    (f := fun body1 s => do
      let r ← (ahFullBody p n hm y f body1).run s.2
      let univ ← wr s.1.univ body1 r.1.1
      let adj ← wr s.1.adj body1 r.1.2
      pure (⟨univ, adj⟩, r.2))
    (fun k s => s.1.univ = buf n (fun i => if i < k then farForce p n Y M i else 0) ∧
      s.1.adj = buf n (fun i => if i < k then nbrs p n Y M i else []) ∧
      s.2.shape = m.shape ∧
      ∀ h j, s.2.cell h j =
        (m.cell h j).map (fun v => if h = f ∧ bodyOf n j < k then derivVal n Y M j else v))
    ⟨by simp [replicate_buf], by simp [replicate_buf], rfl, fun h j => by cases m.cell h j <;> simp⟩ ?_
  · obtain ⟨⟨⟨u, a⟩, m'⟩, hrun, h1, h2, h3, h4⟩ := key
    unfold ahFull
    refine hrun.trans ?_
    simp only at h1 h2 h3 h4
    have e1 : u = buf n (farForce p n Y M) := by
      rw [h1]; exact buf_congr fun i hi => by rw [if_pos hi]
    have e2 : a = buf n (nbrs p n Y M) := by
      rw [h2]; exact buf_congr fun i hi => by rw [if_pos hi]
    have e3 : m' = m.set f (buf (6 * n) (derivVal n Y M)) := by
      apply Mem.ext_cells
      · rw [h3, Mem.shape_set (by simpa using hf)]
      · intro h j
        rw [h4, Mem.cell_set, buf_getElem?]
        by_cases hh : h = f
        · subst hh
          by_cases hj : j < 6 * n
          · have hsome : (m.cell h j).isSome := (Mem.isSome_cell_iff m h j).2 ⟨_, hf, hj⟩
            obtain ⟨w, hw⟩ := Option.isSome_iff_exists.1 hsome
            have : bodyOf n j < n := Nat.mod_lt _ (by omega)
            simp [hw, hj, this]
          · have : ¬ (m.cell h j).isSome := by
              rw [Mem.isSome_cell_iff]
              rintro ⟨N', g1, g2⟩
              rw [hf] at g1; cases g1; exact hj g2
            have hnone : m.cell h j = none := by simpa using this
            simp [hnone, hj]
        · cases m.cell h j <;> simp [hh]
    rw [e1, e2, e3]
    rfl
  · rintro i ⟨⟨u, a⟩, m'⟩ hi ⟨h1, h2, h3, h4⟩
    simp only at h1 h2 h3 h4
    obtain ⟨m'', hb, hc⟩ := ahFullBody_run p hyf hmf (Y := Y) (M := M) (m := m')
      (by intro j hj; rw [cell_other h4 hyf, Mem.cell_buf hy]; simp [hj])
      (by intro j hj; rw [cell_other h4 hmf, Mem.cell_buf hM]; simp [hj])
      (by rw [h3, hf]) hi
    refine ⟨(⟨buf n (fun k => if k < i + 1 then farForce p n Y M k else 0),
      buf n (fun k => if k < i + 1 then nbrs p n Y M k else [])⟩, m''), ?_, rfl, rfl, ?_, ?_⟩
    · simp only [hb, res_ok_bind, h1, h2, wr_buf _ hi, res_pure]
      congr 3
      · apply buf_congr
        intro k _
        by_cases hk : k = i
        · subst hk; simp
        · have : k < i + 1 ↔ k < i := by omega
          simp [hk, this]
      · apply buf_congr
        intro k _
        by_cases hk : k = i
        · subst hk; simp
        · have : k < i + 1 ↔ k < i := by omega
          simp [hk, this]
    · rw [Prog.run_shape hb, h3]
    · intro h j
      simp only [hc, h4, Option.map_map]
      cases m.cell h j with
      | none => rfl
      | some v =>
        simp only [Option.map_some, Function.comp]
        by_cases hh : h = f
        · by_cases hk : bodyOf n j = i
          · have : bodyOf n j < i + 1 := by omega
            simp [hh, hk]
          · have : bodyOf n j < i + 1 ↔ bodyOf n j < i := by omega
            simp [hh, hk, this]
        · simp [hh]

/-- The force that `fcompute_sparse` accumulates on body `i`. -/
def sparseForce (n : Nat) (Y M : Nat → S) (i : Nat) (u : Vec3 S) (l : List Nat) : Vec3 S :=
  l.foldl (fun t j => t + force (posOf n Y i) (posOf n Y j) (M i) (M j)) u

theorem ahSparseSum_run {n : Nat} {hm y : Handle} {Y M : Nat → S}
    {m : Mem S} (hy : ∀ j, j < 6 * n → m.cell y j = some (Y j))
    (hM : ∀ j, j < n → m.cell hm j = some (M j))
    {i : Nat} (hi : i < n) (l : List Nat) (hl : ∀ j ∈ l, j < n) (u : Vec3 S) :
    (ahSparseSum n hm y i (posOf n Y i) l u).run m = .ok (sparseForce n Y M i u l, m) := by
  induction l generalizing u with
  | nil => rfl
  | cons j l ih =>
    have hj := hl j (by simp)
    unfold ahSparseSum
    simp only [Prog.run_bind, Prog.run_get (hy j (by omega)), Prog.run_get (hy (n + j) (by omega)),
        Prog.run_get (hy (2 * n + j) (by omega)), Prog.run_get (hM i hi), Prog.run_get (hM j hj),
        res_ok_bind]
    have hp : (⟨Y j, Y (n + j), Y (2 * n + j)⟩ : Vec3 S) = posOf n Y j := rfl
    rw [hp, ih (fun k hk => hl k (by simp [hk]))]
    rfl

/-- `fcompute_sparse` with vectors of the right length whose indices are bodies. -/
theorem ahSparse_eq {n : Nat} {hm y f : Handle} (hyf : y ≠ f) (hmf : hm ≠ f) {Y M : Nat → S}
    {m : Mem S} (hy : m y = some (buf (6 * n) Y)) (hM : m hm = some (buf n M))
    (hf : m.shape f = some (6 * n)) {U : Nat → Vec3 S} {L : Nat → List Nat}
    (hL : ∀ i, i < n → ∀ j ∈ L i, j < n) :
    ahSparse n hm y f ⟨buf n U, buf n L⟩ m =
      .ok (m.set f (buf (6 * n) (rowDeriv n Y M (fun i => sparseForce n Y M i (U i) (L i))))) := by
  have hcg : ahSparse n hm y f ⟨buf n U, buf n L⟩ m =
      seqFor n (fun i => ahSparseBody n hm y f (U i) (L i) i) m := by
    unfold ahSparse seqFor
    apply forN_congr
    intro i t hi
    rw [rd_buf hi, rd_buf hi]
    rfl
  rw [hcg]
  apply seqFor_update hf (bodyOf n)
  · intro j hj
    exact Nat.mod_lt _ (by omega)
  · intro i m' hi hs hc
    have hy' : ∀ j, j < 6 * n → m'.cell y j = some (Y j) := by
      intro j hj; rw [cell_other hc hyf, Mem.cell_buf hy]; simp [hj]
    have hM' : ∀ j, j < n → m'.cell hm j = some (M j) := by
      intro j hj; rw [cell_other hc hmf, Mem.cell_buf hM]; simp [hj]
    obtain ⟨m'', hw, hc'⟩ := ahWrite_run hyf hmf hy' hM' (by rw [hs, hf]) hi
      (fun i => sparseForce n Y M i (U i) (L i))
    refine ⟨m'', ?_, hc'⟩
    unfold ahSparseBody
    simp only [Prog.run_bind, Prog.run_get (hy' i (by omega)), Prog.run_get (hy' (n + i) (by omega)),
      Prog.run_get (hy' (2 * n + i) (by omega)), res_ok_bind]
    have hp : (⟨Y i, Y (n + i), Y (2 * n + i)⟩ : Vec3 S) = posOf n Y i := rfl
    rw [hp, ahSparseSum_run hy' hM' hi (L i) (hL i hi)]
    exact hw

theorem nbrs_lt (p : AHParams S) (n : Nat) (Y M : Nat → S) (i : Nat) : ∀ j ∈ nbrs p n Y M i, j < n := by
  intro j hj
  simpa using (List.mem_filter.1 hj).1

end

end NB
