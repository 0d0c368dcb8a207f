import Verif.Lemmas.EngineSimple

/-
C06: `init` followed by `get_data` returns the positions and velocities unchanged.  Arbitrary scalars.
-/

namespace NB.C06

variable {S : Type}

/-- The six planes of the state buffer. -/
def planes (n : Nat) (p v : Nat → Vec3 S) (j : Nat) : S :=
  if j < n then (p j).x
  else if j < 2 * n then (p (j - n)).y
  else if j < 3 * n then (p (j - 2 * n)).z
  else if j < 4 * n then (v (j - 3 * n)).x
  else if j < 5 * n then (v (j - 4 * n)).y
  else (v (j - 5 * n)).z

lemma planes_at {n i : Nat} (p v : Nat → Vec3 S) (hi : i < n) :
    planes n p v i = (p i).x ∧ planes n p v (n + i) = (p i).y ∧ planes n p v (2 * n + i) = (p i).z ∧
    planes n p v (3 * n + i) = (v i).x ∧ planes n p v (4 * n + i) = (v i).y ∧
    planes n p v (5 * n + i) = (v i).z := by
  unfold planes
  refine ⟨?_, ?_, ?_, ?_, ?_, ?_⟩
  all_goals
    repeat rw [if_neg (by omega)]
    try rw [if_pos (by omega)]
    try simp only [Nat.add_sub_cancel_left]

/-- `init` succeeds (no access outside the two new buffers) and stores position `x` of body `i` at
element `i`, `y` at `n+i`, `z` at `2n+i`, the velocity at `3n+i`, `4n+i`, `5n+i`, and the masses; nothing
else changes.  The six planes are disjoint and fill the buffer. -/
theorem init_layout {n : Nat} {hm y : Handle} (hne : hm ≠ y) (p v : Nat → Vec3 S) (w : Nat → S)
    (g g' : List S) (hg : g.length = n) (hg' : g'.length = 6 * n) (m : Mem S) :
    engineInit n hm y (buf n p) (buf n v) (buf n w) g g' m =
      .ok ((m.set hm (buf n w)).set y (buf (6 * n) (planes n p v))) := by
  unfold engineInit
  have key := forN_inv (σ := Mem S) (n := n)
    (s := (fun h => if h = hm then some g else if h = y then some g' else m h : Mem S))
    (f := initBody n hm y (buf n p) (buf n v) (buf n w))
    (fun (k : Nat) (m' : Mem S) =>
      m'.shape = (fun h => if h = hm then some n else if h = y then some (6 * n) else m.shape h) ∧
      ∀ h j, m'.cell h j =
        if h = hm then (if j < k then some (w j) else g[j]?)
        else if h = y then
          (if j < 6 * n ∧ bodyOf n j < k then some (planes n p v j) else g'[j]?)
        else m.cell h j) ?_ ?_
  · obtain ⟨m', hrun, hs, hc⟩ := key
    rw [hrun]
    congr 1
    apply Mem.ext_cells
    · rw [hs]
      funext h
      by_cases h1 : h = hm
      · subst h1; simp [Mem.shape, Mem.set, hne]
      · by_cases h2 : h = y
        · subst h2; simp [Mem.shape, Mem.set, h1]
        · simp [Mem.shape, Mem.set, h1, h2]
    · intro h j
      rw [hc, Mem.cell_set, Mem.cell_set, buf_getElem?, buf_getElem?]
      by_cases h1 : h = hm
      · subst h1
        simp only [if_true, hne, if_false]
        by_cases hj : j < n
        · simp [hj]
        · simp [hj, hg]
      · by_cases h2 : h = y
        · subst h2
          simp only [h1, if_true, if_false]
          by_cases hj : j < 6 * n
          · have : bodyOf n j < n := Nat.mod_lt _ (by omega)
            simp [hj, this]
          · simp [hj, hg']
        · simp [h1, h2]
  · refine ⟨?_, ?_⟩
    · funext h
      by_cases h1 : h = hm
      · simp [Mem.shape, h1, hg]
      · by_cases h2 : h = y
        · subst h2; simp [Mem.shape, h1, hg']
        · simp [Mem.shape, h1, h2]
    · intro h j
      by_cases h1 : h = hm
      · simp [Mem.cell, h1]
      · by_cases h2 : h = y
        · simp [Mem.cell, h2, Ne.symm hne]
        · simp [Mem.cell, h1, h2]
  · rintro i m' hi ⟨hs, hc⟩
    have hy : ∀ j, j < 6 * n → (m'.cell y j).isSome := fun j hj =>
      (Mem.isSome_cell_iff _ _ _).2 ⟨6 * n, by rw [hs]; simp [Ne.symm hne], hj⟩
    have hmm : (m'.cell hm i).isSome :=
      (Mem.isSome_cell_iff _ _ _).2 ⟨n, by rw [hs]; simp, hi⟩
    refine ⟨((((((m'.setCell y i (p i).x).setCell y (n + i) (p i).y).setCell y (2 * n + i) (p i).z).setCell
      y (3 * n + i) (v i).x).setCell y (4 * n + i) (v i).y).setCell y (5 * n + i) (v i).z).setCell hm i
      (w i), ?_, ?_, ?_⟩
    · simp only [initBody, rd_buf hi, res_ok_bind, Prog.run_bind]
      rw [Prog.run_put _ (hy i (by omega)), res_ok_bind,
        Prog.run_put _ (by simpa using hy (n + i) (by omega)), res_ok_bind,
        Prog.run_put _ (by simpa using hy (2 * n + i) (by omega)), res_ok_bind,
        Prog.run_put _ (by simpa using hy (3 * n + i) (by omega)), res_ok_bind,
        Prog.run_put _ (by simpa using hy (4 * n + i) (by omega)), res_ok_bind,
        Prog.run_put _ (by simpa using hy (5 * n + i) (by omega)), res_ok_bind,
        Prog.run_put _ (by simpa using hmm)]
      rfl
    · simp only [Mem.shape_setCell]; exact hs
    · intro h j
      simp only [Mem.cell_setCell', Option.map_map, Function.comp_def]
      by_cases h1 : h = hm
      · subst h1
        rw [hc]
        simp only [hne, if_true, false_and, if_false, true_and]
        by_cases hj : j = i
        · subst hj
          have : j < g.length := by omega
          simp [this]
        · by_cases hj' : j < i
          · have : j < i + 1 := by omega
            simp [hj, hj', this]
          · have : ¬ j < i + 1 := by omega
            simp [hj, hj', this]
      · by_cases h2 : h = y
        · subst h2
          rw [hc]
          simp only [h1, if_true, false_and, if_false, true_and]
          by_cases hj : j < 6 * n
          · have hjl : j < g'.length := by omega
            simp only [hj, true_and]
            by_cases hb : bodyOf n j = i
            · have hcs := (bodyOf_eq hi hj).1 hb
              have e1 : ¬ bodyOf n j < i := by omega
              have e2 : bodyOf n j < i + 1 := by omega
              simp only [e1, e2, if_true, if_false, List.getElem?_eq_getElem hjl, Option.map_some]
              congr 1
              unfold planes
              split_ifs <;> first
                | omega
                | (subst j; simp only [Nat.add_sub_cancel_left])
            · have hb' := mt (bodyOf_eq hi hj).2 hb
              simp only [not_or] at hb'
              obtain ⟨b0, b1, b2, b3, b4, b5⟩ := hb'
              by_cases hlt : bodyOf n j < i
              · have : bodyOf n j < i + 1 := by omega
                simp [hlt, this, b0, b1, b2, b3, b4, b5]
              · have : ¬ bodyOf n j < i + 1 := by omega
                simp [hlt, this, b0, b1, b2, b3, b4, b5]
          · have hjl : ¬ j < g'.length := by omega
            simp [hj, hjl]
        · rw [hc]; simp [h1, h2]

lemma get_data_cells {n : Nat} {y : Handle} {Y : Nat → S} {m : Mem S}
    (hcell : ∀ j, j < 6 * n → m.cell y j = some (Y j)) (p v : Nat → Vec3 S) :
    engineGetData n y m (buf n p) (buf n v) =
      .ok (buf n (fun i => ⟨Y i, Y (n + i), Y (2 * n + i)⟩),
           buf n (fun i => ⟨Y (3 * n + i), Y (4 * n + i), Y (5 * n + i)⟩)) := by
  unfold engineGetData
  have key := forN_inv (n := n) (s := (buf n p, buf n v))
    (f := fun i s => do
      let r ← Prog.run (do
        let px ← Prog.get y i
        let py ← Prog.get y (n + i)
        let pz ← Prog.get y (2 * n + i)
        let ux ← Prog.get y (3 * n + i)
        let uy ← Prog.get y (4 * n + i)
        let uz ← Prog.get y (5 * n + i)
        pure ((⟨px, py, pz⟩ : Vec3 S), (⟨ux, uy, uz⟩ : Vec3 S))) m
      let vrt ← wr s.1 i r.1.1
      let vel ← wr s.2 i r.1.2
      pure (vrt, vel))
    (fun k t => t =
      (buf n (fun i => if i < k then ⟨Y i, Y (n + i), Y (2 * n + i)⟩ else p i),
       buf n (fun i => if i < k then ⟨Y (3 * n + i), Y (4 * n + i), Y (5 * n + i)⟩ else v i))) ?_ ?_
  · obtain ⟨t, hrun, ht⟩ := key
    rw [hrun, ht]
    congr 2
    · exact buf_congr fun i hi => by simp [hi]
    · exact buf_congr fun i hi => by simp [hi]
  · simp
  · rintro i t hi rfl
    refine ⟨_, ?_, rfl⟩
    simp only [Prog.run_bind, Prog.run_get (hcell i (by omega)), Prog.run_get (hcell (n + i) (by omega)),
      Prog.run_get (hcell (2 * n + i) (by omega)), Prog.run_get (hcell (3 * n + i) (by omega)),
      Prog.run_get (hcell (4 * n + i) (by omega)), Prog.run_get (hcell (5 * n + i) (by omega)),
      res_ok_bind, Prog.run_pure, wr_buf _ hi, res_pure]
    congr 2
    · apply buf_congr
      intro j _
      by_cases h1 : j = i
      · subst h1; simp
      · by_cases h2 : j < i
        · have : j < i + 1 := by omega
          simp [h1, h2, this]
        · have : ¬ j < i + 1 := by omega
          simp [h1, h2, this]
    · apply buf_congr
      intro j _
      by_cases h1 : j = i
      · subst h1; simp
      · by_cases h2 : j < i
        · have : j < i + 1 := by omega
          simp [h1, h2, this]
        · have : ¬ j < i + 1 := by omega
          simp [h1, h2, this]

/-- `get_data` reads exactly the six planes of the body. -/
theorem get_data_layout {n : Nat} {y : Handle} {Y : Nat → S} {m : Mem S}
    (hy : m y = some (buf (6 * n) Y)) (p v : Nat → Vec3 S) :
    engineGetData n y m (buf n p) (buf n v) =
      .ok (buf n (fun i => ⟨Y i, Y (n + i), Y (2 * n + i)⟩),
           buf n (fun i => ⟨Y (3 * n + i), Y (4 * n + i), Y (5 * n + i)⟩)) :=
  get_data_cells (fun j hj => by rw [Mem.cell_buf hy, if_pos hj]) p v

/-- Round trip: for every state, `init` then `get_data` into any data object with the same number of
bodies gives the original positions and velocities back, and the engine holds the original masses. -/
theorem init_get_data_round_trip {n : Nat} {hm y : Handle} (hne : hm ≠ y) (vrt vel : List (Vec3 S))
    (mass : List S) (hvrt : vrt.length = n) (hvel : vel.length = n) (hmass : mass.length = n)
    (g g' : List S) (hg : g.length = n) (hg' : g'.length = 6 * n) (m : Mem S)
    (vrt' vel' : List (Vec3 S)) (hvrt' : vrt'.length = n) (hvel' : vel'.length = n) :
    ∃ m1, engineInit n hm y vrt vel mass g g' m = .ok m1 ∧ m1 hm = some mass ∧
      engineGetData n y m1 vrt' vel' = .ok (vrt, vel) := by
  rcases n with _ | n
  · obtain rfl := List.length_eq_zero_iff.1 hvrt
    obtain rfl := List.length_eq_zero_iff.1 hvel
    obtain rfl := List.length_eq_zero_iff.1 hmass
    obtain rfl := List.length_eq_zero_iff.1 hg
    obtain rfl := List.length_eq_zero_iff.1 hvrt'
    obtain rfl := List.length_eq_zero_iff.1 hvel'
    exact ⟨_, rfl, by simp, rfl⟩
  · have : ∃ x, x ∈ mass := List.exists_mem_of_ne_nil _ (by rintro rfl; simp at hmass)
    obtain ⟨x, _⟩ := this
    have : Inhabited S := ⟨x⟩
    have : Inhabited (Vec3 S) := ⟨⟨x, x, x⟩⟩
    obtain ⟨p, hp⟩ : ∃ p, vrt = buf (n + 1) p := ⟨_, hvrt ▸ eq_buf vrt⟩
    obtain ⟨v, hv⟩ : ∃ p, vel = buf (n + 1) p := ⟨_, hvel ▸ eq_buf vel⟩
    obtain ⟨w, hw⟩ : ∃ p, mass = buf (n + 1) p := ⟨_, hmass ▸ eq_buf mass⟩
    obtain ⟨p', hp'⟩ : ∃ p, vrt' = buf (n + 1) p := ⟨_, hvrt' ▸ eq_buf vrt'⟩
    obtain ⟨v', hv'⟩ : ∃ p, vel' = buf (n + 1) p := ⟨_, hvel' ▸ eq_buf vel'⟩
    subst hp hv hw hp' hv'
    refine ⟨_, init_layout hne p v w g g' hg hg' m, ?_, ?_⟩
    · rw [Mem.set_ne _ _ hne]; simp
    · rw [get_data_layout (Y := planes (n + 1) p v) (by simp)]
      congr 2
      · apply buf_congr
        intro i hi
        obtain ⟨e0, e1, e2, _⟩ := planes_at p v hi
        rw [e0, e1, e2]
      · apply buf_congr
        intro i hi
        obtain ⟨_, _, _, e3, e4, e5⟩ := planes_at p v hi
        rw [e3, e4, e5]

/-- The round trip on two concrete bodies. -/
example : ∃ m1 : Mem Nat, engineInit 2 0 1 [⟨1, 2, 3⟩, ⟨4, 5, 6⟩] [⟨7, 8, 9⟩, ⟨10, 11, 12⟩] [13, 14]
      [0, 0] (List.replicate 12 0) (fun _ => none) = .ok m1 ∧ m1 0 = some [13, 14] ∧
    engineGetData 2 1 m1 [⟨0, 0, 0⟩, ⟨0, 0, 0⟩] [⟨0, 0, 0⟩, ⟨0, 0, 0⟩] =
      .ok ([⟨1, 2, 3⟩, ⟨4, 5, 6⟩], [⟨7, 8, 9⟩, ⟨10, 11, 12⟩]) :=
  init_get_data_round_trip (n := 2) (hm := 0) (y := 1) (by decide) [⟨1, 2, 3⟩, ⟨4, 5, 6⟩]
    [⟨7, 8, 9⟩, ⟨10, 11, 12⟩] [13, 14] rfl rfl rfl [0, 0] (List.replicate 12 0) rfl rfl _
    [⟨0, 0, 0⟩, ⟨0, 0, 0⟩] [⟨0, 0, 0⟩, ⟨0, 0, 0⟩] rfl rfl

/-- Reading back into a data object with fewer bodies writes outside its arrays. -/
theorem get_data_too_small {n : Nat} {y : Handle} {Y : Nat → S} {m : Mem S}
    (hy : m y = some (buf (6 * n) Y)) (vrt vel : List (Vec3 S)) (h : vrt.length < n) :
    engineGetData n y m vrt vel = .error .oob := by
  have hcell : ∀ j, j < 6 * n → m.cell y j = some (Y j) := fun j hj => by
    rw [Mem.cell_buf hy, if_pos hj]
  have key : ∀ k, k ≤ n → (∃ t, forN k (vrt, vel) (fun i s => do
      let r ← Prog.run (do
        let px ← Prog.get y i
        let py ← Prog.get y (n + i)
        let pz ← Prog.get y (2 * n + i)
        let ux ← Prog.get y (3 * n + i)
        let uy ← Prog.get y (4 * n + i)
        let uz ← Prog.get y (5 * n + i)
        pure ((⟨px, py, pz⟩ : Vec3 S), (⟨ux, uy, uz⟩ : Vec3 S))) m
      let vrt ← wr s.1 i r.1.1
      let vel ← wr s.2 i r.1.2
      pure (vrt, vel)) = (.ok t : Res _) ∧ t.1.length = vrt.length ∧ k ≤ vrt.length) ∨
      forN k (vrt, vel) (fun i s => do
      let r ← Prog.run (do
        let px ← Prog.get y i
        let py ← Prog.get y (n + i)
        let pz ← Prog.get y (2 * n + i)
        let ux ← Prog.get y (3 * n + i)
        let uy ← Prog.get y (4 * n + i)
        let uz ← Prog.get y (5 * n + i)
        pure ((⟨px, py, pz⟩ : Vec3 S), (⟨ux, uy, uz⟩ : Vec3 S))) m
      let vrt ← wr s.1 i r.1.1
      let vel ← wr s.2 i r.1.2
      pure (vrt, vel)) = .error .oob := by
    intro k hk
    induction k with
    | zero => exact Or.inl ⟨_, rfl, rfl, Nat.zero_le _⟩
    | succ k ih =>
      rcases ih (by omega) with ⟨t, ht, hl, hkl⟩ | he
      · rw [forN_succ, ht]
        simp only [res_ok_bind, Prog.run_bind, Prog.run_get (hcell k (by omega)),
          Prog.run_get (hcell (n + k) (by omega)), Prog.run_get (hcell (2 * n + k) (by omega)),
          Prog.run_get (hcell (3 * n + k) (by omega)), Prog.run_get (hcell (4 * n + k) (by omega)),
          Prog.run_get (hcell (5 * n + k) (by omega)), Prog.run_pure]
        by_cases h1 : k < t.1.length
        · simp only [wr, h1, if_true, res_ok_bind]
          by_cases h2 : k < t.2.length
          · left
            simp only [h2, if_true, res_ok_bind, res_pure]
            exact ⟨_, rfl, by simpa using hl, by omega⟩
          · right
            simp only [h2, if_false, res_err_bind]
        · right
          simp only [wr, h1, if_false, res_err_bind]
      · right
        rw [forN_succ, he, res_err_bind]
  rcases key n (Nat.le_refl n) with ⟨t, _, _, hkl⟩ | he
  · omega
  · exact he

end NB.C06
