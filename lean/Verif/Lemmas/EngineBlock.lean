import Verif.Model.EngineBlock
import Verif.Lemmas.ParEngine

namespace NB

section Pure
variable {α : Type _}

theorem foldN_upd_inner (B b1 : Nat) (t : Nat → α) (g : Nat → α → α) (b : Nat) :
    foldN B t (fun b2 t => upd t b1 (g b2 (t b1))) b =
      if b = b1 then foldN B (t b1) g else t b := by
  induction B generalizing b with
  | zero => simp only [foldN]; split <;> simp_all
  | succ B ih =>
    simp only [foldN]
    rw [upd, ih b1, ih b]
    simp only [if_true]
    split <;> simp_all

theorem foldN_upd (B : Nat) (t : Nat → α) (C : Nat) (g : Nat → Nat → α → α) (b : Nat) :
    foldN B t (fun b1 t => foldN C t (fun b2 t => upd t b1 (g b1 b2 (t b1)))) b =
      if b < B then foldN C (t b) (g b) else t b := by
  induction B generalizing b with
  | zero => simp [foldN]
  | succ B ih =>
    simp only [foldN]
    rw [foldN_upd_inner (g := g B), ih B, ih b]
    by_cases h : b = B
    · subst h; simp
    · by_cases h' : b < B
      · have : b < B + 1 := by omega
        simp [h, h', this]
      · have : ¬ b < B + 1 := by omega
        simp [h, h', this]

theorem foldN_upd_load (B : Nat) (t : Nat → α) (g : Nat → α) (b : Nat) :
    foldN B t (fun i t => upd t i (g i)) b = if b < B then g b else t b := by
  induction B with
  | zero => simp [foldN]
  | succ B ih =>
    simp only [foldN, upd, ih]
    by_cases h : b = B
    · subst h; simp
    · by_cases h' : b < B
      · have : b < B + 1 := by omega
        simp [h, h', this]
      · have : ¬ b < B + 1 := by omega
        simp [h, h', this]

end Pure

theorem six_cells {α : Type _} {n i j : Nat} (hi : i < n) (hj : j < 6 * n) (w : α) (D : Nat → α) :
    (if j = 5 * n + i then D (5 * n + i) else if j = 4 * n + i then D (4 * n + i) else
      if j = 3 * n + i then D (3 * n + i) else if j = 2 * n + i then D (2 * n + i) else
      if j = n + i then D (n + i) else if j = i then D i else w) =
    if bodyOf n j = i then D j else w := by
  by_cases hb : bodyOf n j = i
  · rw [if_pos hb]
    have hcs := (bodyOf_eq hi hj).1 hb
    rcases hcs with h | h | h | h | h | h <;> split_ifs <;> first | omega | simp [h]
  · rw [if_neg hb]
    have hb' := mt (bodyOf_eq hi hj).2 hb
    simp only [not_or] at hb'
    obtain ⟨b0, b1, b2, b3, b4, b5⟩ := hb'
    simp only [b0, b1, b2, b3, b4, b5, if_false]

section
variable {S : Type} [Add S] [Sub S] [Mul S] [Neg S] [Div S] [Zero S] [FOps S]

/-- The accumulated acceleration of body `i`, in the order of the code. -/
def blockAcc (block blocks n : Nat) (Y M : Nat → S) (i : Nat) : Vec3 S :=
  foldN blocks 0 (fun k2 t => foldN block t (fun b2 t =>
    blockTerm t (posOf n Y i) (posOf n Y (b2 + k2 * block)) (M (k2 * block + b2))))

/-- Element `idx` of the derivative buffer. -/
def blockDeriv (block blocks n : Nat) (Y M : Nat → S) (idx : Nat) : S :=
  if idx < 3 * n then Y (3 * n + idx)
  else if idx < 4 * n then (blockAcc block blocks n Y M (idx - 3 * n)).x
  else if idx < 5 * n then (blockAcc block blocks n Y M (idx - 4 * n)).y
  else (blockAcc block blocks n Y M (idx - 5 * n)).z

theorem blockTotal_eq (block blocks n : Nat) (Y M : Nat → S) (p1 : Nat → Vec3 S) (k1 : Nat)
    (hp1 : ∀ b, b < block → p1 b = posOf n Y (b + k1 * block)) (b : Nat) (hb : b < block) :
    foldN blocks (fun _ => (0 : Vec3 S)) (fun k2 total =>
      foldN block total (fun b1 total => foldN block total (fun b2 total =>
        upd total b1 (blockTerm (total b1) (p1 b1)
          (foldN block (fun _ => ((0 : Vec3 S), (0 : S)))
            (fun i t => upd t i (posOf n Y (i + k2 * block), M (k2 * block + i))) b2).1
          (foldN block (fun _ => ((0 : Vec3 S), (0 : S)))
            (fun i t => upd t i (posOf n Y (i + k2 * block), M (k2 * block + i))) b2).2)))) b
      = blockAcc block blocks n Y M (b + k1 * block) := by
  unfold blockAcc
  induction blocks with
  | zero => rfl
  | succ K ih =>
    simp only [foldN]
    rw [foldN_upd block _ block (fun b1 b2 tb => blockTerm tb (p1 b1)
          (foldN block (fun _ => ((0 : Vec3 S), (0 : S)))
            (fun i t => upd t i (posOf n Y (i + K * block), M (K * block + i))) b2).1
          (foldN block (fun _ => ((0 : Vec3 S), (0 : S)))
            (fun i t => upd t i (posOf n Y (i + K * block), M (K * block + i))) b2).2), if_pos hb, ih]
    apply foldN_congr
    intro b2 t hb2
    rw [foldN_upd_load, if_pos hb2, hp1 b hb]

theorem blockDeriv_cells {block blocks n i : Nat} {Y M : Nat → S} (hi : i < n) {A : Vec3 S}
    (hA : A = blockAcc block blocks n Y M i) :
    blockDeriv block blocks n Y M i = Y (3 * n + i) ∧
    blockDeriv block blocks n Y M (n + i) = Y (4 * n + i) ∧
    blockDeriv block blocks n Y M (2 * n + i) = Y (5 * n + i) ∧
    blockDeriv block blocks n Y M (3 * n + i) = A.x ∧
    blockDeriv block blocks n Y M (4 * n + i) = A.y ∧
    blockDeriv block blocks n Y M (5 * n + i) = A.z := by
  subst hA
  unfold blockDeriv
  refine ⟨?_, ?_, ?_, ?_, ?_, ?_⟩ <;> split_ifs <;> first
    | omega
    | (simp only [Nat.add_sub_cancel_left])
    | (congr 1; omega)

/-- The final loop: writing the derivative of one block. -/
theorem blockWrite_run {block blocks : Nat} (hb0 : 0 < block) {y f : Handle} (hyf : y ≠ f) {Y M : Nat → S}
    {n : Nat} {m : Mem S} (hy : ∀ j, j < 6 * n → m.cell y j = some (Y j))
    (hf : m.shape f = some (6 * n)) {k1 : Nat} (hlt : ∀ b, b < block → b + k1 * block < n)
    {total : Nat → Vec3 S}
    (htot : ∀ b, b < block → total b = blockAcc block blocks n Y M (b + k1 * block)) :
    ∃ m'', (forN block () (fun b1 _ => do
      let vx ← Prog.get y (3 * n + (b1 + k1 * block))
      Prog.put f (b1 + k1 * block) vx
      let vy ← Prog.get y (4 * n + (b1 + k1 * block))
      Prog.put f (n + (b1 + k1 * block)) vy
      let vz ← Prog.get y (5 * n + (b1 + k1 * block))
      Prog.put f (2 * n + (b1 + k1 * block)) vz
      Prog.put f (3 * n + (b1 + k1 * block)) (total b1).x
      Prog.put f (4 * n + (b1 + k1 * block)) (total b1).y
      Prog.put f (5 * n + (b1 + k1 * block)) (total b1).z : Nat → Unit → Prog S Unit)).run m = .ok ((), m'') ∧
      ∀ h j, m''.cell h j =
        (m.cell h j).map (fun v => if h = f ∧ bodyOf n j / block = k1
          then blockDeriv block blocks n Y M j else v) := by
  have hw := forN_inv (σ := Unit × Mem S) (n := block) (s := ((), m))
    (f := fun b1 r => (do
      let vx ← Prog.get y (3 * n + (b1 + k1 * block))
      Prog.put f (b1 + k1 * block) vx
      let vy ← Prog.get y (4 * n + (b1 + k1 * block))
      Prog.put f (n + (b1 + k1 * block)) vy
      let vz ← Prog.get y (5 * n + (b1 + k1 * block))
      Prog.put f (2 * n + (b1 + k1 * block)) vz
      Prog.put f (3 * n + (b1 + k1 * block)) (total b1).x
      Prog.put f (4 * n + (b1 + k1 * block)) (total b1).y
      Prog.put f (5 * n + (b1 + k1 * block)) (total b1).z : Prog S Unit).run r.2)
    (fun k r => r.2.shape = m.shape ∧ ∀ h j, r.2.cell h j = (m.cell h j).map (fun v =>
      if h = f ∧ bodyOf n j / block = k1 ∧ bodyOf n j % block < k then blockDeriv block blocks n Y M j else v))
    ⟨rfl, fun h j => by cases m.cell h j <;> simp⟩ ?_
  · obtain ⟨⟨⟨⟩, m''⟩, hrun, _, hc⟩ := hw
    refine ⟨m'', ?_, ?_⟩
    · rw [Prog.run_forN]
      exact hrun
    · intro h j
      rw [hc]
      cases m.cell h j with
      | none => rfl
      | some v =>
        simp only [Option.map_some]
        have := Nat.mod_lt (bodyOf n j) hb0
        simp [this]
  · rintro b ⟨⟨⟩, m'⟩ hb ⟨hs, hc⟩
    simp only at hs hc ⊢
    have hi := hlt b hb
    obtain ⟨i, hidef⟩ : ∃ i, i = b + k1 * block := ⟨_, rfl⟩
    have htb := htot b hb
    rw [← hidef] at hi htb ⊢
    have hfs : ∀ j, j < 6 * n → (m'.cell f j).isSome := fun j hj =>
      (Mem.isSome_cell_iff m' f j).2 ⟨_, by rw [hs, hf], hj⟩
    have hy' : ∀ j, j < 6 * n → m'.cell y j = some (Y j) := by
      intro j hj
      rw [hc, hy j hj]; simp [hyf]
    refine ⟨((), ((((((m'.setCell f i (Y (3 * n + i))).setCell f (n + i) (Y (4 * n + i))).setCell f (2 * n + i)
        (Y (5 * n + i))).setCell f (3 * n + i) (total b).x).setCell f (4 * n + i)
        (total b).y).setCell f (5 * n + i) (total b).z)), ?_, ?_, ?_⟩
    · simp only [Prog.run_bind, Prog.run_get (hy' (3 * n + i) (by omega)), res_ok_bind]
      rw [Prog.run_put _ (hfs i (by omega))]
      simp only [res_ok_bind]
      rw [Prog.run_get (v := Y (4 * n + i)) (by simp [Mem.cell_setCell, hyf, hy' (4 * n + i) (by omega)])]
      simp only [res_ok_bind]
      rw [Prog.run_put _ (by simpa using hfs (n + i) (by omega))]
      simp only [res_ok_bind]
      rw [Prog.run_get (v := Y (5 * n + i)) (by simp [Mem.cell_setCell, hyf, hy' (5 * n + i) (by omega)])]
      simp only [res_ok_bind]
      rw [Prog.run_put _ (by simpa using hfs (2 * n + i) (by omega))]
      simp only [res_ok_bind]
      rw [Prog.run_put _ (by simpa using hfs (3 * n + i) (by omega))]
      simp only [res_ok_bind]
      rw [Prog.run_put _ (by simpa using hfs (4 * n + i) (by omega))]
      simp only [res_ok_bind]
      rw [Prog.run_put _ (by simpa using hfs (5 * n + i) (by omega))]
    · simp [hs]
    · intro h j
      simp only [Mem.cell_setCell', Option.map_map, Function.comp_def]
      rw [hc]
      by_cases hh : h = f
      · subst hh
        cases hw : m.cell h j with
        | none => rfl
        | some w =>
          have hj : j < 6 * n := by
            obtain ⟨N, h1, h2⟩ := (Mem.isSome_cell_iff m h j).1 (by rw [hw]; rfl)
            rw [hf] at h1; cases h1; exact h2
          simp only [Option.map_some, true_and]
          congr 1
          have hdm : bodyOf n j = i ↔ bodyOf n j / block = k1 ∧ bodyOf n j % block = b := by
            constructor
            · intro h
              rw [h, hidef]
              constructor
              · rw [Nat.add_mul_div_right _ _ (by omega), Nat.div_eq_of_lt hb, Nat.zero_add]
              · rw [Nat.add_mul_mod_self_right, Nat.mod_eq_of_lt hb]
            · rintro ⟨h1, h2⟩
              have := Nat.div_add_mod (bodyOf n j) block
              rw [h1, h2, Nat.mul_comm] at this
              omega
          obtain ⟨d0, d1, d2, d3, d4, d5⟩ := blockDeriv_cells (block := block) (blocks := blocks) (Y := Y)
            (M := M) hi htb
          rw [← d0, ← d1, ← d2, ← d3, ← d4, ← d5, six_cells hi hj]
          by_cases hbd : bodyOf n j = i
          · obtain ⟨e1, e2⟩ := hdm.1 hbd
            have e3 : bodyOf n j % block < b + 1 := by omega
            rw [if_pos (show bodyOf n j / block = k1 ∧ bodyOf n j % block < b + 1 from ⟨e1, e3⟩), if_pos hbd]
          · rw [if_neg hbd]
            by_cases hq : bodyOf n j / block = k1
            · have hr : bodyOf n j % block ≠ b := fun h => hbd (hdm.2 ⟨hq, h⟩)
              by_cases hlt' : bodyOf n j % block < b
              · have : bodyOf n j % block < b + 1 := by omega
                simp [hq, hlt', this]
              · have : ¬ bodyOf n j % block < b + 1 := by omega
                simp [hlt', this]
            · simp [hq]
      · simp [hh]

/-- What the body does to memory. -/
theorem blockBody_run {block blocks : Nat} (hb0 : 0 < block) {hm y f : Handle} (hyf : y ≠ f) {Y M : Nat → S}
    {n : Nat} (hn : n = blocks * block)
    {m : Mem S} (hy : ∀ j, j < 6 * n → m.cell y j = some (Y j))
    (hM : ∀ j, j < n → m.cell hm j = some (M j)) (hf : m.shape f = some (6 * n))
    {k1 : Nat} (hk : k1 < blocks) :
    ∃ m'', (blockBody block blocks n hm y f k1).run m = .ok ((), m'') ∧
      ∀ h j, m''.cell h j =
        (m.cell h j).map (fun v => if h = f ∧ bodyOf n j / block = k1
          then blockDeriv block blocks n Y M j else v) := by
  have hlt : ∀ k b, k < blocks → b < block → b + k * block < n := by
    intro k b hk hb
    have : k * block + block ≤ blocks * block := by
      rw [← Nat.succ_mul]; exact Nat.mul_le_mul_right _ hk
    omega
  -- loading the first block
  have h1 : (forN block (fun (_ : Nat) => (0 : Vec3 S)) (fun b1 p => do
      let x ← Prog.get y (b1 + k1 * block)
      let yy ← Prog.get y (n + (b1 + k1 * block))
      let z ← Prog.get y (2 * n + (b1 + k1 * block))
      pure (upd p b1 ⟨x, yy, z⟩))).run m =
      .ok (foldN block (fun _ => (0 : Vec3 S)) (fun i t => upd t i (posOf n Y (i + k1 * block))), m) := by
    apply Prog.run_forN_pure
    intro b t hb
    have := hlt k1 b hk hb
    simp only [Prog.run_bind, Prog.run_get (hy (b + k1 * block) (by omega)),
      Prog.run_get (hy (n + (b + k1 * block)) (by omega)),
      Prog.run_get (hy (2 * n + (b + k1 * block)) (by omega)), res_ok_bind, Prog.run_pure]
    rfl
  have h2 : ∀ p1 : Nat → Vec3 S, (forN blocks (fun (_ : Nat) => (0 : Vec3 S)) (fun k2 total => do
      let pm2 ← forN block (fun (_ : Nat) => ((0 : Vec3 S), (0 : S))) (fun b2 p => do
        let x ← Prog.get y (b2 + k2 * block)
        let yy ← Prog.get y (n + (b2 + k2 * block))
        let z ← Prog.get y (2 * n + (b2 + k2 * block))
        let m ← Prog.get hm (k2 * block + b2)
        pure (upd p b2 (⟨x, yy, z⟩, m)))
      pure (foldN block total (fun b1 total =>
        foldN block total (fun b2 total =>
          upd total b1 (blockTerm (total b1) (p1 b1) (pm2 b2).1 (pm2 b2).2)))))).run m =
      .ok (foldN blocks (fun _ => (0 : Vec3 S)) (fun k2 total =>
        foldN block total (fun b1 total => foldN block total (fun b2 total =>
          upd total b1 (blockTerm (total b1) (p1 b1)
            (foldN block (fun _ => ((0 : Vec3 S), (0 : S)))
              (fun i t => upd t i (posOf n Y (i + k2 * block), M (k2 * block + i))) b2).1
            (foldN block (fun _ => ((0 : Vec3 S), (0 : S)))
              (fun i t => upd t i (posOf n Y (i + k2 * block), M (k2 * block + i))) b2).2)))), m) := by
    intro p1
    apply Prog.run_forN_pure
    intro k2 t hk2
    have hl : (forN block (fun (_ : Nat) => ((0 : Vec3 S), (0 : S))) (fun b2 p => do
        let x ← Prog.get y (b2 + k2 * block)
        let yy ← Prog.get y (n + (b2 + k2 * block))
        let z ← Prog.get y (2 * n + (b2 + k2 * block))
        let m ← Prog.get hm (k2 * block + b2)
        pure (upd p b2 (⟨x, yy, z⟩, m)))).run m =
        .ok (foldN block (fun _ => ((0 : Vec3 S), (0 : S)))
          (fun i t => upd t i (posOf n Y (i + k2 * block), M (k2 * block + i))), m) := by
      apply Prog.run_forN_pure
      intro b t hb
      have := hlt k2 b hk2 hb
      simp only [Prog.run_bind, Prog.run_get (hy (b + k2 * block) (by omega)),
        Prog.run_get (hy (n + (b + k2 * block)) (by omega)),
        Prog.run_get (hy (2 * n + (b + k2 * block)) (by omega)),
        Prog.run_get (hM (k2 * block + b) (by omega)), res_ok_bind, Prog.run_pure]
      rfl
    rw [Prog.run_bind, hl, res_ok_bind, Prog.run_pure]
  obtain ⟨m'', hrun, hc⟩ := blockWrite_run (block := block) (blocks := blocks) hb0 hyf (M := M) hy hf
    (fun b hb => hlt k1 b hk hb)
    (fun b hb => blockTotal_eq block blocks n Y M
      (foldN block (fun _ => (0 : Vec3 S)) (fun i t => upd t i (posOf n Y (i + k1 * block)))) k1
      (fun b hb => by rw [foldN_upd_load, if_pos hb]) b hb)
  refine ⟨m'', ?_, hc⟩
  unfold blockBody
  rw [Prog.run_bind, h1, res_ok_bind, Prog.run_bind, h2, res_ok_bind]
  exact hrun

theorem ceil_div_mul {block blocks : Nat} (hb : 0 < block) :
    (blocks * block + (block - 1)) / block = blocks := by
  rw [Nat.add_comm, Nat.add_mul_div_right _ _ hb, Nat.div_eq_of_lt (by omega), Nat.zero_add]

/-- The block engine on a whole number of blocks. -/
theorem blockFcompute_eq {block blocks : Nat} (hb : 0 < block) {hm y f : Handle} (hyf : y ≠ f) (hmf : hm ≠ f)
    {Y M : Nat → S} {m : Mem S} (hy : m y = some (buf (6 * (blocks * block)) Y))
    (hM : m hm = some (buf (blocks * block) M)) (hf : m.shape f = some (6 * (blocks * block))) :
    blockFcompute seqFor block (blocks * block) hm y f m =
      .ok (m.set f (buf (6 * (blocks * block)) (blockDeriv block blocks (blocks * block) Y M))) := by
  have h1 : m.has y = true := by simp [Mem.has, hy]
  have h2 : m.has f = true := by rw [Mem.has_eq, hf]; rfl
  simp only [blockFcompute, h1, h2, ceil_div_mul hb]
  apply seqFor_update hf (fun j => bodyOf (blocks * block) j / block)
    (blockDeriv block blocks (blocks * block) Y M)
  · intro j hj
    have : bodyOf (blocks * block) j < blocks * block := Nat.mod_lt _ (by omega)
    exact (Nat.div_lt_iff_lt_mul hb).2 this
  · intro k m' hk hs hc
    apply blockBody_run hb hyf (Y := Y) (M := M) rfl
    · intro j hj
      rw [cell_other (own := fun j => bodyOf (blocks * block) j / block) hc hyf, Mem.cell_buf hy]; simp [hj]
    · intro j hj
      rw [cell_other (own := fun j => bodyOf (blocks * block) j / block) hc hmf, Mem.cell_buf hM]; simp [hj]
    · rw [hs, hf]
    · exact hk

/-- Different blocks touch different output elements. -/
theorem blockBody_independent {block blocks : Nat} (hb : 0 < block) {hm y f : Handle} (hyf : y ≠ f)
    (hmf : hm ≠ f) :
    Independent blocks (blockBody (S := S) block blocks (blocks * block) hm y f) := by
  refine ⟨⟨fun _ h _ => h ≠ f, fun i h j => h = f ∧ bodyOf (blocks * block) j / block = i, ?_, ?_⟩⟩
  · intro k1 hk
    unfold blockBody
    refine Prog.Within.bind (Prog.Within.forN ?_) fun _ => Prog.Within.bind (Prog.Within.forN ?_) fun _ =>
      Prog.Within.forN ?_
    · intro j t _
      within <;> exact hyf
    · intro j t _
      refine Prog.Within.bind (Prog.Within.forN ?_) fun _ => Prog.Within.pure _
      intro b t _
      within <;> first
        | exact hyf
        | exact hmf
    · intro b t hbb
      have hlt : b + k1 * block < blocks * block := by
        have : k1 * block + block ≤ blocks * block := by
          rw [← Nat.succ_mul]; exact Nat.mul_le_mul_right _ hk
        omega
      have hq : (b + k1 * block) / block = k1 := by
        rw [Nat.add_mul_div_right _ _ hb, Nat.div_eq_of_lt hbb, Nat.zero_add]
      have b0 : bodyOf (blocks * block) (b + k1 * block) / block = k1 := by
        have := bodyOf_add (n := blocks * block) 0 hlt
        rw [Nat.zero_mul, Nat.zero_add] at this
        rw [this, hq]
      have b1 : bodyOf (blocks * block) (blocks * block + (b + k1 * block)) / block = k1 := by
        have := bodyOf_add (n := blocks * block) 1 hlt
        rw [Nat.one_mul] at this
        rw [this, hq]
      have b2 : bodyOf (blocks * block) (2 * (blocks * block) + (b + k1 * block)) / block = k1 := by
        rw [bodyOf_add 2 hlt, hq]
      have b3 : bodyOf (blocks * block) (3 * (blocks * block) + (b + k1 * block)) / block = k1 := by
        rw [bodyOf_add 3 hlt, hq]
      have b4 : bodyOf (blocks * block) (4 * (blocks * block) + (b + k1 * block)) / block = k1 := by
        rw [bodyOf_add 4 hlt, hq]
      have b5 : bodyOf (blocks * block) (5 * (blocks * block) + (b + k1 * block)) / block = k1 := by
        rw [bodyOf_add 5 hlt, hq]
      within
      all_goals first
        | exact hyf
        | exact ⟨rfl, by assumption⟩
  · rintro i j h k hi hj hij ⟨rfl, hb⟩
    exact ⟨fun h => h rfl, fun h => hij (hb.symm.trans h.2)⟩

end

/-! ### Out-of-range accesses -/

section
variable {S : Type}

/-- Is element `i` of buffer `h` inside a memory of shape `sh`? -/
def InShape (sh : Handle → Option Nat) (h : Handle) (i : Nat) : Prop := ∃ N, sh h = some N ∧ i < N

/-- A program that, whatever values it reads, makes an access outside the buffers before it returns. -/
def Prog.Doomed {α : Type} (sh : Handle → Option Nat) : Prog S α → Prop
  | .ret _ => False
  | .read h i k => ¬ InShape sh h i ∨ ∀ v, Doomed sh (k v)
  | .write h i _ k => ¬ InShape sh h i ∨ Doomed sh k

theorem Prog.Doomed.bind_left {α β : Type} {sh : Handle → Option Nat} {p : Prog S α} {f : α → Prog S β}
    (h : p.Doomed sh) : (p >>= f).Doomed sh := by
  induction p with
  | ret a => exact h.elim
  | read h' i k ih => exact h.imp id fun h v => ih v (h v)
  | write h' i v k ih => exact h.imp id ih

theorem Prog.Doomed.bind_right {α β : Type} {sh : Handle → Option Nat} {p : Prog S α} {f : α → Prog S β}
    (h : ∀ a, (f a).Doomed sh) : (p >>= f).Doomed sh := by
  induction p with
  | ret a => exact h a
  | read h' i k ih => exact Or.inr fun v => ih v
  | write h' i v k ih => exact Or.inr ih

theorem Prog.Doomed.get {sh : Handle → Option Nat} {h : Handle} {i N : Nat} (hs : sh h = some N) (hi : N ≤ i) :
    (Prog.get h i : Prog S S).Doomed sh := by
  refine Or.inl ?_
  rintro ⟨N', h1, h2⟩
  rw [hs] at h1; cases h1; omega

theorem Prog.Doomed.forN {σ : Type} {sh : Handle → Option Nat} {n i : Nat} (hi : i < n) {s : σ}
    {f : Nat → σ → Prog S σ} (h : ∀ t, (f i t).Doomed sh) : (NB.forN n s f).Doomed sh := by
  induction n with
  | zero => omega
  | succ n ih =>
    rw [forN_succ]
    by_cases hin : i = n
    · subst hin
      exact Prog.Doomed.bind_right h
    · exact Prog.Doomed.bind_left (ih (by omega))

/-- Doomed iterations stay doomed under every interleaving. -/
theorem ParRun.doomed {n k : Nat} {a c : ParState S} (hr : ParRun n k a c) {sh : Handle → Option Nat}
    (hsh : a.mem.shape = sh) {i : Nat} (hd : (a.todo i).Doomed sh) :
    c.mem.shape = sh ∧ (c.todo i).Doomed sh := by
  induction hr with
  | refl => exact ⟨hsh, hd⟩
  | step h1 h2 ih =>
    obtain ⟨h3, h4⟩ := ih hsh hd
    cases h2 with
    | read m t i' hi' h j k ht v hv =>
      refine ⟨h3, ?_⟩
      by_cases hii : i = i'
      · subst hii
        simp only [if_true]
        simp only [ht] at h4
        rcases h4 with h4 | h4
        · exact absurd ((Mem.isSome_cell_iff m h j).1 (by rw [hv]; rfl)) (by rw [← h3] at h4; exact h4)
        · exact h4 v
      · simpa [hii] using h4
    | write m t i' hi' h j v k ht w hw =>
      refine ⟨by simpa using h3, ?_⟩
      by_cases hii : i = i'
      · subst hii
        simp only [if_true]
        simp only [ht] at h4
        rcases h4 with h4 | h4
        · exact absurd ((Mem.isSome_cell_iff m h j).1 (by rw [hw]; rfl)) (by rw [← h3] at h4; exact h4)
        · exact h4
      · simpa [hii] using h4

/-- A parallel loop with a doomed iteration cannot finish: every execution ends in a bad access. -/
theorem parLoop_doomed {loop : Loop S} (hl : IsParLoop loop) {n : Nat} {body : Nat → Prog S Unit}
    {m : Mem S} {i : Nat} (hi : i < n) (hd : (body i).Doomed m.shape) :
    ∃ e, loop n body m = .error e := by
  cases h : loop n body m with
  | error e => exact ⟨e, rfl⟩
  | ok m' =>
    obtain ⟨k, c, hr, hdn, _⟩ := (hl n body m).1 m' h
    have := (hr.doomed (a := ParState.start body m) rfl hd).2
    rw [hdn i hi] at this
    exact this.elim

variable [Add S] [Sub S] [Mul S] [Neg S] [Div S] [Zero S] [FOps S]

/-- On a body count that is not a multiple of the block size every iteration reads a mass outside the
mass buffer (if it has not left another buffer before). -/
theorem blockBody_doomed {block count : Nat} (hb : 0 < block) (hd : ¬ block ∣ count) {hm y f : Handle}
    {sh : Handle → Option Nat} (hM : sh hm = some count) (k1 : Nat) :
    (blockBody (S := S) block ((count + (block - 1)) / block) count hm y f k1).Doomed sh := by
  have hmod : 0 < count % block := Nat.pos_of_ne_zero fun h => hd (Nat.dvd_of_mod_eq_zero h)
  have hmod' := Nat.mod_lt count hb
  have hdm := Nat.div_add_mod count block
  have hblocks : count / block < (count + (block - 1)) / block := by
    rw [Nat.lt_iff_add_one_le, Nat.le_div_iff_mul_le hb, Nat.add_mul, Nat.one_mul]
    rw [Nat.mul_comm] at hdm
    omega
  unfold blockBody
  refine Prog.Doomed.bind_right fun p1 => Prog.Doomed.bind_left ?_
  refine Prog.Doomed.forN hblocks fun t => Prog.Doomed.bind_left ?_
  refine Prog.Doomed.forN hmod' fun t => ?_
  refine Prog.Doomed.bind_right fun _ => Prog.Doomed.bind_right fun _ => Prog.Doomed.bind_right fun _ =>
    Prog.Doomed.bind_left ?_
  refine Prog.Doomed.get hM ?_
  rw [Nat.mul_comm] at hdm
  omega

end

end NB
