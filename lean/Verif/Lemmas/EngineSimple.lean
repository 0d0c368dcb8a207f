import Verif.Model.EngineSimple
import Verif.Lemmas.Buf
import Mathlib.Tactic.IntervalCases

/-
What the loops of the simple engine compute, for arbitrary scalars.
-/

namespace NB

section
variable {S : Type} [Add S] [Sub S] [Mul S] [Neg S] [Div S] [Zero S] [One S] [FOps S]

/-- Position of body `i` in a state buffer of `n` bodies. -/
def posOf {S : Type} (n : Nat) (Y : Nat → S) (i : Nat) : Vec3 S := ⟨Y i, Y (n + i), Y (2 * n + i)⟩

/-- Velocity of body `i` in a state buffer of `n` bodies. -/
def velOf {S : Type} (n : Nat) (Y : Nat → S) (i : Nat) : Vec3 S :=
  ⟨Y (3 * n + i), Y (4 * n + i), Y (5 * n + i)⟩

/-- The accumulated force on body `i`, in the order of the code. -/
def totalForce (n : Nat) (Y M : Nat → S) (i : Nat) : Vec3 S :=
  foldN n 0 (fun j total => if i = j then total else total + force (posOf n Y i) (posOf n Y j) (M i) (M j))

/-- Element `idx` of the derivative buffer. -/
def derivVal (n : Nat) (Y M : Nat → S) (idx : Nat) : S :=
  if idx < 3 * n then Y (3 * n + idx)
  else if idx < 4 * n then (totalForce n Y M (idx - 3 * n)).x / M (idx - 3 * n)
  else if idx < 5 * n then (totalForce n Y M (idx - 4 * n)).y / M (idx - 4 * n)
  else (totalForce n Y M (idx - 5 * n)).z / M (idx - 5 * n)

/-- Which body a state element belongs to. -/
def bodyOf (n idx : Nat) : Nat := idx % n

theorem bodyOf_eq {n i idx : Nat} (hi : i < n) (hidx : idx < 6 * n) :
    bodyOf n idx = i ↔ idx = i ∨ idx = n + i ∨ idx = 2 * n + i ∨ idx = 3 * n + i ∨ idx = 4 * n + i ∨
      idx = 5 * n + i := by
  unfold bodyOf
  have h1 := Nat.div_add_mod idx n
  have h2 := Nat.mod_lt idx (show 0 < n by omega)
  have h3 : idx / n < 6 := Nat.div_lt_of_lt_mul (by omega)
  generalize idx % n = r at *
  generalize idx / n = q at *
  interval_cases q <;> constructor <;> intro h <;> omega

theorem bodyOf_add {n i : Nat} (k : Nat) (hi : i < n) : bodyOf n (k * n + i) = i := by
  unfold bodyOf
  rw [Nat.mul_comm, Nat.mul_add_mod, Nat.mod_eq_of_lt hi]

omit [Add S] [Sub S] [Mul S] [Neg S] [Div S] [Zero S] [One S] [FOps S] in
/-- What a buffer read sees while iteration `i` runs, provided the buffer is not the output. -/
theorem cell_other {m m' : Mem S} {a h : Handle} {own : Nat → Nat} {val : Nat → S} {i : Nat}
    (hc : ∀ h j, m'.cell h j =
        (m.cell h j).map (fun v => if h = a ∧ own j < i then val j else v)) (hne : h ≠ a) (j : Nat) :
    m'.cell h j = m.cell h j := by
  rw [hc]
  cases m.cell h j <;> simp [hne]

theorem fcomputeBody_run {n : Nat} {hm y f : Handle} (hyf : y ≠ f) (hmf : hm ≠ f) {Y M : Nat → S}
    {m : Mem S} (hy : ∀ j, j < 6 * n → m.cell y j = some (Y j))
    (hM : ∀ j, j < n → m.cell hm j = some (M j)) (hf : m.shape f = some (6 * n))
    {i : Nat} (hi : i < n) :
    ∃ m'', (fcomputeBody n hm y f i).run m = .ok ((), m'') ∧
      ∀ h j, m''.cell h j =
        (m.cell h j).map (fun v => if h = f ∧ bodyOf n j = i then derivVal n Y M j else v) := by
  have hfs : ∀ j, j < 6 * n → (m.cell f j).isSome := fun j hj =>
    (Mem.isSome_cell_iff m f j).2 ⟨_, hf, hj⟩
  have hloop : (forN n (0 : Vec3 S) (fun body2 total =>
      if i = body2 then pure total
      else do
        let x2 ← Prog.get y body2
        let y2 ← Prog.get y (n + body2)
        let z2 ← Prog.get y (2 * n + body2)
        let m1 ← Prog.get hm i
        let m2 ← Prog.get hm body2
        pure (total + force (posOf n Y i) ⟨x2, y2, z2⟩ m1 m2))).run m
      = .ok (totalForce n Y M i, m) := by
    apply Prog.run_forN_pure
    intro j t hj
    by_cases hij : i = j
    · simp [hij]
    · simp only [hij, if_false]
      simp only [Prog.run_bind, Prog.run_get (hy j (by omega)), Prog.run_get (hy (n + j) (by omega)),
        Prog.run_get (hy (2 * n + j) (by omega)), Prog.run_get (hM i hi), Prog.run_get (hM j hj),
        res_ok_bind, Prog.run_pure]
      rfl
  have hrun : (fcomputeBody n hm y f i).run m = .ok ((),
      ((((((m.setCell f i (Y (3 * n + i))).setCell f (n + i) (Y (4 * n + i))).setCell f (2 * n + i)
        (Y (5 * n + i))).setCell f (3 * n + i) ((totalForce n Y M i).x / M i)).setCell f (4 * n + i)
        ((totalForce n Y M i).y / M i)).setCell f (5 * n + i) ((totalForce n Y M i).z / M i))) := by
    unfold fcomputeBody
    simp only [Prog.run_bind, Prog.run_get (hy i (by omega)), Prog.run_get (hy (n + i) (by omega)),
      Prog.run_get (hy (2 * n + i) (by omega)), res_ok_bind]
    have hp : (⟨Y i, Y (n + i), Y (2 * n + i)⟩ : Vec3 S) = posOf n Y i := rfl
    rw [hp, hloop]
    simp only [res_ok_bind]
    rw [Prog.run_get (hy (3 * n + i) (by omega))]
    simp only [res_ok_bind]
    rw [Prog.run_put _ (hfs i (by omega))]
    simp only [res_ok_bind]
    rw [Prog.run_get (v := Y (4 * n + i)) (by simp [Mem.cell_setCell, hyf, hy (4 * n + i) (by omega)])]
    simp only [res_ok_bind]
    rw [Prog.run_put _ (by simpa using hfs (n + i) (by omega))]
    simp only [res_ok_bind]
    rw [Prog.run_get (v := Y (5 * n + i)) (by simp [Mem.cell_setCell, hyf, hy (5 * n + i) (by omega)])]
    simp only [res_ok_bind]
    rw [Prog.run_put _ (by simpa using hfs (2 * n + i) (by omega))]
    simp only [res_ok_bind]
    rw [Prog.run_get (v := M i) (by simp [Mem.cell_setCell, hmf, hM i hi])]
    simp only [res_ok_bind]
    rw [Prog.run_put _ (by simpa using hfs (3 * n + i) (by omega))]
    simp only [res_ok_bind]
    rw [Prog.run_put _ (by simpa using hfs (4 * n + i) (by omega))]
    simp only [res_ok_bind]
    rw [Prog.run_put _ (by simpa using hfs (5 * n + i) (by omega))]
  refine ⟨_, hrun, ?_⟩
  intro h j
  simp only [Mem.cell_setCell', Option.map_map, Function.comp_def]
  by_cases hh : h = f
  · subst hh
    cases hw : m.cell h j with
    | none => rfl
    | some w =>
      have hj : j < 6 * n := by
        obtain ⟨N, h1, h2⟩ := (Mem.isSome_cell_iff m h j).1 (by rw [hw]; rfl)
        rw [hf] at h1; cases h1; exact h2
      simp only [Option.map_some, true_and]
      congr 1
      by_cases hb : bodyOf n j = i
      · rw [if_pos hb]
        have hcs := (bodyOf_eq hi hj).1 hb
        unfold derivVal
        split_ifs <;> first
          | omega
          | (subst j; simp only [Nat.add_sub_cancel_left])
          | (congr 1; omega)
      · rw [if_neg hb]
        have hb' := mt (bodyOf_eq hi hj).2 hb
        simp only [not_or] at hb'
        obtain ⟨b0, b1, b2, b3, b4, b5⟩ := hb'
        simp [b0, b1, b2, b3, b4, b5]
  · simp [hh]

/-- The simple engine's `fcompute` stores `derivVal` and changes nothing else. -/
theorem fcompute_eq {n : Nat} {hm y f : Handle} (hyf : y ≠ f) (hmf : hm ≠ f) {Y M : Nat → S}
    {m : Mem S} (hy : m y = some (buf (6 * n) Y)) (hM : m hm = some (buf n M))
    (hf : m.shape f = some (6 * n)) :
    fcompute seqFor n hm y f m = .ok (m.set f (buf (6 * n) (derivVal n Y M))) := by
  have h1 : m.has y = true := by simp [Mem.has, hy]
  have h2 : m.has f = true := by rw [Mem.has_eq, hf]; rfl
  simp only [fcompute, h1, h2]
  apply seqFor_update hf (bodyOf n) (derivVal n Y M)
  · intro j hj
    exact Nat.mod_lt _ (by omega)
  · intro i m' hi hs hc
    apply fcomputeBody_run hyf hmf (Y := Y) (M := M) (n := n)
    · intro j hj
      rw [cell_other hc hyf, Mem.cell_buf hy]; simp [hj]
    · intro j hj
      rw [cell_other hc hmf, Mem.cell_buf hM]; simp [hj]
    · rw [hs, hf]
    · exact hi

end

/-! ### Elementwise operations.  Buffers may alias. -/

section
variable {S : Type}

/-- A loop of `n` iterations in which iteration `i` overwrites element `i` of `a` by a value computed
from elements `i`. -/
theorem seqFor_elementwise {n : Nat} {body : Nat → Prog S Unit} {m : Mem S} {a : Handle}
    (hs : m.shape a = some n) (val : Nat → S)
    (hb : ∀ i m', i < n → m'.shape = m.shape → (∀ h, m'.cell h i = m.cell h i) →
      (body i).run m' = .ok ((), m'.setCell a i (val i))) :
    seqFor n body m = .ok (m.set a (buf n val)) := by
  apply seqFor_update hs id val
  · intro j hj; exact hj
  · intro i m' hi hsh hc
    refine ⟨_, hb i m' hi hsh ?_, ?_⟩
    · intro h
      rw [hc]
      cases m.cell h i <;> simp
    · intro h j
      rw [Mem.cell_setCell]
      by_cases hh : h = a ∧ j = i
      · obtain ⟨rfl, rfl⟩ := hh
        cases m'.cell h j <;> simp
      · rw [if_neg hh]
        simp only [id]
        cases m'.cell h j <;> simp [hh]

theorem copyBuffer_eq {n : Nat} {a b : Handle} {A B : Nat → S} {m : Mem S}
    (ha : m a = some (buf n A)) (hb : m b = some (buf n B)) :
    copyBuffer seqFor n a b m = .ok (m.set a (buf n B)) := by
  simp only [copyBuffer, Mem.has, ha, hb]
  apply seqFor_elementwise (Mem.shape_buf ha)
  intro i m' hi hs hc
  have h1 := hc b
  rw [Mem.cell_buf hb, if_pos hi] at h1
  simp only [copyBody, Prog.run_bind, Prog.run_get h1, res_ok_bind]
  exact Prog.run_put _ (by rw [hc a, Mem.cell_buf ha, if_pos hi]; rfl)

theorem fillBuffer_eq {a : Handle} {l : List S} (v : S) {m : Mem S} (ha : m a = some l) :
    fillBuffer seqFor a v m = .ok (m.set a (buf l.length (fun _ => v))) := by
  simp only [fillBuffer, ha]
  apply seqFor_elementwise (Mem.shape_of_eq ha)
  intro i m' hi hs hc
  exact Prog.run_put _ (by rw [hc a, Mem.cell_of_eq ha]; simp [hi])

theorem fmaddInplace_eq [Add S] [Mul S] {n : Nat} {a b : Handle} {A B : Nat → S} (c : S) {m : Mem S}
    (ha : m a = some (buf n A)) (hb : m b = some (buf n B)) :
    fmaddInplace seqFor n a b c m = .ok (m.set a (buf n (fun i => A i + B i * c))) := by
  simp only [fmaddInplace, Mem.has, ha, hb]
  apply seqFor_elementwise (Mem.shape_buf ha)
  intro i m' hi hs hc
  have h0 := hc a
  rw [Mem.cell_buf ha, if_pos hi] at h0
  have h1 := hc b
  rw [Mem.cell_buf hb, if_pos hi] at h1
  simp only [fmaddInplaceBody, Prog.run_bind, Prog.run_get h0, Prog.run_get h1, res_ok_bind]
  exact Prog.run_put _ (by rw [h0]; rfl)

theorem fmadd_eq [Add S] [Mul S] {n : Nat} {a b c : Handle} {A B C : Nat → S} (d : S) {m : Mem S}
    (ha : m a = some (buf n A)) (hb : m b = some (buf n B)) (hc : m c = some (buf n C)) :
    fmadd seqFor n a b c d m = .ok (m.set a (buf n (fun i => B i + C i * d))) := by
  simp only [fmadd, Mem.has, ha, hb, hc]
  apply seqFor_elementwise (Mem.shape_buf ha)
  intro i m' hi hs hcl
  have h0 := hcl a
  rw [Mem.cell_buf ha, if_pos hi] at h0
  have h1 := hcl b
  rw [Mem.cell_buf hb, if_pos hi] at h1
  have h2 := hcl c
  rw [Mem.cell_buf hc, if_pos hi] at h2
  simp only [fmaddBody, Prog.run_bind, Prog.run_get h1, Prog.run_get h2, res_ok_bind]
  exact Prog.run_put _ (by rw [h0]; rfl)

end

end NB

namespace NB

/-! ### clamp -/

section
variable {S : Type} [Add S] [Sub S] [Mul S] [Neg S] [FOps S]

omit [Mul S] in
/-- What clamping does to one coordinate. -/
def wrapVal (b diam x : S) : S :=
  let x1 := if FOps.lt b x then x - diam else x
  if FOps.lt x1 (-b) then x1 + diam else x1

omit [Mul S] in
theorem clampCoord_run {y : Handle} {b diam : S} {j : Nat} {x : S} {m : Mem S}
    (h : m.cell y j = some x) :
    ∃ m', (clampCoord y b diam j).run m = .ok ((), m') ∧ m'.shape = m.shape ∧
      ∀ h' j', m'.cell h' j' =
        (m.cell h' j').map (fun v => if h' = y ∧ j' = j then wrapVal b diam x else v) := by
  have key : ∀ (m : Mem S) (x : S) (c : Bool) (x' : S), m.cell y j = some x →
      ∃ m', (if c then (do let _ ← Prog.get y j; Prog.put y j x' : Prog S Unit) else pure ()).run m
        = .ok ((), m') ∧ m'.shape = m.shape ∧
      ∀ h' j', m'.cell h' j' =
        (m.cell h' j').map (fun v => if h' = y ∧ j' = j then (if c then x' else x) else v) := by
    intro m x c x' hx
    cases c with
    | false =>
      refine ⟨m, rfl, rfl, fun h' j' => ?_⟩
      by_cases hh : h' = y ∧ j' = j
      · obtain ⟨rfl, rfl⟩ := hh; simp [hx]
      · cases m.cell h' j' <;> simp [hh]
    | true =>
      refine ⟨m.setCell y j x', ?_, by simp, fun h' j' => ?_⟩
      · simp only [if_true, Prog.run_bind, Prog.run_get hx, res_ok_bind]
        exact Prog.run_put _ (by rw [hx]; rfl)
      · rw [Mem.cell_setCell']; simp
  obtain ⟨m1, hr1, hs1, hc1⟩ := key m x (FOps.lt b x) (x - diam) h
  have hx1 : m1.cell y j = some (if FOps.lt b x then x - diam else x) := by
    rw [hc1, h]; simp
  obtain ⟨m2, hr2, hs2, hc2⟩ := key m1 _ (FOps.lt (if FOps.lt b x then x - diam else x) (-b))
    ((if FOps.lt b x then x - diam else x) + diam) hx1
  refine ⟨m2, ?_, by rw [hs2, hs1], fun h' j' => ?_⟩
  · unfold clampCoord
    simp only [Prog.run_bind, Prog.run_get h, res_ok_bind]
    have e1 : ((if FOps.lt b x = true then (do let w ← Prog.get y j; Prog.put y j (w - diam))
        else pure ()) : Prog S Unit).run m = .ok ((), m1) := by
      rw [← hr1]
      split
      · simp only [Prog.run_bind, Prog.run_get h, res_ok_bind]
      · rfl
    rw [e1]
    simp only [res_ok_bind, Prog.run_get hx1]
    rw [← hr2]
    by_cases hlt : FOps.lt (if FOps.lt b x then x - diam else x) (-b) = true
    · rw [if_pos hlt, if_pos hlt]
      simp only [Prog.run_bind, Prog.run_get hx1, res_ok_bind]
    · rw [if_neg hlt, if_neg hlt]
  · rw [hc2, hc1]
    cases m.cell h' j' with
    | none => rfl
    | some v =>
      simp only [Option.map_some]
      by_cases hh : h' = y ∧ j' = j <;> simp [hh, wrapVal]

/-- The clamped buffer. -/
def clampVal (n : Nat) (b : S) (Y : Nat → S) (j : Nat) : S :=
  if j < 3 * n then wrapVal b (FOps.lit 2 * b) (Y j) else Y j

theorem clamp_eq {n : Nat} {y : Handle} {b : S} {Y : Nat → S} {m : Mem S}
    (hy : m y = some (buf (6 * n) Y)) :
    clamp seqFor n y b m = .ok (m.set y (buf (6 * n) (clampVal n b Y))) := by
  have h1 : m.has y = true := by simp [Mem.has, hy]
  simp only [clamp, h1]
  apply seqFor_update (Mem.shape_buf hy) (bodyOf n) (clampVal n b Y)
  · intro j hj; exact Nat.mod_lt _ (by omega)
  · intro i m' hi hs hc
    have hY : ∀ j, j < 6 * n → bodyOf n j = i → m'.cell y j = some (Y j) := by
      intro j hj hb
      rw [hc, Mem.cell_buf hy, if_pos hj]
      simp [hb]
    have b0 : bodyOf n i = i := by simpa using bodyOf_add (n := n) 0 hi
    have b1 : bodyOf n (n + i) = i := by simpa using bodyOf_add (n := n) 1 hi
    have b2 : bodyOf n (2 * n + i) = i := bodyOf_add (n := n) 2 hi
    obtain ⟨m1, hr1, hs1, hc1⟩ := clampCoord_run (b := b) (diam := FOps.lit 2 * b)
      (hY i (by omega) b0)
    have hx1 : m1.cell y (n + i) = some (Y (n + i)) := by
      rw [hc1, hY (n + i) (by omega) b1]
      have : ¬ (n + i = i) := by omega
      simp
      omega
    obtain ⟨m2, hr2, hs2, hc2⟩ := clampCoord_run (b := b) (diam := FOps.lit 2 * b) hx1
    have hx2 : m2.cell y (2 * n + i) = some (Y (2 * n + i)) := by
      rw [hc2, hc1, hY (2 * n + i) (by omega) b2]
      have e1 : ¬ (2 * n + i = i) := by omega
      have e2 : ¬ (2 * n + i = n + i) := by omega
      simp only [Option.map_some, true_and]
      rw [if_neg e2, if_neg e1]
    obtain ⟨m3, hr3, hs3, hc3⟩ := clampCoord_run (b := b) (diam := FOps.lit 2 * b) hx2
    refine ⟨m3, ?_, ?_⟩
    · simp only [clampBody, Prog.run_bind, hr1, hr2, hr3, res_ok_bind]
    · intro h j
      rw [hc3, hc2, hc1]
      cases hw : m'.cell h j with
      | none => rfl
      | some w =>
        simp only [Option.map_some]
        congr 1
        by_cases hh : h = y
        · subst hh
          have hj : j < 6 * n := by
            obtain ⟨N, h1, h2⟩ := (Mem.isSome_cell_iff m' h j).1 (by rw [hw]; rfl)
            rw [hs, Mem.shape_buf hy] at h1; cases h1; exact h2
          simp only [true_and]
          by_cases hb : bodyOf n j = i
          · rw [if_pos hb]
            have hwj : w = Y j := by
              have := hY j hj hb
              rw [hw] at this; exact Option.some.inj this
            have hcs := (bodyOf_eq hi hj).1 hb
            unfold clampVal
            split_ifs <;> first
              | omega
              | (subst j; rfl)
              | exact hwj
          · rw [if_neg hb]
            have hb' := mt (bodyOf_eq hi hj).2 hb
            simp only [not_or] at hb'
            obtain ⟨b0, b1, b2, b3, b4, b5⟩ := hb'
            simp [b0, b1, b2]
        · simp [hh]

end

/-! ### fmaddn, fmaddn_inplace, fmaddn_corr -/

section
variable {S : Type} [Add S] [Mul S] [Zero S] [FOps S]

/-- The value accumulated by skipping zero coefficients, in the order of the code. -/
def accTerms (init : S) (ts : List (S × S)) : S :=
  ts.foldl (fun acc t => if FOps.eqb t.2 0 then acc else acc + t.1 * t.2) init

theorem fmaddnInplaceTerms_eq {n : Nat} {a : Handle} {V : Handle → Nat → S} :
    ∀ (ts : List (Handle × S)) {A : Nat → S} {m : Mem S}, m a = some (buf n A) →
      (∀ t ∈ ts, t.1 ≠ a ∧ m t.1 = some (buf n (V t.1))) →
      fmaddnInplaceTerms seqFor n a ts m =
        .ok (m.set a (buf n (fun i => accTerms (A i) (ts.map (fun t => (V t.1 i, t.2)))))) := by
  intro ts
  induction ts with
  | nil =>
    intro A m ha _
    simp only [fmaddnInplaceTerms, List.map_nil, accTerms, List.foldl_nil]
    congr 1
    funext h'
    by_cases hh : h' = a
    · subst hh; simp [ha]
    · rw [Mem.set_ne _ _ hh]
  | cons t ts ih =>
    intro A m ha hts
    obtain ⟨b, c⟩ := t
    have hb := hts (b, c) (by simp)
    simp only [fmaddnInplaceTerms]
    by_cases hc : FOps.eqb c 0 = true
    · simp only [hc, if_true, res_ok_bind]
      rw [ih ha fun t ht => hts t (by simp [ht])]
      simp [accTerms, hc]
    · simp only [hc]
      rw [if_neg (by simp), fmaddInplace_eq c ha hb.2, res_ok_bind]
      rw [ih (A := fun i => A i + V b i * c) (by simp) ?_]
      · simp [accTerms, hc]
      · intro t ht
        have := hts t (by simp [ht])
        exact ⟨this.1, by rw [Mem.set_ne _ _ this.1, this.2]⟩

theorem fmaddnTerms_true_eq {n : Nat} {a b : Handle} {V : Handle → Nat → S} :
    ∀ (ts : List (Handle × S)) {A : Nat → S} {m : Mem S}, m a = some (buf n A) →
      (∀ t ∈ ts, t.1 ≠ a ∧ m t.1 = some (buf n (V t.1))) →
      fmaddnTerms seqFor n a b true ts m =
        .ok (m.set a (buf n (fun i => accTerms (A i) (ts.map (fun t => (V t.1 i, t.2)))))) := by
  intro ts
  induction ts with
  | nil =>
    intro A m ha _
    simp only [fmaddnTerms, List.map_nil, accTerms, List.foldl_nil]
    congr 1
    funext h'
    by_cases hh : h' = a
    · subst hh; simp [ha]
    · rw [Mem.set_ne _ _ hh]
  | cons t ts ih =>
    intro A m ha hts
    obtain ⟨c, d⟩ := t
    have hb := hts (c, d) (by simp)
    simp only [fmaddnTerms]
    by_cases hc : FOps.eqb d 0 = true
    · simp only [hc, if_true]
      rw [ih ha fun t ht => hts t (by simp [ht])]
      simp [accTerms, hc]
    · rw [if_neg hc]
      simp only [if_true]
      rw [fmadd_eq d ha ha hb.2, res_ok_bind]
      rw [ih (A := fun i => A i + V c i * d) (by simp) ?_]
      · simp [accTerms, hc]
      · intro t ht
        have := hts t (by simp [ht])
        exact ⟨this.1, by rw [Mem.set_ne _ _ this.1, this.2]⟩

/-- While nothing has been written, only a non-zero coefficient makes `fmaddn` write. -/
theorem fmaddnTerms_false_eq {n : Nat} {a b : Handle} {V : Handle → Nat → S} {A B : Nat → S} :
    ∀ (ts : List (Handle × S)) {m : Mem S}, m a = some (buf n A) → m b = some (buf n B) →
      (∀ t ∈ ts, t.1 ≠ a ∧ m t.1 = some (buf n (V t.1))) →
      fmaddnTerms seqFor n a b false ts m =
        .ok (if ∀ t ∈ ts, FOps.eqb t.2 0 = true then m
          else m.set a (buf n (fun i => accTerms (B i) (ts.map (fun t => (V t.1 i, t.2)))))) := by
  intro ts
  induction ts with
  | nil => intro m _ _ _; simp [fmaddnTerms]
  | cons t ts ih =>
    intro m ha hb hts
    obtain ⟨c, d⟩ := t
    have hcm := hts (c, d) (by simp)
    simp only [fmaddnTerms]
    by_cases hc : FOps.eqb d 0 = true
    · simp only [hc, if_true]
      rw [ih ha hb fun t ht => hts t (by simp [ht])]
      by_cases hall : ∀ t ∈ ts, FOps.eqb t.2 0 = true
      · rw [if_pos hall, if_pos]
        intro t ht
        rcases List.mem_cons.1 ht with rfl | ht
        · exact hc
        · exact hall t ht
      · rw [if_neg hall, if_neg]
        · simp [accTerms, hc]
        · intro h; exact hall fun t ht => h t (by simp [ht])
    · rw [if_neg hc]
      simp only [Bool.false_eq_true, if_false]
      rw [fmadd_eq d ha hb hcm.2, res_ok_bind]
      rw [fmaddnTerms_true_eq (V := V) ts (A := fun i => B i + V c i * d) (by simp) ?_]
      · rw [if_neg]
        · simp [accTerms, hc]
        · intro h; exact hc (h (c, d) (by simp))
      · intro t ht
        have := hts t (by simp [ht])
        exact ⟨this.1, by rw [Mem.set_ne _ _ this.1, this.2]⟩

/-- One element of the compensated accumulation: running sum and correction. -/
def accCorr [Sub S] (init : S × S) (ts : List (S × S)) : S × S :=
  ts.foldl (fun s t => if FOps.eqb t.2 0 then s else summationK s.1 (t.1 * t.2) s.2) init

theorem fmaddnCorrTerms_run [Sub S] {n : Nat} {a corr : Handle} (hac : a ≠ corr) {i : Nat}
    (V : Handle → Nat → S) :
    ∀ (ts : List (Handle × S)) {x k : S} {m : Mem S}, m.cell a i = some x → m.cell corr i = some k →
      (∀ t ∈ ts, t.1 ≠ a ∧ t.1 ≠ corr ∧ m.cell t.1 i = some (V t.1 i)) →
      ∃ m', (fmaddnCorrTerms a corr i ts).run m = .ok ((), m') ∧
        ∀ h j, m'.cell h j = (m.cell h j).map (fun v =>
          if h = a ∧ j = i then (accCorr (x, k) (ts.map (fun t => (V t.1 i, t.2)))).1
          else if h = corr ∧ j = i then (accCorr (x, k) (ts.map (fun t => (V t.1 i, t.2)))).2
          else v) := by
  intro ts
  induction ts with
  | nil =>
    intro x k m hx hk _
    refine ⟨m, rfl, fun h j => ?_⟩
    by_cases h1 : h = a ∧ j = i
    · obtain ⟨rfl, rfl⟩ := h1; simp [hx, accCorr]
    · by_cases h2 : h = corr ∧ j = i
      · obtain ⟨rfl, rfl⟩ := h2; simp [hk, accCorr, hac.symm]
      · cases m.cell h j <;> simp [h1, h2]
  | cons t ts ih =>
    intro x k m hx hk hts
    obtain ⟨b, c⟩ := t
    obtain ⟨hba, hbc, hb⟩ := hts (b, c) (by simp)
    simp only [fmaddnCorrTerms, Prog.run_bind]
    by_cases hc : FOps.eqb c 0 = true
    · obtain ⟨m', hr, hcl⟩ := ih hx hk fun t ht => hts t (by simp [ht])
      refine ⟨m', ?_, ?_⟩
      · simp [hc, hr]
      · intro h j; rw [hcl]; simp [accCorr, hc]
    · have e : (if FOps.eqb c 0 = true then pure ()
          else do
            let bv ← Prog.get b i
            let av ← Prog.get a i
            let cv ← Prog.get corr i
            Prog.put corr i (summationK av (bv * c) cv).2
            Prog.put a i (summationK av (bv * c) cv).1 : Prog S Unit).run m =
          .ok ((), (m.setCell corr i (summationK x (V b i * c) k).2).setCell a i
            (summationK x (V b i * c) k).1) := by
        rw [if_neg hc]
        simp only [Prog.run_bind, Prog.run_get hb, Prog.run_get hx, Prog.run_get hk, res_ok_bind]
        rw [Prog.run_put _ (by rw [hk]; rfl), res_ok_bind, Prog.run_put _ (by simp [hx])]
      obtain ⟨m', hr, hcl⟩ := ih (x := (summationK x (V b i * c) k).1)
        (k := (summationK x (V b i * c) k).2)
        (m := (m.setCell corr i (summationK x (V b i * c) k).2).setCell a i
            (summationK x (V b i * c) k).1)
        (by simp [Mem.cell_setCell', hx])
        (by simp [Mem.cell_setCell', hk, hac.symm])
        (by
          intro t ht
          obtain ⟨h1, h2, h3⟩ := hts t (by simp [ht])
          exact ⟨h1, h2, by simp [Mem.cell_setCell', h1, h2, h3]⟩)
      refine ⟨m', ?_, ?_⟩
      · rw [e]; exact hr
      · intro h j
        rw [hcl, Mem.cell_setCell', Mem.cell_setCell']
        cases m.cell h j with
        | none => rfl
        | some v =>
          simp only [Option.map_some, List.map_cons]
          congr 1
          by_cases h1 : h = a ∧ j = i
          · simp [h1, accCorr, hc]
          · by_cases h2 : h = corr ∧ j = i
            · simp [h2, accCorr, hc, hac.symm]
            · simp [h1, h2]

end

end NB
