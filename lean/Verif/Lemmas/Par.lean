import Verif.Model.Par
import Verif.Lemmas.Prog
import Mathlib.Data.DFinsupp.WellFounded

/-
Determinism of race-free parallel loops.
-/

namespace NB

variable {S : Type}

/-- All cells the program may read (for any values read on the way) satisfy `R`, all cells it may write
satisfy `W`. -/
def Prog.Within {α : Type} (R W : Handle → Nat → Prop) : Prog S α → Prop
  | .ret _ => True
  | .read h i k => R h i ∧ ∀ v, (k v).Within R W
  | .write h i _ k => W h i ∧ k.Within R W

theorem Prog.Within.bind {α β : Type} {R W : Handle → Nat → Prop} {p : Prog S α}
    {f : α → Prog S β} (hp : p.Within R W) (hf : ∀ a, (f a).Within R W) :
    (p >>= f).Within R W := by
  show (Prog.bind p f).Within R W
  induction p with
  | ret a => exact hf a
  | read h i k ih => exact ⟨hp.1, fun v => ih v (hp.2 v)⟩
  | write h i v k ih => exact ⟨hp.1, ih hp.2⟩

theorem Prog.Within.get {R W : Handle → Nat → Prop} {h : Handle} {i : Nat} (hr : R h i) :
    (Prog.get h i : Prog S S).Within R W := ⟨hr, fun _ => trivial⟩

theorem Prog.Within.put {R W : Handle → Nat → Prop} {h : Handle} {i : Nat} {v : S} (hw : W h i) :
    (Prog.put h i v : Prog S Unit).Within R W := ⟨hw, trivial⟩

theorem Prog.Within.pure {α : Type} {R W : Handle → Nat → Prop} (a : α) :
    (Pure.pure a : Prog S α).Within R W := trivial

theorem Prog.Within.forN {σ : Type} {R W : Handle → Nat → Prop} {n : Nat} {s : σ}
    {f : Nat → σ → Prog S σ} (h : ∀ i t, i < n → (f i t).Within R W) :
    (NB.forN n s f).Within R W := by
  induction n with
  | zero => trivial
  | succ n ih =>
    rw [forN_succ]
    exact (ih fun i t hi => h i t (by omega)).bind fun t => h n t (by omega)

/-- Writing a cell the program neither reads nor writes commutes with running it. -/
theorem Prog.run_setCell {α : Type} {R W : Handle → Nat → Prop} {p : Prog S α} (hp : p.Within R W)
    {h : Handle} {i : Nat} (v : S) (hR : ¬ R h i) (hW : ¬ W h i) (m : Mem S) :
    p.run (m.setCell h i v) = (p.run m).map (fun r => (r.1, r.2.setCell h i v)) := by
  induction p generalizing m with
  | ret a => rfl
  | read h' i' k ih =>
    have hne : ¬ (h' = h ∧ i' = i) := by
      rintro ⟨rfl, rfl⟩; exact hR hp.1
    simp only [run, Mem.cell_setCell, hne, if_false]
    cases m.cell h' i' with
    | none => rfl
    | some w => exact ih w (hp.2 w) m
  | write h' i' v' k ih =>
    have hne : ¬ (h' = h ∧ i' = i) := by
      rintro ⟨rfl, rfl⟩; exact hW hp.1
    simp only [run, Mem.cell_setCell, hne, if_false]
    cases m.cell h' i' with
    | none => rfl
    | some w =>
      simp only
      rw [Mem.setCell_comm (hne := fun hh => hne ⟨(congrArg Prod.fst hh).symm, (congrArg Prod.snd hh).symm⟩)]
      exact ih hp.2 _

/-- A program does not change cells outside its write set. -/
theorem Prog.run_cell {α : Type} {R W : Handle → Nat → Prop} {p : Prog S α} (hp : p.Within R W)
    {h : Handle} {i : Nat} (hW : ¬ W h i) {m : Mem S} {r : α × Mem S} (hr : p.run m = .ok r) :
    r.2.cell h i = m.cell h i := by
  induction p generalizing m with
  | ret a => simp only [run] at hr; cases hr; rfl
  | read h' i' k ih =>
    simp only [run] at hr
    cases hc : m.cell h' i' with
    | none => simp [hc] at hr
    | some w => simp only [hc] at hr; exact ih w (hp.2 w) hr
  | write h' i' v' k ih =>
    simp only [run] at hr
    cases hc : m.cell h' i' with
    | none => simp [hc] at hr
    | some w =>
      simp only [hc] at hr
      rw [ih hp.2 hr, Mem.cell_setCell]
      have hne : ¬ (h = h' ∧ i = i') := by
        rintro ⟨rfl, rfl⟩; exact hW hp.1
      simp [hne]

/-- Programs keep all buffer sizes. -/
theorem Prog.run_shape {α : Type} {p : Prog S α} {m : Mem S} {r : α × Mem S}
    (hr : p.run m = .ok r) : r.2.shape = m.shape := by
  induction p generalizing m with
  | ret a => simp only [run] at hr; cases hr; rfl
  | read h' i' k ih =>
    simp only [run] at hr
    cases hc : m.cell h' i' with
    | none => simp [hc] at hr
    | some w => simp only [hc] at hr; exact ih w hr
  | write h' i' v' k ih =>
    simp only [run] at hr
    cases hc : m.cell h' i' with
    | none => simp [hc] at hr
    | some w => simp only [hc] at hr; rw [ih hr, Mem.shape_setCell]

/-- The iterations of a loop are independent: no iteration writes a cell that another one reads or
writes. -/
structure Independent (n : Nat) (body : Nat → Prog S Unit) : Prop where
  ex : ∃ R W : Nat → Handle → Nat → Prop,
    (∀ i, i < n → (body i).Within (R i) (W i)) ∧
    (∀ i j h k, i < n → j < n → i ≠ j → W i h k → ¬ R j h k ∧ ¬ W j h k)

theorem seqFor_succ (n : Nat) (body : Nat → Prog S Unit) (m : Mem S) :
    seqFor (n + 1) body m = (seqFor n body m >>= fun m => (body n).run m >>= fun r => .ok r.2) := rfl

theorem seqFor_congr {n : Nat} {b b' : Nat → Prog S Unit} (h : ∀ i, i < n → b i = b' i) (m : Mem S) :
    seqFor n b m = seqFor n b' m :=
  forN_congr fun i _ hi => by rw [h i hi]

theorem seqFor_shape {n : Nat} {body : Nat → Prog S Unit} {m m' : Mem S}
    (h : seqFor n body m = .ok m') : m'.shape = m.shape := by
  induction n generalizing m' with
  | zero => cases h; rfl
  | succ n ih =>
    rw [seqFor_succ] at h
    cases h1 : seqFor n body m with
    | error e => rw [h1] at h; cases h
    | ok m1 =>
      rw [h1] at h
      cases h2 : (body n).run m1 with
      | error e => simp [h2] at h
      | ok r =>
        simp [h2] at h
        rw [← h, Prog.run_shape h2, ih h1]

/-- Writing a cell untouched by all iterations commutes with the whole loop. -/
theorem seqFor_setCell {R W : Nat → Handle → Nat → Prop} {n : Nat} {body : Nat → Prog S Unit}
    (hw : ∀ i, i < n → (body i).Within (R i) (W i)) {h : Handle} {j : Nat} (v : S)
    (hR : ∀ i, i < n → ¬ R i h j) (hW : ∀ i, i < n → ¬ W i h j) (m : Mem S) :
    seqFor n body (m.setCell h j v) = (seqFor n body m).map (fun m => m.setCell h j v) := by
  induction n with
  | zero => rfl
  | succ n ih =>
    rw [seqFor_succ, seqFor_succ, ih (fun i hi => hw i (by omega)) (fun i hi => hR i (by omega))
      (fun i hi => hW i (by omega))]
    cases seqFor n body m with
    | error e => rfl
    | ok m1 =>
      simp only [Except.map, res_ok_bind]
      rw [Prog.run_setCell (hw n (by omega)) v (hR n (by omega)) (hW n (by omega))]
      cases (body n).run m1 with
      | error e => rfl
      | ok r => rfl

theorem seqFor_cell {R W : Nat → Handle → Nat → Prop} {n : Nat} {body : Nat → Prog S Unit}
    (hw : ∀ i, i < n → (body i).Within (R i) (W i)) {h : Handle} {j : Nat}
    (hW : ∀ i, i < n → ¬ W i h j) {m m' : Mem S} (hr : seqFor n body m = .ok m') :
    m'.cell h j = m.cell h j := by
  induction n generalizing m' with
  | zero => cases hr; rfl
  | succ n ih =>
    rw [seqFor_succ] at hr
    cases h1 : seqFor n body m with
    | error e => rw [h1] at hr; cases hr
    | ok m1 =>
      rw [h1] at hr
      cases h2 : (body n).run m1 with
      | error e => simp [h2] at hr
      | ok r =>
        simp [h2] at hr
        rw [← hr, Prog.run_cell (hw n (by omega)) (hW n (by omega)) h2]
        exact ih (fun i hi => hw i (by omega)) (fun i hi => hW i (by omega)) h1

/-- The state invariant: what is left, run sequentially, gives the final memory. -/
structure ParInv (n : Nat) (R W : Nat → Handle → Nat → Prop) (fin : Mem S) (c : ParState S) :
    Prop where
  within : ∀ i, i < n → (c.todo i).Within (R i) (W i)
  eq : seqFor n c.todo c.mem = .ok fin

theorem parStep_seq {n : Nat} {R W : Nat → Handle → Nat → Prop}
    (hd : ∀ i j h k, i < n → j < n → i ≠ j → W i h k → ¬ R j h k ∧ ¬ W j h k)
    {c c' : ParState S} (hw : ∀ i, i < n → (c.todo i).Within (R i) (W i)) (hs : ParStep n c c') :
    (∀ i, i < n → (c'.todo i).Within (R i) (W i)) ∧
      (∀ fin, seqFor n c.todo c.mem = .ok fin → seqFor n c'.todo c'.mem = .ok fin) := by
  -- generic statement: a prefix of the loop
  cases hs with
  | read m t i hi h j k ht v hv =>
    have hwi := hw i hi
    simp only [ht] at hwi
    refine ⟨?_, ?_⟩
    · intro i' hi'
      simp only
      split
      · subst_vars; exact hwi.2 v
      · exact hw i' hi'
    · -- loop up to n
      have key : ∀ l, l ≤ n → ∀ fin, seqFor l t m = .ok fin →
          seqFor l (fun i' => if i' = i then k v else t i') m = .ok fin := by
        intro l hl
        induction l with
        | zero => intro fin hf; exact hf
        | succ l ih =>
          intro fin hf
          rw [seqFor_succ] at hf ⊢
          cases h1 : seqFor l t m with
          | error e => rw [h1] at hf; cases hf
          | ok m1 =>
            rw [h1] at hf
            rw [ih (by omega) m1 h1]
            by_cases hli : l = i
            · subst hli
              have hc : m1.cell h j = some v := by
                rw [seqFor_cell (fun i hi => hw i (by omega)) (R := R) (W := W) ?_ h1, hv]
                intro i' hi' hWi
                exact (hd i' l h j (by omega) hi (by omega) hWi).1 hwi.1
              simp only [res_ok_bind, ht, Prog.run, hc, if_true] at hf ⊢
              exact hf
            · simpa [hli] using hf
      exact key n (Nat.le_refl n)
  | write m t i hi h j v k ht w hv =>
    have hwi := hw i hi
    simp only [ht] at hwi
    refine ⟨?_, ?_⟩
    · intro i' hi'
      simp only
      split
      · subst_vars; exact hwi.2
      · exact hw i' hi'
    · have key1 : ∀ l, l ≤ i →
          seqFor l (fun i' => if i' = i then k else t i') (m.setCell h j v) =
            (seqFor l t m).map (fun m => m.setCell h j v) := by
        intro l hl
        rw [← seqFor_setCell (R := R) (W := W) (fun i' hi' => hw i' (by omega)) v
          (fun i' hi' => (hd i i' h j hi (by omega) (by omega) hwi.1).1)
          (fun i' hi' => (hd i i' h j hi (by omega) (by omega) hwi.1).2)]
        apply seqFor_congr
        intro i' hi'
        have : i' ≠ i := by omega
        simp [this]
      have key : ∀ l, i < l → l ≤ n → ∀ fin, seqFor l t m = .ok fin →
          seqFor l (fun i' => if i' = i then k else t i') (m.setCell h j v) = .ok fin := by
        intro l hil hl
        induction l with
        | zero => omega
        | succ l ih =>
          intro fin hf
          rw [seqFor_succ] at hf ⊢
          by_cases hli : l = i
          · subst hli
            rw [key1 l (Nat.le_refl l)]
            cases h1 : seqFor l t m with
            | error e => rw [h1] at hf; cases hf
            | ok m1 =>
              rw [h1] at hf
              have hc : (m1.cell h j).isSome := by
                rw [Mem.isSome_cell, seqFor_shape h1, ← Mem.isSome_cell, hv]; rfl
              obtain ⟨w', hw'⟩ := Option.isSome_iff_exists.1 hc
              simp only [res_ok_bind, ht, Prog.run, hw'] at hf
              simpa [Except.map] using hf
          · cases h1 : seqFor l t m with
            | error e => rw [h1] at hf; cases hf
            | ok m1 =>
              rw [h1] at hf
              rw [ih (by omega) (by omega) m1 h1]
              simpa [hli] using hf
      exact key n hi (Nat.le_refl n)

theorem parRun_inv {n : Nat} {R W : Nat → Handle → Nat → Prop}
    (hd : ∀ i j h k, i < n → j < n → i ≠ j → W i h k → ¬ R j h k ∧ ¬ W j h k)
    {s : Nat} {c c' : ParState S} {fin : Mem S} (hr : ParRun n s c c') (hi : ParInv n R W fin c) :
    ParInv n R W fin c' := by
  induction hr with
  | refl c => exact hi
  | step _ hst ih =>
    obtain ⟨h1, h2⟩ := parStep_seq hd (ih hi).within hst
    exact ⟨h1, h2 fin (ih hi).eq⟩

theorem seqFor_ret {n : Nat} {t : Nat → Prog S Unit} (h : ∀ i, i < n → t i = .ret ()) (m : Mem S) :
    seqFor n t m = .ok m := by
  induction n with
  | zero => rfl
  | succ n ih =>
    rw [seqFor_succ, ih fun i hi => h i (by omega), h n (by omega)]
    rfl

/-- A state about to fault cannot be completed sequentially. -/
theorem faulty_seq {n : Nat} {c : ParState S} (hf : c.Faulty n) (fin : Mem S) :
    seqFor n c.todo c.mem ≠ .ok fin := by
  obtain ⟨i, hi, hcase⟩ := hf
  have hbad : ∀ m1 : Mem S, m1.shape = c.mem.shape → (c.todo i).run m1 = .error .oob := by
    intro m1 hs
    have hnone : ∀ h j, c.mem.cell h j = none → m1.cell h j = none := by
      intro h j hc
      have : (m1.cell h j).isSome = false := by
        rw [Mem.isSome_cell, hs, ← Mem.isSome_cell, hc]; rfl
      simpa using this
    rcases hcase with ⟨h, j, k, ht, hc⟩ | ⟨h, j, v, k, ht, hc⟩
    · simp [ht, Prog.run, hnone h j hc]
    · simp [ht, Prog.run, hnone h j hc]
  have key : ∀ l, i < l → l ≤ n → ∀ m', seqFor l c.todo c.mem ≠ .ok m' := by
    intro l hil hl
    induction l with
    | zero => omega
    | succ l ih =>
      intro m' hm'
      rw [seqFor_succ] at hm'
      cases h1 : seqFor l c.todo c.mem with
      | error e => rw [h1] at hm'; cases hm'
      | ok m1 =>
        rw [h1] at hm'
        by_cases hli : l = i
        · subst hli
          simp [hbad m1 (seqFor_shape h1)] at hm'
        · exact ih (by omega) (by omega) m1 h1
  exact key n hi (Nat.le_refl n) fin

/-- One access less to do. -/
inductive Prog.Child : Prog S Unit → Prog S Unit → Prop where
  | read (h i) (k : S → Prog S Unit) (v : S) : Prog.Child (k v) (.read h i k)
  | write (h i v) (k : Prog S Unit) : Prog.Child k (.write h i v k)

theorem Prog.Child.wf : WellFounded (Prog.Child (S := S)) := by
  constructor
  intro p
  induction p with
  | ret a => exact ⟨_, fun q hq => by cases hq⟩
  | read h i k ih =>
    refine ⟨_, fun q hq => ?_⟩
    cases hq with
    | read _ _ _ v => exact ih v
  | write h i v k ih =>
    refine ⟨_, fun q hq => ?_⟩
    cases hq with
    | write => exact ih

/-- There is no infinite execution of a parallel loop. -/
theorem parStep_wf (n : Nat) : WellFounded (fun c c' : ParState S => ParStep n c' c) := by
  have hwf := Pi.Lex.wellFounded (ι := Fin n) (α := fun _ => Prog S Unit) (· < ·)
    (s := fun _ => Prog.Child) (fun _ => Prog.Child.wf)
  refine Subrelation.wf (r := InvImage _ (fun (c : ParState S) (i : Fin n) => c.todo i)) ?_
    (InvImage.wf _ hwf)
  intro c' c hs
  cases hs with
  | read m t i hi h j k ht v hv =>
    refine ⟨⟨i, hi⟩, ?_, ?_⟩
    · intro j' hj'
      have : (j' : Nat) ≠ i := by
        have : (j' : Nat) < i := hj'
        omega
      simp [this]
    · simp only [if_true, ht]
      exact Prog.Child.read h j k v
  | write m t i hi h j v k ht w hw =>
    refine ⟨⟨i, hi⟩, ?_, ?_⟩
    · intro j' hj'
      have : (j' : Nat) ≠ i := by
        have : (j' : Nat) < i := hj'
        omega
      simp [this]
    · simp only [if_true, ht]
      exact Prog.Child.write h j v k

end NB
