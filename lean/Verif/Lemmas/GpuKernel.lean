import Verif.Model.GpuKernel
import Verif.Lemmas.MultiDevice

/-
Determinism of kernels with barriers.
-/

namespace NB

variable {S R : Type}

/-- One phase of one group, work item after work item; the result is the list of private variables. -/
def phaseProg (B : Nat) (r0 : R) (t : Nat → Prog S R) : Prog S (Nat → R) :=
  forN B (fun _ => r0) (fun l acc => do
    let r ← t l
    pure (fun l' => if l' = l then r else acc l'))

/-- The phases `p, p+1, …` (`k` of them) of one group. -/
def restProg (B : Nat) (r0 : R) (kern : Nat → Nat → R → Prog S R) : Nat → Nat → (Nat → R) → Prog S Unit
  | 0, _, _ => pure ()
  | k + 1, p, r => do
    let r' ← phaseProg B r0 (fun l => kern p l (r l))
    restProg B r0 kern k (p + 1) r'

/-- What is left to do of a group in phase `p` with the remainders `t`. -/
def groupProg (B P : Nat) (r0 : R) (kern : Nat → Nat → R → Prog S R) (p : Nat) (t : Nat → Prog S R) :
    Prog S Unit := do
  let r ← phaseProg B r0 t
  restProg B r0 kern (P - 1 - p) (p + 1) r

theorem phaseProg_succ (B : Nat) (r0 : R) (t : Nat → Prog S R) :
    phaseProg (B + 1) r0 t = (phaseProg B r0 t >>= fun acc => t B >>= fun r =>
      pure (fun l' => if l' = B then r else acc l')) := rfl

theorem phaseProg_congr {B : Nat} {r0 : R} {t t' : Nat → Prog S R} (h : ∀ l, l < B → t l = t' l) :
    phaseProg B r0 t = phaseProg B r0 t' :=
  forN_congr fun l _ hl => by rw [h l hl]

theorem phaseProg_within {B : Nat} {r0 : R} {t : Nat → Prog S R} {Rd Wr : Handle → Nat → Prop}
    (h : ∀ l, l < B → (t l).Within Rd Wr) : (phaseProg B r0 t).Within Rd Wr :=
  Prog.Within.forN fun l _ hl => (h l hl).bind fun _ => Prog.Within.pure _

theorem restProg_within {B : Nat} {r0 : R} {kern : Nat → Nat → R → Prog S R} {Rd Wr : Handle → Nat → Prop} :
    ∀ (k p : Nat) (r : Nat → R), (∀ q l r, l < B → (kern q l r).Within Rd Wr) →
      (restProg B r0 kern k p r).Within Rd Wr := by
  intro k
  induction k with
  | zero => intro p r _; trivial
  | succ k ih =>
    intro p r h
    exact (phaseProg_within fun l hl => h _ _ _ hl).bind fun r' => ih _ _ h

theorem Prog.Within.mono {α : Type} {Rd Wr Rd' Wr' : Handle → Nat → Prop} {p : Prog S α}
    (h : p.Within Rd Wr) (h1 : ∀ x j, Rd x j → Rd' x j) (h2 : ∀ x j, Wr x j → Wr' x j) :
    p.Within Rd' Wr' := by
  induction p with
  | ret a => trivial
  | read x j k ih => exact ⟨h1 _ _ h.1, fun v => ih v (h.2 v)⟩
  | write x j v k ih => exact ⟨h2 _ _ h.1, ih h.2⟩

/-- A read of one work item may be done first. -/
theorem phaseProg_read {B : Nat} {r0 : R} {t : Nat → Prog S R} {Rd Wr : Nat → Handle → Nat → Prop}
    (hw : ∀ l, l < B → (t l).Within (Rd l) (Wr l))
    (hd : ∀ l l' x j, l < B → l' < B → l ≠ l' → Wr l x j → ¬ Rd l' x j ∧ ¬ Wr l' x j)
    {l : Nat} (hl : l < B) {h : Handle} {j : Nat} {k : S → Prog S R} (ht : t l = .read h j k)
    {m : Mem S} {v : S} (hv : m.cell h j = some v) :
    (phaseProg B r0 t).run m = (phaseProg B r0 (fun l' => if l' = l then k v else t l')).run m := by
  induction B generalizing m with
  | zero => omega
  | succ B ih =>
    rw [phaseProg_succ, phaseProg_succ, Prog.run_bind, Prog.run_bind]
    by_cases hlB : l = B
    · subst hlB
      rw [phaseProg_congr (t' := t) (fun l' hl' => if_neg (by omega))]
      cases hr : (phaseProg l r0 t).run m with
      | error e => rfl
      | ok a =>
        simp only [res_ok_bind, if_pos]
        have hRd : Rd l h j := by have := hw l (by omega); rw [ht] at this; exact this.1
        have hc : a.2.cell h j = some v := by
          rw [Prog.run_cell (R := fun _ _ => True) (W := fun x j => ∃ l', l' < l ∧ Wr l' x j)
            (phaseProg_within fun l' hl' => (hw l' (by omega)).mono (fun _ _ _ => trivial)
              (fun _ _ h => ⟨l', hl', h⟩)) ?_ hr, hv]
          rintro ⟨l', hl', hW⟩
          exact (hd l' l h j (by omega) (by omega) (by omega) hW).1 hRd
        rw [Prog.run_bind, Prog.run_bind, ht]
        congr 1
        simp only [Prog.run, hc]
    · rw [ih (fun l' h' => hw l' (by omega)) (fun a b x i ha hb => hd a b x i (by omega) (by omega))
        (by omega) hv]
      rw [if_neg (Ne.symm hlB)]

/-- A write of one work item may be done first. -/
theorem phaseProg_write {B : Nat} {r0 : R} {t : Nat → Prog S R} {Rd Wr : Nat → Handle → Nat → Prop}
    (hw : ∀ l, l < B → (t l).Within (Rd l) (Wr l))
    (hd : ∀ l l' x j, l < B → l' < B → l ≠ l' → Wr l x j → ¬ Rd l' x j ∧ ¬ Wr l' x j)
    {l : Nat} (hl : l < B) {h : Handle} {j : Nat} {v : S} {k : Prog S R} (ht : t l = .write h j v k)
    {m : Mem S} (hv : (m.cell h j).isSome) :
    (phaseProg B r0 t).run m =
      (phaseProg B r0 (fun l' => if l' = l then k else t l')).run (m.setCell h j v) := by
  induction B generalizing m with
  | zero => omega
  | succ B ih =>
    rw [phaseProg_succ, phaseProg_succ, Prog.run_bind, Prog.run_bind]
    by_cases hlB : l = B
    · subst hlB
      rw [phaseProg_congr (t := fun l' => if l' = l then k else t l') (t' := t)
        (fun l' hl' => if_neg (by omega))]
      have hWr : Wr l h j := by have := hw l (by omega); rw [ht] at this; exact this.1
      rw [Prog.run_setCell (R := fun x j => ∃ l', l' < l ∧ Rd l' x j)
        (W := fun x j => ∃ l', l' < l ∧ Wr l' x j)
        (phaseProg_within fun l' hl' => (hw l' (by omega)).mono (fun _ _ h => ⟨l', hl', h⟩)
          (fun _ _ h => ⟨l', hl', h⟩)) v
        (by rintro ⟨l', hl', hR⟩; exact (hd l l' h j (by omega) (by omega) (by omega) hWr).1 hR)
        (by rintro ⟨l', hl', hR⟩; exact (hd l l' h j (by omega) (by omega) (by omega) hWr).2 hR)]
      cases hr : (phaseProg l r0 t).run m with
      | error e => rfl
      | ok a =>
        simp only [res_ok_bind, if_pos, Except.map]
        have hc : (a.2.cell h j).isSome := by
          rw [Mem.isSome_cell, Prog.run_shape hr, ← Mem.isSome_cell]; exact hv
        obtain ⟨w, hw'⟩ := Option.isSome_iff_exists.1 hc
        rw [Prog.run_bind, Prog.run_bind, ht]
        congr 1
        simp only [Prog.run, hw']
    · rw [ih (fun l' h' => hw l' (by omega)) (fun a b x i ha hb => hd a b x i (by omega) (by omega))
        (by omega) hv]
      rw [if_neg (Ne.symm hlB)]

theorem phaseProg_ret {B : Nat} {r0 : R} {t : Nat → Prog S R} {r : Nat → R}
    (h : ∀ l, l < B → t l = .ret (r l)) (m : Mem S) :
    (phaseProg B r0 t).run m = .ok (fun l => if l < B then r l else r0, m) := by
  induction B with
  | zero => rfl
  | succ B ih =>
    rw [phaseProg_succ, Prog.run_bind, ih fun l hl => h l (by omega)]
    simp only [res_ok_bind, h B (by omega)]
    show Except.ok _ = _
    congr 2
    funext l
    by_cases h1 : l = B
    · subst h1; simp
    · by_cases h2 : l < B
      · simp [h1, h2, show l < B + 1 by omega]
      · simp [h1, h2, show ¬ l < B + 1 by omega]

theorem restProg_congr {B : Nat} {r0 : R} {kern : Nat → Nat → R → Prog S R} {k p : Nat} {r r' : Nat → R}
    (h : ∀ l, l < B → r l = r' l) : restProg B r0 kern k p r = restProg B r0 kern k p r' := by
  cases k with
  | zero => rfl
  | succ k =>
    show (phaseProg B r0 _ >>= _) = (phaseProg B r0 _ >>= _)
    rw [phaseProg_congr fun l hl => by rw [h l hl]]

/-- A work item about to fault makes the group fault. -/
theorem phaseProg_faulty {B : Nat} {r0 : R} {t : Nat → Prog S R} {l : Nat} (hl : l < B) {m : Mem S}
    (hf : (∃ h j k, t l = .read h j k ∧ m.cell h j = none) ∨
      (∃ h j v k, t l = .write h j v k ∧ m.cell h j = none)) :
    ∀ a, (phaseProg B r0 t).run m ≠ .ok a := by
  induction B with
  | zero => omega
  | succ B ih =>
    intro a ha
    rw [phaseProg_succ, Prog.run_bind] at ha
    cases hr : (phaseProg B r0 t).run m with
    | error e => rw [hr] at ha; cases ha
    | ok b =>
      by_cases hlB : l = B
      · subst hlB
        rw [hr] at ha
        simp only [res_ok_bind] at ha
        have hsh : ∀ h j, m.cell h j = none → b.2.cell h j = none := by
          intro h j hc
          have : (b.2.cell h j).isSome = false := by
            rw [Mem.isSome_cell, Prog.run_shape hr, ← Mem.isSome_cell, hc]; rfl
          simpa using this
        rw [Prog.run_bind] at ha
        rcases hf with ⟨h, j, k, ht, hc⟩ | ⟨h, j, v, k, ht, hc⟩
        · rw [ht] at ha
          simp [Prog.run, hsh h j hc] at ha
        · rw [ht] at ha
          simp [Prog.run, hsh h j hc] at ha
      · exact ih (by omega) b hr

section
variable (G B P : Nat) (kern : Kernel S R) (r0 : R)

/-- The kernel as one group sees it. -/
def groupKern (g : Nat) (p l : Nat) (r : R) : Prog S R := kern p (g * B + l) r

/-- What is left to do of group `g`. -/
def leftOf (c : BarState S R) (g : Nat) : Prog S Unit :=
  groupProg B P r0 (groupKern B kern g) (c.phase g) (fun l => c.todo (g * B + l))

/-- Access sets: `Rd p i`, `Wr p i` for phase `p` and work item `i`.  Within a phase of a group, and
between different groups, nobody writes what another one reads or writes. -/
structure RaceFree (Rd Wr : Nat → Nat → Handle → Nat → Prop) : Prop where
  within : ∀ p i r, i < G * B → (kern p i r).Within (Rd p i) (Wr p i)
  phase : ∀ p i i' x j, i < G * B → i' < G * B → i / B = i' / B → i ≠ i' → Wr p i x j →
    ¬ Rd p i' x j ∧ ¬ Wr p i' x j
  groups : ∀ p q i i' x j, i < G * B → i' < G * B → i / B ≠ i' / B → Wr p i x j →
    ¬ Rd q i' x j ∧ ¬ Wr q i' x j

/-- Invariant of the executions: finishing the groups one after the other gives `m'`. -/
structure BarInv (Rd Wr : Nat → Nat → Handle → Nat → Prop) (m' : Mem S) (c : BarState S R) : Prop where
  within : ∀ i, i < G * B → (c.todo i).Within (Rd (c.phase (i / B)) i) (Wr (c.phase (i / B)) i)
  eq : seqFor G (leftOf B P kern r0 c) c.mem = .ok m'

end

section
variable {G B P : Nat} {kern : Kernel S R} {r0 : R} {Rd Wr : Nat → Nat → Handle → Nat → Prop}

theorem group_lt {g l : Nat} (hg : g < G) (hl : l < B) : g * B + l < G * B := by
  have : (g + 1) * B ≤ G * B := Nat.mul_le_mul_right _ hg
  have : (g + 1) * B = g * B + B := by ring
  omega

theorem group_div {g l : Nat} (hl : l < B) : (g * B + l) / B = g := by
  rw [Nat.mul_comm, Nat.mul_add_div (by omega), Nat.div_eq_of_lt hl, Nat.add_zero]

theorem group_mod {g l : Nat} (hl : l < B) : (g * B + l) % B = l := by
  rw [Nat.mul_comm, Nat.mul_add_mod, Nat.mod_eq_of_lt hl]

/-- Cells a group may touch in any phase. -/
def GroupSet (B : Nat) (A : Nat → Nat → Handle → Nat → Prop) (g : Nat) (x : Handle) (j : Nat) : Prop :=
  ∃ p l, l < B ∧ A p (g * B + l) x j

theorem leftOf_within (hrf : RaceFree G B kern Rd Wr) {c : BarState S R}
    (hw : ∀ i, i < G * B → (c.todo i).Within (Rd (c.phase (i / B)) i) (Wr (c.phase (i / B)) i))
    {g : Nat} (hg : g < G) :
    (leftOf B P kern r0 c g).Within (GroupSet B Rd g) (GroupSet B Wr g) := by
  unfold leftOf groupProg
  refine (phaseProg_within fun l hl => ?_).bind fun r => restProg_within _ _ _ fun q l r hl => ?_
  · exact (hw _ (group_lt hg hl)).mono (fun _ _ h => ⟨_, l, hl, h⟩) (fun _ _ h => ⟨_, l, hl, h⟩)
  · exact (hrf.within q _ r (group_lt hg hl)).mono (fun _ _ h => ⟨_, l, hl, h⟩) (fun _ _ h => ⟨_, l, hl, h⟩)

theorem seqFor_split {n g : Nat} (hg : g < n) (body : Nat → Prog S Unit) (m : Mem S) :
    seqFor n body m = (seqFor g body m >>= fun m => (body g).run m >>= fun r =>
      seqFor (n - 1 - g) (fun i => body (g + 1 + i)) r.2) := by
  induction n with
  | zero => omega
  | succ n ih =>
    rw [seqFor_succ]
    by_cases h : g = n
    · subst h
      simp only [Nat.add_sub_cancel, Nat.sub_self]
      rfl
    · rw [ih (by omega), show n + 1 - 1 - g = (n - 1 - g) + 1 by omega]
      cases seqFor g body m with
      | error e => rfl
      | ok m1 =>
        simp only [res_ok_bind]
        cases (body g).run m1 with
        | error e => rfl
        | ok r =>
          simp only [res_ok_bind]
          rw [seqFor_succ, show g + 1 + (n - 1 - g) = n by omega]

/-- Replacing one group's remainder by one with the same effect after a change of memory. -/
theorem seqFor_replace {n g : Nat} (hg : g < n) {b b' : Nat → Prog S Unit} {m m0 m' : Mem S}
    (hoth : ∀ i, i < n → i ≠ g → b' i = b i)
    (hpre : ∀ m1, seqFor g b m = .ok m1 → ∃ m1', seqFor g b m0 = .ok m1' ∧ (b' g).run m1' = (b g).run m1)
    (h : seqFor n b m = .ok m') : seqFor n b' m0 = .ok m' := by
  rw [seqFor_split hg] at h ⊢
  rw [seqFor_congr (b := b') (b' := b) (fun i hi => hoth i (by omega) (by omega))]
  cases h1 : seqFor g b m with
  | error e => rw [h1] at h; cases h
  | ok m1 =>
    obtain ⟨m1', h2, h3⟩ := hpre m1 h1
    rw [h1] at h
    rw [h2]
    simp only [res_ok_bind] at h ⊢
    rw [h3]
    rw [← h]
    congr 1
    funext r
    exact seqFor_congr (fun i hi => hoth _ (by omega) (by omega)) _

theorem barInv_step (hrf : RaceFree G B kern Rd Wr) {c c' : BarState S R} {m' : Mem S}
    (hs : BarStep G B P kern c c') (hinv : BarInv G B P kern r0 Rd Wr m' c) :
    BarInv G B P kern r0 Rd Wr m' c' := by
  obtain ⟨hw, heq⟩ := hinv
  cases hs with
  | read m ph t i hi h j k ht v hv =>
    have hB : 0 < B := by rcases Nat.eq_zero_or_pos B with h0 | h0
                          · subst h0; omega
                          · exact h0
    have hg : i / B < G := Nat.div_lt_of_lt_mul (by rwa [Nat.mul_comm])
    have hl : i % B < B := Nat.mod_lt _ hB
    have hi' : i / B * B + i % B = i := by rw [Nat.mul_comm]; exact Nat.div_add_mod i B
    have hwi := hw i hi
    simp only at hwi ht
    rw [ht] at hwi
    refine ⟨?_, ?_⟩
    · intro i' hi2
      simp only
      split
      · subst_vars; exact hwi.2 v
      · exact hw i' hi2
    · refine seqFor_replace (g := i / B) hg ?_ ?_ heq
      · intro g' hg' hne
        unfold leftOf groupProg
        simp only
        rw [phaseProg_congr]
        intro l hl'
        rw [if_neg]
        rintro rfl
        exact hne (group_div hl').symm
      · intro m1 hm1
        refine ⟨m1, hm1, ?_⟩
        have hc : m1.cell h j = some v := by
          have hcell : ∀ n, n ≤ i / B → ∀ m1, seqFor n (leftOf B P kern r0 ⟨m, ph, t⟩) m = .ok m1 →
              m1.cell h j = m.cell h j := by
            intro n
            induction n with
            | zero => intro _ m1 h1; cases h1; rfl
            | succ n ih =>
              intro hn m1 h1
              rw [seqFor_succ] at h1
              cases h2 : seqFor n (leftOf B P kern r0 ⟨m, ph, t⟩) m with
              | error e => rw [h2] at h1; cases h1
              | ok m2 =>
                rw [h2] at h1
                cases h3 : (leftOf B P kern r0 ⟨m, ph, t⟩ n).run m2 with
                | error e => simp [h3] at h1
                | ok r =>
                  simp [h3] at h1
                  rw [← h1, Prog.run_cell (leftOf_within hrf hw (by omega)) ?_ h3, ih (by omega) m2 h2]
                  rintro ⟨p, l, hl', hW⟩
                  refine (hrf.groups p (ph (i / B)) (n * B + l) i h j (group_lt (by omega) hl') hi ?_ hW).1 hwi.1
                  rw [group_div hl']; omega
          rw [hcell _ (Nat.le_refl _) _ hm1]; exact hv
        unfold leftOf groupProg
        simp only
        rw [Prog.run_bind, Prog.run_bind]
        congr 1
        rw [phaseProg_read (t := fun l => t (i / B * B + l)) (Rd := fun l => Rd (ph (i / B)) (i / B * B + l))
          (Wr := fun l => Wr (ph (i / B)) (i / B * B + l)) (l := i % B) (v := v) (h := h) (j := j) (k := k)
          ?_ ?_ hl (by rw [hi']; exact ht) hc]
        · congr 1
          apply phaseProg_congr
          intro l hl'
          by_cases h1 : l = i % B
          · subst h1; rw [if_pos hi', if_pos rfl]
          · rw [if_neg h1, if_neg]
            intro h2
            apply h1
            rw [← group_mod (g := i / B) hl', h2]
        · intro l hl'
          have := hw _ (group_lt hg hl')
          rw [group_div hl'] at this
          exact this
        · intro l l' x i2 h1 h2 hne
          refine hrf.phase _ _ _ x i2 (group_lt hg h1) (group_lt hg h2) ?_ (by omega)
          rw [group_div h1, group_div h2]
  | write m ph t i hi h j v k ht w hv =>
    have hB : 0 < B := by rcases Nat.eq_zero_or_pos B with h0 | h0
                          · subst h0; omega
                          · exact h0
    have hg : i / B < G := Nat.div_lt_of_lt_mul (by rwa [Nat.mul_comm])
    have hl : i % B < B := Nat.mod_lt _ hB
    have hi' : i / B * B + i % B = i := by rw [Nat.mul_comm]; exact Nat.div_add_mod i B
    have hwi := hw i hi
    simp only at hwi ht
    rw [ht] at hwi
    refine ⟨?_, ?_⟩
    · intro i' hi2
      simp only
      split
      · subst_vars; exact hwi.2
      · exact hw i' hi2
    · refine seqFor_replace (g := i / B) hg ?_ ?_ heq
      · intro g' hg' hne
        unfold leftOf groupProg
        simp only
        rw [phaseProg_congr]
        intro l hl'
        rw [if_neg]
        rintro rfl
        exact hne (group_div hl').symm
      · intro m1 hm1
        refine ⟨m1.setCell h j v, ?_, ?_⟩
        · rw [seqFor_setCell (R := GroupSet B Rd) (W := GroupSet B Wr)
            (fun g' hg' => leftOf_within hrf hw (by omega)) v ?_ ?_, hm1]
          · rfl
          · rintro g' hg' ⟨p, l, hl', hR⟩
            refine (hrf.groups (ph (i / B)) p i (g' * B + l) h j hi (group_lt (by omega) hl') ?_ hwi.1).1 hR
            rw [group_div hl']; omega
          · rintro g' hg' ⟨p, l, hl', hR⟩
            refine (hrf.groups (ph (i / B)) p i (g' * B + l) h j hi (group_lt (by omega) hl') ?_ hwi.1).2 hR
            rw [group_div hl']; omega
        · have hc : (m1.cell h j).isSome := by
            rw [Mem.isSome_cell, seqFor_shape hm1, ← Mem.isSome_cell]
            rw [hv]; rfl
          unfold leftOf groupProg
          simp only
          rw [Prog.run_bind, Prog.run_bind]
          congr 1
          rw [phaseProg_write (t := fun l => t (i / B * B + l)) (Rd := fun l => Rd (ph (i / B)) (i / B * B + l))
            (Wr := fun l => Wr (ph (i / B)) (i / B * B + l)) (l := i % B) (v := v) (h := h) (j := j) (k := k)
            ?_ ?_ hl (by rw [hi']; exact ht) hc]
          · congr 1
            apply phaseProg_congr
            intro l hl'
            by_cases h1 : l = i % B
            · subst h1; rw [if_pos hi', if_pos rfl]
            · rw [if_neg h1, if_neg]
              intro h2
              apply h1
              rw [← group_mod (g := i / B) hl', h2]
          · intro l hl'
            have := hw _ (group_lt hg hl')
            rw [group_div hl'] at this
            exact this
          · intro l l' x i2 h1 h2 hne
            refine hrf.phase _ _ _ x i2 (group_lt hg h1) (group_lt hg h2) ?_ (by omega)
            rw [group_div h1, group_div h2]
  | barrier m ph t g hg r hr hp =>
    refine ⟨?_, ?_⟩
    · intro i hi
      simp only
      by_cases h1 : i / B = g
      · rw [if_pos h1, if_pos h1]
        exact hrf.within _ _ _ hi
      · rw [if_neg h1, if_neg h1]
        exact hw i hi
    · refine seqFor_replace hg ?_ ?_ heq
      · intro g' hg' hne
        unfold leftOf groupProg
        simp only
        rw [if_neg hne, phaseProg_congr]
        intro l hl'
        rw [group_div hl', if_neg hne]
      · intro m1 hm1
        refine ⟨m1, hm1, ?_⟩
        unfold leftOf groupProg
        simp only
        rw [Prog.run_bind, Prog.run_bind, phaseProg_ret (r := fun l => r (g * B + l)) (fun l hl => hr l hl)]
        simp only [res_ok_bind, if_pos]
        rw [show P - 1 - ph g = (P - 1 - (ph g + 1)) + 1 by omega]
        rw [restProg, Prog.run_bind]
        have : (phaseProg B r0 fun l => if (g * B + l) / B = g then kern (ph g + 1) (g * B + l) (r (g * B + l))
            else t (g * B + l)) = phaseProg B r0 (fun l => groupKern B kern g (ph g + 1) l
              (if l < B then r (g * B + l) else r0)) :=
          phaseProg_congr fun l hl => by rw [group_div hl, if_pos rfl, if_pos hl]; rfl
        rw [this]

theorem barInv_run (hrf : RaceFree G B kern Rd Wr) {c c' : BarState S R} {m' : Mem S}
    (hs : BarRun G B P kern c c') (hinv : BarInv G B P kern r0 Rd Wr m' c) :
    BarInv G B P kern r0 Rd Wr m' c' := by
  induction hs with
  | refl => exact hinv
  | step _ h ih => exact barInv_step hrf h ih

/-- The kernel, group after group and phase after phase. -/
def seqKernel (G B P : Nat) (kern : Kernel S R) (r0 : R) (m : Mem S) : Res (Mem S) :=
  seqFor G (leftOf B P kern r0 (BarState.start kern r0 m)) m

/-- A race-free kernel that can be run group after group has this outcome in every execution. -/
theorem launch_eq_seq {launch : Launch S R} (hl : IsLaunch launch) (hrf : RaceFree G B kern Rd Wr)
    {m m' : Mem S} (hs : seqKernel G B P kern r0 m = .ok m') : launch G B P kern r0 m = .ok m' := by
  have hinv : BarInv G B P kern r0 Rd Wr m' (BarState.start kern r0 m) :=
    ⟨fun i hi => hrf.within _ _ _ hi, hs⟩
  cases h : launch G B P kern r0 m with
  | error e =>
    obtain ⟨c, hr, i, hi, hf⟩ := (hl G B P kern r0 m).2 e h
    have hc := barInv_run hrf hr hinv
    have hB : 0 < B := by rcases Nat.eq_zero_or_pos B with h0 | h0
                          · subst h0; omega
                          · exact h0
    have hg : i / B < G := Nat.div_lt_of_lt_mul (by rwa [Nat.mul_comm])
    have hl' : i % B < B := Nat.mod_lt _ hB
    have hi' : i / B * B + i % B = i := by rw [Nat.mul_comm]; exact Nat.div_add_mod i B
    have heq := hc.eq
    rw [seqFor_split hg] at heq
    cases h1 : seqFor (i / B) (leftOf B P kern r0 c) c.mem with
    | error e => rw [h1] at heq; cases heq
    | ok m1 =>
      rw [h1] at heq
      simp only [res_ok_bind] at heq
      have hsh : ∀ h j, c.mem.cell h j = none → m1.cell h j = none := by
        intro h j hcc
        have : (m1.cell h j).isSome = false := by
          rw [Mem.isSome_cell, seqFor_shape h1, ← Mem.isSome_cell, hcc]; rfl
        simpa using this
      cases h2 : (leftOf B P kern r0 c (i / B)).run m1 with
      | error e => rw [h2] at heq; cases heq
      | ok r =>
        exfalso
        unfold leftOf groupProg at h2
        rw [Prog.run_bind] at h2
        cases h3 : (phaseProg B r0 fun l => c.todo (i / B * B + l)).run m1 with
        | error e => rw [h3] at h2; cases h2
        | ok a =>
          refine phaseProg_faulty (l := i % B) hl' ?_ a h3
          rw [hi']
          rcases hf with ⟨h, j, k, ht, hn⟩ | ⟨h, j, v, k, ht, hn⟩
          · exact Or.inl ⟨h, j, k, ht, hsh _ _ hn⟩
          · exact Or.inr ⟨h, j, v, k, ht, hsh _ _ hn⟩
  | ok m'' =>
    obtain ⟨c, hr, ⟨hd1, hd2⟩, hm⟩ := (hl G B P kern r0 m).1 m'' h
    have hc := barInv_run hrf hr hinv
    have heq := hc.eq
    have : ∀ n, n ≤ G → seqFor n (leftOf B P kern r0 c) c.mem = .ok c.mem := by
      intro n
      induction n with
      | zero => intro _; rfl
      | succ n ih =>
        intro hn
        rw [seqFor_succ, ih (by omega)]
        simp only [res_ok_bind]
        have hrest : P - 1 - c.phase n = 0 := by have := hd1 n (by omega); omega
        have hret : ∃ r : Nat → R, ∀ l, l < B → c.todo (n * B + l) = .ret (r l) := by
          refine ⟨fun l => if h : l < B then Classical.choose (hd2 (n * B + l) (group_lt hn h)) else r0, ?_⟩
          intro l hl
          simp only [dif_pos hl]
          exact Classical.choose_spec (hd2 (n * B + l) (group_lt hn hl))
        obtain ⟨r, hr'⟩ := hret
        unfold leftOf groupProg
        rw [Prog.run_bind, phaseProg_ret hr']
        simp only [res_ok_bind, hrest]
        rfl
    rw [this G (Nat.le_refl _)] at heq
    cases heq
    rw [hm]

end

/-! ### Every kernel has an execution -/

section Exists
variable {S R : Type} {G B P : Nat} {kern : Kernel S R}

theorem BarRun.trans {a b c : BarState S R} (h1 : BarRun G B P kern a b) (h2 : BarRun G B P kern b c) :
    BarRun G B P kern a c := by
  induction h2 with
  | refl => exact h1
  | step _ h ih => exact .step ih h

/-- One work item can be run to its barrier. -/
theorem item_runs {i : Nat} (hi : i < G * B) (p : Prog S R) :
    ∀ (m : Mem S) (ph : Nat → Nat) (t : Nat → Prog S R), t i = p →
      ∃ c, BarRun G B P kern ⟨m, ph, t⟩ c ∧
        (c.Faulty G B ∨ (c.phase = ph ∧ (∃ r, c.todo i = .ret r) ∧ ∀ i', i' ≠ i → c.todo i' = t i')) := by
  induction p with
  | ret a => exact fun m ph t ht => ⟨_, .refl _, Or.inr ⟨rfl, ⟨a, ht⟩, fun _ _ => rfl⟩⟩
  | read h j k ih =>
    intro m ph t ht
    cases hv : m.cell h j with
    | none => exact ⟨_, .refl _, Or.inl ⟨i, hi, Or.inl ⟨h, j, k, ht, hv⟩⟩⟩
    | some v =>
      obtain ⟨c, h1, h2⟩ := ih v m ph (fun i' => if i' = i then k v else t i') (if_pos rfl)
      refine ⟨c, (BarRun.step (.refl _) (.read m ph t i hi h j k ht v hv)).trans h1, h2.imp id ?_⟩
      rintro ⟨a, b, d⟩
      exact ⟨a, b, fun i' hne => (d i' hne).trans (if_neg hne)⟩
  | write h j v k ih =>
    intro m ph t ht
    cases hv : m.cell h j with
    | none => exact ⟨_, .refl _, Or.inl ⟨i, hi, Or.inr ⟨h, j, v, k, ht, hv⟩⟩⟩
    | some w =>
      obtain ⟨c, h1, h2⟩ := ih (m.setCell h j v) ph (fun i' => if i' = i then k else t i') (if_pos rfl)
      refine ⟨c, (BarRun.step (.refl _) (.write m ph t i hi h j v k ht w hv)).trans h1, h2.imp id ?_⟩
      rintro ⟨a, b, d⟩
      exact ⟨a, b, fun i' hne => (d i' hne).trans (if_neg hne)⟩

/-- All work items can be run to their barriers. -/
theorem items_run : ∀ n, n ≤ G * B → ∀ c : BarState S R,
    ∃ c', BarRun G B P kern c c' ∧
      (c'.Faulty G B ∨ (c'.phase = c.phase ∧ ∀ i, i < n → ∃ r, c'.todo i = .ret r)) := by
  intro n
  induction n with
  | zero => exact fun _ c => ⟨c, .refl _, Or.inr ⟨rfl, fun i hi => absurd hi (Nat.not_lt_zero i)⟩⟩
  | succ n ih =>
    intro hn c
    obtain ⟨c1, h1, h2⟩ := ih (by omega) c
    rcases h2 with h2 | ⟨h2, h3⟩
    · exact ⟨c1, h1, Or.inl h2⟩
    · obtain ⟨c2, a1, a2⟩ := item_runs (G := G) (B := B) (P := P) (kern := kern) (i := n) (by omega) (c1.todo n) c1.mem c1.phase
        c1.todo rfl
      refine ⟨c2, h1.trans a1, a2.imp id ?_⟩
      rintro ⟨b1, b2, b3⟩
      refine ⟨b1.trans h2, fun i hi => ?_⟩
      rcases Nat.lt_succ_iff_lt_or_eq.1 hi with hi | rfl
      · rw [b3 i (by omega)]; exact h3 i hi
      · exact b2

/-- Phases left. -/
def phasesLeft (P : Nat) (ph : Nat → Nat) : Nat → Nat
  | 0 => 0
  | G + 1 => phasesLeft P ph G + (P - 1 - ph G)

theorem phasesLeft_lt {ph : Nat → Nat} {g : Nat} (hp : ph g + 1 < P) : ∀ {G}, g < G →
    phasesLeft P (fun g' => if g' = g then ph g + 1 else ph g') G < phasesLeft P ph G := by
  have le : ∀ G, phasesLeft P (fun g' => if g' = g then ph g + 1 else ph g') G ≤ phasesLeft P ph G := by
    intro G
    induction G with
    | zero => exact Nat.le_refl _
    | succ G ih =>
      simp only [phasesLeft]
      split
      · next e => subst e; omega
      · omega
  intro G
  induction G with
  | zero => intro h; omega
  | succ G ih =>
    intro h
    have := le G
    simp only [phasesLeft]
    split
    · next e => subst e; omega
    · have := ih (by omega); omega

theorem kernel_runs (r0 : R) : ∀ n (c : BarState S R), phasesLeft P c.phase G ≤ n →
    ∃ c', BarRun G B P kern c c' ∧ (c'.Faulty G B ∨ c'.Done G B P) := by
  intro n
  induction n with
  | zero =>
    intro c hn
    obtain ⟨c1, h1, h2⟩ := items_run (P := P) (kern := kern) (G * B) (Nat.le_refl _) c
    refine ⟨c1, h1, h2.imp id ?_⟩
    rintro ⟨h2, h3⟩
    refine ⟨fun g hg hp => ?_, h3⟩
    have := phasesLeft_lt (ph := c.phase) (by rw [h2] at hp; exact hp) hg
    omega
  | succ n ih =>
    intro c hn
    obtain ⟨c1, h1, h2⟩ := items_run (P := P) (kern := kern) (G * B) (Nat.le_refl _) c
    rcases h2 with h2 | ⟨h2, h3⟩
    · exact ⟨c1, h1, Or.inl h2⟩
    · by_cases hd : ∃ g, g < G ∧ c1.phase g + 1 < P
      · obtain ⟨g, hg, hp⟩ := hd
        have hr : ∃ r : Nat → R, ∀ l, l < B → c1.todo (g * B + l) = .ret (r (g * B + l)) := by
          have : ∀ i, ∃ r : R, i < G * B → c1.todo i = .ret r := fun i => by
            by_cases hi : i < G * B
            · obtain ⟨r, hr⟩ := h3 i hi
              exact ⟨r, fun _ => hr⟩
            · exact ⟨r0, fun h => absurd h hi⟩
          exact ⟨fun i => (this i).choose, fun l hl => (this (g * B + l)).choose_spec (group_lt hg hl)⟩
        obtain ⟨r, hr⟩ := hr
        obtain ⟨c2, a1, a2⟩ := ih ⟨c1.mem, fun g' => if g' = g then c1.phase g + 1 else c1.phase g',
            fun i => if i / B = g then kern (c1.phase g + 1) i (r i) else c1.todo i⟩ (by
          have := phasesLeft_lt (ph := c1.phase) hp hg
          rw [h2] at this
          simp only [h2]
          omega)
        exact ⟨c2, (h1.step (.barrier c1.mem c1.phase c1.todo g hg r hr hp)).trans a1, a2⟩
      · exact ⟨c1, h1, Or.inr ⟨fun g hg hp => hd ⟨g, hg, hp⟩, h3⟩⟩

/-- There are implementations: every kernel can be run until it is done or faulty. -/
theorem exists_launch (S R : Type) : ∃ launch : Launch S R, IsLaunch launch := by
  classical
  have h : ∀ (G B P : Nat) (kern : Kernel S R) (r0 : R) (m : Mem S), ∃ x : Res (Mem S),
      (∀ m', x = .ok m' → ∃ c, BarRun G B P kern (BarState.start kern r0 m) c ∧ c.Done G B P ∧ c.mem = m') ∧
      (∀ e, x = .error e → ∃ c, BarRun G B P kern (BarState.start kern r0 m) c ∧ c.Faulty G B) := by
    intro G B P kern r0 m
    obtain ⟨c, h1, h2⟩ := kernel_runs (G := G) (B := B) (P := P) (kern := kern) r0 _
      (BarState.start kern r0 m) (Nat.le_refl _)
    rcases h2 with h2 | h2
    · exact ⟨.error .oob, fun m' e => by injection e, fun _ _ => ⟨c, h1, h2⟩⟩
    · exact ⟨.ok c.mem, fun m' e => ⟨c, h1, h2, by injection e⟩, fun _ e => by injection e⟩
  choose f hf using h
  exact ⟨f, hf⟩

end Exists

end NB
