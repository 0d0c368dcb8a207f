import Verif.Lemmas.GpuKernel
import Verif.Lemmas.EngineSimple

/-
The dense force kernel run group after group, and that its work items do not race.
-/

namespace NB

section Rules
variable {S R : Type}

open Classical in
/-- Rule for one phase of a group whose work items write only cells of their own. -/
theorem phaseProg_owned {B : Nat} {r0 : R} {t : Nat → Prog S R} {m : Mem S}
    (T : Nat → Handle → Nat → Prop) (val : Handle → Nat → S) (reg : Nat → R)
    (hb : ∀ l m', l < B → m'.shape = m.shape →
      (∀ x j, (∀ l', l' < l → ¬ T l' x j) → m'.cell x j = m.cell x j) →
      ∃ m'', (t l).run m' = .ok (reg l, m'') ∧
        (∀ x j, m''.cell x j = if T l x j then some (val x j) else m'.cell x j)) :
    ∃ m', (phaseProg B r0 t).run m = .ok (fun l => if l < B then reg l else r0, m') ∧ m'.shape = m.shape ∧
      ∀ x j, m'.cell x j = if (∃ l, l < B ∧ T l x j) then some (val x j) else m.cell x j := by
  induction B with
  | zero =>
    refine ⟨m, ?_, rfl, fun x j => ?_⟩
    · show Except.ok _ = _
      simp
    · rw [if_neg]; rintro ⟨l, hl, _⟩; omega
  | succ B ih =>
    obtain ⟨m1, h1, h2, h3⟩ := ih fun l m' hl => hb l m' (by omega)
    obtain ⟨m2, h4, h5⟩ := hb B m1 (by omega) h2 (fun x j hno => by
      rw [h3, if_neg]; rintro ⟨l, hl, ht⟩; exact hno l hl ht)
    refine ⟨m2, ?_, by rw [Prog.run_shape h4, h2], fun x j => ?_⟩
    · rw [phaseProg_succ, Prog.run_bind, h1]
      simp only [res_ok_bind, Prog.run_bind, h4]
      show Except.ok _ = _
      congr 2
      funext l
      by_cases e : l = B
      · subst e; simp
      · by_cases e' : l < B
        · simp [e, e', show l < B + 1 by omega]
        · simp [e, e', show ¬ l < B + 1 by omega]
    · rw [h5]
      by_cases e1 : T B x j
      · rw [if_pos e1, if_pos ⟨B, by omega, e1⟩]
      · rw [if_neg e1, h3]
        by_cases e2 : ∃ l, l < B ∧ T l x j
        · obtain ⟨l, hl, ht⟩ := e2
          rw [if_pos ⟨l, hl, ht⟩, if_pos ⟨l, by omega, ht⟩]
        · rw [if_neg e2, if_neg]
          rintro ⟨l, hl, ht⟩
          by_cases e : l = B
          · subst e; exact e1 ht
          · exact e2 ⟨l, by omega, ht⟩

open Classical in
/-- Rule for loops that write cells of their own and scratch cells outside `V`. -/
theorem seqFor_visible {n : Nat} {body : Nat → Prog S Unit} {m : Mem S}
    (V : Handle → Prop) (T : Nat → Handle → Nat → Prop) (val : Handle → Nat → S)
    (hb : ∀ i m', i < n → m'.shape = m.shape →
      (∀ x j, V x → (∀ i', i' < i → ¬ T i' x j) → m'.cell x j = m.cell x j) →
      ∃ m'', (body i).run m' = .ok ((), m'') ∧
        (∀ x j, V x → m''.cell x j = if T i x j then some (val x j) else m'.cell x j)) :
    ∃ m', seqFor n body m = .ok m' ∧ m'.shape = m.shape ∧
      ∀ x j, V x → m'.cell x j = if (∃ i, i < n ∧ T i x j) then some (val x j) else m.cell x j := by
  have := forN_inv (n := n) (s := m) (f := fun i m => do let r ← (body i).run m; pure r.2)
    (fun k m' => m'.shape = m.shape ∧ ∀ x j, V x → m'.cell x j =
        if (∃ i, i < k ∧ T i x j) then some (val x j) else m.cell x j)
    ?_ ?_
  · obtain ⟨t, h1, h2, h3⟩ := this
    exact ⟨t, h1, h2, h3⟩
  · refine ⟨rfl, fun x j _ => ?_⟩
    rw [if_neg]
    rintro ⟨i, h, _⟩; omega
  · rintro i m' hi ⟨hs, hc⟩
    obtain ⟨m'', hrun, hc''⟩ := hb i m' hi hs (fun x j hV hno => by
      rw [hc x j hV, if_neg]
      rintro ⟨i', hi', ht⟩; exact hno i' hi' ht)
    refine ⟨m'', by simp [hrun], ?_, ?_⟩
    · rw [Prog.run_shape hrun, hs]
    · intro x j hV
      rw [hc'' x j hV]
      by_cases h1 : T i x j
      · rw [if_pos h1, if_pos ⟨i, by omega, h1⟩]
      · rw [if_neg h1, hc x j hV]
        by_cases h2 : ∃ o, o < i ∧ T o x j
        · obtain ⟨o, hlt, ho⟩ := h2
          rw [if_pos ⟨o, hlt, ho⟩, if_pos ⟨o, by omega, ho⟩]
        · rw [if_neg h2, if_neg]
          rintro ⟨o, hlt, ho⟩
          by_cases ho' : o = i
          · subst ho'; exact h1 ho
          · exact h2 ⟨o, by omega, ho⟩

/-- The launch of one group is all its phases. -/
theorem leftOf_start (B P : Nat) (hP : 0 < P) (kern : Kernel S R) (r0 : R) (m : Mem S) (g : Nat) :
    leftOf B P kern r0 (BarState.start kern r0 m) g =
      restProg B r0 (groupKern B kern g) P 0 (fun _ => r0) := by
  obtain ⟨P, rfl⟩ : ∃ q, P = q + 1 := ⟨P - 1, by omega⟩
  rfl

end Rules

section Dense
variable {S : Type} [Add S] [Sub S] [Mul S] [Neg S] [Div S] [Zero S] [One S] [FOps S]

/-- Contribution of tile `t` to the acceleration at `p`. -/
def tileSum (n B : Nat) (Y M : Nat → S) (p : Vec3 S) (t : Nat) : Vec3 S :=
  foldN B 0 (fun l loc => denseTerm p (posOf n Y (t * B + l)) (M (t * B + l)) loc)

/-- Acceleration at `p`: sum over tiles of sums over the bodies of a tile. -/
def tiledAcc (n B : Nat) (Y M : Nat → S) (p : Vec3 S) (T : Nat) : Vec3 S :=
  foldN T 0 (fun t acc => acc + tileSum n B Y M p t)

omit [Neg S] [One S] in
/-- What the dense kernel stores at index `idx` of `f`. -/
def denseVal (n B : Nat) (Y M : Nat → S) (idx : Nat) : S :=
  let a := tiledAcc n B Y M (posOf n Y (idx % n)) (tiles n B)
  if idx < 3 * n then Y (3 * n + idx)
  else if idx < 4 * n then a.x
  else if idx < 5 * n then a.y
  else a.z

/-- What local memory holds while tile `t` is worked on. -/
def loadVal (n B : Nat) (Y M : Nat → S) (sh : Nat → Handle) (t : Nat) (x : Handle) (l : Nat) : S :=
  if x = sh 0 then Y (t * B + l)
  else if x = sh 1 then Y (n + (t * B + l))
  else if x = sh 2 then Y (2 * n + (t * B + l))
  else M (t * B + l)

/-- The handles of a group. -/
structure DenseHandles (hm y f : Handle) (sh : Nat → Handle) : Prop where
  inj : ∀ k k', k < 4 → k' < 4 → sh k = sh k' → k = k'
  neM : ∀ k, k < 4 → sh k ≠ hm
  neY : ∀ k, k < 4 → sh k ≠ y
  neF : ∀ k, k < 4 → sh k ≠ f
  yf : y ≠ f
  mf : hm ≠ f

/-- What a group needs of memory. -/
structure DenseMem (n B : Nat) (Y M : Nat → S) (hm y f : Handle) (sh : Nat → Handle) (m : Mem S) : Prop where
  cy : ∀ j, j < 6 * n → m.cell y j = some (Y j)
  cm : ∀ j, j < n → m.cell hm j = some (M j)
  cf : ∀ j, j < 6 * n → (m.cell f j).isSome
  cs : ∀ k l, k < 4 → l < B → (m.cell (sh k) l).isSome

omit [Add S] [Sub S] [Mul S] [Neg S] [Div S] [Zero S] [One S] [FOps S] in
theorem isSome_of_shape {m m' : Mem S} (hs : m'.shape = m.shape) {x : Handle} {j : Nat}
    (h : (m.cell x j).isSome) : (m'.cell x j).isSome := by
  rw [Mem.isSome_cell] at h ⊢; rw [hs]; exact h

variable {n B : Nat} {Y M : Nat → S} {hm y f : Handle} {sh : Nat → Handle}

omit [Add S] [Sub S] [Mul S] [Neg S] [Div S] [Zero S] [One S] [FOps S] in
theorem DenseMem.next {m m' : Mem S} (h : DenseMem n B Y M hm y f sh m) (hs : m'.shape = m.shape)
    (hy : ∀ j, m'.cell y j = m.cell y j) (hM : ∀ j, m'.cell hm j = m.cell hm j) :
    DenseMem n B Y M hm y f sh m' :=
  ⟨fun j hj => by rw [hy, h.cy j hj], fun j hj => by rw [hM, h.cm j hj],
   fun j hj => isSome_of_shape hs (h.cf j hj), fun k l hk hl => isSome_of_shape hs (h.cs k l hk hl)⟩

omit [Add S] [Sub S] [Mul S] [Neg S] [Div S] [Zero S] [One S] [FOps S] in
open Classical in
theorem denseLoad_run (hh : DenseHandles hm y f sh) {m : Mem S} (h : DenseMem n B Y M hm y f sh m)
    {t l : Nat} (hl : l < B) (hn : t * B + l < n) :
    ∃ m', (denseLoad n B hm y sh t l : Prog S Unit).run m = .ok ((), m') ∧ m'.shape = m.shape ∧
      ∀ x j, m'.cell x j = if (∃ k, k < 4 ∧ x = sh k) ∧ j = l then some (loadVal n B Y M sh t x j)
        else m.cell x j := by
  have i01 : sh 0 ≠ sh 1 := fun e => by have := hh.inj 0 1 (by omega) (by omega) e; omega
  have i02 : sh 0 ≠ sh 2 := fun e => by have := hh.inj 0 2 (by omega) (by omega) e; omega
  have i03 : sh 0 ≠ sh 3 := fun e => by have := hh.inj 0 3 (by omega) (by omega) e; omega
  have i12 : sh 1 ≠ sh 2 := fun e => by have := hh.inj 1 2 (by omega) (by omega) e; omega
  have i13 : sh 1 ≠ sh 3 := fun e => by have := hh.inj 1 3 (by omega) (by omega) e; omega
  have i23 : sh 2 ≠ sh 3 := fun e => by have := hh.inj 2 3 (by omega) (by omega) e; omega
  have step : ∀ (m : Mem S), DenseMem n B Y M hm y f sh m → ∀ k v, k < 4 →
      DenseMem n B Y M hm y f sh (m.setCell (sh k) l v) := by
    intro m h k v hk
    refine h.next (by simp) (fun j => ?_) (fun j => ?_)
    · rw [Mem.cell_setCell, if_neg (fun e => hh.neY k hk e.1.symm)]
    · rw [Mem.cell_setCell, if_neg (fun e => hh.neM k hk e.1.symm)]
  have s1 := step m h 0 (Y (t * B + l)) (by omega)
  have s2 := step _ s1 1 (Y (n + (t * B + l))) (by omega)
  have s3 := step _ s2 2 (Y (2 * n + (t * B + l))) (by omega)
  refine ⟨(((m.setCell (sh 0) l (Y (t * B + l))).setCell (sh 1) l (Y (n + (t * B + l)))).setCell (sh 2) l
    (Y (2 * n + (t * B + l)))).setCell (sh 3) l (M (t * B + l)), ?_, by simp, ?_⟩
  · unfold denseLoad
    simp only [Prog.run_bind, Prog.run_get (h.cy _ (show t * B + l < 6 * n by omega)), res_ok_bind,
      Prog.run_put _ (h.cs 0 l (by omega) hl)]
    simp only [Prog.run_get (s1.cy _ (show n + (t * B + l) < 6 * n by omega)), res_ok_bind,
      Prog.run_put _ (s1.cs 1 l (by omega) hl)]
    simp only [Prog.run_get (s2.cy _ (show 2 * n + (t * B + l) < 6 * n by omega)), res_ok_bind,
      Prog.run_put _ (s2.cs 2 l (by omega) hl)]
    simp only [Prog.run_get (s3.cm _ hn), res_ok_bind, Prog.run_put _ (s3.cs 3 l (by omega) hl)]
  · intro x j
    have g : ∀ k, k < 4 → ∃ v, m.cell (sh k) l = some v := fun k hk =>
      Option.isSome_iff_exists.1 (h.cs k l hk hl)
    by_cases hj : j = l
    · subst hj
      by_cases e0 : x = sh 0
      · subst e0
        obtain ⟨v, hv⟩ := g 0 (by omega)
        rw [if_pos ⟨⟨0, by omega, rfl⟩, rfl⟩]
        simp [Mem.cell_setCell, i01, i02, i03, hv, loadVal]
      by_cases e1 : x = sh 1
      · subst e1
        obtain ⟨v, hv⟩ := g 1 (by omega)
        rw [if_pos ⟨⟨1, by omega, rfl⟩, rfl⟩]
        simp [Mem.cell_setCell, i12, i13, Ne.symm i01, hv, loadVal]
      by_cases e2 : x = sh 2
      · subst e2
        obtain ⟨v, hv⟩ := g 2 (by omega)
        rw [if_pos ⟨⟨2, by omega, rfl⟩, rfl⟩]
        simp [Mem.cell_setCell, i23, Ne.symm i02, Ne.symm i12, hv, loadVal]
      by_cases e3 : x = sh 3
      · subst e3
        obtain ⟨v, hv⟩ := g 3 (by omega)
        rw [if_pos ⟨⟨3, by omega, rfl⟩, rfl⟩]
        simp [Mem.cell_setCell, Ne.symm i03, Ne.symm i13, Ne.symm i23, hv, loadVal]
      rw [if_neg]
      · simp [Mem.cell_setCell, e0, e1, e2, e3]
      · rintro ⟨⟨k, hk, rfl⟩, _⟩
        have : k = 0 ∨ k = 1 ∨ k = 2 ∨ k = 3 := by omega
        rcases this with rfl | rfl | rfl | rfl
        · exact e0 rfl
        · exact e1 rfl
        · exact e2 rfl
        · exact e3 rfl
    · rw [if_neg (fun e => hj e.2)]
      simp [Mem.cell_setCell, hj]

omit [Neg S] [One S] in
theorem denseTile_run (hh : DenseHandles hm y f sh) {m : Mem S} {t : Nat}
    (h : ∀ k l, k < 4 → l < B → m.cell (sh k) l = some (loadVal n B Y M sh t (sh k) l)) (r : DenseReg S) :
    (denseTile B sh r).run m = .ok ({ r with loc := tileSum n B Y M r.pos t }, m) := by
  have i01 : sh 1 ≠ sh 0 := fun e => by have := hh.inj 1 0 (by omega) (by omega) e; omega
  have i02 : sh 2 ≠ sh 0 := fun e => by have := hh.inj 2 0 (by omega) (by omega) e; omega
  have i03 : sh 3 ≠ sh 0 := fun e => by have := hh.inj 3 0 (by omega) (by omega) e; omega
  have i12 : sh 2 ≠ sh 1 := fun e => by have := hh.inj 2 1 (by omega) (by omega) e; omega
  have i13 : sh 3 ≠ sh 1 := fun e => by have := hh.inj 3 1 (by omega) (by omega) e; omega
  have i23 : sh 3 ≠ sh 2 := fun e => by have := hh.inj 3 2 (by omega) (by omega) e; omega
  unfold denseTile
  rw [Prog.run_bind, Prog.run_forN_pure (g := fun l loc =>
    denseTerm r.pos (posOf n Y (t * B + l)) (M (t * B + l)) loc)]
  · rfl
  · intro l loc hl
    have h0 := h 0 l (by omega) hl
    have h1 := h 1 l (by omega) hl
    have h2 := h 2 l (by omega) hl
    have h3 := h 3 l (by omega) hl
    simp only [Prog.run_bind, Prog.run_get h0, Prog.run_get h1, Prog.run_get h2, Prog.run_get h3, res_ok_bind]
    simp [loadVal, i01, i02, i03, i12, i13, i23, posOf, Prog.run, pure]

omit [Add S] [Sub S] [Mul S] [Neg S] [Div S] [Zero S] [One S] [FOps S] in
open Classical in
theorem denseVel_run (hh : DenseHandles hm y f sh) {m : Mem S} (h : DenseMem n B Y M hm y f sh m)
    {n1 : Nat} (hn : n1 < n) :
    ∃ m', (denseVel n y f n1 : Prog S Unit).run m = .ok ((), m') ∧ m'.shape = m.shape ∧
      ∀ x j, m'.cell x j = if x = f ∧ j < 3 * n ∧ j % n = n1 then some (Y (3 * n + j)) else m.cell x j := by
  have step : ∀ (m : Mem S), DenseMem n B Y M hm y f sh m → ∀ j v,
      DenseMem n B Y M hm y f sh (m.setCell f j v) := by
    intro m h j v
    refine h.next (by simp) (fun i => ?_) (fun i => ?_)
    · rw [Mem.cell_setCell, if_neg (fun e => hh.yf e.1)]
    · rw [Mem.cell_setCell, if_neg (fun e => hh.mf e.1)]
  have s1 := step m h n1 (Y (3 * n + n1))
  have s2 := step _ s1 (n + n1) (Y (4 * n + n1))
  refine ⟨((m.setCell f n1 (Y (3 * n + n1))).setCell f (n + n1) (Y (4 * n + n1))).setCell f (2 * n + n1)
    (Y (5 * n + n1)), ?_, by simp, ?_⟩
  · unfold denseVel
    simp only [Prog.run_bind, Prog.run_get (h.cy _ (show 3 * n + n1 < 6 * n by omega)), res_ok_bind,
      Prog.run_put _ (h.cf n1 (by omega))]
    simp only [Prog.run_get (s1.cy _ (show 4 * n + n1 < 6 * n by omega)), res_ok_bind,
      Prog.run_put _ (s1.cf (n + n1) (by omega))]
    simp only [Prog.run_get (s2.cy _ (show 5 * n + n1 < 6 * n by omega)), res_ok_bind,
      Prog.run_put _ (s2.cf (2 * n + n1) (by omega))]
  · intro x j
    by_cases hx : x = f
    swap
    · rw [if_neg (fun e => hx e.1)]; simp [Mem.cell_setCell, hx]
    subst hx
    by_cases hj : j < 3 * n
    swap
    · rw [if_neg (fun e => hj e.2.1)]
      simp [Mem.cell_setCell, show j ≠ n1 by omega, show j ≠ n + n1 by omega, show j ≠ 2 * n + n1 by omega]
    have key := bodyOf_eq (n := n) (i := n1) hn (show j < 6 * n by omega)
    unfold bodyOf at key
    obtain ⟨v, hv⟩ := Option.isSome_iff_exists.1 (h.cf j (by omega))
    have n0 : n ≠ 0 := by omega
    have e12 : ¬ n = 2 * n := by omega
    have e21 : ¬ 2 * n = n := by omega
    by_cases hb : j % n = n1
    · rw [if_pos ⟨rfl, hj, hb⟩]
      rcases key.1 hb with e | e | e | e | e | e
      · subst e
        simp [Mem.cell_setCell, hv, n0, e12, e21]
      · subst e
        simp [Mem.cell_setCell, hv, n0, e12, e21,
          show 3 * n + (n + n1) = 4 * n + n1 by omega]
      · subst e
        simp [Mem.cell_setCell, hv, n0, e12, e21,
          show 3 * n + (2 * n + n1) = 5 * n + n1 by omega]
      all_goals omega
    · rw [if_neg (fun e => hb e.2.2)]
      have : ¬ _ := fun e => hb (key.2 e)
      simp only [not_or] at this
      obtain ⟨b0, b1, b2, _⟩ := this
      simp [Mem.cell_setCell, b0, b1, b2]

/-- Acceleration components by index. -/
def accVal (n : Nat) (a : Vec3 S) (idx : Nat) : S :=
  if idx < 4 * n then a.x else if idx < 5 * n then a.y else a.z

omit [Add S] [Sub S] [Mul S] [Neg S] [Div S] [Zero S] [One S] [FOps S] in
open Classical in
theorem denseStore_run {m : Mem S} (h : DenseMem n B Y M hm y f sh m) (r : DenseReg S)
    {n1 : Nat} (hn : n1 < n) :
    ∃ m', (denseStore n f n1 r : Prog S Unit).run m = .ok ((), m') ∧ m'.shape = m.shape ∧
      ∀ x j, m'.cell x j = if x = f ∧ 3 * n ≤ j ∧ j < 6 * n ∧ j % n = n1 then some (accVal n r.res j)
        else m.cell x j := by
  have c1 : ((m.setCell f (3 * n + n1) r.res.x).cell f (4 * n + n1)).isSome :=
    isSome_of_shape (by simp) (h.cf (4 * n + n1) (by omega))
  have c2 : (((m.setCell f (3 * n + n1) r.res.x).setCell f (4 * n + n1) r.res.y).cell f (5 * n + n1)).isSome :=
    isSome_of_shape (by simp) (h.cf (5 * n + n1) (by omega))
  refine ⟨((m.setCell f (3 * n + n1) r.res.x).setCell f (4 * n + n1) r.res.y).setCell f (5 * n + n1) r.res.z,
    ?_, by simp, ?_⟩
  · unfold denseStore
    simp only [Prog.run_bind, Prog.run_put _ (h.cf (3 * n + n1) (by omega)), res_ok_bind,
      Prog.run_put _ c1, Prog.run_put _ c2]
  · intro x j
    by_cases hx : x = f
    swap
    · rw [if_neg (fun e => hx e.1)]; simp [Mem.cell_setCell, hx]
    subst hx
    by_cases hj : 3 * n ≤ j ∧ j < 6 * n
    swap
    · rw [if_neg (fun e => hj ⟨e.2.1, e.2.2.1⟩)]
      simp [Mem.cell_setCell, show j ≠ 3 * n + n1 by omega, show j ≠ 4 * n + n1 by omega,
        show j ≠ 5 * n + n1 by omega]
    have key := bodyOf_eq (n := n) (i := n1) hn hj.2
    unfold bodyOf at key
    obtain ⟨v, hv⟩ := Option.isSome_iff_exists.1 (h.cf j hj.2)
    have n0 : n ≠ 0 := by omega
    have e12 : ¬ n = 2 * n := by omega
    have e21 : ¬ 2 * n = n := by omega
    by_cases hb : j % n = n1
    · rw [if_pos ⟨rfl, hj.1, hj.2, hb⟩]
      rcases key.1 hb with e | e | e | e | e | e
      · omega
      · omega
      · omega
      · subst e
        simp [Mem.cell_setCell, hv, n0, accVal, show 3 * n + n1 < 4 * n by omega]
      · subst e
        simp [Mem.cell_setCell, hv, n0, accVal, show 4 * n + n1 < 5 * n by omega]
      · subst e
        simp [Mem.cell_setCell, hv, n0, accVal, show ¬ 5 * n + n1 < 4 * n by omega]
    · rw [if_neg (fun e => hb e.2.2.2)]
      have : ¬ _ := fun e => hb (key.2 e)
      simp only [not_or] at this
      obtain ⟨_, _, _, b0, b1, b2⟩ := this
      simp [Mem.cell_setCell, b0, b1, b2]

/-- Private variables at the copies of tile `t`, work item with body `n1`. -/
def regEven (n B : Nat) (Y M : Nat → S) (n1 t : Nat) : DenseReg S :=
  ⟨posOf n Y n1, tiledAcc n B Y M (posOf n Y n1) t,
    if t = 0 then 0 else tileSum n B Y M (posOf n Y n1) (t - 1)⟩

/-- Private variables after tile `t`. -/
def regOdd (n B : Nat) (Y M : Nat → S) (n1 t : Nat) : DenseReg S :=
  ⟨posOf n Y n1, tiledAcc n B Y M (posOf n Y n1) t, tileSum n B Y M (posOf n Y n1) t⟩

omit [Neg S] [One S] in
/-- The beginning of an even phase. -/
theorem denseHead_run {m : Mem S} (h : DenseMem n B Y M hm y f sh m) {n1 : Nat} (hn : n1 < n) {t : Nat}
    {r : DenseReg S} (hr : 0 < t → r = regOdd n B Y M n1 (t - 1)) :
    (if 2 * t = 0 then denseStart n y n1 else pure { r with res := r.res + r.loc } : Prog S (DenseReg S)).run m
      = .ok (regEven n B Y M n1 t, m) := by
  by_cases ht : t = 0
  · subst ht
    rw [if_pos rfl]
    unfold denseStart
    simp only [Prog.run_bind, Prog.run_get (h.cy n1 (by omega)), Prog.run_get (h.cy (n + n1) (by omega)),
      Prog.run_get (h.cy (2 * n + n1) (by omega)), res_ok_bind]
    rfl
  · rw [if_neg (by omega), hr (by omega)]
    obtain ⟨t, rfl⟩ : ∃ q, t = q + 1 := ⟨t - 1, by omega⟩
    simp only [regOdd, regEven, Nat.add_sub_cancel, if_neg ht, Prog.run_pure]
    rfl

/-- What the last phase of a work item stores. -/
def StoreSet (vel : Bool) (n : Nat) (f : Handle) (n1 : Nat) (x : Handle) (j : Nat) : Prop :=
  x = f ∧ j < 6 * n ∧ j % n = n1 ∧ (vel = true ∨ 3 * n ≤ j)

omit [Neg S] [One S] in
open Classical in
/-- The last phase of a work item. -/
theorem denseLast_run (vel : Bool) (hh : DenseHandles hm y f sh) {m : Mem S}
    (h : DenseMem n B Y M hm y f sh m) {n1 : Nat} (hn : n1 < n) :
    ∃ m', (do (if vel then denseVel n y f n1 else pure () : Prog S Unit)
              denseStore n f n1 (regEven n B Y M n1 (tiles n B)) : Prog S Unit).run m = .ok ((), m') ∧
      m'.shape = m.shape ∧
      ∀ x j, m'.cell x j = if StoreSet vel n f n1 x j then some (denseVal n B Y M j) else m.cell x j := by
  have main : ∀ m1, DenseMem n B Y M hm y f sh m1 → m1.shape = m.shape →
      (∀ x j, m1.cell x j = if x = f ∧ j < 3 * n ∧ j % n = n1 ∧ vel = true then some (Y (3 * n + j))
        else m.cell x j) →
      ∃ m', (denseStore n f n1 (regEven n B Y M n1 (tiles n B)) : Prog S Unit).run m1 = .ok ((), m') ∧
        m'.shape = m.shape ∧
        ∀ x j, m'.cell x j = if StoreSet vel n f n1 x j then some (denseVal n B Y M j) else m.cell x j := by
    intro m1 h1 hs hc
    obtain ⟨m2, a1, a2, a3⟩ := denseStore_run h1 (regEven n B Y M n1 (tiles n B)) hn
    refine ⟨m2, a1, by rw [a2, hs], fun x j => ?_⟩
    rw [a3, hc]
    unfold StoreSet
    by_cases e1 : x = f ∧ j < 6 * n ∧ j % n = n1
    · obtain ⟨rfl, e2, e3⟩ := e1
      by_cases e4 : 3 * n ≤ j
      · rw [if_pos ⟨rfl, e4, e2, e3⟩, if_pos ⟨rfl, e2, e3, Or.inr e4⟩]
        subst e3
        simp [denseVal, accVal, regEven, show ¬ j < 3 * n by omega]
      · rw [if_neg (fun e => e4 e.2.1)]
        by_cases ev : vel = true
        · rw [if_pos ⟨rfl, by omega, e3, ev⟩, if_pos ⟨rfl, e2, e3, Or.inl ev⟩]
          simp [denseVal, show j < 3 * n by omega]
        · rw [if_neg (fun e => ev e.2.2.2), if_neg]
          rintro ⟨_, _, _, e | e⟩
          · exact ev e
          · exact e4 e
    · rw [if_neg (fun e => e1 ⟨e.1, e.2.2.1, e.2.2.2⟩), if_neg (fun e => e1 ⟨e.1, by omega, e.2.2.1⟩),
        if_neg (fun e => e1 ⟨e.1, e.2.1, e.2.2.1⟩)]
  cases vel with
  | false =>
    obtain ⟨m', a1, a2, a3⟩ := main m h rfl (fun x j => by simp)
    exact ⟨m', a1, a2, a3⟩
  | true =>
    obtain ⟨m1, b1, b2, b3⟩ := denseVel_run hh h hn
    obtain ⟨m', a1, a2, a3⟩ := main m1 (h.next b2
      (fun j => by rw [b3, if_neg (fun e => hh.yf e.1)]) (fun j => by rw [b3, if_neg (fun e => hh.mf e.1)])) b2
      (fun x j => by rw [b3]; simp)
    refine ⟨m', ?_, a2, a3⟩
    rw [if_pos rfl, Prog.run_bind, b1]
    exact a1

omit [Neg S] [One S] in
open Classical in
/-- One group, all phases. -/
theorem denseGroup_run (vel : Bool) (hh : DenseHandles hm y f sh) {T : Nat} (hT : T * B = n) (hB : 0 < B)
    (r0 : DenseReg S) (n1 : Nat → Nat) (hn1 : ∀ l, l < B → n1 l < n) {gk : Nat → Nat → DenseReg S → Prog S (DenseReg S)}
    (hgk : ∀ p l r, l < B → gk p l r = denseKernel vel n B T hm y f sh l (n1 l) p r) :
    ∀ k t, t + k = T → ∀ (r : Nat → DenseReg S) (m : Mem S), DenseMem n B Y M hm y f sh m →
      (0 < t → ∀ l, l < B → r l = regOdd n B Y M (n1 l) (t - 1)) →
      ∃ m', (restProg B r0 gk (2 * k + 1) (2 * t) r).run m = .ok ((), m') ∧ m'.shape = m.shape ∧
        ∀ x j, (∀ i, i < 4 → x ≠ sh i) → m'.cell x j =
          if ∃ l, l < B ∧ StoreSet vel n f (n1 l) x j then some (denseVal n B Y M j) else m.cell x j := by
  have htiles : tiles n B = T := by
    unfold tiles
    subst hT
    rw [show T * B + B - 1 = B * T + (B - 1) by rw [Nat.mul_comm]; omega, Nat.mul_add_div hB,
      Nat.div_eq_of_lt (by omega), Nat.add_zero]
  intro k
  induction k with
  | zero =>
    intro t ht r m h hr
    simp only [Nat.add_zero] at ht
    subst ht
    have := phaseProg_owned (B := B) (r0 := r0) (m := m) (t := fun l => gk (2 * t) l (r l))
      (fun l x j => StoreSet vel n f (n1 l) x j) (fun _ j => denseVal n B Y M j)
      (fun l => regEven n B Y M (n1 l) t)
      (by
        intro l m' hl hs hc
        have h' : DenseMem n B Y M hm y f sh m' := h.next hs
          (fun j => hc _ _ (fun l' _ e => hh.yf e.1)) (fun j => hc _ _ (fun l' _ e => hh.mf e.1))
        obtain ⟨m'', a1, a2, a3⟩ := denseLast_run vel hh h' (hn1 l hl)
        refine ⟨m'', ?_, a3⟩
        rw [hgk _ _ _ hl]
        unfold denseKernel
        rw [if_neg (by omega), Prog.run_bind, denseHead_run h' (hn1 l hl) (fun h0 => hr h0 l hl)]
        simp only [res_ok_bind]
        rw [if_neg (by omega), Prog.run_bind, ← htiles, a1]
        rfl)
    obtain ⟨m', b1, b2, b3⟩ := this
    refine ⟨m', ?_, b2, fun x j _ => b3 x j⟩
    show (phaseProg B r0 _ >>= _ : Prog S Unit).run m = _
    rw [Prog.run_bind, b1]
    rfl
  | succ k ih =>
    intro t ht r m h hr
    have hlt : t < T := by omega
    have hidx : ∀ l, l < B → t * B + l < n := fun l hl => by rw [← hT]; exact group_lt hlt hl
    -- copies
    have := phaseProg_owned (B := B) (r0 := r0) (m := m) (t := fun l => gk (2 * t) l (r l))
      (fun l x j => (∃ k, k < 4 ∧ x = sh k) ∧ j = l) (fun x j => loadVal n B Y M sh t x j)
      (fun l => regEven n B Y M (n1 l) t)
      (by
        intro l m' hl hs hc
        have h' : DenseMem n B Y M hm y f sh m' := h.next hs
          (fun j => hc _ _ (fun l' _ e => by
            obtain ⟨⟨k, hk, e⟩, _⟩ := e; exact hh.neY k hk e.symm))
          (fun j => hc _ _ (fun l' _ e => by
            obtain ⟨⟨k, hk, e⟩, _⟩ := e; exact hh.neM k hk e.symm))
        obtain ⟨m'', a1, a2, a3⟩ := denseLoad_run hh h' hl (hidx l hl)
        refine ⟨m'', ?_, fun x j => by rw [a3]; congr⟩
        rw [hgk _ _ _ hl]
        unfold denseKernel
        rw [if_neg (by omega), Prog.run_bind, denseHead_run h' (hn1 l hl) (fun h0 => hr h0 l hl)]
        simp only [res_ok_bind]
        rw [if_pos (by omega), show 2 * t / 2 = t by omega, Prog.run_bind, a1]
        rfl)
    obtain ⟨m1, b1, b2, b3⟩ := this
    have h1 : DenseMem n B Y M hm y f sh m1 := h.next b2
      (fun j => by
        rw [b3, if_neg]
        rintro ⟨l, _, ⟨k, hk, e⟩, _⟩; exact hh.neY k hk e.symm)
      (fun j => by
        rw [b3, if_neg]
        rintro ⟨l, _, ⟨k, hk, e⟩, _⟩; exact hh.neM k hk e.symm)
    have hload : ∀ k l, k < 4 → l < B → m1.cell (sh k) l = some (loadVal n B Y M sh t (sh k) l) := by
      intro k l hk hl
      rw [b3, if_pos ⟨l, hl, ⟨k, hk, rfl⟩, rfl⟩]
    -- sums
    obtain ⟨m2, c1, c2, c3⟩ := phaseProg_owned (B := B) (r0 := r0) (m := m1)
      (t := fun l => gk (2 * t + 1) l (if l < B then regEven n B Y M (n1 l) t else r0))
      (fun _ _ _ => False) (fun _ j => Y j) (fun l => regOdd n B Y M (n1 l) t)
      (by
        intro l m' hl hs hc
        refine ⟨m', ?_, fun x j => by rw [if_neg not_false]⟩
        rw [hgk _ _ _ hl, if_pos hl]
        unfold denseKernel
        rw [if_pos (by omega), denseTile_run (n := n) (Y := Y) (M := M) (t := t) hh]
        · rfl
        · intro k l' hk hl'
          rw [hc _ _ (fun _ _ => not_false), hload k l' hk hl'])
    have hm2 : m2 = m1 := Mem.ext_cells c2 (fun x j => by
      rw [c3, if_neg]; rintro ⟨_, _, e⟩; exact e)
    subst hm2
    obtain ⟨m', d1, d2, d3⟩ := ih (t + 1) (by omega) (fun l => if l < B then regOdd n B Y M (n1 l) t else r0) m2 h1
      (fun _ l hl => by rw [if_pos hl]; rfl)
    refine ⟨m', ?_, by rw [d2, b2], fun x j hx => ?_⟩
    · rw [show 2 * (k + 1) + 1 = 2 * k + 1 + 1 + 1 by ring]
      show (phaseProg B r0 _ >>= fun r' => restProg B r0 gk (2 * k + 1 + 1) (2 * t + 1) r' : Prog S Unit).run m = _
      rw [Prog.run_bind, b1]
      simp only [res_ok_bind]
      show (phaseProg B r0 _ >>= fun r' => restProg B r0 gk (2 * k + 1) (2 * t + 1 + 1) r' : Prog S Unit).run m2 = _
      rw [Prog.run_bind, c1]
      simp only [res_ok_bind]
      exact d1
    · rw [d3 x j hx, b3]
      congr 1
      rw [if_neg]
      rintro ⟨l, _, ⟨k, hk, e⟩, _⟩; exact hx k hk e

/-! ### All groups of all devices -/

/-- Group number as the body computation sees it. -/
def gsub (D Gd g : Nat) : Nat := if g < D * Gd then g else g - D * Gd

/-- Cells read by work item `i` in phase `p`. -/
def DenseRd (D B Gd : Nat) (hm y hs : Handle) (p i : Nat) (x : Handle) (_ : Nat) : Prop :=
  x = rep D hm (gsub D Gd (i / B) / Gd) ∨ x = rep D y (gsub D Gd (i / B) / Gd) ∨
    (p % 2 = 1 ∧ ∃ k, k < 4 ∧ x = localMem D hs (i / B) k)

/-- Cells of the result written by work item `l` of group `g`. -/
def DenseOwn (vel : Bool) (D n B Gd : Nat) (f : Handle) (g l : Nat) (x : Handle) (j : Nat) : Prop :=
  x = rep D f (gsub D Gd g / Gd) ∧ j < 6 * n ∧ j % n = gpuBody D n B Gd (gsub D Gd g) l ∧
    (if g < D * Gd then vel = true ∨ 3 * n ≤ j else j < 3 * n)

/-- Cells written by work item `i` in phase `p`. -/
def DenseWr (vel : Bool) (D n B Gd : Nat) (f hs : Handle) (p i : Nat) (x : Handle) (j : Nat) : Prop :=
  (p % 2 = 0 ∧ (∃ k, k < 4 ∧ x = localMem D hs (i / B) k) ∧ j = i % B) ∨
    DenseOwn vel D n B Gd f (i / B) (i % B) x j

/-- A kernel that is the dense kernel on the first `D * Gd` groups and, if the dense kernel does not write the
derivatives of the positions, copies them on `D * Gd` further groups. -/
structure IsDense (vel : Bool) (D n B Gd T : Nat) (hm y f hs : Handle) (kern : Kernel S (DenseReg S)) : Prop where
  dense : ∀ p i r, i / B < D * Gd → kern p i r =
    denseKernel vel n B T (rep D hm (i / B / Gd)) (rep D y (i / B / Gd)) (rep D f (i / B / Gd))
      (localMem D hs (i / B)) (i % B) (gpuBody D n B Gd (i / B) (i % B)) p r
  vels : vel = false → ∀ p i r, ¬ i / B < D * Gd → kern p i r =
    if p = 0 then (do
      denseVel n (rep D y ((i / B - D * Gd) / Gd)) (rep D f ((i / B - D * Gd) / Gd))
        (gpuBody D n B Gd (i / B - D * Gd) (i % B))
      pure r) else pure r

/-- Groups of such a kernel. -/
def denseGroups (vel : Bool) (D Gd : Nat) : Nat := D * Gd + if vel then 0 else D * Gd

section
omit [Add S] [Sub S] [Mul S] [Neg S] [Div S] [Zero S] [One S] [FOps S]
variable {vel : Bool} {D Gd T hs : Nat}

theorem gsub_lt {g : Nat} (hg : g < denseGroups vel D Gd) : gsub D Gd g < D * Gd := by
  unfold gsub
  unfold denseGroups at hg
  split
  · assumption
  · cases vel
    · simp at hg; omega
    · simp at hg; omega

theorem extra_vel {g : Nat} (hg : g < denseGroups vel D Gd) (h : ¬ g < D * Gd) : vel = false := by
  unfold denseGroups at hg
  cases vel
  · rfl
  · simp at hg; omega

theorem gsub_dev {g : Nat} (hg : g < denseGroups vel D Gd) : gsub D Gd g / Gd < D :=
  Nat.div_lt_of_lt_mul (by rw [Nat.mul_comm]; exact gsub_lt hg)

theorem gpuBody_off {g l : Nat} (hGd : 0 < Gd) (hl : l < B) : g % Gd * B + l < Gd * B :=
  group_lt (Nat.mod_lt _ hGd) hl

theorem gpuBody_lt (hfit : Gd * B ≤ n / D) {g l : Nat} (hg : g < D * Gd) (hl : l < B) :
    gpuBody D n B Gd g l < n := by
  have hGd : 0 < Gd := by rcases Nat.eq_zero_or_pos Gd with h | h
                          · subst h; omega
                          · exact h
  have h1 := gpuBody_off (B := B) (g := g) hGd hl
  have h2 : g / Gd < D := Nat.div_lt_of_lt_mul (by rw [Nat.mul_comm]; exact hg)
  have h3 : (g / Gd + 1) * (n / D) ≤ D * (n / D) := Nat.mul_le_mul_right _ h2
  have h4 : D * (n / D) ≤ n := Nat.mul_div_le _ _
  have h5 : (g / Gd + 1) * (n / D) = g / Gd * (n / D) + n / D := by ring
  unfold gpuBody
  omega

theorem gpuBody_inj {g g' l l' : Nat} (hl : l < B) (hl' : l' < B) (hdev : g / Gd = g' / Gd)
    (h : gpuBody D n B Gd g l = gpuBody D n B Gd g' l') : g = g' ∧ l = l' := by
  unfold gpuBody at h
  rw [hdev] at h
  have h1 : g % Gd * B + l = g' % Gd * B + l' := by omega
  have h2 : g % Gd = g' % Gd := by rw [← group_div (g := g % Gd) hl, h1, group_div hl']
  have h3 : l = l' := by rw [← group_mod (g := g % Gd) hl, h1, group_mod hl']
  refine ⟨?_, h3⟩
  rw [← Nat.div_add_mod g Gd, hdev, h2, Nat.div_add_mod]

theorem localMem_inj (hD : 0 < D) {g g' k k' : Nat} (hk : k < 4) (hk' : k' < 4)
    (h : localMem D hs g k = localMem D hs g' k') : g = g' ∧ k = k' := by
  have := ((rep_inj hD hD).1 h).1
  omega

theorem localMem_ne (hD : 0 < D) {h d g k : Nat} (hh : h < hs) (hd : d < D) : localMem D hs g k ≠ rep D h d := by
  intro e
  have := ((rep_inj hD hd).1 e).1
  omega

theorem dense_own_disjoint (hD : 0 < D) {g g' l l' : Nat}
    (hg : g < denseGroups vel D Gd) (hg' : g' < denseGroups vel D Gd) (hl : l < B) (hl' : l' < B) {x : Handle}
    {j : Nat} (h : DenseOwn vel D n B Gd f g l x j) (h' : DenseOwn vel D n B Gd f g' l' x j) : g = g' ∧ l = l' := by
  obtain ⟨a1, a2, a3, a4⟩ := h
  obtain ⟨b1, b2, b3, b4⟩ := h'
  have hdev := ((rep_inj (gsub_dev hg) (gsub_dev hg')).1 (a1.symm.trans b1)).2
  obtain ⟨c1, c2⟩ := gpuBody_inj hl hl' hdev (a3.symm.trans b3)
  refine ⟨?_, c2⟩
  unfold gsub at c1
  unfold denseGroups at hg hg'
  cases vel <;> by_cases e1 : g < D * Gd <;> by_cases e2 : g' < D * Gd <;>
    simp [e1, e2] at a4 b4 c1 hg hg' <;> omega

end

section
variable {vel : Bool} {D Gd T hs : Nat} {kern : Kernel S (DenseReg S)}

omit [Add S] [Sub S] [Mul S] [Neg S] [Div S] [Zero S] [One S] [FOps S] in
theorem row_mod_own {n1 : Nat} (k : Nat) (h : n1 < n) : (k * n + n1) % n = n1 := bodyOf_add k h

omit [Neg S] [One S] in
theorem dense_raceFree (hk : IsDense vel D n B Gd T hm y f hs kern) (hD : 0 < D) (hfit : Gd * B ≤ n / D)
    (hyf : y ≠ f) (hmf : hm ≠ f) (h1 : hm < hs) (h2 : y < hs) (h3 : f < hs) :
    RaceFree (denseGroups vel D Gd) B kern (DenseRd D B Gd hm y hs) (DenseWr vel D n B Gd f hs) := by
  have hB : ∀ {i}, i < denseGroups vel D Gd * B → 0 < B := fun {i} h => by
    rcases Nat.eq_zero_or_pos B with e | e
    · subst e; omega
    · exact e
  have hdiv : ∀ {i}, i < denseGroups vel D Gd * B → i / B < denseGroups vel D Gd := fun {i} h =>
    Nat.div_lt_of_lt_mul (by rwa [Nat.mul_comm])
  have own_ne : ∀ {g l x j}, g < denseGroups vel D Gd → DenseOwn vel D n B Gd f g l x j →
      ∀ i', i' < denseGroups vel D Gd * B → ∀ q, ¬ DenseRd D B Gd hm y hs q i' x j := by
    intro g l x j hg h i' hi' q hr
    obtain ⟨rfl, -, -, -⟩ := h
    have hd := gsub_dev hg
    rcases hr with e | e | ⟨_, k, hk, e⟩
    · exact hmf ((rep_inj hd (gsub_dev (hdiv hi'))).1 e).1.symm
    · exact hyf ((rep_inj hd (gsub_dev (hdiv hi'))).1 e).1.symm
    · exact localMem_ne hD h3 hd e.symm
  have own_loc : ∀ {g l x j}, g < denseGroups vel D Gd → DenseOwn vel D n B Gd f g l x j →
      ∀ g' k, x ≠ localMem D hs g' k := by
    rintro g l x j hg ⟨rfl, -, -, -⟩ g' k e
    exact localMem_ne hD h3 (gsub_dev hg) e.symm
  have loc_rd : ∀ {g k i' q x j}, x = localMem D hs g k → k < 4 → i' < denseGroups vel D Gd * B →
      DenseRd D B Gd hm y hs q i' x j → q % 2 = 1 ∧ i' / B = g := by
    rintro g k i' q x j rfl hk hi' hr
    have hd := gsub_dev (hdiv hi')
    rcases hr with e | e | ⟨hq, k', hk', e⟩
    · exact absurd e (localMem_ne hD h1 hd)
    · exact absurd e (localMem_ne hD h2 hd)
    · exact ⟨hq, (localMem_inj hD hk hk' e).1.symm⟩
  refine ⟨?_, ?_, ?_⟩
  · intro p i r hi
    have hg := hdiv hi
    have hl : i % B < B := Nat.mod_lt _ (hB hi)
    by_cases e : i / B < D * Gd
    · have hs' : gsub D Gd (i / B) = i / B := if_pos e
      have hn1 := gpuBody_lt hfit e hl
      rw [hk.dense p i r e]
      have rm : ∀ j, DenseRd D B Gd hm y hs p i (rep D hm (i / B / Gd)) j := fun j => Or.inl (by rw [hs'])
      have ry : ∀ j, DenseRd D B Gd hm y hs p i (rep D y (i / B / Gd)) j := fun j =>
        Or.inr (Or.inl (by rw [hs']))
      have wf : ∀ k, k < 6 → (vel = true ∨ 3 ≤ k) → DenseWr vel D n B Gd f hs p i (rep D f (i / B / Gd))
          (k * n + gpuBody D n B Gd (i / B) (i % B)) := by
        intro k hk6 hv
        refine Or.inr ⟨by rw [hs'], ?_, by rw [hs', row_mod_own k hn1], ?_⟩
        · have : k * n ≤ 5 * n := Nat.mul_le_mul_right _ (by omega)
          omega
        · rw [if_pos e]
          rcases hv with hv | hv
          · exact Or.inl hv
          · right
            have : 3 * n ≤ k * n := Nat.mul_le_mul_right _ hv
            omega
      generalize hbody : gpuBody D n B Gd (i / B) (i % B) = n1 at hn1 wf ⊢
      unfold denseKernel
      by_cases hp : p % 2 = 1
      · rw [if_pos hp]
        have rs : ∀ k j, k < 4 → DenseRd D B Gd hm y hs p i (localMem D hs (i / B) k) j := fun k j hk4 =>
          Or.inr (Or.inr ⟨hp, k, hk4, rfl⟩)
        unfold denseTile
        refine (Prog.Within.forN fun l loc _ => ?_).bind fun _ => Prog.Within.pure _
        exact (Prog.Within.get (rs 0 _ (by omega))).bind fun _ => (Prog.Within.get (rs 1 _ (by omega))).bind
          fun _ => (Prog.Within.get (rs 2 _ (by omega))).bind fun _ =>
          (Prog.Within.get (rs 3 _ (by omega))).bind fun _ => Prog.Within.pure _
      · rw [if_neg hp]
        have ws : ∀ k, k < 4 → DenseWr vel D n B Gd f hs p i (localMem D hs (i / B) k) (i % B) := fun k hk4 =>
          Or.inl ⟨by omega, ⟨k, hk4, rfl⟩, rfl⟩
        refine Prog.Within.bind ?_ fun r' => Prog.Within.bind ?_ fun _ => Prog.Within.pure _
        · split
          · unfold denseStart
            exact (Prog.Within.get (ry _)).bind fun _ => (Prog.Within.get (ry _)).bind fun _ =>
              (Prog.Within.get (ry _)).bind fun _ => Prog.Within.pure _
          · exact Prog.Within.pure _
        · split
          · unfold denseLoad
            exact (Prog.Within.get (ry _)).bind fun _ => (Prog.Within.put (ws 0 (by omega))).bind fun _ =>
              (Prog.Within.get (ry _)).bind fun _ => (Prog.Within.put (ws 1 (by omega))).bind fun _ =>
              (Prog.Within.get (ry _)).bind fun _ => (Prog.Within.put (ws 2 (by omega))).bind fun _ =>
              (Prog.Within.get (rm _)).bind fun _ => Prog.Within.put (ws 3 (by omega))
          · refine Prog.Within.bind ?_ fun _ => ?_
            · split
              · rename_i hv
                have w0 := wf 0 (by omega) (Or.inl hv)
                have w1 := wf 1 (by omega) (Or.inl hv)
                have w2 := wf 2 (by omega) (Or.inl hv)
                rw [Nat.zero_mul, Nat.zero_add] at w0
                rw [Nat.one_mul] at w1
                unfold denseVel
                exact (Prog.Within.get (ry _)).bind fun _ => (Prog.Within.put w0).bind fun _ =>
                  (Prog.Within.get (ry _)).bind fun _ => (Prog.Within.put w1).bind fun _ =>
                  (Prog.Within.get (ry _)).bind fun _ => Prog.Within.put w2
              · exact Prog.Within.pure _
            · unfold denseStore
              exact (Prog.Within.put (wf 3 (by omega) (Or.inr (by omega)))).bind fun _ =>
                (Prog.Within.put (wf 4 (by omega) (Or.inr (by omega)))).bind fun _ =>
                Prog.Within.put (wf 5 (by omega) (Or.inr (by omega)))
    · have hs' : gsub D Gd (i / B) = i / B - D * Gd := if_neg e
      have hn1 := gpuBody_lt hfit (hs' ▸ gsub_lt hg) hl
      rw [hk.vels (extra_vel hg e) p i r e]
      have ry : ∀ j, DenseRd D B Gd hm y hs p i (rep D y ((i / B - D * Gd) / Gd)) j := fun j =>
        Or.inr (Or.inl (by rw [hs']))
      have wf : ∀ k, k < 3 → DenseWr vel D n B Gd f hs p i (rep D f ((i / B - D * Gd) / Gd))
          (k * n + gpuBody D n B Gd (i / B - D * Gd) (i % B)) := by
        intro k hk3
        have : k * n ≤ 2 * n := Nat.mul_le_mul_right _ (by omega)
        refine Or.inr ⟨by rw [hs'], by omega, by rw [hs', row_mod_own k hn1], ?_⟩
        rw [if_neg e]; omega
      have w0 := wf 0 (by omega)
      have w1 := wf 1 (by omega)
      have w2 := wf 2 (by omega)
      rw [Nat.zero_mul, Nat.zero_add] at w0
      rw [Nat.one_mul] at w1
      split
      · refine Prog.Within.bind ?_ fun _ => Prog.Within.pure _
        unfold denseVel
        exact (Prog.Within.get (ry _)).bind fun _ => (Prog.Within.put w0).bind fun _ =>
          (Prog.Within.get (ry _)).bind fun _ => (Prog.Within.put w1).bind fun _ =>
          (Prog.Within.get (ry _)).bind fun _ => Prog.Within.put w2
      · exact Prog.Within.pure _
  · intro p i i' x j hi hi' hgg hne hW
    rcases hW with ⟨hp, ⟨k, hk4, hx⟩, hj⟩ | hW
    · refine ⟨fun hr => ?_, ?_⟩
      · have := (loc_rd hx hk4 hi' hr).1; omega
      · rintro (⟨_, ⟨k', hk', hx'⟩, hj'⟩ | hW')
        · have h5 := Nat.div_add_mod i B
          have h6 := Nat.div_add_mod i' B
          rw [hgg, ← hj, hj'] at h5
          exact hne (by omega)
        · exact own_loc (hdiv hi') hW' _ _ hx
    · refine ⟨own_ne (hdiv hi) hW _ hi' _, ?_⟩
      rintro (⟨_, ⟨k', hk', hx'⟩, hj'⟩ | hW')
      · exact own_loc (hdiv hi) hW _ _ hx'
      · obtain ⟨_, e⟩ := dense_own_disjoint hD (hdiv hi) (hdiv hi') (Nat.mod_lt _ (hB hi)) (Nat.mod_lt _ (hB hi)) hW hW'
        have h5 := Nat.div_add_mod i B
        have h6 := Nat.div_add_mod i' B
        rw [hgg, e] at h5
        exact hne (by omega)
  · intro p q i i' x j hi hi' hgg hW
    rcases hW with ⟨hp, ⟨k, hk4, hx⟩, hj⟩ | hW
    · refine ⟨fun hr => ?_, ?_⟩
      · exact hgg (loc_rd hx hk4 hi' hr).2.symm
      · rintro (⟨_, ⟨k', hk', hx'⟩, hj'⟩ | hW')
        · exact hgg (localMem_inj hD hk4 hk' (hx.symm.trans hx')).1
        · exact own_loc (hdiv hi') hW' _ _ hx
    · refine ⟨own_ne (hdiv hi) hW _ hi' _, ?_⟩
      rintro (⟨_, ⟨k', hk', hx'⟩, hj'⟩ | hW')
      · exact own_loc (hdiv hi) hW _ _ hx'
      · exact hgg (dense_own_disjoint hD (hdiv hi) (hdiv hi') (Nat.mod_lt _ (hB hi)) (Nat.mod_lt _ (hB hi)) hW hW').1

/-- Local memory of all groups. -/
def HasLocal (D B Gd : Nat) (hs : Handle) (m : Mem S) : Prop :=
  ∀ g k l, g < D * Gd → k < 4 → l < B → (m.cell (localMem D hs g k) l).isSome

omit [Add S] [Sub S] [Mul S] [Neg S] [Div S] [Zero S] [One S] [FOps S] in
/-- Phases without work. -/
theorem restProg_idle {R : Type} {B : Nat} {r0 : R} {gk : Nat → Nat → R → Prog S R}
    (h : ∀ p l r, 0 < p → l < B → gk p l r = pure r) (m : Mem S) :
    ∀ k p r, 0 < p → (restProg B r0 gk k p r).run m = .ok ((), m) := by
  intro k
  induction k with
  | zero => intro p r _; rfl
  | succ k ih =>
    intro p r hp
    show (phaseProg B r0 _ >>= fun r' => restProg B r0 gk k (p + 1) r' : Prog S Unit).run m = _
    rw [Prog.run_bind, phaseProg_ret (r := r) (fun l hl => h p l (r l) hp hl)]
    exact ih (p + 1) _ (by omega)

omit [Neg S] [One S] in
open Classical in
/-- The launch of the dense kernel on all devices, in every execution. -/
theorem denseLaunch_run {launch : Launch S (DenseReg S)} (hl : IsLaunch launch)
    (hk : IsDense vel D n B Gd T hm y f hs kern) (hD : 0 < D) (hB : 0 < B) (hfit : Gd * B ≤ n / D) (hT : T * B = n)
    (hyf : y ≠ f) (hmf : hm ≠ f) (h1 : hm < hs) (h2 : y < hs) (h3 : f < hs) (r0 : DenseReg S) {m : Mem S}
    (hY : ∀ d j, d < D → j < 6 * n → m.cell (rep D y d) j = some (Y j))
    (hM : ∀ d j, d < D → j < n → m.cell (rep D hm d) j = some (M j))
    (hF : Replicated D f (6 * n) m) (hL : HasLocal D B Gd hs m) :
    ∃ m', launch (denseGroups vel D Gd) B (2 * T + 1) kern r0 m = .ok m' ∧ m'.shape = m.shape ∧
      ∀ x j, x / D < hs → m'.cell x j =
        if ∃ g l, g < denseGroups vel D Gd ∧ l < B ∧ DenseOwn vel D n B Gd f g l x j then
          some (denseVal n B Y M j) else m.cell x j := by
  have hrf := dense_raceFree (T := T) hk hD hfit hyf hmf h1 h2 h3
  obtain ⟨m', a1, a2, a3⟩ := seqFor_visible (n := denseGroups vel D Gd)
    (body := leftOf B (2 * T + 1) kern r0 (BarState.start kern r0 m)) (m := m) (fun x => x / D < hs)
    (fun g x j => ∃ l, l < B ∧ DenseOwn vel D n B Gd f g l x j) (fun _ j => denseVal n B Y M j)
    (by
      intro g m1 hg hsh hold
      have hdev := gsub_dev hg
      have hglt := gsub_lt hg
      have keep : ∀ h d j, h < hs → h ≠ f → d < D → m1.cell (rep D h d) j = m.cell (rep D h d) j := by
        intro h d j hh hne hd
        refine hold _ _ (by rw [rep_div hd]; exact hh) ?_
        rintro g' hg' ⟨l, _, e, _⟩
        exact hne ((rep_inj hd (gsub_dev (lt_trans hg' hg))).1 e).1
      rw [leftOf_start B (2 * T + 1) (by omega)]
      by_cases e : g < D * Gd
      · have hs' : gsub D Gd g = g := if_pos e
        rw [hs'] at hdev
        have hh : DenseHandles (rep D hm (g / Gd)) (rep D y (g / Gd)) (rep D f (g / Gd)) (localMem D hs g) :=
          ⟨fun k k' a b c => (localMem_inj hD a b c).2, fun k _ => localMem_ne hD h1 hdev,
           fun k _ => localMem_ne hD h2 hdev, fun k _ => localMem_ne hD h3 hdev,
           fun c => hyf ((rep_inj hdev hdev).1 c).1, fun c => hmf ((rep_inj hdev hdev).1 c).1⟩
        obtain ⟨m2, b1, b2, b3⟩ := denseGroup_run (Y := Y) (M := M) (T := T) vel hh hT hB r0
          (fun l => gpuBody D n B Gd g l) (fun l hl' => gpuBody_lt hfit e hl')
          (gk := groupKern B kern g) (fun p l r hl' => by
            have := hk.dense p (g * B + l) r (by rw [group_div hl']; exact e)
            rw [group_div hl', group_mod hl'] at this
            exact this) T 0 (by omega) (fun _ => r0) m1
          ⟨fun j hj => by rw [keep _ _ _ h2 hyf hdev, hY _ _ hdev hj],
           fun j hj => by rw [keep _ _ _ h1 hmf hdev, hM _ _ hdev hj],
           fun j hj => isSome_of_shape hsh (hF _ _ hdev hj),
           fun k l hk4 hl' => isSome_of_shape hsh (hL g k l e hk4 hl')⟩ (by omega)
        refine ⟨m2, b1, fun x j hx => ?_⟩
        rw [b3 x j (fun k _ c => by
          have hx' : x / D < hs := hx
          rw [c, localMem, rep_div hD] at hx'
          exact absurd hx' (Nat.not_lt.2 (Nat.le_trans (Nat.le_add_right _ _) (Nat.le_add_right _ _))))]
        have hiff : (∃ l, l < B ∧ StoreSet vel n (rep D f (g / Gd)) (gpuBody D n B Gd g l) x j) ↔
            (∃ l, l < B ∧ DenseOwn vel D n B Gd f g l x j) := by
          unfold StoreSet DenseOwn
          simp only [hs', if_pos e]
        by_cases q : ∃ l, l < B ∧ DenseOwn vel D n B Gd f g l x j
        · rw [if_pos q, if_pos (hiff.2 q)]
        · rw [if_neg q, if_neg (fun c => q (hiff.1 c))]
      · have hs' : gsub D Gd g = g - D * Gd := if_neg e
        rw [hs'] at hdev hglt
        have hgk : ∀ p l r, l < B → groupKern B kern g p l r = if p = 0 then (do
            denseVel n (rep D y ((g - D * Gd) / Gd)) (rep D f ((g - D * Gd) / Gd))
              (gpuBody D n B Gd (g - D * Gd) l)
            pure r) else pure r := by
          intro p l r hl'
          have := hk.vels (extra_vel hg e) p (g * B + l) r (by rw [group_div hl']; exact e)
          rw [group_div hl', group_mod hl'] at this
          exact this
        -- local memory is not used
        let sh : Nat → Handle := localMem D hs 0
        have hh : DenseHandles (rep D hm ((g - D * Gd) / Gd)) (rep D y ((g - D * Gd) / Gd))
            (rep D f ((g - D * Gd) / Gd)) (localMem D hs 0) :=
          ⟨fun k k' a b c => (localMem_inj hD a b c).2, fun k _ => localMem_ne hD h1 hdev,
           fun k _ => localMem_ne hD h2 hdev, fun k _ => localMem_ne hD h3 hdev,
           fun c => hyf ((rep_inj hdev hdev).1 c).1, fun c => hmf ((rep_inj hdev hdev).1 c).1⟩
        have hpos : 0 < D * Gd := by omega
        have hmem : DenseMem n B Y M (rep D hm ((g - D * Gd) / Gd)) (rep D y ((g - D * Gd) / Gd))
            (rep D f ((g - D * Gd) / Gd)) (localMem D hs 0) m1 :=
          ⟨fun j hj => by rw [keep _ _ _ h2 hyf hdev, hY _ _ hdev hj],
           fun j hj => by rw [keep _ _ _ h1 hmf hdev, hM _ _ hdev hj],
           fun j hj => isSome_of_shape hsh (hF _ _ hdev hj),
           fun k l hk4 hl' => isSome_of_shape hsh (hL 0 k l hpos hk4 hl')⟩
        obtain ⟨m2, b1, b2, b3⟩ := phaseProg_owned (B := B) (r0 := r0) (m := m1)
          (t := fun l => groupKern B kern g 0 l r0) (fun l x j => DenseOwn vel D n B Gd f g l x j)
          (fun _ j => denseVal n B Y M j) (fun _ => r0)
          (by
            intro l m' hl' hsh' hold'
            have hmem' := hmem.next hsh'
              (fun j => hold' _ _ (fun l' _ c => hh.yf (by
                obtain ⟨c, _⟩ := c; rw [hs'] at c; exact c)))
              (fun j => hold' _ _ (fun l' _ c => hh.mf (by
                obtain ⟨c, _⟩ := c; rw [hs'] at c; exact c)))
            obtain ⟨m'', c1, c2, c3⟩ := denseVel_run hh hmem' (gpuBody_lt hfit hglt hl')
            refine ⟨m'', ?_, fun x j => ?_⟩
            · rw [hgk _ _ _ hl', if_pos rfl, Prog.run_bind, c1]; rfl
            · rw [c3]
              unfold DenseOwn
              rw [hs']
              simp only [if_neg e]
              by_cases q : x = rep D f ((g - D * Gd) / Gd) ∧ j < 3 * n ∧ j % n = gpuBody D n B Gd (g - D * Gd) l
              · rw [if_pos q, if_pos ⟨q.1, by omega, q.2.2, q.2.1⟩]
                simp [denseVal, q.2.1]
              · rw [if_neg q, if_neg (fun c => q ⟨c.1, c.2.2.2, c.2.2.1⟩)])
        refine ⟨m2, ?_, fun x j _ => by rw [b3]; congr⟩
        show (phaseProg B r0 _ >>= fun r' => restProg B r0 (groupKern B kern g) (2 * T) (0 + 1) r' : Prog S Unit).run m1 = _
        rw [Prog.run_bind, b1]
        exact restProg_idle (fun p l r hp hl' => by rw [hgk _ _ _ hl', if_neg (by omega)]) m2 _ _ _ (by omega))
  refine ⟨m', launch_eq_seq hl hrf a1, a2, fun x j hx => ?_⟩
  rw [a3 x j hx]
  have : (∃ i, i < denseGroups vel D Gd ∧ ∃ l, l < B ∧ DenseOwn vel D n B Gd f i l x j) ↔
      (∃ g l, g < denseGroups vel D Gd ∧ l < B ∧ DenseOwn vel D n B Gd f g l x j) :=
    ⟨fun ⟨g, a, l, b, c⟩ => ⟨g, l, a, b, c⟩, fun ⟨g, l, a, b, c⟩ => ⟨g, a, l, b, c⟩⟩
  by_cases q : ∃ g l, g < denseGroups vel D Gd ∧ l < B ∧ DenseOwn vel D n B Gd f g l x j
  · rw [if_pos q, if_pos (this.2 q)]
  · rw [if_neg q, if_neg (fun c => q (this.1 c))]

end

/-! ### Exchanges in either variant -/

section
omit [Add S] [Sub S] [Mul S] [Neg S] [Div S] [Zero S] [One S] [FOps S]
variable {D h w : Nat} {host : Option Handle}

/-- The device count the exchange works for: any number through the host, powers of two directly. -/
def SyncOk (host : Option Handle) (D : Nat) : Prop :=
  0 < D ∧ (host = none → ∃ K, D = 2 ^ K)

/-- The host buffer, if there is one: another buffer, and large enough. -/
def HostOk (host : Option Handle) (D hs size : Nat) (m : Mem S) : Prop :=
  ∀ b : Nat, host = some b → hs ≤ b ∧ ∀ j, j < size → (m.cell (rep D b 0) j).isSome

theorem HostOk.of_shape {hs size : Nat} {m m' : Mem S} (hh : HostOk host D hs size m)
    (h : m'.shape = m.shape) : HostOk host D hs size m' := fun b hb =>
  ⟨(hh b hb).1, fun j hj => isSome_of_shape h ((hh b hb).2 j hj)⟩

theorem syncY_run {loop : Loop S} (hl : IsParLoop loop) (hD : SyncOk host D) (hw : 0 < w) {hs : Nat}
    (hlt : h < hs) {m : Mem S} (hm : Replicated D h (D * w) m) (hh : HostOk host D hs (D * w) m) :
    ∃ m', syncY loop host D h (D * w) m = .ok m' ∧ m'.shape = m.shape ∧
      (∀ d j, d < D → j < D * w → m'.cell (rep D h d) j = m.cell (rep D h (j / w)) j) ∧
      (∀ x j, x / D ≠ h → x / D < hs → m'.cell x j = m.cell x j) := by
  obtain ⟨hD0, hpow⟩ := hD
  have hq : D * w / D = w := Nat.mul_div_cancel_left _ hD0
  have hjw : ∀ {j}, j < D * w → j / w < D := fun {j} hj => Nat.div_lt_of_lt_mul (by rwa [Nat.mul_comm])
  unfold syncY
  by_cases h2 : D < 2
  · rw [if_pos h2]
    refine ⟨m, rfl, rfl, fun d j hd hj => ?_, fun _ _ _ _ => rfl⟩
    have := hjw hj
    generalize j / w = q at this
    rw [show d = q by omega]
  rw [if_neg h2]
  cases host with
  | none =>
    obtain ⟨K, hK⟩ := hpow rfl
    unfold synchronizeY
    simp only [if_neg h2, hq]
    obtain ⟨w', m', a1, a2, a3, a4⟩ := allGather_run (S := S) (h := h) (rows := 1) (pitch := D * w) hl hK
      hw le_rfl (m := m) (by rwa [Nat.one_mul])
    refine ⟨m', by rw [a1]; rfl, a2, fun d j hd hj => ?_, fun x j hx _ => a4 x j hx⟩
    rw [a3 d j hd, Nat.mod_eq_of_lt hj, if_pos ⟨by omega, hjw hj⟩]
  | some b =>
    obtain ⟨hb1, hb2⟩ := hh b rfl
    have hne : h ≠ b := by omega
    obtain ⟨m1, a1, a2, a3, a4⟩ := mdReadBuffer_run (S := S) hl hne hD0 (Nat.le_mul_of_pos_right _ hw) hm hb2
    obtain ⟨m2, b1, b2, b3, _, b5⟩ := mdWriteBuffer_run (S := S) (m := m1) hl hne hD0 (hm.of_shape a2)
      (fun j hj => isSome_of_shape a2 (hb2 j hj))
    refine ⟨m2, ?_, by rw [b2, a2], fun d j hd hj => ?_, fun x j hx hx' => ?_⟩
    · show synchronizeYHost loop D h b (D * w) m = _
      unfold synchronizeYHost
      rw [a1]; exact b1
    · rw [b3 d j hd hj, a3 j hj (by rw [hq]; exact hjw hj), hq]
    · rw [b5 x j hx, a4 x j]
      intro e
      subst e
      rw [rep_div hD0] at hx'; omega

theorem syncF_run {loop : Loop S} (hl : IsParLoop loop) (hD : SyncOk host D) (hw : 0 < w) {hs : Nat}
    (hlt : h < hs) {m : Mem S} (hm : Replicated D h (6 * (D * w)) m) (hh : HostOk host D hs (6 * (D * w)) m) :
    ∃ m', syncF loop host D h (6 * (D * w)) m = .ok m' ∧ m'.shape = m.shape ∧
      (∀ d j, d < D → j < 6 * (D * w) → m'.cell (rep D h d) j = m.cell (rep D h (j % (D * w) / w)) j) ∧
      (∀ x j, x / D ≠ h → x / D < hs → m'.cell x j = m.cell x j) := by
  obtain ⟨hD0, hpow⟩ := hD
  have hq : 6 * (D * w) / D / 6 = w := by
    rw [Nat.div_div_eq_div_mul, show 6 * (D * w) = D * 6 * w by ring, Nat.mul_div_cancel_left _ (by omega)]
  have hp : 6 * (D * w) / 6 = D * w := Nat.mul_div_cancel_left _ (by omega)
  have hpos : 0 < D * w := Nat.mul_pos hD0 hw
  have hjw : ∀ j, j % (D * w) / w < D := fun j =>
    Nat.div_lt_of_lt_mul (by rw [Nat.mul_comm w]; exact Nat.mod_lt _ hpos)
  unfold syncF
  by_cases h2 : D < 2
  · rw [if_pos h2]
    refine ⟨m, rfl, rfl, fun d j hd hj => ?_, fun _ _ _ _ => rfl⟩
    have := hjw j
    generalize j % (D * w) / w = q at this
    rw [show d = q by omega]
  rw [if_neg h2]
  cases host with
  | none =>
    obtain ⟨K, hK⟩ := hpow rfl
    unfold synchronizeF
    simp only [if_neg h2, hq, hp]
    obtain ⟨w', m', a1, a2, a3, a4⟩ := allGather_run (S := S) (h := h) (rows := 6) (pitch := D * w) hl hK
      hw le_rfl (m := m) hm
    refine ⟨m', by rw [a1]; rfl, a2, fun d j hd hj => ?_, fun x j hx _ => a4 x j hx⟩
    rw [a3 d j hd, if_pos ⟨hj, hjw j⟩]
  | some b =>
    obtain ⟨hb1, hb2⟩ := hh b rfl
    have hne : h ≠ b := by omega
    obtain ⟨m1, a1, a2, a3, a4⟩ := readColumns_run (S := S) hl hne hD0 (w0 := w) (pitch := D * w) (rows := 6)
      hw le_rfl hm hb2
    obtain ⟨m2, b1, b2, b3, _, b5⟩ := mdWriteBuffer_run (S := S) (m := m1) hl hne hD0 (hm.of_shape a2)
      (fun j hj => isSome_of_shape a2 (hb2 j hj))
    refine ⟨m2, ?_, by rw [b2, a2], fun d j hd hj => ?_, fun x j hx hx' => ?_⟩
    · show synchronizeFHost loop D h b (6 * (D * w)) m = _
      unfold synchronizeFHost
      rw [hq, hp, a1]; exact b1
    · rw [b3 d j hd hj, a3 j hj (hjw j)]
    · rw [b5 x j hx, a4 x j]
      intro e
      subst e
      rw [rep_div hD0] at hx'; omega

end

end Dense

end NB

/-! ### Work items that cannot finish -/

namespace NB
variable {S R : Type}

/-- Every way through the program meets a bad access. -/
def Prog.Meets {α : Type} (bad : Handle → Nat → Prop) : Prog S α → Prop
  | .ret _ => False
  | .read h j k => bad h j ∨ ∀ v, (k v).Meets bad
  | .write h j _ k => bad h j ∨ k.Meets bad

theorem Prog.Meets.bind {α β : Type} {bad : Handle → Nat → Prop} {p : Prog S α} (h : p.Meets bad)
    (f : α → Prog S β) : (p >>= f).Meets bad := by
  induction p with
  | ret a => exact h.elim
  | read x j k ih =>
    rcases h with h | h
    · exact Or.inl h
    · exact Or.inr fun v => ih v (h v)
  | write x j v k ih =>
    rcases h with h | h
    · exact Or.inl h
    · exact Or.inr (ih h)

theorem Prog.Meets.bind_right {α β : Type} {bad : Handle → Nat → Prop} {f : α → Prog S β}
    (h : ∀ a, (f a).Meets bad) (p : Prog S α) : (p >>= f).Meets bad := by
  induction p with
  | ret a => exact h a
  | read x j k ih => exact Or.inr fun v => ih v
  | write x j v k ih => exact Or.inr ih

theorem Prog.Meets.get {bad : Handle → Nat → Prop} {x : Handle} {j : Nat} (h : bad x j) :
    (Prog.get (S := S) x j).Meets bad := Or.inl h

/-- A kernel in which some work item must run outside its buffers in phase `p` does not finish. -/
theorem launch_doomed {launch : Launch S R} (hl : IsLaunch launch) {G B P : Nat} {kern : Kernel S R} {r0 : R}
    {m : Mem S} {i p : Nat} (hi : i < G * B) (hp : p + 1 ≤ P)
    (hd : ∀ r, (kern p i r).Meets (fun x j => m.cell x j = none)) :
    ∃ e, launch G B P kern r0 m = .error e := by
  cases h : launch G B P kern r0 m with
  | error e => exact ⟨e, rfl⟩
  | ok m' =>
    exfalso
    obtain ⟨c, hrun, hdone, -⟩ := (hl G B P kern r0 m).1 m' h
    have hB : 0 < B := by rcases Nat.eq_zero_or_pos B with h0 | h0
                          · subst h0; omega
                          · exact h0
    have hg : i / B < G := Nat.div_lt_of_lt_mul (by rwa [Nat.mul_comm])
    have hl' : i % B < B := Nat.mod_lt _ hB
    have hi' : i / B * B + i % B = i := by rw [Nat.mul_comm]; exact Nat.div_add_mod i B
    have inv : ∀ c, BarRun G B P kern (BarState.start kern r0 m) c →
        c.mem.shape = m.shape ∧ c.phase (i / B) ≤ p ∧
        (c.phase (i / B) = p → (c.todo i).Meets (fun x j => m.cell x j = none)) := by
      intro c hr
      induction hr with
      | refl =>
        exact ⟨rfl, Nat.zero_le _, fun e => by
          have : 0 = p := e
          subst this; exact hd r0⟩
      | step hab hbc ih =>
        obtain ⟨i1, i2, i3⟩ := ih
        cases hbc with
        | read m1 ph t i0 hi0 x j k ht v hv =>
          refine ⟨i1, i2, fun e => ?_⟩
          have := i3 e
          dsimp only at this ⊢
          split
          · subst_vars
            rw [ht] at this
            rcases this with hb | hb
            · exfalso
              have h1 : (m1.cell x j).isSome = (m.cell x j).isSome := by
                rw [Mem.isSome_cell, Mem.isSome_cell]; simp only at i1; rw [i1]
              rw [hv, hb] at h1; cases h1
            · exact hb v
          · exact this
        | write m1 ph t i0 hi0 x j v k ht w hw =>
          refine ⟨by simpa using i1, i2, fun e => ?_⟩
          have := i3 e
          dsimp only at this ⊢
          split
          · subst_vars
            rw [ht] at this
            rcases this with hb | hb
            · exfalso
              have h1 : (m1.cell x j).isSome = (m.cell x j).isSome := by
                rw [Mem.isSome_cell, Mem.isSome_cell]; simp only at i1; rw [i1]
              rw [hw, hb] at h1; cases h1
            · exact hb
          · exact this
        | barrier m1 ph t g hg' r hr hp' =>
          by_cases e : i / B = g
          · subst e
            have hlt : ph (i / B) ≠ p := by
              intro e
              have := i3 e
              dsimp only at this
              rw [← hi', hr _ hl'] at this
              exact this
            dsimp only at i2
            refine ⟨i1, ?_, fun e => ?_⟩
            · dsimp only; rw [if_pos rfl]; omega
            · dsimp only at e ⊢
              rw [if_pos rfl] at e ⊢
              rw [e]; exact hd _
          · refine ⟨i1, ?_, fun e' => ?_⟩
            · dsimp only; rw [if_neg e]; exact i2
            · dsimp only at e' ⊢
              rw [if_neg e] at e' ⊢
              exact i3 e'
    obtain ⟨-, h2, h3⟩ := inv c hrun
    have h4 := hdone.1 (i / B) hg
    have h5 : c.phase (i / B) = p := by omega
    obtain ⟨r, hr⟩ := hdone.2 i hi
    have := h3 h5
    rw [hr] at this
    exact this

end NB
