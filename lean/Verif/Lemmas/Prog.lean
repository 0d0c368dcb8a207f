import Verif.Model.Mem
import Mathlib.Tactic.Common
import Mathlib.Logic.Function.Basic

namespace NB

variable {S : Type} {α β : Type}

/-! ### Loops -/

section Loops
variable {m : Type _ → Type _} [Monad m] {σ : Type _}

@[simp] theorem forN_zero (s : σ) (f : Nat → σ → m σ) : forN 0 s f = pure s := rfl

theorem forN_succ (n : Nat) (s : σ) (f : Nat → σ → m σ) :
    forN (n + 1) s f = forN n s f >>= f n := rfl

end Loops

@[simp] theorem res_pure {α : Type _} (a : α) : (pure a : Res α) = .ok a := rfl
@[simp] theorem res_ok_bind {α β : Type _} (a : α) (f : α → Res β) :
    ((Except.ok a : Res α) >>= f) = f a := rfl
@[simp] theorem res_err_bind {α β : Type _} (e : UB) (f : α → Res β) :
    ((Except.error e : Res α) >>= f) = .error e := rfl

/-- Invariant rule for counted loops that cannot fail. -/
theorem forN_inv {σ : Type _} {n : Nat} {s : σ} {f : Nat → σ → Res σ} (P : Nat → σ → Prop)
    (h0 : P 0 s) (hs : ∀ i t, i < n → P i t → ∃ t', f i t = .ok t' ∧ P (i + 1) t') :
    ∃ t, forN n s f = .ok t ∧ P n t := by
  induction n with
  | zero => exact ⟨s, rfl, h0⟩
  | succ n ih =>
    obtain ⟨t, ht, hp⟩ := ih (fun i t hi => hs i t (Nat.lt_succ_of_lt hi))
    obtain ⟨t', ht', hp'⟩ := hs n t (Nat.lt_succ_self n) hp
    exact ⟨t', by rw [forN_succ, ht]; exact ht', hp'⟩

/-- A loop whose body is pure. -/
theorem forN_ok {σ : Type _} {n : Nat} {s : σ} {f : Nat → σ → Res σ} (g : Nat → σ → σ)
    (h : ∀ i t, i < n → f i t = .ok (g i t)) :
    forN n s f = .ok (Nat.rec s (fun i t => g i t) n) := by
  induction n with
  | zero => rfl
  | succ n ih =>
    rw [forN_succ, ih (fun i t hi => h i t (Nat.lt_succ_of_lt hi))]
    exact h n _ (Nat.lt_succ_self n)

theorem forN_congr {m : Type _ → Type _} [Monad m] {σ : Type _} {n : Nat} {s : σ}
    {f g : Nat → σ → m σ} (h : ∀ i t, i < n → f i t = g i t) : forN n s f = forN n s g := by
  induction n with
  | zero => rfl
  | succ n ih =>
    rw [forN_succ, forN_succ, ih (fun i t hi => h i t (Nat.lt_succ_of_lt hi))]
    congr 1
    funext t
    exact h n t (Nat.lt_succ_self n)

/-- If one iteration fails after the earlier ones succeeded the loop fails. -/
theorem forN_error_mono {σ : Type _} {n k : Nat} {s : σ} {f : Nat → σ → Res σ} {e : UB}
    (h : forN k s f = .error e) (hk : k ≤ n) : forN n s f = .error e := by
  induction n with
  | zero => obtain rfl : k = 0 := by omega
            exact h
  | succ n ih =>
    by_cases hkn : k = n + 1
    · subst hkn; exact h
    · rw [forN_succ, ih (by omega)]; rfl

/-! ### Cells -/

namespace Mem

/-- The sizes of all buffers. -/
def shape (m : Mem S) (h : Handle) : Option Nat := (m h).map List.length

theorem ext_cells {m m' : Mem S} (hs : m.shape = m'.shape)
    (hc : ∀ h i, m.cell h i = m'.cell h i) : m = m' := by
  funext h
  have h1 := congrFun hs h
  have h2 := hc h
  simp only [shape, cell] at h1 h2
  cases hm : m h with
  | none =>
    cases hm' : m' h with
    | none => rfl
    | some l => simp [hm, hm'] at h1
  | some l =>
    cases hm' : m' h with
    | none => simp [hm, hm'] at h1
    | some l' =>
      simp only [hm, hm', Option.bind_some] at h2
      rw [List.ext_getElem? h2]

@[simp] theorem shape_setCell (m : Mem S) (h : Handle) (i : Nat) (v : S) :
    (m.setCell h i v).shape = m.shape := by
  funext h'
  simp only [shape, setCell]
  split
  · subst_vars; cases m h' <;> simp
  · rfl

theorem cell_setCell (m : Mem S) (h : Handle) (i : Nat) (v : S) (h' : Handle) (i' : Nat) :
    (m.setCell h i v).cell h' i' =
      if h' = h ∧ i' = i then (m.cell h i).map (fun _ => v) else m.cell h' i' := by
  simp only [cell, setCell]
  by_cases hh : h' = h
  · subst hh
    simp only [if_true, true_and]
    cases hm : m h' with
    | none => simp
    | some l =>
      simp only [Option.map_some, Option.bind_some, List.getElem?_set]
      by_cases hi : i' = i
      · subst hi
        by_cases hl : i' < l.length
        · simp [hl]
        · simp [hl]
      · simp [hi, Ne.symm hi]
  · simp [hh]

theorem cell_setCell' (m : Mem S) (h : Handle) (i : Nat) (v : S) (h' : Handle) (i' : Nat) :
    (m.setCell h i v).cell h' i' =
      (m.cell h' i').map (fun w => if h' = h ∧ i' = i then v else w) := by
  rw [cell_setCell]
  by_cases hh : h' = h ∧ i' = i
  · obtain ⟨rfl, rfl⟩ := hh; simp
  · simp [hh]

/-- in-range cells depend only on the shape -/
theorem isSome_cell (m : Mem S) (h : Handle) (i : Nat) :
    (m.cell h i).isSome = ((m.shape h).any (fun n => decide (i < n))) := by
  simp only [cell, shape]
  cases m h with
  | none => rfl
  | some l => by_cases hl : i < l.length <;> simp [hl]

theorem isSome_cell_iff (m : Mem S) (h : Handle) (i : Nat) :
    (m.cell h i).isSome = true ↔ ∃ n, m.shape h = some n ∧ i < n := by
  rw [isSome_cell]
  cases m.shape h <;> simp

@[simp] theorem isSome_cell_setCell (m : Mem S) (h : Handle) (i : Nat) (v : S) (h' : Handle)
    (i' : Nat) : ((m.setCell h i v).cell h' i').isSome = (m.cell h' i').isSome := by
  rw [isSome_cell, isSome_cell, shape_setCell]

theorem has_eq (m : Mem S) (h : Handle) : m.has h = (m.shape h).isSome := by
  simp [has, shape]

theorem cell_of_eq {m : Mem S} {h : Handle} {l : List S} (hm : m h = some l) (i : Nat) :
    m.cell h i = l[i]? := by
  simp [cell, hm]

theorem shape_of_eq {m : Mem S} {h : Handle} {l : List S} (hm : m h = some l) :
    m.shape h = some l.length := by
  simp [shape, hm]

/-- Two writes to different cells commute. -/
theorem setCell_comm (m : Mem S) {h h' : Handle} {i i' : Nat} (v v' : S)
    (hne : (h, i) ≠ (h', i')) :
    (m.setCell h i v).setCell h' i' v' = (m.setCell h' i' v').setCell h i v := by
  apply ext_cells
  · simp
  · intro a b
    have hne' : ¬ (h = h' ∧ i = i') := by
      rintro ⟨rfl, rfl⟩; exact hne rfl
    simp only [cell_setCell]
    by_cases h1 : a = h' ∧ b = i'
    · obtain ⟨rfl, rfl⟩ := h1
      have h2 : ¬ (a = h ∧ b = i) := by
        rintro ⟨rfl, rfl⟩; exact hne' ⟨rfl, rfl⟩
      simp [h2]
    · simp only [h1, if_false]
      have h2 : ¬ (h = h' ∧ i = i') := hne'
      simp [h2]

end Mem

/-! ### Running programs -/

namespace Prog

@[simp] theorem run_pure (a : α) (m : Mem S) : (pure a : Prog S α).run m = .ok (a, m) := rfl

@[simp] theorem run_ret (a : α) (m : Mem S) : (ret a : Prog S α).run m = .ok (a, m) := rfl

theorem run_bind (p : Prog S α) (f : α → Prog S β) (m : Mem S) :
    (p >>= f).run m = (p.run m >>= fun r => (f r.1).run r.2) := by
  show (bind p f).run m = _
  induction p generalizing m with
  | ret a => rfl
  | read h i k ih =>
    simp only [bind, run]
    cases m.cell h i with
    | none => rfl
    | some v => exact ih v m
  | write h i v k ih =>
    simp only [bind, run]
    cases m.cell h i with
    | none => rfl
    | some v => exact ih _

theorem run_get {m : Mem S} {h : Handle} {i : Nat} {v : S} (hc : m.cell h i = some v) :
    (get h i).run m = .ok (v, m) := by
  simp [get, run, hc]

theorem run_get_none {m : Mem S} {h : Handle} {i : Nat} (hc : m.cell h i = none) :
    (get h i).run m = .error .oob := by
  simp [get, run, hc]

theorem run_put {m : Mem S} {h : Handle} {i : Nat} (v : S) (hc : (m.cell h i).isSome) :
    (put h i v).run m = .ok ((), m.setCell h i v) := by
  obtain ⟨w, hw⟩ := Option.isSome_iff_exists.1 hc
  simp [put, run, hw]

theorem run_put_none {m : Mem S} {h : Handle} {i : Nat} (v : S) (hc : m.cell h i = none) :
    (put h i v).run m = .error .oob := by
  simp [put, run, hc]

/-- A loop of programs runs as a loop over (value, memory). -/
theorem run_forN {σ : Type} (n : Nat) (s : σ) (f : Nat → σ → Prog S σ) (m : Mem S) :
    (forN n s f).run m =
      forN n (s, m) (fun i r => (f i r.1).run r.2) := by
  induction n with
  | zero => rfl
  | succ n ih =>
    rw [forN_succ, run_bind, ih, forN_succ]

end Prog

end NB
