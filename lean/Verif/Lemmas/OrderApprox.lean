import Verif.Lemmas.OrderCheck
import Mathlib.Data.ZMod.Basic
import Mathlib.Data.List.Sort
import Mathlib.Data.List.Forall2
import Mathlib.Algebra.Order.BigOperators.Group.Finset
import Mathlib.Algebra.Order.BigOperators.Ring.Finset
import Mathlib.Tactic.Ring
import Mathlib.Tactic.Linarith
import Mathlib.Tactic.LinearCombination
import Mathlib.Tactic.FieldSimp
import Mathlib.Tactic.Positivity
import Mathlib.Tactic.NormNum

/-
A decision procedure for the order conditions within a tolerance, fast enough for order 14.  It works with residues modulo a
large number, enumerates forests without regard to order (`build`), and evaluates the conditions of large trees from the root
downwards (`desc`, `peel`), so that only small trees are ever expanded.  The functions are written for the kernel.
-/

namespace NB

open Spec

namespace OA

/-! ### The procedure -/

/-- Scalar product of lists of residues; zeros in the first list are skipped. -/
noncomputable def dot (u : List ℕ) : List ℕ → ℕ :=
  @List.rec ℕ (fun _ => List ℕ → ℕ) (fun _ => 0)
    (fun x _ ih v => @List.rec ℕ (fun _ => ℕ) 0
      (fun y ys _ => @Nat.rec (fun _ => ℕ) (ih ys) (fun _ _ => Nat.add (Nat.mul x y) (ih ys)) x) v) u

/-- Product of vectors. -/
noncomputable def mulv (M : ℕ) (u : List ℕ) : List ℕ → List ℕ :=
  @List.rec ℕ (fun _ => List ℕ → List ℕ) (fun _ => [])
    (fun x _ ih v => @List.rec ℕ (fun _ => List ℕ) [] (fun y ys _ => Nat.mod (Nat.mul x y) M :: ih ys) v) u

/-- Matrix times vector. -/
noncomputable def matv (M : ℕ) (A : List (List ℕ)) (v : List ℕ) : List ℕ :=
  @List.rec (List ℕ) (fun _ => List ℕ) [] (fun r _ ih => Nat.mod (dot r v) M :: ih) A

/-- A forest or a tree: number, weights, density. -/
structure Ent where
  id : ℕ
  v : List ℕ
  g : ℕ

/-- Trees with `k` vertices from the forests with `k - 1`, numbered. -/
noncomputable def numb (M : ℕ) (A : List (List ℕ)) (k : ℕ) (l : List Ent) : ℕ → List Ent :=
  @List.rec Ent (fun _ => ℕ → List Ent) (fun _ => [])
    (fun f _ ih i => ⟨i, matv M A f.v, Nat.mul k f.g⟩ :: ih (Nat.succ i)) l

/-- Forests with `n + 1` vertices: a tree with `k + 1` vertices and a forest of trees with numbers not above it. -/
noncomputable def step (M : ℕ) (T F : List (List Ent)) (n : ℕ) : List Ent :=
  (List.range (n + 1)).flatMap fun k => ((T[k]?).getD []).flatMap fun t => ((F[n - k]?).getD []).filterMap fun f =>
    if Nat.ble f.id t.id then some ⟨t.id, mulv M t.v f.v, Nat.mul t.g f.g⟩ else none

/-- Number of trees, trees and forests with at most `h` vertices. -/
noncomputable def build (M : ℕ) (A : List (List ℕ)) (one : List ℕ) : ℕ → ℕ × List (List Ent) × List (List Ent)
  | 0 => (0, [], [[⟨0, one, 1⟩]])
  | n + 1 =>
    let r := build M A one n
    let Fn := (r.2.2[n]?).getD []
    let T := r.2.1 ++ [numb M A (n + 1) Fn r.1]
    (r.1 + Fn.length, T, r.2.2 ++ [step M T r.2.2 n])

/-- The condition of a tree with density `g` and weight `x`: `|g x - S| ≤ E g`. -/
noncomputable def test (M S E g x : ℕ) : Bool :=
  Nat.ble (Nat.mod (Nat.add (Nat.mul g (Nat.add x E)) (Nat.sub M S)) M) (Nat.mul 2 (Nat.mul E g))

/-- All forests with `n` vertices of trees from `T` with numbers not above `bound`. -/
noncomputable def peel (M S E h : ℕ) (T F : List (List Ent)) : ℕ → List ℕ → ℕ → ℕ → ℕ → Bool
  | 0, _, _, _, _ => false
  | fuel + 1, c, g, n, bound =>
    if n ≤ h then ((F[n]?).getD []).all fun f => !(Nat.ble f.id bound) || test M S E (Nat.mul g f.g) (dot c f.v)
    else (List.range h).all fun k => ((T[k]?).getD []).all fun t => !(Nat.ble t.id bound) ||
      peel M S E h T F fuel (mulv M c t.v) (Nat.mul g t.g) (n - (k + 1)) t.id

/-- One large tree with `q` vertices and a small forest beside it. -/
noncomputable def below (M : ℕ) (At : List (List ℕ)) (F : List (List Ent)) (next : List ℕ → ℕ → ℕ → Bool) (c : List ℕ)
    (g n q : ℕ) : Bool :=
  ((F[n - q]?).getD []).all fun w => next (matv M At (mulv M c w.v)) (Nat.mul (Nat.mul g w.g) q) (q - 1)

/-- All forests with `n` vertices; `top` is larger than all numbers. -/
noncomputable def desc (M S E h top : ℕ) (At : List (List ℕ)) (T F : List (List Ent)) : ℕ → List ℕ → ℕ → ℕ → Bool
  | 0, _, _, _ => false
  | fuel + 1, c, g, n =>
    if n ≤ h then ((F[n]?).getD []).all fun f => test M S E (Nat.mul g f.g) (dot c f.v)
    else peel M S E h T F (n + 1) c g n top &&
      (List.range (n + 1)).all fun q => !(Nat.ble (h + 1) q) || below M At F (desc M S E h top At T F fuel) c g n q

/-! ### Arithmetic of residues -/

section Residues
variable {M : ℕ}

/-- Residues as elements of the ring. -/
abbrev res (M : ℕ) (v : List ℕ) : List (ZMod M) := v.map (Nat.cast : ℕ → ZMod M)

theorem dot_res (u v : List ℕ) : ((dot u v : ℕ) : ZMod M) = ldot (res M u) (res M v) := by
  induction u generalizing v with
  | nil => cases v <;> simp [dot, ldot]
  | cons x xs ih =>
    cases v with
    | nil => simp [dot, ldot]
    | cons y ys =>
      have h : dot (x :: xs) (y :: ys) = x * y + dot xs ys := by
        cases x with
        | zero => simp [dot]
        | succ x => rfl
      rw [h, Nat.cast_add, Nat.cast_mul, ih]
      rfl

theorem mulv_res (u v : List ℕ) : res M (mulv M u v) = lmul (res M u) (res M v) := by
  induction u generalizing v with
  | nil => cases v <;> simp [mulv, lmul]
  | cons x xs ih =>
    cases v with
    | nil => simp [mulv, lmul]
    | cons y ys =>
      have h : mulv M (x :: xs) (y :: ys) = (x * y) % M :: mulv M xs ys := rfl
      rw [h, res, List.map_cons, ← res, ih, ZMod.natCast_mod, Nat.cast_mul]
      rfl

theorem matv_res (A : List (List ℕ)) (v : List ℕ) :
    res M (matv M A v) = (A.map (res M)).map fun row => ldot row (res M v) := by
  induction A with
  | nil => rfl
  | cons r A ih =>
    have h : matv M (r :: A) v = dot r v % M :: matv M A v := rfl
    rw [h, res, List.map_cons, ← res, ih, ZMod.natCast_mod, dot_res]
    rfl

end Residues

section Lists
variable {R : Type} [CommRing R]

theorem ldot_lmul (c w v : List R) : ldot (lmul c w) v = ldot c (lmul w v) := by
  induction c generalizing w v with
  | nil => simp [lmul, ldot]
  | cons x xs ih =>
    cases w with
    | nil => simp [lmul, ldot]
    | cons y ys =>
      cases v with
      | nil => simp [lmul, ldot]
      | cons z zs =>
        have := ih ys zs
        simp only [lmul, List.zipWith_cons_cons, ldot] at *
        rw [this, mul_assoc]

theorem lmul_comm (u v : List R) : lmul u v = lmul v u := by
  unfold lmul
  rw [List.zipWith_comm]
  congr 1
  funext a b
  exact mul_comm _ _

/-- The matrix moved to the other factor. -/
theorem ldot_transpose {s : ℕ} {A At : List (List R)} (hA : A.length = s) (hAt : At.length = s)
    (ht : ∀ i j, i < s → j < s → rowsA A i j = rowsA At j i) {c v : List R} (hc : c.length = s) (hv : v.length = s) :
    ldot c (A.map fun row => ldot row v) = ldot (At.map fun row => ldot row c) v := by
  rw [ldot_eq, ldot_eq]
  simp only [List.length_map, hA, hv]
  have e1 : ∀ i, i < s → (A.map fun row => ldot row v).getD i 0 = ∑ j ∈ Finset.range s, rowsA A i j * v.getD j 0 := by
    intro i hi
    rw [List.getD_eq_getElem?_getD, List.getElem?_map, List.getElem?_eq_getElem (hA.symm ▸ hi), Option.map_some,
      Option.getD_some, ldot_eq, hv]
    refine Finset.sum_congr rfl fun j _ => ?_
    simp [rowsA, List.getD_eq_getElem?_getD, List.getElem?_eq_getElem (hA.symm ▸ hi)]
  have e2 : ∀ j, j < s → (At.map fun row => ldot row c).getD j 0 = ∑ i ∈ Finset.range s, rowsA At j i * c.getD i 0 := by
    intro i hi
    rw [List.getD_eq_getElem?_getD, List.getElem?_map, List.getElem?_eq_getElem (hAt.symm ▸ hi), Option.map_some,
      Option.getD_some, ldot_eq, hc]
    refine Finset.sum_congr rfl fun j _ => ?_
    simp [rowsA, List.getD_eq_getElem?_getD, List.getElem?_eq_getElem (hAt.symm ▸ hi)]
  have l : (∑ i ∈ Finset.range s, c.getD i 0 * (A.map fun row => ldot row v).getD i 0)
      = ∑ i ∈ Finset.range s, ∑ j ∈ Finset.range s, c.getD i 0 * (rowsA A i j * v.getD j 0) :=
    Finset.sum_congr rfl fun i hi => by rw [e1 i (Finset.mem_range.1 hi), Finset.mul_sum]
  have r : (∑ j ∈ Finset.range s, (At.map fun row => ldot row c).getD j 0 * v.getD j 0)
      = ∑ j ∈ Finset.range s, ∑ i ∈ Finset.range s, rowsA At j i * c.getD i 0 * v.getD j 0 :=
    Finset.sum_congr rfl fun j hj => by rw [e2 j (Finset.mem_range.1 hj), Finset.sum_mul]
  rw [l, r, Finset.sum_comm]
  refine Finset.sum_congr rfl fun j hj => Finset.sum_congr rfl fun i hi => ?_
  rw [ht i j (Finset.mem_range.1 hi) (Finset.mem_range.1 hj)]
  ring

theorem fvec_length (A : List (List R)) (s : ℕ) (ts : List RTree) : (fvec A s ts).length = s := by simp [fvec]

end Lists

/-! ### The order of the children does not matter -/

theorem orders_perm {l l' : List RTree} (h : l.Perm l') : RTree.orders l = RTree.orders l' := by
  induction h with
  | nil => rfl
  | cons _ _ ih => simp only [RTree.orders, ih]
  | swap => simp only [RTree.orders]; omega
  | trans _ _ h1 h2 => exact h1.trans h2

theorem gammas_perm {l l' : List RTree} (h : l.Perm l') : RTree.gammas l = RTree.gammas l' := by
  induction h with
  | nil => rfl
  | cons _ _ ih => simp only [RTree.gammas, ih]
  | swap => simp only [RTree.gammas]; ring
  | trans _ _ h1 h2 => exact h1.trans h2

theorem phis_perm {R : Type} [CommRing R] (s : ℕ) (a : ℕ → ℕ → R) {l l' : List RTree} (h : l.Perm l') (i : ℕ) :
    RTree.phis s a l i = RTree.phis s a l' i := by
  induction h with
  | nil => rfl
  | cons _ _ ih => simp only [RTree.phis, ih]
  | swap => simp only [RTree.phis]; ring
  | trans _ _ h1 h2 => exact h1.trans h2

theorem fvec_perm {R : Type} [CommRing R] (A : List (List R)) (s : ℕ) {l l' : List RTree} (h : l.Perm l') :
    fvec A s l = fvec A s l' := by
  unfold fvec
  exact List.map_congr_left fun i _ => phis_perm s _ h i

/-! ### The enumeration is complete -/

section Enumeration
variable {M s : ℕ} {A : List (List ℕ)}

/-- The matrix over the residues. -/
abbrev matZ (M : ℕ) (A : List (List ℕ)) : List (List (ZMod M)) := A.map (res M)

/-- `f` is the forest `ts`. -/
def IsForest (M s : ℕ) (A : List (List ℕ)) (ts : List RTree) (f : Ent) : Prop :=
  res M f.v = fvec (matZ M A) s ts ∧ f.g = RTree.gammas ts

/-- `e` is the tree `t`. -/
def IsTree (M s : ℕ) (A : List (List ℕ)) : RTree → Ent → Prop
  | .node us, e => res M e.v = (matZ M A).map (fun row => ldot row (fvec (matZ M A) s us)) ∧ e.g = (RTree.node us).gamma

theorem forest_cons (hA : A.length = s) {t : RTree} {e : Ent} (he : IsTree M s A t e) (ts : List RTree) :
    fvec (matZ M A) s (t :: ts) = lmul (res M e.v) (fvec (matZ M A) s ts) := by
  obtain ⟨us⟩ := t
  rw [fvec_cons _ _ (by simpa using hA), he.1]

theorem tree_gamma {t : RTree} {e : Ent} (he : IsTree M s A t e) : e.g = t.gamma := by
  obtain ⟨us⟩ := t; exact he.2

theorem numb_mem {k : ℕ} {l : List Ent} {f : Ent} (hf : f ∈ l) (i : ℕ) :
    ∃ j, i ≤ j ∧ j < i + l.length ∧ (⟨j, matv M A f.v, k * f.g⟩ : Ent) ∈ numb M A k l i := by
  induction l generalizing i with
  | nil => cases hf
  | cons x l ih =>
    have e : numb M A k (x :: l) i = ⟨i, matv M A x.v, k * x.g⟩ :: numb M A k l (i + 1) := rfl
    rw [e]
    rcases List.mem_cons.1 hf with rfl | h
    · exact ⟨i, le_refl _, by simp, List.mem_cons_self⟩
    · obtain ⟨j, h1, h2, h3⟩ := ih h (i + 1)
      exact ⟨j, by omega, by simp only [List.length_cons]; omega, List.mem_cons_of_mem _ h3⟩

/-- A forest that is not empty has a tree with the largest number. -/
theorem exists_max (id : RTree → ℕ) {ts : List RTree} (h : ts ≠ []) :
    ∃ t rest, ts.Perm (t :: rest) ∧ ∀ u ∈ rest, id u ≤ id t := by
  induction ts with
  | nil => exact absurd rfl h
  | cons x l ih =>
    by_cases hl : l = []
    · subst hl; exact ⟨x, [], List.Perm.refl _, by simp⟩
    · obtain ⟨t, rest, hp, hm⟩ := ih hl
      by_cases hx : id x ≤ id t
      · refine ⟨t, x :: rest, (hp.cons x).trans (List.Perm.swap _ _ _), ?_⟩
        intro u hu
        rcases List.mem_cons.1 hu with rfl | hu
        · exact hx
        · exact hm u hu
      · refine ⟨x, l, List.Perm.refl _, ?_⟩
        intro u hu
        rcases List.mem_cons.1 (hp.subset hu) with rfl | hu
        · omega
        · have := hm u hu; omega

theorem order_pos (t : RTree) : 0 < t.order := by obtain ⟨us⟩ := t; simp [RTree.order]

theorem orders_mem {t : RTree} {ts : List RTree} (h : t ∈ ts) : t.order ≤ RTree.orders ts := by
  induction ts with
  | nil => cases h
  | cons u ts ih =>
    rcases List.mem_cons.1 h with rfl | h
    · simp [RTree.orders]
    · have := ih h; simp only [RTree.orders]; omega

/-- What a complete enumeration of the trees and forests with at most `h` vertices gives. -/
structure Complete (M s : ℕ) (A : List (List ℕ)) (h top : ℕ) (T F : List (List Ent)) (code : RTree → Ent) : Prop where
  tree : ∀ t : RTree, t.order ≤ h → code t ∈ (T[t.order - 1]?).getD [] ∧ IsTree M s A t (code t) ∧ (code t).id ≤ top
  forest : ∀ (ts : List RTree) (b : ℕ), RTree.orders ts ≤ h → (∀ t ∈ ts, (code t).id ≤ b) →
    ∃ f ∈ (F[RTree.orders ts]?).getD [], IsForest M s A ts f ∧ f.id ≤ b

theorem build_length (one : List ℕ) (h : ℕ) :
    (build M A one h).2.1.length = h ∧ (build M A one h).2.2.length = h + 1 := by
  induction h with
  | zero => exact ⟨rfl, rfl⟩
  | succ h ih => simp [build, ih]

theorem build_complete (hA : A.length = s) (h : ℕ) :
    ∃ code, Complete M s A h (build M A (List.replicate s 1) h).1 (build M A (List.replicate s 1) h).2.1
      (build M A (List.replicate s 1) h).2.2 code := by
  classical
  induction h with
  | zero =>
    refine ⟨fun _ => ⟨0, [], 0⟩, fun t ht => absurd (order_pos t) (by omega), ?_⟩
    intro ts b hts _
    cases ts with
    | nil =>
      refine ⟨⟨0, List.replicate s 1, 1⟩, by simp [build, RTree.orders], ⟨?_, by simp [RTree.gammas]⟩, Nat.zero_le _⟩
      simp [fvec_nil, res]
    | cons t ts => have := order_pos t; simp only [RTree.orders] at hts; omega
  | succ h ih =>
    obtain ⟨code, ht, hf⟩ := ih
    obtain ⟨lT, lF⟩ := build_length (M := M) (A := A) (List.replicate s 1) h
    generalize hr : build M A (List.replicate s 1) h = r at *
    obtain ⟨cnt, T, F⟩ := r
    simp only at ht hf lT lF
    -- the trees with `h + 1` vertices
    have new : ∀ t : RTree, t.order = h + 1 → ∃ e ∈ numb M A (h + 1) ((F[h]?).getD []) cnt, IsTree M s A t e ∧
        e.id ≤ cnt + ((F[h]?).getD []).length := by
      intro t hto
      obtain ⟨us⟩ := t
      simp only [RTree.order] at hto
      have hus : RTree.orders us = h := by omega
      obtain ⟨f, hfm, ⟨hv, hg⟩, -⟩ := hf us cnt (by omega) (fun u hu => (ht u (by have := orders_mem hu; omega)).2.2)
      rw [hus] at hfm
      obtain ⟨j, _, hj, hm⟩ := numb_mem (M := M) (A := A) (k := h + 1) hfm cnt
      refine ⟨_, hm, ⟨?_, ?_⟩, by simp only; omega⟩
      · simp only [matv_res, hv]
      · simp only [RTree.gamma, hus, hg]
    choose code' hc' using new
    let cd : RTree → Ent := fun t => if he : t.order = h + 1 then code' t he else code t
    have eB : build M A (List.replicate s 1) (h + 1) = (cnt + ((F[h]?).getD []).length,
        T ++ [numb M A (h + 1) ((F[h]?).getD []) cnt],
        F ++ [step M (T ++ [numb M A (h + 1) ((F[h]?).getD []) cnt]) F h]) := by rw [build, hr]
    rw [eB]
    have htree : ∀ t : RTree, t.order ≤ h + 1 → cd t ∈ ((T ++ [numb M A (h + 1) ((F[h]?).getD []) cnt])[t.order - 1]?).getD [] ∧
        IsTree M s A t (cd t) ∧ (cd t).id ≤ cnt + ((F[h]?).getD []).length := by
      intro t hto
      by_cases he : t.order = h + 1
      · simp only [cd, dif_pos he]
        obtain ⟨h1, h2, h3⟩ := hc' t he
        refine ⟨?_, h2, h3⟩
        rw [he, Nat.add_sub_cancel, List.getElem?_append_right (by omega), lT, Nat.sub_self]
        exact h1
      · simp only [cd, dif_neg he]
        obtain ⟨h1, h2, h3⟩ := ht t (by omega)
        have := order_pos t
        refine ⟨?_, h2, by omega⟩
        rw [List.getElem?_append_left (by omega)]
        exact h1
    have hold : ∀ t : RTree, t.order ≤ h → cd t = code t := fun t hto => by
      have : t.order ≠ h + 1 := by omega
      simp only [cd, dif_neg this]
    have hforest : ∀ (ts : List RTree) (b : ℕ), RTree.orders ts ≤ h → (∀ t ∈ ts, (cd t).id ≤ b) →
        ∃ f ∈ (F[RTree.orders ts]?).getD [], IsForest M s A ts f ∧ f.id ≤ b := fun ts b hts hb =>
      hf ts b hts fun t htm => by rw [← hold t (by have := orders_mem htm; omega)]; exact hb t htm
    refine ⟨cd, htree, ?_⟩
    intro ts b hts hb
    simp only
    by_cases ho : RTree.orders ts ≤ h
    · rw [List.getElem?_append_left (by omega)]
      exact hforest ts b ho hb
    · have ho' : RTree.orders ts = h + 1 := by omega
      have hne : ts ≠ [] := by rintro rfl; simp [RTree.orders] at ho'
      obtain ⟨t, rest, hp, hm⟩ := exists_max (fun t => (cd t).id) hne
      have hsum : t.order + RTree.orders rest = h + 1 := by
        have := orders_perm hp; simp only [RTree.orders] at this; omega
      have hpos := order_pos t
      obtain ⟨h1, h2, -⟩ := htree t (by omega)
      obtain ⟨f, hfm, ⟨hv, hg⟩, hid⟩ := hforest rest (cd t).id (by omega) hm
      rw [ho', List.getElem?_append_right (by omega), lF, Nat.sub_self, List.getElem?_cons_zero, Option.getD_some]
      refine ⟨⟨(cd t).id, mulv M (cd t).v f.v, (cd t).g * f.g⟩, ?_, ⟨?_, ?_⟩, hb t (hp.symm.subset List.mem_cons_self)⟩
      · simp only [step, List.mem_flatMap, List.mem_range, List.mem_filterMap]
        refine ⟨t.order - 1, by omega, cd t, h1, f, ?_, ?_⟩
        · have : h - (t.order - 1) = RTree.orders rest := by omega
          rw [this]; exact hfm
        · rw [if_pos (by simpa using hid)]; rfl
      · rw [fvec_perm _ _ hp, forest_cons hA h2, ← hv, mulv_res]
      · rw [gammas_perm hp, RTree.gammas]; simp only [tree_gamma h2, hg]

/-! ### The descent -/

/-- A residue passes the test. -/
def Good (M S E g : ℕ) (X : ZMod M) : Prop := ∃ x : ℕ, (x : ZMod M) = X ∧ test M S E g x = true

variable {S E h top : ℕ} {T F : List (List Ent)} {code : RTree → Ent}

theorem forest_test (hC : Complete M s A h top T F code) {ts : List RTree} {b : ℕ} (hts : RTree.orders ts ≤ h)
    (hb : ∀ t ∈ ts, (code t).id ≤ b) {c : List ℕ} {g : ℕ}
    (hall : ∀ f ∈ (F[RTree.orders ts]?).getD [], f.id ≤ b → test M S E (g * f.g) (dot c f.v) = true) :
    Good M S E (g * RTree.gammas ts) (ldot (res M c) (fvec (matZ M A) s ts)) := by
  obtain ⟨f, hf, ⟨hv, hg⟩, hid⟩ := hC.forest ts b hts hb
  refine ⟨dot c f.v, ?_, ?_⟩
  · rw [dot_res, hv]
  · rw [← hg]; exact hall f hf hid

theorem peel_sound (hA : A.length = s) (hC : Complete M s A h top T F code) (fuel : ℕ) (c : List ℕ) (g n b : ℕ)
    (hp : peel M S E h T F fuel c g n b = true) (ts : List RTree) (hn : RTree.orders ts = n)
    (hh : ∀ t ∈ ts, t.order ≤ h) (hb : ∀ t ∈ ts, (code t).id ≤ b) :
    Good M S E (g * RTree.gammas ts) (ldot (res M c) (fvec (matZ M A) s ts)) := by
  induction fuel generalizing c g n b ts with
  | zero => simp [peel] at hp
  | succ fuel ih =>
    subst hn
    rw [peel] at hp
    by_cases hle : RTree.orders ts ≤ h
    · rw [if_pos hle, List.all_eq_true] at hp
      refine forest_test hC hle hb fun f hf hid => ?_
      have := hp f hf
      rw [Bool.or_eq_true] at this
      rcases this with h1 | h1
      · rw [Nat.ble_eq_true_of_le hid] at h1; simp at h1
      · exact h1
    · rw [if_neg hle, List.all_eq_true] at hp
      have hne : ts ≠ [] := by rintro rfl; simp [RTree.orders] at hle
      obtain ⟨t, rest, hpm, hm⟩ := exists_max (fun t => (code t).id) hne
      have htm : t ∈ ts := hpm.symm.subset List.mem_cons_self
      obtain ⟨h1, h2, -⟩ := hC.tree t (hh t htm)
      have hpos := order_pos t
      have hk := hp (t.order - 1) (List.mem_range.2 (by have := hh t htm; omega))
      rw [List.all_eq_true] at hk
      have hk' := hk _ h1
      rw [Bool.or_eq_true] at hk'
      rcases hk' with h3 | h3
      · rw [Nat.ble_eq_true_of_le (hb t htm)] at h3; simp at h3
      · have hsum : RTree.orders ts = t.order + RTree.orders rest := orders_perm hpm
        have := ih _ _ _ _ h3 rest (by omega) (fun u hu => hh u (hpm.symm.subset (List.mem_cons_of_mem _ hu))) hm
        rw [mulv_res, ldot_lmul, ← forest_cons hA h2, ← fvec_perm _ _ hpm] at this
        rw [gammas_perm hpm, RTree.gammas, ← tree_gamma h2, ← mul_assoc]
        exact this

/-- One level of the descent. -/
theorem level_sound {At : List (List ℕ)} (hA : A.length = s) (hAt : At.length = s)
    (hT : ∀ i j, i < s → j < s → rowsA (matZ M A) i j = rowsA (matZ M At) j i)
    (hC : Complete M s A h top T F code) {c : List ℕ} (hc : c.length = s) {g n : ℕ} (hn : n ≤ 2 * h + 1)
    (hpeel : peel M S E h T F (n + 1) c g n top = true)
    (hdeep : ∀ q, h + 1 ≤ q → q ≤ n → ∀ w ∈ (F[n - q]?).getD [], ∀ us, RTree.orders us = q - 1 →
      Good M S E (g * w.g * q * RTree.gammas us) (ldot (res M (matv M At (mulv M c w.v))) (fvec (matZ M A) s us)))
    (ts : List RTree) (hts : RTree.orders ts = n) :
    Good M S E (g * RTree.gammas ts) (ldot (res M c) (fvec (matZ M A) s ts)) := by
  by_cases hall : ∀ t ∈ ts, t.order ≤ h
  · exact peel_sound hA hC _ _ _ _ _ hpeel ts hts hall fun t ht => (hC.tree t (hall t ht)).2.2
  · push Not at hall
    obtain ⟨t, htm, hto⟩ := hall
    obtain ⟨l1, l2, rfl⟩ := List.append_of_mem htm
    have hpm : (l1 ++ t :: l2).Perm (t :: (l1 ++ l2)) := List.perm_middle
    generalize l1 ++ l2 = rest at hpm
    have hsum : RTree.orders (l1 ++ t :: l2) = t.order + RTree.orders rest := orders_perm hpm
    have hrest : RTree.orders rest ≤ h := by omega
    obtain ⟨w, hw, ⟨hv, hg⟩, -⟩ := hC.forest rest top hrest fun u hu =>
      (hC.tree u (by have := orders_mem hu; omega)).2.2
    have e : n - t.order = RTree.orders rest := by omega
    obtain ⟨us⟩ := t
    have := hdeep (RTree.node us).order (by omega) (by omega) w (by rw [e]; exact hw) us (by simp [RTree.order])
    rw [matv_res, mulv_res, hv] at this
    rw [fvec_perm _ _ hpm, gammas_perm hpm, fvec_cons _ _ (by simpa using hA), lmul_comm, ← ldot_lmul,
      ldot_transpose (by simpa using hA) (At := matZ M At) (by simpa using hAt) hT
        (by simp [lmul, hc, fvec_length]) (fvec_length _ _ _)]
    have eg : g * RTree.gammas (.node us :: rest) = g * w.g * (RTree.node us).order * RTree.gammas us := by
      rw [hg]; simp only [RTree.gammas, RTree.gamma, RTree.order]; ring
    rw [eg]
    exact this

theorem matv_length {At : List (List ℕ)} (hAt : At.length = s) (v : List ℕ) : (matv M At v).length = s := by
  have : (res M (matv M At v)).length = s := by rw [matv_res]; simp [hAt]
  simpa using this

theorem desc_sound {At : List (List ℕ)} (hA : A.length = s) (hAt : At.length = s)
    (hT : ∀ i j, i < s → j < s → rowsA (matZ M A) i j = rowsA (matZ M At) j i)
    (hC : Complete M s A h top T F code) (fuel : ℕ) (c : List ℕ) (hc : c.length = s) (g n : ℕ) (hn : n ≤ 2 * h + 1)
    (hd : desc M S E h top At T F fuel c g n = true) (ts : List RTree) (hts : RTree.orders ts = n) :
    Good M S E (g * RTree.gammas ts) (ldot (res M c) (fvec (matZ M A) s ts)) := by
  induction fuel generalizing c g n ts with
  | zero => simp [desc] at hd
  | succ fuel ih =>
    rw [desc] at hd
    by_cases hle : n ≤ h
    · rw [if_pos hle, List.all_eq_true] at hd
      subst hts
      exact forest_test hC hle (b := top) (fun t ht => (hC.tree t (by have := orders_mem ht; omega)).2.2)
        fun f hf _ => hd f hf
    · rw [if_neg hle, Bool.and_eq_true, List.all_eq_true] at hd
      refine level_sound hA hAt hT hC hc hn hd.1 (fun q h1 h2 w hw us hus => ?_) ts hts
      have := hd.2 q (List.mem_range.2 (by omega))
      rw [Bool.or_eq_true] at this
      rcases this with h3 | h3
      · rw [Nat.ble_eq_true_of_le h1] at h3; simp at h3
      · rw [below, List.all_eq_true] at h3
        exact ih _ (matv_length hAt _) _ (q - 1) (by omega) (h3 w hw) us hus

end Enumeration

/-! ### From residues to numbers -/

mutual
theorem gamma_le {p : ℕ} (t : RTree) (h : t.order ≤ p) : t.gamma ≤ p ^ t.order := by
  cases t with
  | node ts =>
    simp only [RTree.gamma, RTree.order] at *
    rw [pow_succ, mul_comm]
    exact Nat.mul_le_mul (gammas_le ts (by omega)) h
theorem gammas_le {p : ℕ} (ts : List RTree) (h : RTree.orders ts ≤ p) : RTree.gammas ts ≤ p ^ RTree.orders ts := by
  cases ts with
  | nil => simp [RTree.gammas, RTree.orders]
  | cons t ts =>
    simp only [RTree.gammas, RTree.orders] at *
    rw [pow_add]
    exact Nat.mul_le_mul (gamma_le t (by omega)) (gammas_le ts (by omega))
end

mutual
theorem phi_le {s : ℕ} {a : ℕ → ℕ → ℤ} {R : ℤ} (hR : ∀ i, ∑ j ∈ Finset.range s, |a i j| ≤ R) (t : RTree) (i : ℕ) :
    |t.phi s a i| ≤ R ^ (t.order - 1) := by
  cases t with
  | node ts => simp only [RTree.phi, RTree.order, Nat.add_sub_cancel]; exact phis_le hR ts i
theorem phis_le {s : ℕ} {a : ℕ → ℕ → ℤ} {R : ℤ} (hR : ∀ i, ∑ j ∈ Finset.range s, |a i j| ≤ R) (ts : List RTree) (i : ℕ) :
    |RTree.phis s a ts i| ≤ R ^ RTree.orders ts := by
  have h0 : 0 ≤ R := le_trans (Finset.sum_nonneg fun _ _ => abs_nonneg _) (hR 0)
  cases ts with
  | nil => simp [RTree.phis, RTree.orders]
  | cons t ts =>
    simp only [RTree.phis, RTree.orders, abs_mul, pow_add]
    refine mul_le_mul ?_ (phis_le hR ts i) (abs_nonneg _) (by positivity)
    calc |∑ j ∈ Finset.range s, a i j * t.phi s a j|
        ≤ ∑ j ∈ Finset.range s, |a i j * t.phi s a j| := Finset.abs_sum_le_sum_abs _ _
      _ ≤ ∑ j ∈ Finset.range s, |a i j| * R ^ (t.order - 1) :=
          Finset.sum_le_sum fun j _ => by
            rw [abs_mul]; exact mul_le_mul_of_nonneg_left (phi_le hR t j) (abs_nonneg _)
      _ = (∑ j ∈ Finset.range s, |a i j|) * R ^ (t.order - 1) := by rw [Finset.sum_mul]
      _ ≤ R * R ^ (t.order - 1) := mul_le_mul_of_nonneg_right (hR i) (by positivity)
      _ = R ^ t.order := by
          rw [← pow_succ']; congr 1; have := order_pos t; omega
end

/-- The test read as a statement on integers. -/
theorem test_int {M S E g : ℕ} {X B : ℤ} (hg : Good M S E g ((X : ℤ) : ZMod M)) (hX : |X| ≤ B) (hS : S ≤ M)
    (hM : (g : ℤ) * (B + 3 * E) + S < M) : |(g : ℤ) * X - S| ≤ g * E := by
  obtain ⟨x, hx, ht⟩ := hg
  have ht' : (g * (x + E) + (M - S)) % M ≤ 2 * (E * g) := Nat.le_of_ble_eq_true ht
  have e1 : ((x : ℤ) : ZMod M) = ((X : ℤ) : ZMod M) := by rw [Int.cast_natCast]; exact hx
  obtain ⟨k, hk⟩ := (ZMod.intCast_eq_intCast_iff_dvd_sub _ _ _).1 e1
  have hdiv := Nat.div_add_mod (g * (x + E) + (M - S)) M
  generalize (g * (x + E) + (M - S)) % M = r at *
  generalize (g * (x + E) + (M - S)) / M = d at *
  have hz : (M : ℤ) * d + r = g * (x + E) + (M - S) := by
    have := congrArg (Nat.cast : ℕ → ℤ) hdiv
    push_cast [Nat.cast_sub hS] at this
    exact this
  have hr : (r : ℤ) ≤ 2 * (E * g) := by exact_mod_cast ht'
  have hr0 : (0 : ℤ) ≤ r := Int.natCast_nonneg _
  have hM0 : (0 : ℤ) ≤ M := Int.natCast_nonneg _
  have hE0 : (0 : ℤ) ≤ E := Int.natCast_nonneg _
  have hg0 : (0 : ℤ) ≤ g := Int.natCast_nonneg _
  have hS0 : (0 : ℤ) ≤ S := Int.natCast_nonneg _
  -- `y = g X + g E - S` is congruent to `r`
  have hy : (g : ℤ) * X + g * E - S = r + M * (d - 1 + g * k) := by
    have : (X : ℤ) = x + M * k := by linarith
    rw [this]; linear_combination -hz
  have hb := abs_le.1 hX
  have hlo : -((g : ℤ) * B) ≤ g * X := by
    have := mul_le_mul_of_nonneg_left hb.1 hg0; linarith
  have hhi : (g : ℤ) * X ≤ g * B := mul_le_mul_of_nonneg_left hb.2 hg0
  have hgE : (0 : ℤ) ≤ g * E := mul_nonneg hg0 hE0
  have hk0 : (d : ℤ) - 1 + g * k = 0 := by
    generalize (d : ℤ) - 1 + g * k = q at *
    by_contra hq
    rcases lt_or_gt_of_ne hq with h1 | h1
    · have : (M : ℤ) * q ≤ M * (-1) := mul_le_mul_of_nonneg_left (by omega) hM0
      nlinarith
    · have : (M : ℤ) * 1 ≤ M * q := mul_le_mul_of_nonneg_left (by omega) hM0
      nlinarith
  rw [hk0, mul_zero, add_zero] at hy
  rw [abs_le]
  constructor <;> nlinarith

/-! ### Tables of rationals -/

/-- Numerator over the common denominator `D`. -/
def numer (D : ℕ) (q : ℚ) : ℤ := (q * (D : ℚ)).num

/-- Residue of the numerator. -/
def resid (M D : ℕ) (q : ℚ) : ℕ := (numer D q % (M : ℤ)).toNat

/-- The matrix of residues. -/
def residA (M D : ℕ) (rows : List (List ℚ)) : List (List ℕ) := rows.map (List.map (resid M D))

/-- Its transpose. -/
def transp (s : ℕ) (A : List (List ℕ)) : List (List ℕ) :=
  (List.range s).map fun j => (List.range s).map fun i => (A.getD i []).getD j 0

/-- All entries have the denominator `D`; rows and weights are bounded. -/
def bounded (D R B : ℕ) (rows : List (List ℚ)) (b : List ℚ) : Bool :=
  (rows.all fun r => (r.all fun q => (q * (D : ℚ)).den == 1) && decide ((r.map fun q => (numer D q).natAbs).sum ≤ R)) &&
    (b.all fun q => (q * (D : ℚ)).den == 1) && decide ((b.map fun q => (numer D q).natAbs).sum ≤ B)

theorem resid_cast {M D : ℕ} (hM : 0 < M) (q : ℚ) : ((resid M D q : ℕ) : ZMod M) = ((numer D q : ℤ) : ZMod M) := by
  have h : ((resid M D q : ℕ) : ℤ) = numer D q % M := Int.toNat_of_nonneg (Int.emod_nonneg _ (by omega))
  rw [← Int.cast_natCast, h, ZMod.intCast_mod]

theorem numer_zero (D : ℕ) : numer D 0 = 0 := by simp [numer]

theorem resid_zero (M D : ℕ) : resid M D 0 = 0 := by simp [resid, numer_zero]

theorem getD_map0 {R S : Type} [Zero R] [Zero S] (f : R → S) (h0 : f 0 = 0) (l : List R) (i : ℕ) :
    (l.map f).getD i 0 = f (l.getD i 0) := by
  simp only [List.getD_eq_getElem?_getD, List.getElem?_map]
  cases l[i]? <;> simp [h0]

theorem rowsA_map {R S : Type} [CommRing R] [CommRing S] (f : R → S) (h0 : f 0 = 0) (A : List (List R)) (i j : ℕ) :
    rowsA (A.map (List.map f)) i j = f (rowsA A i j) := by
  unfold rowsA
  rw [← getD_map0 f h0]
  congr 1
  simp only [List.getD_eq_getElem?_getD, List.getElem?_map]
  cases A[i]? <;> simp

theorem rowsA_res {M D : ℕ} (hM : 0 < M) (rows : List (List ℚ)) (i j : ℕ) :
    rowsA (matZ M (residA M D rows)) i j = ((numer D (rowsA rows i j) : ℤ) : ZMod M) := by
  have e : matZ M (residA M D rows) = rows.map (List.map fun q => ((resid M D q : ℕ) : ZMod M)) := by
    simp [matZ, residA, res, Function.comp_def]
  rw [e, rowsA_map _ (by simp [resid_zero]), resid_cast hM]

theorem sum_getD_le (f : ℚ → ℤ) (h0 : f 0 = 0) (l : List ℚ) (s : ℕ) :
    ∑ j ∈ Finset.range s, |f (l.getD j 0)| ≤ ((l.map fun q => (f q).natAbs).sum : ℕ) := by
  induction l generalizing s with
  | nil => simp [h0]
  | cons x l ih =>
    cases s with
    | zero => simp only [Finset.range_zero, Finset.sum_empty]; exact Int.natCast_nonneg _
    | succ s =>
      rw [Finset.sum_range_succ', List.map_cons, List.sum_cons, Nat.cast_add, add_comm]
      have := ih s
      simp only [List.getD_cons_succ, List.getD_cons_zero, Int.natCast_natAbs]
      omega

theorem transp_ok {M s : ℕ} (A : List (List ℕ)) (i j : ℕ) (hi : i < s) (hj : j < s) :
    rowsA (matZ M A) i j = rowsA (matZ M (transp s A)) j i := by
  have h : ∀ B : List (List ℕ), ∀ i j, rowsA (matZ M B) i j = (((B.getD i []).getD j 0 : ℕ) : ZMod M) := by
    intro B i j
    unfold rowsA matZ
    rw [← getD_map0 (Nat.cast : ℕ → ZMod M) Nat.cast_zero]
    congr 1
    simp only [List.getD_eq_getElem?_getD, List.getElem?_map]
    cases B[i]? <;> simp
  rw [h, h]
  congr 1
  simp [transp, List.getD_eq_getElem?_getD, hi, hj]

section Final
variable {K : Type} [Field K]

theorem numer_cast [LinearOrder K] [IsStrictOrderedRing K] {D : ℕ} {q : ℚ} (h : (q * (D : ℚ)).den = 1) : ((numer D q : ℤ) : K) = (D : K) * (q : K) := by
  have h1 : ((numer D q : ℤ) : ℚ) = q * D := by
    rw [numer, ← Rat.den_eq_one_iff]; exact h
  have h2 := congrArg (Rat.cast : ℚ → K) h1
  push_cast at h2
  rw [h2, mul_comm]

mutual
theorem phi_scale (s : ℕ) {a a' : ℕ → ℕ → K} {d : K} (h : ∀ i j, a' i j = d * a i j) (t : RTree) (i : ℕ) :
    t.phi s a' i = d ^ (t.order - 1) * t.phi s a i := by
  cases t with
  | node ts => simp only [RTree.phi, RTree.order, Nat.add_sub_cancel]; exact phis_scale s h ts i
theorem phis_scale (s : ℕ) {a a' : ℕ → ℕ → K} {d : K} (h : ∀ i j, a' i j = d * a i j) (ts : List RTree) (i : ℕ) :
    RTree.phis s a' ts i = d ^ RTree.orders ts * RTree.phis s a ts i := by
  cases ts with
  | nil => simp [RTree.phis, RTree.orders]
  | cons t ts =>
    simp only [RTree.phis, RTree.orders]
    rw [phis_scale s h ts i]
    have e : (∑ j ∈ Finset.range s, a' i j * t.phi s a' j) = d ^ t.order * ∑ j ∈ Finset.range s, a i j * t.phi s a j := by
      rw [Finset.mul_sum]
      refine Finset.sum_congr rfl fun j _ => ?_
      rw [h, phi_scale s h t j]
      obtain ⟨n, hn⟩ : ∃ n, t.order = n + 1 := ⟨t.order - 1, by have := order_pos t; omega⟩
      rw [hn, Nat.add_sub_cancel, pow_succ]; ring
    rw [e, pow_add]; ring
end

/-- **Soundness**: if every forest passes the test, the order conditions hold within `1 / N`. -/
theorem order_within [LinearOrder K] [IsStrictOrderedRing K] {rows : List (List ℚ)} {b : List ℚ} {s M D R B N p : ℕ} (E : ℕ → ℕ)
    (hlen : b.length = s) (hD : 0 < D) (hN : 0 < N) (hbd : bounded D R B rows b = true)
    (hE : ∀ n, n < p → E n * N ≤ D ^ (n + 1))
    (hM : ∀ n, n < p → p ^ p * (B * R ^ n + 3 * E n) + D ^ (n + 1) < M)
    (hgood : ∀ n, n < p → ∀ ts : List RTree, RTree.orders ts = n →
      Good M (D ^ (n + 1)) (E n) ((n + 1) * RTree.gammas ts)
        (ldot (res M (b.map (resid M D))) (fvec (matZ M (residA M D rows)) s ts)))
    (t : RTree) (ht : t.order ≤ p) :
    |∑ i ∈ Finset.range s, ((b.getD i 0 : ℚ) : K) * t.phi s (fun i j => ((rowsA rows i j : ℚ) : K)) i - 1 / (t.gamma : K)|
      ≤ 1 / (N : K) := by
  obtain ⟨ts⟩ := t
  have hn : RTree.orders ts < p := by simp only [RTree.order] at ht; omega
  generalize hno : RTree.orders ts = n at hn
  have hMn := hM n hn
  have hM0 : 0 < M := by omega
  simp only [bounded, Bool.and_eq_true, List.all_eq_true, beq_iff_eq, decide_eq_true_eq] at hbd
  obtain ⟨⟨hrows, hbden⟩, hbsum⟩ := hbd
  -- integers
  let az : ℕ → ℕ → ℤ := fun i j => numer D (rowsA rows i j)
  let bz : ℕ → ℤ := fun i => numer D (b.getD i 0)
  let X : ℤ := ∑ i ∈ Finset.range s, bz i * RTree.phis s az ts i
  have hR : ∀ i, ∑ j ∈ Finset.range s, |az i j| ≤ (R : ℤ) := by
    intro i
    refine le_trans (sum_getD_le (numer D) (numer_zero D) (rows.getD i []) s) ?_
    by_cases hi : i < rows.length
    · have := (hrows rows[i] (List.getElem_mem hi)).2
      rw [List.getD_eq_getElem?_getD, List.getElem?_eq_getElem hi, Option.getD_some]
      exact_mod_cast this
    · rw [List.getD_eq_getElem?_getD, List.getElem?_eq_none (by omega)]
      simp
  have hX : |X| ≤ (B * R ^ n : ℤ) := by
    calc |X| ≤ ∑ i ∈ Finset.range s, |bz i * RTree.phis s az ts i| := Finset.abs_sum_le_sum_abs _ _
      _ ≤ ∑ i ∈ Finset.range s, |bz i| * (R : ℤ) ^ n := Finset.sum_le_sum fun i _ => by
          rw [abs_mul, ← hno]; exact mul_le_mul_of_nonneg_left (phis_le hR ts i) (abs_nonneg _)
      _ = (∑ i ∈ Finset.range s, |bz i|) * (R : ℤ) ^ n := by rw [Finset.sum_mul]
      _ ≤ B * (R : ℤ) ^ n := by
          refine mul_le_mul_of_nonneg_right ?_ (by positivity)
          refine le_trans (sum_getD_le (numer D) (numer_zero D) b s) ?_
          exact_mod_cast hbsum
  have hXc : ldot (res M (b.map (resid M D))) (fvec (matZ M (residA M D rows)) s ts) = ((X : ℤ) : ZMod M) := by
    rw [ldot_eq, fvec_length]
    simp only [X, Int.cast_sum, Int.cast_mul]
    refine Finset.sum_congr rfl fun i hi => ?_
    have hi' := Finset.mem_range.1 hi
    congr 1
    · have : res M (b.map (resid M D)) = b.map fun q => ((resid M D q : ℕ) : ZMod M) := by simp [res, Function.comp_def]
      rw [this, getD_map0 _ (by simp [resid_zero]), resid_cast hM0]
    · have e : rowsA (matZ M (residA M D rows)) = fun i j => (Int.castRingHom (ZMod M)) (az i j) := by
        funext i j; exact rowsA_res hM0 rows i j
      have : (fvec (matZ M (residA M D rows)) s ts).getD i 0 = RTree.phis s (rowsA (matZ M (residA M D rows))) ts i := by
        simp [fvec, List.getD_eq_getElem?_getD, hi']
      rw [this, e, ← map_phis]
      rfl
  have hG := hgood n hn ts hno
  rw [hXc] at hG
  have hgam : ((n + 1) * RTree.gammas ts : ℕ) = (RTree.node ts).gamma := by simp [RTree.gamma, hno]
  rw [hgam] at hG
  have hgle : (RTree.node ts).gamma ≤ p ^ p := by
    refine le_trans (gamma_le (p := p) _ ht) (Nat.pow_le_pow_right (by omega) ht)
  have hS : D ^ (n + 1) ≤ M := by
    have := Nat.zero_le (p ^ p * (B * R ^ n + 3 * E n)); omega
  have hfin := test_int hG hX hS (by
    have h1 : (RTree.node ts).gamma * (B * R ^ n + 3 * E n) + D ^ (n + 1) < M :=
      lt_of_le_of_lt (Nat.add_le_add_right (Nat.mul_le_mul_right _ hgle) _) hMn
    exact_mod_cast h1)
  -- back to the field
  have hgpos : (0 : K) < ((RTree.node ts).gamma : K) := by exact_mod_cast gamma_pos _
  have hDpos : (0 : K) < (D : K) := by exact_mod_cast hD
  have hNpos : (0 : K) < (N : K) := by exact_mod_cast hN
  have hfin' : |((RTree.node ts).gamma : K) * (X : K) - (D : K) ^ (n + 1)| ≤ ((RTree.node ts).gamma : K) * (E n : K) := by
    have h := (Int.cast_le (R := K)).2 hfin
    push_cast at h
    exact h
  have hEK : (E n : K) * N ≤ (D : K) ^ (n + 1) := by exact_mod_cast hE n hn
  have hden : ∀ i j, (rowsA rows i j * (D : ℚ)).den = 1 := by
    intro i j
    unfold rowsA
    by_cases hi : i < rows.length
    · have er : rows.getD i [] = rows[i] := by simp [List.getD_eq_getElem?_getD, List.getElem?_eq_getElem hi]
      rw [er]
      by_cases hj : j < rows[i].length
      · rw [List.getD_eq_getElem?_getD, List.getElem?_eq_getElem hj, Option.getD_some]
        exact (hrows rows[i] (List.getElem_mem hi)).1 _ (List.getElem_mem hj)
      · rw [List.getD_eq_getElem?_getD, List.getElem?_eq_none (by omega)]
        simp
    · have er : rows.getD i [] = [] := by simp [List.getD_eq_getElem?_getD, List.getElem?_eq_none (Nat.le_of_not_lt hi)]
      rw [er]
      simp
  have hden' : ∀ i, (b.getD i 0 * (D : ℚ)).den = 1 := by
    intro i
    by_cases hi : i < b.length
    · rw [List.getD_eq_getElem?_getD, List.getElem?_eq_getElem hi, Option.getD_some]
      exact hbden _ (List.getElem_mem hi)
    · rw [List.getD_eq_getElem?_getD, List.getElem?_eq_none (by omega)]
      simp
  have hXK : (X : K) = (D : K) ^ (n + 1) *
      ∑ i ∈ Finset.range s, ((b.getD i 0 : ℚ) : K) * (RTree.node ts).phi s (fun i j => ((rowsA rows i j : ℚ) : K)) i := by
    simp only [X, Int.cast_sum, Int.cast_mul]
    rw [Finset.mul_sum]
    refine Finset.sum_congr rfl fun i _ => ?_
    have e1 : ((RTree.phis s az ts i : ℤ) : K) = RTree.phis s (fun i j => ((az i j : ℤ) : K)) ts i :=
      map_phis (Int.castRingHom K) s az ts i
    rw [e1, phis_scale s (a := fun i j => ((rowsA rows i j : ℚ) : K)) (d := (D : K)) (fun i j => numer_cast (hden i j)) ts i,
      hno]
    have e2 : ((bz i : ℤ) : K) = D * ((b.getD i 0 : ℚ) : K) := numer_cast (hden' i)
    rw [e2, RTree.phi, pow_succ]; ring
  rw [hXK] at hfin'
  generalize (∑ i ∈ Finset.range s, ((b.getD i 0 : ℚ) : K) *
    (RTree.node ts).phi s (fun i j => ((rowsA rows i j : ℚ) : K)) i) = Y at hfin' ⊢
  generalize ((RTree.node ts).gamma : K) = γ at hgpos hfin' ⊢
  have hd : 0 < (D : K) ^ (n + 1) := by positivity
  generalize (D : K) ^ (n + 1) = d at hfin' hEK hd
  rw [le_div_iff₀ hNpos]
  have e : γ * (d * Y) - d = γ * d * (Y - 1 / γ) := by field_simp
  rw [e, abs_mul, abs_of_pos (mul_pos hgpos hd)] at hfin'
  have h1 : γ * d * (|Y - 1 / γ| * N) ≤ γ * d * 1 := by
    calc γ * d * (|Y - 1 / γ| * N) = γ * d * |Y - 1 / γ| * N := by ring
      _ ≤ γ * (E n : K) * N := mul_le_mul_of_nonneg_right hfin' hNpos.le
      _ = γ * ((E n : K) * N) := by ring
      _ ≤ γ * d := mul_le_mul_of_nonneg_left hEK hgpos.le
      _ = γ * d * 1 := by ring
  exact le_of_mul_le_mul_left h1 (mul_pos hgpos hd)

end Final

/-! ### The conditions of a table -/

/-- Parameters of the check: modulus, common denominator, inverse tolerance, size of the small trees. -/
structure Par where
  M : ℕ
  D : ℕ
  N : ℕ
  h : ℕ

/-- The small trees and forests. -/
noncomputable def Par.small (P : Par) (s : ℕ) (rows : List (List ℚ)) : ℕ × List (List Ent) × List (List Ent) :=
  build P.M (residA P.M P.D rows) (List.replicate s 1) P.h

/-- The covector of the tall trees: `i` single edges from the root. -/
noncomputable def Par.cov (P : Par) (s : ℕ) (rows : List (List ℚ)) (b : List ℚ) : ℕ → List ℕ
  | 0 => b.map (resid P.M P.D)
  | i + 1 => matv P.M (transp s (residA P.M P.D rows)) (mulv P.M (P.cov s rows b i) (List.replicate s 1))

/-- Their density. -/
def den (n : ℕ) : ℕ → ℕ
  | 0 => n + 1
  | i + 1 => den n i * (n - i)

/-- All trees with `n + 1` vertices that start with `i` single edges. -/
noncomputable def Par.tall (P : Par) (s : ℕ) (rows : List (List ℚ)) (b : List ℚ) (n i : ℕ) : Bool :=
  desc P.M (Nat.pow P.D (n + 1)) (Nat.pow P.D (n + 1) / P.N) P.h (P.small s rows).1 (transp s (residA P.M P.D rows))
    (P.small s rows).2.1 (P.small s rows).2.2 (n + 1) (P.cov s rows b i) (den n i) (n - i)

/-- Those with small trees on top of the edges. -/
noncomputable def Par.flat (P : Par) (s : ℕ) (rows : List (List ℚ)) (b : List ℚ) (n i : ℕ) : Bool :=
  peel P.M (Nat.pow P.D (n + 1)) (Nat.pow P.D (n + 1) / P.N) P.h (P.small s rows).2.1 (P.small s rows).2.2 (n - i + 1)
    (P.cov s rows b i) (den n i) (n - i) (P.small s rows).1

/-- Those with a tree with `q` vertices on top of the edges. -/
noncomputable def Par.deep (P : Par) (s : ℕ) (rows : List (List ℚ)) (b : List ℚ) (n i q : ℕ) : Bool :=
  below P.M (transp s (residA P.M P.D rows)) (P.small s rows).2.2
    (desc P.M (Nat.pow P.D (n + 1)) (Nat.pow P.D (n + 1) / P.N) P.h (P.small s rows).1 (transp s (residA P.M P.D rows))
      (P.small s rows).2.1 (P.small s rows).2.2 n) (P.cov s rows b i) (den n i) (n - i) q

/-- The trees with `n + 1` vertices that start with `i` single edges pass. -/
def Par.PassAt (P : Par) (s : ℕ) (rows : List (List ℚ)) (b : List ℚ) (n i : ℕ) : Prop :=
  ∀ ts : List RTree, RTree.orders ts = n - i →
    Good P.M (P.D ^ (n + 1)) (P.D ^ (n + 1) / P.N) (den n i * RTree.gammas ts)
      (ldot (res P.M (P.cov s rows b i)) (fvec (matZ P.M (residA P.M P.D rows)) s ts))

/-- The trees with `n + 1` vertices pass. -/
abbrev Par.Pass (P : Par) (s : ℕ) (rows : List (List ℚ)) (b : List ℚ) (n : ℕ) : Prop := P.PassAt s rows b n 0

theorem Par.cov_length (P : Par) {s : ℕ} {rows : List (List ℚ)} {b : List ℚ} (hb : b.length = s) (i : ℕ) :
    (P.cov s rows b i).length = s := by
  cases i with
  | zero => simpa [Par.cov] using hb
  | succ i => exact matv_length (by simp [transp]) _

theorem Par.pass_tall (P : Par) {s : ℕ} {rows : List (List ℚ)} {b : List ℚ} {n i : ℕ} (hr : rows.length = s)
    (hb : b.length = s) (hn : n ≤ 2 * P.h + 1) (h : P.tall s rows b n i = true) : P.PassAt s rows b n i := by
  have hA : (residA P.M P.D rows).length = s := by simpa [residA] using hr
  obtain ⟨code, hC⟩ := build_complete (M := P.M) hA P.h
  exact desc_sound hA (by simp [transp]) (fun i j hi hj => transp_ok _ i j hi hj) hC _ _ (P.cov_length hb i) _ _ (by omega) h

theorem build_zero {M : ℕ} {A : List (List ℕ)} (one : List ℕ) (h : ℕ) :
    ((build M A one h).2.2[0]?).getD [] = [⟨0, one, 1⟩] := by
  induction h with
  | zero => rfl
  | succ h ih =>
    simp only [build]
    rw [List.getElem?_append_left (by rw [(build_length one h).2]; omega)]
    exact ih

theorem Par.pass_split (P : Par) {s : ℕ} {rows : List (List ℚ)} {b : List ℚ} {n i : ℕ} (hr : rows.length = s)
    (hb : b.length = s) (hn : n ≤ 2 * P.h + 1) (h1 : P.flat s rows b n i = true)
    (h2 : ∀ q, P.h + 1 ≤ q → q < n - i → P.deep s rows b n i q = true) (h3 : P.PassAt s rows b n (i + 1)) :
    P.PassAt s rows b n i := by
  have hA : (residA P.M P.D rows).length = s := by simpa [residA] using hr
  obtain ⟨code, hC⟩ := build_complete (M := P.M) hA P.h
  have hT : ∀ i j, i < s → j < s → rowsA (matZ P.M (residA P.M P.D rows)) i j =
      rowsA (matZ P.M (transp s (residA P.M P.D rows))) j i := fun i j hi hj => transp_ok _ i j hi hj
  have hAt : (transp s (residA P.M P.D rows)).length = s := by simp [transp]
  intro ts hts
  refine level_sound hA hAt hT hC (P.cov_length hb i) (by omega) h1 (fun q hq1 hq2 w hw us hus => ?_) ts hts
  rcases Nat.lt_or_eq_of_le hq2 with hlt | heq
  · have hd := h2 q hq1 hlt
    rw [Par.deep, below, List.all_eq_true] at hd
    exact desc_sound hA hAt hT hC _ _ (matv_length hAt _) _ (q - 1) (by omega) (hd w hw) us hus
  · subst heq
    rw [Nat.sub_self, build_zero, List.mem_singleton] at hw
    subst hw
    have := h3 us (by omega)
    simpa [den, Par.cov] using this

theorem Par.within (P : Par) {K : Type} [Field K] [LinearOrder K] [IsStrictOrderedRing K] {s p : ℕ} {rows : List (List ℚ)}
    {b : List ℚ} (R B : ℕ) (hb : b.length = s) (hD : 0 < P.D) (hN : 0 < P.N) (hbd : bounded P.D R B rows b = true)
    (hM : ∀ n, n < p → p ^ p * (B * R ^ n + 3 * (P.D ^ (n + 1) / P.N)) + P.D ^ (n + 1) < P.M)
    (hpass : ∀ n, n < p → P.Pass s rows b n) (t : RTree) (ht : t.order ≤ p) :
    |∑ i ∈ Finset.range s, ((b.getD i 0 : ℚ) : K) * t.phi s (fun i j => ((rowsA rows i j : ℚ) : K)) i - 1 / (t.gamma : K)|
      ≤ 1 / (P.N : K) :=
  order_within (fun n => P.D ^ (n + 1) / P.N) hb hD hN hbd (fun _ _ => Nat.div_mul_le_self _ _) hM hpass t ht

end OA

end NB
