import Verif.Spec.SpaceHeap
import Verif.Lemmas.SpaceTree
import Verif.Props.C31_Stackless
import Verif.Props.C25_Partition
import Mathlib.Data.Nat.Log
import Mathlib.Data.List.Range
import Mathlib.Algebra.Order.Group.Nat

/-
What building a heap does.
-/

namespace NB
open NB.Spec

section
variable {S : Type}

theorem rd_eq_ok {α : Type} {b : List α} {i : Nat} {x : α} : rd b i = .ok x ↔ b[i]? = some x := by
  unfold rd
  cases b[i]? <;> simp

theorem rd_lt {α : Type} {b : List α} {i : Nat} (h : i < b.length) : ∃ x, b[i]? = some x ∧ rd b i = .ok x :=
  ⟨b[i], List.getElem?_eq_getElem h, rd_eq_ok.2 (List.getElem?_eq_getElem h)⟩

theorem rd_oob {α : Type} {b : List α} {i : Nat} (h : b.length ≤ i) : rd b i = .error .oob := by
  unfold rd
  rw [List.getElem?_eq_none h]

theorem wr_lt {α : Type} {b : List α} {i : Nat} (h : i < b.length) (x : α) : wr b i x = .ok (b.set i x) := by
  unfold wr; rw [if_pos h]

theorem wr_some {α : Type} {b b' : List α} {i : Nat} {x : α} (h : wr b i x = .ok b') :
    i < b.length ∧ b' = b.set i x := by
  unfold wr at h
  split at h
  · exact ⟨‹_›, (Except.ok.inj h).symm⟩
  · cases h

/-- `j` is in the subtree of `idx`. -/
def Below (idx j : Nat) : Prop := ∃ e, j / 2 ^ e = idx

theorem Below.refl (idx : Nat) : Below idx idx := ⟨0, by simp⟩

theorem Below.left {idx j : Nat} (h : Below (2 * idx) j) : Below idx j := by
  obtain ⟨e, h⟩ := h
  exact ⟨e + 1, by rw [pow_succ, ← Nat.div_div_eq_div_mul, h]; omega⟩

theorem Below.right {idx j : Nat} (h : Below (2 * idx + 1) j) : Below idx j := by
  obtain ⟨e, h⟩ := h
  exact ⟨e + 1, by rw [pow_succ, ← Nat.div_div_eq_div_mul, h]; omega⟩

theorem Below.le {idx j : Nat} (h : Below idx j) : idx ≤ j := by
  obtain ⟨e, h⟩ := h
  rw [← h]
  exact Nat.div_le_self _ _

theorem div_pow_le {x m : Nat} (h : m ≠ 0) : x / 2 ^ m ≤ x / 2 := by
  obtain ⟨k, rfl⟩ := Nat.exists_eq_succ_of_ne_zero h
  rw [Nat.pow_succ, Nat.mul_comm, ← Nat.div_div_eq_div_mul]
  exact Nat.div_le_self _ _

/-- Two nodes of the same level have disjoint subtrees. -/
theorem Below.disjoint {idx j : Nat} (h1 : 1 ≤ idx) (hl : Below (2 * idx) j) (hr : Below (2 * idx + 1) j) :
    False := by
  obtain ⟨e, hl⟩ := hl
  obtain ⟨e', hr⟩ := hr
  rcases Nat.lt_trichotomy e e' with h | h | h
  · have : j / 2 ^ e' = (j / 2 ^ e) / 2 ^ (e' - e) := by
      rw [Nat.div_div_eq_div_mul, ← pow_add, Nat.add_sub_cancel' (le_of_lt h)]
    rw [this, hl] at hr
    have := div_pow_le (x := 2 * idx) (m := e' - e) (by omega)
    omega
  · subst h; omega
  · have : j / 2 ^ e = (j / 2 ^ e') / 2 ^ (e - e') := by
      rw [Nat.div_div_eq_div_mul, ← pow_add, Nat.add_sub_cancel' (le_of_lt h)]
    rw [this, hr] at hl
    have := div_pow_le (x := 2 * idx + 1) (m := e - e') (by omega)
    omega

theorem stores_congr {H H' : List (Cell S)} {idx : Nat} {t : STree S}
    (h : ∀ j, Below idx j → H[j]? = H'[j]?) (ht : Stores H idx t) : Stores H' idx t := by
  induction t generalizing idx with
  | leaf b d => rw [Stores, ← h idx (Below.refl _)]; exact ht
  | node l r d hl hr =>
    obtain ⟨h0, h1, h2⟩ := ht
    exact ⟨by rw [← h idx (Below.refl _)]; exact h0, hl (fun j hj => h j hj.left) h1,
      hr (fun j hj => h j hj.right) h2⟩

/-- The bodies of a stored perfect tree are those in its lowest level, in order. -/
theorem stores_bodies {H : List (Cell S)} {h idx : Nat} {t : STree S} (hp : Perfect h t) (ht : Stores H idx t) :
    (List.range' (idx * 2 ^ h) (2 ^ h)).map (fun j => (H[j]?).map Cell.body) = t.bodies.map some := by
  induction h generalizing idx t with
  | zero =>
    cases t with
    | leaf b d => rw [Stores] at ht; simp [STree.bodies, ht]
    | node l r d => exact absurd hp (by simp [Perfect])
  | succ h ih =>
    cases t with
    | leaf b d => exact absurd hp (by simp [Perfect])
    | node l r d =>
      obtain ⟨_, h1, h2⟩ := ht
      have e : List.range' (idx * 2 ^ (h + 1)) (2 ^ (h + 1)) =
          List.range' (2 * idx * 2 ^ h) (2 ^ h) ++ List.range' ((2 * idx + 1) * 2 ^ h) (2 ^ h) := by
        rw [show idx * 2 ^ (h + 1) = 2 * idx * 2 ^ h by ring, show 2 ^ (h + 1) = 2 ^ h + 2 ^ h by ring,
          show (2 * idx + 1) * 2 ^ h = 2 * idx * 2 ^ h + 1 * 2 ^ h by ring, List.range'_append]
      rw [e, List.map_append, ih hp.1 h1, ih hp.2 h2]
      simp [STree.bodies]

/-- Inner nodes have no body number. -/
theorem stores_inner {H : List (Cell S)} {h idx : Nat} {t : STree S} (hp : Perfect h t) (ht : Stores H idx t)
    {e j : Nat} (he : e < h) (hj : j / 2 ^ e = idx) : (H[j]?).map Cell.body = some noBody := by
  induction e generalizing h idx t with
  | zero =>
    simp only [pow_zero, Nat.div_one] at hj
    subst hj
    cases t with
    | leaf b d => cases h with
      | zero => omega
      | succ h => exact absurd hp (by simp [Perfect])
    | node l r d => rw [ht.1]; rfl
  | succ e ih =>
    cases h with
    | zero => omega
    | succ h =>
      cases t with
      | leaf b d => exact absurd hp (by simp [Perfect])
      | node l r d =>
        rw [pow_succ, ← Nat.div_div_eq_div_mul] at hj
        rcases Nat.mod_two_eq_zero_or_one (j / 2 ^ e) with h0 | h0
        · exact ih hp.1 ht.2.1 (by omega) (by omega)
        · exact ih hp.2 ht.2.2 (by omega) (by omega)

end

section
variable {S : Type} [Add S] [Sub S] [Mul S] [Neg S] [Div S] [Zero S] [One S] [FOps S]

omit [Neg S] [One S] in
theorem heapUpdate_ok {half ratio2 : S} {idx l r : Nat} {H : List (Cell S)} {cl cr c : Cell S}
    (hl : H[l]? = some cl) (hr : H[r]? = some cr) (hc : H[idx]? = some c) :
    heapUpdate half ratio2 idx l r H = .ok (H.set idx ⟨updateData half ratio2 cl.d cr.d, c.body⟩) := by
  unfold heapUpdate
  rw [rd_eq_ok.2 hl, rd_eq_ok.2 hr, rd_eq_ok.2 hc]
  exact wr_lt (List.getElem?_eq_some_iff.1 hc).1 _

omit [Neg S] [One S] in
theorem heapBuildP_leaf (B : Bodies S) (half ratio2 : S) (nth : NthElement) (fuel : Nat) (path : List Bool)
    (dim i idx : Nat) (H : List (Cell S)) :
    heapBuildP B half ratio2 nth (fuel + 1) path dim [i] idx H = (do
      let c ← rd H idx
      wr H idx ⟨⟨B.pos i, B.mass i, c.d.rsq, B.pos i, B.pos i⟩, i⟩) := rfl

omit [Neg S] [One S] in
theorem heapBuildP_node (B : Bodies S) (half ratio2 : S) (nth : NthElement) (fuel : Nat) (path : List Bool)
    (dim idx : Nat) (ids : List Nat) (H : List (Cell S)) (h : ids.length ≠ 1) :
    heapBuildP B half ratio2 nth (fuel + 1) path dim ids idx H = (do
      let H ← heapBuildP B half ratio2 nth fuel (path ++ [false]) ((dim + 1) % 3)
        ((nth path dim ids).take (ids.length / 2)) (2 * idx) H
      let H ← heapBuildP B half ratio2 nth fuel (path ++ [true]) ((dim + 1) % 3)
        ((nth path dim ids).drop (ids.length / 2)) (2 * idx + 1) H
      heapUpdate half ratio2 idx (2 * idx) (2 * idx + 1) H) := by
  rw [← C31.rght_eq, ← C31.left_eq]
  match ids, h with
  | [], _ => rfl
  | [i], h => exact absurd rfl h
  | _ :: _ :: _, _ => rfl

omit [Neg S] [One S] in
/-- Building `2^h` bodies at a node whose subtree of height `h` fits into the array. -/
theorem heapBuildP_ok {B : Bodies S} {half ratio2 : S} {nth : NthElement} (hn : Reorders nth) :
    ∀ (h fuel : Nat) (path : List Bool) (dim : Nat) (ids : List Nat) (idx : Nat) (H : List (Cell S)),
      h < fuel → ids.length = 2 ^ h → 1 ≤ idx → (idx + 1) * 2 ^ h ≤ H.length →
      ∃ H', heapBuildP B half ratio2 nth fuel path dim ids idx H = .ok H' ∧ H'.length = H.length ∧
        (∀ j, ¬ Below idx j → H'[j]? = H[j]?) ∧
        (∀ j, (H[j]?).map (fun c => c.d.rsq) = (H'[j]?).map (fun c => c.d.rsq) ∨ ∃ e < h, j / 2 ^ e = idx) ∧
        ((∀ (j : Nat) (c : Cell S), Below idx j → H[j]? = some c → c.body = noBody) →
          ∃ t, Stores H' idx t ∧ Perfect h t ∧ t.bodies.Perm ids ∧ Carries B t ∧
            ((∀ (j : Nat) (c : Cell S), idx * 2 ^ h ≤ j → j < (idx + 1) * 2 ^ h → H[j]? = some c → c.d.rsq = 0) →
              STree.build B half ratio2 nth fuel path dim ids = .ok t)) := by
  intro h
  induction h with
  | zero =>
    intro fuel path dim ids idx H hf hlen h1 hfit
    obtain ⟨f, rfl⟩ : ∃ f, fuel = f + 1 := ⟨fuel - 1, by omega⟩
    obtain ⟨i, rfl⟩ := List.length_eq_one_iff.1 (by simpa using hlen)
    obtain ⟨c, hc, hrd⟩ := rd_lt (b := H) (i := idx) (by omega)
    refine ⟨H.set idx ⟨⟨B.pos i, B.mass i, c.d.rsq, B.pos i, B.pos i⟩, i⟩, ?_, by simp, ?_, ?_, ?_⟩
    · rw [heapBuildP_leaf, hrd]
      exact wr_lt (by omega) _
    · intro j hj
      rw [List.getElem?_set_ne]
      rintro rfl
      exact hj (Below.refl _)
    · intro j
      left
      by_cases e : idx = j
      · subst e; rw [List.getElem?_set_self (by omega), hc]; rfl
      · rw [List.getElem?_set_ne e]
    · intro _
      refine ⟨.leaf i ⟨B.pos i, B.mass i, c.d.rsq, B.pos i, B.pos i⟩, ?_, trivial, by simp [STree.bodies], ⟨rfl, rfl⟩, ?_⟩
      · rw [Stores, List.getElem?_set_self (by omega)]
      · intro hz
        rw [build_leaf, hz idx c (by simp) (by simp) hc]
  | succ h ih =>
    intro fuel path dim ids idx H hf hlen h1 hfit
    obtain ⟨f, rfl⟩ : ∃ f, fuel = f + 1 := ⟨fuel - 1, by omega⟩
    have epow : 2 ^ (h + 1) = 2 ^ h + 2 ^ h := by ring
    have hp1 : 1 ≤ 2 ^ h := Nat.one_le_two_pow
    have hne : ids.length ≠ 1 := by omega
    have hltake : ((nth path dim ids).take (ids.length / 2)).length = 2 ^ h := by
      rw [C25.nth_take_length hn]; omega
    have hldrop : ((nth path dim ids).drop (ids.length / 2)).length = 2 ^ h := by
      rw [C25.nth_drop_length hn]; omega
    have hfit' : (idx + 1) * 2 ^ (h + 1) = (2 * idx + 1 + 1) * 2 ^ h := by ring
    have hfit1 : (2 * idx + 1) * 2 ^ h ≤ H.length :=
      le_trans (Nat.mul_le_mul_right _ (by omega)) (le_trans (le_of_eq hfit'.symm) hfit)
    have hin : 2 * idx + 1 < H.length := by
      have : (2 * idx + 1 + 1) * 1 ≤ (2 * idx + 1 + 1) * 2 ^ h := Nat.mul_le_mul_left _ hp1
      omega
    obtain ⟨H1, r1, l1, f1, q1, s1⟩ := ih f (path ++ [false]) ((dim + 1) % 3) _ (2 * idx) H (by omega) hltake
      (by omega) hfit1
    obtain ⟨H2, r2, l2, f2, q2, s2⟩ := ih f (path ++ [true]) ((dim + 1) % 3) _ (2 * idx + 1) H1 (by omega)
      hldrop (by omega) (by rw [l1, ← hfit']; exact hfit)
    obtain ⟨cl, hcl, _⟩ := rd_lt (b := H2) (i := 2 * idx) (by omega)
    obtain ⟨cr, hcr, _⟩ := rd_lt (b := H2) (i := 2 * idx + 1) (by omega)
    obtain ⟨c, hc, _⟩ := rd_lt (b := H) (i := idx) (by omega)
    have hidx1 : ¬ Below (2 * idx) idx := fun hb => by have := hb.le; omega
    have hidx2 : ¬ Below (2 * idx + 1) idx := fun hb => by have := hb.le; omega
    have hc2 : H2[idx]? = some c := by rw [f2 _ hidx2, f1 _ hidx1, hc]
    refine ⟨H2.set idx ⟨updateData half ratio2 cl.d cr.d, c.body⟩, ?_, by simp [l1, l2], ?_, ?_, ?_⟩
    · rw [heapBuildP_node _ _ _ _ _ _ _ _ _ _ hne, r1]
      simp only [bind, Except.bind]
      rw [r2]
      exact heapUpdate_ok hcl hcr hc2
    · intro j hj
      rw [List.getElem?_set_ne (by rintro rfl; exact hj (Below.refl _)), f2 j fun hb => hj hb.right,
        f1 j fun hb => hj hb.left]
    · intro j
      by_cases e : idx = j
      · subst e
        exact Or.inr ⟨0, by omega, by simp⟩
      · rw [List.getElem?_set_ne e]
        rcases q1 j with a | ⟨e1, he1, a⟩
        · rcases q2 j with b | ⟨e2, he2, b⟩
          · exact Or.inl (a.trans b)
          · exact Or.inr ⟨e2 + 1, by omega, by rw [pow_succ, ← Nat.div_div_eq_div_mul, b]; omega⟩
        · exact Or.inr ⟨e1 + 1, by omega, by rw [pow_succ, ← Nat.div_div_eq_div_mul, a]; omega⟩
    · intro hno
      obtain ⟨tl, a1, a2, a3, a5, a4⟩ := s1 fun j c hj => hno j c hj.left
      -- the cells of the right subtree are still as before
      have f1' : ∀ j, Below (2 * idx + 1) j → H1[j]? = H[j]? := fun j hj =>
        f1 j fun hb => Below.disjoint h1 hb hj
      obtain ⟨tr, b1, b2, b3, b5, b4⟩ := s2 fun j c hj => by rw [f1' j hj]; exact hno j c hj.right
      have a1' : Stores H2 (2 * idx) tl := stores_congr (fun j hj => (f2 j fun hb =>
        Below.disjoint h1 hj hb).symm) a1
      have hset : ∀ j, Below (2 * idx) j ∨ Below (2 * idx + 1) j →
          H2[j]? = (H2.set idx ⟨updateData half ratio2 cl.d cr.d, c.body⟩)[j]? := by
        intro j hj
        rw [List.getElem?_set_ne]
        rintro rfl
        exact hj.elim hidx1 hidx2
      have hdl : cl.d = tl.data := by
        cases tl with
        | leaf b d => rw [Stores, hcl] at a1'; cases a1'; rfl
        | node l r d => have := a1'.1; rw [hcl] at this; cases this; rfl
      have hdr : cr.d = tr.data := by
        cases tr with
        | leaf b d => rw [Stores, hcr] at b1; cases b1; rfl
        | node l r d => have := b1.1; rw [hcr] at this; cases this; rfl
      refine ⟨.node tl tr (updateData half ratio2 cl.d cr.d), ⟨?_, ?_, ?_⟩, ⟨a2, b2⟩, ?_, ⟨a5, b5⟩, ?_⟩
      · rw [List.getElem?_set_self (by omega), hno idx c (Below.refl _) hc]
      · exact stores_congr (fun j hj => hset j (Or.inl hj)) a1'
      · exact stores_congr (fun j hj => hset j (Or.inr hj)) b1
      · simp only [STree.bodies]
        refine (a3.append b3).trans ?_
        rw [List.take_append_drop]
        exact hn path dim ids
      · intro hz
        have e1 : idx * 2 ^ (h + 1) = 2 * idx * 2 ^ h := by ring
        have e2 : (2 * idx + 1) * 2 ^ h = 2 * idx * 2 ^ h + 2 ^ h := by ring
        have e3 : (2 * idx + 1 + 1) * 2 ^ h = 2 * idx * 2 ^ h + 2 ^ h + 2 ^ h := by ring
        rw [build_node _ _ _ _ _ _ _ _ hne, a4 fun j c' x y => hz j c' (by omega) (by omega),
          b4 fun j c' x y z => by
            rw [f1' j ⟨h, ?_⟩] at z
            · exact hz j c' (by omega) (by omega) z
            · exact Nat.div_eq_of_lt_le x y]
        simp only [bind, Except.bind, hdl, hdr]

end

end NB
