import Verif.Lemmas.SpaceTree
import Verif.Spec.SpaceTree
import Verif.Model.RealScalar
import Mathlib.Data.Int.Order.Basic

/-
C25  The space tree is a partition of the bodies, balanced, of logarithmic depth; the recursion terminates
for every non-empty set of bodies and for no empty one.

The theorems hold for every scalar type, in particular for IEEE doubles.
-/

namespace NB.C25
open NB NB.Spec

section
variable {S : Type} [FOps S] [Add S] [Sub S] [Mul S] [Div S] [Zero S]

lemma nth_take_length {nth : NthElement} (hn : Reorders nth) (path : List Bool) (dim : Nat) (ids : List Nat) :
    ((nth path dim ids).take (ids.length / 2)).length = ids.length / 2 := by
  rw [List.length_take, (hn path dim ids).length_eq]; omega

lemma nth_drop_length {nth : NthElement} (hn : Reorders nth) (path : List Bool) (dim : Nat) (ids : List Nat) :
    ((nth path dim ids).drop (ids.length / 2)).length = ids.length - ids.length / 2 := by
  rw [List.length_drop, (hn path dim ids).length_eq]

lemma build_perm {B : Bodies S} {half ratio2 : S} {nth : NthElement} (hn : Reorders nth) :
    ∀ {fuel : Nat} {path : List Bool} {dim : Nat} {ids : List Nat} {t : STree S},
      STree.build B half ratio2 nth fuel path dim ids = .ok t → t.bodies.Perm ids := by
  intro fuel
  induction fuel with
  | zero => intro path dim ids t h; simp [STree.build] at h
  | succ f ih =>
    intro path dim ids t h
    rcases build_cases h with ⟨i, rfl, rfl⟩ | ⟨_, f', l, r, hf, hl, hr, rfl⟩
    · exact List.Perm.refl _
    · obtain rfl : f = f' := by omega
      have := (ih hl).append (ih hr)
      rw [List.take_append_drop] at this
      exact this.trans (hn path dim ids)

/-- **C25**, partition: whatever `nth_element` does, each body below the count is in exactly one leaf and
nothing else is in a leaf. -/
theorem build_partition {count : Nat} {B : Bodies S} {half ratio : S} {nth : NthElement} {fuel : Nat}
    {t : STree S} (hn : Reorders nth) (h : spaceTreeBuild count B half ratio nth fuel = .ok t) :
    t.bodies.length = count ∧ ∀ i, t.bodies.count i = if i < count then 1 else 0 := by
  have hp := build_perm hn h
  refine ⟨by simpa using hp.length_eq, fun i => ?_⟩
  rw [hp.count_eq]
  split
  · next hi => exact List.count_eq_one_of_mem List.nodup_range (List.mem_range.2 hi)
  · next hi => exact List.count_eq_zero.2 (fun hm => hi (List.mem_range.1 hm))

lemma build_size {B : Bodies S} {half ratio2 : S} {nth : NthElement} (hn : Reorders nth)
    {fuel : Nat} {path : List Bool} {dim : Nat} {ids : List Nat} {t : STree S}
    (h : STree.build B half ratio2 nth fuel path dim ids = .ok t) :
    ∀ {p l r d}, At t p (.node l r d) →
      l.bodies.length ≤ r.bodies.length ∧ r.bodies.length ≤ l.bodies.length + 1 := by
  induction fuel generalizing path dim ids t with
  | zero => simp [STree.build] at h
  | succ f ih =>
    intro p l r d hat
    rcases build_cases h with ⟨i, rfl, rfl⟩ | ⟨_, f', l', r', hf, hl, hr, rfl⟩
    · cases hat
    · obtain rfl : f = f' := by omega
      cases hat with
      | here =>
        have h1 := (build_perm hn hl).length_eq
        have h2 := (build_perm hn hr).length_eq
        rw [nth_take_length hn] at h1
        rw [nth_drop_length hn] at h2
        omega
      | left ha => exact ih hl ha
      | right ha => exact ih hr ha

/-- **C25**, balance: at every inner node the right subtree holds as many bodies as the left one, or one
more. -/
theorem build_balanced {count : Nat} {B : Bodies S} {half ratio : S} {nth : NthElement} {fuel : Nat}
    {t : STree S} (hn : Reorders nth) (h : spaceTreeBuild count B half ratio nth fuel = .ok t)
    {p : List Bool} {l r : STree S} {d : NodeData S} (hat : At t p (.node l r d)) :
    l.bodies.length ≤ r.bodies.length ∧ r.bodies.length ≤ l.bodies.length + 1 := build_size hn h hat

lemma build_height {B : Bodies S} {half ratio2 : S} {nth : NthElement} (hn : Reorders nth)
    {fuel : Nat} {path : List Bool} {dim : Nat} {ids : List Nat} {t : STree S}
    (h : STree.build B half ratio2 nth fuel path dim ids = .ok t) :
    t.height = Nat.clog 2 ids.length := by
  induction fuel generalizing path dim ids t with
  | zero => simp [STree.build] at h
  | succ f ih =>
    rcases build_cases h with ⟨i, rfl, rfl⟩ | ⟨h1, f', l', r', hf, hl, hr, rfl⟩
    · simp [STree.height]
    · obtain rfl : f = f' := by omega
      have h0 : 0 < ids.length := by
        have := (build_perm hn hl).length_eq
        have := STree.bodies_length_pos l'
        rw [nth_take_length hn] at *
        omega
      have hl' := ih hl
      have hr' := ih hr
      rw [nth_take_length hn] at hl'
      rw [nth_drop_length hn] at hr'
      have hmax : Nat.clog 2 (ids.length / 2) ≤ Nat.clog 2 (ids.length - ids.length / 2) :=
        Nat.clog_mono_right 2 (by omega)
      rw [STree.height, hl', hr', max_eq_right hmax, Nat.clog_of_two_le (by norm_num) (by omega : 2 ≤ ids.length)]
      congr 2
      omega

/-- **C25**, depth: exactly the base two logarithm of the number of bodies, rounded up. -/
theorem build_depth {count : Nat} {B : Bodies S} {half ratio : S} {nth : NthElement} {fuel : Nat}
    {t : STree S} (hn : Reorders nth) (h : spaceTreeBuild count B half ratio nth fuel = .ok t) :
    t.height = Nat.clog 2 count := by
  simpa using build_height hn h

lemma build_total {B : Bodies S} {half ratio2 : S} {nth : NthElement} (hn : Reorders nth) :
    ∀ (k fuel : Nat) (path : List Bool) (dim : Nat) (ids : List Nat), k < fuel → 0 < ids.length →
      ids.length ≤ 2 ^ k → ∃ t, STree.build B half ratio2 nth fuel path dim ids = .ok t := by
  intro k
  induction k with
  | zero =>
    intro fuel path dim ids hf h0 h1
    obtain ⟨f, rfl⟩ : ∃ f, fuel = f + 1 := ⟨fuel - 1, by omega⟩
    obtain ⟨i, rfl⟩ := List.length_eq_one_iff.1 (by simp at h1; omega : ids.length = 1)
    exact ⟨_, build_leaf ..⟩
  | succ k ih =>
    intro fuel path dim ids hf h0 h1
    obtain ⟨f, rfl⟩ : ∃ f, fuel = f + 1 := ⟨fuel - 1, by omega⟩
    by_cases h : ids.length = 1
    · obtain ⟨i, rfl⟩ := List.length_eq_one_iff.1 h
      exact ⟨_, build_leaf ..⟩
    · rw [pow_succ] at h1
      obtain ⟨l, hl⟩ := ih f (path ++ [false]) ((dim + 1) % 3) ((nth path dim ids).take (ids.length / 2))
        (by omega) (by rw [nth_take_length hn]; omega) (by rw [nth_take_length hn]; omega)
      obtain ⟨r, hr⟩ := ih f (path ++ [true]) ((dim + 1) % 3) ((nth path dim ids).drop (ids.length / 2))
        (by omega) (by rw [nth_drop_length hn]; omega) (by rw [nth_drop_length hn]; omega)
      exact ⟨_, by rw [build_node _ _ _ _ _ _ _ _ h, hl, hr]; rfl⟩

/-- **C25**, termination: with at least one body the recursion ends, at a depth of at most `k + 1` calls
when there are at most `2^k` bodies. -/
theorem build_terminates {count k fuel : Nat} (B : Bodies S) (half ratio : S) {nth : NthElement}
    (hn : Reorders nth) (h0 : 0 < count) (h1 : count ≤ 2 ^ k) (hf : k < fuel) :
    ∃ t, spaceTreeBuild count B half ratio nth fuel = .ok t :=
  build_total hn k fuel [] 0 (List.range count) hf (by simpa using h0) (by simpa using h1)

/-- **C25**: with no bodies no depth of recursion is enough. -/
theorem build_empty_diverges (B : Bodies S) (half ratio : S) {nth : NthElement} (hn : Reorders nth)
    (fuel : Nat) : spaceTreeBuild 0 B half ratio nth fuel = .error .stackOverflow := by
  unfold spaceTreeBuild
  simp only [List.range_zero]
  generalize ([] : List Bool) = path
  generalize 0 = dim
  induction fuel generalizing path dim with
  | zero => rfl
  | succ f ih =>
    have : nth path dim [] = [] := List.perm_nil.1 (hn path dim [])
    rw [build_node _ _ _ _ _ _ _ _ (by simp), this]
    simp only [List.take_nil]
    rw [ih]
    rfl

/-- The coordinate `nth_element` compares in dimension `dim` (x, y, z in turn). -/
def coordOf (B : Bodies S) (dim i : Nat) : S :=
  if dim = 0 then B.rx i else if dim = 1 then B.ry i else B.rz i

lemma build_sorted {B : Bodies S} {half ratio2 : S} {nth : NthElement} (hn : Reorders nth)
    (hp : Partitions FOps.lt (coordOf B) nth)
    {fuel : Nat} {path : List Bool} {dim : Nat} {ids : List Nat} {t : STree S} (hd : dim < 3)
    (h : STree.build B half ratio2 nth fuel path dim ids = .ok t) :
    ∀ {p l r d}, At t p (.node l r d) → ∀ a ∈ l.bodies, ∀ b ∈ r.bodies,
      FOps.lt (coordOf B ((dim + p.length) % 3) b) (coordOf B ((dim + p.length) % 3) a) = false := by
  induction fuel generalizing path dim ids t with
  | zero => simp [STree.build] at h
  | succ f ih =>
    intro p l r d hat a ha b hb
    rcases build_cases h with ⟨i, rfl, rfl⟩ | ⟨_, f', l', r', hf, hl, hr, rfl⟩
    · cases hat
    · obtain rfl : f = f' := by omega
      cases hat with
      | here =>
        have ha' := (build_perm hn hl).mem_iff.1 ha
        have hb' := (build_perm hn hr).mem_iff.1 hb
        have := hp path dim ids a ha' b hb'
        simpa [Nat.mod_eq_of_lt hd] using this
      | @left _ _ _ p' _ hat' =>
        have := ih (Nat.mod_lt _ (by norm_num)) hl hat' a ha b hb
        have e : ((dim + 1) % 3 + p'.length) % 3 = (dim + (false :: p').length) % 3 := by
          simp only [List.length_cons]; omega
        rwa [e] at this
      | @right _ _ _ p' _ hat' =>
        have := ih (Nat.mod_lt _ (by norm_num)) hr hat' a ha b hb
        have e : ((dim + 1) % 3 + p'.length) % 3 = (dim + (true :: p').length) % 3 := by
          simp only [List.length_cons]; omega
        rwa [e] at this

/-- The cells are split by planes, the dimensions taking turns with the depth: at a node of depth `d` no
body of the right subtree has a smaller `d mod 3`-th coordinate than a body of the left one. -/
theorem build_splits_by_planes {count : Nat} {B : Bodies S} {half ratio : S} {nth : NthElement} {fuel : Nat}
    {t : STree S} (hn : Reorders nth) (hp : Partitions FOps.lt (coordOf B) nth)
    (h : spaceTreeBuild count B half ratio nth fuel = .ok t)
    {p : List Bool} {l r : STree S} {d : NodeData S} (hat : At t p (.node l r d))
    {a b : Nat} (ha : a ∈ l.bodies) (hb : b ∈ r.bodies) :
    FOps.lt (coordOf B (p.length % 3) b) (coordOf B (p.length % 3) a) = false := by
  have := build_sorted hn hp (by norm_num) h hat a ha b hb
  simpa using this

end

/-! Non-vacuity: the identity and reversal both reorder; five bodies. -/

example : Reorders (fun _ _ l => l.reverse) := fun _ _ l => List.reverse_perm l

/-- Five bodies on a line, in order, so that leaving the array alone is a valid `nth_element`. -/
noncomputable def five : Bodies ℝ := ⟨fun i => i, fun _ => 0, fun _ => 0, fun _ => 1⟩

/-- Sorting by body number is a valid `nth_element` for bodies numbered along the line. -/
def sortIds : NthElement := fun _ _ l => l.mergeSort

lemma sortIds_reorders : Reorders sortIds := fun _ _ l => List.mergeSort_perm l _

example : Partitions FOps.lt (coordOf five) sortIds := by
  intro path dim l a ha b hb
  have hs : (sortIds path dim l).Pairwise (· ≤ ·) := by
    have := List.pairwise_mergeSort (le := fun a b : Nat => decide (a ≤ b))
      (by intro a b c; simpa using Nat.le_trans) (by intro a b; simpa using Nat.le_total a b) l
    simpa [sortIds] using this
  rw [← List.take_append_drop (l.length / 2) (sortIds path dim l), List.pairwise_append] at hs
  have hab := hs.2.2 a ha b hb
  simp only [coordOf, five, real_lt, decide_eq_false_iff_not, not_lt]
  split
  · exact_mod_cast hab
  · split <;> exact le_refl _

example : ∃ t, spaceTreeBuild 5 five (1 / 2) 1 sortIds 4 = .ok t ∧ t.height = 3 ∧
    t.bodies.length = 5 := by
  obtain ⟨t, ht⟩ := build_terminates (k := 3) (fuel := 4) five (1 / 2) 1 sortIds_reorders
    (by norm_num : 0 < 5) (by norm_num) (by norm_num)
  refine ⟨t, ht, ?_, (build_partition sortIds_reorders ht).1⟩
  rw [build_depth sortIds_reorders ht]
  decide +kernel

end NB.C25
