import Verif.Props.C25_Partition
import Verif.Lemmas.VecNorm
import Mathlib.Algebra.BigOperators.Group.List.Basic
import Mathlib.Tactic.FinCases
import Mathlib.Data.Fin.VecNotation

/-
C26  After build and after every sequence of rebuilds, each node of the space tree stores the total mass,
the centre of mass and the tight bounding box of the bodies below it, and a radius that reaches all of them
(exact arithmetic, positive masses).
-/

namespace NB.C26
open NB NB.Spec

/-- What a node is supposed to say about the bodies `bs` below it, whose positions and masses are in `B`.
`rsq` is the squared radius times the squared ratio. -/
structure Summarises (B : Bodies ℝ) (ratio : ℝ) (bs : List ℕ) (d : NodeData ℝ) : Prop where
  mass : d.mass = (bs.map B.mass).sum
  centre : ∀ k, d.mass * d.mc.coord k = (bs.map fun b => B.mass b * (B.pos b).coord k).sum
  box_min : ∀ k, (∀ b ∈ bs, d.bmin.coord k ≤ (B.pos b).coord k) ∧ ∃ b ∈ bs, d.bmin.coord k = (B.pos b).coord k
  box_max : ∀ k, (∀ b ∈ bs, (B.pos b).coord k ≤ d.bmax.coord k) ∧ ∃ b ∈ bs, d.bmax.coord k = (B.pos b).coord k
  in_box : ∀ k, d.bmin.coord k ≤ d.mc.coord k ∧ d.mc.coord k ≤ d.bmax.coord k
  radius : ∀ b ∈ bs, Spec.dist2 (B.pos b).coord d.mc.coord * (ratio * ratio) ≤ d.rsq
  radius_le : d.rsq ≤ Spec.dist2 d.bmax.coord d.bmin.coord * (ratio * ratio)

/-- Every node of the tree summarises the bodies below it. -/
def Faithful (B : Bodies ℝ) (ratio : ℝ) (t : STree ℝ) : Prop :=
  ∀ p s, At t p s → Summarises B ratio s.bodies s.data

/-- Leaves keep the mass of their body and radius zero. -/
def Leaves (m : ℕ → ℝ) : STree ℝ → Prop
  | .leaf b d => d.mass = m b ∧ d.rsq = 0
  | .node l r _ => Leaves m l ∧ Leaves m r

lemma fmin_real (a b : ℝ) : fmin a b = min a b := by
  unfold fmin; simp only [real_lt, decide_eq_true_eq]
  split
  · rw [min_eq_right (le_of_lt ‹_›)]
  · rw [min_eq_left (not_lt.1 ‹_›)]

lemma fmax_real (a b : ℝ) : fmax a b = max a b := by
  unfold fmax; simp only [real_lt, decide_eq_true_eq]
  split
  · rw [max_eq_right (le_of_lt ‹_›)]
  · rw [max_eq_left (not_lt.1 ‹_›)]

lemma bmin_coord (h q : ℝ) (l r : NodeData ℝ) (k : Fin 3) :
    (updateData h q l r).bmin.coord k = min (l.bmin.coord k) (r.bmin.coord k) := by
  fin_cases k <;> exact fmin_real _ _

lemma bmax_coord (h q : ℝ) (l r : NodeData ℝ) (k : Fin 3) :
    (updateData h q l r).bmax.coord k = max (l.bmax.coord k) (r.bmax.coord k) := by
  fin_cases k <;> exact fmax_real _ _

lemma mc_coord (h q : ℝ) (l r : NodeData ℝ) (k : Fin 3) : (updateData h q l r).mc.coord k =
    (l.mc.coord k * l.mass + r.mc.coord k * r.mass) / (l.mass + r.mass) := by
  fin_cases k <;> rfl

lemma in_box {p lo hi : Vec3 ℝ} (h : ∀ k, lo.coord k ≤ p.coord k ∧ p.coord k ≤ hi.coord k) :
    (p - (hi + lo).sdiv 2).length ≤ (hi - lo).length * (1 / 2) := by
  apply Vec3.length_le_of_norm_le (mul_nonneg (Vec3.length_nonneg _) (by norm_num))
  have e : (hi - lo).length * (1 / 2) * ((hi - lo).length * (1 / 2)) = (hi - lo).norm / 4 := by
    rw [← Vec3.length_sq]; ring
  rw [e]
  have hx := h 0
  have hy := h 1
  have hz := h 2
  simp only [Vec3.coord_zero, Vec3.coord_one, Vec3.coord_two] at hx hy hz
  simp only [Vec3.norm, Vec3.sub_x, Vec3.sub_y, Vec3.sub_z, Vec3.sdiv_x, Vec3.sdiv_y, Vec3.sdiv_z,
    Vec3.add_x, Vec3.add_y, Vec3.add_z]
  nlinarith [mul_nonneg (sub_nonneg.2 hx.1) (sub_nonneg.2 hx.2),
    mul_nonneg (sub_nonneg.2 hy.1) (sub_nonneg.2 hy.2), mul_nonneg (sub_nonneg.2 hz.1) (sub_nonneg.2 hz.2)]

lemma summarises_leaf (B : Bodies ℝ) (ratio : ℝ) (b : ℕ) (d : NodeData ℝ) (hm : d.mass = B.mass b)
    (hr : d.rsq = 0) (hc : d.mc = B.pos b) (hl : d.bmin = B.pos b) (hh : d.bmax = B.pos b) :
    Summarises B ratio [b] d where
  mass := by simp [hm]
  centre k := by simp [hm, hc]
  box_min k := by simp [hl]
  box_max k := by simp [hh]
  in_box k := by simp [hl, hh, hc]
  radius b' hb' := by
    simp only [List.mem_singleton] at hb'
    subst hb'
    rw [hr, hc]
    simp [Spec.dist2]
  radius_le := by
    rw [hr, hl, hh]
    simp [Spec.dist2]

lemma summarises_update {B : Bodies ℝ} {ratio : ℝ} {bl br : List ℕ} {l r : NodeData ℝ}
    (hpos : ∀ b ∈ bl ++ br, 0 < B.mass b) (hbl : bl ≠ [])
    (hl : Summarises B ratio bl l) (hr : Summarises B ratio br r) :
    Summarises B ratio (bl ++ br) (updateData (1 / 2) (ratio * ratio) l r) := by
  have hmass : (updateData (1 / 2) (ratio * ratio) l r).mass = l.mass + r.mass := rfl
  have hsum : ∀ bs : List ℕ, (∀ b ∈ bs, 0 < B.mass b) → 0 ≤ (bs.map B.mass).sum := by
    intro bs hbs
    apply List.sum_nonneg
    intro x hx
    obtain ⟨b, hb, rfl⟩ := List.mem_map.1 hx
    exact le_of_lt (hbs b hb)
  have hlpos : 0 < l.mass := by
    rw [hl.mass]
    obtain ⟨b, bs, rfl⟩ := List.exists_cons_of_ne_nil hbl
    rw [List.map_cons, List.sum_cons]
    have := hsum bs fun b hb => hpos b (by simp [hb])
    have := hpos b (by simp)
    linarith
  have hrpos : 0 ≤ r.mass := by rw [hr.mass]; exact hsum br fun b hb => hpos b (by simp [hb])
  have bmin : ∀ k, (∀ b ∈ bl ++ br, (updateData (1 / 2) (ratio * ratio) l r).bmin.coord k ≤ (B.pos b).coord k) ∧
      ∃ b ∈ bl ++ br, (updateData (1 / 2) (ratio * ratio) l r).bmin.coord k = (B.pos b).coord k := by
    intro k
    rw [bmin_coord]
    refine ⟨fun b hb => ?_, ?_⟩
    · rcases List.mem_append.1 hb with h | h
      · exact le_trans (min_le_left _ _) ((hl.box_min k).1 b h)
      · exact le_trans (min_le_right _ _) ((hr.box_min k).1 b h)
    · rcases min_choice (l.bmin.coord k) (r.bmin.coord k) with h | h
      · obtain ⟨b, hb, e⟩ := (hl.box_min k).2
        exact ⟨b, List.mem_append.2 (Or.inl hb), by rw [h, e]⟩
      · obtain ⟨b, hb, e⟩ := (hr.box_min k).2
        exact ⟨b, List.mem_append.2 (Or.inr hb), by rw [h, e]⟩
  have bmax : ∀ k, (∀ b ∈ bl ++ br, (B.pos b).coord k ≤ (updateData (1 / 2) (ratio * ratio) l r).bmax.coord k) ∧
      ∃ b ∈ bl ++ br, (updateData (1 / 2) (ratio * ratio) l r).bmax.coord k = (B.pos b).coord k := by
    intro k
    rw [bmax_coord]
    refine ⟨fun b hb => ?_, ?_⟩
    · rcases List.mem_append.1 hb with h | h
      · exact le_trans ((hl.box_max k).1 b h) (le_max_left _ _)
      · exact le_trans ((hr.box_max k).1 b h) (le_max_right _ _)
    · rcases max_choice (l.bmax.coord k) (r.bmax.coord k) with h | h
      · obtain ⟨b, hb, e⟩ := (hl.box_max k).2
        exact ⟨b, List.mem_append.2 (Or.inl hb), by rw [h, e]⟩
      · obtain ⟨b, hb, e⟩ := (hr.box_max k).2
        exact ⟨b, List.mem_append.2 (Or.inr hb), by rw [h, e]⟩
  have inbox : ∀ k, (updateData (1 / 2) (ratio * ratio) l r).bmin.coord k ≤
      (updateData (1 / 2) (ratio * ratio) l r).mc.coord k ∧
      (updateData (1 / 2) (ratio * ratio) l r).mc.coord k ≤
      (updateData (1 / 2) (ratio * ratio) l r).bmax.coord k := by
    intro k
    have h1 := hl.in_box k
    have h2 := hr.in_box k
    rw [bmin_coord, bmax_coord, mc_coord]
    have hp : 0 < l.mass + r.mass := by linarith
    have a1 := min_le_left (l.bmin.coord k) (r.bmin.coord k)
    have a2 := min_le_right (l.bmin.coord k) (r.bmin.coord k)
    have a3 := le_max_left (l.bmax.coord k) (r.bmax.coord k)
    have a4 := le_max_right (l.bmax.coord k) (r.bmax.coord k)
    constructor
    · rw [le_div_iff₀ hp]
      nlinarith [mul_le_mul_of_nonneg_right (le_trans a1 h1.1) hlpos.le,
        mul_le_mul_of_nonneg_right (le_trans a2 h2.1) hrpos]
    · rw [div_le_iff₀ hp]
      nlinarith [mul_le_mul_of_nonneg_right (le_trans h1.2 a3) hlpos.le,
        mul_le_mul_of_nonneg_right (le_trans h2.2 a4) hrpos]
  set d := updateData (1 / 2) (ratio * ratio) l r with hd
  have ersq : d.rsq = ((d.bmax - d.bmin).length * (1 / 2) + ((d.bmax + d.bmin).sdiv 2 - d.mc).length) *
      ((d.bmax - d.bmin).length * (1 / 2) + ((d.bmax + d.bmin).sdiv 2 - d.mc).length) * (ratio * ratio) := by
    rw [hd]
    simp [updateData]
  refine ⟨?_, ?_, bmin, bmax, inbox, ?_, ?_⟩
  · rw [hmass, hl.mass, hr.mass, List.map_append, List.sum_append]
  · intro k
    rw [hd, mc_coord, ← hd, hmass, mul_div_cancel₀ _ (by linarith), List.map_append, List.sum_append, ← hl.centre, ← hr.centre]
    ring
  · intro b hb
    rw [← norm_eq_dist2]
    rw [ersq]
    apply mul_le_mul_of_nonneg_right _ (mul_self_nonneg ratio)
    have h1 := in_box (p := B.pos b) (fun k => ⟨(bmin k).1 b hb, (bmax k).1 b hb⟩)
    have h2 := Vec3.length_add_le (B.pos b - (d.bmax + d.bmin).sdiv 2) ((d.bmax + d.bmin).sdiv 2 - d.mc)
    have e2 : B.pos b - (d.bmax + d.bmin).sdiv 2 + ((d.bmax + d.bmin).sdiv 2 - d.mc) = B.pos b - d.mc := by
      ext <;> simp
    rw [e2] at h2
    rw [← Vec3.length_sq]
    exact mul_self_le_mul_self (Vec3.length_nonneg _) (by linarith)
  · rw [ersq, ← norm_eq_dist2]
    apply mul_le_mul_of_nonneg_right _ (mul_self_nonneg ratio)
    have h1 := in_box (p := d.mc) inbox
    have e2 : ((d.bmax + d.bmin).sdiv 2 - d.mc).length = (d.mc - (d.bmax + d.bmin).sdiv 2).length := by
      rw [Vec3.length_eq, Vec3.length_eq]
      congr 1
      simp only [Vec3.norm, Vec3.sub_x, Vec3.sub_y, Vec3.sub_z]
      ring
    rw [e2, ← Vec3.length_sq]
    exact mul_self_le_mul_self (add_nonneg (mul_nonneg (Vec3.length_nonneg _) (by norm_num))
      (Vec3.length_nonneg _)) (by linarith)

lemma bodies_rebuild (B : Bodies ℝ) (h q : ℝ) (t : STree ℝ) : (STree.rebuild B h q t).bodies = t.bodies := by
  induction t with
  | leaf b d => rfl
  | node l r d hl hr => simp [STree.rebuild, STree.bodies, hl, hr]

lemma leaves_rebuild {m : ℕ → ℝ} (B : Bodies ℝ) (h q : ℝ) {t : STree ℝ} (ht : Leaves m t) :
    Leaves m (STree.rebuild B h q t) := by
  induction t with
  | leaf b d => exact ht
  | node l r d hl hr => exact ⟨hl ht.1, hr ht.2⟩

lemma rebuild_root {B : Bodies ℝ} {ratio : ℝ} {t : STree ℝ} (hpos : ∀ b ∈ t.bodies, 0 < B.mass b)
    (ht : Leaves B.mass t) :
    Summarises B ratio t.bodies (STree.rebuild B (1 / 2) (ratio * ratio) t).data := by
  induction t with
  | leaf b d => exact summarises_leaf B ratio b _ ht.1 ht.2 rfl rfl rfl
  | node l r d hl hr =>
    exact summarises_update hpos (by have := STree.bodies_length_pos l; intro e; simp [e] at this)
      (hl (fun b hb => hpos b (by simp [STree.bodies, hb])) ht.1)
      (hr (fun b hb => hpos b (by simp [STree.bodies, hb])) ht.2)

lemma rebuild_all {B : Bodies ℝ} {ratio : ℝ} {t : STree ℝ} (hpos : ∀ b ∈ t.bodies, 0 < B.mass b)
    (ht : Leaves B.mass t)
    {p : List Bool} {s : STree ℝ} (hs : At (STree.rebuild B (1 / 2) (ratio * ratio) t) p s) :
    Summarises B ratio s.bodies s.data := by
  induction t generalizing p s with
  | leaf b d =>
    cases hs
    exact rebuild_root hpos ht
  | node l r d hl hr =>
    cases hs with
    | here =>
      rw [bodies_rebuild]
      exact rebuild_root hpos ht
    | left h => exact hl (fun b hb => hpos b (by simp [STree.bodies, hb])) ht.1 h
    | right h => exact hr (fun b hb => hpos b (by simp [STree.bodies, hb])) ht.2 h

lemma build_fix {B : Bodies ℝ} {half ratio2 : ℝ} {nth : NthElement} {fuel : Nat} {path : List Bool}
    {dim : Nat} {ids : List Nat} {t : STree ℝ}
    (h : STree.build B half ratio2 nth fuel path dim ids = .ok t) :
    STree.rebuild B half ratio2 t = t ∧ Leaves B.mass t := by
  induction fuel generalizing path dim ids t with
  | zero => simp [STree.build] at h
  | succ f ih =>
    rcases build_cases h with ⟨i, rfl, rfl⟩ | ⟨_, f', l', r', hf, hl, hr, rfl⟩
    · exact ⟨rfl, rfl, rfl⟩
    · obtain rfl : f = f' := by omega
      obtain ⟨h1, h2⟩ := ih hl
      obtain ⟨h3, h4⟩ := ih hr
      exact ⟨by simp only [STree.rebuild, h1, h3], h2, h4⟩

/-- **C26** after `build`. -/
theorem build_summarises {count : ℕ} {B : Bodies ℝ} {ratio : ℝ} {nth : NthElement} {fuel : ℕ} {t : STree ℝ}
    (hn : Reorders nth) (hpos : ∀ b < count, 0 < B.mass b)
    (h : spaceTreeBuild count B (1 / 2) ratio nth fuel = .ok t) : Faithful B ratio t := by
  intro p s hs
  obtain ⟨h1, h2⟩ := build_fix h
  rw [← h1] at hs
  exact rebuild_all (fun b hb => hpos b (by simpa using (C25.build_perm hn h).mem_iff.1 hb)) h2 hs

/-- A sequence of rebuilds with new positions and possibly new ratios; the last one first. -/
noncomputable def rebuilds : List (Bodies ℝ × ℝ) → STree ℝ → STree ℝ
  | [], t => t
  | (B, ratio) :: rest, t => spaceTreeRebuild B (1 / 2) ratio (rebuilds rest t)

/-- **C26** after `build` and any number of rebuilds with moved bodies: the nodes summarise the bodies at
their current positions.  `rebuild` is not given the masses: those of the build count. -/
theorem rebuild_summarises {count : ℕ} {B0 : Bodies ℝ} {ratio0 : ℝ} {nth : NthElement} {fuel : ℕ}
    {t : STree ℝ} (hn : Reorders nth) (hpos : ∀ b < count, 0 < B0.mass b)
    (h : spaceTreeBuild count B0 (1 / 2) ratio0 nth fuel = .ok t)
    (earlier : List (Bodies ℝ × ℝ)) (B : Bodies ℝ) (ratio : ℝ) :
    Faithful { B with mass := B0.mass } ratio (rebuilds ((B, ratio) :: earlier) t) := by
  intro p s hs
  have hl : Leaves B0.mass (rebuilds earlier t) := by
    clear hs
    induction earlier with
    | nil => exact (build_fix h).2
    | cons a rest ih => exact leaves_rebuild _ _ _ ih
  have e : ∀ t, STree.rebuild B (1 / 2) (ratio * ratio) t =
      STree.rebuild { B with mass := B0.mass } (1 / 2) (ratio * ratio) t := by
    intro t
    induction t with
    | leaf => rfl
    | node l r d hl hr => simp only [STree.rebuild, hl, hr]
  unfold rebuilds spaceTreeRebuild at hs
  rw [e] at hs
  refine rebuild_all (B := { B with mass := B0.mass }) (fun b hb => hpos b ?_) hl hs
  have : ∀ moves : List (Bodies ℝ × ℝ), (rebuilds moves t).bodies = t.bodies := by
    intro moves
    induction moves with
    | nil => rfl
    | cons a rest ih => exact (bodies_rebuild _ _ _ _).trans ih
  rw [this] at hb
  simpa using (C25.build_perm hn h).mem_iff.1 hb

/-- Rebuilding moves no body to another leaf. -/
theorem rebuild_layout (moves : List (Bodies ℝ × ℝ)) (t : STree ℝ) :
    layout (rebuilds moves t) = layout t := by
  have one : ∀ (B : Bodies ℝ) (h q : ℝ) (t : STree ℝ), layout (STree.rebuild B h q t) = layout t := by
    intro B h q t
    induction t with
    | leaf => rfl
    | node l r d hl hr => simp only [STree.rebuild, layout, hl, hr]
  induction moves with
  | nil => rfl
  | cons a rest ih => exact (one _ _ _ _).trans ih

/-- Rebuilding at the positions of the build changes nothing. -/
theorem rebuild_same {count : ℕ} {B : Bodies ℝ} {ratio : ℝ} {nth : NthElement} {fuel : ℕ} {t : STree ℝ}
    (h : spaceTreeBuild count B (1 / 2) ratio nth fuel = .ok t) :
    spaceTreeRebuild B (1 / 2) ratio t = t := (build_fix h).1

/-! Non-vacuity: five bodies of unit mass. -/

example : ∃ t, spaceTreeBuild 5 C25.five (1 / 2) 1 C25.sortIds 4 = .ok t ∧ t.data.mass = 5 ∧
    t.data.mc.x = 2 ∧ t.data.bmin.x = 0 ∧ t.data.bmax.x = 4 := by
  obtain ⟨t, ht⟩ := C25.build_terminates (k := 3) (fuel := 4) C25.five (1 / 2) 1 C25.sortIds_reorders
    (by norm_num : 0 < 5) (by norm_num) (by norm_num)
  have hp := C25.build_perm C25.sortIds_reorders ht
  have hs := build_summarises C25.sortIds_reorders (fun _ _ => by simp [C25.five]) ht _ _ (At.here t)
  have hm : t.data.mass = 5 := by
    rw [hs.mass, (hp.map _).sum_eq]
    simp [C25.five]
    norm_num
  have hc := hs.centre 0
  rw [(hp.map _).sum_eq, hm] at hc
  refine ⟨t, ht, hm, ?_, ?_, ?_⟩
  · simp [C25.five, Bodies.pos, List.range_succ] at hc
    linarith
  · have h0 := (hs.box_min 0).1 0 (hp.mem_iff.2 (by simp))
    obtain ⟨b, _, hb⟩ := (hs.box_min 0).2
    simp only [Vec3.coord_zero, Bodies.pos, C25.five] at h0 hb
    have : (0 : ℝ) ≤ b := Nat.cast_nonneg b
    norm_num at h0
    linarith
  · have h0 := (hs.box_max 0).1 4 (hp.mem_iff.2 (by simp))
    obtain ⟨b, hbm, hb⟩ := (hs.box_max 0).2
    have hb5 : b < 5 := by simpa using hp.mem_iff.1 hbm
    simp only [Vec3.coord_zero, Bodies.pos, C25.five] at h0 hb
    have : (b : ℝ) ≤ 4 := by exact_mod_cast (by omega : b ≤ 4)
    norm_num at h0
    linarith

end NB.C26
