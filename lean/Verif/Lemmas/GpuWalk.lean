import Verif.Lemmas.GpuTree
import Verif.Lemmas.Traverse

/-
What a work item of the traversal kernels computes from the tree on its device.
-/

namespace NB

open NB.Spec

section
variable {S : Type} {D : Nat}

/-- Fields that are uploaded: all but the boxes. -/
def NodeField.shared : NodeField → Prop
  | .cmx | .cmy | .cmz | .crit | .mass => True
  | _ => False

/-- Device `d` holds the fields `P` of the nodes of a tree whose root has index `idx`. -/
def DevTree.Shows (T : DevTree) (D : Nat) (P : NodeField → Prop) (m : Mem S) (d : Nat) : Nat → STree S → Prop
  | idx, .leaf _ x => ∀ F : NodeField, P F → T.cell D m d F idx = some (F.of x)
  | idx, .node l r x => (∀ F : NodeField, P F → T.cell D m d F idx = some (F.of x)) ∧
      T.Shows D P m d (2 * idx) l ∧ T.Shows D P m d (2 * idx + 1) r

theorem DevTree.Shows.root {T : DevTree} {P : NodeField → Prop} {m : Mem S} {d idx : Nat} {t : STree S}
    (h : T.Shows D P m d idx t) : ∀ F : NodeField, P F → T.cell D m d F idx = some (F.of t.data) := by
  cases t with
  | leaf b x => exact h
  | node l r x => exact h.1

theorem DevTree.Shows.at {T : DevTree} {P : NodeField → Prop} {m : Mem S} {d i : Nat} {t s : STree S}
    (h : T.Shows D P m d 1 t) (hs : NodeAt t i s) : T.Shows D P m d i s := by
  induction hs with
  | root => exact h
  | left _ ih => exact ih.2.1
  | right _ ih => exact ih.2.2

theorem DevTree.Shows.mono {T : DevTree} {P Q : NodeField → Prop} {m m' : Mem S} {d i : Nat} {t : STree S}
    (h : T.Shows D P m d i t) (hc : ∀ j F, Q F → P F ∧ T.cell D m' d F j = T.cell D m d F j) :
    T.Shows D Q m' d i t := by
  induction t generalizing i with
  | leaf b x => exact fun F hF => (hc i F hF).2.trans (h F (hc i F hF).1)
  | node l r x hl hr => exact ⟨fun F hF => (hc i F hF).2.trans (h.1 F (hc i F hF).1), hl h.2.1, hr h.2.2⟩

/-- A tree is shown if its nodes are. -/
theorem DevTree.shows_of {T : DevTree} {P : NodeField → Prop} {m : Mem S} {d : Nat} {t : STree S}
    (h : ∀ i s, NodeAt t i s → ∀ F : NodeField, P F → T.cell D m d F i = some (F.of s.data)) :
    T.Shows D P m d 1 t := by
  have key : ∀ i s, NodeAt t i s → T.Shows D P m d i s := by
    intro i s
    induction s generalizing i with
    | leaf b x => exact fun hs => h i _ hs
    | node l r x hl hr => exact fun hs => ⟨h i _ hs, hl _ hs.left, hr _ hs.right⟩
  exact key 1 t .root

end

section
variable {S : Type} {D : Nat} [Add S] [Sub S] [Mul S] [Neg S] [Div S] [Zero S] [One S] [FOps S]

/-- The kernels add the attraction of a node. -/
def addNode (p total : Vec3 S) (t : STree S) : Vec3 S := denseTerm p t.data.mc t.data.mass total

omit [Neg S] [Zero S] [One S] in
theorem nodeStep_run {T : DevTree} {m : Mem S} {d curr : Nat} {p res : Vec3 S} {x : NodeData S}
    (h : ∀ F : NodeField, F.shared → T.cell D m d F curr = some (F.of x)) :
    (nodeStep T D d p curr res).run m =
      .ok ((accepts p x, if accepts p x then denseTerm p x.mc x.mass res else res), m) := by
  unfold nodeStep
  rw [DevTree.get_bind (h .cmx trivial), DevTree.get_bind (h .cmy trivial), DevTree.get_bind (h .cmz trivial)]
  simp only []
  rw [DevTree.get_bind (h .crit trivial)]
  have ha : FOps.lt (NodeField.crit.of x) ((p.x - NodeField.cmx.of x) * (p.x - NodeField.cmx.of x) +
      (p.y - NodeField.cmy.of x) * (p.y - NodeField.cmy.of x) +
      (p.z - NodeField.cmz.of x) * (p.z - NodeField.cmz.of x)) = accepts p x := rfl
  rw [ha]
  cases accepts p x with
  | false => rfl
  | true =>
    simp only [if_true]
    rw [DevTree.get_bind (h .mass trivial)]
    rfl

omit [Add S] [Sub S] [Mul S] [Neg S] [Div S] [Zero S] [One S] [FOps S] in
theorem gpuStackWalk_nil {σ : Type} {size : Nat} {step : Nat → σ → Prog S (Bool × σ)} {fuel : Nat} {s : σ} :
    gpuStackWalk size step fuel [] s = pure (.ok s) := by
  cases fuel <;> rfl

omit [Neg S] [Zero S] [One S] in
theorem gpuStack_step {T : DevTree} {m : Mem S} {d : Nat} {p : Vec3 S} {k : Nat} (hk : k ≤ 63) :
    ∀ (h e idx : Nat) (t : STree S), Perfect h t → T.Shows D NodeField.shared m d idx t → e + h = k → 2 ^ e ≤ idx →
      idx < 2 ^ (e + 1) → ∀ st : List Nat, st.length ≤ e → ∀ s,
      ∃ c, c ≤ 2 ^ (h + 1) - 1 ∧ ∀ fuel,
        (gpuStackWalk (2 ^ (k + 1)) (nodeStep T D d p) (fuel + c) (idx :: st) s).run m =
          (gpuStackWalk (2 ^ (k + 1)) (nodeStep T D d p) fuel st
            ((acceptedNodes p t).reverse.foldl (addNode p) s)).run m := by
  intro h
  induction h with
  | zero =>
    intro e idx t hp ht he h1 h2 st hst s
    cases t with
    | node => exact absurd hp (by simp [Perfect])
    | leaf b x =>
      obtain rfl : e = k := by omega
      refine ⟨1, by norm_num, fun fuel => ?_⟩
      have e1 : 2 ^ (e + 1) = 2 * 2 ^ e := by ring
      simp only [gpuStackWalk, Prog.run_bind, nodeStep_run ht, res_ok_bind, acceptedNodes]
      cases accepts p x with
      | true => rfl
      | false =>
        simp only [Bool.false_eq_true, if_false]
        have hpush : gpuPush (2 ^ (e + 1)) idx st = .ok st := by
          unfold gpuPush
          rw [C31.left_eq, C31.rght_eq, if_neg (by omega), res_ok_bind, if_neg (by omega)]
        rw [hpush]
        rfl
  | succ h ih =>
    intro e idx t hp ht he h1 h2 st hst s
    cases t with
    | leaf => exact absurd hp (by simp [Perfect])
    | node l r x =>
      have hpow : 1 ≤ 2 ^ (h + 1) := Nat.one_le_two_pow
      have epow : 2 ^ (h + 1 + 1) = 2 * 2 ^ (h + 1) := by ring
      have e1 : 2 ^ (e + 1) = 2 * 2 ^ e := by ring
      have e2 : 2 ^ (e + 1 + 1) = 2 * 2 ^ (e + 1) := by ring
      have hbig : 2 ^ (e + 1 + 1) ≤ 2 ^ (k + 1) := Nat.pow_le_pow_right (by norm_num) (by omega)
      cases ha : accepts p x with
      | true =>
        refine ⟨1, by omega, fun fuel => ?_⟩
        simp only [gpuStackWalk, Prog.run_bind, nodeStep_run ht.1, res_ok_bind, acceptedNodes, ha, if_true]
        rfl
      | false =>
        obtain ⟨c1, hc1, hw1⟩ := ih (e + 1) (2 * idx + 1) r hp.2 ht.2.2 (by omega) (by omega) (by omega) (2 * idx :: st)
          (by simp; omega) s
        obtain ⟨c2, hc2, hw2⟩ := ih (e + 1) (2 * idx) l hp.1 ht.2.1 (by omega) (by omega) (by omega) st (by omega)
          ((acceptedNodes p r).reverse.foldl (addNode p) s)
        refine ⟨c2 + c1 + 1, by omega, fun fuel => ?_⟩
        have hpush : gpuPush (2 ^ (k + 1)) idx st = .ok ((2 * idx + 1) :: 2 * idx :: st) := by
          unfold gpuPush
          rw [C31.left_eq, C31.rght_eq, if_pos (by omega), C31.push_ok _ (by omega), res_ok_bind, if_pos (by omega),
            C31.push_ok _ (by simp; omega)]
        rw [← Nat.add_assoc, ← Nat.add_assoc]
        simp only [gpuStackWalk, Prog.run_bind, nodeStep_run ht.1, res_ok_bind, ha, Bool.false_eq_true, if_false]
        rw [hpush]
        simp only []
        rw [hw1 (fuel + c2), hw2 fuel]
        simp only [acceptedNodes, ha, Bool.false_eq_true, if_false, List.reverse_append, List.foldl_append]

omit [Neg S] [Zero S] [One S] in
theorem gpuStackless_step {T : DevTree} {m : Mem S} {d : Nat} {p : Vec3 S} {k : Nat} {nd : Nat → Res Nat}
    (hnd : ∀ i, i < 2 ^ (k + 1) → nd i = .ok (nextDownLoop i)) :
    ∀ (h e idx : Nat) (t : STree S), Perfect h t → T.Shows D NodeField.shared m d idx t → e + h = k → 2 ^ e ≤ idx →
      idx < 2 ^ (e + 1) → ∀ s,
      ∃ c, c ≤ 2 ^ (h + 1) - 1 ∧ ∀ fuel,
        (gpuStacklessWalk nd (2 ^ (k + 1)) (nodeStep T D d p) (fuel + c) idx s).run m =
          if nextDownLoop idx = 1 then .ok (.ok ((acceptedNodes p t).foldl (addNode p) s), m)
          else (gpuStacklessWalk nd (2 ^ (k + 1)) (nodeStep T D d p) fuel (nextDownLoop idx)
            ((acceptedNodes p t).foldl (addNode p) s)).run m := by
  intro h
  induction h with
  | zero =>
    intro e idx t hp ht he h1 h2 s
    cases t with
    | node => exact absurd hp (by simp [Perfect])
    | leaf b x =>
      obtain rfl : e = k := by omega
      refine ⟨1, by norm_num, fun fuel => ?_⟩
      have e1 : 2 ^ (e + 1) = 2 * 2 ^ e := by ring
      have hnext : ∀ a : Bool, (if a = true then nd idx else nextUp nd idx (2 ^ (e + 1))) = .ok (nextDownLoop idx) := by
        intro a
        unfold nextUp
        rw [C31.left_eq, if_neg (by omega : ¬ 2 * idx < 2 ^ (e + 1)), hnd idx h2, ite_self]
      simp only [gpuStacklessWalk, Prog.run_bind, nodeStep_run ht, res_ok_bind]
      rw [hnext]
      simp only [heapRoot, acceptedNodes]
      cases accepts p x <;> (split <;> simp_all [addNode, STree.data])
  | succ h ih =>
    intro e idx t hp ht he h1 h2 s
    cases t with
    | leaf => exact absurd hp (by simp [Perfect])
    | node l r x =>
      have hpow : 1 ≤ 2 ^ (h + 1) := Nat.one_le_two_pow
      have epow : 2 ^ (h + 1 + 1) = 2 * 2 ^ (h + 1) := by ring
      have hpe : 1 ≤ 2 ^ e := Nat.one_le_two_pow
      have e1 : 2 ^ (e + 1) = 2 * 2 ^ e := by ring
      have e2 : 2 ^ (e + 1 + 1) = 2 * 2 ^ (e + 1) := by ring
      have hbig : 2 ^ (e + 1 + 1) ≤ 2 ^ (k + 1) := Nat.pow_le_pow_right (by norm_num) (by omega)
      cases ha : accepts p x with
      | true =>
        refine ⟨1, by omega, fun fuel => ?_⟩
        simp only [gpuStacklessWalk, Prog.run_bind, nodeStep_run ht.1, res_ok_bind, ha, if_true, hnd idx (by omega)]
        simp only [heapRoot, acceptedNodes, ha, if_true]
        split <;> simp_all [addNode, STree.data]
      | false =>
        obtain ⟨c1, hc1, hw1⟩ := ih (e + 1) (2 * idx) l hp.1 ht.2.1 (by omega) (by omega) (by omega) s
        obtain ⟨c2, hc2, hw2⟩ := ih (e + 1) (2 * idx + 1) r hp.2 ht.2.2 (by omega) (by omega) (by omega)
          ((acceptedNodes p l).foldl (addNode p) s)
        refine ⟨c2 + c1 + 1, by omega, fun fuel => ?_⟩
        rw [← Nat.add_assoc, ← Nat.add_assoc]
        simp only [gpuStacklessWalk, Prog.run_bind, nodeStep_run ht.1, res_ok_bind, ha, Bool.false_eq_true, if_false,
          nextUp, C31.left_eq]
        rw [if_pos (by omega : 2 * idx < 2 ^ (k + 1))]
        simp only []
        rw [if_neg (show ¬ 2 * idx = heapRoot by change ¬ 2 * idx = 1; omega), hw1 (fuel + c2), C31.next_left, if_neg (by omega : ¬ 2 * idx + 1 = 1), hw2 fuel, C31.next_right]
        simp only [acceptedNodes, ha, Bool.false_eq_true, if_false, List.foldl_append]

/-- The nodes whose attractions are added, in the order of the walk. -/
def walkOrder (stackless : Bool) (p : Vec3 S) (t : STree S) : List (STree S) :=
  if stackless then acceptedNodes p t else (acceptedNodes p t).reverse

/-- What a work item at `p` sums up. -/
def gpuAccel (stackless : Bool) (t : STree S) (p : Vec3 S) : Vec3 S :=
  (walkOrder stackless p t).foldl (addNode p) 0

omit [Neg S] [One S] in
theorem walk_run {e : GpuBH S} {m : Mem S} {d : Nat} {p : Vec3 S} {k : Nat} (hk : k ≤ 63)
    (hnd : ∀ i, i < 2 ^ (k + 1) → e.nd i = .ok (nextDownLoop i)) (hf : 2 ^ (k + 1) - 1 ≤ e.fuel) {t : STree S}
    (hp : Perfect k t) (ht : e.tree.Shows e.g.D NodeField.shared m d 1 t) :
    (e.walk (2 ^ (k + 1)) d p).run m = .ok (.ok (gpuAccel e.stackless t p), m) := by
  unfold GpuBH.walk gpuAccel walkOrder
  cases e.stackless with
  | true =>
    obtain ⟨c, hc, hw⟩ := gpuStackless_step (p := p) hnd k 0 1 t hp ht (by omega) (by norm_num) (by norm_num) 0
    have := hw (e.fuel - c)
    rw [Nat.sub_add_cancel (by omega), if_pos (show nextDownLoop 1 = 1 from C32.loop_eq 1 0)] at this
    exact this
  | false =>
    obtain ⟨c, hc, hw⟩ := gpuStack_step (p := p) hk k 0 1 t hp ht (by omega) (by norm_num) (by norm_num) []
      (by simp) 0
    have := hw (e.fuel - c)
    rw [Nat.sub_add_cancel (by omega), gpuStackWalk_nil] at this
    exact this

omit [Neg S] [Zero S] [One S] in
theorem nodeStep_within {T : DevTree} {d curr : Nat} {p res : Vec3 S} {W : Handle → Nat → Prop} :
    (nodeStep T D d p curr res).Within (fun x _ => ∃ F, x = rep D (T F).h d) W := by
  have hg : ∀ F, (T.get D d F curr : Prog S S).Within (fun x _ => ∃ F, x = rep D (T F).h d) W := fun F =>
    Prog.Within.get ⟨F, rfl⟩
  unfold nodeStep
  refine (hg _).bind fun _ => (hg _).bind fun _ => (hg _).bind fun _ => (hg _).bind fun _ => ?_
  split
  · exact (hg _).bind fun _ => Prog.Within.pure _
  · exact Prog.Within.pure _

omit [Neg S] [One S] in
theorem walk_within {e : GpuBH S} {size d : Nat} {p : Vec3 S} {W : Handle → Nat → Prop} :
    (e.walk size d p).Within (fun x _ => ∃ F, x = rep e.g.D (e.tree F).h d) W := by
  unfold GpuBH.walk
  split
  · have : ∀ (fuel curr : Nat) (s : Vec3 S),
        (gpuStacklessWalk e.nd size (nodeStep e.tree e.g.D d p) fuel curr s).Within
          (fun x _ => ∃ F, x = rep e.g.D (e.tree F).h d) W := by
      intro fuel
      induction fuel with
      | zero => intro _ _; exact Prog.Within.pure _
      | succ fuel ih =>
        intro curr s
        unfold gpuStacklessWalk
        refine nodeStep_within.bind fun r => ?_
        split
        · exact Prog.Within.pure _
        · split
          · exact Prog.Within.pure _
          · exact ih _ _
    exact this _ _ _
  · have : ∀ (fuel : Nat) (st : List Nat) (s : Vec3 S),
        (gpuStackWalk size (nodeStep e.tree e.g.D d p) fuel st s).Within
          (fun x _ => ∃ F, x = rep e.g.D (e.tree F).h d) W := by
      intro fuel
      induction fuel with
      | zero => intro st _; cases st <;> exact Prog.Within.pure _
      | succ fuel ih =>
        intro st s
        cases st with
        | nil => exact Prog.Within.pure _
        | cons curr st =>
          unfold gpuStackWalk
          refine nodeStep_within.bind fun r => ?_
          split
          · exact ih _ _
          · split
            · exact Prog.Within.pure _
            · exact ih _ _
    exact this _ _ _

end

end NB
