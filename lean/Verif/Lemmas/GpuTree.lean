import Verif.Lemmas.GpuOps
import Verif.Lemmas.HeapRebuild
import Verif.Model.GpuBH

/-
The tree on the devices: what the refresh kernels do, for every interleaving of their work items.
-/

namespace NB

section
variable {S : Type} {D : Nat}

open Classical in
/-- Loops whose iterations write cells no other iteration reads or writes. -/
theorem loop_owned {loop : Loop S} (hl : IsParLoop loop) {N : Nat} {body : Nat → Prog S Unit} {m : Mem S}
    (R W : Nat → Handle → Nat → Prop) (val : Handle → Nat → S)
    (hin : ∀ p, p < N → (body p).Within (R p) (W p))
    (hdis : ∀ p p' x j, p < N → p' < N → p ≠ p' → W p x j → ¬ R p' x j ∧ ¬ W p' x j)
    (hrun : ∀ p m1, p < N → m1.shape = m.shape → (∀ x j, R p x j → m1.cell x j = m.cell x j) →
      (∀ x j, W p x j → m1.cell x j = m.cell x j) →
      ∃ m2, (body p).run m1 = .ok ((), m2) ∧ ∀ x j, W p x j → m2.cell x j = some (val x j)) :
    ∃ m', loop N body m = .ok m' ∧ m'.shape = m.shape ∧
      (∀ p x j, p < N → W p x j → m'.cell x j = some (val x j)) ∧
      ∀ x j, (∀ p, p < N → ¬ W p x j) → m'.cell x j = m.cell x j := by
  obtain ⟨m', a1, a2, a3⟩ := seqFor_owned (n := N) (body := body) (m := m) W val (by
    intro p m1 hp hsh hold
    obtain ⟨m2, b1, b2⟩ := hrun p m1 hp hsh
      (fun x j hR => hold x j fun p' hp' hW => (hdis p' p x j (by omega) hp (by omega) hW).1 hR)
      (fun x j hR => hold x j fun p' hp' hW => (hdis p' p x j (by omega) hp (by omega) hW).2 hR)
    refine ⟨m2, b1, fun x j => ?_⟩
    by_cases hc : W p x j
    · rw [if_pos hc, b2 x j hc]
    · rw [if_neg hc]
      exact Prog.run_cell (hin p hp) hc b1)
  refine ⟨m', parLoop_eq_seq hl ⟨⟨R, W, hin, hdis⟩⟩ a1, a2, fun p x j hp hW => ?_, fun x j hno => ?_⟩
  · rw [a3, if_pos ⟨p, hp, hW⟩]
  · rw [a3, if_neg]
    rintro ⟨p, hp, hW⟩
    exact hno p hp hW

/-! ### Columns -/

/-- No two values of the tree share a place. -/
def DevTree.Sep (T : DevTree) : Prop :=
  ∀ F G i j, (T F).h = (T G).h → (T F).stride * i + (T F).off = (T G).stride * j + (T G).off → F = G ∧ i = j

theorem DevTree.plain_sep {h : NodeField → Handle} (hi : ∀ F G, h F = h G → F = G) : (DevTree.plain h).Sep := by
  intro F G i j e1 e2
  have := hi F G e1
  subst this
  simp only [DevTree.plain] at e2
  exact ⟨rfl, by omega⟩

theorem DevTree.tex_sep {xyzr : Handle} {h : NodeField → Handle} (hi : ∀ F G, h F = h G → F = G)
    (hx : ∀ F, h F ≠ xyzr) : (DevTree.tex xyzr h).Sep := by
  intro F G i j e1 e2
  cases F <;> cases G <;> simp only [DevTree.tex] at e1 e2 <;>
    first
      | exact ⟨rfl, by omega⟩
      | exact absurd e2 (by omega)
      | exact absurd (hi _ _ e1) (by simp)
      | exact absurd e1 (hx _)
      | exact absurd e1.symm (hx _)

/-- The buffer belongs to the tree. -/
def DevTree.Owns (T : DevTree) (h : Handle) : Prop := ∃ F, (T F).h = h

/-- A node value on device `d`. -/
def DevTree.cell (T : DevTree) (D : Nat) (m : Mem S) (d : Nat) (F : NodeField) (i : Nat) : Option S :=
  m.cell (rep D (T F).h d) ((T F).stride * i + (T F).off)

/-- Memory after a write. -/
def DevTree.set (T : DevTree) (D : Nat) (m : Mem S) (d : Nat) (F : NodeField) (i : Nat) (v : S) : Mem S :=
  m.setCell (rep D (T F).h d) ((T F).stride * i + (T F).off) v

theorem DevTree.get_run {T : DevTree} {m : Mem S} {d : Nat} {F : NodeField} {i : Nat} {v : S}
    (h : T.cell D m d F i = some v) : (T.get D d F i).run m = .ok (v, m) := Prog.run_get h

theorem DevTree.put_run {T : DevTree} {m : Mem S} {d : Nat} {F : NodeField} {i : Nat} (v : S)
    (h : (T.cell D m d F i).isSome) : (T.put D d F i v).run m = .ok ((), T.set D m d F i v) := Prog.run_put v h

theorem DevTree.cell_set {T : DevTree} (hT : T.Sep) {m : Mem S} {d : Nat} {F G : NodeField} {i j : Nat} {v : S}
    (hd : d < D) :
    T.cell D (T.set D m d F i v) d G j = if G = F ∧ j = i then (T.cell D m d F i).map (fun _ => v) else T.cell D m d G j := by
  unfold DevTree.cell DevTree.set at *
  rw [Mem.cell_setCell]
  by_cases hc : G = F ∧ j = i
  · obtain ⟨rfl, rfl⟩ := hc
    rw [if_pos ⟨rfl, rfl⟩, if_pos ⟨rfl, rfl⟩]
  · rw [if_neg hc, if_neg]
    rintro ⟨e1, e2⟩
    exact hc (hT G F j i ((rep_inj hd hd).1 e1).1 e2)

theorem map_const {α β : Type} {o : Option α} (h : o.isSome) (v : β) : o.map (fun _ => v) = some v := by
  cases o with
  | none => cases h
  | some _ => rfl

theorem DevTree.isSome_set {T : DevTree} {m : Mem S} {d : Nat} {F : NodeField} {i : Nat} {v : S} {G : NodeField}
    {d' j : Nat} : (T.cell D (T.set D m d F i v) d' G j).isSome = (T.cell D m d' G j).isSome := by
  unfold DevTree.cell DevTree.set
  rw [Mem.isSome_cell_setCell]

theorem DevTree.set_other {T : DevTree} {m : Mem S} {d : Nat} {F : NodeField} {i : Nat} {v : S} {x : Handle}
    {j : Nat} (h : x ≠ rep D (T F).h d) : (T.set D m d F i v).cell x j = m.cell x j := by
  unfold DevTree.set
  rw [Mem.cell_setCell, if_neg fun e => h e.1]

/-- The fields of a node. -/
def NodeField.of : NodeField → NodeData S → S
  | .cmx, x => x.mc.x
  | .cmy, x => x.mc.y
  | .cmz, x => x.mc.z
  | .crit, x => x.rsq
  | .mass, x => x.mass
  | .minx, x => x.bmin.x
  | .miny, x => x.bmin.y
  | .minz, x => x.bmin.z
  | .maxx, x => x.bmax.x
  | .maxy, x => x.bmax.y
  | .maxz, x => x.bmax.z

/-- Node `i` of device `d` holds `x`. -/
def DevTree.Node (T : DevTree) (D : Nat) (m : Mem S) (d i : Nat) (x : NodeData S) : Prop :=
  ∀ F : NodeField, T.cell D m d F i = some (F.of x)

theorem run_get_bind {α : Type} {m : Mem S} {h : Handle} {i : Nat} {v : S} {f : S → Prog S α}
    (hc : m.cell h i = some v) : (Prog.get h i >>= f).run m = (f v).run m := by
  rw [Prog.run_bind, Prog.run_get hc]; rfl

theorem DevTree.get_bind {α : Type} {T : DevTree} {m : Mem S} {d : Nat} {F : NodeField} {i : Nat} {v : S}
    {f : S → Prog S α} (h : T.cell D m d F i = some v) : (T.get D d F i >>= f).run m = (f v).run m := by
  rw [Prog.run_bind, DevTree.get_run h]; rfl

theorem DevTree.put_bind {α : Type} {T : DevTree} {m : Mem S} {d : Nat} {F : NodeField} {i : Nat} {v : S}
    {f : Unit → Prog S α} (h : (T.cell D m d F i).isSome) :
    (T.put D d F i v >>= f).run m = (f ()).run (T.set D m d F i v) := by
  rw [Prog.run_bind, DevTree.put_run v h]; rfl

/-! ### Leaves -/

/-- The data of a leaf at `p`. -/
def leafData (p : Vec3 S) (mass rsq : S) : NodeData S := { mc := p, mass := mass, rsq := rsq, bmin := p, bmax := p }

/-- Fields the leaf kernel writes. -/
def NodeField.moves : NodeField → Prop
  | .crit => False
  | .mass => False
  | _ => True

theorem updateLeaf_run {T : DevTree} (hT : T.Sep) {n : Nat} {bodyN : List Nat} {y : Handle} {d i b : Nat}
    (hd : d < D) (hy : ¬ T.Owns y) {Y : Nat → S} {m : Mem S}
    (hb : bodyN[i + (n - 1 + heapRoot)]? = some b)
    (hY : ∀ k, k < 3 → m.cell (rep D y d) (k * n + b) = some (Y (k * n + b)))
    (hr : ∀ F, (T.cell D m d F (i + (n - 1 + heapRoot))).isSome) :
    ∃ m', (updateLeaf T D n bodyN y d i).run m = .ok ((), m') ∧
      ∀ F : NodeField, F.moves → T.cell D m' d F (i + (n - 1 + heapRoot)) =
        some (F.of (leafData ⟨Y (0 * n + b), Y (1 * n + b), Y (2 * n + b)⟩ (Y 0) (Y 0))) := by
  have hyT : ∀ F, rep D y d ≠ rep D (T F).h d := fun F e => hy ⟨F, ((rep_inj hd hd).1 e).1.symm⟩
  have hbody : bodyN.getD (i + (n - 1 + heapRoot)) noBody = b := by
    rw [List.getD_eq_getElem?_getD, hb]; rfl
  unfold updateLeaf
  simp only [hbody]
  generalize i + (n - 1 + heapRoot) = idx at *
  rw [run_get_bind (hY 0 (by omega)), DevTree.put_bind (hr _),
    DevTree.put_bind (by simp only [DevTree.isSome_set, hr]), DevTree.put_bind (by simp only [DevTree.isSome_set, hr]),
    run_get_bind (v := Y (1 * n + b)) (by simp only [DevTree.set_other (hyT _), hY 1 (by omega)]),
    DevTree.put_bind (by simp only [DevTree.isSome_set, hr]), DevTree.put_bind (by simp only [DevTree.isSome_set, hr]),
    DevTree.put_bind (by simp only [DevTree.isSome_set, hr]),
    run_get_bind (v := Y (2 * n + b)) (by simp only [DevTree.set_other (hyT _), hY 2 (by omega)]),
    DevTree.put_bind (by simp only [DevTree.isSome_set, hr]), DevTree.put_bind (by simp only [DevTree.isSome_set, hr])]
  refine ⟨_, DevTree.put_run _ (by simp only [DevTree.isSome_set, hr]), fun F hF => ?_⟩
  cases F <;> first
    | exact hF.elim
    | (simp only [DevTree.cell_set hT hd, reduceCtorEq, false_and, true_and, if_true, if_false]
       exact map_const (hr _) _)

theorem updateLeaf_within {T : DevTree} {n : Nat} {bodyN : List Nat} {y : Handle} {d i : Nat} :
    (updateLeaf (S := S) T D n bodyN y d i).Within (fun x _ => x = rep D y d)
      (fun x j => ∃ F : NodeField, F.moves ∧ x = rep D (T F).h d ∧
        j = (T F).stride * (i + (n - 1 + heapRoot)) + (T F).off) := by
  have hp : ∀ (F : NodeField) (v : S), F.moves → (T.put D d F (i + (n - 1 + heapRoot)) v).Within
      (fun x _ => x = rep D y d) (fun x j => ∃ F : NodeField, F.moves ∧ x = rep D (T F).h d ∧
        j = (T F).stride * (i + (n - 1 + heapRoot)) + (T F).off) := fun F v hF =>
    Prog.Within.put ⟨F, hF, rfl, rfl⟩
  unfold updateLeaf
  repeat' first
    | exact hp _ _ trivial
    | exact Prog.Within.get rfl
    | refine Prog.Within.bind ?_ (fun _ => ?_)

/-- The leaf kernel on all devices. -/
theorem leaves_run {loop : Loop S} (hl : IsParLoop loop) {T : DevTree} (hT : T.Sep) {n : Nat} (hn : 0 < n)
    {body : Nat → Nat} {bodyN : List Nat} {y : Handle} (hy : ¬ T.Owns y) {Y : Nat → S} {m : Mem S}
    (hb : ∀ i, n ≤ i → i < 2 * n → bodyN[i]? = some (body i) ∧ body i < n)
    (hY : ∀ d j, d < D → j < 3 * n → m.cell (rep D y d) j = some (Y j))
    (hr : ∀ d F i, d < D → n ≤ i → i < 2 * n → (T.cell D m d F i).isSome) :
    ∃ m', loop (D * n) (fun p => updateLeaf T D n bodyN y (p / n) (p % n)) m = .ok m' ∧ m'.shape = m.shape ∧
      (∀ d i, d < D → n ≤ i → i < 2 * n → ∀ F : NodeField, F.moves → T.cell D m' d F i =
        some (F.of (leafData ⟨Y (0 * n + body i), Y (1 * n + body i), Y (2 * n + body i)⟩ (Y 0) (Y 0)))) ∧
      (∀ d i F, d < D → ¬ (n ≤ i ∧ i < 2 * n ∧ F.moves) → T.cell D m' d F i = T.cell D m d F i) ∧
      (∀ x j, ¬ T.Owns (x / D) → m'.cell x j = m.cell x j) := by
  have hdev : ∀ p, p < D * n → p / n < D := fun p hp => Nat.div_lt_of_lt_mul (by rwa [Nat.mul_comm])
  have hidx : ∀ p, p % n + (n - 1 + heapRoot) = n + p % n := by intro p; simp only [heapRoot]; omega
  classical
  let W : Nat → Handle → Nat → Prop := fun p x j => ∃ F : NodeField, F.moves ∧ x = rep D (T F).h (p / n) ∧
        j = (T F).stride * (p % n + (n - 1 + heapRoot)) + (T F).off
  have hval : ∃ val : Handle → Nat → S, ∀ p F, p < D * n → F.moves →
      val (rep D (T F).h (p / n)) ((T F).stride * (n + p % n) + (T F).off) =
        F.of (leafData ⟨Y (0 * n + body (n + p % n)), Y (1 * n + body (n + p % n)), Y (2 * n + body (n + p % n))⟩
          (Y 0) (Y 0)) := by
    refine ⟨fun x j => if h : ∃ q : Nat × NodeField, q.1 < D * n ∧ x = rep D (T q.2).h (q.1 / n) ∧
        j = (T q.2).stride * (n + q.1 % n) + (T q.2).off then
          h.choose.2.of (leafData ⟨Y (0 * n + body (n + h.choose.1 % n)), Y (1 * n + body (n + h.choose.1 % n)),
            Y (2 * n + body (n + h.choose.1 % n))⟩ (Y 0) (Y 0)) else Y 0, fun p F hp hF => ?_⟩
    have h : ∃ q : Nat × NodeField, q.1 < D * n ∧ rep D (T F).h (p / n) = rep D (T q.2).h (q.1 / n) ∧
        (T F).stride * (n + p % n) + (T F).off = (T q.2).stride * (n + q.1 % n) + (T q.2).off :=
      ⟨(p, F), hp, rfl, rfl⟩
    dsimp only
    rw [dif_pos h]
    obtain ⟨h1, h2, h3⟩ := h.choose_spec
    obtain ⟨e1, e2⟩ := hT _ _ _ _ ((rep_inj (hdev p hp) (hdev _ h1)).1 h2).1 h3
    rw [← e1, ← e2]
  obtain ⟨val, hval⟩ := hval
  obtain ⟨m', a1, a2, a3, a4⟩ := loop_owned hl (N := D * n) (m := m)
    (body := fun p => updateLeaf T D n bodyN y (p / n) (p % n))
    (fun p x _ => x = rep D y (p / n)) W val (fun p _ => updateLeaf_within)
    (by
      rintro p p' x j hp hp' hne ⟨F, hF, rfl, rfl⟩
      refine ⟨fun e => hy ⟨F, ((rep_inj (hdev p hp) (hdev p' hp')).1 e).1⟩, ?_⟩
      rintro ⟨G, hG, e1, e2⟩
      obtain ⟨e3, e4⟩ := (rep_inj (hdev p hp) (hdev p' hp')).1 e1
      have := (hT F G _ _ e3 e2).2
      refine hne ?_
      rw [← Nat.div_add_mod p n, ← Nat.div_add_mod p' n, e4]
      omega)
    (by
      intro p m1 hp hsh hR hW
      have hpn : p % n < n := Nat.mod_lt _ hn
      obtain ⟨b1, b2⟩ := hb (n + p % n) (by omega) (by omega)
      obtain ⟨m2, c1, c2⟩ := updateLeaf_run hT (n := n) (bodyN := bodyN) (y := y) (i := p % n) (m := m1) (Y := Y)
        (hdev p hp) hy (b := body (n + p % n)) (by rw [hidx]; exact b1)
        (fun k hk => by
          rw [hR _ _ rfl]
          refine hY _ _ (hdev p hp) ?_
          have : k * n ≤ 2 * n := Nat.mul_le_mul_right n (by omega)
          omega)
        (fun F => by
          rw [hidx]
          exact isSome_of_shape hsh (hr _ F _ (hdev p hp) (by omega) (by omega)))
      refine ⟨m2, c1, ?_⟩
      rintro x j ⟨F, hF, rfl, rfl⟩
      have := c2 F hF
      rw [hidx] at this ⊢
      rw [hval p F hp hF]
      exact this)
  refine ⟨m', a1, a2, ?_, ?_, ?_⟩
  · intro d i hd h1 h2 F hF
    have hp : d * n + (i - n) < D * n := flat_lt hd (by omega)
    have e1 : (d * n + (i - n)) / n = d := flat_div (by omega)
    have e2 : (d * n + (i - n)) % n = i - n := flat_mod (by omega)
    have := a3 (d * n + (i - n)) (rep D (T F).h d) ((T F).stride * i + (T F).off) hp
      ⟨F, hF, by rw [e1], by rw [hidx, e2, show n + (i - n) = i by omega]⟩
    have hv := hval (d * n + (i - n)) F hp hF
    rw [e1, e2, show n + (i - n) = i by omega] at hv
    rw [hv] at this
    exact this
  · intro d i F hd hno
    refine a4 _ _ ?_
    rintro p hp ⟨G, hG, e1, e2⟩
    obtain ⟨e3, e4⟩ := hT _ _ _ _ ((rep_inj hd (hdev p hp)).1 e1).1 e2
    have := Nat.mod_lt p hn
    rw [hidx] at e4
    exact hno ⟨by omega, by omega, e3 ▸ hG⟩
  · intro x j hx
    refine a4 _ _ ?_
    rintro p hp ⟨G, hG, rfl, _⟩
    exact hx ⟨G, by rw [rep_div (hdev p hp)]⟩

end

/-! ### Inner nodes -/

section
variable {S : Type} {D : Nat} [Add S] [Sub S] [Mul S] [Div S] [FOps S]

/-- The node data the kernels compute from that of the children. -/
def gpuNode (ratio2 : S) (l r : NodeData S) : NodeData S :=
  let mass := l.mass + r.mass
  let mc : Vec3 S := ⟨(l.mc.x * l.mass + r.mc.x * r.mass) / mass, (l.mc.y * l.mass + r.mc.y * r.mass) / mass,
    (l.mc.z * l.mass + r.mc.z * r.mass) / mass⟩
  let bmin : Vec3 S := ⟨fmin l.bmin.x r.bmin.x, fmin l.bmin.y r.bmin.y, fmin l.bmin.z r.bmin.z⟩
  let bmax : Vec3 S := ⟨fmax l.bmax.x r.bmax.x, fmax l.bmax.y r.bmax.y, fmax l.bmax.z r.bmax.z⟩
  let r := (bmin - bmax).length / FOps.lit 2 + ((bmin + bmax).sdiv (FOps.lit 2) - mc).length
  { mc := mc, mass := mass, rsq := r * r * ratio2, bmin := bmin, bmax := bmax }

theorem updateNode_run {T : DevTree} (hT : T.Sep) {ls d i : Nat} {ratio2 : S} (hd : d < D)
    {xl xr : NodeData S} {m : Mem S} (h0 : 0 < ls) (hi : i < ls)
    (hl : T.Node D m d (2 * (i + ls)) xl) (hr : T.Node D m d (2 * (i + ls) + 1) xr)
    (hs : ∀ F, (T.cell D m d F (i + ls)).isSome) :
    ∃ m', (updateNode T D ls ratio2 d i).run m = .ok ((), m') ∧ T.Node D m' d (i + ls) (gpuNode ratio2 xl xr) := by
  unfold updateNode
  simp only [C31.left_eq, C31.rght_eq]
  rw [if_neg (by omega)]
  have n1 : ¬ 2 * (i + ls) = i + ls := by omega
  have n2 : ¬ 2 * (i + ls) + 1 = i + ls := by omega
  generalize i + ls = idx at *
  rw [DevTree.get_bind (hl .mass), DevTree.get_bind (hr .mass), DevTree.get_bind (hl .cmx),
    DevTree.get_bind (hr .cmx), DevTree.get_bind (hl .cmy), DevTree.get_bind (hr .cmy), DevTree.get_bind (hl .cmz),
    DevTree.get_bind (hr .cmz)]
  iterate 4 rw [DevTree.put_bind (by simp only [DevTree.isSome_set, hs])]
  generalize hm1 : T.set D _ d .cmz idx _ = m1
  have hl1 : T.Node D m1 d (2 * idx) xl := by
    intro F; rw [← hm1]; simp only [DevTree.cell_set hT hd, n1, and_false, if_false]; exact hl F
  have hr1 : T.Node D m1 d (2 * idx + 1) xr := by
    intro F; rw [← hm1]; simp only [DevTree.cell_set hT hd, n2, and_false, if_false]; exact hr F
  have hs1 : ∀ F, (T.cell D m1 d F idx).isSome := by intro F; rw [← hm1]; simp only [DevTree.isSome_set, hs]
  rw [DevTree.get_bind (hl1 .minx), DevTree.get_bind (hr1 .minx), DevTree.get_bind (hl1 .miny),
    DevTree.get_bind (hr1 .miny), DevTree.get_bind (hl1 .minz), DevTree.get_bind (hr1 .minz),
    DevTree.get_bind (hl1 .maxx), DevTree.get_bind (hr1 .maxx), DevTree.get_bind (hl1 .maxy),
    DevTree.get_bind (hr1 .maxy), DevTree.get_bind (hl1 .maxz), DevTree.get_bind (hr1 .maxz)]
  iterate 6 rw [DevTree.put_bind (by simp only [DevTree.isSome_set, hs1])]
  refine ⟨_, DevTree.put_run _ (by simp only [DevTree.isSome_set, hs1]), fun F => ?_⟩
  cases F <;>
    (simp only [← hm1, DevTree.cell_set hT hd, reduceCtorEq, false_and, true_and, if_true, if_false]
     exact map_const (by simp only [DevTree.isSome_set, hs]) _)

theorem updateNode_within {T : DevTree} {ls d i : Nat} {ratio2 : S} :
    (updateNode T D ls ratio2 d i).Within
      (fun x j => i < ls ∧ ∃ (F : NodeField) (c : Nat), (c = 2 * (i + ls) ∨ c = 2 * (i + ls) + 1) ∧
        x = rep D (T F).h d ∧ j = (T F).stride * c + (T F).off)
      (fun x j => i < ls ∧ ∃ F : NodeField, x = rep D (T F).h d ∧ j = (T F).stride * (i + ls) + (T F).off) := by
  unfold updateNode
  simp only [C31.left_eq, C31.rght_eq]
  by_cases hi : 2 * ls ≤ i + ls
  · rw [if_pos hi]; exact Prog.Within.pure _
  rw [if_neg hi]
  have hi' : i < ls := by omega
  repeat' first
    | exact Prog.Within.put ⟨hi', _, rfl, rfl⟩
    | exact Prog.Within.get ⟨hi', _, _, Or.inl rfl, rfl, rfl⟩
    | exact Prog.Within.get ⟨hi', _, _, Or.inr rfl, rfl, rfl⟩
    | refine Prog.Within.bind ?_ (fun _ => ?_)

/-- The node data after the kernel has run on the level of nodes `ls … 2 * ls - 1`. -/
def levelData (ratio2 : S) (ls : Nat) (X : Nat → NodeData S) (i : Nat) : NodeData S :=
  if ls ≤ i ∧ i < 2 * ls then gpuNode ratio2 (X (2 * i)) (X (2 * i + 1)) else X i

/-- The node kernel on all devices, for one level. -/
theorem level_run {loop : Loop S} (hlp : IsParLoop loop) {T : DevTree} (hT : T.Sep) {ls c : Nat} (h0 : 0 < ls)
    (hc : ls ≤ c) {ratio2 : S} {X : Nat → NodeData S} {N : Nat} (hN : 4 * ls ≤ N) {m : Mem S}
    (hX : ∀ d i, d < D → 2 * ls ≤ i → i < N → T.Node D m d i (X i))
    (hr : ∀ d F i, d < D → ls ≤ i → i < 2 * ls → (T.cell D m d F i).isSome) :
    ∃ m', loop (D * c) (fun p => updateNode T D ls ratio2 (p / c) (p % c)) m = .ok m' ∧ m'.shape = m.shape ∧
      (∀ d i, d < D → ls ≤ i → i < N → T.Node D m' d i (levelData ratio2 ls X i)) ∧
      (∀ d i F, d < D → ¬ (ls ≤ i ∧ i < 2 * ls) → T.cell D m' d F i = T.cell D m d F i) ∧
      (∀ x j, ¬ T.Owns (x / D) → m'.cell x j = m.cell x j) := by
  have hdev : ∀ p, p < D * c → p / c < D := fun p hp => Nat.div_lt_of_lt_mul (by rwa [Nat.mul_comm])
  classical
  have hval : ∃ val : Handle → Nat → S, ∀ p F, p < D * c → p % c < ls →
      val (rep D (T F).h (p / c)) ((T F).stride * (p % c + ls) + (T F).off) =
        F.of (gpuNode ratio2 (X (2 * (p % c + ls))) (X (2 * (p % c + ls) + 1))) := by
    refine ⟨fun x j => if h : ∃ q : Nat × NodeField, q.1 < D * c ∧ x = rep D (T q.2).h (q.1 / c) ∧
        j = (T q.2).stride * (q.1 % c + ls) + (T q.2).off then
          h.choose.2.of (gpuNode ratio2 (X (2 * (h.choose.1 % c + ls))) (X (2 * (h.choose.1 % c + ls) + 1)))
        else FOps.minDist, fun p F hp hF => ?_⟩
    have h : ∃ q : Nat × NodeField, q.1 < D * c ∧ rep D (T F).h (p / c) = rep D (T q.2).h (q.1 / c) ∧
        (T F).stride * (p % c + ls) + (T F).off = (T q.2).stride * (q.1 % c + ls) + (T q.2).off :=
      ⟨(p, F), hp, rfl, rfl⟩
    dsimp only
    rw [dif_pos h]
    obtain ⟨h1, h2, h3⟩ := h.choose_spec
    obtain ⟨e1, e2⟩ := hT _ _ _ _ ((rep_inj (hdev p hp) (hdev _ h1)).1 h2).1 h3
    rw [← e1, ← e2]
  obtain ⟨val, hval⟩ := hval
  obtain ⟨m', a1, a2, a3, a4⟩ := loop_owned hlp (N := D * c) (m := m)
    (body := fun p => updateNode T D ls ratio2 (p / c) (p % c)) _ _ val (fun p _ => updateNode_within)
    (by
      rintro p p' x j hp hp' hne ⟨hi, F, rfl, rfl⟩
      refine ⟨?_, ?_⟩
      · rintro ⟨hi', G, q, hq, e1, e2⟩
        have := (hT _ _ _ _ ((rep_inj (hdev p hp) (hdev p' hp')).1 e1).1 e2).2
        omega
      · rintro ⟨hi', G, e1, e2⟩
        obtain ⟨e3, e4⟩ := (rep_inj (hdev p hp) (hdev p' hp')).1 e1
        have := (hT F G _ _ e3 e2).2
        refine hne ?_
        rw [← Nat.div_add_mod p c, ← Nat.div_add_mod p' c, e4]
        omega)
    (by
      intro p m1 hp hsh hR hW
      by_cases hi : p % c < ls
      · obtain ⟨m2, c1, c2⟩ := updateNode_run hT (ls := ls) (ratio2 := ratio2) (i := p % c) (m := m1) (hdev p hp) h0 hi
          (xl := X (2 * (p % c + ls))) (xr := X (2 * (p % c + ls) + 1))
          (fun F => (hR _ _ ⟨hi, F, _, Or.inl rfl, rfl, rfl⟩).trans
            (hX _ _ (hdev p hp) (by omega) (by omega) F))
          (fun F => (hR _ _ ⟨hi, F, _, Or.inr rfl, rfl, rfl⟩).trans
            (hX _ _ (hdev p hp) (by omega) (by omega) F))
          (fun F => isSome_of_shape hsh (hr _ F _ (hdev p hp) (by omega) (by omega)))
        refine ⟨m2, c1, ?_⟩
        rintro x j ⟨_, F, rfl, rfl⟩
        rw [hval p F hp hi]
        exact c2 F
      · refine ⟨m1, ?_, fun x j h => absurd h.1 hi⟩
        unfold updateNode
        simp only []
        rw [if_pos (by omega)]
        rfl)
  have hsame : ∀ d i F, d < D → ¬ (ls ≤ i ∧ i < 2 * ls) → T.cell D m' d F i = T.cell D m d F i := by
    intro d i F hd hno
    refine a4 _ _ ?_
    rintro p hp ⟨hi, G, e1, e2⟩
    have := (hT _ _ _ _ ((rep_inj hd (hdev p hp)).1 e1).1 e2).2
    omega
  refine ⟨m', a1, a2, ?_, hsame, ?_⟩
  · intro d i hd h1 h2 F
    unfold levelData
    by_cases h3 : i < 2 * ls
    · rw [if_pos ⟨h1, h3⟩]
      have hp : d * c + (i - ls) < D * c := flat_lt hd (by omega)
      have e1 : (d * c + (i - ls)) / c = d := flat_div (by omega)
      have e2 : (d * c + (i - ls)) % c = i - ls := flat_mod (by omega)
      have := a3 (d * c + (i - ls)) (rep D (T F).h d) ((T F).stride * i + (T F).off) hp
        ⟨by omega, F, by rw [e1], by rw [e2, show i - ls + ls = i by omega]⟩
      have hv := hval (d * c + (i - ls)) F hp (by omega)
      rw [e1, e2, show i - ls + ls = i by omega] at hv
      rw [hv] at this
      exact this
    · rw [if_neg (by omega), hsame d i F hd (by omega)]
      exact hX d i hd (by omega) h2 F
  · intro x j hx
    refine a4 _ _ ?_
    rintro p hp ⟨_, G, rfl, _⟩
    exact hx ⟨G, by rw [rep_div (hdev p hp)]⟩

/-- The node data after the kernel has run on the levels below `2^j`, the lowest first. -/
def levelsData (ratio2 : S) : Nat → (Nat → NodeData S) → Nat → NodeData S
  | 0, X => X
  | j + 1, X => levelsData ratio2 j (levelData ratio2 (2 ^ j) X)

theorem levelsData_above {ratio2 : S} {j : Nat} {X : Nat → NodeData S} {i : Nat} (hi : 2 ^ j ≤ i) :
    levelsData ratio2 j X i = X i := by
  induction j generalizing X with
  | zero => rfl
  | succ j ih =>
    have e : 2 ^ (j + 1) = 2 * 2 ^ j := by ring
    rw [levelsData, ih (by omega), levelData, if_neg (by omega)]

theorem levelsData_inner {ratio2 : S} {j : Nat} {X : Nat → NodeData S} {i : Nat} (h0 : 0 < i) (hi : i < 2 ^ j) :
    levelsData ratio2 j X i = gpuNode ratio2 (levelsData ratio2 j X (2 * i)) (levelsData ratio2 j X (2 * i + 1)) := by
  induction j generalizing X with
  | zero => simp only [pow_zero] at hi; omega
  | succ j ih =>
    have e : 2 ^ (j + 1) = 2 * 2 ^ j := by ring
    simp only [levelsData]
    by_cases h : i < 2 ^ j
    · exact ih h
    · rw [levelsData_above (by omega), levelsData_above (by omega), levelsData_above (by omega)]
      simp only [levelData]
      rw [if_pos (by omega), if_neg (by omega), if_neg (by omega)]

theorem level_zero_run {loop : Loop S} (hlp : IsParLoop loop) {T : DevTree} {c : Nat} {ratio2 : S} {m : Mem S} :
    loop (D * c) (fun p => updateNode T D 0 ratio2 (p / c) (p % c)) m = .ok m := by
  have he : (fun p => updateNode T D 0 ratio2 (p / c) (p % c)) = fun _ => (pure () : Prog S Unit) := by
    funext p
    unfold updateNode
    simp only []
    rw [if_pos (by omega)]
  rw [he]
  obtain ⟨m', a1, a2, _, a4⟩ := loop_owned hlp (N := D * c) (m := m) (body := fun _ => (pure () : Prog S Unit))
    (fun _ _ _ => False) (fun _ _ _ => False) (fun _ _ => FOps.minDist) (fun _ _ => Prog.Within.pure _)
    (fun _ _ _ _ _ _ _ h => h.elim) (fun p m1 _ _ _ _ => ⟨m1, rfl, fun _ _ h => h.elim⟩)
  rw [a1, Mem.ext_cells a2 (fun x j => a4 x j fun _ _ h => h)]

open GpuBH in
/-- The loop over the levels. -/
theorem updateLevels_run {loop : Loop S} (hlp : IsParLoop loop) {g : Gpu} {T : DevTree} (hT : T.Sep) {ratio2 : S}
    {k : Nat} (hit : ∀ ls, ls = 0 ∨ (∃ e, e < k ∧ ls = 2 ^ e) → ∃ c, levelItems g ls = .ok c ∧ ls ≤ c) :
    ∀ (j : Nat) (X : Nat → NodeData S) (m : Mem S), j ≤ k →
      (∀ d i, d < g.D → 2 ^ j ≤ i → i < 2 ^ (k + 1) → T.Node g.D m d i (X i)) →
      (∀ d F i, d < g.D → 1 ≤ i → i < 2 ^ (k + 1) → (T.cell g.D m d F i).isSome) →
      ∃ m', updateLevels g T loop ratio2 (2 ^ j) m = .ok m' ∧ m'.shape = m.shape ∧
        (∀ d i, d < g.D → 1 ≤ i → i < 2 ^ (k + 1) → T.Node g.D m' d i (levelsData ratio2 j X i)) ∧
        (∀ x l, ¬ T.Owns (x / g.D) → m'.cell x l = m.cell x l) := by
  intro j
  induction j with
  | zero =>
    intro X m _ hX hr
    obtain ⟨c, hc, _⟩ := hit 0 (Or.inl rfl)
    refine ⟨m, ?_, rfl, fun d i hd h1 h2 => hX d i hd (by simpa using h1) h2, fun _ _ _ => rfl⟩
    rw [updateLevels.eq_def, if_neg (by norm_num), show 2 ^ 0 / 2 = 0 from rfl, hc, res_ok_bind, level_zero_run hlp,
      res_ok_bind, updateLevels.eq_def, if_pos rfl]
  | succ j ih =>
    intro X m hj hX hr
    have e : 2 ^ (j + 1) = 2 * 2 ^ j := by ring
    have hpos : 0 < 2 ^ j := Nat.two_pow_pos j
    have hle : 2 ^ (j + 2) ≤ 2 ^ (k + 1) := Nat.pow_le_pow_right (by norm_num) (by omega)
    have e2 : 2 ^ (j + 2) = 4 * 2 ^ j := by ring
    obtain ⟨c, hc, hcl⟩ := hit (2 ^ j) (Or.inr ⟨j, by omega, rfl⟩)
    obtain ⟨m1, a1, a2, a3, a4, a5⟩ := level_run hlp hT hpos hcl (ratio2 := ratio2) (X := X) (N := 2 ^ (k + 1))
      (by omega) (m := m) (fun d i hd h1 h2 => hX d i hd (by omega) h2)
      (fun d F i hd h1 h2 => hr d F i hd (by omega) (by omega))
    obtain ⟨m', b1, b2, b3, b4⟩ := ih (levelData ratio2 (2 ^ j) X) m1 (by omega) a3
      (fun d F i hd h1 h2 => isSome_of_shape a2 (hr d F i hd h1 h2))
    refine ⟨m', ?_, b2.trans a2, b3, fun x l hx => (b4 x l hx).trans (a5 x l hx)⟩
    rw [updateLevels.eq_def, if_neg (by omega), show 2 ^ (j + 1) / 2 = 2 ^ j by omega, hc, res_ok_bind, a1,
      res_ok_bind, b1]

end

end NB
