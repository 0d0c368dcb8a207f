import Verif.Lemmas.GpuWalk
import Mathlib.Data.Nat.Prime.Basic

/-
The refresh of the tree on the devices agrees with the rebuild on the host, and the upload of a heap.
-/

namespace NB

open NB.Spec

section
variable {S : Type} {D : Nat}

/-- Every index of a perfect tree is a node. -/
theorem nodeAt_all {t : STree S} {k : Nat} (hp : Perfect k t) : ∀ i, 1 ≤ i → i < 2 ^ (k + 1) → ∃ s, NodeAt t i s := by
  intro i
  induction i using Nat.strongRecOn with
  | _ i ih =>
    intro h1 h2
    by_cases hi : i = 1
    · exact ⟨t, hi ▸ .root⟩
    have e1 : 2 ^ (k + 1) = 2 * 2 ^ k := by ring
    obtain ⟨s, hs⟩ := ih (i / 2) (by omega) (by omega) (by omega)
    obtain ⟨d, hd, h3, h4, hps⟩ := nodeAt_perfect hp hs
    cases s with
    | leaf b x =>
      exfalso
      have : k - d = 0 := by
        cases hk : k - d with
        | zero => rfl
        | succ c => rw [hk] at hps; exact absurd hps (by simp [Perfect])
      obtain rfl : d = k := by omega
      omega
    | node l r x =>
      rcases Nat.mod_two_eq_zero_or_one i with h | h
      · exact ⟨l, by have := hs.left; rwa [show 2 * (i / 2) = i by omega] at this⟩
      · exact ⟨r, by have := hs.right; rwa [show 2 * (i / 2) + 1 = i by omega] at this⟩

theorem nodeAt_rebuild [Add S] [Sub S] [Mul S] [Div S] [FOps S] {B : Bodies S} {half ratio2 : S} {t s : STree S} {i : Nat} (h : NodeAt t i s) :
    NodeAt (STree.rebuild B half ratio2 t) i (STree.rebuild B half ratio2 s) := by
  induction h with
  | root => exact .root
  | left _ ih => exact ih.left
  | right _ ih => exact ih.right

theorem perfect_rebuild [Add S] [Sub S] [Mul S] [Div S] [FOps S] {B : Bodies S} {half ratio2 : S} (s : STree S) :
    ∀ j, Perfect j s → Perfect j (STree.rebuild B half ratio2 s) := by
  induction s with
  | leaf b x => intro j hj; cases j <;> exact hj
  | node l r x il ir =>
    intro j hj
    cases j with
    | zero => exact hj
    | succ j => exact ⟨il j hj.1, ir j hj.2⟩

theorem bodies_rebuild [Add S] [Sub S] [Mul S] [Div S] [FOps S] {B : Bodies S} {half ratio2 : S} (s : STree S) :
    (STree.rebuild B half ratio2 s).bodies = s.bodies := by
  induction s with
  | leaf b x => rfl
  | node l r x il ir => simp only [STree.rebuild, STree.bodies, il, ir]

/-- The leaves of a stored perfect tree. -/
theorem leaf_at {H : List (Cell S)} {k : Nat} {t : STree S} (hp : Perfect k t) (hst : Stores H 1 t) {i : Nat}
    (i1 : 2 ^ k ≤ i) (i2 : i < 2 ^ (k + 1)) : ∃ b x, NodeAt t i (.leaf b x) ∧ H[i]? = some ⟨x, b⟩ ∧ b ∈ t.bodies := by
  have hpos : 0 < 2 ^ k := Nat.two_pow_pos k
  obtain ⟨s, hs⟩ := nodeAt_all hp i (by omega) i2
  obtain ⟨d, hd, h3, h4, hps⟩ := nodeAt_perfect hp hs
  obtain rfl : d = k := level_unique h3 h4 i1 i2
  rw [Nat.sub_self] at hps
  cases s with
  | node => exact absurd hps (by simp [Perfect])
  | leaf b x => exact ⟨b, x, hs, nodeAt_stores hst hs, nodeAt_bodies hs b (by simp [STree.bodies])⟩

/-! ### Upload -/

theorem uploadBody_run {h : Handle} {d : Nat} {l : List S} {m : Mem S}
    (hr : ∀ j, j < l.length → (m.cell (rep D h d) j).isSome) :
    ∃ m', (forN l.length () (fun i _ =>
      match l[i]? with
      | some v => Prog.put (rep D h d) i v
      | none => pure ()) : Prog S Unit).run m = .ok ((), m') ∧
      ∀ j v, l[j]? = some v → m'.cell (rep D h d) j = some v := by
  rw [Prog.run_forN]
  obtain ⟨t, h1, h2⟩ := forN_inv (n := l.length) (s := ((), m))
    (f := fun i sm => (match l[i]? with
      | some v => Prog.put (rep D h d) i v
      | none => pure () : Prog S Unit).run sm.2)
    (fun i sm => sm.2.shape = m.shape ∧ ∀ j v, j < i → l[j]? = some v → sm.2.cell (rep D h d) j = some v)
    ⟨rfl, fun j v hj => absurd hj (by omega)⟩ (by
      rintro i ⟨_, m1⟩ hi ⟨hs, hc⟩
      have hl : l[i]? = some l[i] := List.getElem?_eq_getElem hi
      have hroom : (m1.cell (rep D h d) i).isSome := isSome_of_shape hs (hr i hi)
      refine ⟨((), m1.setCell (rep D h d) i l[i]), ?_, ?_, ?_⟩
      · simp only [hl]
        exact Prog.run_put _ hroom
      · simpa using hs
      · intro j v hj hv
        change (m1.setCell (rep D h d) i l[i]).cell (rep D h d) j = some v
        rw [Mem.cell_setCell]
        by_cases hji : j = i
        · subst hji
          rw [hl] at hv
          rw [if_pos ⟨rfl, rfl⟩]
          obtain ⟨a, ha⟩ := Option.isSome_iff_exists.1 hroom
          simp_all
        · rw [if_neg (fun h => hji h.2)]
          exact hc j v (by omega) hv)
  refine ⟨t.2, h1, fun j v hv => h2.2 j v ?_ hv⟩
  exact (List.getElem?_eq_some_iff.1 hv).1

theorem upload_run [Zero S] {loop : Loop S} (hl : IsParLoop loop) {h : Handle} {l : List S} {m : Mem S}
    (hr : ∀ d j, d < D → j < l.length → (m.cell (rep D h d) j).isSome) :
    ∃ m', GpuBH.upload loop D h l m = .ok m' ∧ m'.shape = m.shape ∧
      (∀ d j v, d < D → l[j]? = some v → m'.cell (rep D h d) j = some v) ∧
      ∀ x j, x / D ≠ h → m'.cell x j = m.cell x j := by
  obtain ⟨m', a1, a2, a3, a4⟩ := loop_owned hl (N := D) (m := m)
    (body := fun d => forN l.length () (fun i _ =>
      match l[i]? with
      | some v => Prog.put (rep D h d) i v
      | none => pure ())) (fun _ _ _ => False) (fun d x j => x = rep D h d ∧ j < l.length)
    (fun _ j => l.getD j 0)
    (fun d _ => Prog.Within.forN fun i s hi => by
      rw [List.getElem?_eq_getElem hi]
      exact Prog.Within.put ⟨rfl, hi⟩)
    (fun d d' x j hd hd' hne hW => ⟨id, fun hW' => hne ((rep_inj hd hd').1 (hW.1.symm.trans hW'.1)).2⟩)
    (fun d m1 hd hs _ _ => by
      obtain ⟨m2, b1, b2⟩ := uploadBody_run (D := D) (h := h) (d := d) (l := l) (m := m1)
        (fun j hj => isSome_of_shape hs (hr d j hd hj))
      refine ⟨m2, b1, ?_⟩
      rintro x j ⟨rfl, hj⟩
      rw [b2 j l[j] (List.getElem?_eq_getElem hj), List.getD_eq_getElem?_getD, List.getElem?_eq_getElem hj]
      rfl)
  refine ⟨m', a1, a2, fun d j v hd hv => ?_, fun x j hx => a4 x j fun d hd hW => ?_⟩
  · rw [a3 d _ j hd ⟨rfl, (List.getElem?_eq_some_iff.1 hv).1⟩, List.getD_eq_getElem?_getD, hv]
    rfl
  · rw [hW.1, rep_div hd] at hx
    exact hx rfl

theorem flatMap_four {α : Type} {f : α → List S} (hf : ∀ a, (f a).length = 4) (l : List α) (i o : Nat) (ho : o < 4)
    {a : α} (ha : l[i]? = some a) : (l.flatMap f)[4 * i + o]? = (f a)[o]? := by
  induction l generalizing i with
  | nil => simp at ha
  | cons b l ih =>
    rw [List.flatMap_cons]
    cases i with
    | zero =>
      obtain rfl : b = a := by simpa using ha
      rw [List.getElem?_append_left (by rw [hf]; omega), Nat.mul_zero, Nat.zero_add]
    | succ i =>
      rw [List.getElem?_append_right (by rw [hf]; omega), hf, show 4 * (i + 1) + o - 4 = 4 * i + o by omega]
      exact ih i (by simpa using ha)

theorem flatMap_four_length {α : Type} {f : α → List S} (hf : ∀ a, (f a).length = 4) (l : List α) :
    (l.flatMap f).length = 4 * l.length := by
  induction l with
  | nil => rfl
  | cons b l ih => rw [List.flatMap_cons, List.length_append, hf, ih, List.length_cons]; omega

/-- The two layouts of the columns. -/
def DevTree.Layout (T : DevTree) (tex : Bool) : Prop :=
  ∃ h : NodeField → Handle, (∀ F G, h F = h G → F = G) ∧
    if tex then ∃ xyzr, (∀ F, h F ≠ xyzr) ∧ T = DevTree.tex xyzr h else T = DevTree.plain h

theorem DevTree.Layout.sep {T : DevTree} {tex : Bool} (h : T.Layout tex) : T.Sep := by
  obtain ⟨h, hi, hl⟩ := h
  cases tex with
  | true =>
    obtain ⟨x, hx, rfl⟩ := hl
    exact DevTree.tex_sep hi hx
  | false => obtain rfl := hl; exact DevTree.plain_sep hi

theorem uploadTree_run [Zero S] {loop : Loop S} (hl : IsParLoop loop) {T : DevTree} {tex : Bool} (hT : T.Layout tex)
    {H : List (Cell S)} {m : Mem S} (hr : ∀ d F i, d < D → i < H.length → (T.cell D m d F i).isSome) :
    ∃ m', GpuBH.uploadTree loop D T tex H m = .ok m' ∧ m'.shape = m.shape ∧
      (∀ d i c, d < D → H[i]? = some c → ∀ F : NodeField, F.shared → T.cell D m' d F i = some (F.of c.d)) ∧
      ∀ x j, ¬ T.Owns (x / D) → m'.cell x j = m.cell x j := by
  obtain ⟨h, hi, hlay⟩ := hT
  cases tex with
  | true =>
    obtain ⟨q, hq, rfl⟩ := hlay
    unfold GpuBH.uploadTree
    rw [if_pos rfl]
    have hlen : ∀ c : Cell S, ([c.d.mc.x, c.d.mc.y, c.d.mc.z, c.d.rsq] : List S).length = 4 := fun _ => rfl
    obtain ⟨m1, a1, a2, a3, a4⟩ := upload_run (D := D) hl (h := q) (m := m)
      (l := H.flatMap fun c => [c.d.mc.x, c.d.mc.y, c.d.mc.z, c.d.rsq])
      (fun d j hd hj => by
        rw [flatMap_four_length hlen] at hj
        have hdiv := Nat.div_add_mod j 4
        have hm4 : j % 4 < 4 := Nat.mod_lt _ (by norm_num)
        have hcase : j % 4 = 0 ∨ j % 4 = 1 ∨ j % 4 = 2 ∨ j % 4 = 3 := by omega
        rcases hcase with e | e | e | e
        · have := hr d .cmx (j / 4) hd (by omega)
          simp only [DevTree.cell, DevTree.tex] at this
          rwa [show 4 * (j / 4) + 0 = j by omega] at this
        · have := hr d .cmy (j / 4) hd (by omega)
          simp only [DevTree.cell, DevTree.tex] at this
          rwa [show 4 * (j / 4) + 1 = j by omega] at this
        · have := hr d .cmz (j / 4) hd (by omega)
          simp only [DevTree.cell, DevTree.tex] at this
          rwa [show 4 * (j / 4) + 2 = j by omega] at this
        · have := hr d .crit (j / 4) hd (by omega)
          simp only [DevTree.cell, DevTree.tex] at this
          rwa [show 4 * (j / 4) + 3 = j by omega] at this)
    obtain ⟨m2, b1, b2, b3, b4⟩ := upload_run (D := D) hl (h := h .mass) (m := m1) (l := H.map fun c => c.d.mass)
      (fun d j hd hj => by
        have := hr d .mass j hd (by simpa using hj)
        simp only [DevTree.cell, DevTree.tex, Nat.one_mul, Nat.add_zero] at this
        exact isSome_of_shape a2 this)
    refine ⟨m2, ?_, b2.trans a2, ?_, fun x j hx => ?_⟩
    · change (GpuBH.upload loop D q _ m >>= fun m => GpuBH.upload loop D (h .mass) _ m) = _
      rw [a1, res_ok_bind, b1]
    · intro d i c hd hc F hF
      have hold : ∀ o v, o < 4 → ([c.d.mc.x, c.d.mc.y, c.d.mc.z, c.d.rsq] : List S)[o]? = some v →
          m2.cell (rep D q d) (4 * i + o) = some v := by
        intro o v ho hv
        rw [b4 _ _ (by rw [rep_div hd]; exact fun e => hq _ e.symm)]
        exact a3 d _ v hd (by rw [flatMap_four hlen H i o ho hc, hv])
      cases F with
      | cmx => exact hold 0 _ (by norm_num) rfl
      | cmy => exact hold 1 _ (by norm_num) rfl
      | cmz => exact hold 2 _ (by norm_num) rfl
      | crit => exact hold 3 _ (by norm_num) rfl
      | mass =>
        simp only [DevTree.cell, DevTree.tex, Nat.one_mul, Nat.add_zero]
        exact b3 d i _ hd (by simp [hc, NodeField.of])
      | _ => exact hF.elim
    · rw [b4 x j fun e => hx ⟨.mass, e.symm⟩, a4 x j fun e => hx ⟨.cmx, e.symm⟩]
  | false =>
    obtain rfl := hlay
    unfold GpuBH.uploadTree
    rw [if_neg (by simp)]
    have hroom : ∀ (F : NodeField) (v : Cell S → S) (m1 : Mem S), m1.shape = m.shape → ∀ d j, d < D →
        j < (H.map v).length → (m1.cell (rep D (h F) d) j).isSome := by
      intro F v m1 hs d j hd hj
      have := hr d F j hd (by simpa using hj)
      simp only [DevTree.cell, DevTree.plain, Nat.one_mul, Nat.add_zero] at this
      exact isSome_of_shape hs this
    obtain ⟨m1, a1, a2, a3, a4⟩ := upload_run (D := D) hl (l := H.map fun c => c.d.mc.x) (hroom .cmx _ m rfl)
    obtain ⟨m2, b1, b2, b3, b4⟩ := upload_run (D := D) hl (l := H.map fun c => c.d.mc.y) (hroom .cmy _ m1 a2)
    have b2' := b2.trans a2
    obtain ⟨m3, c1, c2, c3, c4⟩ := upload_run (D := D) hl (l := H.map fun c => c.d.mc.z) (hroom .cmz _ m2 b2')
    have c2' := c2.trans b2'
    obtain ⟨m4, d1, d2, d3, d4⟩ := upload_run (D := D) hl (l := H.map fun c => c.d.mass) (hroom .mass _ m3 c2')
    have d2' := d2.trans c2'
    obtain ⟨m5, e1, e2, e3, e4⟩ := upload_run (D := D) hl (l := H.map fun c => c.d.rsq) (hroom .crit _ m4 d2')
    have hne : ∀ {F G : NodeField} {d : Nat}, d < D → F ≠ G → rep D (h F) d / D ≠ h G := by
      intro F G d hd hFG e
      rw [rep_div hd] at e
      exact hFG (hi _ _ e)
    refine ⟨m5, ?_, e2.trans d2', ?_, fun x j hx => ?_⟩
    · simp only [DevTree.plain]
      rw [a1, res_ok_bind, b1, res_ok_bind, c1, res_ok_bind, d1, res_ok_bind, e1]
    · intro d i c hd hc F hF
      simp only [DevTree.cell, DevTree.plain, Nat.one_mul, Nat.add_zero]
      cases F with
      | cmx =>
        rw [e4 _ _ (hne hd (by simp)), d4 _ _ (hne hd (by simp)), c4 _ _ (hne hd (by simp)), b4 _ _ (hne hd (by simp))]
        exact a3 d i _ hd (by simp [hc, NodeField.of])
      | cmy =>
        rw [e4 _ _ (hne hd (by simp)), d4 _ _ (hne hd (by simp)), c4 _ _ (hne hd (by simp))]
        exact b3 d i _ hd (by simp [hc, NodeField.of])
      | cmz =>
        rw [e4 _ _ (hne hd (by simp)), d4 _ _ (hne hd (by simp))]
        exact c3 d i _ hd (by simp [hc, NodeField.of])
      | mass =>
        rw [e4 _ _ (hne hd (by simp))]
        exact d3 d i _ hd (by simp [hc, NodeField.of])
      | crit => exact e3 d i _ hd (by simp [hc, NodeField.of])
      | _ => exact hF.elim
    · rw [e4 x j fun e => hx ⟨.crit, e.symm⟩, d4 x j fun e => hx ⟨.mass, e.symm⟩, c4 x j fun e => hx ⟨.cmz, e.symm⟩,
        b4 x j fun e => hx ⟨.cmy, e.symm⟩, a4 x j fun e => hx ⟨.cmx, e.symm⟩]

/-! ### Refresh -/

/-- Every level is covered by the work items of its kernel. -/
theorem levelItems_ok {g : Gpu} {w k : Nat} (hf : g.Fits w) (hn : g.n = 2 ^ k) :
    ∀ ls, ls = 0 ∨ (∃ e, e < k ∧ ls = 2 ^ e) → ∃ c, GpuBH.levelItems g ls = .ok c ∧ ls ≤ c := by
  intro ls hls
  unfold GpuBH.levelItems
  cases hc : g.cuda with
  | true =>
    rw [if_pos rfl]
    refine ⟨_, rfl, ?_⟩
    rcases hls with rfl | ⟨e, _, rfl⟩
    · omega
    · by_cases he : e < 6
      · have : 2 ^ e ≤ 2 ^ 6 := Nat.pow_le_pow_right (by norm_num) (by omega)
        omega
      · obtain ⟨q, hq⟩ : 64 ∣ 2 ^ e := by
          rw [show 64 = 2 ^ 6 by norm_num]
          exact Nat.pow_dvd_pow 2 (by omega)
        omega
  | false =>
    rw [if_neg (by simp)]
    obtain ⟨b, _, hb⟩ : ∃ b, b ≤ k ∧ g.B = 2 ^ b := by
      refine (Nat.dvd_prime_pow Nat.prime_two).1 ?_
      rw [← hn, hf.count]
      exact Dvd.dvd.mul_left hf.groups _
    have hB := hf.block
    have hd : g.B ∣ max ls g.B := by
      rcases hls with rfl | ⟨e, _, rfl⟩
      · simp
      · rw [hb]
        by_cases he : e < b
        · rw [max_eq_right (Nat.pow_le_pow_right (by norm_num) (by omega))]
        · rw [max_eq_left (Nat.pow_le_pow_right (by norm_num) (by omega))]
          exact Nat.pow_dvd_pow 2 (by omega)
    refine ⟨max ls g.B / g.B * g.B, ?_, ?_⟩
    · unfold openclGroups
      rw [if_neg]
      · rfl
      · rintro (e | e)
        · omega
        · exact e (Nat.mod_eq_zero_of_dvd hd)
    · rw [Nat.div_mul_cancel hd]
      exact Nat.le_max_left _ _

end

section
variable {S : Type} [Add S] [Sub S] [Mul S] [Neg S] [Div S] [Zero S] [One S] [FOps S]

/-- Leaf of body `b` for state `Y` of `n` bodies. -/
def leafFor (n : Nat) (Y : Nat → S) (b : Nat) (mass rsq : S) : NodeData S :=
  leafData ⟨Y (0 * n + b), Y (1 * n + b), Y (2 * n + b)⟩ mass rsq

omit [Neg S] [Zero S] [One S] in
theorem updateTree_run {g : Gpu} {w k : Nat} (hf : g.Fits w) (hn : g.n = 2 ^ k) {loop : Loop S} (hl : IsParLoop loop)
    {T : DevTree} (hT : T.Sep) {ratio : S} {bodyN : List Nat} {body : Nat → Nat} {y : Handle} (hy : ¬ T.Owns y)
    {Y : Nat → S} {Ms Rs : Nat → S} {m : Mem S}
    (hb : ∀ i, 2 ^ k ≤ i → i < 2 ^ (k + 1) → bodyN[i]? = some (body i) ∧ body i < 2 ^ k)
    (hY : ∀ d j, d < g.D → j < 3 * 2 ^ k → m.cell (rep g.D y d) j = some (Y j))
    (hr : ∀ d F i, d < g.D → 1 ≤ i → i < 2 ^ (k + 1) → (T.cell g.D m d F i).isSome)
    (hM : ∀ d i, d < g.D → 2 ^ k ≤ i → i < 2 ^ (k + 1) → T.cell g.D m d .mass i = some (Ms i))
    (hR : ∀ d i, d < g.D → 2 ^ k ≤ i → i < 2 ^ (k + 1) → T.cell g.D m d .crit i = some (Rs i)) :
    ∃ m', GpuBH.updateTree g T loop ratio bodyN y m = .ok m' ∧ m'.shape = m.shape ∧
      (∀ d i, d < g.D → 1 ≤ i → i < 2 ^ (k + 1) →
        T.Node g.D m' d i (levelsData (ratio * ratio) k (fun i => leafFor (2 ^ k) Y (body i) (Ms i) (Rs i)) i)) ∧
      ∀ x j, ¬ T.Owns (x / g.D) → m'.cell x j = m.cell x j := by
  have e1 : 2 ^ (k + 1) = 2 * 2 ^ k := by ring
  have hpos : 0 < 2 ^ k := Nat.two_pow_pos k
  obtain ⟨gd, h1, h2⟩ := Gpu.groups_ok hf (size := g.n) (by omega)
    (fun _ => by rw [hf.count]; exact Dvd.dvd.mul_left hf.groups _) (fun h => (hf.elements h).2.1)
  obtain ⟨m1, a1, a2, a3, a4, a5⟩ := leaves_run (D := g.D) hl hT hpos (body := body) (bodyN := bodyN) hy (Y := Y) (m := m)
    (fun i i1 i2 => hb i i1 (by omega)) hY (fun d F i hd i1 i2 => hr d F i hd (by omega) (by omega))
  obtain ⟨m2, b1, b2, b3, b4⟩ := updateLevels_run hl (g := g) hT (ratio2 := ratio * ratio) (levelItems_ok hf hn) k
    (fun i => leafFor (2 ^ k) Y (body i) (Ms i) (Rs i)) m1 le_rfl
    (fun d i hd i1 i2 F => by
      by_cases hF : F.moves
      · rw [a3 d i hd i1 (by omega) F hF]
        cases F <;> first | rfl | exact hF.elim
      · rw [a4 d i F hd (fun h => hF h.2.2)]
        cases F with
        | mass => exact hM d i hd i1 i2
        | crit => exact hR d i hd i1 i2
        | _ => exact absurd trivial hF)
    (fun d F i hd i1 i2 => isSome_of_shape a2 (hr d F i hd i1 i2))
  refine ⟨m2, ?_, b2.trans a2, b3, fun x j hx => (b4 x j hx).trans (a5 x j hx)⟩
  unfold GpuBH.updateTree
  rw [h1, res_ok_bind, h2]
  simp only [hn]
  rw [a1, res_ok_bind, b1]

/-- Identities the two formulas for the critical radius differ by; floating point arithmetic has them. -/
structure RadiusLaws (S : Type) [Add S] [Sub S] [Mul S] [Div S] [FOps S] (half : S) : Prop where
  add_comm : ∀ a b : S, a + b = b + a
  sq_sub : ∀ a b : S, (a - b) * (a - b) = (b - a) * (b - a)
  half_eq : ∀ a : S, a / FOps.lit 2 = a * half

omit [Neg S] [Zero S] [One S] in
theorem gpuNode_eq {half : S} (h : RadiusLaws S half) (ratio2 : S) (l r : NodeData S) :
    gpuNode ratio2 l r = updateData half ratio2 l r := by
  have e1 : ∀ a b : Vec3 S, (a - b).length = (b - a).length := by
    intro a b
    change FOps.sqrt (_ + _ + _) = FOps.sqrt (_ + _ + _)
    change FOps.sqrt ((a.x - b.x) * (a.x - b.x) + (a.y - b.y) * (a.y - b.y) + (a.z - b.z) * (a.z - b.z)) =
      FOps.sqrt ((b.x - a.x) * (b.x - a.x) + (b.y - a.y) * (b.y - a.y) + (b.z - a.z) * (b.z - a.z))
    rw [h.sq_sub a.x, h.sq_sub a.y, h.sq_sub a.z]
  have e2 : ∀ a b : Vec3 S, a + b = b + a := by
    intro a b
    change (⟨a.x + b.x, a.y + b.y, a.z + b.z⟩ : Vec3 S) = ⟨b.x + a.x, b.y + a.y, b.z + a.z⟩
    rw [h.add_comm a.x, h.add_comm a.y, h.add_comm a.z]
  unfold gpuNode updateData
  simp only [h.half_eq]
  rw [e1, e2]
  rfl

omit [Neg S] [One S] in
/-- The devices refresh their copies of a tree as the host does. -/
theorem refresh_shows {g : Gpu} {w k : Nat} (hf : g.Fits w) (hn : g.n = 2 ^ k) {loop : Loop S} (hl : IsParLoop loop)
    {T : DevTree} (hT : T.Sep) {ratio half : S} (hlaws : RadiusLaws S half) {y : Handle} (hy : ¬ T.Owns y)
    {Y : Nat → S} {m : Mem S} {H : List (Cell S)} (hlen : H.length = 2 ^ (k + 1)) {t : STree S} (hp : Perfect k t)
    (hst : Stores H 1 t) (hbod : ∀ b ∈ t.bodies, b < 2 ^ k) {B : Bodies S}
    (hB : ∀ b, b < 2 ^ k → B.pos b = ⟨Y (0 * 2 ^ k + b), Y (1 * 2 ^ k + b), Y (2 * 2 ^ k + b)⟩)
    (hY : ∀ d j, d < g.D → j < 3 * 2 ^ k → m.cell (rep g.D y d) j = some (Y j))
    (hr : ∀ d F i, d < g.D → 1 ≤ i → i < 2 ^ (k + 1) → (T.cell g.D m d F i).isSome)
    (hM : ∀ d i c, d < g.D → 2 ^ k ≤ i → H[i]? = some c →
      T.cell g.D m d .mass i = some c.d.mass ∧ T.cell g.D m d .crit i = some c.d.rsq)
    {bodyN : List Nat} (hbn : ∀ i, 2 ^ k ≤ i → bodyN[i]? = (H[i]?).map Cell.body) :
    ∃ m', GpuBH.updateTree g T loop ratio bodyN y m = .ok m' ∧ m'.shape = m.shape ∧
      (∀ d, d < g.D → T.Shows g.D (fun _ => True) m' d 1 (spaceTreeRebuild B half ratio t)) ∧
      ∀ x j, ¬ T.Owns (x / g.D) → m'.cell x j = m.cell x j := by
  have e1 : 2 ^ (k + 1) = 2 * 2 ^ k := by ring
  have hpos : 0 < 2 ^ k := Nat.two_pow_pos k
  have hleaf : ∀ i, 2 ^ k ≤ i → i < 2 ^ (k + 1) → ∃ b x, NodeAt t i (.leaf b x) ∧ H[i]? = some ⟨x, b⟩ ∧ b < 2 ^ k := by
    intro i i1 i2
    obtain ⟨b, x, h1, h2, h3⟩ := leaf_at hp hst i1 i2
    exact ⟨b, x, h1, h2, hbod b h3⟩
  obtain ⟨m', a1, a2, a3, a4⟩ := updateTree_run hf hn hl hT (ratio := ratio) (bodyN := bodyN)
    (body := fun i => ((H[i]?).map Cell.body).getD 0) hy (Y := Y)
    (Ms := fun i => ((H[i]?).map fun c => c.d.mass).getD 0) (Rs := fun i => ((H[i]?).map fun c => c.d.rsq).getD 0) (m := m)
    (fun i i1 i2 => by
      obtain ⟨b, x, _, h2, h3⟩ := hleaf i i1 i2
      rw [hbn i i1]
      simp [h2, h3]) hY hr
    (fun d i hd i1 i2 => by
      obtain ⟨b, x, _, h2, h3⟩ := hleaf i i1 i2
      rw [(hM d i _ hd i1 h2).1, h2]; rfl)
    (fun d i hd i1 i2 => by
      obtain ⟨b, x, _, h2, h3⟩ := hleaf i i1 i2
      rw [(hM d i _ hd i1 h2).2, h2]; rfl)
  refine ⟨m', a1, a2, fun d hd => ?_, a4⟩
  have key : ∀ i s, NodeAt t i s →
      levelsData (ratio * ratio) k (fun i => leafFor (2 ^ k) Y (((H[i]?).map Cell.body).getD 0)
        (((H[i]?).map fun c => c.d.mass).getD 0) (((H[i]?).map fun c => c.d.rsq).getD 0)) i =
          (STree.rebuild B half (ratio * ratio) s).data ∧
      T.Shows g.D (fun _ => True) m' d i (STree.rebuild B half (ratio * ratio) s) := by
    intro i s
    induction s generalizing i with
    | leaf b x =>
      intro hs
      obtain ⟨e, he, h3, h4, hps⟩ := nodeAt_perfect hp hs
      obtain rfl : e = k := by
        cases hk : k - e with
        | zero => omega
        | succ c => rw [hk] at hps; exact absurd hps (by simp [Perfect])
      have hc : H[i]? = some ⟨x, b⟩ := nodeAt_stores hst hs
      have hb : b < 2 ^ e := hbod b (nodeAt_bodies hs b (by simp [STree.bodies]))
      have hdata : levelsData (ratio * ratio) e (fun i => leafFor (2 ^ e) Y (((H[i]?).map Cell.body).getD 0)
          (((H[i]?).map fun c => c.d.mass).getD 0) (((H[i]?).map fun c => c.d.rsq).getD 0)) i =
          (STree.rebuild B half (ratio * ratio) (.leaf b x)).data := by
        rw [levelsData_above h3]
        simp only [hc, Option.map_some, Option.getD_some, STree.rebuild, STree.data, hB b hb]
        rfl
      refine ⟨hdata, fun F _ => ?_⟩
      have := a3 d i hd (by omega) h4 F
      rw [hdata] at this
      exact this
    | node l r x ihl ihr =>
      intro hs
      obtain ⟨e, he, h3, h4, hps⟩ := nodeAt_perfect hp hs
      have hek : e < k := by
        cases hk : k - e with
        | zero => rw [hk] at hps; exact absurd hps (by simp [Perfect])
        | succ c => omega
      have hle : 2 ^ (e + 1) ≤ 2 ^ k := Nat.pow_le_pow_right (by norm_num) (by omega)
      have h0 : 0 < i := by have := Nat.two_pow_pos e; omega
      obtain ⟨l1, l2⟩ := ihl _ hs.left
      obtain ⟨r1, r2⟩ := ihr _ hs.right
      have hdata : levelsData (ratio * ratio) k (fun i => leafFor (2 ^ k) Y (((H[i]?).map Cell.body).getD 0)
          (((H[i]?).map fun c => c.d.mass).getD 0) (((H[i]?).map fun c => c.d.rsq).getD 0)) i =
          (STree.rebuild B half (ratio * ratio) (.node l r x)).data := by
        rw [levelsData_inner h0 (by omega), l1, r1, gpuNode_eq hlaws]
        rfl
      refine ⟨hdata, fun F _ => ?_, l2, r2⟩
      have := a3 d i hd (by omega) (by omega) F
      rw [hdata] at this
      exact this
  exact (key 1 t .root).2

end

end NB
