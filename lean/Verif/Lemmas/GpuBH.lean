import Verif.Lemmas.GpuRefresh
import Verif.Lemmas.EngineBH
import Verif.Props.C27_HeapBounds
import Verif.Props.C52_AllReduce

/-
One evaluation of the Barnes–Hut engines on GPUs.
-/

namespace NB

open NB.Spec

section
variable {S : Type} [Zero S]

omit [Zero S] in
/-- Element `j` of the derivative buffer when `A b` is the acceleration of body `b`. -/
def gpuDeriv (n : Nat) (Y : Nat → S) (A : Nat → Vec3 S) (j : Nat) : S :=
  if j < 3 * n then Y (3 * n + j)
  else if j < 4 * n then (A (j - 3 * n)).x
  else if j < 5 * n then (A (j - 4 * n)).y
  else (A (j - 5 * n)).z

theorem store_run {n : Nat} {y f : Handle} (hyf : y ≠ f) {Y : Nat → S} {A : Nat → Vec3 S} {m : Mem S} {lenF : Nat}
    (hy : ∀ j, j < 6 * n → m.cell y j = some (Y j)) (hf : ∀ j, j < 6 * n → (m.cell f j).isSome)
    {i : Nat} (hi : i < n) :
    ∃ m', (GpuBH.store n y f lenF i (.ok (A i))).run m = .ok ((), m') ∧
      ∀ j, j < 6 * n → bodyOf n j = i → m'.cell f j = some (gpuDeriv n Y A j) := by
  have hrun : (GpuBH.store n y f lenF i (.ok (A i))).run m = .ok ((),
      ((((((m.setCell f i (Y (3 * n + i))).setCell f (n + i) (Y (4 * n + i))).setCell f (2 * n + i)
        (Y (5 * n + i))).setCell f (3 * n + i) (A i).x).setCell f (4 * n + i)
        (A i).y).setCell f (5 * n + i) (A i).z)) := by
    unfold GpuBH.store denseVel denseStore
    simp only [Prog.run_bind]
    rw [Prog.run_get (hy (3 * n + i) (by omega))]
    simp only [res_ok_bind]
    rw [Prog.run_put _ (hf i (by omega))]
    simp only [res_ok_bind]
    rw [Prog.run_get (v := Y (4 * n + i)) (by simp [Mem.cell_setCell, hyf, hy (4 * n + i) (by omega)])]
    simp only [res_ok_bind]
    rw [Prog.run_put _ (by simpa using hf (n + i) (by omega))]
    simp only [res_ok_bind]
    rw [Prog.run_get (v := Y (5 * n + i)) (by simp [Mem.cell_setCell, hyf, hy (5 * n + i) (by omega)])]
    simp only [res_ok_bind]
    rw [Prog.run_put _ (by simpa using hf (2 * n + i) (by omega))]
    simp only [res_ok_bind]
    rw [Prog.run_put _ (by simpa using hf (3 * n + i) (by omega))]
    simp only [res_ok_bind]
    rw [Prog.run_put _ (by simpa using hf (4 * n + i) (by omega))]
    simp only [res_ok_bind]
    rw [Prog.run_put _ (by simpa using hf (5 * n + i) (by omega))]
  refine ⟨_, hrun, ?_⟩
  intro j hj hb
  simp only [Mem.cell_setCell', Option.map_map, Function.comp_def]
  obtain ⟨v, hv⟩ := Option.isSome_iff_exists.1 (hf j hj)
  rw [hv]
  simp only [Option.map_some, true_and]
  congr 1
  have hcs := (bodyOf_eq hi hj).1 hb
  unfold gpuDeriv
  split_ifs <;> first
    | omega
    | (subst j; simp only [Nat.add_sub_cancel_left])
    | (congr 1; omega)

theorem store_within {n : Nat} {y f : Handle} {lenF i : Nat} (hi : i < n) {r : Res (Vec3 S)}
    {R W : Handle → Nat → Prop} (hR : ∀ j, R y j) (hL : R f lenF) (hW : ∀ j, j < 6 * n → bodyOf n j = i → W f j) :
    (GpuBH.store n y f lenF i r).Within R W := by
  unfold GpuBH.store
  cases r with
  | error e => exact (Prog.Within.get hL).bind fun _ => Prog.Within.pure _
  | ok r =>
    have b0 : bodyOf n i = i := by simpa using bodyOf_add (n := n) 0 hi
    have b1 : bodyOf n (n + i) = i := by simpa using bodyOf_add (n := n) 1 hi
    have b2 : bodyOf n (2 * n + i) = i := bodyOf_add 2 hi
    have b3 : bodyOf n (3 * n + i) = i := bodyOf_add 3 hi
    have b4 : bodyOf n (4 * n + i) = i := bodyOf_add 4 hi
    have b5 : bodyOf n (5 * n + i) = i := bodyOf_add 5 hi
    unfold denseVel denseStore
    within
    all_goals first
      | exact hR _
      | exact hW _ (by omega) (by assumption)

end

section
variable {S : Type} [Add S] [Sub S] [Mul S] [Neg S] [Div S] [Zero S] [One S] [FOps S]

/-- What a traversal kernel finds on device `d`: the whole state, the tree, room for the result. -/
structure TraverseMem (e : GpuBH S) (k : Nat) (y f : Handle) (Y : Nat → S) (t : STree S) (m : Mem S) (d : Nat) :
    Prop where
  state : ∀ j, j < 6 * 2 ^ k → m.cell (rep e.g.D y d) j = some (Y j)
  shows : e.tree.Shows e.g.D NodeField.shared m d 1 t
  room : ∀ j, j < 6 * 2 ^ k → (m.cell (rep e.g.D f d) j).isSome

/-- The walks of an engine end. -/
structure WalkOk (e : GpuBH S) (k : Nat) : Prop where
  depth : k ≤ 63
  nd : ∀ i, i < 2 ^ (k + 1) → e.nd i = .ok (nextDownLoop i)
  fuel : 2 ^ (k + 1) - 1 ≤ e.fuel

omit [Neg S] [One S] in
/-- The loop over the work items of a traversal kernel: `body p` is the body item `p` computes. -/
theorem items_walk {e : GpuBH S} {k w : Nat} {y f : Handle} (hyf : y ≠ f) (hfT : ¬ e.tree.Owns f)
    {Y : Nat → S} {t : STree S} {m : Mem S} (hm : ∀ d, d < e.g.D → TraverseMem e k y f Y t m d)
    {loop : Loop S} (hl : IsParLoop loop) {item : Nat → Nat → Prog S Unit} {body : Nat → Nat}
    (hb : ∀ p, p < e.g.D * w → body p < 2 ^ k)
    (hinj : ∀ p p', p < e.g.D * w → p' < e.g.D * w → p / w = p' / w → body p = body p' → p = p')
    {lenF : Nat → Nat} (hlen : ∀ d, d < e.g.D → 6 * 2 ^ k ≤ lenF d)
    (hin : ∀ (p : Nat) (W : Handle → Nat → Prop), p < e.g.D * w →
      (∀ j, j < 6 * 2 ^ k → bodyOf (2 ^ k) j = body p → W (rep e.g.D f (p / w)) j) →
      (item (p / w) (p % w)).Within (fun x j => x = rep e.g.D y (p / w) ∨
        (∃ F, x = rep e.g.D (e.tree F).h (p / w)) ∨ (x = rep e.g.D f (p / w) ∧ j = lenF (p / w))) W)
    (hrun : ∀ p (m1 : Mem S), p < e.g.D * w → TraverseMem e k y f Y t m1 (p / w) →
      (item (p / w) (p % w)).run m1 = (GpuBH.store (2 ^ k) (rep e.g.D y (p / w)) (rep e.g.D f (p / w))
        (lenF (p / w)) (body p) (.ok (gpuAccel e.stackless t (posOf (2 ^ k) Y (body p))))).run m1) :
    ∃ m', loop (e.g.D * w) (fun p => item (p / w) (p % w)) m = .ok m' ∧ m'.shape = m.shape ∧
      (∀ p j, p < e.g.D * w → j < 6 * 2 ^ k → bodyOf (2 ^ k) j = body p → m'.cell (rep e.g.D f (p / w)) j =
        some (gpuDeriv (2 ^ k) Y (fun b => gpuAccel e.stackless t (posOf (2 ^ k) Y b)) j)) ∧
      (∀ d j, d < e.g.D → j < 6 * 2 ^ k → (∀ p, p < e.g.D * w → p / w = d → bodyOf (2 ^ k) j ≠ body p) →
        m'.cell (rep e.g.D f d) j = m.cell (rep e.g.D f d) j) ∧
      ∀ x j, x / e.g.D ≠ f → m'.cell x j = m.cell x j := by
  have hdev : ∀ p, p < e.g.D * w → p / w < e.g.D := fun p hp => Nat.div_lt_of_lt_mul (by rwa [Nat.mul_comm])
  have hny : ∀ p p', p < e.g.D * w → p' < e.g.D * w → rep e.g.D f (p / w) ≠ rep e.g.D y (p' / w) :=
    fun p p' h h' e => hyf ((rep_inj (hdev p h) (hdev p' h')).1 e).1.symm
  have hnT : ∀ p p' F, p < e.g.D * w → p' < e.g.D * w → rep e.g.D f (p / w) ≠ rep e.g.D (e.tree F).h (p' / w) :=
    fun p p' F h h' e => hfT ⟨F, ((rep_inj (hdev p h) (hdev p' h')).1 e).1.symm⟩
  obtain ⟨m', a1, a2, a3, a4⟩ := loop_owned hl (N := e.g.D * w) (m := m) (body := fun p => item (p / w) (p % w))
    (fun p x j => x = rep e.g.D y (p / w) ∨
        (∃ F, x = rep e.g.D (e.tree F).h (p / w)) ∨ (x = rep e.g.D f (p / w) ∧ j = lenF (p / w)))
    (fun p x j => x = rep e.g.D f (p / w) ∧ j < 6 * 2 ^ k ∧ bodyOf (2 ^ k) j = body p)
    (fun _ j => gpuDeriv (2 ^ k) Y (fun b => gpuAccel e.stackless t (posOf (2 ^ k) Y b)) j)
    (fun p hp => hin p _ hp fun j h1 h2 => ⟨rfl, h1, h2⟩)
    (by
      rintro p p' x j hp hp' hne ⟨rfl, hj, hbj⟩
      refine ⟨?_, ?_⟩
      · rintro (h | ⟨F, h⟩ | ⟨h, h2⟩)
        · exact hny p p' hp hp' h
        · exact hnT p p' F hp hp' h
        · have := hlen (p' / w) (hdev p' hp')
          omega
      · rintro ⟨h, _, hbj'⟩
        exact hne (hinj p p' hp hp' ((rep_inj (hdev p hp) (hdev p' hp')).1 h).2 (hbj.symm.trans hbj')))
    (by
      intro p m1 hpN hsh hR _
      have hd := hdev p hpN
      have hm1 : TraverseMem e k y f Y t m1 (p / w) :=
        { state := fun j hj => by rw [hR _ _ (Or.inl rfl)]; exact (hm _ hd).state j hj
          shows := (hm _ hd).shows.mono fun j F hF => ⟨hF, hR _ _ (Or.inr (Or.inl ⟨F, rfl⟩))⟩
          room := fun j hj => isSome_of_shape hsh ((hm _ hd).room j hj) }
      obtain ⟨m2, b1, b2⟩ := store_run (n := 2 ^ k) (y := rep e.g.D y (p / w)) (f := rep e.g.D f (p / w))
        (fun h => hyf ((rep_inj hd hd).1 h).1) (Y := Y)
        (A := fun b => gpuAccel e.stackless t (posOf (2 ^ k) Y b)) (m := m1) (lenF := lenF (p / w))
        hm1.state hm1.room (hb p hpN)
      refine ⟨m2, (hrun p m1 hpN hm1).trans b1, ?_⟩
      rintro x j ⟨rfl, hj, hbj⟩
      exact b2 j hj hbj)
  refine ⟨m', a1, a2, fun p j hp hj hbj => a3 p _ j hp ⟨rfl, hj, hbj⟩, fun d j hd hj hno => ?_, fun x j hx => ?_⟩
  · refine a4 _ j fun p hp hW => ?_
    exact hno p hp ((rep_inj hd (hdev p hp)).1 hW.1).2.symm hW.2.2
  · refine a4 _ j fun p hp hW => hx ?_
    rw [hW.1, rep_div (hdev p hp)]

omit [Neg S] [One S] in
/-- The kernel with one work item per body. -/
theorem cycleItems_run {e : GpuBH S} {k w : Nat} (hw : WalkOk e k) {y f : Handle} (hyf : y ≠ f)
    (hfT : ¬ e.tree.Owns f) {Y : Nat → S} {t : STree S} (hp : Perfect k t) {m : Mem S}
    (hm : ∀ d, d < e.g.D → TraverseMem e k y f Y t m d) {loop : Loop S} (hl : IsParLoop loop)
    (hD : 0 < e.g.D) (hn : e.g.n = 2 ^ k) (hc : e.g.n = e.g.D * w) {lenF : Nat → Nat}
    (hlen : ∀ d, d < e.g.D → 6 * 2 ^ k ≤ lenF d) :
    ∃ m', loop (e.g.D * w) (fun p => e.cycleItem (2 ^ (k + 1)) y f lenF (p / w) (p % w)) m = .ok m' ∧
      m'.shape = m.shape ∧
      (∀ j, j < 6 * 2 ^ k → m'.cell (rep e.g.D f (bodyOf (2 ^ k) j / w)) j =
        some (gpuDeriv (2 ^ k) Y (fun b => gpuAccel e.stackless t (posOf (2 ^ k) Y b)) j)) ∧
      ∀ x j, x / e.g.D ≠ f → m'.cell x j = m.cell x j := by
  have hbody : ∀ p, p % w + p / w * (2 ^ k / e.g.D) = p := by
    intro p
    rw [← hn, hc, Nat.mul_div_cancel_left _ hD, Nat.mul_comm, Nat.add_comm]
    exact Nat.div_add_mod p w
  obtain ⟨m', a1, a2, a3, _, a5⟩ := items_walk hyf hfT hm hl
    (item := fun d i => e.cycleItem (2 ^ (k + 1)) y f lenF d i) (body := fun p => p)
    (fun p hp => by rw [← hn, hc]; exact hp) (fun p p' _ _ _ h => h) hlen
    (fun p W hpN hW => by
      have hb : p < 2 ^ k := by rw [← hn, hc]; exact hpN
      unfold GpuBH.cycleItem
      simp only [hn, hbody]
      refine (Prog.Within.get (Or.inl rfl)).bind fun _ => (Prog.Within.get (Or.inl rfl)).bind fun _ =>
        (Prog.Within.get (Or.inl rfl)).bind fun _ => ?_
      refine (walk_within.mono (fun x j h => Or.inr (Or.inl h)) (fun x j h => h)).bind fun _ => ?_
      exact store_within hb (fun _ => Or.inl rfl) (Or.inr (Or.inr ⟨rfl, rfl⟩)) hW)
    (fun p m1 hpN hm1 => by
      have hb : p < 2 ^ k := by rw [← hn, hc]; exact hpN
      unfold GpuBH.cycleItem
      simp only [hn, hbody]
      rw [run_get_bind (hm1.state p (by omega)), run_get_bind (hm1.state _ (by omega)),
        run_get_bind (hm1.state _ (by omega)), Prog.run_bind, walk_run hw.depth hw.nd hw.fuel hp hm1.shows]
      rfl)
  refine ⟨m', a1, a2, fun j hj => ?_, a5⟩
  have : bodyOf (2 ^ k) j < e.g.D * w := by
    rw [← hc, hn]
    exact Nat.mod_lt _ (Nat.two_pow_pos k)
  exact a3 (bodyOf (2 ^ k) j) j this hj rfl

omit [Neg S] [One S] in
/-- The kernel with one work item per leaf. -/
theorem heapItems_run {e : GpuBH S} {k w : Nat} (hw : WalkOk e k) {y f : Handle} (hyf : y ≠ f)
    (hfT : ¬ e.tree.Owns f) {Y : Nat → S} {t : STree S} (hp : Perfect k t) {m : Mem S}
    (hm : ∀ d, d < e.g.D → TraverseMem e k y f Y t m d) {loop : Loop S} (hl : IsParLoop loop)
    (hD : 0 < e.g.D) (hn : e.g.n = 2 ^ k) (hc : e.g.n = e.g.D * w) {lenF : Nat → Nat}
    (hlen : ∀ d, d < e.g.D → 6 * 2 ^ k ≤ lenF d) {bodyN : List Nat}
    (hleaf : ∀ p, p < 2 ^ k → bodyN.getD (p + 2 ^ k) noBody < 2 ^ k ∧ ∃ x : NodeData S,
      NodeAt t (p + 2 ^ k) (.leaf (bodyN.getD (p + 2 ^ k) noBody) x) ∧
      x.mc = posOf (2 ^ k) Y (bodyN.getD (p + 2 ^ k) noBody))
    (hinj : ∀ p p', p < 2 ^ k → p' < 2 ^ k → bodyN.getD (p + 2 ^ k) noBody = bodyN.getD (p' + 2 ^ k) noBody → p = p') :
    ∃ m', loop (e.g.D * w) (fun p => e.heapItem (2 ^ (k + 1)) bodyN y f lenF (p / w) (p % w)) m = .ok m' ∧
      m'.shape = m.shape ∧
      (∀ p j, p < 2 ^ k → j < 6 * 2 ^ k → bodyOf (2 ^ k) j = bodyN.getD (p + 2 ^ k) noBody →
        m'.cell (rep e.g.D f (p / w)) j =
          some (gpuDeriv (2 ^ k) Y (fun b => gpuAccel e.stackless t (posOf (2 ^ k) Y b)) j) ∧
        ∀ d, d < e.g.D → d ≠ p / w → m'.cell (rep e.g.D f d) j = m.cell (rep e.g.D f d) j) ∧
      ∀ x j, x / e.g.D ≠ f → m'.cell x j = m.cell x j := by
  have hN : e.g.D * w = 2 ^ k := hc.symm.trans hn
  have hk := Nat.two_pow_pos k
  have hidx : ∀ p, p % w + p / w * (2 ^ k / e.g.D) + (2 ^ k - 1 + heapRoot) = p + 2 ^ k := by
    intro p
    rw [← hN, Nat.mul_div_cancel_left _ hD, Nat.mul_comm (p / w), Nat.add_comm (p % w), Nat.div_add_mod p w, hN]
    unfold heapRoot
    omega
  obtain ⟨m', a1, a2, a3, a4, a5⟩ := items_walk hyf hfT hm hl (w := w)
    (item := fun d i => e.heapItem (2 ^ (k + 1)) bodyN y f lenF d i)
    (body := fun p => bodyN.getD (p + 2 ^ k) noBody)
    (fun p hp => (hleaf p (by omega)).1) (fun p p' h1 h2 _ h => hinj p p' (by omega) (by omega) h) hlen
    (fun p W hpN hW => by
      have hb := (hleaf p (by omega)).1
      unfold GpuBH.heapItem
      simp only [hn, hidx]
      refine (Prog.Within.get (Or.inr (Or.inl ⟨.cmx, rfl⟩))).bind fun _ =>
        (Prog.Within.get (Or.inr (Or.inl ⟨.cmy, rfl⟩))).bind fun _ =>
        (Prog.Within.get (Or.inr (Or.inl ⟨.cmz, rfl⟩))).bind fun _ => ?_
      refine (walk_within.mono (fun x j h => Or.inr (Or.inl h)) (fun x j h => h)).bind fun _ => ?_
      exact store_within hb (fun _ => Or.inl rfl) (Or.inr (Or.inr ⟨rfl, rfl⟩)) hW)
    (fun p m1 hpN hm1 => by
      obtain ⟨hb, x, hx, hmc⟩ := hleaf p (by omega)
      have hcell := (hm1.shows.at hx).root
      unfold GpuBH.heapItem
      simp only [hn, hidx]
      rw [DevTree.get_bind (hcell .cmx trivial), DevTree.get_bind (hcell .cmy trivial),
        DevTree.get_bind (hcell .cmz trivial), Prog.run_bind, walk_run hw.depth hw.nd hw.fuel hp hm1.shows, ← hmc]
      rfl)
  refine ⟨m', a1, a2, fun p j hp hj hbj => ⟨a3 p j (by omega) hj hbj, fun d hd hne => ?_⟩, a5⟩
  refine a4 d j hd hj fun p' hp' hd' he => hne ?_
  rw [← hd', hinj p p' hp (by omega) (hbj.symm.trans he)]

end

section
variable {S : Type}

/-- `fill_buffer` sets all elements on all devices. -/
theorem fillBuffer_all {g : Gpu} {w : Nat} (hf : g.Fits w) {loop : Loop S} (hl : IsParLoop loop) {f : Handle} {v : S}
    {m : Mem S} (hr : Replicated g.D f (Gpu.allocSize (6 * g.n)) m) (hs : g.size f = 6 * g.n) :
    ∃ m', g.fillBuffer loop f v m = .ok m' ∧ m'.shape = m.shape ∧
      (∀ d j, d < g.D → j < 6 * g.n → m'.cell (rep g.D f d) j = some v) ∧
      ∀ x j, x / g.D ≠ f → m'.cell x j = m.cell x j := by
  have hal := Gpu.le_allocSize (6 * g.n)
  have hD := Gpu.devices_pos hf
  have hn0 : 0 < 6 * g.n := by
    rw [hf.count]
    have := Nat.mul_pos hD hf.bodies
    omega
  have key : ∀ c, 6 * g.n ≤ c → c ≤ Gpu.allocSize (6 * g.n) →
      ∃ m', loop (g.D * c) (fun p => fillBody (rep g.D f (p / c)) v (p % c)) m = .ok m' ∧ m'.shape = m.shape ∧
        (∀ d j, d < g.D → j < 6 * g.n → m'.cell (rep g.D f d) j = some v) ∧
        ∀ x j, x / g.D ≠ f → m'.cell x j = m.cell x j := by
    intro c h1 h2
    have hdev : ∀ p, p < g.D * c → p / c < g.D := fun p hp => Nat.div_lt_of_lt_mul (by rwa [Nat.mul_comm])
    obtain ⟨m', a1, a2, a3, a4⟩ := loop_owned hl (N := g.D * c) (m := m)
      (body := fun p => fillBody (rep g.D f (p / c)) v (p % c)) (fun _ _ _ => False)
      (fun p x j => x = rep g.D f (p / c) ∧ j = p % c) (fun _ _ => v)
      (fun p _ => Prog.Within.put ⟨rfl, rfl⟩)
      (by
        rintro p p' x j hp hp' hne ⟨rfl, rfl⟩
        refine ⟨fun h => h, ?_⟩
        rintro ⟨h, hj⟩
        refine hne ?_
        rw [← Nat.div_add_mod p c, ← Nat.div_add_mod p' c, ((rep_inj (hdev p hp) (hdev p' hp')).1 h).2, hj])
      (by
        intro p m1 hp hsh _ _
        have hc := isSome_of_shape hsh (hr (p / c) (p % c) (hdev p hp) (by have := Nat.mod_lt p (show 0 < c by omega); omega))
        refine ⟨_, Prog.run_put v hc, ?_⟩
        rintro x j ⟨rfl, rfl⟩
        rw [Mem.cell_setCell, if_pos ⟨rfl, rfl⟩, map_const hc])
    refine ⟨m', a1, a2, fun d j hd hj => ?_, fun x j hx => ?_⟩
    · refine a3 (d * c + j) _ j (flat_lt hd (by omega)) ?_
      rw [flat_div (by omega), flat_mod (by omega)]
      exact ⟨rfl, rfl⟩
    · refine a4 x j ?_
      rintro p hp ⟨rfl, _⟩
      exact hx (rep_div (hdev p hp))
  have hhas : g.has m f = true := Mem.has_of_cell (j := 0) (hr 0 0 hD (by omega))
  unfold Gpu.fillBuffer
  simp only [hhas, Bool.not_true, Bool.false_eq_true, if_false, hs]
  cases hc : g.cuda with
  | true =>
    simp only [if_true]
    exact key _ (le_refl _) hal
  | false =>
    simp only [Bool.false_eq_true, if_false]
    obtain ⟨q, hq⟩ := hf.fill hc
    have : openclGroups (Gpu.allocSize (6 * g.n)) g.B = .ok q := by
      unfold openclGroups
      rw [hq, if_neg, Nat.mul_div_cancel_left _ hf.block]
      rintro (e | e)
      · have := hf.block; omega
      · rw [Nat.mul_mod_right] at e; exact e rfl
    rw [this, res_ok_bind]
    exact key _ hal (le_refl _)

/-- The traversal kernels run on exactly the bodies of a device. -/
theorem walkGroups_ok {g : Gpu} {w : Nat} (hf : g.Fits w) : ∃ gd, GpuBH.walkGroups g = .ok gd ∧ gd * g.B = w := by
  have hD := Gpu.devices_pos hf
  obtain ⟨q, hq⟩ := hf.groups
  have hw := hf.bodies
  have hB := hf.block
  have h1 : g.n / g.D = w := by rw [hf.count, Nat.mul_div_cancel_left _ hD]
  have h2 : w / g.B = q := by rw [hq, Nat.mul_div_cancel_left _ hB]
  refine ⟨q, ?_, by rw [hq, Nat.mul_comm]⟩
  unfold GpuBH.walkGroups
  rw [h1]
  split
  · unfold cudaGroups
    rw [if_neg (by omega), h2, if_neg]
    rintro rfl
    omega
  · unfold openclGroups
    rw [if_neg, h2]
    rintro (e | e)
    · omega
    · rw [hq, Nat.mul_mod_right] at e; exact e rfl

variable [Add S] [Mul S] [Zero S] [One S]

/-- The identities of `synchronize_sum` when all but one summand are zero. -/
structure SumLaws (S : Type) [Add S] [Mul S] [Zero S] [One S] : Prop where
  zero_add : ∀ v : S, 0 + v = v
  add_zero : ∀ v : S, v + 0 = v
  mul_one : ∀ v : S, v * 1 = v

omit [Mul S] [One S] in
theorem foldN_one_contributor (h1 : ∀ v : S, 0 + v = v) (h2 : ∀ v : S, v + 0 = v) (v : S) (who : Nat) :
    ∀ c, foldN c (if 0 = who then v else 0) (fun k acc => acc + if k + 1 = who then v else 0) =
      if who ≤ c then v else (0 : S) := by
  intro c
  induction c with
  | zero =>
    by_cases h : 0 = who
    · rw [if_pos (by omega)]; simp [foldN, h]
    · rw [foldN, if_neg h, if_neg (by omega)]
  | succ c ih =>
    rw [foldN, ih]
    rcases Nat.lt_trichotomy who (c + 1) with h | h | h
    · rw [if_pos (by omega), if_neg (by omega), if_pos (by omega), h2]
    · rw [if_neg (by omega), if_pos (by omega), if_pos (by omega), h1]
    · rw [if_neg (by omega), if_neg (by omega), if_neg (by omega), h2]

/-- The all-reduce over disjoint contributions, in either variant. -/
theorem syncSum_run (hlaws : SumLaws S) {loop : Loop S} (hl : IsParLoop loop) {host : Option Handle} {D : Nat}
    (hD : SyncOk host D) {f fsync : Handle} {hs size : Nat} (hf : f < hs) (hfs : hs ≤ fsync) {m : Mem S}
    (hb : ∀ b : Nat, host = some b → hs ≤ b ∧ Replicated D b size m) (hsy : host = none → 2 ≤ D → Replicated D fsync size m)
    {who : Nat → Nat} {v : Nat → S}
    (hwho : ∀ j, j < size → who j < D ∧ m.cell (rep D f (who j)) j = some (v j) ∧
      ∀ d, d < D → d ≠ who j → m.cell (rep D f d) j = some 0) :
    ∃ m', GpuBH.syncSum loop host D f fsync size m = .ok m' ∧ m'.shape = m.shape ∧
      (∀ d j, d < D → j < size → m'.cell (rep D f d) j = some (v j)) ∧
      ∀ x j, x / D ≠ f → x / D < hs → m'.cell x j = m.cell x j := by
  have hA : ∀ d j, d < D → j < size → m.cell (rep D f d) j = some (if d = who j then v j else 0) := by
    intro d j hd hj
    obtain ⟨_, h2, h3⟩ := hwho j hj
    by_cases e : d = who j
    · rw [if_pos e, e, h2]
    · rw [if_neg e, h3 d hd e]
  unfold GpuBH.syncSum
  by_cases h2 : D < 2
  · rw [if_pos h2]
    refine ⟨m, rfl, rfl, fun d j hd hj => ?_, fun _ _ _ _ => rfl⟩
    rw [hA d j hd hj, if_pos]
    have := (hwho j hj).1
    omega
  rw [if_neg h2]
  cases hh : host with
  | none =>
    obtain ⟨K, rfl⟩ := hD.2 hh
    have hne : f ≠ fsync := Nat.ne_of_lt (Nat.lt_of_lt_of_le hf hfs)
    obtain ⟨m', a1, a2⟩ := C52.one_contributor_exact hl
      (fun v => ⟨hlaws.zero_add v, hlaws.add_zero v, hlaws.mul_one v⟩) K f fsync hne size m who v
      (fun j hj => (hwho j hj).1) hA (hsy hh (by omega))
    obtain ⟨_, m'', b1, b2, _, _, _, b6⟩ := synchronizeSum_run hl hD.1 hne hA (hsy hh (by omega))
    obtain rfl : m' = m'' := Except.ok.inj (a1.symm.trans b1)
    exact ⟨m', a1, b2, a2, fun x j h1 h2 => b6 x j h1 (by omega)⟩
  | some b =>
    obtain ⟨hb1, hb2⟩ := hb b hh
    obtain ⟨m', a1, a2, a3, a4⟩ := synchronizeSumHost_run hl hD.1 (f := f) (host := b)
      (Nat.ne_of_lt (Nat.lt_of_lt_of_le hf hb1)) hA hb2
    refine ⟨m', a1, a2, fun d j hd hj => ?_, fun x j h1 h2 => a4 x j h1 (by omega)⟩
    rw [a3 d j hd hj, foldN_one_contributor hlaws.zero_add hlaws.add_zero (v j) (who j) (D - 1), if_pos]
    have := (hwho j hj).1
    omega

end

end NB
