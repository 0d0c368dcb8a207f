import Verif.Lemmas.GpuBH
import Verif.Props.C70_DenseKernel

/-
`fcompute` of the Barnes–Hut engines on GPUs: tree, walk and exchange together, and what is left for the next call.
-/

namespace NB

open NB.Spec

section
variable {S : Type} {H : List (Cell S)}

/-- The bodies of a stored perfect tree are in the leaves, in the order of their indices. -/
theorem leaves_bodies : ∀ (k idx : Nat) (t : STree S), Perfect k t → Stores H idx t →
    t.bodies = (List.range (2 ^ k)).map fun p => (H.map Cell.body).getD (p + idx * 2 ^ k) noBody := by
  intro k
  induction k with
  | zero =>
    intro idx t hp hs
    cases t with
    | node => exact absurd hp (by simp [Perfect])
    | leaf b x =>
      have : H[idx]? = some ⟨x, b⟩ := hs
      simp [STree.bodies, List.getD_eq_getElem?_getD, this]
  | succ k ih =>
    intro idx t hp hs
    cases t with
    | leaf => exact absurd hp (by simp [Perfect])
    | node l r x =>
      have e1 : 2 ^ (k + 1) = 2 ^ k + 2 ^ k := by ring
      rw [STree.bodies, ih _ l hp.1 hs.2.1, ih _ r hp.2 hs.2.2, e1, List.range_add, List.map_append, List.map_map]
      congr 1
      · refine List.map_congr_left fun p _ => ?_
        rw [show p + 2 * idx * 2 ^ k = p + idx * (2 ^ k + 2 ^ k) by ring]
      · refine List.map_congr_left fun p _ => ?_
        simp only [Function.comp_def]
        rw [show p + (2 * idx + 1) * 2 ^ k = 2 ^ k + p + idx * (2 ^ k + 2 ^ k) by ring]

theorem leaf_numbers_inj {k : Nat} {t : STree S} (hp : Perfect k t) (hst : Stores H 1 t)
    (hb : t.bodies.Perm (List.range (2 ^ k))) (p p' : Nat) (h1 : p < 2 ^ k) (h2 : p' < 2 ^ k)
    (h : (H.map Cell.body).getD (p + 2 ^ k) noBody = (H.map Cell.body).getD (p' + 2 ^ k) noBody) : p = p' := by
  have hnd : t.bodies.Nodup := hb.nodup_iff.2 List.nodup_range
  rw [leaves_bodies k 1 t hp hst] at hnd
  have := List.inj_on_of_nodup_map hnd (List.mem_range.2 h1) (List.mem_range.2 h2)
  simp only [one_mul] at this
  exact this h

theorem leaf_numbers {k : Nat} {t : STree S} (hp : Perfect k t) (hst : Stores H 1 t)
    (hb : t.bodies.Perm (List.range (2 ^ k))) (p : Nat) (h : p < 2 ^ k) :
    (H.map Cell.body).getD (p + 2 ^ k) noBody < 2 ^ k ∧ ∃ x : NodeData S,
      NodeAt t (p + 2 ^ k) (.leaf ((H.map Cell.body).getD (p + 2 ^ k) noBody) x) ∧
      H[p + 2 ^ k]? = some ⟨x, (H.map Cell.body).getD (p + 2 ^ k) noBody⟩ := by
  have e1 : 2 ^ (k + 1) = 2 * 2 ^ k := by ring
  obtain ⟨b, x, l1, l2, l3⟩ := leaf_at hp hst (i := p + 2 ^ k) (by omega) (by omega)
  have e : (H.map Cell.body).getD (p + 2 ^ k) noBody = b := by
    simp [List.getD_eq_getElem?_getD, l2]
  rw [e]
  exact ⟨List.mem_range.1 (hb.mem_iff.1 l3), x, l1, l2⟩

/-- Every body of a perfect tree has a leaf. -/
theorem leaf_of_body {k : Nat} {t : STree S} (hp : Perfect k t) (hst : Stores H 1 t)
    (hb : t.bodies.Perm (List.range (2 ^ k))) (b : Nat) (h : b < 2 ^ k) :
    ∃ p, p < 2 ^ k ∧ (H.map Cell.body).getD (p + 2 ^ k) noBody = b := by
  have := hb.mem_iff.2 (List.mem_range.2 h)
  rw [leaves_bodies k 1 t hp hst] at this
  obtain ⟨p, h1, h2⟩ := List.mem_map.1 this
  rw [one_mul] at h2
  exact ⟨p, List.mem_range.1 h1, h2⟩

theorem carries_at {B : Bodies S} {t s : STree S} {i : Nat} (h : Carries B t) (hs : NodeAt t i s) : Carries B s := by
  induction hs with
  | root => exact h
  | left _ ih => exact ih.1
  | right _ ih => exact ih.2

end

section
variable {S : Type} [Add S] [Sub S] [Mul S] [Neg S] [Div S] [Zero S] [One S] [FOps S]

omit [Neg S] [One S] in
theorem build_congr' {B B' : Bodies S} {half ratio2 : S} {nth : NthElement} (hn : Reorders nth)
    {fuel : Nat} {path : List Bool} {dim : Nat} {ids : List Nat} (hp : ∀ i ∈ ids, B.pos i = B'.pos i)
    (hm : ∀ i ∈ ids, B.mass i = B'.mass i) :
    STree.build B half ratio2 nth fuel path dim ids = STree.build B' half ratio2 nth fuel path dim ids := by
  induction fuel generalizing path dim ids with
  | zero => rfl
  | succ fl ih =>
    by_cases h1 : ids.length = 1
    · obtain ⟨i, rfl⟩ := List.length_eq_one_iff.1 h1
      rw [build_leaf, build_leaf, hp i (by simp), hm i (by simp)]
    · rw [build_node _ _ _ _ _ _ _ _ h1, build_node _ _ _ _ _ _ _ _ h1]
      have hmem : ∀ i, i ∈ nth path dim ids → i ∈ ids := fun i hi => (hn path dim ids).mem_iff.1 hi
      rw [ih (fun i hi => hp i (hmem i (List.mem_of_mem_take hi)))
          (fun i hi => hm i (hmem i (List.mem_of_mem_take hi))),
        ih (fun i hi => hp i (hmem i (List.mem_of_mem_drop hi)))
          (fun i hi => hm i (hmem i (List.mem_of_mem_drop hi)))]

omit [Neg S] [Zero S] [One S] in
/-- A rebuild forgets the one before. -/
theorem rebuild_rebuild {B B' : Bodies S} {half ratio2 : S} (t : STree S) :
    STree.rebuild B' half ratio2 (STree.rebuild B half ratio2 t) = STree.rebuild B' half ratio2 t := by
  induction t with
  | leaf b x => rfl
  | node l r x il ir => simp only [STree.rebuild, il, ir]

/-- How an engine is set up: sizes, kernels, handles.  Buffers below `hs` hold data, the others are scratch. -/
structure BHSetup (e : GpuBH S) (tex : Bool) (w k hs hm y f : Nat) : Prop where
  fits : e.g.Fits w
  count : e.g.n = 2 ^ k
  walks : WalkOk e k
  layout : e.tree.Layout tex
  depth : k < e.depth
  nth : Reorders e.nth
  low : y < hs ∧ f < hs ∧ hm < hs ∧ ∀ F, (e.tree F).h < hs
  apart : y ≠ f ∧ hm ≠ f ∧ hm ≠ y
  tree : ¬ e.tree.Owns y ∧ ¬ e.tree.Owns f ∧ ¬ e.tree.Owns hm
  size : e.g.size f = 6 * e.g.n
  high : hs ≤ e.fsync ∧ hs ≤ e.hostY ∧ hs ≤ e.hostM ∧ e.hostY ≠ e.hostM

/-- The buffers exist. -/
structure BHRoom (e : GpuBH S) (k hs y f : Nat) (m : Mem S) : Prop where
  state : Replicated e.g.D y (6 * 2 ^ k) m
  result : Replicated e.g.D f (Gpu.allocSize (6 * 2 ^ k)) m
  tree : ∀ d F i, d < e.g.D → i < 2 ^ (k + 1) → (e.tree.cell e.g.D m d F i).isSome
  host : ∀ b : Nat, e.g.host = some b → hs ≤ b ∧ Replicated e.g.D b (6 * 2 ^ k) m
  fsync : e.g.host = none → 2 ≤ e.g.D → Replicated e.g.D e.fsync (6 * 2 ^ k) m
  hostY : ∀ j, j < 6 * 2 ^ k → (m.cell (rep e.g.D e.hostY 0) j).isSome
  hostM : ∀ j, j < 2 ^ k → (m.cell (rep e.g.D e.hostM 0) j).isSome

omit [Add S] [Sub S] [Mul S] [Neg S] [Div S] [Zero S] [One S] [FOps S] in
theorem BHRoom.of_shape {e : GpuBH S} {k hs y f : Nat} {m m' : Mem S} (h : BHRoom e k hs y f m)
    (hsh : m'.shape = m.shape) : BHRoom e k hs y f m' where
  state := h.state.of_shape hsh
  result := h.result.of_shape hsh
  tree d F i hd hi := isSome_of_shape hsh (h.tree d F i hd hi)
  host b hb := ⟨(h.host b hb).1, (h.host b hb).2.of_shape hsh⟩
  fsync h1 h2 := (h.fsync h1 h2).of_shape hsh
  hostY j hj := isSome_of_shape hsh (h.hostY j hj)
  hostM j hj := isSome_of_shape hsh (h.hostM j hj)

omit [Add S] [Sub S] [Mul S] [Neg S] [Div S] [Zero S] [One S] [FOps S] in
theorem BHRoom.hostOk {e : GpuBH S} {k hs y f : Nat} {m : Mem S} (h : BHRoom e k hs y f m) (hD : 0 < e.g.D) :
    HostOk e.g.host e.g.D hs (6 * 2 ^ k) m :=
  fun b hb => ⟨(h.host b hb).1, fun j hj => (h.host b hb).2 0 j hD hj⟩

omit [Neg S] in
/-- The walk over the tree and the exchange: all devices get the whole derivative. -/
theorem traverse_run {e : GpuBH S} {tex : Bool} {w k hs hm y f : Nat} (he : BHSetup e tex w k hs hm y f)
    (hlaws : e.cycle = false → SumLaws S) {loop : Loop S} (hl : IsParLoop loop) {Y : Nat → S} {t t0 : STree S}
    {H : List (Cell S)} (hp : Perfect k t) (hp0 : Perfect k t0) (hst : Stores H 1 t0)
    (hperm : t0.bodies.Perm (List.range (2 ^ k)))
    (hleaf : ∀ i b x, NodeAt t0 i (.leaf b x) → ∃ x', NodeAt t i (.leaf b x') ∧ x'.mc = posOf (2 ^ k) Y b)
    {m : Mem S} (hr : BHRoom e k hs y f m)
    (hY : ∀ d j, d < e.g.D → j < 6 * 2 ^ k → m.cell (rep e.g.D y d) j = some (Y j))
    (hshow : ∀ d, d < e.g.D → e.tree.Shows e.g.D NodeField.shared m d 1 t) :
    ∃ m', e.traverse loop (2 ^ (k + 1)) (H.map Cell.body) y f m = .ok m' ∧ m'.shape = m.shape ∧
      (∀ d j, d < e.g.D → j < 6 * 2 ^ k → m'.cell (rep e.g.D f d) j =
        some (gpuDeriv (2 ^ k) Y (fun b => gpuAccel e.stackless t (posOf (2 ^ k) Y b)) j)) ∧
      ∀ x j, x / e.g.D ≠ f → x / e.g.D < hs → m'.cell x j = m.cell x j := by
  have hD := Gpu.devices_pos he.fits
  have hk := Nat.two_pow_pos k
  have hN : e.g.D * w = 2 ^ k := he.fits.count.symm.trans he.count
  have hal := Gpu.le_allocSize (6 * 2 ^ k)
  have hw := he.fits.bodies
  obtain ⟨gd, g1, g2⟩ := walkGroups_ok he.fits
  have hlen : ∀ d, d < e.g.D → 6 * 2 ^ k ≤ ((m (rep e.g.D f d)).getD []).length := by
    intro d hd
    have := hr.result d (6 * 2 ^ k - 1) hd (by omega)
    unfold Mem.cell at this
    cases hc : m (rep e.g.D f d) with
    | none => simp [hc] at this
    | some l => simp [hc] at this; simp; omega
  have hwhole : ∀ m1 : Mem S, m1.shape = m.shape → (∀ x j, x / e.g.D ≠ f → m1.cell x j = m.cell x j) →
      ∀ d, d < e.g.D → TraverseMem e k y f Y t m1 d := by
    intro m1 hsh hc d hd
    exact
      { state := fun j hj => by rw [hc _ _ (by rw [rep_div hd]; exact he.apart.1)]; exact hY d j hd hj
        shows := (hshow d hd).mono fun j F hF => ⟨hF, hc _ _ (by
          rw [rep_div hd]
          exact fun h => he.tree.2.1 ⟨F, h⟩)⟩
        room := fun j hj => isSome_of_shape hsh (hr.result d j hd (by omega)) }
  unfold GpuBH.traverse
  cases hcy : e.cycle with
  | true =>
    simp only [if_true, g1, res_ok_bind, g2]
    obtain ⟨m1, a1, a2, a3, a4⟩ := cycleItems_run he.walks he.apart.1 he.tree.2.1 hp
      (hwhole m rfl fun _ _ _ => rfl) hl hD he.count he.fits.count hlen
    rw [a1, res_ok_bind, he.count, ← hN]
    obtain ⟨m2, b1, b2, b3, b4⟩ := syncF_run (w := w) hl he.fits.sync hw (hs := hs) he.low.2.1 (m := m1)
      (by rw [hN]; exact fun d j hd hj => isSome_of_shape a2 (hr.result d j hd (by omega)))
      (by rw [hN]; exact (hr.hostOk hD).of_shape a2)
    refine ⟨m2, b1, b2.trans a2, fun d j hd hj => ?_, fun x j h1 h2 => (b4 x j h1 h2).trans (a4 x j h1)⟩
    rw [b3 d j hd hj, hN]
    exact a3 j (by rw [hN] at hj; exact hj)
  | false =>
    simp only [Bool.false_eq_true, if_false]
    obtain ⟨m0, z1, z2, z3, z4⟩ := fillBuffer_all he.fits hl (f := f) (v := (0 : S)) (m := m)
      (by rw [he.count]; exact hr.result) he.size
    rw [z1, res_ok_bind]
    simp only [g1, res_ok_bind, g2]
    obtain ⟨m1, a1, a2, a3, a4⟩ := heapItems_run he.walks he.apart.1 he.tree.2.1 hp
      (hwhole m0 z2 z4) hl hD he.count he.fits.count hlen (bodyN := H.map Cell.body)
      (fun p hpk => by
        obtain ⟨h1, x, h2, _⟩ := leaf_numbers hp0 hst hperm p hpk
        exact ⟨h1, hleaf _ _ _ h2⟩)
      (leaf_numbers_inj hp0 hst hperm)
    rw [a1, res_ok_bind, he.count]
    have hex : ∀ j, ∃ p, p < 2 ^ k ∧ (H.map Cell.body).getD (p + 2 ^ k) noBody = bodyOf (2 ^ k) j :=
      fun j => leaf_of_body hp0 hst hperm _ (Nat.mod_lt _ hk)
    choose leaf hleaf1 hleaf2 using hex
    have hdev : ∀ j, leaf j / w < e.g.D := fun j =>
      Nat.div_lt_of_lt_mul (by rw [Nat.mul_comm, hN]; exact hleaf1 j)
    obtain ⟨m2, b1, b2, b3, b4⟩ := syncSum_run (hlaws hcy) hl he.fits.sync (f := f) (fsync := e.fsync) (hs := hs)
      (size := 6 * 2 ^ k) he.low.2.1 he.high.1 (m := m1)
      (fun b hb => ⟨(hr.host b hb).1, ((hr.host b hb).2.of_shape z2).of_shape a2⟩)
      (fun h1 h2 => ((hr.fsync h1 h2).of_shape z2).of_shape a2)
      (who := fun j => leaf j / w)
      (v := gpuDeriv (2 ^ k) Y (fun b => gpuAccel e.stackless t (posOf (2 ^ k) Y b)))
      (fun j hj => by
        obtain ⟨c1, c2⟩ := a3 (leaf j) j (hleaf1 j) hj (hleaf2 j).symm
        refine ⟨hdev j, c1, fun d hd hne => ?_⟩
        rw [c2 d hd hne]
        exact z3 d j hd (by rw [he.count]; exact hj))
    exact ⟨m2, b1, b2.trans (a2.trans z2), b3, fun x j h1 h2 =>
      (b4 x j h1 h2).trans ((a4 x j h1).trans (z4 x j h1))⟩

omit [Add S] [Sub S] [Mul S] [Neg S] [Div S] [Zero S] [One S] [FOps S] in
/-- The host reads a buffer all devices hold. -/
theorem read_all {D size : Nat} {h host : Handle} (hD : 0 < D) {w : Nat} (hw : 0 < w) (hsz : size = D * w)
    (hne : h ≠ host) {loop : Loop S} (hl : IsParLoop loop) {V : Nat → S} {m : Mem S}
    (hV : ∀ d j, d < D → j < size → m.cell (rep D h d) j = some (V j))
    (hh : ∀ j, j < size → (m.cell (rep D host 0) j).isSome) :
    ∃ m', mdReadBuffer loop D host h size m = .ok m' ∧ m'.shape = m.shape ∧
      (∀ j, j < size → m'.cell (rep D host 0) j = some (V j)) ∧ ∀ x j, x / D ≠ host → m'.cell x j = m.cell x j := by
  obtain ⟨m', a1, a2, a3, a4⟩ := mdReadBuffer_run hl (host := host) (size := size) hne hD
    (by rw [hsz]; exact Nat.le_mul_of_pos_right _ hw) (m := m)
    (fun d j hd hj => by rw [hV d j hd hj]; rfl) hh
  refine ⟨m', a1, a2, fun j hj => ?_, fun x j hx => a4 x j fun e => hx (by rw [e, rep_div hD])⟩
  have hq : size / D = w := by rw [hsz, Nat.mul_div_cancel_left _ hD]
  have hlt : j / (size / D) < D := by
    rw [hq]
    exact Nat.div_lt_of_lt_mul (by rw [Nat.mul_comm, ← hsz]; exact hj)
  rw [a3 j hj hlt, hV _ j hlt hj]

/-- Positions and masses as the tree code sees them. -/
def bodiesOf (n : Nat) (Y M : Nat → S) : Bodies S :=
  ⟨fun b => (posOf n Y b).x, fun b => (posOf n Y b).y, fun b => (posOf n Y b).z, M⟩

omit [Neg S] [One S] in
/-- `rebuild_tree`: the tree built from the state and the masses on the devices reaches all devices. -/
theorem rebuildTree_run {e : GpuBH S} {tex : Bool} {w k hs hm y f : Nat} (he : BHSetup e tex w k hs hm y f)
    {loop : Loop S} (hl : IsParLoop loop) {Y M : Nat → S} {st : BHState S} (hcl : C27.CleanLeaves (2 ^ k) st.heap)
    {m : Mem S} (hr : BHRoom e k hs y f m)
    (hY : ∀ d j, d < e.g.D → j < 6 * 2 ^ k → m.cell (rep e.g.D y d) j = some (Y j))
    (hM : ∀ d j, d < e.g.D → j < 2 ^ k → m.cell (rep e.g.D hm d) j = some (M j)) :
    ∃ H t m', e.rebuildTree loop tex hm y st m = .ok (⟨H, some (H.map Cell.body)⟩, m') ∧ m'.shape = m.shape ∧
      spaceTreeBuild (2 ^ k) (bodiesOf (2 ^ k) Y M) e.half e.ratio e.nth e.depth = .ok t ∧
      H.length = 2 ^ (k + 1) ∧ Stores H 1 t ∧ Perfect k t ∧ t.bodies.Perm (List.range (2 ^ k)) ∧
      C27.CleanLeaves (2 ^ k) H ∧ (∀ b x i, NodeAt t i (.leaf b x) → x.mc = posOf (2 ^ k) Y b) ∧
      (∀ d i c, d < e.g.D → H[i]? = some c → ∀ F : NodeField, F.shared →
        e.tree.cell e.g.D m' d F i = some (F.of c.d)) ∧
      ∀ x j, x / e.g.D < hs → ¬ e.tree.Owns (x / e.g.D) → m'.cell x j = m.cell x j := by
  have hD := Gpu.devices_pos he.fits
  have hw := he.fits.bodies
  have hN : e.g.D * w = 2 ^ k := he.fits.count.symm.trans he.count
  have hlt : ∀ {a b : Nat}, a < hs → hs ≤ b → a ≠ b := fun h1 h2 => Nat.ne_of_lt (Nat.lt_of_lt_of_le h1 h2)
  obtain ⟨m1, a1, a2, a3, a4⟩ := read_all (w := 6 * w) (host := e.hostY) hD (by omega)
    (show 6 * 2 ^ k = e.g.D * (6 * w) by rw [← hN]; ring) (hlt he.low.1 he.high.2.1) hl hY hr.hostY
  obtain ⟨m2, b1, b2, b3, b4⟩ := read_all (w := w) (host := e.hostM) (h := hm) hD hw hN.symm
    (hlt he.low.2.2.1 he.high.2.2.1) hl (V := M) (m := m1)
    (fun d j hd hj => by
      rw [a4 _ _ (by rw [rep_div hd]; exact hlt he.low.2.2.1 he.high.2.1)]
      exact hM d j hd hj)
    (fun j hj => isSome_of_shape a2 (hr.hostM j hj))
  have hYc : ∀ j, j < 6 * 2 ^ k → m2.cell (rep e.g.D e.hostY 0) j = some (Y j) := fun j hj => by
    rw [b4 _ _ (by rw [rep_div hD]; exact he.high.2.2.2)]
    exact a3 j hj
  have hk := Nat.two_pow_pos k
  obtain ⟨ly, hly⟩ : ∃ ly, m2 (rep e.g.D e.hostY 0) = some ly := by
    have := hYc 0 (by omega)
    unfold Mem.cell at this
    cases hc : m2 (rep e.g.D e.hostY 0) with
    | none => simp [hc] at this
    | some l => exact ⟨l, rfl⟩
  obtain ⟨lm, hlm⟩ : ∃ lm, m2 (rep e.g.D e.hostM 0) = some lm := by
    have := b3 0 (by omega)
    unfold Mem.cell at this
    cases hc : m2 (rep e.g.D e.hostM 0) with
    | none => simp [hc] at this
    | some l => exact ⟨l, rfl⟩
  have hgy : ∀ j, j < 6 * 2 ^ k → ly.getD j 0 = Y j := by
    intro j hj
    have := hYc j hj
    unfold Mem.cell at this
    simp [hly] at this
    simp [List.getD_eq_getElem?_getD, this]
  have hgm : ∀ j, j < 2 ^ k → lm.getD j 0 = M j := by
    intro j hj
    have := b3 j hj
    unfold Mem.cell at this
    simp [hlm] at this
    simp [List.getD_eq_getElem?_getD, this]
  have hpos : ∀ b, b < 2 ^ k → (bodiesAt (2 ^ k) ly lm).pos b = posOf (2 ^ k) Y b := by
    intro b hb
    simp only [bodiesAt, Bodies.pos, posOf]
    rw [hgy b (by omega), hgy (2 ^ k + b) (by omega), hgy (2 * 2 ^ k + b) (by omega)]
  obtain ⟨H, t, c1, c2, c3, c4, c5, c6, c7⟩ := C27.build_stores_tree (B := bodiesAt (2 ^ k) ly lm) (half := e.half)
    (ratio := e.ratio) (m := k) (fuel := e.depth) he.nth st.heap he.depth
  obtain ⟨c8, c9⟩ := c7 hcl
  obtain ⟨m3, d1, d2, d3, d4⟩ := uploadTree_run (D := e.g.D) hl he.layout (H := H) (m := m2)
    (fun d F i hd hi => isSome_of_shape b2 (isSome_of_shape a2 (hr.tree d F i hd (by rw [c2] at hi; exact hi))))
  refine ⟨H, t, m3, ?_, d2.trans (b2.trans a2), ?_, c2, c3, c4, c5, c9, ?_, d3, fun x j h1 h2 => ?_⟩
  · unfold GpuBH.rebuildTree
    rw [he.count, a1, res_ok_bind, b1, res_ok_bind]
    simp only [hly, hlm, c1, res_ok_bind, d1]
  · rw [← c8]
    refine build_congr' he.nth (fun i hi => ?_) (fun i hi => ?_)
    · rw [hpos i (List.mem_range.1 hi)]; rfl
    · exact (hgm i (List.mem_range.1 hi)).symm
  · intro b x i hx
    have hb : b < 2 ^ k := List.mem_range.1 (c5.mem_iff.1 (nodeAt_bodies hx b (by simp [STree.bodies])))
    rw [← hpos b hb]
    exact (carries_at c6 hx).1
  · rw [d4 x j h2, b4 x j (hlt h1 he.high.2.2.1), a4 x j (hlt h1 he.high.2.1)]

/-- The tree an engine has is `tree`: it has none yet, or its heap holds the leaves of the tree as they were
built, and the devices hold the masses and radii of these leaves. -/
def BHState.Rel (e : GpuBH S) (k : Nat) (st : BHState S) (tree : Option (STree S)) (m : Mem S) : Prop :=
  (tree = none ∧ st = ⟨[], none⟩) ∨
  ∃ t t0, tree = some t ∧ Perfect k t ∧ t.bodies.Perm (List.range (2 ^ k)) ∧
    st.bodyN = some (st.heap.map Cell.body) ∧ st.heap.length = 2 ^ (k + 1) ∧ Stores st.heap 1 t0 ∧ Perfect k t0 ∧
    t0.bodies.Perm (List.range (2 ^ k)) ∧ C27.CleanLeaves (2 ^ k) st.heap ∧
    (∀ B : Bodies S, spaceTreeRebuild B e.half e.ratio t = spaceTreeRebuild B e.half e.ratio t0) ∧
    ∀ d i c, d < e.g.D → 2 ^ k ≤ i → st.heap[i]? = some c →
      e.tree.cell e.g.D m d .mass i = some c.d.mass ∧ e.tree.cell e.g.D m d .crit i = some c.d.rsq

/-- The tree after a call: a new one if there is none or a build is due, else the old one refreshed. -/
def treeAfter (e : GpuBH S) (n step : Nat) (B : Bodies S) : Option (STree S) → Res (STree S)
  | none => spaceTreeBuild n B e.half e.ratio e.nth e.depth
  | some t => if e.rate = 0 ∨ e.rate ∣ step then spaceTreeBuild n B e.half e.ratio e.nth e.depth
      else .ok (spaceTreeRebuild B e.half e.ratio t)

omit [Neg S] in
/-- **One call.** -/
theorem bhGpu_run {e : GpuBH S} {tex : Bool} {w k hs hm y f : Nat} (he : BHSetup e tex w k hs hm y f)
    (hrad : RadiusLaws S e.half) (hlaws : e.cycle = false → SumLaws S) {loop : Loop S} (hl : IsParLoop loop)
    {Y M : Nat → S} {st : BHState S} {tree : Option (STree S)} (step : Nat)
    {m : Mem S} (hr : BHRoom e k hs y f m) (hrel : st.Rel e k tree m)
    (hY : ∀ d i, d < e.g.D → i < 6 * w → m.cell (rep e.g.D y d) (d * (6 * w) + i) = some (Y (d * (6 * w) + i)))
    (hM : ∀ d j, d < e.g.D → j < 2 ^ k → m.cell (rep e.g.D hm d) j = some (M j)) :
    ∃ st' t m', e.fcompute loop tex step hm y f st m = .ok (st', m') ∧ m'.shape = m.shape ∧
      treeAfter e (2 ^ k) step (bodiesOf (2 ^ k) Y M) tree = .ok t ∧ st'.Rel e k (some t) m' ∧
      (∀ d j, d < e.g.D → j < 6 * 2 ^ k → m'.cell (rep e.g.D f d) j =
        some (gpuDeriv (2 ^ k) Y (fun b => gpuAccel e.stackless t (posOf (2 ^ k) Y b)) j)) ∧
      (∀ d j, d < e.g.D → j < 6 * 2 ^ k → m'.cell (rep e.g.D y d) j = some (Y j)) ∧
      ∀ x j, x / e.g.D < hs → x / e.g.D ≠ y → x / e.g.D ≠ f → ¬ e.tree.Owns (x / e.g.D) →
        m'.cell x j = m.cell x j := by
  have hD := Gpu.devices_pos he.fits
  have hw := he.fits.bodies
  have hN : e.g.D * w = 2 ^ k := he.fits.count.symm.trans he.count
  have h6 : 6 * 2 ^ k = e.g.D * (6 * w) := by rw [← hN]; ring
  have hk := Nat.two_pow_pos k
  have e1 : 2 ^ (k + 1) = 2 * 2 ^ k := by ring
  have hal := Gpu.le_allocSize (6 * 2 ^ k)
  have hTlow : ∀ {d F}, d < e.g.D → rep e.g.D (e.tree F).h d / e.g.D < hs := fun hd => by
    rw [rep_div hd]; exact he.low.2.2.2 _
  -- the exchange of the state
  obtain ⟨m1, a1, a2, a3, a4⟩ := syncY_run (w := 6 * w) hl he.fits.sync (by omega) (hs := hs) he.low.1 (m := m)
    (by rw [← h6]; exact hr.state) (by rw [← h6]; exact hr.hostOk hD)
  have hY1 : ∀ d j, d < e.g.D → j < 6 * 2 ^ k → m1.cell (rep e.g.D y d) j = some (Y j) := by
    intro d j hd hj
    have hj' : j < e.g.D * (6 * w) := by rw [← h6]; exact hj
    have hdd : j / (6 * w) < e.g.D := Nat.div_lt_of_lt_mul (by rw [Nat.mul_comm]; exact hj')
    have := hY (j / (6 * w)) (j % (6 * w)) hdd (Nat.mod_lt _ (by omega))
    rw [Nat.mul_comm (j / (6 * w)), Nat.div_add_mod] at this
    rw [a3 d j hd hj', this]
  have hM1 : ∀ d j, d < e.g.D → j < 2 ^ k → m1.cell (rep e.g.D hm d) j = some (M j) := fun d j hd hj => by
    rw [a4 _ _ (by rw [rep_div hd]; exact he.apart.2.2) (by rw [rep_div hd]; exact he.low.2.2.1)]
    exact hM d j hd hj
  have hT1 : ∀ d F i, d < e.g.D → e.tree.cell e.g.D m1 d F i = e.tree.cell e.g.D m d F i := fun d F i hd =>
    a4 _ _ (by rw [rep_div hd]; exact fun h => he.tree.1 ⟨F, h⟩) (hTlow hd)
  have hr1 := hr.of_shape a2
  -- after the tree is there
  have finish : ∀ (st' : BHState S) (t t0 : STree S) (m2 : Mem S), m2.shape = m.shape →
      (∀ x j, x / e.g.D < hs → ¬ e.tree.Owns (x / e.g.D) → m2.cell x j = m1.cell x j) →
      Perfect k t → t.bodies.Perm (List.range (2 ^ k)) → st'.bodyN = some (st'.heap.map Cell.body) →
      st'.heap.length = 2 ^ (k + 1) → Stores st'.heap 1 t0 → Perfect k t0 →
      t0.bodies.Perm (List.range (2 ^ k)) → C27.CleanLeaves (2 ^ k) st'.heap →
      (∀ B : Bodies S, spaceTreeRebuild B e.half e.ratio t = spaceTreeRebuild B e.half e.ratio t0) →
      (∀ d i c, d < e.g.D → 2 ^ k ≤ i → st'.heap[i]? = some c →
        e.tree.cell e.g.D m2 d .mass i = some c.d.mass ∧ e.tree.cell e.g.D m2 d .crit i = some c.d.rsq) →
      (∀ i b x, NodeAt t0 i (.leaf b x) → ∃ x', NodeAt t i (.leaf b x') ∧ x'.mc = posOf (2 ^ k) Y b) →
      (∀ d, d < e.g.D → e.tree.Shows e.g.D NodeField.shared m2 d 1 t) →
      ∃ m', e.traverse loop st'.heap.length (st'.heap.map Cell.body) y f m2 = .ok m' ∧ m'.shape = m.shape ∧
        st'.Rel e k (some t) m' ∧
        (∀ d j, d < e.g.D → j < 6 * 2 ^ k → m'.cell (rep e.g.D f d) j =
          some (gpuDeriv (2 ^ k) Y (fun b => gpuAccel e.stackless t (posOf (2 ^ k) Y b)) j)) ∧
        (∀ d j, d < e.g.D → j < 6 * 2 ^ k → m'.cell (rep e.g.D y d) j = some (Y j)) ∧
        ∀ x j, x / e.g.D < hs → x / e.g.D ≠ y → x / e.g.D ≠ f → ¬ e.tree.Owns (x / e.g.D) →
          m'.cell x j = m.cell x j := by
    intro st' t t0 m2 hsh hkeep p1 p2 p3 p4 p5 p6 p7 p8 p9 p10 p11 p12
    obtain ⟨m3, c1, c2, c3, c4⟩ := traverse_run he hlaws hl (Y := Y) p1 p6 p5 p7 p11 (hr.of_shape hsh)
      (fun d j hd hj => by
        rw [hkeep _ _ (by rw [rep_div hd]; exact he.low.1) (by rw [rep_div hd]; exact he.tree.1)]
        exact hY1 d j hd hj) p12
    rw [p4]
    refine ⟨m3, c1, c2.trans hsh, Or.inr ⟨t, t0, rfl, p1, p2, p3, p4, p5, p6, p7, p8, p9, fun d i c hd hi hc => ?_⟩, c3,
      fun d j hd hj => ?_, fun x j h1 h2 h3 h4 => ?_⟩
    · have hT : ∀ F, e.tree.cell e.g.D m3 d F i = e.tree.cell e.g.D m2 d F i := fun F =>
        c4 _ _ (by rw [rep_div hd]; exact fun h => he.tree.2.1 ⟨F, h⟩) (hTlow hd)
      rw [hT, hT]
      exact p10 d i c hd hi hc
    · rw [c4 _ _ (by rw [rep_div hd]; exact he.apart.1) (by rw [rep_div hd]; exact he.low.1),
        hkeep _ _ (by rw [rep_div hd]; exact he.low.1) (by rw [rep_div hd]; exact he.tree.1)]
      exact hY1 d j hd hj
    · rw [c4 x j h3 h1, hkeep x j h1 h4, a4 x j h2 h1]
  -- a build
  have build : C27.CleanLeaves (2 ^ k) st.heap → ∃ st' t m2 m', e.rebuildTree loop tex hm y st m1 = .ok (st', m2) ∧
      st'.bodyN = some (st'.heap.map Cell.body) ∧
      spaceTreeBuild (2 ^ k) (bodiesOf (2 ^ k) Y M) e.half e.ratio e.nth e.depth = .ok t ∧
      e.traverse loop st'.heap.length (st'.heap.map Cell.body) y f m2 = .ok m' ∧ m'.shape = m.shape ∧
        st'.Rel e k (some t) m' ∧
        (∀ d j, d < e.g.D → j < 6 * 2 ^ k → m'.cell (rep e.g.D f d) j =
          some (gpuDeriv (2 ^ k) Y (fun b => gpuAccel e.stackless t (posOf (2 ^ k) Y b)) j)) ∧
        (∀ d j, d < e.g.D → j < 6 * 2 ^ k → m'.cell (rep e.g.D y d) j = some (Y j)) ∧
        ∀ x j, x / e.g.D < hs → x / e.g.D ≠ y → x / e.g.D ≠ f → ¬ e.tree.Owns (x / e.g.D) →
          m'.cell x j = m.cell x j := by
    intro hcl
    obtain ⟨H, t, m2, b1, b2, b3, b4, b5, b6, b7, b8, b9, b10, b11⟩ := rebuildTree_run he hl (st := st) hcl hr1 hY1 hM1
    obtain ⟨m', c1, c2, c3, c4, c5, c6⟩ := finish ⟨H, some (H.map Cell.body)⟩ t t m2 (b2.trans a2) b11 b6 b7 rfl b4 b5
      b6 b7 b8 (fun _ => rfl)
      (fun d i c hd _ hc => ⟨b10 d i c hd hc .mass trivial, b10 d i c hd hc .crit trivial⟩)
      (fun i b x hx => ⟨x, hx, b9 b x i hx⟩)
      (fun d hd => DevTree.shows_of fun i s hs F hF => by
        obtain ⟨b, hb⟩ := stores_data (nodeAt_stores b5 hs)
        exact b10 d i _ hd hb F hF)
    exact ⟨_, t, m2, m', b1, rfl, b3, c1, c2, c3, c4, c5, c6⟩
  have hhy : e.g.has m y = true := Mem.has_of_cell (j := 0) (hr.state 0 0 hD (by omega))
  have hhf : e.g.has m f = true := Mem.has_of_cell (j := 0) (hr.result 0 0 hD (by omega))
  unfold GpuBH.fcompute
  rw [if_neg (by omega)]
  simp only [hhy, hhf, Bool.not_true, Bool.false_eq_true, if_false]
  rw [he.count, h6, a1, res_ok_bind]
  rcases hrel with ⟨rfl, rfl⟩ | ⟨t, t0, rfl, q1, q2, q3, q4, q5, q6, q7, q8, q9, q10⟩
  · obtain ⟨st', t, m2, m', b1, b2, b3, b4⟩ := build (fun j c _ _ hj => by simp at hj)
    refine ⟨st', t, m', ?_, b4.2.1, b3, b4.2.2.1, ?_⟩
    · simp only [b1, res_ok_bind, b2, b4.1]
    · rw [← h6]; exact b4.2.2.2
  · have hne : st.heap.isEmpty = false := by
      cases hH : st.heap with
      | nil => rw [hH] at q4; simp at q4; omega
      | cons => rfl
    by_cases hdue : e.rate = 0 ∨ e.rate ∣ step
    · obtain ⟨st', t', m2, m', b1, b2, b3, b4⟩ := build q8
      have hc : (e.rate = 0 || st.heap.isEmpty || step % e.rate = 0) = true := by
        rcases hdue with h | h
        · simp [h]
        · simp [Nat.mod_eq_zero_of_dvd h]
      refine ⟨st', t', m', ?_, b4.2.1, by simp only [treeAfter, if_pos hdue, b3], b4.2.2.1, ?_⟩
      · simp only [q3, hc, if_true, b1, res_ok_bind, b2, b4.1]
      · rw [← h6]; exact b4.2.2.2
    · have hc : (e.rate = 0 || st.heap.isEmpty || step % e.rate = 0) = false := by
        have h1 : ¬ e.rate = 0 := fun h => hdue (Or.inl h)
        have h2 : ¬ step % e.rate = 0 := fun h => hdue (Or.inr (Nat.dvd_of_mod_eq_zero h))
        simp [h1, h2, hne]
      have hbod : ∀ b ∈ t0.bodies, b < 2 ^ k := fun b hb => List.mem_range.1 (q7.mem_iff.1 hb)
      obtain ⟨m2, b1, b2, b3, b4⟩ := refresh_shows he.fits he.count hl he.layout.sep (ratio := e.ratio) hrad he.tree.1
        (Y := Y) (m := m1) q4 q6 q5 hbod (B := bodiesOf (2 ^ k) Y M)
        (fun b _ => by simp [bodiesOf, Bodies.pos, posOf])
        (fun d j hd hj => hY1 d j hd (by omega)) (fun d F i hd _ hi => hr1.tree d F i hd hi)
        (fun d i c hd hi hcc => by rw [hT1 d _ i hd, hT1 d _ i hd]; exact q10 d i c hd hi hcc)
        (bodyN := st.heap.map Cell.body) (fun i _ => by simp)
      have hreb : spaceTreeRebuild (bodiesOf (2 ^ k) Y M) e.half e.ratio t =
          spaceTreeRebuild (bodiesOf (2 ^ k) Y M) e.half e.ratio t0 := q9 _
      have hperm' : (spaceTreeRebuild (bodiesOf (2 ^ k) Y M) e.half e.ratio t0).bodies.Perm (List.range (2 ^ k)) := by
        unfold spaceTreeRebuild
        rw [bodies_rebuild]
        exact q7
      have hleaf : ∀ i b x, NodeAt t0 i (.leaf b x) →
          NodeAt (spaceTreeRebuild (bodiesOf (2 ^ k) Y M) e.half e.ratio t0) i
            (.leaf b ⟨(bodiesOf (2 ^ k) Y M).pos b, x.mass, x.rsq, (bodiesOf (2 ^ k) Y M).pos b,
              (bodiesOf (2 ^ k) Y M).pos b⟩) := fun i b x hx =>
        nodeAt_rebuild (B := bodiesOf (2 ^ k) Y M) (half := e.half) (ratio2 := e.ratio * e.ratio) hx
      obtain ⟨m', c1, c2, c3, c4⟩ := finish st (spaceTreeRebuild (bodiesOf (2 ^ k) Y M) e.half e.ratio t0) t0 m2
        (b2.trans a2) (fun x j _ h => b4 x j h) (perfect_rebuild t0 k q6) hperm' q3 q4 q5 q6 q7 q8
        (fun B => rebuild_rebuild t0)
        (fun d i c hd hi hcc => by
          have hlt : i < 2 ^ (k + 1) := by
            have := (List.getElem?_eq_some_iff.1 hcc).1
            rw [q4] at this
            exact this
          obtain ⟨b, x, l1, l2, _⟩ := leaf_at q6 q5 hi hlt
          obtain rfl : ⟨x, b⟩ = c := Option.some.inj (l2.symm.trans hcc)
          have hcell := ((b3 d hd).at (hleaf i b x l1)).root
          exact ⟨hcell .mass trivial, hcell .crit trivial⟩)
        (fun i b x hx => ⟨_, hleaf i b x hx, rfl⟩)
        (fun d hd => (b3 d hd).mono fun j F _ => ⟨trivial, rfl⟩)
      refine ⟨st, _, m', ?_, c2, by simp only [treeAfter, if_neg hdue, hreb], c3, ?_⟩
      · simp only [q3, hc, Bool.false_eq_true, if_false, b1, res_ok_bind, c1]
      · rw [← h6]; exact c4

end

end NB
