import Verif.Lemmas.DenseKernel
import Verif.Lemmas.RealVec
import Verif.Lemmas.Sums
import Mathlib.Algebra.BigOperators.Intervals

/-
C70: the dense force kernels of the GPU engines.  Whatever the number of devices, the way they exchange data,
and the interleaving of work items, groups, devices and copies, `fcompute` ends with the same numbers on every
device; these are the accelerations of the direct sum.
-/

namespace NB.C70

/-! ### Specification -/

section
variable {S : Type}

/-- Every device holds `V` in its replica of the buffer. -/
def Everywhere (D : ℕ) (h : Handle) (size : ℕ) (V : ℕ → S) (m : Mem S) : Prop :=
  ∀ d j, d < D → j < size → m.cell (rep D h d) j = some (V j)

/-- Device `d` holds the elements `d * w … d * w + w - 1` of `V`; what it holds elsewhere is arbitrary. -/
def InSlices (D : ℕ) (h : Handle) (w : ℕ) (V : ℕ → S) (m : Mem S) : Prop :=
  Replicated D h (D * w) m ∧ ∀ d i, d < D → i < w → m.cell (rep D h d) (d * w + i) = some (V (d * w + i))

/-- What `fcompute` is given: `D` devices with `w` bodies each, the state in slices, the masses on every
device, room for the result and the local memory of the groups. -/
structure Given (D w B : ℕ) (hm y f hs : ℕ) (Y M : ℕ → S) (host : Option Handle) (m : Mem S) : Prop where
  devices : 0 < D
  bodies : 0 < w
  block : 0 < B
  state : InSlices D y (6 * w) Y m
  masses : Everywhere D hm (D * w) M m
  result : Replicated D f (6 * (D * w)) m
  scratch : HasLocal D B (w / B) hs m
  hostBuffer : HostOk host D hs (6 * (D * w)) m
  distinct : y ≠ f ∧ hm ≠ f ∧ hm ≠ y
  below : hm < hs ∧ y < hs ∧ f < hs

/-- What `fcompute` ends with: `F` and the state on every device, nothing else changed below `hs`. -/
structure Computed (D w : ℕ) (y f hs : ℕ) (Y F : ℕ → S) (m m' : Mem S) : Prop where
  result : Everywhere D f (6 * (D * w)) F m'
  state : Everywhere D y (6 * (D * w)) Y m'
  shape : m'.shape = m.shape
  rest : ∀ x j, x / D < hs → x / D ≠ y → x / D ≠ f → m'.cell x j = m.cell x j

/-- Positions in a state buffer. -/
def pos (n : ℕ) (Y : ℕ → ℝ) (i : ℕ) : Fin 3 → ℝ := ![Y i, Y (n + i), Y (2 * n + i)]

end

/-! ### The computation -/

section
variable {S : Type} [Add S] [Sub S] [Mul S] [Div S] [Zero S] [FOps S]

lemma has_of_cell {m : Mem S} {x : Handle} {j : ℕ} (h : (m.cell x j).isSome) : m.has x = true := by
  unfold Mem.cell at h
  unfold Mem.has
  cases hx : m x with
  | none => rw [hx] at h; cases h
  | some l => rfl

/-- After the exchange of the state, the launch and the exchange of the result. -/
lemma computed_part (vel : Bool) {launch : Launch S (DenseReg S)} (hl : IsLaunch launch) {loop : Loop S}
    (hp : IsParLoop loop) {host : Option Handle} {D w B hm y f hs : ℕ} {Y M : ℕ → S} {m : Mem S}
    (hD : SyncOk host D) (g : Given D w B hm y f hs Y M host m) (hdvd : B ∣ D * w) {kern : Kernel S (DenseReg S)}
    (hk : IsDense vel D (D * w) B (w / B) (tiles (D * w) B) hm y f hs kern) (r0 : DenseReg S) :
    ∃ m1 m2 m', syncY loop host D y (6 * (D * w)) m = .ok m1 ∧
      launch (denseGroups vel D (w / B)) B (2 * tiles (D * w) B + 1) kern r0 m1 = .ok m2 ∧
      syncF loop host D f (6 * (D * w)) m2 = .ok m' ∧
      (∀ d j, d < D → j < 6 * (D * w) → m'.cell (rep D f d) j =
        if j % (D * w) % w < w / B * B then some (denseVal (D * w) B Y M j)
        else m.cell (rep D f (j % (D * w) / w)) j) ∧
      Everywhere D y (6 * (D * w)) Y m' ∧ m'.shape = m.shape ∧
      ∀ x j, x / D < hs → x / D ≠ y → x / D ≠ f → m'.cell x j = m.cell x j := by
  obtain ⟨hyf, hmf, hmy⟩ := g.distinct
  obtain ⟨h1, h2, h3⟩ := g.below
  have hsize : 6 * (D * w) = D * (6 * w) := by ring
  have hw := g.bodies
  have hB := g.block
  obtain ⟨q, hq⟩ := hdvd
  have hT : tiles (D * w) B * B = D * w := by
    unfold tiles
    rw [hq, show B * q + B - 1 = B * q + (B - 1) by omega, Nat.mul_add_div hB,
      Nat.div_eq_of_lt (by omega), Nat.add_zero, Nat.mul_comm]
  obtain ⟨Gd, hwB⟩ : ∃ Gd, w / B = Gd := ⟨_, rfl⟩
  have hfit : Gd * B ≤ w := by rw [← hwB]; exact Nat.div_mul_le_self w B
  have hnD : D * w / D = w := Nat.mul_div_cancel_left _ g.devices
  have hhost := g.hostBuffer
  have hres := g.result
  rw [hsize] at hhost
  obtain ⟨m1, a1, a2, a3, a4⟩ := syncY_run hp hD (w := 6 * w) (by omega) h2 g.state.1 hhost
  have hY : ∀ d j, d < D → j < 6 * (D * w) → m1.cell (rep D y d) j = some (Y j) := by
    intro d j hd hj
    rw [hsize] at hj
    have hlt : j / (6 * w) < D := Nat.div_lt_of_lt_mul (by rwa [Nat.mul_comm])
    have hmod : j % (6 * w) < 6 * w := Nat.mod_lt _ (by omega)
    have he : j / (6 * w) * (6 * w) + j % (6 * w) = j := by rw [Nat.mul_comm]; exact Nat.div_add_mod _ _
    rw [a3 d j hd hj]
    have := g.state.2 (j / (6 * w)) (j % (6 * w)) hlt hmod
    rwa [he] at this
  obtain ⟨m2, b1, b2, b3⟩ := denseLaunch_run hl hk g.devices g.block (by rw [hwB, hnD]; exact hfit) hT hyf hmf h1 h2 h3 r0
    (m := m1) (Y := Y) (M := M) hY
    (fun d j hd hj => by
      rw [a4 _ _ (by rw [rep_div hd]; exact hmy) (by rw [rep_div hd]; exact h1)]
      exact g.masses d j hd hj)
    (hres.of_shape a2) (fun g' k l hg hk' hl' => isSome_of_shape a2 (g.scratch g' k l hg hk' hl'))
  rw [hwB] at b1 b3 ⊢
  obtain ⟨m', c1, c2, c3, c4⟩ := syncF_run hp hD (w := w) hw h3 (m := m2) ((hres.of_shape a2).of_shape b2)
    ((g.hostBuffer.of_shape a2).of_shape b2)
  have hgroup : ∀ x j, x / D < hs → x / D ≠ f → m2.cell x j = m1.cell x j := by
    intro x j hx hne
    rw [b3 x j hx, if_neg]
    rintro ⟨g', l, hg', _, e, _⟩
    exact hne (by rw [e, rep_div (gsub_dev hg')])
  refine ⟨m1, m2, m', by rw [hsize]; exact a1, b1, c1, ?_, ?_, ?_, ?_⟩
  · intro d j hd hj
    have hn0 : 0 < D * w := Nat.mul_pos g.devices hw
    have hjn : j % (D * w) < D * w := Nat.mod_lt _ hn0
    have hdev : j % (D * w) / w < D := Nat.div_lt_of_lt_mul (by rwa [Nat.mul_comm w])
    rw [c3 d j hd hj, b3 _ _ (by rw [rep_div hdev]; exact h3)]
    by_cases hi : j % (D * w) % w < Gd * B
    swap
    · rw [if_neg hi, if_neg, a4 _ _ (by rw [rep_div hdev]; exact hyf.symm) (by rw [rep_div hdev]; exact h3)]
      rintro ⟨g', l, hg', hl', _, _, e, _⟩
      apply hi
      have hs' := gsub_lt hg'
      have hGpos : 0 < Gd := by
        rcases Nat.eq_zero_or_pos Gd with e | e
        · subst e; omega
        · exact e
      have hmod : gsub D Gd g' % Gd < Gd := Nat.mod_lt _ hGpos
      have hlt := group_lt hmod hl'
      rw [e]
      unfold gpuBody
      rw [hnD, Nat.mul_comm _ w, Nat.mul_add_mod, Nat.mod_eq_of_lt (by omega)]
      exact hlt
    rw [if_pos hi, if_pos]
    have hib : j % (D * w) % w / B < Gd := Nat.div_lt_of_lt_mul (by rwa [Nat.mul_comm B])
    have hl' : j % (D * w) % w % B < B := Nat.mod_lt _ g.block
    have e1 : (j % (D * w) / w * Gd + j % (D * w) % w / B) / Gd = j % (D * w) / w := group_div hib
    have e2 : (j % (D * w) / w * Gd + j % (D * w) % w / B) % Gd = j % (D * w) % w / B := group_mod hib
    have e3 : j % (D * w) / w * Gd + j % (D * w) % w / B < D * Gd := group_lt hdev hib
    have e4 : gpuBody D (D * w) B Gd (j % (D * w) / w * Gd + j % (D * w) % w / B) (j % (D * w) % w % B)
        = j % (D * w) := by
      unfold gpuBody
      rw [e1, e2, hnD, Nat.mul_comm (j % (D * w) % w / B), Nat.div_add_mod, Nat.mul_comm (j % (D * w) / w),
        Nat.div_add_mod]
    by_cases hv : vel = true ∨ 3 * (D * w) ≤ j
    · refine ⟨j % (D * w) / w * Gd + j % (D * w) % w / B, j % (D * w) % w % B, ?_, hl', ?_, hj, ?_, ?_⟩
      · unfold denseGroups; omega
      · rw [gsub, if_pos e3, e1]
      · rw [gsub, if_pos e3, e4]
      · rw [if_pos e3]; exact hv
    · have hvf : vel = false := by
        cases vel
        · rfl
        · exact absurd (Or.inl rfl) hv
      have hjl : j < 3 * (D * w) := by
        by_contra h
        exact hv (Or.inr (by omega))
      have e5 : ¬ D * Gd + (j % (D * w) / w * Gd + j % (D * w) % w / B) < D * Gd := by omega
      refine ⟨D * Gd + (j % (D * w) / w * Gd + j % (D * w) % w / B), j % (D * w) % w % B, ?_, hl', ?_, hj, ?_, ?_⟩
      · unfold denseGroups; rw [hvf]; simp only [Bool.false_eq_true, if_false]; omega
      · rw [gsub, if_neg e5, Nat.add_sub_cancel_left, e1]
      · rw [gsub, if_neg e5, Nat.add_sub_cancel_left, e4]
      · rw [if_neg e5]; exact hjl
  · intro d j hd hj
    rw [c4 _ _ (by rw [rep_div hd]; exact hyf) (by rw [rep_div hd]; exact h2),
      hgroup _ _ (by rw [rep_div hd]; exact h2) (by rw [rep_div hd]; exact hyf), hY d j hd hj]
  · rw [c2, b2, a2]
  · intro x j hx hxy hxf
    rw [c4 x j hxf hx, hgroup x j hx hxf, a4 x j hxy hx]

lemma computed (vel : Bool) {launch : Launch S (DenseReg S)} (hl : IsLaunch launch) {loop : Loop S}
    (hp : IsParLoop loop) {host : Option Handle} {D w B hm y f hs : ℕ} {Y M : ℕ → S} {m : Mem S}
    (hD : SyncOk host D) (g : Given D w B hm y f hs Y M host m) (hBw : B ∣ w) {kern : Kernel S (DenseReg S)}
    (hk : IsDense vel D (D * w) B (w / B) (tiles (D * w) B) hm y f hs kern) (r0 : DenseReg S) :
    ∃ m1 m2 m', syncY loop host D y (6 * (D * w)) m = .ok m1 ∧
      launch (denseGroups vel D (w / B)) B (2 * tiles (D * w) B + 1) kern r0 m1 = .ok m2 ∧
      syncF loop host D f (6 * (D * w)) m2 = .ok m' ∧
      Computed D w y f hs Y (denseVal (D * w) B Y M) m m' := by
  obtain ⟨m1, m2, m', a1, a2, a3, a4, a5, a6, a7⟩ :=
    computed_part vel hl hp hD g (Dvd.dvd.mul_left hBw D) hk r0
  refine ⟨m1, m2, m', a1, a2, a3, ⟨fun d j hd hj => ?_, a5, a6, a7⟩⟩
  rw [a4 d j hd hj, if_pos]
  rw [Nat.div_mul_cancel hBw]
  exact Nat.mod_lt _ g.bodies

lemma fcompute_val (n B : ℕ) (Y M : ℕ → S) (launch : Launch S (DenseReg S)) (loop : Loop S)
    (host : Option Handle) (D w hm y f hs : ℕ) (m : Mem S) (hl : IsLaunch launch) (hp : IsParLoop loop)
    (hn : n = D * w) (hBw : B ∣ w) (hD : SyncOk host D) (g : Given D w B hm y f hs Y M host m) :
    (∃ m', fcomputeOpenCL launch loop host D n B hm y f hs m = .ok m' ∧
      Computed D w y f hs Y (denseVal n B Y M) m m') ∧
    (host = none →
      ∃ m', fcomputeCuda launch loop D n B hm y f hs m = .ok m' ∧
        Computed D w y f hs Y (denseVal n B Y M) m m') := by
  subst hn
  have hD0 : D ≠ 0 := by have := g.devices; omega
  have hnD : D * w / D = w := Nat.mul_div_cancel_left _ g.devices
  have hpos : 0 < D * w := Nat.mul_pos g.devices g.bodies
  have hy : m.has (rep D y 0) = true := has_of_cell (g.state.1 0 0 g.devices (Nat.mul_pos g.devices (by
    have := g.bodies; omega)))
  have hf : m.has (rep D f 0) = true := has_of_cell (g.result 0 0 g.devices (by omega))
  have hmod : w % B = 0 := Nat.mod_eq_zero_of_dvd hBw
  have hBle : B ≤ w := Nat.le_of_dvd g.bodies hBw
  refine ⟨?_, ?_⟩
  · obtain ⟨m1, m2, m', a1, a2, a3, a4⟩ := computed (launch := launch) true hl hp hD g hBw
      (kern := fun p i r => denseKernel true (D * w) B (tiles (D * w) B) (rep D hm (i / B / (w / B)))
        (rep D y (i / B / (w / B))) (rep D f (i / B / (w / B))) (localMem D hs (i / B)) (i % B)
        (gpuBody D (D * w) B (w / B) (i / B) (i % B)) p r)
      ⟨fun _ _ _ _ => rfl, fun h => by cases h⟩ ⟨0, 0, 0⟩
    refine ⟨m', ?_, a4⟩
    have hgr : openclGroups (D * w / D) B = .ok (w / B) := by
      unfold openclGroups
      rw [hnD, if_neg]
      rintro (e | e)
      · have := g.block; omega
      · exact e hmod
    have hG : denseGroups true D (w / B) = D * (w / B) := by simp [denseGroups]
    rw [hG] at a2
    unfold fcomputeOpenCL
    rw [if_neg hD0]
    simp only [hy, hf, a1, hgr, Bool.not_true, Bool.false_eq_true, if_false, res_ok_bind]
    rw [a2]
    exact a3
  · rintro rfl
    obtain ⟨m1, m2, m', a1, a2, a3, a4⟩ := computed (launch := launch) false hl hp hD g hBw
      (kern := fun p i r =>
        if i / B < D * (w / B) then
          denseKernel false (D * w) B (tiles (D * w) B) (rep D hm (i / B / (w / B)))
            (rep D y (i / B / (w / B))) (rep D f (i / B / (w / B))) (localMem D hs (i / B)) (i % B)
            (gpuBody D (D * w) B (w / B) (i / B) (i % B)) p r
        else if p = 0 then do
          denseVel (D * w) (rep D y ((i / B - D * (w / B)) / (w / B))) (rep D f ((i / B - D * (w / B)) / (w / B)))
            (gpuBody D (D * w) B (w / B) (i / B - D * (w / B)) (i % B))
          pure r
        else pure r)
      ⟨fun _ _ _ h => if_pos h, fun _ _ _ _ h => if_neg h⟩ ⟨0, 0, 0⟩
    refine ⟨m', ?_, a4⟩
    have hgr : cudaGroups (D * w / D) B = .ok (w / B) := by
      unfold cudaGroups
      have := g.block
      have : 0 < w / B := Nat.div_pos hBle g.block
      rw [hnD, if_neg (by omega), if_neg (by omega)]
    have hG : denseGroups false D (w / B) = D * (w / B) + D * (w / B) := by simp [denseGroups]
    rw [hG] at a2
    unfold fcomputeCuda
    rw [if_neg hD0]
    simp only [hy, hf, a1, hgr, Bool.not_true, Bool.false_eq_true, if_false, res_ok_bind]
    rw [a2]
    exact a3

/-- Bodies counted over all devices, for any arithmetic: the OpenCL engine and the CUDA engine with the same
group size end with the same numbers `F` on every device, in every execution, for every number of devices and
either way of exchanging data.  `F` depends on nothing but the bodies and the group size. -/
theorem same_result (n B : ℕ) (Y M : ℕ → S) : ∃ F : ℕ → S,
    ∀ (launch : Launch S (DenseReg S)) (loop : Loop S) (host : Option Handle) (D w hm y f hs : ℕ) (m : Mem S),
      IsLaunch launch → IsParLoop loop → n = D * w → B ∣ w → SyncOk host D → Given D w B hm y f hs Y M host m →
      (∃ m', fcomputeOpenCL launch loop host D n B hm y f hs m = .ok m' ∧ Computed D w y f hs Y F m m') ∧
      (host = none →
        ∃ m', fcomputeCuda launch loop D n B hm y f hs m = .ok m' ∧ Computed D w y f hs Y F m m') :=
  ⟨denseVal n B Y M, fun launch loop host D w hm y f hs m hl hp hn hB hD g =>
    fcompute_val n B Y M launch loop host D w hm y f hs m hl hp hn hB hD g⟩

end

/-! ### Exact arithmetic -/

/-- Contribution of body `j` to the acceleration of body `i`. -/
noncomputable def pairTerm (n : ℕ) (Y M : ℕ → ℝ) (i j : ℕ) (k : Fin 3) : ℝ :=
  -(M j) * (pos n Y i k - pos n Y j k) / Real.sqrt (max (Spec.dist2 (pos n Y i) (pos n Y j)) 1e-8) ^ 3

lemma denseTerm_coord (n : ℕ) (Y M : ℕ → ℝ) (i j : ℕ) (loc : Vec3 ℝ) (k : Fin 3) :
    (denseTerm (posOf n Y i) (posOf n Y j) (M j) loc).coord k = loc.coord k + pairTerm n Y M i j k := by
  have hd : (posOf n Y i).x - (posOf n Y j).x = pos n Y i 0 - pos n Y j 0 := rfl
  have hd1 : (posOf n Y i).y - (posOf n Y j).y = pos n Y i 1 - pos n Y j 1 := rfl
  have hd2 : (posOf n Y i).z - (posOf n Y j).z = pos n Y i 2 - pos n Y j 2 := rfl
  have hr : (pos n Y i 0 - pos n Y j 0) * (pos n Y i 0 - pos n Y j 0) +
      (pos n Y i 1 - pos n Y j 1) * (pos n Y i 1 - pos n Y j 1) +
      (pos n Y i 2 - pos n Y j 2) * (pos n Y i 2 - pos n Y j 2) = Spec.dist2 (pos n Y i) (pos n Y j) := by
    unfold Spec.dist2; ring
  have hs := soft_pos (Spec.dist2 (pos n Y i) (pos n Y j))
  have hq := soft_mul_sqrt (Spec.dist2 (pos n Y i) (pos n Y j))
  rw [mul_comm] at hq
  unfold denseTerm pairTerm
  simp only [hd, hd1, hd2, hr, soft_eq, real_sqrt, hq]
  change _ = _ + -(M j) * (pos n Y i k - pos n Y j k) / √(soft (Spec.dist2 (pos n Y i) (pos n Y j))) ^ 3
  fin_cases k
  · change loc.x - _ = loc.x + -(M j) * (pos n Y i 0 - pos n Y j 0) / _; ring
  · change loc.y - _ = loc.y + -(M j) * (pos n Y i 1 - pos n Y j 1) / _; ring
  · change loc.z - _ = loc.z + -(M j) * (pos n Y i 2 - pos n Y j 2) / _; ring

lemma fold_coord (n L : ℕ) (Y M : ℕ → ℝ) (i : ℕ) (ix : ℕ → ℕ) (k : Fin 3) :
    (foldN L 0 (fun l loc => denseTerm (posOf n Y i) (posOf n Y (ix l)) (M (ix l)) loc)).coord k =
      ∑ l ∈ Finset.range L, pairTerm n Y M i (ix l) k := by
  induction L with
  | zero => fin_cases k <;> rfl
  | succ L ih => rw [Finset.sum_range_succ, ← ih]; exact denseTerm_coord n Y M i (ix L) _ k

lemma coord_add (a b : Vec3 ℝ) (k : Fin 3) : (a + b).coord k = a.coord k + b.coord k := by
  fin_cases k <;> rfl

lemma tiledAcc_coord (n B : ℕ) (Y M : ℕ → ℝ) (i T : ℕ) (k : Fin 3) :
    (tiledAcc n B Y M (posOf n Y i) T).coord k = ∑ j ∈ Finset.range (T * B), pairTerm n Y M i j k := by
  induction T with
  | zero => simp only [Nat.zero_mul, Finset.range_zero, Finset.sum_empty]; fin_cases k <;> rfl
  | succ T ih =>
    rw [Nat.succ_mul, Finset.sum_range_add, ← ih, ← fold_coord n B Y M i (fun l => T * B + l) k]
    exact coord_add _ _ k

lemma pair_sum (n : ℕ) (Y M : ℕ → ℝ) (i : ℕ) (k : Fin 3) :
    ∑ j ∈ Finset.range n, pairTerm n Y M i j k = Spec.accel 1e-8 n (pos n Y) M i k := by
  unfold Spec.accel
  by_cases h : i < n
  · rw [← Finset.add_sum_erase _ _ (Finset.mem_range.2 h)]
    have : pairTerm n Y M i i k = 0 := by unfold pairTerm; simp
    rw [this, zero_add]
    rfl
  · rw [Finset.erase_eq_of_notMem (by simpa using h)]
    rfl

/-- In exact arithmetic, for every number of devices, either way of exchanging data and every execution,
`fcompute` of the OpenCL engine, and of the CUDA engine, returns and every device then holds the derivative of
the state: the velocities, and for each body the acceleration of the softened direct sum over all the others. -/
theorem newton (launch : Launch ℝ (DenseReg ℝ)) (loop : Loop ℝ) (host : Option Handle) (D w B hm y f hs : ℕ)
    (Y M : ℕ → ℝ) (m : Mem ℝ) (hl : IsLaunch launch) (hp : IsParLoop loop) (hD : SyncOk host D)
    (hBw : B ∣ w) (g : Given D w B hm y f hs Y M host m) : ∃ F : ℕ → ℝ,
    (∃ m', fcomputeOpenCL launch loop host D (D * w) B hm y f hs m = .ok m' ∧ Computed D w y f hs Y F m m') ∧
    (host = none →
      ∃ m', fcomputeCuda launch loop D (D * w) B hm y f hs m = .ok m' ∧ Computed D w y f hs Y F m m') ∧
    (∀ i, i < 3 * (D * w) → F i = Y (3 * (D * w) + i)) ∧
    (∀ i (k : Fin 3), i < D * w →
      F ((3 + k) * (D * w) + i) = Spec.accel 1e-8 (D * w) (pos (D * w) Y) M i k) := by
  obtain ⟨h1, h2⟩ := fcompute_val (D * w) B Y M launch loop host D w hm y f hs m hl hp rfl hBw hD g
  refine ⟨denseVal (D * w) B Y M, h1, h2, fun i hi => if_pos hi, fun i k hi => ?_⟩
  have hT : tiles (D * w) B * B = D * w := by
    obtain ⟨q, hq⟩ := hBw
    have hB := g.block
    unfold tiles
    rw [hq, show D * (B * q) + B - 1 = B * (D * q) + (B - 1) by
      rw [show D * (B * q) = B * (D * q) by ring]; omega, Nat.mul_add_div hB,
      Nat.div_eq_of_lt (by omega), Nat.add_zero]
    ring
  generalize D * w = n at *
  have hmod : ∀ a, (a * n + i) % n = i := fun a => by
    rw [Nat.mul_comm, Nat.mul_add_mod, Nat.mod_eq_of_lt hi]
  have key := tiledAcc_coord n B Y M i (tiles n B) k
  rw [hT, pair_sum] at key
  rw [← key]
  unfold denseVal
  simp only [hmod]
  rw [if_neg (by have : 3 * n ≤ (3 + (k : ℕ)) * n := Nat.mul_le_mul_right _ (by omega); omega)]
  fin_cases k
  · change (if (3 + 0) * n + i < 4 * n then _ else _) = _
    rw [if_pos (by omega)]; rfl
  · change (if (3 + 1) * n + i < 4 * n then _ else (if (3 + 1) * n + i < 5 * n then _ else _)) = _
    rw [if_neg (by omega), if_pos (by omega)]; rfl
  · change (if (3 + 2) * n + i < 4 * n then _ else (if (3 + 2) * n + i < 5 * n then _ else _)) = _
    rw [if_neg (by omega), if_neg (by omega)]; rfl

/-! ### Numbers of bodies that do not fit -/

section
variable {S : Type} [Add S] [Sub S] [Mul S] [Div S] [Zero S] [FOps S]

lemma has_first {D w B hm y f hs : ℕ} {Y M : ℕ → S} {host : Option Handle} {m : Mem S}
    (g : Given D w B hm y f hs Y M host m) : m.has (rep D y 0) = true ∧ m.has (rep D f 0) = true := by
  have hw := g.bodies
  have hD := g.devices
  have hn : 0 < D * w := Nat.mul_pos hD hw
  exact ⟨has_of_cell (j := 0) (g.state.1 0 0 hD (Nat.mul_pos hD (by omega))),
    has_of_cell (j := 0) (g.result 0 0 hD (by omega))⟩

lemma syncY_ok {loop : Loop S} (hp : IsParLoop loop) {D w B hm y f hs : ℕ} {Y M : ℕ → S} {host : Option Handle}
    {m : Mem S} (hD : SyncOk host D) (g : Given D w B hm y f hs Y M host m) :
    ∃ m1, syncY loop host D y (6 * (D * w)) m = .ok m1 ∧ m1.shape = m.shape := by
  have hsize : 6 * (D * w) = D * (6 * w) := by ring
  have hw := g.bodies
  have hhost := g.hostBuffer
  rw [hsize] at hhost ⊢
  obtain ⟨m1, a1, a2, _⟩ := syncY_run hp hD (w := 6 * w) (by omega) g.below.2.1 g.state.1 hhost
  exact ⟨m1, a1, a2⟩

/-- The OpenCL engine refuses to compute (the launch throws) when the number of bodies per device is not a
multiple of the group size. -/
theorem opencl_refuses (launch : Launch S (DenseReg S)) (loop : Loop S) (host : Option Handle)
    (D w B hm y f hs : ℕ) (Y M : ℕ → S) (m : Mem S) (hp : IsParLoop loop) (hD : SyncOk host D)
    (hBw : ¬ B ∣ w) (g : Given D w B hm y f hs Y M host m) :
    fcomputeOpenCL launch loop host D (D * w) B hm y f hs m = .error .thrown := by
  obtain ⟨m1, a1, _⟩ := syncY_ok hp hD g
  obtain ⟨hy, hf⟩ := has_first g
  have hnD : D * w / D = w := Nat.mul_div_cancel_left _ g.devices
  have hgr : openclGroups (D * w / D) B = .error .thrown := by
    unfold openclGroups
    rw [hnD, if_pos (Or.inr fun h => hBw (Nat.dvd_of_mod_eq_zero h))]
  have hD0 : ¬ D = 0 := by have := g.devices; omega
  unfold fcomputeOpenCL
  rw [if_neg hD0]
  simp only [hy, hf, a1, hgr, Bool.not_true, Bool.false_eq_true, if_false, res_ok_bind]
  rfl

/-- The CUDA engine ends the program with an error when a device has less bodies than the group size. -/
theorem cuda_refuses (launch : Launch S (DenseReg S)) (loop : Loop S)
    (D w B hm y f hs : ℕ) (Y M : ℕ → S) (m : Mem S) (hp : IsParLoop loop) (hD : SyncOk none D)
    (hBw : w < B) (g : Given D w B hm y f hs Y M none m) :
    fcomputeCuda launch loop D (D * w) B hm y f hs m = .error .thrown := by
  obtain ⟨m1, a1, _⟩ := syncY_ok hp hD g
  obtain ⟨hy, hf⟩ := has_first g
  have hnD : D * w / D = w := Nat.mul_div_cancel_left _ g.devices
  have hgr : cudaGroups (D * w / D) B = .error .thrown := by
    unfold cudaGroups
    have := g.block
    rw [hnD, if_neg (by omega), if_pos (Nat.div_eq_of_lt hBw)]
  have hD0 : ¬ D = 0 := by have := g.devices; omega
  unfold fcomputeCuda
  rw [if_neg hD0]
  simp only [hy, hf, a1, hgr, Bool.not_true, Bool.false_eq_true, if_false, res_ok_bind]
  rfl

/-- The CUDA engine silently computes nothing for some bodies when the bodies of all devices are a multiple of
the group size but those of one device are not: with `w` bodies per device, the last `w % B` of each device
keep, in all six components and on every device, what the result buffer held before the call. -/
theorem cuda_tail_stale (launch : Launch S (DenseReg S)) (loop : Loop S)
    (D w B hm y f hs : ℕ) (Y M : ℕ → S) (m : Mem S) (hl : IsLaunch launch) (hp : IsParLoop loop)
    (hD : SyncOk none D) (hn : B ∣ D * w) (hBw : B ≤ w) (g : Given D w B hm y f hs Y M none m) :
    ∃ m', fcomputeCuda launch loop D (D * w) B hm y f hs m = .ok m' ∧
      ∀ d e i r, d < D → e < D → w / B * B ≤ i → i < w → r < 6 →
        m'.cell (rep D f d) (r * (D * w) + (e * w + i)) = m.cell (rep D f e) (r * (D * w) + (e * w + i)) := by
  obtain ⟨m1, m2, m', a1, a2, a3, a4, _⟩ := computed_part (launch := launch) false hl hp hD g hn
    (kern := fun p i r =>
      if i / B < D * (w / B) then
        denseKernel false (D * w) B (tiles (D * w) B) (rep D hm (i / B / (w / B)))
          (rep D y (i / B / (w / B))) (rep D f (i / B / (w / B))) (localMem D hs (i / B)) (i % B)
          (gpuBody D (D * w) B (w / B) (i / B) (i % B)) p r
      else if p = 0 then do
        denseVel (D * w) (rep D y ((i / B - D * (w / B)) / (w / B))) (rep D f ((i / B - D * (w / B)) / (w / B)))
          (gpuBody D (D * w) B (w / B) (i / B - D * (w / B)) (i % B))
        pure r
      else pure r)
    ⟨fun _ _ _ h => if_pos h, fun _ _ _ _ h => if_neg h⟩ ⟨0, 0, 0⟩
  refine ⟨m', ?_, ?_⟩
  · obtain ⟨hy, hf⟩ := has_first g
    have hnD : D * w / D = w := Nat.mul_div_cancel_left _ g.devices
    have hgr : cudaGroups (D * w / D) B = .ok (w / B) := by
      unfold cudaGroups
      have := g.block
      have : 0 < w / B := Nat.div_pos hBw g.block
      rw [hnD, if_neg (by omega), if_neg (by omega)]
    have hG : denseGroups false D (w / B) = D * (w / B) + D * (w / B) := by simp [denseGroups]
    have hD0 : ¬ D = 0 := by have := g.devices; omega
    rw [hG] at a2
    unfold fcomputeCuda
    rw [if_neg hD0]
    simp only [hy, hf, a1, hgr, Bool.not_true, Bool.false_eq_true, if_false, res_ok_bind]
    rw [a2]
    exact a3
  · intro d e i r hd he hi hiw hr
    have hlt : e * w + i < D * w := group_lt he hiw
    have hmod : (r * (D * w) + (e * w + i)) % (D * w) = e * w + i := group_mod hlt
    have hj : r * (D * w) + (e * w + i) < 6 * (D * w) := group_lt hr hlt
    rw [a4 d _ hd hj, hmod, group_mod hiw, group_div hiw, if_neg (by omega)]

/-- The CUDA engine reads outside the buffer of masses when the number of bodies is not a multiple of the group
size (and every device has at least one group): the kernel goes over whole tiles. -/
theorem cuda_out_of_bounds (launch : Launch S (DenseReg S)) (loop : Loop S)
    (D w B hm y f hs : ℕ) (Y M : ℕ → S) (m : Mem S) (hl : IsLaunch launch) (hp : IsParLoop loop)
    (hD : SyncOk none D) (hn : ¬ B ∣ D * w) (hBw : B ≤ w) (g : Given D w B hm y f hs Y M none m)
    (hmass : m.shape (rep D hm 0) = some (D * w)) :
    ∃ e, fcomputeCuda launch loop D (D * w) B hm y f hs m = .error e := by
  obtain ⟨m1, a1, a2⟩ := syncY_ok hp hD g
  obtain ⟨hy, hf⟩ := has_first g
  have hB := g.block
  have hnD : D * w / D = w := Nat.mul_div_cancel_left _ g.devices
  have hGpos : 0 < w / B := Nat.div_pos hBw g.block
  have hgr : cudaGroups (D * w / D) B = .ok (w / B) := by
    unfold cudaGroups
    rw [hnD, if_neg (by omega), if_neg (by omega)]
  have hD0 : ¬ D = 0 := by have := g.devices; omega
  have hDG : 0 < D * (w / B) := Nat.mul_pos g.devices hGpos
  obtain ⟨q, rm, hdm, hmlt, hm0, hq⟩ : ∃ q rm, B * q + rm = D * w ∧ rm < B ∧ 0 < rm ∧ D * w / B = q :=
    ⟨_, _, Nat.div_add_mod (D * w) B, Nat.mod_lt (D * w) hB,
      Nat.pos_of_ne_zero fun h => hn (Nat.dvd_of_mod_eq_zero h), rfl⟩
  have hT : tiles (D * w) B = q + 1 := by
    unfold tiles
    have : D * w + B - 1 = B * (q + 1) + (rm - 1) := by rw [Nat.mul_add]; omega
    rw [this, Nat.mul_add_div hB, Nat.div_eq_of_lt (by omega), Nat.add_zero]
  have hbad : m1.cell (rep D hm 0) (q * B + (B - 1)) = none := by
    have h1 : (m1.cell (rep D hm 0) (q * B + (B - 1))).isSome = false := by
      rw [Mem.isSome_cell, a2, hmass]
      simp only [Option.any_some, decide_eq_false_iff_not]
      rw [Nat.mul_comm] at hdm
      omega
    simpa using h1
  have hi : B - 1 < (D * (w / B) + D * (w / B)) * B :=
    lt_of_lt_of_le (by omega) (Nat.le_mul_of_pos_left B (by omega : 0 < D * (w / B) + D * (w / B)))
  have key : ∀ kern : Kernel S (DenseReg S),
      (∀ p r, kern p (B - 1) r = denseKernel false (D * w) B (tiles (D * w) B) (rep D hm 0) (rep D y 0)
        (rep D f 0) (localMem D hs 0) (B - 1) (gpuBody D (D * w) B (w / B) 0 (B - 1)) p r) →
      ∃ e, launch (D * (w / B) + D * (w / B)) B (2 * tiles (D * w) B + 1) kern ⟨0, 0, 0⟩ m1 = .error e := by
    intro kern hk
    refine launch_doomed hl (i := B - 1) (p := 2 * q) hi (by omega) fun r => ?_
    rw [hk]
    unfold denseKernel
    rw [if_neg (by omega)]
    refine Prog.Meets.bind_right (fun r' => ?_) _
    refine Prog.Meets.bind ?_ _
    rw [show 2 * q / 2 = q by omega, if_pos (by omega)]
    unfold denseLoad
    refine Prog.Meets.bind_right (fun _ => ?_) _
    refine Prog.Meets.bind_right (fun _ => ?_) _
    refine Prog.Meets.bind_right (fun _ => ?_) _
    refine Prog.Meets.bind_right (fun _ => ?_) _
    refine Prog.Meets.bind_right (fun _ => ?_) _
    refine Prog.Meets.bind_right (fun _ => ?_) _
    exact Prog.Meets.bind (Prog.Meets.get hbad) _
  unfold fcomputeCuda
  rw [if_neg hD0]
  simp only [hy, hf, a1, hgr, Bool.not_true, Bool.false_eq_true, if_false, res_ok_bind]
  have e1 : (B - 1) / B = 0 := Nat.div_eq_of_lt (by omega)
  have e2 : (B - 1) % B = B - 1 := Nat.mod_eq_of_lt (by omega)
  obtain ⟨e, he⟩ := key (fun p i r =>
      if i / B < D * (w / B) then
        denseKernel false (D * w) B (tiles (D * w) B) (rep D hm (i / B / (w / B)))
          (rep D y (i / B / (w / B))) (rep D f (i / B / (w / B))) (localMem D hs (i / B)) (i % B)
          (gpuBody D (D * w) B (w / B) (i / B) (i % B)) p r
      else if p = 0 then do
        denseVel (D * w) (rep D y ((i / B - D * (w / B)) / (w / B))) (rep D f ((i / B - D * (w / B)) / (w / B)))
          (gpuBody D (D * w) B (w / B) (i / B - D * (w / B)) (i % B))
        pure r
      else pure r) (fun p r => by
    simp only [e1, e2, if_pos hDG, Nat.zero_div])
  refine ⟨e, ?_⟩
  rw [he]
  rfl

end

/-! ### Cases -/

section
variable {S : Type}

/-- A memory for `D` devices with `w` bodies each: masses in buffer 0, state in buffer 1, result in buffer 2,
local memory (and host buffer 99) from buffer 3 on.  Outside its slice a device has `junk` for the state. -/
def sample (D w : ℕ) (Y M : ℕ → S) (junk : S) : Mem S := fun x =>
  if x / D = 0 then some (buf (D * w) M)
  else some (buf (6 * (D * w)) fun j => if x / D = 1 ∧ j / (6 * w) = x % D then Y j else junk)

lemma sample_isSome {D w x j : ℕ} {Y M : ℕ → S} {junk : S} (hx : x / D ≠ 0) (hj : j < 6 * (D * w)) :
    ((sample D w Y M junk).cell x j).isSome := by
  rw [Mem.cell_buf (if_neg hx), if_pos hj]; rfl

lemma sample_given {D w B : ℕ} (Y M : ℕ → S) (junk : S) (hD : 0 < D) (hw : 0 < w) (hB : 0 < B)
    (hBn : B ≤ 6 * (D * w)) (host : Option Handle) (hh : host = none ∨ host = some 99) :
    Given D w B 0 1 2 3 Y M host (sample D w Y M junk) where
  devices := hD
  bodies := hw
  block := hB
  state := by
    have hsize : D * (6 * w) = 6 * (D * w) := by ring
    refine ⟨fun d j hd hj => sample_isSome (by rw [rep_div hd]; decide) (by omega), fun d i hd hi => ?_⟩
    rw [Mem.cell_buf (if_neg (by rw [rep_div hd]; decide)), if_pos (by rw [← hsize]; exact group_lt hd hi),
      if_pos ⟨rep_div hd, by rw [group_div hi, rep_mod hd]⟩]
  masses := fun d j hd hj => by rw [Mem.cell_buf (if_pos (rep_div hd)), if_pos hj]
  result := fun d j hd hj => sample_isSome (by rw [rep_div hd]; decide) hj
  scratch := fun g k l _ _ hl => sample_isSome (by unfold localMem; rw [rep_div hD]; omega) (by omega)
  hostBuffer := fun b hb => by
    rcases hh with h | h
    · rw [h] at hb; cases hb
    · rw [h] at hb
      cases hb
      exact ⟨by decide, fun j hj => sample_isSome (by rw [rep_div hD]; decide) hj⟩
  distinct := by decide
  below := by decide

end

/-- Three devices through the host, two bodies each, groups of two. -/
example : SyncOk (some 99) 3 ∧ Given 3 2 2 0 1 2 3 (fun j => (j : ℝ)) (fun _ => 1) (some 99)
    (sample 3 2 (fun j => (j : ℝ)) (fun _ => 1) 7) :=
  ⟨⟨by decide, fun h => by cases h⟩,
    sample_given _ _ _ (by decide) (by decide) (by decide) (by decide) _ (Or.inr rfl)⟩

/-- Four devices in one context, two bodies each, groups of two: the derivative of the state on every device. -/
example (launch : Launch ℝ (DenseReg ℝ)) (loop : Loop ℝ) (hl : IsLaunch launch) (hp : IsParLoop loop) :
    ∃ m', fcomputeCuda launch loop 4 8 2 0 1 2 3 (sample 4 2 (fun j => (j : ℝ)) (fun _ => 1) 7) = .ok m' ∧
      ∀ d i, d < 4 → i < 24 → m'.cell (rep 4 2 d) i = some (24 + i) := by
  obtain ⟨F, _, h, hv, _⟩ := newton launch loop none 4 2 2 0 1 2 3 (fun j => (j : ℝ)) (fun _ => 1) _ hl hp
    ⟨by decide, fun _ => ⟨2, rfl⟩⟩ (by decide)
    (sample_given _ _ 7 (by decide) (by decide) (by decide) (by decide) _ (Or.inl rfl))
  obtain ⟨m', h1, h2⟩ := h rfl
  refine ⟨m', h1, fun d i hd hi => ?_⟩
  rw [h2.result d i hd (by omega), hv i (by omega)]
  norm_num

/-- There are executions. -/
example : (∃ launch : Launch ℝ (DenseReg ℝ), IsLaunch launch) ∧ ∃ loop : Loop ℝ, IsParLoop loop :=
  ⟨exists_launch _ _, _, orderedFor_isParLoop fun _ => List.reverse_perm _⟩

/-- Two devices with three bodies each and groups of two: the last body of each device is not computed; the
result keeps the number 7 that was there. -/
example (launch : Launch ℝ (DenseReg ℝ)) (loop : Loop ℝ) (hl : IsLaunch launch) (hp : IsParLoop loop) :
    ∃ m', fcomputeCuda launch loop 2 6 2 0 1 2 3 (sample 2 3 (fun j => (j : ℝ)) (fun _ => 1) 7) = .ok m' ∧
      m'.cell (rep 2 2 0) 2 = some 7 ∧ m'.cell (rep 2 2 0) 5 = some 7 := by
  obtain ⟨m', h1, h2⟩ := cuda_tail_stale launch loop 2 3 2 0 1 2 3 (fun j => (j : ℝ)) (fun _ => 1) _ hl hp
    ⟨by decide, fun _ => ⟨1, rfl⟩⟩ (by decide) (by decide)
    (sample_given _ _ 7 (by decide) (by decide) (by decide) (by decide) _ (Or.inl rfl))
  refine ⟨m', h1, (h2 0 0 2 0 (by decide) (by decide) (by decide) (by decide) (by decide)).trans ?_,
    (h2 0 1 2 0 (by decide) (by decide) (by decide) (by decide) (by decide)).trans ?_⟩ <;>
  · rw [Mem.cell_buf (if_neg (by decide)), if_pos (by decide), if_neg (by decide)]

/-- Two devices with three bodies each and groups of two: OpenCL throws. -/
example (launch : Launch ℝ (DenseReg ℝ)) (loop : Loop ℝ) (hp : IsParLoop loop) :
    fcomputeOpenCL launch loop none 2 6 2 0 1 2 3 (sample 2 3 (fun j => (j : ℝ)) (fun _ => 1) 7) =
      .error .thrown :=
  opencl_refuses launch loop none 2 3 2 0 1 2 3 (fun j => (j : ℝ)) (fun _ => 1) _ hp
    ⟨by decide, fun _ => ⟨1, rfl⟩⟩ (by decide)
    (sample_given _ _ 7 (by decide) (by decide) (by decide) (by decide) _ (Or.inl rfl))

/-- One device with three bodies and groups of four. -/
example (launch : Launch ℝ (DenseReg ℝ)) (loop : Loop ℝ) (hp : IsParLoop loop) :
    fcomputeCuda launch loop 1 3 4 0 1 2 3 (sample 1 3 (fun j => (j : ℝ)) (fun _ => 1) 7) = .error .thrown :=
  cuda_refuses launch loop 1 3 4 0 1 2 3 (fun j => (j : ℝ)) (fun _ => 1) _ hp
    ⟨by decide, fun _ => ⟨0, rfl⟩⟩ (by decide)
    (sample_given _ _ 7 (by decide) (by decide) (by decide) (by decide) _ (Or.inl rfl))

/-- One device with three bodies and groups of two. -/
example (launch : Launch ℝ (DenseReg ℝ)) (loop : Loop ℝ) (hl : IsLaunch launch) (hp : IsParLoop loop) :
    ∃ e, fcomputeCuda launch loop 1 3 2 0 1 2 3 (sample 1 3 (fun j => (j : ℝ)) (fun _ => 1) 7) = .error e :=
  cuda_out_of_bounds launch loop 1 3 2 0 1 2 3 (fun j => (j : ℝ)) (fun _ => 1) _ hl hp
    ⟨by decide, fun _ => ⟨0, rfl⟩⟩ (by decide) (by decide)
    (sample_given _ _ 7 (by decide) (by decide) (by decide) (by decide) _ (Or.inl rfl))
    (Mem.shape_buf (if_pos (by decide)))

end NB.C70
