import Verif.Lemmas.GpuInit
import Verif.Lemmas.RoundEngines
import Verif.Spec.Frame
import Verif.Props.C82_Order
import Verif.Props.C83_Frames
import Verif.Props.C85_Rounded

/-
C86: from the bodies put into an engine to the bodies taken out of it.
-/

namespace NB.C86

open _root_.Spec (Buffers Motion Near BodiesNear)
open C06 (planes)
open C69 (newtonDeriv)
open C74 (Direct)
open C81 (stepsProg)
open C82 (OffCutoff Order)

/-! ### The GPU engines -/

section
variable {S : Type} [Zero S]

/-- **Round trip.**  On any number of devices that divides the number of elements, in every execution, `init` succeeds
if the memory is granted, writes to no other buffer, and `get_data` then returns the positions and velocities that were put
in. -/
theorem gpu_round_trip {g : Gpu} (hD : 0 < g.D) (hn : 0 < g.n) (hdvd : g.D ∣ 6 * g.n) {loop loop' : Loop S} (hl : IsParLoop loop)
    (hl' : IsParLoop loop') {hm y tm ty ty' : ℕ} (hd : [hm, y, tm, ty].Nodup) (hy : y ≠ ty') (hsz : g.size y = 6 * g.n)
    {vrt vel vrt' vel' : List (Vec3 S)} {mass : List S} (h1 : vrt.length = g.n) (h2 : vel.length = g.n) (h3 : mass.length = g.n)
    (h4 : vrt'.length = g.n) (h5 : vel'.length = g.n) {grants : ℕ → ℕ → Bool}
    (hg : ∀ h, h = hm ∨ h = y → ∀ d, d < g.D → grants h d = true) (junk : ℕ → ℕ → ℕ → S) (m : Mem S) :
    ∃ m', g.init loop hm y tm ty vrt vel mass grants junk m = .ok (true, m') ∧
      (∀ x : ℕ, x / g.D ≠ hm → x / g.D ≠ y → m' x = m x) ∧
      g.getData loop' y ty' g.n m' vrt' vel' = .ok (vrt, vel) := by
  have : Inhabited (Vec3 S) := ⟨⟨0, 0, 0⟩⟩
  have : Inhabited S := ⟨0⟩
  obtain ⟨p, rfl⟩ : ∃ p, vrt = buf g.n p := ⟨_, h1 ▸ eq_buf vrt⟩
  obtain ⟨v, rfl⟩ : ∃ p, vel = buf g.n p := ⟨_, h2 ▸ eq_buf vel⟩
  obtain ⟨w, rfl⟩ : ∃ p, mass = buf g.n p := ⟨_, h3 ▸ eq_buf mass⟩
  obtain ⟨p', rfl⟩ : ∃ p, vrt' = buf g.n p := ⟨_, h4 ▸ eq_buf vrt'⟩
  obtain ⟨v', rfl⟩ : ∃ p, vel' = buf g.n p := ⟨_, h5 ▸ eq_buf vel'⟩
  simp only [List.nodup_cons, List.mem_cons, List.not_mem_nil, or_false, not_or, not_false_eq_true, List.nodup_nil, and_true] at hd
  obtain ⟨⟨n1, n2, n3⟩, ⟨n4, n5⟩, n6⟩ := hd
  obtain ⟨m', e, -, a2, -, -, a5⟩ := Gpu.init_run hD hl n1 n2 n3 n4 n5 n6 p v w hg junk m
  refine ⟨m', e, a5, ?_⟩
  have hpos : 0 < 6 * g.n / g.D := Nat.div_pos (Nat.le_of_dvd (by omega) hdvd) hD
  rw [Gpu.getData_run hl' hy hD hn hdvd hsz (Y := planes g.n p v) (fun d j hd hj => by rw [a2 d j hd hj]; rfl)
    (fun j hj => a2 _ _ (by rw [Nat.div_lt_iff_lt_mul hpos, Nat.mul_div_cancel' hdvd]; exact hj) hj)]
  congr 2 <;> refine buf_congr fun i hi => ?_
  · obtain ⟨e0, e1, e2, -⟩ := C06.planes_at p v hi
    simp only [posOf, e0, e1, e2]
  · obtain ⟨-, -, -, e3, e4, e5⟩ := C06.planes_at p v hi
    simp only [velOf, e3, e4, e5]

/-- Each engine on the host reads its own number of bodies, the GPU engines that of the target (C06, Model/GpuInit.lean).
**A smaller target gets wrong bodies**: the second coordinate of the first body is the first coordinate of another one. -/
theorem smaller_target {g : Gpu} (hD : 0 < g.D) (hn : 0 < g.n) (hdvd : g.D ∣ 6 * g.n) {loop loop' : Loop S} (hl : IsParLoop loop)
    (hl' : IsParLoop loop') {hm y tm ty ty' : ℕ} (hd : [hm, y, tm, ty].Nodup) (hy : y ≠ ty') (hsz : g.size y = 6 * g.n)
    (p v : ℕ → Vec3 S) {mass : List S} (h3 : mass.length = g.n) {count : ℕ} (h0 : 0 < count) (hlt : count < g.n)
    {vrt' vel' : List (Vec3 S)} (h4 : vrt'.length = count) (h5 : vel'.length = count) {grants : ℕ → ℕ → Bool}
    (hg : ∀ h, h = hm ∨ h = y → ∀ d, d < g.D → grants h d = true) (junk : ℕ → ℕ → ℕ → S) (m : Mem S) :
    ∃ m' vrt vel a, g.init loop hm y tm ty (buf g.n p) (buf g.n v) mass grants junk m = .ok (true, m') ∧
      g.getData loop' y ty' count m' vrt' vel' = .ok (vrt, vel) ∧ vrt[0]? = some a ∧ a.x = (p 0).x ∧ a.y = (p count).x := by
  have : Inhabited (Vec3 S) := ⟨⟨0, 0, 0⟩⟩
  have : Inhabited S := ⟨0⟩
  obtain ⟨w, rfl⟩ : ∃ p, mass = buf g.n p := ⟨_, h3 ▸ eq_buf mass⟩
  obtain ⟨p', rfl⟩ : ∃ p, vrt' = buf count p := ⟨_, h4 ▸ eq_buf vrt'⟩
  obtain ⟨v', rfl⟩ : ∃ p, vel' = buf count p := ⟨_, h5 ▸ eq_buf vel'⟩
  simp only [List.nodup_cons, List.mem_cons, List.not_mem_nil, or_false, not_or, not_false_eq_true, List.nodup_nil, and_true] at hd
  obtain ⟨⟨n1, n2, n3⟩, ⟨n4, n5⟩, n6⟩ := hd
  obtain ⟨m', e, -, a2, -, -, -⟩ := Gpu.init_run hD hl n1 n2 n3 n4 n5 n6 p v w hg junk m
  have hpos : 0 < 6 * g.n / g.D := Nat.div_pos (Nat.le_of_dvd (by omega) hdvd) hD
  obtain ⟨m1, b1, b2⟩ := Gpu.read_host hl' hy hD hn hdvd hsz (Y := planes g.n p v) (fun d j hd hj => by rw [a2 d j hd hj]; rfl)
    (fun j hj => a2 _ _ (by rw [Nat.div_lt_iff_lt_mul hpos, Nat.mul_div_cancel' hdvd]; exact hj) hj)
  refine ⟨m', buf count (posOf count (planes g.n p v)), buf count (velOf count (planes g.n p v)), posOf count (planes g.n p v) 0, e,
    ?_, by rw [buf_getElem?, if_pos h0], ?_, ?_⟩
  · unfold Gpu.getData
    rw [if_neg (by omega), b1, res_ok_bind]
    exact C06.get_data_cells (Y := planes g.n p v) (fun j hj => by rw [Mem.cell_buf b2, if_pos (by omega)]) p' v'
  · simp only [posOf, planes, if_pos hn]
  · simp only [posOf, planes, Nat.add_zero, if_pos hlt]

/-- **A larger target** makes the GPU engines read past the end of their array. -/
theorem larger_target {g : Gpu} (hD : 0 < g.D) (hn : 0 < g.n) (hdvd : g.D ∣ 6 * g.n) {loop : Loop S} (hl : IsParLoop loop)
    {y ty : ℕ} (hy : y ≠ ty) (hsz : g.size y = 6 * g.n) {Y : ℕ → S} {m : Mem S}
    (hY : ∀ d j, d < g.D → j < 6 * g.n → m.cell (rep g.D y d) j = some (Y j)) {count : ℕ} (hlt : g.n < count)
    {vrt vel : List (Vec3 S)} (h1 : vrt.length = count) (h2 : vel.length = count) :
    g.getData loop y ty count m vrt vel = .error .oob := by
  have hpos : 0 < 6 * g.n / g.D := Nat.div_pos (Nat.le_of_dvd (by omega) hdvd) hD
  obtain ⟨m1, b1, b2⟩ := Gpu.read_host hl hy hD hn hdvd hsz (Y := Y) (fun d j hd hj => by rw [hY d j hd hj]; rfl)
    (fun j hj => hY _ _ (by rw [Nat.div_lt_iff_lt_mul hpos, Nat.mul_div_cancel' hdvd]; exact hj) hj)
  have hin : ∀ j, j < 6 * g.n → m1.cell (rep g.D ty 0) j = some (Y j) := fun j hj => by rw [Mem.cell_buf b2, if_pos hj]
  have hout : ∀ j, 6 * g.n ≤ j → m1.cell (rep g.D ty 0) j = none := fun j hj => by rw [Mem.cell_buf b2, if_neg (by omega)]
  unfold Gpu.getData
  rw [if_neg (by omega), b1, res_ok_bind]
  unfold engineGetData
  refine forN_error_mono (k := 6 * g.n - 5 * count + 1) ?_ (by omega)
  obtain ⟨t, ht, -⟩ := forN_inv (n := 6 * g.n - 5 * count) (s := (vrt, vel)) (f := fun i s => do
      let r ← Prog.run (do
        let px ← Prog.get (rep g.D ty 0) i
        let py ← Prog.get (rep g.D ty 0) (count + i)
        let pz ← Prog.get (rep g.D ty 0) (2 * count + i)
        let ux ← Prog.get (rep g.D ty 0) (3 * count + i)
        let uy ← Prog.get (rep g.D ty 0) (4 * count + i)
        let uz ← Prog.get (rep g.D ty 0) (5 * count + i)
        pure ((⟨px, py, pz⟩ : Vec3 S), (⟨ux, uy, uz⟩ : Vec3 S))) m1
      let vrt ← wr s.1 i r.1.1
      let vel ← wr s.2 i r.1.2
      pure (vrt, vel)) (fun _ t => t.1.length = count ∧ t.2.length = count) ⟨h1, h2⟩ (by
    rintro i ⟨a, b⟩ hi ⟨ha, hb⟩
    refine ⟨(a.set i ⟨Y i, Y (count + i), Y (2 * count + i)⟩, b.set i ⟨Y (3 * count + i), Y (4 * count + i), Y (5 * count + i)⟩), ?_,
      by simpa using ha, by simpa using hb⟩
    simp only at ha hb
    simp only [Prog.run_bind, Prog.run_get (hin i (by omega)), Prog.run_get (hin (count + i) (by omega)),
      Prog.run_get (hin (2 * count + i) (by omega)), Prog.run_get (hin (3 * count + i) (by omega)),
      Prog.run_get (hin (4 * count + i) (by omega)), Prog.run_get (hin (5 * count + i) (by omega)),
      res_ok_bind, Prog.run_pure, wr, ha, hb, if_pos (show i < count by omega), res_pure])
  rw [forN_succ, ht, res_ok_bind]
  obtain ⟨i, hi⟩ : ∃ i, i = 6 * g.n - 5 * count := ⟨_, rfl⟩
  rw [← hi]
  have last : m1.cell (rep g.D ty 0) (5 * count + i) = none := hout _ (by omega)
  have hget : ∀ j, (Prog.get (rep g.D ty 0) j).run m1 = .error .oob ∨ ∃ x, (Prog.get (rep g.D ty 0) j).run m1 = .ok (x, m1) := fun j => by
    rcases h : m1.cell (rep g.D ty 0) j with _ | x
    · exact .inl (Prog.run_get_none h)
    · exact .inr ⟨x, Prog.run_get h⟩
  simp only [Prog.run_bind]
  rcases hget i with h | ⟨x, h⟩ <;> rw [h]
  · rfl
  simp only [res_ok_bind]
  rcases hget (count + i) with h | ⟨x, h⟩ <;> rw [h]
  · rfl
  simp only [res_ok_bind]
  rcases hget (2 * count + i) with h | ⟨x, h⟩ <;> rw [h]
  · rfl
  simp only [res_ok_bind]
  rcases hget (3 * count + i) with h | ⟨x, h⟩ <;> rw [h]
  · rfl
  simp only [res_ok_bind]
  rcases hget (4 * count + i) with h | ⟨x, h⟩ <;> rw [h]
  · rfl
  simp only [res_ok_bind]
  rw [Prog.run_get_none last]
  rfl

/-- If a device does not grant the memory, `init` of the CUDA engine returns `false`. -/
theorem cuda_without_memory {g : Gpu} (hc : g.cuda = true) (hD : 0 < g.D) (hn : 0 < g.n) {loop : Loop S} {hm y tm ty d : ℕ}
    (vrt vel : List (Vec3 S)) (mass : List S) {grants : ℕ → ℕ → Bool} (hd : d < g.D)
    (hg : grants hm d = false ∨ grants y d = false) (junk : ℕ → ℕ → ℕ → S) (m : Mem S) :
    ∃ m', g.init loop hm y tm ty vrt vel mass grants junk m = .ok (false, m') := by
  have hno : ∀ (h size : ℕ) (m : Mem S), 0 < size → grants h d = false → g.createBuffer h size (grants h) (junk h) m = .ok none := by
    intro h size m hs hg
    unfold Gpu.createBuffer
    rw [if_neg (by omega), if_neg, if_pos hc]
    simp only [hc, Bool.true_and, Bool.or_eq_true, List.all_eq_true, List.mem_range, beq_iff_eq, not_or]
    exact ⟨fun h => by simp [h d hd] at hg, by omega⟩
  have hyes : ∀ (h size : ℕ) (m : Mem S), ∃ r, g.createBuffer h size (grants h) (junk h) m = .ok r := by
    intro h size m
    unfold Gpu.createBuffer
    rw [if_neg (by omega)]
    split
    · exact ⟨_, rfl⟩
    · exact ⟨_, rfl⟩
  unfold Gpu.init
  rw [if_neg (by omega)]
  rcases hg with hg | hg
  · rw [hno hm g.n m hn hg]
    simp only [res_ok_bind, Option.getD_none, Option.isNone_none, Bool.true_or, if_true]
    obtain ⟨r, hr⟩ := hyes y (6 * g.n) m
    rw [hr]
    exact ⟨_, rfl⟩
  · obtain ⟨r, hr⟩ := hyes hm g.n m
    rw [hr]
    simp only [res_ok_bind]
    rw [hno y (6 * g.n) _ (by omega) hg]
    simp only [res_ok_bind, Option.isNone_none, Bool.or_true, if_true]
    exact ⟨_, rfl⟩

omit [Zero S] in
/-- If some device does not grant the memory for one of the buffers of the solver, not all are made: CUDA gives a null pointer,
OpenCL throws. -/
theorem solver_without_memory {g : Gpu} {size d h : ℕ} (hs : 0 < size) (hd : d < g.D) {grants : ℕ → ℕ → Bool}
    (hg : grants h d = false) (junk : ℕ → ℕ → ℕ → S) (L : List ℕ) (hL : h ∈ L) (m : Mem S) :
    g.createAll size grants junk L m = if g.cuda then .ok none else .error .thrown := by
  have hfail : ∀ m : Mem S, g.createBuffer h size (grants h) (junk h) m = if g.cuda then .ok none else .error .thrown := by
    intro m
    unfold Gpu.createBuffer
    rw [if_neg (by omega), if_neg]
    simp only [Bool.or_eq_true, Bool.and_eq_true, List.all_eq_true, List.mem_range, beq_iff_eq, not_or]
    exact ⟨fun h => by simp [h d hd] at hg, by omega⟩
  induction L generalizing m with
  | nil => cases hL
  | cons a L ih =>
    rw [Gpu.createAll]
    by_cases ha : a = h
    · rw [ha, hfail m]
      cases g.cuda <;> rfl
    · have hL' : h ∈ L := by
        rcases List.mem_cons.1 hL with e | e
        · exact absurd e.symm ha
        · exact e
      unfold Gpu.createBuffer
      rw [if_neg (by omega)]
      split
      · exact ih hL' _
      · cases g.cuda <;> rfl

/-- The second of three buffers is refused by the second of two devices. -/
example (g : Gpu) (hD : g.D = 2) (m : Mem ℤ) : g.createAll 30 (fun h d => !(h == 4 && d == 1)) (fun _ _ _ => 0) [3, 4, 5] m =
    if g.cuda then .ok none else .error .thrown :=
  solver_without_memory (d := 1) (h := 4) (by norm_num) (by omega) rfl _ _ (by simp) m

/-- Without devices `init` of the OpenCL engine returns `false` and changes nothing, and `get_data` leaves its target as it
was. -/
theorem opencl_without_devices {g : Gpu} (hD : g.D = 0) {loop : Loop S} (hm y tm ty count : ℕ) (vrt vel : List (Vec3 S))
    (mass : List S) (grants : ℕ → ℕ → Bool) (junk : ℕ → ℕ → ℕ → S) (m : Mem S) :
    g.init loop hm y tm ty vrt vel mass grants junk m = .ok (false, m) ∧ g.getData loop y ty count m vrt vel = .ok (vrt, vel) := by
  simp [Gpu.init, Gpu.getData, hD]

end

/-! ### A session with an engine -/

section
variable {S : Type} [Add S] [Sub S] [Mul S] [Neg S] [Div S] [Zero S] [One S] [FOps S]

/-- What a program does with an engine: `init` and the creation of the buffers of the solver, the calls of the solver, and
`get_data`.  `ready`: what the memory is like before. -/
structure Session (S : Type) where
  ops : EngineOps S (Mem S)
  ready : Mem S → Prop
  load : List (Vec3 S) → List (Vec3 S) → List S → Mem S → Res (Bool × Mem S)
  read : Mem S → List (Vec3 S) → List (Vec3 S) → Res (List (Vec3 S) × List (Vec3 S))

omit [Add S] [Sub S] [Mul S] [Neg S] [Div S] [Zero S] [One S] [FOps S] in
/-- A session with an engine on the host: nothing has to be there before. -/
def hostSession (ops : EngineOps S (Mem S)) (n hm y : ℕ) (L : List ℕ) (junk : ℕ → ℕ → S) : Session S where
  ops := ops
  ready _ := True
  load vrt vel mass m := do
    let m ← engineInit n hm y vrt vel mass (buf n (junk hm)) (buf (6 * n) (junk y)) m
    pure (true, hostCreateAll (6 * n) junk L m)
  read m vrt vel := engineGetData n y m vrt vel

omit [Add S] [Sub S] [Mul S] [Neg S] [Div S] [One S] [FOps S] in
/-- A session with a GPU engine.  Local memory of the kernels and the host buffer of the engine are there before. -/
def gpuSession (ops : EngineOps S (Mem S)) (g : Gpu) (loop : Loop S) (w hm hs y tm ty : ℕ) (L : List ℕ) (grants : ℕ → ℕ → Bool)
    (junk : ℕ → ℕ → ℕ → S) : Session S where
  ops := ops
  ready m := HasLocal g.D g.B (w / g.B) hs m ∧ HostOk g.host g.D hs (6 * g.n) m
  load vrt vel mass m := do
    let r ← g.init loop hm y tm ty vrt vel mass grants junk m
    match r with
    | (false, m) => pure (false, m)
    | (true, m) => do
      match ← g.createAll (6 * g.n) grants junk L m with
      | none => pure (false, m)
      | some m => pure (true, m)
  read m vrt vel := g.getData loop y ty g.n m vrt vel

omit [Add S] [Sub S] [Mul S] [Neg S] [Div S] [One S] [FOps S] in
/-- The handles of a session with a GPU engine: the masses, the state and the buffers of the solver are different buffers
of the right size below the local memory; the arrays on the host are elsewhere; the memory is granted. -/
structure Apart (g : Gpu) (hm hs y tm ty : ℕ) (L : List ℕ) (grants : ℕ → ℕ → Bool) : Prop where
  nodup : [hm, y, tm, ty].Nodup
  solver : hm ∉ L ∧ y ∉ L
  below : hm < hs ∧ y < hs ∧ ∀ h ∈ L, h < hs
  sizes : g.size y = 6 * g.n ∧ ∀ h ∈ L, g.size h = 6 * g.n
  granted : ∀ h d, d < g.D → grants h d = true

/-- The sessions with the direct-sum engines, every execution. `y` is the state of the engine, `L` are the buffers of the solver; `bots` are the values a
reduction may start from. -/
inductive Sessions (n : ℕ) (M : ℕ → S) (y : ℕ) (L : List ℕ) (bots : S → Prop) : Session S → (Buffers S → Mem S → Prop) → Prop
  | simple (hm : ℕ) (junk : ℕ → ℕ → S) (hd : hm ≠ y ∧ hm ∉ L ∧ y ∉ L) :
      Sessions n M y L bots (hostSession (simpleOps (fcompute seqFor n hm) seqFor n) n hm y L junk) (HostHolds n hm (fun h => h = y ∨ h ∈ L) M)
  | openmp (hm : ℕ) (junk : ℕ → ℕ → S) (hd : hm ≠ y ∧ hm ∉ L ∧ y ∉ L) {loop : Loop S} (hl : IsParLoop loop) (bot : S) (hb : bots bot)
      {sched : Mem S → Red} (hs : ∀ m, (sched m).Valid (6 * n)) :
      Sessions n M y L bots (hostSession (openmpOps (fcompute loop n hm) loop n bot sched) n hm y L junk)
        (HostHolds n hm (fun h => h = y ∨ h ∈ L) M)
  | block (hm : ℕ) (junk : ℕ → ℕ → S) (hd : hm ≠ y ∧ hm ∉ L ∧ y ∉ L) {loop : Loop S} (hl : IsParLoop loop) (bot : S) (hb : bots bot)
      {sched : Mem S → Red} (hs : ∀ m, (sched m).Valid (6 * n)) (h64 : 64 ∣ n) :
      Sessions n M y L bots (hostSession (openmpOps (blockFcompute loop blockSize n hm) loop n bot sched) n hm y L junk)
        (HostHolds n hm (fun h => h = y ∨ h ∈ L) M)
  | opencl (g : Gpu) (w hm hs tm ty : ℕ) (hn : g.n = n) (hf : g.Fits w) {grants : ℕ → ℕ → Bool} (junk : ℕ → ℕ → ℕ → S)
      (ha : Apart g hm hs y tm ty L grants) {launch : Launch S (DenseReg S)} (hla : IsLaunch launch)
      {loop : Loop S} (hl : IsParLoop loop) (out hb : ℕ) (ho : out ≠ y ∧ out ∉ L) (hh : hb ≠ y ∧ hb ∉ L) (hoh : out ≠ hb) (junk' : S)
      (h4 : 4 ∣ 6 * g.n / g.B) :
      Sessions n M y L bots (gpuSession (openclOps g launch loop hm hs out hb junk') g loop w hm hs y tm ty L grants junk)
        (g.Holds w hm hs (fun h => h = y ∨ h ∈ L) M)
  | cuda (g : Gpu) (w hm hs tm ty : ℕ) (hn : g.n = n) (hf : g.Fits w) {grants : ℕ → ℕ → Bool} (junk : ℕ → ℕ → ℕ → S)
      (ha : Apart g hm hs y tm ty L grants) {launch : Launch S (DenseReg S)} (hla : IsLaunch launch)
      {loop : Loop S} (hl : IsParLoop loop) {order : Mem S → ℕ → MinMax} (ho : ∀ m d, d < g.D → C73.Complete (6 * w) (order m d)) :
      Sessions n M y L bots (gpuSession (cudaOps g launch loop hm hs order) g loop w hm hs y tm ty L grants junk)
        (g.Holds w hm hs (fun h => h = y ∨ h ∈ L) M)

lemma session_engine {n : ℕ} {M : ℕ → S} {y : ℕ} {L : List ℕ} {bots : S → Prop} {s : Session S} {Rep : Buffers S → Mem S → Prop}
    (hs : Sessions n M y L bots s Rep) : DirectEngine n M (fun h => h = y ∨ h ∈ L) s.ops Rep := by
  cases hs with
  | simple hm junk hd => exact .simple hm
  | openmp hm junk hd hl bot hb hs => exact .openmp hm hl bot hs
  | block hm junk hd hl bot hb hs h64 => exact .block hm hl bot hs h64
  | opencl g w hm hs tm ty hn hf junk ha hla hl out hb ho hh hoh junk' h4 =>
    exact .opencl g w hm hs hn hf hla hl out hb (by simpa [not_or] using ho) (by simpa [not_or] using hh) hoh junk' h4
  | cuda g w hm hs tm ty hn hf junk ha hla hl ho => exact .cuda g w hm hs hn hf hla hl ho

omit [Add S] [Sub S] [Mul S] [Neg S] [Div S] [Zero S] [One S] [FOps S] in
lemma hostCreateAll_run (N : ℕ) (junk : ℕ → ℕ → S) (L : List ℕ) (m : Mem S) (x : ℕ) :
    hostCreateAll N junk L m x = if x ∈ L then some (buf N (junk x)) else m x := by
  unfold hostCreateAll
  induction L generalizing m with
  | nil => simp
  | cons h L ih =>
    rw [List.foldl_cons, ih]
    by_cases hx : x ∈ L
    · simp [hx]
    · by_cases e : x = h
      · subst e; simp [hostCreate, hx]
      · simp [hostCreate, hx, e, Mem.set_ne _ _ e]

omit [Add S] [Sub S] [Mul S] [Neg S] [Div S] [Zero S] [One S] [FOps S] in
lemma host_loads {ops : EngineOps S (Mem S)} {n hm y : ℕ} {L : List ℕ} {junk : ℕ → ℕ → S} (hd : hm ≠ y ∧ hm ∉ L ∧ y ∉ L)
    (p v : ℕ → Vec3 S) (M : ℕ → S) (m : Mem S) :
    ∃ V m', (hostSession ops n hm y L junk).load (buf n p) (buf n v) (buf n M) m = .ok (true, m') ∧
      HostHolds n hm (fun h => h = y ∨ h ∈ L) M V m' ∧ V y = planes n p v := by
  obtain ⟨h1, h2, h3⟩ := hd
  refine ⟨fun h => if h = y then planes n p v else junk h,
    hostCreateAll (6 * n) junk L ((m.set hm (buf n M)).set y (buf (6 * n) (planes n p v))), ?_, ⟨?_, ?_, ?_⟩, if_pos rfl⟩
  · show (engineInit n hm y _ _ _ _ _ m >>= _) = _
    rw [C06.init_layout h1 p v M _ _ (by simp) (by simp) m]
    rfl
  · intro h hh
    rw [hostCreateAll_run]
    rcases hh with rfl | hh
    · rw [if_neg h3]; simp
    · have : h ≠ y := fun e => h3 (e ▸ hh)
      simp [hh, this]
  · rw [hostCreateAll_run, if_neg h2, Mem.set_ne _ _ h1, Mem.set_same]
  · rintro h (rfl | hh) rfl
    · exact h1 rfl
    · exact h2 hh

omit [Add S] [Sub S] [Mul S] [Neg S] [Div S] [One S] [FOps S] in
lemma gpu_loads {ops : EngineOps S (Mem S)} {g : Gpu} {w hm hs y tm ty : ℕ} {L : List ℕ} {grants : ℕ → ℕ → Bool} {junk : ℕ → ℕ → ℕ → S}
    {loop : Loop S} (hl : IsParLoop loop) (hf : g.Fits w) (ha : Apart g hm hs y tm ty L grants) (p v : ℕ → Vec3 S) (M : ℕ → S) (m : Mem S)
    (hr : (gpuSession ops g loop w hm hs y tm ty L grants junk).ready m) :
    ∃ V m', (gpuSession ops g loop w hm hs y tm ty L grants junk).load (buf g.n p) (buf g.n v) (buf g.n M) m = .ok (true, m') ∧
      g.Holds w hm hs (fun h => h = y ∨ h ∈ L) M V m' ∧ ∀ j, j < 6 * g.n → V y j = planes g.n p v j := by
  have hD := Gpu.devices_pos hf
  have hw := hf.bodies
  have hd := ha.nodup
  simp only [List.nodup_cons, List.mem_cons, List.not_mem_nil, or_false, not_or, not_false_eq_true, List.nodup_nil, and_true] at hd
  obtain ⟨⟨n1, n2, n3⟩, ⟨n4, n5⟩, n6⟩ := hd
  obtain ⟨m1, e, a1, a2, -, a4, a5⟩ := Gpu.init_run hD hl n1 n2 n3 n4 n5 n6 p v M (fun h _ => ha.granted h) junk m
  obtain ⟨m2, f, b1, b2⟩ := Gpu.createAll_run (size := 6 * g.n) (junk := junk) hD L (fun h _ => ha.granted h) m1
  have hcell : ∀ h d j, h ∉ L → d < g.D → m2.cell (rep g.D h d) j = m1.cell (rep g.D h d) j := fun h d j hh hd => by
    rw [Mem.cell, b2 _ (by rw [rep_div hd]; exact hh)]; rfl
  have hrest : ∀ x : ℕ, hs ≤ x / g.D → m2 x = m x := fun x hx => by
    obtain ⟨c1, c2, c3⟩ := ha.below
    rw [b2 x fun h => by have := c3 _ h; omega, a5 x (by omega) (by omega)]
  have hroom : ∀ h, h = y ∨ h ∈ L → Replicated g.D h (Gpu.allocSize (6 * g.n)) m2 := by
    rw [← Gpu.capacity_eq hf]
    rintro h (rfl | hh)
    · intro d j hd hj
      rw [hcell _ _ _ ha.solver.2 hd]
      exact a4 d j hd hj
    · exact b1 h hh
  have hle := Gpu.le_allocSize (6 * g.n)
  have hsz : 6 * g.n = g.D * (6 * w) := by rw [hf.count]; ring
  refine ⟨fun h j => (m2.cell (rep g.D h (j / (6 * w))) j).getD 0, m2, ?_, ⟨?_, hroom, ?_, ?_, ?_, ?_⟩, ?_⟩
  · show (g.init loop hm y tm ty _ _ _ grants junk m >>= _) = _
    rw [e, res_ok_bind]
    dsimp only
    rw [f, res_ok_bind]
    rfl
  · intro h d i hh hd hi
    have e1 : (d * (6 * w) + i) / (6 * w) = d := by
      rw [Nat.mul_comm, Nat.mul_add_div (by omega), Nat.div_eq_of_lt hi, Nat.add_zero]
    have hj : d * (6 * w) + i < 6 * g.n := by
      rw [hsz]
      calc d * (6 * w) + i < d * (6 * w) + 6 * w := by omega
        _ = (d + 1) * (6 * w) := by ring
        _ ≤ _ := Nat.mul_le_mul_right _ hd
    have := hroom h hh d (d * (6 * w) + i) hd (by omega)
    rw [e1]
    obtain ⟨x, hx⟩ := Option.isSome_iff_exists.1 this
    rw [hx]; rfl
  · intro d j hd hj
    rw [hcell _ _ _ ha.solver.1 hd]
    exact a1 d j hd hj
  · intro k i l hk hi hl'
    have := hr.1 k i l hk hi hl'
    rw [Mem.cell] at this ⊢
    rw [hrest]
    · exact this
    · unfold localMem; rw [rep_div hD]; omega
  · intro b hb
    obtain ⟨c1, c2⟩ := hr.2 b hb
    refine ⟨c1, fun j hj => ?_⟩
    have := c2 j hj
    rw [Mem.cell] at this ⊢
    rw [hrest]
    · exact this
    · rw [rep_div hD]; exact c1
  · refine ⟨ha.below.1, ?_⟩
    rintro h (rfl | hh)
    · exact ⟨ha.below.2.1, Ne.symm n1, ha.sizes.1⟩
    · exact ⟨ha.below.2.2 h hh, fun e => ha.solver.1 (e ▸ hh), ha.sizes.2 h hh⟩
  · intro j hj
    have hlt : j / (6 * w) < g.D := Nat.div_lt_of_lt_mul (by rw [Nat.mul_comm, ← hsz]; exact hj)
    show (m2.cell (rep g.D y (j / (6 * w))) j).getD 0 = _
    rw [hcell _ _ _ ha.solver.2 hlt, a2 _ _ hlt hj]
    rfl

/-- **`init` and the creation of the buffers** establish what the theorems about the engines (C69, C74, C78, C82, C85)
assume of the memory, whatever the memory held before; the state is that of the bodies given. -/
theorem loads {n : ℕ} {M : ℕ → S} {y : ℕ} {L : List ℕ} {bots : S → Prop} {s : Session S} {Rep : Buffers S → Mem S → Prop}
    (hs : Sessions n M y L bots s Rep) (p v : ℕ → Vec3 S) (m : Mem S) (hr : s.ready m) :
    ∃ V m', s.load (buf n p) (buf n v) (buf n M) m = .ok (true, m') ∧ Rep V m' ∧
      ∀ i, i < n → posOf n (V y) i = p i ∧ velOf n (V y) i = v i := by
  have key : ∀ Y : ℕ → S, (∀ j, j < 6 * n → Y j = planes n p v j) → ∀ i, i < n → posOf n Y i = p i ∧ velOf n Y i = v i := by
    intro Y hY i hi
    obtain ⟨e0, e1, e2, e3, e4, e5⟩ := C06.planes_at p v hi
    unfold posOf velOf
    rw [hY _ (by omega), hY _ (by omega), hY _ (by omega), hY _ (by omega), hY _ (by omega), hY _ (by omega), e0, e1, e2, e3, e4, e5]
    exact ⟨rfl, rfl⟩
  have hhost : ∀ {ops : EngineOps S (Mem S)} {hm : ℕ} {junk : ℕ → ℕ → S}, hm ≠ y ∧ hm ∉ L ∧ y ∉ L →
      ∃ V m', (hostSession ops n hm y L junk).load (buf n p) (buf n v) (buf n M) m = .ok (true, m') ∧
      HostHolds n hm (fun h => h = y ∨ h ∈ L) M V m' ∧ ∀ i, i < n → posOf n (V y) i = p i ∧ velOf n (V y) i = v i := by
    intro ops hm junk hd
    obtain ⟨V, m', h1, h2, h3⟩ := host_loads (ops := ops) (junk := junk) hd p v M m
    exact ⟨V, m', h1, h2, key _ fun j _ => by rw [h3]⟩
  cases hs with
  | simple hm junk hd => exact hhost hd
  | openmp hm junk hd hl bot hb hs => exact hhost hd
  | block hm junk hd hl bot hb hs h64 => exact hhost hd
  | opencl g w hm hs tm ty hn hf junk ha hla hl out hb ho hh hoh junk' h4 =>
    subst hn
    obtain ⟨V, m', h1, h2, h3⟩ := gpu_loads hl hf ha p v M m hr
    exact ⟨V, m', h1, h2, key _ h3⟩
  | cuda g w hm hs tm ty hn hf junk ha hla hl ho =>
    subst hn
    obtain ⟨V, m', h1, h2, h3⟩ := gpu_loads hl hf ha p v M m hr
    exact ⟨V, m', h1, h2, key _ h3⟩

omit [Add S] [Sub S] [Mul S] [Neg S] [Div S] [One S] [FOps S] in
lemma gpu_reads {ops : EngineOps S (Mem S)} {g : Gpu} {w hm hs y tm ty : ℕ} {L : List ℕ} {grants : ℕ → ℕ → Bool} {junk : ℕ → ℕ → ℕ → S}
    {loop : Loop S} (hl : IsParLoop loop) (hf : g.Fits w) (ha : Apart g hm hs y tm ty L grants) (p v : ℕ → Vec3 S) {M : ℕ → S}
    {V : Buffers S} {m : Mem S} (hh : g.Holds w hm hs (fun h => h = y ∨ h ∈ L) M V m) :
    (gpuSession ops g loop w hm hs y tm ty L grants junk).read m (buf g.n p) (buf g.n v) =
      .ok (buf g.n (posOf g.n (V y)), buf g.n (velOf g.n (V y))) := by
  have hD := Gpu.devices_pos hf
  have hw := hf.bodies
  have hd := ha.nodup
  simp only [List.nodup_cons, List.mem_cons, List.not_mem_nil, or_false, not_or, not_false_eq_true, List.nodup_nil, and_true] at hd
  have hsz : 6 * g.n = g.D * (6 * w) := by rw [hf.count]; ring
  refine Gpu.getData_run hl hd.2.1.2 hD (by rw [hf.count]; exact Nat.mul_pos hD hw) ⟨_, hsz⟩ ha.sizes.1
    (fun d j hd hj => hh.room y (.inl rfl) d j hd (hj.trans_le (Gpu.le_allocSize _))) (fun j hj => ?_) p v
  have hlt : j / (6 * w) < g.D := Nat.div_lt_of_lt_mul (by rw [Nat.mul_comm, ← hsz]; exact hj)
  have he : j / (6 * w) * (6 * w) + j % (6 * w) = j := by rw [Nat.mul_comm]; exact Nat.div_add_mod _ _
  have := hh.slices y _ _ (.inl rfl) hlt (Nat.mod_lt j (by omega : 0 < 6 * w))
  rw [he] at this
  rw [hsz, Nat.mul_div_cancel_left _ hD]
  exact this

/-- **`get_data`** returns the bodies of the state the engine holds, after whatever calls, and overwrites whatever the
target held. -/
theorem reads {n : ℕ} {M : ℕ → S} {y : ℕ} {L : List ℕ} {bots : S → Prop} {s : Session S} {Rep : Buffers S → Mem S → Prop}
    (hs : Sessions n M y L bots s Rep) (p v : ℕ → Vec3 S) {V : Buffers S} {m : Mem S} (hm : Rep V m) :
    s.read m (buf n p) (buf n v) = .ok (buf n (posOf n (V y)), buf n (velOf n (V y))) := by
  cases hs with
  | simple hm' junk hd => exact C06.get_data_layout (hm.buffers y (.inl rfl)) p v
  | openmp hm' junk hd hl bot hb hs => exact C06.get_data_layout (hm.buffers y (.inl rfl)) p v
  | block hm' junk hd hl bot hb hs h64 => exact C06.get_data_layout (hm.buffers y (.inl rfl)) p v
  | opencl g w hm' hs tm ty hn hf junk ha hla hl out hb ho hh hoh junk' h4 =>
    subst hn
    exact gpu_reads hl hf ha p v hm
  | cuda g w hm' hs tm ty hn hf junk ha hla hl ho =>
    subst hn
    exact gpu_reads hl hf ha p v hm

end

/-! ### End to end -/

lemma session_direct {n : ℕ} {M : ℕ → ℝ} {y : ℕ} {L : List ℕ} {s : Session ℝ} {Rep : Buffers ℝ → Mem ℝ → Prop}
    (hs : Sessions n M y L (· ≤ 0) s Rep) : Direct n M (fun h => h = y ∨ h ∈ L) s.ops Rep := by
  cases hs with
  | simple hm junk hd => exact .simple hm
  | openmp hm junk hd hl bot hb hs => exact .openmp hm hl hb hs
  | block hm junk hd hl bot hb hs h64 => exact .block hm hl hb hs h64
  | opencl g w hm hs tm ty hn hf junk ha hla hl out hb ho hh hoh junk' h4 =>
    exact .opencl g w hm hs hn hf hla hl out hb (by simpa [not_or] using ho) (by simpa [not_or] using hh) hoh junk' h4
  | cuda g w hm hs tm ty hn hf junk ha hla hl ho => exact .cuda g w hm hs hn hf hla hl ho

/-- The bodies of a list of scalars, as real numbers. -/
def reals {S : Type} (val : S → ℝ) (l : List (Vec3 S)) : List (Vec3 ℝ) := l.map fun p => ⟨val p.x, val p.y, val p.z⟩

lemma near_of_bodies {S : Type} (val : S → ℝ) {n : ℕ} {p w : ℕ → Vec3 S} {Y : ℕ → S} {q v : ℕ → Fin 3 → ℝ} {r : ℝ}
    (h : BodiesNear n (reals val (buf n p)) (reals val (buf n w)) q v r) (hY : ∀ i, i < n → posOf n Y i = p i ∧ velOf n Y i = w i) :
    Near n (fun j => val (Y j)) q v r := by
  intro i hi k
  obtain ⟨a, b, ha, hb, ⟨h1, h2, h3⟩, h4, h5, h6⟩ := h.2.2 i hi
  simp only [reals, List.getElem?_map, buf_getElem?, if_pos hi, Option.map_some, Option.some.injEq] at ha hb
  subst ha hb
  obtain ⟨e1, e2⟩ := hY i hi
  simp only [← e1, ← e2, posOf, velOf] at h1 h2 h3 h4 h5 h6
  fin_cases k
  · simpa using ⟨h1, h4⟩
  · simpa using ⟨h2, h5⟩
  · simpa using ⟨h3, h6⟩

lemma bodies_of_near {S : Type} (val : S → ℝ) {n : ℕ} {Y : ℕ → S} {q v : ℕ → Fin 3 → ℝ} {r : ℝ}
    (h : Near n (fun j => val (Y j)) q v r) :
    BodiesNear n (reals val (buf n (posOf n Y))) (reals val (buf n (velOf n Y))) q v r := by
  refine ⟨by simp [reals], by simp [reals], fun i hi => ⟨_, _, by simp [reals, hi]; rfl,
    by simp [reals, hi]; rfl, ⟨?_, ?_, ?_⟩, ?_, ?_, ?_⟩⟩
  · simpa [posOf] using (h i hi 0).1
  · simpa [posOf] using (h i hi 1).1
  · simpa [posOf] using (h i hi 2).1
  · simpa [velOf] using (h i hi 0).2
  · simpa [velOf] using (h i hi 1).2
  · simpa [velOf] using (h i hi 2).2

lemma reals_id (l : List (Vec3 ℝ)) : reals id l = l := by
  unfold reals
  conv_rhs => rw [← List.map_id l]
  rfl

/-- **From the bodies put in to the bodies taken out, in exact arithmetic.**  For a motion of the bodies and a solver of order `p` (C82; without the
correction of Adams-Bashforth, which must find its buffers zero) there are `C` and `δ₀`, the same for all engines, such that
a program that gives an engine bodies within `ε` of the beginning of the motion, makes steps none of which exceeds `δ ≤ δ₀`, and takes the bodies out gets
them within `C (ε + δ ^ p + η)` of where the motion has them at that time. -/
theorem end_to_end {n : ℕ} {M : ℕ → ℝ} (hn : 0 < n) (hM : ∀ i, i < n → M i ≠ 0) {h : Slot → Handle} (hh : Function.Injective h)
    {L : List ℕ} {φ : Type} {step : φ → ℝ → Act ℝ φ} {fl₀ : φ} {Z : Buffers ℝ → Prop} {p : ℕ} {η : ℝ} {P : List ℝ → Prop}
    (hs : Order n h (fun x => x = h .y ∨ x ∈ L) φ step fl₀ Z p η P) (hZ : ∀ V, Z V) {T : ℝ} (hT : 0 ≤ T)
    {q v : ℝ → ℕ → Fin 3 → ℝ} (hq : Motion 1e-8 n M T q v) (hoff : OffCutoff n T q) :
    ∃ C δ₀ : ℝ, 0 ≤ C ∧ 0 < δ₀ ∧
      ∀ (s : Session ℝ) (Rep : Buffers ℝ → Mem ℝ → Prop), Sessions n M (h .y) L (· ≤ 0) s Rep →
      ∀ (dts : List ℝ) (δ ε : ℝ), 0 ≤ δ → δ ≤ δ₀ → (∀ d ∈ dts, 0 < d ∧ d ≤ δ) → P dts → dts.sum ≤ T →
      ∀ (vrt vel vrt₀ vel₀ : List (Vec3 ℝ)) (m : Mem ℝ), BodiesNear n vrt vel (q 0) (v 0) ε → vrt₀.length = n → vel₀.length = n →
      s.ready m →
      ∃ m₁ fl m₂ vrt' vel', s.load vrt vel ((List.range n).map M) m = .ok (true, m₁) ∧
        C74.runSteps s.ops step dts (fl₀, m₁) = .ok (fl, m₂) ∧ s.read m₂ vrt₀ vel₀ = .ok (vrt', vel') ∧
        BodiesNear n vrt' vel' (q dts.sum) (v dts.sum) (C * (ε + δ ^ p + η)) := by
  obtain ⟨C, δ₀, hC, hδ₀, key⟩ := C82.order_of_convergence hn hM hh hs hT hq hoff
  refine ⟨C, δ₀, hC, hδ₀, fun s Rep hS dts δ ε h0 h1 hd hP hsum vrt vel vrt₀ vel₀ m hb hl1 hl2 hr => ?_⟩
  have : Inhabited (Vec3 ℝ) := ⟨⟨0, 0, 0⟩⟩
  obtain ⟨p, rfl⟩ : ∃ p, vrt = buf n p := ⟨_, hb.1 ▸ eq_buf vrt⟩
  obtain ⟨w, rfl⟩ : ∃ p, vel = buf n p := ⟨_, hb.2.1 ▸ eq_buf vel⟩
  obtain ⟨p', rfl⟩ : ∃ p, vrt₀ = buf n p := ⟨_, hl1 ▸ eq_buf vrt₀⟩
  obtain ⟨v', rfl⟩ : ∃ p, vel₀ = buf n p := ⟨_, hl2 ▸ eq_buf vel₀⟩
  obtain ⟨V, m₁, a1, a2, a3⟩ := loads hS p w m hr
  obtain ⟨fl, V', m₂, b1, b2, b3⟩ := key s.ops Rep (session_direct hS) dts δ ε h0 h1 hd hP hsum V m₁ (hZ V) a2
    (near_of_bodies id (by rwa [reals_id, reals_id]) a3)
  refine ⟨m₁, fl, m₂, _, _, a1, b1, reads hS p' v' b2, ?_⟩
  have := bodies_of_near id (Y := V' (h .y)) b3
  rwa [reals_id, reals_id] at this

/-- **The same in rounded arithmetic** (C85): within `C (ε + δ ^ p + η + u / dmin)`.  Not covered (hence partial): what C85 does not
cover. -/
theorem end_to_end_rounded_partial {n : ℕ} {Mr : ℕ → ℝ} (hn : 0 < n) (hM : ∀ i, i < n → Mr i ≠ 0) {k : C85.Kind} {p : ℕ} {η : ℝ}
    (hk : k.Order p η) {T : ℝ} {q v : ℝ → ℕ → Fin 3 → ℝ} (hq : Motion 1e-8 n Mr T q v) (hoff : OffCutoff n T q) :
    ∃ C δ₀ u₀ : ℝ, 0 ≤ C ∧ 0 < δ₀ ∧ 0 < u₀ ∧
      ∀ (S : Type) [Add S] [Sub S] [Mul S] [Neg S] [Div S] [Zero S] [One S] [FOps S] (val : S → ℝ) (u : ℝ),
      Spec.FloatOps val u → 0 ≤ u → ∀ M : ℕ → S, (∀ i, i < n → val (M i) = Mr i) →
      ∀ (h : Slot → Handle) (L : List ℕ) (φ : Type) (step : φ → S → Act S φ) (fl₀ : φ),
      Function.Injective h → C85.Program val u h (fun x => x = h .y ∨ x ∈ L) k φ step fl₀ →
      ∀ (s : Session S) (Rep : Buffers S → Mem S → Prop), Sessions n M (h .y) L (fun _ => True) s Rep →
      ∀ (dts : List S) (dmin δ ε : ℝ), 0 < dmin → dmin ≤ δ → δ ≤ δ₀ → u ≤ u₀ * dmin → (∀ d ∈ dts, dmin ≤ val d ∧ val d ≤ δ) →
      (dts.map val).sum ≤ T →
      ∀ (vrt vel vrt₀ vel₀ : List (Vec3 S)) (m : Mem S), BodiesNear n (reals val vrt) (reals val vel) (q 0) (v 0) ε →
      vrt₀.length = n → vel₀.length = n → s.ready m →
      ∃ m₁ fl m₂ vrt' vel', s.load vrt vel ((List.range n).map M) m = .ok (true, m₁) ∧
        C85.runSteps s.ops step dts (fl₀, m₁) = .ok (fl, m₂) ∧ s.read m₂ vrt₀ vel₀ = .ok (vrt', vel') ∧
        BodiesNear n (reals val vrt') (reals val vel') (q (dts.map val).sum) (v (dts.map val).sum)
          (C * (ε + δ ^ p + η + u / dmin)) := by
  obtain ⟨C, δ₀, u₀, hC, hδ₀, hu₀, key⟩ := C85.rounded_convergence_partial hn hM hk hq hoff
  refine ⟨C, δ₀, u₀, hC, hδ₀, hu₀, ?_⟩
  intro S _ _ _ _ _ _ _ _ val u F h0 M hMv h L φ step fl₀ hh hpr s Rep hS dts dmin δ ε hd0 hdδ hδ hu hd hsum vrt vel vrt₀ vel₀ m
    hb hl1 hl2 hr
  have : Inhabited (Vec3 S) := ⟨⟨0, 0, 0⟩⟩
  have e1 : vrt.length = n := by simpa [reals] using hb.1
  have e2 : vel.length = n := by simpa [reals] using hb.2.1
  obtain ⟨p, rfl⟩ : ∃ p, vrt = buf n p := ⟨_, e1 ▸ eq_buf vrt⟩
  obtain ⟨w, rfl⟩ : ∃ p, vel = buf n p := ⟨_, e2 ▸ eq_buf vel⟩
  obtain ⟨p', rfl⟩ : ∃ p, vrt₀ = buf n p := ⟨_, hl1 ▸ eq_buf vrt₀⟩
  obtain ⟨v', rfl⟩ : ∃ p, vel₀ = buf n p := ⟨_, hl2 ▸ eq_buf vel₀⟩
  obtain ⟨V, m₁, a1, a2, a3⟩ := loads hS p w m hr
  obtain ⟨fl, V', m₂, b1, b2, b3⟩ := key S val u F h0 M hMv h _ φ step fl₀ hh hpr s.ops Rep (session_engine hS) dts dmin δ ε hd0 hdδ
    hδ hu hd hsum V m₁ a2 (near_of_bodies val hb a3)
  exact ⟨m₁, fl, m₂, _, _, a1, b1, reads hS p' v' b2, bodies_of_near val b3⟩

/-! ### Examples -/

section
variable (loop : Loop ℝ) (hl : IsParLoop loop)

include hl in
/-- Four bodies go into an engine with two OpenCL devices, in whatever memory, and come out as they were. -/
example (m : Mem ℝ) (vrt vel : List (Vec3 ℝ)) (mass : List ℝ) (h1 : vrt.length = 4) (h2 : vel.length = 4) (h3 : mass.length = 4) :
    ∃ m', C69.twoCl.init loop 0 1 20 21 vrt vel mass (fun _ _ => true) (fun _ _ _ => 7) m = .ok (true, m') ∧
      C69.twoCl.getData loop 1 22 4 m' (List.replicate 4 0) (List.replicate 4 0) = .ok (vrt, vel) := by
  obtain ⟨m', a, -, b⟩ := gpu_round_trip (g := C69.twoCl) (by decide) (by decide) (by decide) hl hl (hm := 0) (y := 1) (tm := 20) (ty := 21)
    (ty' := 22) (by decide) (by decide) rfl h1 h2 h3 (vrt' := List.replicate 4 0) (vel' := List.replicate 4 0) rfl rfl
    (grants := fun _ _ => true) (fun _ _ _ _ => rfl) (fun _ _ _ => 7) m
  exact ⟨m', a, b⟩

include hl in
/-- Four bodies on two devices, read into three and into five. -/
example (m : Mem ℝ) (p v : ℕ → Vec3 ℝ) :
    (∃ m' vrt vel a, C69.twoCl.init loop 0 1 20 21 (buf 4 p) (buf 4 v) [1, 1, 1, 1] (fun _ _ => true) (fun _ _ _ => 7) m = .ok (true, m') ∧
      C69.twoCl.getData loop 1 22 3 m' (List.replicate 3 0) (List.replicate 3 0) = .ok (vrt, vel) ∧ vrt[0]? = some a ∧
      a.x = (p 0).x ∧ a.y = (p 3).x) ∧
    C69.twoCl.getData loop 1 22 5 (fun _ => some (buf 64 fun j => (j : ℝ))) (List.replicate 5 0) (List.replicate 5 0) = .error .oob :=
  ⟨smaller_target (g := C69.twoCl) (by decide) (by decide) (by decide) hl hl (by decide) (by decide) rfl p v rfl (by decide) (by decide) rfl rfl
    (fun _ _ _ _ => rfl) (fun _ _ _ => 7) m,
   larger_target (g := C69.twoCl) (by decide) (by decide) (by decide) hl (by decide) rfl (Y := fun j => (j : ℝ)) (fun d j _ hj => by
     have hj : j < 24 := hj
     rw [Mem.cell_buf rfl, if_pos (by omega)]) (by decide) rfl rfl⟩

/-- Two CUDA devices with memory only on the first. -/
example (m : Mem ℝ) (vrt vel : List (Vec3 ℝ)) (mass : List ℝ) :
    ∃ m', C69.twoCuda.init loop 0 1 20 21 vrt vel mass (fun _ d => d == 0) (fun _ _ _ => 7) m = .ok (false, m') :=
  cuda_without_memory rfl (by decide) (by decide) vrt vel mass (d := 1) (by decide) (.inl rfl) _ m

include hl in
/-- A session with two CUDA devices in a memory that has room for everything. -/
example (launch : Launch ℝ (DenseReg ℝ)) (hla : IsLaunch launch) (p v : ℕ → Vec3 ℝ) (M : ℕ → ℝ) (W : Buffers ℝ) :
    ∃ V m', (gpuSession (cudaOps C69.twoCuda launch loop 0 10 fun _ _ => C73.comb 191) C69.twoCuda loop 32 0 10 1 20 21 [2, 3, 4, 5, 6]
        (fun _ _ => true) fun _ _ _ => 7).load (buf 64 p) (buf 64 v) (buf 64 M) (C69.sample 2 W) = .ok (true, m') ∧
      C69.twoCuda.Holds 32 0 10 (fun h => h = 1 ∨ h ∈ [2, 3, 4, 5, 6]) M V m' ∧
      ∀ i, i < 64 → posOf 64 (V 1) i = p i ∧ velOf 64 (V 1) i = v i := by
  have hr := C69.sample_holds (g := C69.twoCuda) (w := 32) W rfl (by decide) (by decide) (Or.inl rfl) (fun _ => rfl) (by decide)
  exact loads (y := 1) (L := [2, 3, 4, 5, 6]) (M := M) (Sessions.cuda (bots := fun _ => True) C69.twoCuda 32 0 10 20 21 rfl C69.twoCuda_fits (fun _ _ _ => 7)
    ⟨by decide, by decide, by decide, ⟨rfl, fun _ _ => rfl⟩, fun _ _ _ => rfl⟩ hla hl fun _ _ _ => C73.comb_complete 191) p v _
    ⟨hr.scratch, hr.hostBuffer⟩

end

/-- Two bodies on a circle, the classical Runge-Kutta solver, the sequential engine: from lists of bodies to lists of bodies. -/
example : ∃ C δ₀ : ℝ, 0 ≤ C ∧ 0 < δ₀ ∧ ∀ (dts : List ℝ) (δ ε : ℝ), 0 ≤ δ → δ ≤ δ₀ → (∀ d ∈ dts, 0 < d ∧ d ≤ δ) →
    dts.sum ≤ 2 * Real.pi → ∀ (vrt vel : List (Vec3 ℝ)) (m : Mem ℝ), BodiesNear 2 vrt vel (C78.orbitPos 0) (C78.orbitVel 0) ε →
    ∃ m₁ fl m₂ vrt' vel',
      (hostSession (simpleOps (fcompute seqFor 2 0) seqFor 2) 2 0 1 [2, 3, 4, 5, 6, 7, 8, 9] fun _ _ => 7).load vrt vel [4, 4] m =
        .ok (true, m₁) ∧
      C74.runSteps (simpleOps (fcompute seqFor 2 0) seqFor 2) (fun (_ : Unit) dt => rk4Calls C74.layout dt) dts ((), m₁) =
        .ok (fl, m₂) ∧
      engineGetData 2 1 m₂ (List.replicate 2 0) (List.replicate 2 0) = .ok (vrt', vel') ∧
      BodiesNear 2 vrt' vel' (C78.orbitPos dts.sum) (C78.orbitVel dts.sum) (C * (ε + δ ^ 4 + 0)) := by
  obtain ⟨C, δ₀, hC, hδ₀, key⟩ := end_to_end (n := 2) (M := fun _ => 4) (L := [2, 3, 4, 5, 6, 7, 8, 9]) (by decide)
    (fun _ _ => by norm_num) C74.layout_injective (.basic (.rk4 fun s hs => by
      obtain ⟨h1, h2⟩ := C74.layout_basic 4 (by decide) true s hs
      have e : C74.layout .y = 1 := rfl
      rw [e]
      obtain ⟨k, hk⟩ : ∃ k, k = C74.layout s := ⟨_, rfl⟩
      rw [← hk] at h1 h2 ⊢
      have h1 : 1 ≤ (k : ℕ) := h1
      have h2 : (k : ℕ) < 10 := h2
      interval_cases k <;> simp)) (fun _ => trivial) (T := 2 * Real.pi) (by positivity) (C78.orbit (2 * Real.pi)) (C82.orbit_off _)
  refine ⟨C, δ₀, hC, hδ₀, fun dts δ ε h0 h1 hd hsum vrt vel m hb => ?_⟩
  exact key _ _ (.simple 0 (fun _ _ => 7) (by decide)) dts δ ε h0 h1 hd trivial hsum vrt vel (List.replicate 2 0) (List.replicate 2 0)
    m hb rfl rfl trivial

end NB.C86
