import Verif.Props.C70_DenseKernel
import Verif.Lemmas.EngineSimple
import Verif.Spec.Machine

/-
The buffer operations of engines with replicated buffers.
-/

namespace NB

section
variable {S : Type} {D : Nat}

theorem Mem.has_of_cell {m : Mem S} {x : Handle} {j : Nat} (h : (m.cell x j).isSome) : m.has x = true := by
  unfold Mem.cell at h
  unfold Mem.has
  cases hx : m x with
  | none => rw [hx] at h; cases h
  | some l => rfl

theorem eq_rep_iff {x h d : Nat} (hd : d < D) : x = rep D h d ↔ x / D = h ∧ x % D = d := by
  constructor
  · rintro rfl; exact ⟨rep_div hd, rep_mod hd⟩
  · rintro ⟨rfl, rfl⟩
    unfold rep
    rw [Nat.mul_comm]; exact (Nat.div_add_mod x D).symm

open Classical in
/-- Loops whose iterations work on elements of the buffers of one device each. -/
theorem elem_run {loop : Loop S} (hl : IsParLoop loop) {N : Nat} (dev : Nat → Nat) (I : Nat → Nat → Prop)
    (hD : ∀ p, p < N → dev p < D)
    (hinj : ∀ p p' k, p < N → p' < N → dev p = dev p' → I p k → I p' k → p = p')
    (H W : Handle → Prop) {body : Nat → Prog S Unit} {V V' : Nat → Handle → Nat → S} {m : Mem S}
    (hV : ∀ h p k, H h → p < N → I p k → m.cell (rep D h (dev p)) k = some (V (dev p) h k))
    (hin : ∀ p, p < N → (body p).Within (fun x k => H (x / D) ∧ x % D = dev p ∧ I p k)
      (fun x k => W (x / D) ∧ x % D = dev p ∧ I p k))
    (hrun : ∀ p m1, p < N → m1.shape = m.shape →
      (∀ h k, H h → I p k → m1.cell (rep D h (dev p)) k = some (V (dev p) h k)) →
      ∃ m2, (body p).run m1 = .ok ((), m2) ∧
        (∀ h k, W h → I p k → m2.cell (rep D h (dev p)) k = some (V' (dev p) h k)) ∧
        ∀ x k, ¬ (W (x / D) ∧ x % D = dev p ∧ I p k) → m2.cell x k = m1.cell x k) :
    ∃ m', loop N body m = .ok m' ∧ m'.shape = m.shape ∧
      (∀ h p k, W h → p < N → I p k → m'.cell (rep D h (dev p)) k = some (V' (dev p) h k)) ∧
      ∀ x k, (¬ ∃ p, p < N ∧ W (x / D) ∧ x % D = dev p ∧ I p k) → m'.cell x k = m.cell x k := by
  have hind : Independent N body := by
    refine ⟨⟨_, _, hin, ?_⟩⟩
    rintro p p' x k hp hp' hne ⟨h1, h2, h3⟩
    exact ⟨fun ⟨_, a, b⟩ => hne (hinj p p' k hp hp' (h2.symm.trans a) h3 b),
      fun ⟨_, a, b⟩ => hne (hinj p p' k hp hp' (h2.symm.trans a) h3 b)⟩
  obtain ⟨m', a1, a2, a3⟩ := seqFor_owned (n := N) (body := body) (m := m)
    (fun p x k => W (x / D) ∧ x % D = dev p ∧ I p k) (fun x k => V' (x % D) (x / D) k) (by
      intro p m1 hp hsh hold
      obtain ⟨m2, b1, b2, b3⟩ := hrun p m1 hp hsh (by
        intro h k hh hk
        rw [hold, hV h p k hh hp hk]
        rintro p' hp' ⟨_, e1, e2⟩
        rw [rep_mod (hD p hp)] at e1
        exact absurd (hinj p p' k hp (by omega) e1 hk e2) (by omega))
      refine ⟨m2, b1, fun x k => ?_⟩
      by_cases hc : W (x / D) ∧ x % D = dev p ∧ I p k
      · rw [if_pos hc]
        have e := (eq_rep_iff (x := x) (h := x / D) (hD p hp)).2 ⟨rfl, hc.2.1⟩
        have := b2 (x / D) k hc.1 hc.2.2
        rw [← e] at this
        rw [this, hc.2.1]
      · rw [if_neg hc, b3 x k hc])
  refine ⟨m', parLoop_eq_seq hl hind a1, a2, ?_, ?_⟩
  · intro h p k hh hp hk
    have e1 := rep_div (h := h) (hD p hp)
    have e2 := rep_mod (h := h) (hD p hp)
    rw [a3, if_pos ⟨p, hp, by rw [e1]; exact hh, e2, hk⟩, e1, e2]
  · intro x k hx
    rw [a3, if_neg hx]

end

namespace Gpu
open C70

/-- The sizes a GPU engine works for: the bodies spread evenly over the devices, every device a whole number
of groups in every kernel; CUDA devices have groups of 64 threads in the elementwise kernels. -/
structure Fits (g : Gpu) (w : Nat) : Prop where
  count : g.n = g.D * w
  bodies : 0 < w
  block : 0 < g.B
  sync : SyncOk g.host g.D
  groups : g.B ∣ w
  elements : g.cuda = true → 64 ∣ 6 * w ∧ 64 ∣ g.n ∧ g.host = none
  fill : g.cuda = false → g.B ∣ allocSize (6 * g.n)

variable {S : Type}

/-- The devices hold the buffers in `H`: device `d` its slice of each, with everything else arbitrary; the
masses are on every device; there is room for local memory and, if used, for the host buffer. -/
structure Holds (g : Gpu) (w hm hs : Nat) (H : Nat → Prop) (M : Nat → S) (V : Spec.Buffers S) (m : Mem S) :
    Prop where
  slices : ∀ h d i, H h → d < g.D → i < 6 * w →
    m.cell (rep g.D h d) (d * (6 * w) + i) = some (V h (d * (6 * w) + i))
  room : ∀ h, H h → Replicated g.D h (allocSize (6 * g.n)) m
  masses : Everywhere g.D hm g.n M m
  scratch : HasLocal g.D g.B (w / g.B) hs m
  hostBuffer : HostOk g.host g.D hs (6 * g.n) m
  handles : hm < hs ∧ ∀ h, H h → h < hs ∧ h ≠ hm ∧ g.size h = 6 * g.n

theorem le_allocSize (s : Nat) : s ≤ allocSize s := by
  unfold allocSize
  split
  · omega
  · omega

variable {g : Gpu} {w hm hs : Nat} {H : Nat → Prop} {M : Nat → S} {V V' : Spec.Buffers S} {m m' : Mem S}

theorem Holds.next (hh : Holds g w hm hs H M V m) (hsh : m'.shape = m.shape)
    (hc : ∀ h d i, H h → d < g.D → i < 6 * w →
      m'.cell (rep g.D h d) (d * (6 * w) + i) = some (V' h (d * (6 * w) + i)))
    (hM : ∀ d j, d < g.D → m'.cell (rep g.D hm d) j = m.cell (rep g.D hm d) j) :
    Holds g w hm hs H M V' m' where
  slices := hc
  room h hH := (hh.room h hH).of_shape hsh
  masses d j hd hj := by rw [hM d j hd]; exact hh.masses d j hd hj
  scratch g' k l h1 h2 h3 := isSome_of_shape hsh (hh.scratch g' k l h1 h2 h3)
  hostBuffer := hh.hostBuffer.of_shape hsh
  handles := hh.handles

theorem slice_lt (hf : Fits g w) {d i : Nat} (hd : d < g.D) (hi : i < 6 * w) : d * (6 * w) + i < 6 * g.n := by
  have := flat_lt (D := g.D) (size := 6 * w) hd hi
  rw [hf.count, show 6 * (g.D * w) = g.D * (6 * w) by ring]
  exact this

theorem devices_pos (hf : Fits g w) : 0 < g.D := hf.sync.1

theorem Holds.has (hf : Fits g w) (hh : Holds g w hm hs H M V m) {h : Nat} (hH : H h) : g.has m h = true := by
  have h0 := devices_pos hf
  have hb := hf.bodies
  have := slice_lt hf (i := 0) h0 (by omega)
  exact Mem.has_of_cell (j := 0) (hh.room h hH 0 0 h0 (by have := le_allocSize (6 * g.n); omega))

theorem width (hf : Fits g w) : 6 * g.n / g.D = 6 * w := by
  rw [hf.count, show 6 * (g.D * w) = g.D * (6 * w) by ring, Nat.mul_div_cancel_left _ (devices_pos hf)]

theorem groups_ok (hf : Fits g w) {size : Nat} (h0 : 0 < size) (hB : g.cuda = false → g.B ∣ size)
    (hc : g.cuda = true → 64 ∣ size) : ∃ gd, g.groups size = .ok gd ∧ gd * g.block = size := by
  unfold groups Gpu.block
  cases h : g.cuda with
  | false =>
    obtain ⟨q, hq⟩ := hB h
    refine ⟨q, ?_, ?_⟩
    · simp only [Bool.false_eq_true, if_false, openclGroups]
      rw [if_neg]
      · rw [hq, Nat.mul_div_cancel_left _ hf.block]
      · rintro (e | e)
        · have := hf.block; omega
        · rw [hq, Nat.mul_mod_right] at e; exact e rfl
    · simp only [Bool.false_eq_true, if_false]
      rw [hq, Nat.mul_comm]
  | true =>
    obtain ⟨q, hq⟩ := hc h
    refine ⟨q, ?_, ?_⟩
    · simp only [if_true, cudaGroups]
      rw [if_neg (by omega), if_neg]
      · congr 1; omega
      · omega
    · simp only [if_true]; omega

/-- The devices hold the buffers in `H`, and the other buffers below `hs` are as they were in `m₀`. -/
structure Follows (m₀ : Mem S) (g : Gpu) (w hm hs : Nat) (H : Nat → Prop) (M : Nat → S) (V : Spec.Buffers S)
    (m : Mem S) : Prop extends Holds g w hm hs H M V m where
  shape : m.shape = m₀.shape
  rest : ∀ h d j, h < hs → ¬ H h → d < g.D → m.cell (rep g.D h d) j = m₀.cell (rep g.D h d) j

variable {m₀ : Mem S}

theorem Follows.next (hh : Follows m₀ g w hm hs H M V m) (hsh : m'.shape = m.shape)
    (hc : ∀ h d i, H h → d < g.D → i < 6 * w →
      m'.cell (rep g.D h d) (d * (6 * w) + i) = some (V' h (d * (6 * w) + i)))
    (hM : ∀ h d j, h < hs → ¬ H h → d < g.D → m'.cell (rep g.D h d) j = m.cell (rep g.D h d) j) :
    Follows m₀ g w hm hs H M V' m' where
  toHolds := hh.toHolds.next hsh hc fun d j hd =>
    hM hm d j hh.handles.1 (fun e => (hh.handles.2 hm e).2.1 rfl) hd
  shape := hsh.trans hh.shape
  rest h d j h1 h2 h3 := (hM h d j h1 h2 h3).trans (hh.rest h d j h1 h2 h3)

open Classical in
/-- An elementwise kernel on all devices. -/
theorem elementwise_holds (hf : Fits g w) {loop : Loop S} (hl : IsParLoop loop) (W : Nat → Prop)
    (hWH : ∀ h, W h → H h) {body : Nat → Nat → Prog S Unit} (hh : Follows m₀ g w hm hs H M V m)
    (hin : ∀ d j, d < g.D → (body d j).Within (fun x k => H (x / g.D) ∧ x % g.D = d ∧ k = j)
      (fun x k => W (x / g.D) ∧ x % g.D = d ∧ k = j))
    (hrun : ∀ d j m1, d < g.D → (∀ h, H h → m1.cell (rep g.D h d) j = some (V h j)) →
      ∃ m2, (body d j).run m1 = .ok ((), m2) ∧ (∀ h, W h → m2.cell (rep g.D h d) j = some (V' h j)) ∧
        ∀ x k, ¬ (W (x / g.D) ∧ x % g.D = d ∧ k = j) → m2.cell x k = m1.cell x k)
    (hkeep : ∀ h, ¬ W h → V' h = V h) :
    ∃ m', g.elementwise loop (6 * w) body m = .ok m' ∧ Follows m₀ g w hm hs H M V' m' := by
  obtain ⟨gd, h1, h2⟩ := groups_ok hf (size := 6 * w) (by have := hf.bodies; omega)
    (fun _ => Dvd.dvd.mul_left hf.groups 6) (fun h => (hf.elements h).1)
  have hw : 0 < 6 * w := by have := hf.bodies; omega
  have hdev : ∀ p, p < g.D * (6 * w) → p / (6 * w) < g.D := fun p hp =>
    Nat.div_lt_of_lt_mul (by rwa [Nat.mul_comm])
  have hmod : ∀ p, p % (6 * w) < 6 * w := fun p => Nat.mod_lt _ hw
  obtain ⟨m', a1, a2, a3, a4⟩ := elem_run (D := g.D) hl (N := g.D * (6 * w)) (fun p => p / (6 * w))
    (fun p k => k = p / (6 * w) * (6 * w) + p % (6 * w)) hdev
    (by
      rintro p p' k hp hp' e1 rfl e2
      rw [← Nat.div_add_mod p (6 * w), ← Nat.div_add_mod p' (6 * w)]
      rw [e1] at e2 ⊢
      omega)
    H W (body := fun p => body (p / (6 * w)) (p / (6 * w) * (6 * w) + p % (6 * w)))
    (V := fun _ => V) (V' := fun _ => V') (m := m)
    (by
      rintro h p k hH hp rfl
      exact hh.slices h _ _ hH (hdev p hp) (hmod p))
    (fun p hp => hin _ _ (hdev p hp))
    (by
      intro p m1 hp _ hc
      obtain ⟨m2, b1, b2, b3⟩ := hrun (p / (6 * w)) (p / (6 * w) * (6 * w) + p % (6 * w)) m1 (hdev p hp)
        (fun h hH => hc h _ hH rfl)
      refine ⟨m2, b1, ?_, b3⟩
      rintro h k hW rfl
      exact b2 h hW)
  refine ⟨m', ?_, ?_⟩
  · unfold elementwise
    rw [h1, res_ok_bind, h2]
    exact a1
  · refine hh.next a2 ?_ ?_
    · intro h d i hH hd hi
      by_cases hW : W h
      · have e1 : (d * (6 * w) + i) / (6 * w) = d := flat_div hi
        have e2 : (d * (6 * w) + i) % (6 * w) = i := flat_mod hi
        have := a3 h (d * (6 * w) + i) (d * (6 * w) + i) hW (flat_lt hd hi) (by rw [e1, e2])
        rw [e1] at this
        exact this
      · rw [a4, hh.slices h d i hH hd hi, hkeep h hW]
        rintro ⟨p, _, h', _⟩
        rw [rep_div hd] at h'
        exact hW h'
    · intro h d j _ hn hd
      rw [a4]
      rintro ⟨p, _, h', _⟩
      rw [rep_div hd] at h'
      exact hn (hWH h h')

section ops
variable [Add S] [Mul S]

omit [Add S] [Mul S] in
theorem put_cell_run {d j a : Nat} (hd : d < g.D) (v : S) {m1 : Mem S}
    (hc : (m1.cell (rep g.D a d) j).isSome) :
    ∃ m2, (Prog.put (rep g.D a d) j v).run m1 = .ok ((), m2) ∧ m2.shape = m1.shape ∧
      m2.cell (rep g.D a d) j = some v ∧
      ∀ x k, ¬ (x / g.D = a ∧ x % g.D = d ∧ k = j) → m2.cell x k = m1.cell x k := by
  refine ⟨m1.setCell (rep g.D a d) j v, Prog.run_put _ hc, by simp, ?_, ?_⟩
  · rw [Mem.cell_setCell, if_pos ⟨rfl, rfl⟩]
    obtain ⟨u, hu⟩ := Option.isSome_iff_exists.1 hc
    simp [hu]
  · intro x k hx
    rw [Mem.cell_setCell, if_neg]
    rintro ⟨e, rfl⟩
    exact hx ⟨((eq_rep_iff hd).1 e).1, ((eq_rep_iff hd).1 e).2, rfl⟩

omit [Add S] [Mul S] in
theorem total_eq (hh : Holds g w hm hs H M V m) {a : Nat} (ha : H a) : g.total a = 6 * g.n := by
  unfold total
  rw [(hh.handles.2 a ha).2.2]
  split <;> rfl

theorem fmaddInplace_holds (hf : Fits g w) {loop : Loop S} (hl : IsParLoop loop) {a b : Nat} (ha : H a) (hb : H b)
    (c : S) (hh : Follows m₀ g w hm hs H M V m) :
    ∃ m', g.fmaddInplace loop a b c m = .ok m' ∧
      Follows m₀ g w hm hs H M (Spec.put V a fun j => V a j + V b j * c) m' := by
  unfold fmaddInplace
  simp only [hh.has hf ha, hh.has hf hb, Bool.not_true, Bool.false_eq_true, if_false, total_eq hh.toHolds ha, width hf]
  refine elementwise_holds hf hl (fun h => h = a) (by rintro h rfl; exact ha) hh ?_ ?_ ?_
  · intro d j hd
    unfold fmaddInplaceBody
    within
    · exact ⟨by rw [rep_div hd]; exact ha, rep_mod hd, rfl⟩
    · exact ⟨by rw [rep_div hd]; exact hb, rep_mod hd, rfl⟩
    · exact ⟨rep_div hd, rep_mod hd, rfl⟩
  · intro d j m1 hd hc
    obtain ⟨m2, b1, _, b2, b3⟩ := put_cell_run hd (V a j + V b j * c) (m1 := m1) (a := a) (j := j) (by rw [hc a ha]; rfl)
    refine ⟨m2, ?_, ?_, b3⟩
    · unfold fmaddInplaceBody
      simp only [Prog.run_bind, Prog.run_get (hc a ha), Prog.run_get (hc b hb), res_ok_bind]
      exact b1
    · rintro h rfl
      rw [b2, Spec.put, if_pos rfl]
  · intro h hne
    exact if_neg hne

theorem fmadd_holds (hf : Fits g w) {loop : Loop S} (hl : IsParLoop loop) {a b c : Nat} (ha : H a) (hb : H b)
    (hc' : H c) (d : S) (hh : Follows m₀ g w hm hs H M V m) :
    ∃ m', g.fmadd loop a b c d m = .ok m' ∧
      Follows m₀ g w hm hs H M (Spec.put V a fun j => V b j + V c j * d) m' := by
  unfold fmadd
  simp only [hh.has hf ha, hh.has hf hb, hh.has hf hc', Bool.not_true, Bool.false_eq_true, if_false,
    total_eq hh.toHolds ha, width hf]
  refine elementwise_holds hf hl (fun h => h = a) (by rintro h rfl; exact ha) hh ?_ ?_ ?_
  · intro e j hd
    unfold fmaddBody
    within
    · exact ⟨by rw [rep_div hd]; exact hb, rep_mod hd, rfl⟩
    · exact ⟨by rw [rep_div hd]; exact hc', rep_mod hd, rfl⟩
    · exact ⟨rep_div hd, rep_mod hd, rfl⟩
  · intro e j m1 hd hc
    obtain ⟨m2, b1, _, b2, b3⟩ := put_cell_run hd (V b j + V c j * d) (m1 := m1) (a := a) (j := j) (by rw [hc a ha]; rfl)
    refine ⟨m2, ?_, ?_, b3⟩
    · unfold fmaddBody
      simp only [Prog.run_bind, Prog.run_get (hc b hb), Prog.run_get (hc c hc'), res_ok_bind]
      exact b1
    · rintro h rfl
      rw [b2, Spec.put, if_pos rfl]
  · intro h hne
    exact if_neg hne

omit [Add S] [Mul S] in
/-- Whole replicas, one after the other or in parallel, when nothing but the written buffer changes. -/
theorem Follows.put_of (hh : Follows m₀ g w hm hs H M V m) {a : Nat} {x : Nat → S} (ha : H a)
    (hsh : m'.shape = m.shape)
    (hc : ∀ d i, d < g.D → i < 6 * w → m'.cell (rep g.D a d) (d * (6 * w) + i) = some (x (d * (6 * w) + i)))
    (hk : ∀ h d j, h < hs → h ≠ a → d < g.D → m'.cell (rep g.D h d) j = m.cell (rep g.D h d) j) :
    Follows m₀ g w hm hs H M (Spec.put V a x) m' := by
  refine hh.next hsh ?_ ?_
  · intro h d i hH hd hi
    by_cases e : h = a
    · subst e
      rw [hc d i hd hi, Spec.put, if_pos rfl]
    · rw [hk h d _ (hh.handles.2 h hH).1 e hd, hh.slices h d i hH hd hi, Spec.put, if_neg e]
  · intro h d j hlt hn hd
    exact hk h d j hlt (fun e => hn (e ▸ ha)) hd

omit [Add S] [Mul S] in
theorem fillBuffer_holds (hf : Fits g w) {loop : Loop S} (hl : IsParLoop loop) {a : Nat} (ha : H a) (v : S)
    (hh : Follows m₀ g w hm hs H M V m) :
    ∃ m', g.fillBuffer loop a v m = .ok m' ∧ Follows m₀ g w hm hs H M (Spec.put V a fun _ => v) m' := by
  have key : ∀ c, 6 * g.n ≤ c → c ≤ allocSize (6 * g.n) →
      ∃ m', loop (g.D * c) (fun p => fillBody (rep g.D a (p / c)) v (p % c)) m = .ok m' ∧
        Follows m₀ g w hm hs H M (Spec.put V a fun _ => v) m' := by
    intro c hc1 hc2
    have hc0 : 0 < c := by
      have := slice_lt hf (i := 0) (devices_pos hf) (by have := hf.bodies; omega)
      omega
    have hdev : ∀ p, p < g.D * c → p / c < g.D := fun p hp => Nat.div_lt_of_lt_mul (by rwa [Nat.mul_comm])
    obtain ⟨m', a1, a2, a3, a4⟩ := elem_run (D := g.D) hl (N := g.D * c) (fun p => p / c)
      (fun p k => k = p % c) hdev
      (by
        rintro p p' k hp hp' e1 rfl e2
        rw [← Nat.div_add_mod p c, ← Nat.div_add_mod p' c, e1, e2])
      (fun _ => False) (fun h => h = a) (body := fun p => fillBody (rep g.D a (p / c)) v (p % c))
      (V := fun _ _ _ => v) (V' := fun _ _ _ => v) (m := m)
      (fun h p k hF => hF.elim)
      (by
        intro p hp
        exact Prog.Within.put ⟨rep_div (hdev p hp), rep_mod (hdev p hp), rfl⟩)
      (by
        intro p m1 hp hsh _
        obtain ⟨m2, b1, _, b2, b3⟩ := put_cell_run (hdev p hp) v (m1 := m1) (a := a) (j := p % c)
          (isSome_of_shape hsh (hh.room a ha _ _ (hdev p hp) (by have := Nat.mod_lt p hc0; omega)))
        refine ⟨m2, b1, ?_, b3⟩
        rintro h k rfl rfl
        exact b2)
    refine ⟨m', a1, hh.put_of ha a2 ?_ ?_⟩
    · intro d i hd hi
      have hlt := slice_lt hf hd hi
      have e1 : (d * c + (d * (6 * w) + i)) / c = d := flat_div (by omega)
      have e2 : (d * c + (d * (6 * w) + i)) % c = d * (6 * w) + i := flat_mod (by omega)
      have := a3 a (d * c + (d * (6 * w) + i)) (d * (6 * w) + i) rfl (flat_lt hd (by omega)) e2.symm
      rw [e1] at this
      exact this
    · intro h d j _ hne hd
      rw [a4]
      rintro ⟨p, _, h', _⟩
      rw [rep_div hd] at h'
      exact hne h'
  unfold fillBuffer
  simp only [hh.has hf ha, Bool.not_true, Bool.false_eq_true, if_false, (hh.handles.2 a ha).2.2]
  cases hc : g.cuda with
  | true =>
    simp only [if_true]
    exact key _ (le_refl _) (le_allocSize _)
  | false =>
    simp only [Bool.false_eq_true, if_false]
    obtain ⟨q, hq⟩ := hf.fill hc
    have : openclGroups (allocSize (6 * g.n)) g.B = .ok q := by
      unfold openclGroups
      rw [hq, if_neg, Nat.mul_div_cancel_left _ hf.block]
      rintro (e | e)
      · have := hf.block; omega
      · rw [Nat.mul_mod_right] at e; exact e rfl
    rw [this, res_ok_bind]
    exact key _ (le_allocSize _) (le_refl _)

omit [Add S] [Mul S] in
theorem inRect_all {s k : Nat} : InRect 0 s 1 s k ↔ k < s := by
  rw [inRect_iff (by omega)]
  constructor
  · rintro ⟨h, _⟩; omega
  · intro h; exact ⟨by omega, by omega, by rw [Nat.mod_eq_of_lt h]; omega⟩

omit [Add S] [Mul S] in
theorem copyBuffer_holds (hf : Fits g w) {loop : Loop S} (hl : IsParLoop loop) {a b : Nat} (ha : H a) (hb : H b)
    (hab : a ≠ b) (hh : Follows m₀ g w hm hs H M V m) :
    ∃ m', g.copyBuffer loop a b m = .ok m' ∧ Follows m₀ g w hm hs H M (Spec.put V a (V b)) m' := by
  have hD := devices_pos hf
  have hsa := (hh.handles.2 a ha).2.2
  have hsb := (hh.handles.2 b hb).2.2
  have hw := hf.bodies
  have hr : ∀ h, H h → Replicated g.D h (6 * g.n) m := fun h hH d j hd hj =>
    hh.room h hH d j hd (by have := le_allocSize (6 * g.n); omega)
  unfold copyBuffer
  simp only [hh.has hf ha, hh.has hf hb, Bool.not_true, Bool.false_eq_true, if_false, hsa, hsb, ne_eq,
    not_true_eq_false]
  cases hhost : g.host with
  | none =>
    simp only
    rw [if_neg (fun e => hab e.2)]
    have hnr : ∀ d, d < g.D → rep g.D b d ≠ rep g.D a d := fun d hd e => hab ((rep_inj hd hd).1 e).1.symm
    obtain ⟨m', a1, a2, a3, a4⟩ := elem_run (D := g.D) hl (N := g.D) (fun p => p) (fun _ k => k < 6 * g.n)
      (fun _ h => h) (fun p p' k _ _ e _ _ => e) (fun h => h = b) (fun h => h = a)
      (body := fun d => copyRect (rep g.D b d) (rep g.D a d) 0 (6 * g.n) 1 (6 * g.n))
      (V := fun d h k => (m.cell (rep g.D h d) k).getD (V h k))
      (V' := fun d _ k => (m.cell (rep g.D b d) k).getD (V b k)) (m := m)
      (by
        rintro h p k rfl hp hk
        obtain ⟨u, hu⟩ := Option.isSome_iff_exists.1 (hr h hb p k hp hk)
        simp [hu])
      (by
        intro p hp
        refine copyRect_within (fun j hj => ?_) (fun j hj => ?_)
        · exact ⟨rep_div hp, rep_mod hp, inRect_all.1 hj⟩
        · exact ⟨rep_div hp, rep_mod hp, inRect_all.1 hj⟩)
      (by
        intro p m1 hp hsh hc
        obtain ⟨m2, b1, _, b3⟩ := copyRect_run (m := m1) (hnr p hp) (off := 0) (w := 6 * g.n) (rows := 1)
          (pitch := 6 * g.n)
          (fun j hj => (hr b hb).of_shape hsh p j hp (inRect_all.1 hj))
          (fun j hj => (hr a ha).of_shape hsh p j hp (inRect_all.1 hj))
        refine ⟨m2, b1, ?_, ?_⟩
        · rintro h k rfl hk
          rw [b3, if_pos ⟨rfl, inRect_all.2 hk⟩, hc b k rfl hk]
        · intro x k hx
          rw [b3, if_neg]
          rintro ⟨e, hk⟩
          exact hx ⟨((eq_rep_iff hp).1 e).1, ((eq_rep_iff hp).1 e).2, inRect_all.1 hk⟩)
    refine ⟨m', a1, hh.put_of ha a2 ?_ ?_⟩
    · intro d i hd hi
      rw [a3 a d _ rfl hd (slice_lt hf hd hi), hh.slices b d i hb hd hi]
      rfl
    · intro h d j _ hne hd
      rw [a4]
      rintro ⟨p, _, h', _⟩
      rw [rep_div hd] at h'
      exact hne h'
  | some ho =>
    simp only
    obtain ⟨h1, h2⟩ := hh.hostBuffer ho hhost
    have hneb : b ≠ ho := by have := (hh.handles.2 b hb).1; omega
    have hnea : a ≠ ho := by have := (hh.handles.2 a ha).1; omega
    have hle : g.D ≤ 6 * g.n := by
      rw [hf.count, show 6 * (g.D * w) = g.D * (6 * w) by ring]
      exact Nat.le_mul_of_pos_right _ (by omega)
    obtain ⟨m1, a1, a2, a3, a4⟩ := mdReadBuffer_run hl hneb hD hle (hr b hb) h2
    obtain ⟨m2, b1, b2, b3, _, b5⟩ := mdWriteBuffer_run hl hnea hD (m := m1) ((hr a ha).of_shape a2)
      (fun j hj => isSome_of_shape a2 (h2 j hj))
    refine ⟨m2, by rw [a1, res_ok_bind]; exact b1, hh.put_of ha (by rw [b2, a2]) ?_ ?_⟩
    · intro d i hd hi
      have hlt := slice_lt hf hd hi
      have e1 : (d * (6 * w) + i) / (6 * g.n / g.D) = d := by rw [width hf]; exact flat_div hi
      rw [b3 d _ hd hlt, a3 _ hlt (by rw [e1]; exact hd), e1, hh.slices b d i hb hd hi]
    · intro h d j hlt hne hd
      rw [b5 _ _ (by rw [rep_div hd]; exact hne), a4]
      intro e
      have := ((rep_inj hd hD).1 e).1
      omega

end ops

section clampOp
variable [Add S] [Sub S] [Mul S] [Neg S] [FOps S]

/-- A clamped body of one replica. -/
theorem clampBody_run {n : Nat} {y : Handle} {b : S} {X : Nat → S} {i : Nat} (hi : i < n) {m1 : Mem S}
    (hc : ∀ k, k < 3 * n → k % n = i → m1.cell y k = some (X k)) :
    ∃ m2, (clampBody n y b i).run m1 = .ok ((), m2) ∧
      (∀ k, k < 3 * n → k % n = i → m2.cell y k = some (Spec.wrap b (X k))) ∧
      ∀ x k, ¬ (x = y ∧ k < 3 * n ∧ k % n = i) → m2.cell x k = m1.cell x k := by
  have q0 : i % n = i := Nat.mod_eq_of_lt hi
  have q1 : (n + i) % n = i := by rw [Nat.add_mod_left, q0]
  have q2 : (2 * n + i) % n = i := by rw [show 2 * n + i = n + (n + i) by omega, Nat.add_mod_left, q1]
  obtain ⟨m2, a1, _, a2⟩ := clampCoord_run (b := b) (diam := FOps.lit 2 * b) (hc i (by omega) q0)
  obtain ⟨m3, b1, _, b2⟩ := clampCoord_run (b := b) (diam := FOps.lit 2 * b) (m := m2) (j := n + i) (y := y)
    (x := X (n + i)) (by
      rw [a2, hc (n + i) (by omega) q1]
      simp only [Option.map_some]
      rw [if_neg (by omega)])
  obtain ⟨m4, c1, _, c2⟩ := clampCoord_run (b := b) (diam := FOps.lit 2 * b) (m := m3) (j := 2 * n + i) (y := y)
    (x := X (2 * n + i)) (by
      rw [b2, a2, hc (2 * n + i) (by omega) q2]
      simp only [Option.map_some]
      rw [if_neg (by omega), if_neg (by omega)])
  refine ⟨m4, ?_, ?_, ?_⟩
  · unfold clampBody
    simp only [Prog.run_bind, a1, b1, res_ok_bind]
    exact c1
  · intro k hk hki
    have : k = i ∨ k = n + i ∨ k = 2 * n + i := by
      have hkey := bodyOf_eq (n := n) (i := i) hi (show k < 6 * n by omega)
      unfold bodyOf at hkey
      have := hkey.1 hki
      omega
    rw [c2, b2, a2, hc k hk hki]
    simp only [Option.map_some, true_and]
    rcases this with rfl | rfl | rfl
    · rw [if_neg (by omega), if_neg (by omega), if_pos rfl]; rfl
    · rw [if_neg (by omega), if_pos rfl]; rfl
    · rw [if_pos rfl]; rfl
  · intro x k hx
    have h0 : ¬ (x = y ∧ k = i) := by rintro ⟨rfl, rfl⟩; exact hx ⟨rfl, by omega, q0⟩
    have h1 : ¬ (x = y ∧ k = n + i) := by rintro ⟨rfl, rfl⟩; exact hx ⟨rfl, by omega, q1⟩
    have h2 : ¬ (x = y ∧ k = 2 * n + i) := by rintro ⟨rfl, rfl⟩; exact hx ⟨rfl, by omega, q2⟩
    rw [c2, b2, a2]
    cases m1.cell x k with
    | none => rfl
    | some u => simp only [Option.map_some, if_neg h0, if_neg h1, if_neg h2]

theorem clamp_holds (hf : Fits g w) {loop : Loop S} (hl : IsParLoop loop) {y : Nat} (hy : H y) (b : S)
    (hh : Follows m₀ g w hm hs H M V m) :
    ∃ m', g.clamp loop y b m = .ok m' ∧
      Follows m₀ g w hm hs H M (Spec.put V y fun j => if j < 3 * g.n then Spec.wrap b (V y j) else V y j) m' := by
  have hn0 : 0 < g.n := by rw [hf.count]; exact Nat.mul_pos (devices_pos hf) hf.bodies
  obtain ⟨gd, h1, h2⟩ := groups_ok hf (size := g.n) hn0
    (fun _ => by rw [hf.count]; exact Dvd.dvd.mul_left hf.groups _) (fun h => (hf.elements h).2.1)
  unfold clamp
  simp only [hh.has hf hy, Bool.not_true, Bool.false_eq_true, if_false, h1, h2, res_ok_bind]
  have hdev : ∀ p, p < g.D * g.n → p / g.n < g.D := fun p hp => Nat.div_lt_of_lt_mul (by rwa [Nat.mul_comm])
  have hr : Replicated g.D y (6 * g.n) m := fun d j hd hj =>
    hh.room y hy d j hd (by have := le_allocSize (6 * g.n); omega)
  obtain ⟨m', a1, a2, a3, a4⟩ := elem_run (D := g.D) hl (N := g.D * g.n) (fun p => p / g.n)
    (fun p k => k < 3 * g.n ∧ k % g.n = p % g.n) hdev
    (by
      rintro p p' k hp hp' e1 ⟨_, e2⟩ ⟨_, e3⟩
      rw [← Nat.div_add_mod p g.n, ← Nat.div_add_mod p' g.n, e1, ← e2, ← e3])
    (fun h => h = y) (fun h => h = y) (body := fun p => clampBody g.n (rep g.D y (p / g.n)) b (p % g.n))
    (V := fun d h k => (m.cell (rep g.D h d) k).getD (V h k))
    (V' := fun d _ k => Spec.wrap b ((m.cell (rep g.D y d) k).getD (V y k))) (m := m)
    (by
      rintro h p k rfl hp ⟨hk, _⟩
      obtain ⟨u, hu⟩ := Option.isSome_iff_exists.1 (hr (p / g.n) k (hdev p hp) (by omega))
      simp [hu])
    (by
      intro p hp
      have hi : p % g.n < g.n := Nat.mod_lt _ hn0
      have q0 : p % g.n % g.n = p % g.n := Nat.mod_eq_of_lt hi
      have q1 : (g.n + p % g.n) % g.n = p % g.n := by rw [Nat.add_mod_left, q0]
      have q2 : (2 * g.n + p % g.n) % g.n = p % g.n := by
        rw [show 2 * g.n + p % g.n = g.n + (g.n + p % g.n) by omega, Nat.add_mod_left, q1]
      unfold clampBody
      refine Prog.Within.bind ?_ (fun _ => Prog.Within.bind ?_ (fun _ => ?_)) <;>
        apply clampCoord_within <;>
        refine ⟨rep_div (hdev p hp), rep_mod (hdev p hp), by omega, ?_⟩ <;> assumption)
    (by
      intro p m1 hp hsh hc
      obtain ⟨m2, b1, b2, b3⟩ := clampBody_run (n := g.n) (y := rep g.D y (p / g.n)) (b := b)
        (i := p % g.n) (Nat.mod_lt _ hn0) (m1 := m1)
        (X := fun k => (m.cell (rep g.D y (p / g.n)) k).getD (V y k))
        (fun k hk e => hc y k rfl ⟨hk, e⟩)
      refine ⟨m2, b1, ?_, ?_⟩
      · rintro h k rfl ⟨hk, e⟩
        exact b2 k hk e
      · intro x k hx
        apply b3
        rintro ⟨e, e'⟩
        exact hx ⟨((eq_rep_iff (hdev p hp)).1 e).1, ((eq_rep_iff (hdev p hp)).1 e).2, e'⟩)
  refine ⟨m', a1, hh.put_of hy a2 ?_ ?_⟩
  · intro d i hd hi
    have hs' := hh.slices y d i hy hd hi
    generalize d * (6 * w) + i = j at hs'
    by_cases hj : j < 3 * g.n
    · rw [if_pos hj]
      have hjn : j % g.n < g.n := Nat.mod_lt _ hn0
      have e1 : (d * g.n + j % g.n) / g.n = d := flat_div hjn
      have e2 : (d * g.n + j % g.n) % g.n = j % g.n := flat_mod hjn
      have := a3 y (d * g.n + j % g.n) j rfl (flat_lt hd hjn) ⟨hj, e2.symm⟩
      rw [e1, hs'] at this
      exact this
    · rw [if_neg hj, a4, hs']
      rintro ⟨p, _, _, _, h', _⟩
      exact hj h'
  · intro h d j _ hne hd
    rw [a4]
    rintro ⟨p, _, h', _⟩
    rw [rep_div hd] at h'
    exact hne h'

end clampOp

section corrOp
variable [Add S] [Sub S] [Mul S] [Zero S] [FOps S]

omit [Zero S] [FOps S] in
theorem corrKernel_run {a corr b d j : Nat} (ha : H a) (hcorr : H corr) (hb : H b) (hd : d < g.D) (c : S)
    {m1 : Mem S} (hc : ∀ h, H h → m1.cell (rep g.D h d) j = some (V h j)) (V' : Spec.Buffers S)
    (hV' : V' = (Spec.put (Spec.put V corr fun j => ((V a j + (V b j * c - V corr j)) - V a j) - (V b j * c - V corr j))
      a fun j => V a j + (V b j * c - V corr j))) :
    ∃ m2, (corrKernel (rep g.D a d) (rep g.D corr d) (rep g.D b d) c j).run m1 = .ok ((), m2) ∧
      (∀ h, H h → m2.cell (rep g.D h d) j = some (V' h j)) ∧
      ∀ x k, ¬ ((x / g.D = a ∨ x / g.D = corr) ∧ x % g.D = d ∧ k = j) → m2.cell x k = m1.cell x k := by
  obtain ⟨m2, b1, b1', b2, b3⟩ := put_cell_run hd (((V a j + (V b j * c - V corr j)) - V a j) - (V b j * c - V corr j))
    (m1 := m1) (a := corr) (j := j) (by rw [hc corr hcorr]; rfl)
  obtain ⟨m3, c1, _, c2, c3⟩ := put_cell_run hd (V a j + (V b j * c - V corr j))
    (m1 := m2) (a := a) (j := j) (isSome_of_shape b1' (by rw [hc a ha]; rfl))
  refine ⟨m3, ?_, ?_, ?_⟩
  · unfold corrKernel
    simp only [Prog.run_bind, Prog.run_get (hc a ha), Prog.run_get (hc corr hcorr), Prog.run_get (hc b hb),
      res_ok_bind, b1]
    exact c1
  · intro h hH
    rw [hV']
    by_cases e : h = a
    · subst e
      rw [c2, Spec.put, if_pos rfl]
    · rw [c3 _ _ (by rintro ⟨e', _⟩; rw [rep_div hd] at e'; exact e e'), Spec.put, if_neg e]
      by_cases e2 : h = corr
      · subst e2
        rw [b2, Spec.put, if_pos rfl]
      · rw [b3 _ _ (by rintro ⟨e', _⟩; rw [rep_div hd] at e'; exact e2 e'), Spec.put, if_neg e2, hc h hH]
  · intro x k hx
    rw [c3 x k (fun e => hx ⟨Or.inl e.1, e.2⟩), b3 x k (fun e => hx ⟨Or.inr e.1, e.2⟩)]

omit [Zero S] [FOps S] in
theorem corrKernel_within {a corr b d j : Nat} (ha : H a) (hcorr : H corr) (hb : H b) (hd : d < g.D) (c : S) :
    (corrKernel (rep g.D a d) (rep g.D corr d) (rep g.D b d) c j).Within
      (fun x k => H (x / g.D) ∧ x % g.D = d ∧ k = j)
      (fun x k => (x / g.D = a ∨ x / g.D = corr) ∧ x % g.D = d ∧ k = j) := by
  unfold corrKernel
  within
  · exact ⟨by rw [rep_div hd]; exact hb, rep_mod hd, rfl⟩
  · exact ⟨by rw [rep_div hd]; exact ha, rep_mod hd, rfl⟩
  · exact ⟨by rw [rep_div hd]; exact hcorr, rep_mod hd, rfl⟩
  · exact ⟨Or.inr (rep_div hd), rep_mod hd, rfl⟩
  · exact ⟨Or.inl (rep_div hd), rep_mod hd, rfl⟩

theorem corrFold_keep {a corr : Nat} (ts : List (Nat × S)) {h : Nat} (hne : ¬ (h = a ∨ h = corr)) :
    ∀ V : Spec.Buffers S, ts.foldl (Spec.addCorrected a corr) V h = V h := by
  induction ts with
  | nil => intro V; rfl
  | cons t ts ih =>
    intro V
    rw [List.foldl_cons, ih]
    unfold Spec.addCorrected
    split
    · rfl
    · simp only [Spec.put]
      rw [if_neg (fun e => hne (Or.inl e)), if_neg (fun e => hne (Or.inr e))]

theorem corrTerms_holds (hf : Fits g w) {loop : Loop S} (hl : IsParLoop loop) {a corr : Nat} (ha : H a)
    (hcorr : H corr) : ∀ (ts : List (Nat × S)) {V : Spec.Buffers S} {m : Mem S}, (∀ t ∈ ts, H t.1) →
      Follows m₀ g w hm hs H M V m →
      ∃ m', g.corrTerms loop a corr ts m = .ok m' ∧
        Follows m₀ g w hm hs H M (ts.foldl (Spec.addCorrected a corr) V) m' := by
  intro ts
  induction ts with
  | nil => intro V m _ hh; exact ⟨m, rfl, hh⟩
  | cons t ts ih =>
    intro V m hts hh
    obtain ⟨b, c⟩ := t
    have hb : H b := hts (b, c) (by simp)
    rw [List.foldl_cons]
    unfold corrTerms
    by_cases hc : FOps.eqb c 0 = true
    · rw [if_pos hc]
      have e : Spec.addCorrected a corr V (b, c) = V := if_pos hc
      rw [e]
      exact ih (fun t ht => hts t (by simp [ht])) hh
    · rw [if_neg hc]
      simp only [hh.has hf hb, Bool.not_true, Bool.false_eq_true, if_false, width hf]
      obtain ⟨m1, a1, a2⟩ := elementwise_holds hf hl (fun h => h = a ∨ h = corr)
        (by rintro h (rfl | rfl) <;> assumption)
        (body := fun d => corrKernel (rep g.D a d) (rep g.D corr d) (rep g.D b d) c) hh
        (V' := Spec.addCorrected a corr V (b, c))
        (fun d j hd => corrKernel_within ha hcorr hb hd c)
        (by
          intro d j m1 hd hcell
          obtain ⟨m2, b1, b2, b3⟩ := corrKernel_run ha hcorr hb hd c hcell (Spec.addCorrected a corr V (b, c))
            (if_neg hc)
          refine ⟨m2, b1, ?_, b3⟩
          rintro h (rfl | rfl)
          · exact b2 _ ha
          · exact b2 _ hcorr)
        (fun h hne => corrFold_keep [(b, c)] hne V)
      rw [a1, res_ok_bind]
      exact ih (fun t ht => hts t (by simp [ht])) a2

theorem corrChain_run {a corr d j : Nat} (ha : H a) (hcorr : H corr) (hd : d < g.D) :
    ∀ (ts : List (Nat × S)) {V : Spec.Buffers S} {m1 : Mem S}, (∀ t ∈ ts, H t.1) →
      (∀ h, H h → m1.cell (rep g.D h d) j = some (V h j)) →
      ∃ m2, (corrChain g.D a corr d j ts).run m1 = .ok ((), m2) ∧
        (∀ h, H h → m2.cell (rep g.D h d) j = some (ts.foldl (Spec.addCorrected a corr) V h j)) ∧
        ∀ x k, ¬ ((x / g.D = a ∨ x / g.D = corr) ∧ x % g.D = d ∧ k = j) → m2.cell x k = m1.cell x k := by
  intro ts
  induction ts with
  | nil => intro V m1 _ hc; exact ⟨m1, rfl, hc, fun _ _ _ => rfl⟩
  | cons t ts ih =>
    intro V m1 hts hcell
    obtain ⟨b, c⟩ := t
    have hb : H b := hts (b, c) (by simp)
    rw [List.foldl_cons]
    unfold corrChain
    by_cases hc : FOps.eqb c 0 = true
    · have e : Spec.addCorrected a corr V (b, c) = V := if_pos hc
      rw [e]
      obtain ⟨m2, b1, b2, b3⟩ := ih (fun t ht => hts t (by simp [ht])) hcell
      refine ⟨m2, ?_, b2, b3⟩
      rw [if_pos hc]
      exact b1
    · obtain ⟨m2, b1, b2, b3⟩ := corrKernel_run ha hcorr hb hd c hcell (Spec.addCorrected a corr V (b, c))
        (if_neg hc)
      obtain ⟨m3, c1, c2, c3⟩ := ih (fun t ht => hts t (by simp [ht])) b2
      refine ⟨m3, ?_, c2, fun x k hx => by rw [c3 x k hx, b3 x k hx]⟩
      rw [if_neg hc, Prog.run_bind, b1, res_ok_bind]
      exact c1

theorem corrChain_within {a corr d j : Nat} (ha : H a) (hcorr : H corr) (hd : d < g.D) :
    ∀ (ts : List (Nat × S)), (∀ t ∈ ts, H t.1) →
      (corrChain g.D a corr d j ts).Within
        (fun x k => H (x / g.D) ∧ x % g.D = d ∧ k = j)
        (fun x k => (x / g.D = a ∨ x / g.D = corr) ∧ x % g.D = d ∧ k = j) := by
  intro ts
  induction ts with
  | nil => intro _; exact Prog.Within.pure _
  | cons t ts ih =>
    intro hts
    obtain ⟨b, c⟩ := t
    unfold corrChain
    refine Prog.Within.bind ?_ (fun _ => ih fun t ht => hts t (by simp [ht]))
    split
    · exact Prog.Within.pure _
    · exact corrKernel_within ha hcorr (hts (b, c) (by simp)) hd c

omit [Sub S] [Mul S] [Add S] [Zero S] [FOps S] in
theorem zip_mem {b : List Nat} {c : List S} {k : Nat} {P : Nat → Prop} (hb : ∀ h ∈ b, P h) :
    ∀ t ∈ (b.zip c).take k, P t.1 := by
  rintro ⟨h, x⟩ ht
  exact hb h (List.of_mem_zip (List.mem_of_mem_take ht)).1

omit [Sub S] [Mul S] [Add S] in
theorem zero_terms {b : List Nat} {c : List S} {k : Nat} (hz : ((c.take k).all fun x => FOps.eqb x 0) = true) :
    ∀ t ∈ (b.zip c).take k, FOps.eqb t.2 0 = true := by
  rintro ⟨h, x⟩ ht
  rw [List.zip_eq_zipWith, List.take_zipWith, ← List.zip_eq_zipWith] at ht
  exact List.all_eq_true.1 hz x (List.of_mem_zip ht).2

theorem fmaddnCorr_holds (hf : Fits g w) {loop : Loop S} (hl : IsParLoop loop) {a corr : Nat} {b : List Nat}
    {c : List S} {k : Nat} (ha : H a) (hcorr : H corr) (hb : ∀ h ∈ b, H h) (hk : k ≤ b.length ∧ k ≤ c.length)
    (hh : Follows m₀ g w hm hs H M V m) :
    ∃ m', g.fmaddnCorr loop a corr b (some c) k m = .ok m' ∧
      Follows m₀ g w hm hs H M (((b.zip c).take k).foldl (Spec.addCorrected a corr) V) m' := by
  unfold fmaddnCorr
  simp only [hh.has hf ha, hh.has hf hcorr, Bool.not_true, Bool.false_eq_true, if_false]
  rw [if_neg (by omega), if_neg (by omega)]
  have hts : ∀ t ∈ (b.zip c).take k, H t.1 := zip_mem hb
  cases hcu : g.cuda with
  | false =>
    simp only [Bool.false_eq_true, if_false]
    exact corrTerms_holds hf hl ha hcorr _ hts hh
  | true =>
    simp only [if_true]
    have hall : (b.take k).all (g.has m) = true := List.all_eq_true.2 fun h hmem =>
      hh.has hf (hb h (List.mem_of_mem_take hmem))
    rw [hall]
    simp only [Bool.not_true, Bool.false_eq_true, if_false]
    by_cases hz : ((c.take k).all fun x => FOps.eqb x 0) = true
    · rw [if_pos hz]
      refine ⟨m, rfl, ?_⟩
      have h0 := zero_terms (b := b) hz
      have : ((b.zip c).take k).foldl (Spec.addCorrected a corr) V = V := by
        generalize (b.zip c).take k = ts at h0
        induction ts with
        | nil => rfl
        | cons t ts ih =>
          rw [List.foldl_cons]
          have e : Spec.addCorrected a corr V t = V := if_pos (h0 t (by simp))
          rw [e]
          exact ih fun t ht => h0 t (by simp [ht])
      rw [this]; exact hh
    · rw [if_neg hz, total_eq hh.toHolds ha, width hf]
      exact elementwise_holds hf hl (fun h => h = a ∨ h = corr) (by rintro h (rfl | rfl) <;> assumption) hh
        (fun d j hd => corrChain_within ha hcorr hd _ hts)
        (by
          intro d j m1 hd hcell
          obtain ⟨m2, b1, b2, b3⟩ := corrChain_run (j := j) ha hcorr hd _ hts hcell
          refine ⟨m2, b1, ?_, b3⟩
          rintro h (rfl | rfl)
          · exact b2 _ ha
          · exact b2 _ hcorr)
        (fun h hne => corrFold_keep _ hne V)

end corrOp

section termOps
variable [Add S] [Mul S] [Zero S] [FOps S]

theorem fmaddnInplaceTerms_holds (hf : Fits g w) {loop : Loop S} (hl : IsParLoop loop) {a : Nat} (ha : H a) :
    ∀ (ts : List (Nat × S)) {V : Spec.Buffers S} {m : Mem S}, (∀ t ∈ ts, H t.1) →
      Follows m₀ g w hm hs H M V m →
      ∃ m', g.fmaddnInplaceTerms loop a ts m = .ok m' ∧
        Follows m₀ g w hm hs H M (ts.foldl (Spec.addTerm a) V) m' := by
  intro ts
  induction ts with
  | nil => intro V m _ hh; exact ⟨m, rfl, hh⟩
  | cons t ts ih =>
    intro V m hts hh
    obtain ⟨b, c⟩ := t
    have hb : H b := hts (b, c) (by simp)
    rw [List.foldl_cons]
    unfold fmaddnInplaceTerms
    by_cases hc : FOps.eqb c 0 = true
    · rw [if_pos hc, res_ok_bind]
      have e : Spec.addTerm a V (b, c) = V := if_pos hc
      rw [e]
      exact ih (fun t ht => hts t (by simp [ht])) hh
    · obtain ⟨m1, a1, a2⟩ := fmaddInplace_holds hf hl ha hb c hh
      have e : Spec.addTerm a V (b, c) = _ := if_neg hc
      rw [if_neg hc, a1, res_ok_bind, e]
      exact ih (fun t ht => hts t (by simp [ht])) a2

theorem fmaddnTerms_true_holds (hf : Fits g w) {loop : Loop S} (hl : IsParLoop loop) {a b : Nat} (ha : H a) :
    ∀ (ts : List (Nat × S)) {V : Spec.Buffers S} {m : Mem S}, (∀ t ∈ ts, H t.1) →
      Follows m₀ g w hm hs H M V m →
      ∃ m', g.fmaddnTerms loop a b true ts m = .ok m' ∧
        Follows m₀ g w hm hs H M (ts.foldl (Spec.addTerm a) V) m' := by
  intro ts
  induction ts with
  | nil => intro V m _ hh; exact ⟨m, rfl, hh⟩
  | cons t ts ih =>
    intro V m hts hh
    obtain ⟨c, d⟩ := t
    have hb : H c := hts (c, d) (by simp)
    rw [List.foldl_cons]
    unfold fmaddnTerms
    by_cases hc : FOps.eqb d 0 = true
    · rw [if_pos hc]
      have e : Spec.addTerm a V (c, d) = V := if_pos hc
      rw [e]
      exact ih (fun t ht => hts t (by simp [ht])) hh
    · obtain ⟨m1, a1, a2⟩ := fmadd_holds hf hl ha ha hb d hh
      have e : Spec.addTerm a V (c, d) = _ := if_neg hc
      rw [if_neg hc]
      simp only [if_true]
      rw [a1, res_ok_bind, e]
      exact ih (fun t ht => hts t (by simp [ht])) a2

theorem fmaddnTerms_false_holds (hf : Fits g w) {loop : Loop S} (hl : IsParLoop loop) {a b : Nat} (ha : H a)
    (hb : H b) : ∀ (ts : List (Nat × S)) {V : Spec.Buffers S} {m : Mem S}, (∀ t ∈ ts, H t.1) →
      Follows m₀ g w hm hs H M V m →
      ∃ m', g.fmaddnTerms loop a b false ts m = .ok m' ∧ Follows m₀ g w hm hs H M (Spec.sumFrom a b V ts) m' := by
  intro ts
  induction ts with
  | nil => intro V m _ hh; exact ⟨m, rfl, hh⟩
  | cons t ts ih =>
    intro V m hts hh
    obtain ⟨c, d⟩ := t
    have hc' : H c := hts (c, d) (by simp)
    unfold fmaddnTerms Spec.sumFrom
    by_cases hc : FOps.eqb d 0 = true
    · rw [if_pos hc, if_pos hc]
      exact ih (fun t ht => hts t (by simp [ht])) hh
    · obtain ⟨m1, a1, a2⟩ := fmadd_holds hf hl ha hb hc' d hh
      rw [if_neg hc, if_neg hc]
      simp only [Bool.false_eq_true, if_false]
      rw [a1, res_ok_bind]
      exact fmaddnTerms_true_holds hf hl ha ts (fun t ht => hts t (by simp [ht])) a2

end termOps

section callOp
variable [Add S] [Sub S] [Mul S] [Neg S] [Div S] [Zero S] [One S] [FOps S]

omit [Neg S] [One S] in
theorem fcompute_holds (hf : Fits g w) {launch : Launch S (DenseReg S)} (hla : IsLaunch launch) {loop : Loop S}
    (hl : IsParLoop loop) {y f : Nat} (hy : H y) (hF : H f) (hyf : y ≠ f) (hh : Holds g w hm hs H M V m)
    {x : Nat → S} (hx : ∀ j, j < 6 * g.n → x j = denseVal g.n g.B (V y) M j) :
    ∃ m', g.fcompute launch loop hm y f hs m = .ok m' ∧ Holds g w hm hs H M (Spec.put V f x) m' := by
  have hD := devices_pos hf
  have hr : ∀ h, H h → Replicated g.D h (6 * g.n) m := fun h hH d j hd hj =>
    hh.room h hH d j hd (by have := le_allocSize (6 * g.n); omega)
  have hsz : 6 * g.n = g.D * (6 * w) := by rw [hf.count]; ring
  have hgiven : Given g.D w g.B hm y f hs (V y) M g.host m :=
    { devices := hD, bodies := hf.bodies, block := hf.block,
      state := ⟨by rw [← hsz]; exact hr y hy, fun d i hd hi => hh.slices y d i hy hd hi⟩
      masses := by rw [← hf.count]; exact hh.masses
      result := by rw [← hf.count]; exact hr f hF
      scratch := hh.scratch
      hostBuffer := by rw [← hf.count]; exact hh.hostBuffer
      distinct := ⟨hyf, (hh.handles.2 f hF).2.1.symm, (hh.handles.2 y hy).2.1.symm⟩
      below := ⟨hh.handles.1, (hh.handles.2 y hy).1, (hh.handles.2 f hF).1⟩ }
  obtain ⟨h1, h2⟩ := fcompute_val g.n g.B (V y) M launch loop g.host g.D w hm y f hs m hla hl hf.count hf.groups
    hf.sync hgiven
  have key : ∀ m', Computed g.D w y f hs (V y) (denseVal g.n g.B (V y) M) m m' →
      Holds g w hm hs H M (Spec.put V f x) m' := by
    intro m' hc
    refine hh.next hc.shape ?_ ?_
    · intro h d i hH hd hi
      have hlt := slice_lt hf hd hi
      by_cases e : h = f
      · subst e
        rw [hc.result d _ hd (by rw [← hf.count]; exact hlt), Spec.put, if_pos rfl, hx _ hlt]
      · rw [Spec.put, if_neg e]
        by_cases e2 : h = y
        · subst e2
          rw [hc.state d _ hd (by rw [← hf.count]; exact hlt)]
        · rw [hc.rest _ _ (by rw [rep_div hd]; exact (hh.handles.2 h hH).1) (by rw [rep_div hd]; exact e2)
            (by rw [rep_div hd]; exact e), hh.slices h d i hH hd hi]
    · intro d j hd
      exact hc.rest _ _ (by rw [rep_div hd]; exact hh.handles.1)
        (by rw [rep_div hd]; exact (hh.handles.2 y hy).2.1.symm)
        (by rw [rep_div hd]; exact (hh.handles.2 f hF).2.1.symm)
  unfold fcompute
  cases hcu : g.cuda with
  | false =>
    simp only [Bool.false_eq_true, if_false]
    obtain ⟨m', a1, a2⟩ := h1
    exact ⟨m', a1, key m' a2⟩
  | true =>
    simp only [if_true]
    obtain ⟨m', a1, a2⟩ := h2 (hf.elements hcu).2.2
    exact ⟨m', a1, key m' a2⟩

omit [One S] in
/-- Every operation but `fcompute`. -/
theorem call_follows (hf : Fits g w) {launch : Launch S (DenseReg S)} {loop : Loop S}
    (hl : IsParLoop loop) (deriv : (Nat → S) → Nat → S) (c : Call S) (hc : Spec.cost c = 0)
    (hH : ∀ h ∈ Spec.mentions c, H h) (hp : Spec.Proper c) (hh : Follows m₀ g w hm hs H M V m) :
    ∃ m', g.call launch loop hm hs c m = .ok m' ∧ Follows m₀ g w hm hs H M (Spec.call deriv g.n V c) m' := by
  cases c with
  | fcompute y f =>
    cases hc
  | clamp y b => exact clamp_holds hf hl (hH y (by simp [Spec.mentions])) b hh
  | copy a b =>
    exact copyBuffer_holds hf hl (hH a (by simp [Spec.mentions])) (hH b (by simp [Spec.mentions])) hp hh
  | fill a v => exact fillBuffer_holds hf hl (hH a (by simp [Spec.mentions])) v hh
  | fmaddInplace a b c =>
    exact fmaddInplace_holds hf hl (hH a (by simp [Spec.mentions])) (hH b (by simp [Spec.mentions])) c hh
  | fmadd a b c d =>
    exact fmadd_holds hf hl (hH a (by simp [Spec.mentions])) (hH b (by simp [Spec.mentions]))
      (hH c (by simp [Spec.mentions])) d hh
  | fmaddnInplace a b c k =>
    simp only [call, fmaddnInplace]
    obtain ⟨h1, h2⟩ := hp
    rw [if_neg (by omega), if_neg (by omega)]
    exact fmaddnInplaceTerms_holds hf hl (hH a (by simp [Spec.mentions])) _
      (zip_mem fun h hm => hH h (by simp [Spec.mentions, hm])) hh
  | fmaddn a b c d k =>
    obtain ⟨h1, h2⟩ := hp
    cases b with
    | none =>
      simp only [call, fmaddn]
      rw [if_neg (by omega), if_neg (by omega)]
      obtain ⟨m1, a1, a2⟩ := fillBuffer_holds hf hl (hH a (by simp [Spec.mentions])) 0 hh
      rw [a1, res_ok_bind]
      exact fmaddnTerms_true_holds hf hl (hH a (by simp [Spec.mentions])) _
        (zip_mem fun h hm => hH h (by simp [Spec.mentions, hm])) a2
    | some b =>
      simp only [call, fmaddn]
      rw [if_neg (by omega), if_neg (by omega)]
      exact fmaddnTerms_false_holds hf hl (hH a (by simp [Spec.mentions])) (hH b (by simp [Spec.mentions])) _
        (zip_mem fun h hm => hH h (by simp [Spec.mentions, hm])) hh
  | fmaddnCorr a corr b c k =>
    exact fmaddnCorr_holds hf hl (hH a (by simp [Spec.mentions])) (hH corr (by simp [Spec.mentions]))
      (fun h hm => hH h (by simp [Spec.mentions, hm])) hp hh

omit [One S] in
theorem call_holds (hf : Fits g w) {launch : Launch S (DenseReg S)} (hla : IsLaunch launch) {loop : Loop S}
    (hl : IsParLoop loop) {deriv : (Nat → S) → Nat → S}
    (hx : ∀ Y j, j < 6 * g.n → deriv Y j = denseVal g.n g.B Y M j) (c : Call S)
    (hH : ∀ h ∈ Spec.mentions c, H h) (hp : Spec.Proper c) (hh : Holds g w hm hs H M V m) :
    ∃ m', g.call launch loop hm hs c m = .ok m' ∧ Holds g w hm hs H M (Spec.call deriv g.n V c) m' := by
  by_cases hc : Spec.cost c = 0
  · obtain ⟨m', h1, h2⟩ := call_follows (m₀ := m) (launch := launch) hf hl deriv c hc hH hp ⟨hh, rfl, fun _ _ _ _ _ _ => rfl⟩
    exact ⟨m', h1, h2.toHolds⟩
  · cases c with
    | fcompute y f =>
      exact fcompute_holds hf hla hl (hH y (by simp [Spec.mentions])) (hH f (by simp [Spec.mentions])) hp hh (hx _)
    | _ => exact absurd rfl hc

omit [One S] in
theorem calls_hold (hf : Fits g w) {launch : Launch S (DenseReg S)} (hla : IsLaunch launch) {loop : Loop S}
    (hl : IsParLoop loop) {deriv : (Nat → S) → Nat → S}
    (hx : ∀ Y j, j < 6 * g.n → deriv Y j = denseVal g.n g.B Y M j) :
    ∀ (cs : List (Call S)) {V : Spec.Buffers S} {m : Mem S},
      (∀ c ∈ cs, Spec.Proper c ∧ ∀ h ∈ Spec.mentions c, H h) → Holds g w hm hs H M V m →
      ∃ m', runCalls (g.call launch loop hm hs) cs m = .ok m' ∧
        Holds g w hm hs H M (cs.foldl (Spec.call deriv g.n) V) m' := by
  intro cs
  induction cs with
  | nil => intro V m _ hh; exact ⟨m, rfl, hh⟩
  | cons c cs ih =>
    intro V m hc hh
    obtain ⟨m1, a1, a2⟩ := call_holds hf hla hl hx c (hc c (by simp)).2 (hc c (by simp)).1 hh
    rw [List.foldl_cons]
    unfold runCalls
    rw [a1, res_ok_bind]
    exact ih (fun c h => hc c (by simp [h])) a2

end callOp

end Gpu

end NB
