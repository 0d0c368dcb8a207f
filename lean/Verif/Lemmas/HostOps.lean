import Verif.Lemmas.GpuOps
import Verif.Props.C03_OpenMP

/-
The buffer operations of the host engines.
-/

namespace NB

variable {S : Type}

/-- A host engine holds the buffers in `H` and the masses. -/
structure HostHolds (n hm : Nat) (H : Nat → Prop) (M : Nat → S) (V : Spec.Buffers S) (m : Mem S) : Prop where
  buffers : ∀ h, H h → m h = some (buf (6 * n) (V h))
  masses : m hm = some (buf n M)
  handles : ∀ h, H h → h ≠ hm

theorem Mem.eq_buf {m : Mem S} {h N : Nat} {x : Nat → S} (hs : m.shape h = some N)
    (hc : ∀ j, j < N → m.cell h j = some (x j)) : m h = some (buf N x) := by
  cases hm : m h with
  | none => simp [Mem.shape, hm] at hs
  | some l =>
    have hl : l.length = N := by simpa [Mem.shape, hm] using hs
    congr 1
    apply List.ext_getElem?
    intro j
    rw [buf_getElem?]
    by_cases hj : j < N
    · rw [if_pos hj]
      have := hc j hj
      simpa [Mem.cell, hm] using this
    · rw [if_neg hj]
      exact List.getElem?_eq_none (by omega)

namespace HostHolds

variable {n hm : Nat} {H : Nat → Prop} {M : Nat → S} {V : Spec.Buffers S} {m : Mem S}

theorem put (hh : HostHolds n hm H M V m) {a : Nat} (ha : H a) {x y : Nat → S}
    (hx : ∀ j, j < 6 * n → y j = x j) : HostHolds n hm H M (Spec.put V a x) (m.set a (buf (6 * n) y)) where
  buffers h hH := by
    by_cases e : h = a
    · subst e
      rw [Spec.put, if_pos rfl]
      simp only [Mem.set, if_true]
      rw [buf_congr hx]
    · rw [Mem.set_ne _ _ e, Spec.put, if_neg e, hh.buffers h hH]
  masses := by rw [Mem.set_ne _ _ (hh.handles a ha).symm]; exact hh.masses
  handles := hh.handles

variable {loop : Loop S}

theorem copyBuffer (hl : IsParLoop loop) {a b : Nat} (ha : H a) (hb : H b) (hh : HostHolds n hm H M V m) :
    ∃ m', NB.copyBuffer loop (6 * n) a b m = .ok m' ∧ HostHolds n hm H M (Spec.put V a (V b)) m' :=
  ⟨_, C03.copy_parallel_eq_sequential hl (copyBuffer_eq (hh.buffers a ha) (hh.buffers b hb)),
    hh.put ha fun _ _ => rfl⟩

theorem fillBuffer (hl : IsParLoop loop) {a : Nat} (ha : H a) (v : S) (hh : HostHolds n hm H M V m) :
    ∃ m', NB.fillBuffer loop a v m = .ok m' ∧ HostHolds n hm H M (Spec.put V a fun _ => v) m' := by
  refine ⟨_, C03.fill_parallel_eq_sequential hl (fillBuffer_eq v (hh.buffers a ha)), ?_⟩
  have e : (buf (6 * n) (V a)).length = 6 * n := by simp [buf]
  rw [e]
  exact hh.put ha fun _ _ => rfl

section
variable [Add S] [Mul S]

theorem fmaddInplace (hl : IsParLoop loop) {a b : Nat} (ha : H a) (hb : H b) (c : S)
    (hh : HostHolds n hm H M V m) :
    ∃ m', NB.fmaddInplace loop (6 * n) a b c m = .ok m' ∧
      HostHolds n hm H M (Spec.put V a fun j => V a j + V b j * c) m' :=
  ⟨_, C03.fmadd_inplace_parallel_eq_sequential hl (fmaddInplace_eq c (hh.buffers a ha) (hh.buffers b hb)),
    hh.put ha fun _ _ => rfl⟩

theorem fmadd (hl : IsParLoop loop) {a b c : Nat} (ha : H a) (hb : H b) (hc : H c) (d : S)
    (hh : HostHolds n hm H M V m) :
    ∃ m', NB.fmadd loop (6 * n) a b c d m = .ok m' ∧
      HostHolds n hm H M (Spec.put V a fun j => V b j + V c j * d) m' :=
  ⟨_, C03.fmadd_parallel_eq_sequential hl
      (fmadd_eq d (hh.buffers a ha) (hh.buffers b hb) (hh.buffers c hc)),
    hh.put ha fun _ _ => rfl⟩

variable [Zero S] [FOps S]

theorem fmaddnInplaceTerms (hl : IsParLoop loop) {a : Nat} (ha : H a) :
    ∀ (ts : List (Nat × S)) {V : Spec.Buffers S} {m : Mem S}, (∀ t ∈ ts, H t.1) → HostHolds n hm H M V m →
      ∃ m', NB.fmaddnInplaceTerms loop (6 * n) a ts m = .ok m' ∧
        HostHolds n hm H M (ts.foldl (Spec.addTerm a) V) m' := by
  intro ts
  induction ts with
  | nil => intro V m _ hh; exact ⟨m, rfl, hh⟩
  | cons t ts ih =>
    intro V m hts hh
    obtain ⟨b, c⟩ := t
    have hb : H b := hts (b, c) (by simp)
    rw [List.foldl_cons]
    unfold NB.fmaddnInplaceTerms
    by_cases hc : FOps.eqb c 0 = true
    · rw [if_pos hc, res_ok_bind]
      have e : Spec.addTerm a V (b, c) = V := if_pos hc
      rw [e]
      exact ih (fun t ht => hts t (by simp [ht])) hh
    · obtain ⟨m1, a1, a2⟩ := hh.fmaddInplace hl ha hb c
      have e : Spec.addTerm a V (b, c) = _ := if_neg hc
      rw [if_neg hc, a1, res_ok_bind, e]
      exact ih (fun t ht => hts t (by simp [ht])) a2

theorem fmaddnTerms_true (hl : IsParLoop loop) {a b : Nat} (ha : H a) :
    ∀ (ts : List (Nat × S)) {V : Spec.Buffers S} {m : Mem S}, (∀ t ∈ ts, H t.1) → HostHolds n hm H M V m →
      ∃ m', NB.fmaddnTerms loop (6 * n) a b true ts m = .ok m' ∧
        HostHolds n hm H M (ts.foldl (Spec.addTerm a) V) m' := by
  intro ts
  induction ts with
  | nil => intro V m _ hh; exact ⟨m, rfl, hh⟩
  | cons t ts ih =>
    intro V m hts hh
    obtain ⟨c, d⟩ := t
    have hb : H c := hts (c, d) (by simp)
    rw [List.foldl_cons]
    unfold NB.fmaddnTerms
    by_cases hc : FOps.eqb d 0 = true
    · rw [if_pos hc]
      have e : Spec.addTerm a V (c, d) = V := if_pos hc
      rw [e]
      exact ih (fun t ht => hts t (by simp [ht])) hh
    · obtain ⟨m1, a1, a2⟩ := hh.fmadd hl ha ha hb d
      have e : Spec.addTerm a V (c, d) = _ := if_neg hc
      rw [if_neg hc]
      simp only [if_true]
      rw [a1, res_ok_bind, e]
      exact ih (fun t ht => hts t (by simp [ht])) a2

theorem fmaddnTerms_false (hl : IsParLoop loop) {a b : Nat} (ha : H a) (hb : H b) :
    ∀ (ts : List (Nat × S)) {V : Spec.Buffers S} {m : Mem S}, (∀ t ∈ ts, H t.1) → HostHolds n hm H M V m →
      ∃ m', NB.fmaddnTerms loop (6 * n) a b false ts m = .ok m' ∧
        HostHolds n hm H M (Spec.sumFrom a b V ts) m' := by
  intro ts
  induction ts with
  | nil => intro V m _ hh; exact ⟨m, rfl, hh⟩
  | cons t ts ih =>
    intro V m hts hh
    obtain ⟨c, d⟩ := t
    have hc' : H c := hts (c, d) (by simp)
    unfold NB.fmaddnTerms Spec.sumFrom
    by_cases hc : FOps.eqb d 0 = true
    · rw [if_pos hc, if_pos hc]
      exact ih (fun t ht => hts t (by simp [ht])) hh
    · obtain ⟨m1, a1, a2⟩ := hh.fmadd hl ha hb hc' d
      rw [if_neg hc, if_neg hc]
      simp only [Bool.false_eq_true, if_false]
      rw [a1, res_ok_bind]
      exact fmaddnTerms_true hl ha ts (fun t ht => hts t (by simp [ht])) a2

end

section
variable [Add S] [Sub S] [Mul S] [Zero S] [FOps S]

theorem rep_one (h : Nat) : rep 1 h 0 = h := by
  change h * 1 + 0 = h
  rw [Nat.mul_one, Nat.add_zero]

theorem corrTerms_eq_chain (a corr i : Nat) (ts : List (Nat × S)) :
    fmaddnCorrTerms a corr i ts = Gpu.corrChain 1 a corr 0 i ts := by
  induction ts with
  | nil => rfl
  | cons t ts ih =>
    obtain ⟨b, c⟩ := t
    unfold fmaddnCorrTerms Gpu.corrChain
    rw [ih, rep_one, rep_one, rep_one]
    rfl

theorem fmaddnCorr (hl : IsParLoop loop) {a corr : Nat} {b : List Nat} {c : List S} {k : Nat} (ha : H a)
    (hcorr : H corr) (hb : ∀ h ∈ b, H h) (hk : k ≤ b.length ∧ k ≤ c.length) (hh : HostHolds n hm H M V m) :
    ∃ m', NB.fmaddnCorr loop (6 * n) a corr b (some c) k m = .ok m' ∧
      HostHolds n hm H M (((b.zip c).take k).foldl (Spec.addCorrected a corr) V) m' := by
  have hts : ∀ t ∈ (b.zip c).take k, H t.1 := Gpu.zip_mem hb
  have hhas : ∀ h, H h → m.has h = true := fun h hH => by simp [Mem.has, hh.buffers h hH]
  have hcell : ∀ h j, H h → j < 6 * n → m.cell h j = some (V h j) := fun h j hH hj => by
    rw [Mem.cell_buf (hh.buffers h hH), if_pos hj]
  let g : Gpu := { cuda := false, D := 1, n := n, B := 1, host := none, size := fun _ => 0 }
  obtain ⟨m', a1, a2, a3, a4⟩ := elem_run (D := 1) hl (N := 6 * n) (fun _ => 0) (fun p k => k = p)
    (fun _ _ => by omega) (fun p p' k _ _ _ e e' => e.symm.trans e') H (fun h => h = a ∨ h = corr)
    (body := fun i => fmaddnCorrTerms a corr i ((b.zip c).take k)) (V := fun _ => V)
    (V' := fun _ => ((b.zip c).take k).foldl (Spec.addCorrected a corr) V) (m := m)
    (by
      rintro h p j hH hp rfl
      rw [rep_one]
      exact hcell h j hH hp)
    (by
      intro p hp
      rw [corrTerms_eq_chain]
      exact Gpu.corrChain_within (g := g) ha hcorr (show 0 < 1 by omega) _ hts)
    (by
      intro p m1 hp _ hc
      obtain ⟨m2, b1, b2, b3⟩ := Gpu.corrChain_run (g := g) (d := 0) (j := p) ha hcorr (show 0 < 1 by omega) _ hts
        (V := V) (m1 := m1) (fun h hH => hc h p hH rfl)
      refine ⟨m2, ?_, ?_, b3⟩
      · rw [corrTerms_eq_chain]; exact b1
      · rintro h j (rfl | rfl) rfl
        · exact b2 _ ha
        · exact b2 _ hcorr)
  refine ⟨m', ?_, ⟨fun h hH => ?_, ?_, hh.handles⟩⟩
  · unfold NB.fmaddnCorr
    have hall : b.all m.has = true := List.all_eq_true.2 fun h hmem => hhas h (hb h hmem)
    simp only [hhas a ha, hhas corr hcorr, hall, Bool.not_true, Bool.false_eq_true, if_false]
    rw [if_neg (by omega), if_neg (by omega)]
    exact a1
  · have hs := Mem.shape_buf (hh.buffers h hH)
    refine Mem.eq_buf (by rw [a2]; exact hs) fun j hj => ?_
    by_cases e : h = a ∨ h = corr
    · have := a3 h j j e hj rfl
      rwa [rep_one] at this
    · rw [a4, hcell h j hH hj, Gpu.corrFold_keep _ e]
      rintro ⟨p, _, h', _⟩
      rw [Nat.div_one] at h'
      exact e h'
  · refine Mem.eq_buf (by rw [a2]; exact Mem.shape_buf hh.masses) fun j hj => ?_
    rw [a4, Mem.cell_buf hh.masses, if_pos hj]
    rintro ⟨p, _, h', _⟩
    rw [Nat.div_one] at h'
    rcases h' with e | e
    · exact hh.handles a ha e.symm
    · exact hh.handles corr hcorr e.symm

end

section
variable [Add S] [Sub S] [Mul S] [Neg S] [FOps S]

theorem clamp (hl : IsParLoop loop) {y : Nat} (hy : H y) (b : S) (hh : HostHolds n hm H M V m) :
    ∃ m', NB.clamp loop n y b m = .ok m' ∧
      HostHolds n hm H M (Spec.put V y fun j => if j < 3 * n then Spec.wrap b (V y j) else V y j) m' :=
  ⟨_, C03.clamp_parallel_eq_sequential hl (clamp_eq (hh.buffers y hy)), hh.put hy fun _ _ => rfl⟩

end

end HostHolds

section
variable [Add S] [Sub S] [Mul S] [Neg S] [Zero S] [FOps S]
variable {n hm : Nat} {H : Nat → Prop} {M : Nat → S} {loop : Loop S}

/-- What `fcompute` of a host engine has to do. -/
def Derives (n hm : Nat) (H : Nat → Prop) (M : Nat → S) (deriv : (Nat → S) → Nat → S)
    (fc : Handle → Handle → Mem S → Res (Mem S)) : Prop :=
  ∀ (V : Spec.Buffers S) (m : Mem S) (y f : Nat), H y → H f → y ≠ f → HostHolds n hm H M V m →
    ∃ F : Nat → S, fc y f m = .ok (m.set f (buf (6 * n) F)) ∧ ∀ j, j < 6 * n → F j = deriv (V y) j

theorem hostCall_holds (hl : IsParLoop loop) {deriv : (Nat → S) → Nat → S}
    {fc : Handle → Handle → Mem S → Res (Mem S)} (hfc : Derives n hm H M deriv fc) (c : Call S)
    {V : Spec.Buffers S} {m : Mem S}
    (hH : ∀ h ∈ Spec.mentions c, H h) (hp : Spec.Proper c) (hh : HostHolds n hm H M V m) :
    ∃ m', hostCall fc loop n c m = .ok m' ∧ HostHolds n hm H M (Spec.call deriv n V c) m' := by
  cases c with
  | fcompute y f =>
    obtain ⟨F, h1, h2⟩ := hfc V m y f (hH y (by simp [Spec.mentions])) (hH f (by simp [Spec.mentions])) hp hh
    exact ⟨_, h1, hh.put (hH f (by simp [Spec.mentions])) h2⟩
  | clamp y b => exact hh.clamp hl (hH y (by simp [Spec.mentions])) b
  | copy a b => exact hh.copyBuffer hl (hH a (by simp [Spec.mentions])) (hH b (by simp [Spec.mentions]))
  | fill a v => exact hh.fillBuffer hl (hH a (by simp [Spec.mentions])) v
  | fmaddInplace a b c =>
    exact hh.fmaddInplace hl (hH a (by simp [Spec.mentions])) (hH b (by simp [Spec.mentions])) c
  | fmadd a b c d =>
    exact hh.fmadd hl (hH a (by simp [Spec.mentions])) (hH b (by simp [Spec.mentions]))
      (hH c (by simp [Spec.mentions])) d
  | fmaddnInplace a b c k =>
    simp only [hostCall, fmaddnInplace]
    obtain ⟨h1, h2⟩ := hp
    rw [if_neg (by omega), if_neg (by omega)]
    exact HostHolds.fmaddnInplaceTerms hl (hH a (by simp [Spec.mentions])) _
      (Gpu.zip_mem fun h hm => hH h (by simp [Spec.mentions, hm])) hh
  | fmaddn a b c d k =>
    obtain ⟨h1, h2⟩ := hp
    cases b with
    | none =>
      simp only [hostCall, fmaddn]
      rw [if_neg (by omega), if_neg (by omega)]
      obtain ⟨m1, a1, a2⟩ := hh.fillBuffer hl (hH a (by simp [Spec.mentions])) 0
      rw [a1, res_ok_bind]
      exact HostHolds.fmaddnTerms_true hl (hH a (by simp [Spec.mentions])) _
        (Gpu.zip_mem fun h hm => hH h (by simp [Spec.mentions, hm])) a2
    | some b =>
      simp only [hostCall, fmaddn]
      rw [if_neg (by omega), if_neg (by omega)]
      exact HostHolds.fmaddnTerms_false hl (hH a (by simp [Spec.mentions])) (hH b (by simp [Spec.mentions])) _
        (Gpu.zip_mem fun h hm => hH h (by simp [Spec.mentions, hm])) hh
  | fmaddnCorr a corr b c k =>
    exact hh.fmaddnCorr hl (hH a (by simp [Spec.mentions])) (hH corr (by simp [Spec.mentions]))
      (fun h hm => hH h (by simp [Spec.mentions, hm])) hp

theorem hostCalls_hold (hl : IsParLoop loop) {deriv : (Nat → S) → Nat → S}
    {fc : Handle → Handle → Mem S → Res (Mem S)} (hfc : Derives n hm H M deriv fc) :
    ∀ (cs : List (Call S)) {V : Spec.Buffers S} {m : Mem S},
      (∀ c ∈ cs, Spec.Proper c ∧ ∀ h ∈ Spec.mentions c, H h) → HostHolds n hm H M V m →
      ∃ m', runCalls (hostCall fc loop n) cs m = .ok m' ∧
        HostHolds n hm H M (cs.foldl (Spec.call deriv n) V) m' := by
  intro cs
  induction cs with
  | nil => intro V m _ hh; exact ⟨m, rfl, hh⟩
  | cons c cs ih =>
    intro V m hc hh
    obtain ⟨m1, a1, a2⟩ := hostCall_holds hl hfc c (hc c (by simp)).2 (hc c (by simp)).1 hh
    rw [List.foldl_cons]
    unfold runCalls
    rw [a1, res_ok_bind]
    exact ih (fun c h => hc c (by simp [h])) a2

end

end NB
