import Verif.Lemmas.StreamRead

/-
Files after the process died while writing.
-/

namespace NB

open StreamSpec

lemma crashed_append {a b : List FileOp} {fs fs' : Files} (h : Crashed (a ++ b) fs fs') :
    Crashed a fs fs' ∨ Crashed b (applyOps a fs) fs' := by
  rcases h with ⟨pre, post, e, rfl⟩ | ⟨pre, o, post, k, e, rfl⟩
  · rcases List.append_eq_append_iff.1 e with ⟨c, rfl, rfl⟩ | ⟨c, rfl, rfl⟩
    · right; left
      exact ⟨c, post, rfl, by rw [applyOps_append]⟩
    · left; left
      exact ⟨pre, c, rfl, rfl⟩
  · rcases List.append_eq_append_iff.1 e with ⟨c, rfl, rfl⟩ | ⟨c, rfl, h2⟩
    · right; right
      exact ⟨c, o, post, k, rfl, by rw [applyOps_append]⟩
    · cases c with
      | nil =>
        right; right
        rw [List.nil_append] at h2
        exact ⟨[], o, post, k, by rw [← h2, List.nil_append], by rw [List.append_nil, applyOps_nil]⟩
      | cons x c =>
        rw [List.cons_append, List.cons.injEq] at h2
        left; right
        exact ⟨pre, o, c, k, by rw [h2.1], rfl⟩

/-- Changes that leave the index, colours, masses and parts up to `n` alone, except that parts may grow. -/
def SafeOp (base : FName) (n : ℕ) : FileOp → Prop
  | .create f => ∃ j, n < j ∧ f = datName base j
  | .append f _ => ∃ j, f = datName base j
  | _ => False

/-- The files differ at most by such changes. -/
structure SafeStep (base : FName) (n : ℕ) (fs fs' : Files) : Prop where
  idx : fs'.txt (idxName base) = fs.txt (idxName base)
  col : fs'.bin (colName base) = fs.bin (colName base)
  mass : fs'.bin (massName base) = fs.bin (massName base)
  grows : ∀ k, k ≤ n → Grows fs fs' (datName base k)

lemma SafeStep.refl (base : FName) (n : ℕ) (fs : Files) : SafeStep base n fs fs :=
  ⟨rfl, rfl, rfl, fun _ _ => Grows.refl _ _⟩

lemma SafeStep.trans {base : FName} {n : ℕ} {a b c : Files} (h1 : SafeStep base n a b)
    (h2 : SafeStep base n b c) : SafeStep base n a c :=
  ⟨h2.idx.trans h1.idx, h2.col.trans h1.col, h2.mass.trans h1.mass,
    fun k hk => (h1.grows k hk).trans (h2.grows k hk)⟩

lemma safe_apply {base : FName} {n : ℕ} {o : FileOp} (h : SafeOp base n o) (fs : Files) :
    SafeStep base n fs (o.apply fs) := by
  cases o with
  | create f =>
    obtain ⟨j, hj, rfl⟩ := h
    refine ⟨rfl, ?_, ?_, fun k hk b hb => ⟨[], ?_⟩⟩
    · rw [create_bin, if_neg (datName_ne_colName _ _ _).symm]
    · rw [create_bin, if_neg (datName_ne_massName _ _ _).symm]
    · rw [create_bin, if_neg (fun e => by have := datName_inj e; omega), hb, List.append_nil]
  | append f x =>
    obtain ⟨j, rfl⟩ := h
    refine ⟨rfl, ?_, ?_, fun k hk b hb => ?_⟩
    · rw [append_bin, if_neg (datName_ne_colName _ _ _).symm]
    · rw [append_bin, if_neg (datName_ne_massName _ _ _).symm]
    · by_cases e : datName base k = datName base j
      · exact ⟨x, by rw [append_bin, if_pos e, ← e, hb]; rfl⟩
      · exact ⟨[], by rw [append_bin, if_neg e, hb, List.append_nil]⟩
  | touch f => exact absurd h (by simp [SafeOp])
  | createTxt f => exact absurd h (by simp [SafeOp])
  | touchTxt f => exact absurd h (by simp [SafeOp])
  | appendTxt f t => exact absurd h (by simp [SafeOp])

lemma safe_cut {base : FName} {n : ℕ} {o : FileOp} (h : SafeOp base n o) (k : ℕ) : SafeOp base n (o.cut k) := by
  cases o <;> exact h

lemma safe_applyOps {base : FName} {n : ℕ} (ops : List FileOp) (h : ∀ o ∈ ops, SafeOp base n o) (fs : Files) :
    SafeStep base n fs (applyOps ops fs) := by
  induction ops generalizing fs with
  | nil => exact SafeStep.refl _ _ _
  | cons o ops ih =>
    exact (safe_apply (h o (by simp)) fs).trans (ih (fun x hx => h x (by simp [hx])) _)

lemma safe_crashed {base : FName} {n : ℕ} {ops : List FileOp} (h : ∀ o ∈ ops, SafeOp base n o) {fs fs' : Files}
    (hc : Crashed ops fs fs') : SafeStep base n fs fs' := by
  rcases hc with ⟨pre, post, rfl, rfl⟩ | ⟨pre, o, post, k, rfl, rfl⟩
  · exact safe_applyOps pre (fun o ho => h o (by simp [ho])) fs
  · exact (safe_applyOps pre (fun o ho => h o (by simp [ho])) fs).trans
      (safe_apply (safe_cut (h o (by simp)) k) _)

section
variable {S C : Type} [Raw S] [Raw C]
variable {T : TextOps S} {base : FName} {h : Snap S C}

lemma holdsTail_of_safe {fs fs' : Files} {ds : List (Snap S C)} {locs : List (ℕ × ℕ)} {n : ℕ}
    (hh : Holds T fs base h ds locs) (hb : ∀ l ∈ locs, l.1 ≤ n) (hs : SafeStep base n fs fs') :
    HoldsTail T fs' base h ds locs [] := by
  refine ⟨hh.len, ?_, ?_, hh.loc, ?_, ?_⟩
  · rw [hs.idx, hh.idx, List.append_nil]
  · intro k d l hd hl
    exact frameAt_grows (hh.frame k d l hd hl) (hs.grows _ (hb l (List.mem_of_getElem? hl)))
  · rw [hs.col, hh.col]
  · rw [hs.mass, hh.mass]

/-- What may be at the end of the index after a crash: nothing, or an incomplete line of the next frame, whose
data are complete then. -/
def TornTail (T : TextOps S) (fs : Files) (base : FName) (next : Option (Snap S C)) (tail : List Char) : Prop :=
  tail = [] ∨ ∃ d l rest, next = some d ∧ tail ++ rest = entry T d l ++ ['\n'] ∧ rest ≠ [] ∧
    FrameAt fs base d l ∧ LocOk l

/-- Crash while the next frame of a session is written. -/
lemma crash_one {w : Writer} {fs : Files} {ds : List (Snap S C)} {locs : List (ℕ × ℕ)}
    (hs : Session T w fs base h ds locs) {b : List UInt8} (hb : fs.bin (datName base w.fileN) = some b)
    (d : Snap S C) (hl : LocOk (placeNext w.maxPart w.fileN b.length)) {ops : List FileOp} {w' : Writer}
    (hw : w.write T d = some (ops, w')) {fs' : Files} (hc : Crashed ops fs fs') :
    (∃ tail, HoldsTail T fs' base h ds locs tail ∧ TornTail T fs' base (some d) tail) ∨ fs' = applyOps ops fs := by
  set l := placeNext w.maxPart w.fileN b.length with hldef
  have e := write_eq T hs.sync hb d
  rw [hw] at e
  simp only [Option.some.injEq, Prod.mk.injEq] at e
  obtain ⟨e1, _⟩ := e
  rw [if_pos hs.header] at e1
  have e2 : hdrOps w d = [] := by unfold hdrOps; rw [if_pos hs.header]
  rw [e2, List.nil_append, ← hldef] at e1
  set next := decide (0 < w.maxPart ∧ w.maxPart ≤ (b.length : ℤ)) with hnext
  set safe : List FileOp := (if next then [FileOp.create (datName base l.1)] else []) ++
    [.append (datName base l.1) (encVecs d.vrt), .append (datName base l.1) (encVecs d.vel)] with hsafe
  have e3 : ops = safe ++ [.appendTxt (idxName base) (entry T d l ++ ['\n'])] := by
    rw [e1, bodyOps, hsafe]
    simp
  have hsafeOps : ∀ o ∈ safe, SafeOp base w.fileN o := by
    intro o ho
    rw [hsafe] at ho
    rcases List.mem_append.1 ho with ho | ho
    · by_cases hn : next = true
      · rw [if_pos hn] at ho
        rw [List.mem_singleton.1 ho]
        have hcond : 0 < w.maxPart ∧ w.maxPart ≤ (b.length : ℤ) := by simpa [hnext] using hn
        have : l = (w.fileN + 1, 0) := by rw [hldef]; exact if_pos hcond
        exact ⟨l.1, by rw [this]; exact Nat.lt_succ_self _, rfl⟩
      · rw [if_neg hn] at ho; cases ho
    · simp only [List.mem_cons, List.not_mem_nil, or_false] at ho
      rcases ho with rfl | rfl <;> exact ⟨l.1, rfl⟩
  rw [e3] at hc
  rcases crashed_append hc with hc | hc
  · left
    exact ⟨[], holdsTail_of_safe hs.holds hs.below (safe_crashed hsafeOps hc), Or.inl rfl⟩
  · have hst := safe_applyOps safe hsafeOps fs
    set fs1 := applyOps safe fs with hfs1
    have hh1 := holdsTail_of_safe hs.holds hs.below hst
    -- the frame is there already
    have hfr : FrameAt fs1 base d l := by
      obtain ⟨ops', w'', heq, hwr, _⟩ := write_wrote T hs.sync hb d
      rw [hw] at heq
      simp only [Option.some.injEq, Prod.mk.injEq] at heq
      obtain ⟨rfl, rfl⟩ := heq
      obtain ⟨pre, post, q1, q2⟩ := hwr.frame
      rw [e3, applyOps_append] at q1
      exact ⟨pre, post, by simpa [applyOps_cons, applyOps_nil] using q1, q2⟩
    have happ : ∀ t : List Char, HoldsTail T ((FileOp.appendTxt (idxName base) t).apply fs1) base h ds locs t := by
      intro t
      refine ⟨hh1.len, ?_, fun k x y hx hy => hh1.frame k x y hx hy, hh1.loc, hh1.col, hh1.mass⟩
      rw [appendTxt_txt, if_pos rfl, hh1.idx]
      simp
    rcases hc with ⟨pre, post, e, rfl⟩ | ⟨pre, o, post, k, e, rfl⟩
    · cases pre with
      | nil => left; exact ⟨[], hh1, Or.inl rfl⟩
      | cons o pre =>
        right
        rw [List.cons_append, List.cons.injEq] at e
        obtain ⟨rfl, e⟩ := e
        obtain ⟨rfl, _⟩ := List.append_eq_nil_iff.1 e.symm
        rw [e3, applyOps_append, hfs1]
    · have hpre : pre = [] := by
        cases pre with
        | nil => rfl
        | cons o' pre =>
          have := congrArg List.length e
          simp at this
      subst hpre
      rw [List.nil_append, List.cons.injEq] at e
      obtain ⟨rfl, _⟩ := e
      rw [applyOps_nil]
      by_cases hk : (entry T d l ++ ['\n']).length ≤ k
      · right
        rw [e3, applyOps_append, hfs1]
        simp only [FileOp.cut, List.take_of_length_le hk, applyOps_cons, applyOps_nil]
      · left
        refine ⟨(entry T d l ++ ['\n']).take k, happ _, Or.inr ⟨d, l, (entry T d l ++ ['\n']).drop k, rfl,
          List.take_append_drop k _, ?_, ?_, hl⟩⟩
        · intro e
          have := List.drop_eq_nil_iff.1 e
          omega
        · obtain ⟨pre, post, q1, q2⟩ := hfr
          exact ⟨pre, post, by simpa [FileOp.cut] using q1, q2⟩

lemma crash_session {F : ℕ} (ds : List (Snap S C)) :
    ∀ {w : Writer} {fs : Files} {ds0 : List (Snap S C)} {locs0 : List (ℕ × ℕ)},
    Session T w fs base h ds0 locs0 → Used w fs base ds0.length F →
    Addressable (ds0.length + ds.length) F → (∀ d ∈ ds, (frameBytes d).length = F) →
    ∃ ops, w.writeOps T ds = some ops ∧ ∀ fs', Crashed ops fs fs' →
      ∃ m locs tail, m ≤ ds.length ∧ HoldsTail T fs' base h (ds0 ++ ds.take m) (locs0 ++ locs) tail ∧
        TornTail T fs' base ds[m]? tail := by
  induction ds with
  | nil =>
    intro w fs ds0 locs0 hs _ _ _
    refine ⟨[], rfl, fun fs' hc => ?_⟩
    have : fs' = fs := by
      rcases hc with ⟨pre, post, e, rfl⟩ | ⟨pre, o, post, k, e, rfl⟩
      · obtain ⟨rfl, _⟩ := List.append_eq_nil_iff.1 e.symm
        rfl
      · simp at e
    subst this
    exact ⟨0, [], [], Nat.le_refl _, by
      simpa using holdsTail_of_safe hs.holds hs.below (SafeStep.refl _ _ _), Or.inl rfl⟩
  | cons d ds ih =>
    intro w fs ds0 locs0 hs hr hk hF
    rw [List.length_cons] at hk
    obtain ⟨b, hb, _⟩ := hs.sync.data
    have hloc := used_loc hr (addressable_le hk (by omega)) hb
    obtain ⟨ops1, w1, h1, h2, h3, _⟩ := session_step T hs hb d hloc
    obtain ⟨ops2, q1, q2⟩ := ih h3 (by simpa using used_next hr hb h2 (hF d (by simp)))
      (by simpa [Nat.add_assoc, Nat.add_comm 1] using hk) (fun x hx => hF x (by simp [hx]))
    refine ⟨ops1 ++ ops2, ?_, fun fs' hc => ?_⟩
    · rw [Writer.writeOps, h1]
      simp only
      rw [q1]
    · rcases crashed_append hc with hc | hc
      · rcases crash_one hs hb d hloc h1 hc with ⟨tail, t1, t2⟩ | rfl
        · exact ⟨0, [], tail, Nat.zero_le _, by simpa using t1, by simpa using t2⟩
        · refine ⟨1, [placeNext w.maxPart w.fileN b.length], [], by simp, ?_, Or.inl rfl⟩
          have hh := h3.holds
          simp only [List.take_succ_cons, List.take_zero]
          exact ⟨hh.len, by rw [hh.idx, List.append_nil], hh.frame, hh.loc, hh.col, hh.mass⟩
      · obtain ⟨m, locs, tail, t1, t2, t3⟩ := q2 fs' hc
        refine ⟨m + 1, placeNext w.maxPart w.fileN b.length :: locs, tail, by simpa using t1, ?_, ?_⟩
        · simpa using t2
        · simpa using t3

/-- Every incomplete index line is possible after a crash. -/
lemma crash_at {w : Writer} {fs : Files} {ds : List (Snap S C)} {locs : List (ℕ × ℕ)}
    (hs : Session T w fs base h ds locs) {b : List UInt8} (hb : fs.bin (datName base w.fileN) = some b)
    (d : Snap S C) {ops : List FileOp} {w' : Writer} (hw : w.write T d = some (ops, w')) (k : ℕ) :
    ∃ fs', Crashed ops fs fs' ∧ HoldsTail T fs' base h ds locs
      ((entry T d (placeNext w.maxPart w.fileN b.length) ++ ['\n']).take k) := by
  set l := placeNext w.maxPart w.fileN b.length with hldef
  obtain ⟨e, _⟩ := Prod.mk.injEq _ _ _ _ ▸ Option.some.inj (hw.symm.trans (write_eq T hs.sync hb d))
  rw [if_pos hs.header] at e
  have e2 : hdrOps w d = [] := by unfold hdrOps; rw [if_pos hs.header]
  rw [e2, List.nil_append, ← hldef] at e
  set next := decide (0 < w.maxPart ∧ w.maxPart ≤ (b.length : ℤ)) with hnext
  set safe : List FileOp := (if next then [FileOp.create (datName base l.1)] else []) ++
    [.append (datName base l.1) (encVecs d.vrt), .append (datName base l.1) (encVecs d.vel)] with hsafe
  have e3 : ops = safe ++ [.appendTxt (idxName base) (entry T d l ++ ['\n'])] := by
    rw [e, bodyOps, hsafe]
    simp
  have hsafeOps : ∀ o ∈ safe, SafeOp base w.fileN o := by
    intro o ho
    rw [hsafe] at ho
    rcases List.mem_append.1 ho with ho | ho
    · by_cases hn : next = true
      · rw [if_pos hn] at ho
        rw [List.mem_singleton.1 ho]
        have hcond : 0 < w.maxPart ∧ w.maxPart ≤ (b.length : ℤ) := by simpa [hnext] using hn
        have : l = (w.fileN + 1, 0) := by rw [hldef]; exact if_pos hcond
        exact ⟨l.1, by rw [this]; exact Nat.lt_succ_self _, rfl⟩
      · rw [if_neg hn] at ho; cases ho
    · simp only [List.mem_cons, List.not_mem_nil, or_false] at ho
      rcases ho with rfl | rfl <;> exact ⟨l.1, rfl⟩
  have hh1 := holdsTail_of_safe hs.holds hs.below (safe_applyOps safe hsafeOps fs)
  refine ⟨((FileOp.appendTxt (idxName base) (entry T d l ++ ['\n'])).cut k).apply (applyOps safe fs),
    Or.inr ⟨safe, _, [], k, e3, rfl⟩, hh1.len, ?_, fun k x y hx hy => hh1.frame k x y hx hy, hh1.loc, hh1.col,
    hh1.mass⟩
  rw [FileOp.cut, appendTxt_txt, if_pos rfl, hh1.idx]
  simp

end

end NB
