import Verif.Model.Devices
import Verif.Lemmas.StreamText
import Verif.Lemmas.StreamLoad
import Verif.Lemmas.MultiDevice
import Mathlib.Data.List.Forall2

/-
C71: choosing devices.
-/

namespace NB.C71

/-! ### Specification -/

/-- Texts joined by a separator. -/
def joined (sep : Char) : List (List Char) → List Char
  | [] => []
  | [p] => p
  | p :: q :: ps => p ++ sep :: joined sep (q :: ps)

/-- `ps` are the pieces of `t` between the separators. -/
def Pieces (sep : Char) (t : List Char) (ps : List (List Char)) : Prop :=
  ps ≠ [] ∧ (∀ p ∈ ps, sep ∉ p) ∧ joined sep ps = t

/-- The text has the form `platform:device,device,...`. -/
def IsEntry (toUInt : List Char → Option ℕ) (text : List Char) (e : ℕ × List ℕ) : Prop :=
  ∃ a b ts, ':' ∉ a ∧ ':' ∉ b ∧ text = a ++ ':' :: b ∧ toUInt a = some e.1 ∧ Pieces ',' b ts ∧
    ts.map toUInt = e.2.map some

/-- The devices exist and their programs can be built. -/
def Available (m : ClMachine) (e : ℕ × List ℕ) : Prop :=
  ∃ count, m.platforms[e.1]? = some count ∧ ∀ n ∈ e.2, n < count ∧ m.builds e.1 n = true

/-- The devices of the entries in the order written, each entry with a context of its own. -/
def numbered : ℕ → List (ℕ × List ℕ) → List ClDev
  | _, [] => []
  | k, e :: es => e.2.map (fun n => ⟨e.1, n, k⟩) ++ numbered (k + 1) es

/-- How a user writes a choice. -/
def written (l : List (ℕ × List ℕ)) : List Char :=
  joined ';' (l.map fun e => Nat.toDigits 10 e.1 ++ ':' :: joined ',' (e.2.map (Nat.toDigits 10)))

/-! ### Splitting -/

lemma split_iff (sep : Char) (t : List Char) (ps : List (List Char)) : splitOn sep t = ps ↔ Pieces sep t ps := by
  constructor
  · rintro rfl
    refine ⟨splitOn_ne_nil sep t, ?_⟩
    induction t with
    | nil => simp [splitOn, joined]
    | cons c t ih =>
      rw [splitOn]
      by_cases hc : c = sep
      · rw [if_pos hc]
        refine ⟨fun p hp => ?_, ?_⟩
        · rcases List.mem_cons.1 hp with rfl | hp
          · simp
          · exact ih.1 p hp
        · cases hs : splitOn sep t with
          | nil => exact absurd hs (splitOn_ne_nil sep t)
          | cons q qs =>
            rw [hs] at ih
            rw [joined, ih.2, hc]; rfl
      · rw [if_neg hc]
        cases hs : splitOn sep t with
        | nil => exact absurd hs (splitOn_ne_nil sep t)
        | cons q qs =>
          rw [hs] at ih
          simp only
          refine ⟨fun p hp => ?_, ?_⟩
          · rcases List.mem_cons.1 hp with rfl | hp
            · intro hh
              rcases List.mem_cons.1 hh with hh | hh
              · exact hc hh.symm
              · exact ih.1 q (by simp) hh
            · exact ih.1 p (by simp [hp])
          · cases qs with
            | nil => have := ih.2; rw [joined] at this ⊢; rw [this]
            | cons r rs => have := ih.2; rw [joined] at this ⊢; rw [List.cons_append, this]
  · rintro ⟨h1, h2, rfl⟩
    induction ps with
    | nil => exact absurd rfl h1
    | cons p ps ih =>
      cases ps with
      | nil => rw [joined, splitOn_of_notMem _ _ (h2 p (by simp))]
      | cons q qs =>
        rw [joined, splitOn_append _ _ _ (h2 p (by simp)), ih (by simp) (fun r hr => h2 r (by simp [hr]))]

lemma pieces_two (text a b : List Char) : splitOn ':' text = [a, b] ↔ ':' ∉ a ∧ ':' ∉ b ∧ text = a ++ ':' :: b := by
  rw [split_iff]
  unfold Pieces
  simp only [joined, ne_eq, reduceCtorEq, not_false_eq_true, true_and, List.mem_cons, List.not_mem_nil, or_false,
    forall_eq_or_imp, forall_eq]
  constructor
  · rintro ⟨⟨h1, h2⟩, h3⟩; exact ⟨h1, h2, h3.symm⟩
  · rintro ⟨h1, h2, h3⟩; exact ⟨⟨h1, h2⟩, h3.symm⟩

lemma readIds_iff (f : List Char → Option ℕ) (count : ℕ) (ts : List (List Char)) (ns : List ℕ) :
    readIds f count ts = some ns ↔ ts.map f = ns.map some ∧ ∀ n ∈ ns, n < count := by
  induction ts generalizing ns with
  | nil => cases ns <;> simp [readIds]
  | cons t ts ih =>
    rw [readIds]
    cases ht : f t with
    | none => cases ns <;> simp [ht]
    | some n =>
      simp only
      by_cases hn : n < count
      · rw [if_pos hn]
        cases hr : readIds f count ts with
        | none =>
          simp only [reduceCtorEq, List.map_cons, ht, false_iff]
          cases ns with
          | nil => simp
          | cons n' ns =>
            rintro ⟨h1, h2⟩
            simp only [List.map_cons, List.cons.injEq] at h1
            have := (ih ns).2 ⟨h1.2, fun k hk => h2 k (by simp [hk])⟩
            rw [hr] at this; cases this
        | some r =>
          have hr' := (ih r).1 hr
          cases ns with
          | nil => simp
          | cons n' ns =>
            simp only [Option.some.injEq, List.cons.injEq, List.map_cons, ht, List.mem_cons, forall_eq_or_imp]
            constructor
            · rintro ⟨rfl, rfl⟩
              exact ⟨⟨rfl, hr'.1⟩, hn, hr'.2⟩
            · rintro ⟨⟨h1, h2⟩, h3, h4⟩
              refine ⟨h1, ?_⟩
              have := (ih ns).2 ⟨h2, h4⟩
              rw [hr] at this
              exact Option.some.inj this
      · rw [if_neg hn]
        cases ns with
        | nil => simp
        | cons n' ns =>
          simp only [reduceCtorEq, List.map_cons, List.cons.injEq, ht, Option.some.injEq, List.mem_cons,
            forall_eq_or_imp, false_iff]
          rintro ⟨⟨rfl, _⟩, h, _⟩
          exact hn h

lemma addDevices_iff (m : ClMachine) (p k : ℕ) (ns : List ℕ) (c c' : ClChoice) :
    addDevices m p k ns c = (c', true) ↔
      (∀ n ∈ ns, m.builds p n = true) ∧ c' = { c with devices := c.devices ++ ns.map fun n => ⟨p, n, k⟩ } := by
  induction ns generalizing c with
  | nil =>
    simp only [addDevices, Prod.mk.injEq, and_true, List.map_nil, List.append_nil, List.not_mem_nil, false_imp_iff,
      implies_true, true_and]
    exact eq_comm
  | cons n ns ih =>
    rw [addDevices]
    by_cases hb : m.builds p n = true
    · rw [if_pos hb, ih]
      simp [hb]
    · rw [if_neg hb]
      simp [hb]

lemma addEntry_iff (m : ClMachine) (text : List Char) (c c' : ClChoice) :
    addEntry m text c = (c', true) ↔ ∃ e, IsEntry m.toUInt text e ∧ Available m e ∧
      c' = { c with devices := c.devices ++ e.2.map (fun n => ⟨e.1, n, c.contexts⟩), contexts := c.contexts + 1 } := by
  constructor
  · intro h
    unfold addEntry at h
    split at h
    · rename_i a b hab
      obtain ⟨h1, h2, h3⟩ := (pieces_two text a b).1 hab
      cases hp : m.toUInt a with
      | none => rw [hp] at h; cases h
      | some p =>
        rw [hp] at h
        simp only at h
        cases hc : m.platforms[p]? with
        | none => rw [hc] at h; cases h
        | some count =>
          rw [hc] at h
          simp only at h
          cases hr : readIds m.toUInt count (splitOn ',' b) with
          | none => rw [hr] at h; cases h
          | some ns =>
            rw [hr] at h
            simp only at h
            obtain ⟨g1, g2⟩ := (readIds_iff _ _ _ _).1 hr
            obtain ⟨g3, g4⟩ := (addDevices_iff _ _ _ _ _ _).1 h
            exact ⟨(p, ns), ⟨a, b, _, h1, h2, h3, hp, (split_iff _ _ _).1 rfl, g1⟩,
              ⟨count, hc, fun n hn => ⟨g2 n hn, g3 n hn⟩⟩, g4⟩
    · cases h
  · rintro ⟨⟨p, ns⟩, ⟨a, b, ts, h1, h2, h3, h4, h5, h6⟩, ⟨count, h7, h8⟩, h9⟩
    unfold addEntry
    rw [(pieces_two text a b).2 ⟨h1, h2, h3⟩]
    simp only at h4 h6 h7 h8 h9 ⊢
    rw [h4]
    simp only
    rw [h7]
    simp only
    rw [(split_iff _ _ _).2 h5, (readIds_iff _ _ _ _).2 ⟨h6, fun n hn => (h8 n hn).1⟩]
    simp only
    exact (addDevices_iff _ _ _ _ _ _).2 ⟨fun n hn => (h8 n hn).2, h9⟩

lemma addEntries_iff (m : ClMachine) (ts : List (List Char)) (c c' : ClChoice) :
    addEntries m ts c = (c', true) ↔ ∃ l, List.Forall₂ (IsEntry m.toUInt) ts l ∧ (∀ e ∈ l, Available m e) ∧
      c' = { c with devices := c.devices ++ numbered c.contexts l, contexts := c.contexts + l.length } := by
  induction ts generalizing c with
  | nil =>
    constructor
    · intro h
      cases h
      exact ⟨[], .nil, by simp, by simp [numbered]⟩
    · rintro ⟨l, h1, _, h3⟩
      cases h1
      rw [h3]
      simp [addEntries, numbered]
  | cons t ts ih =>
    rw [addEntries]
    cases he : addEntry m t c with
    | mk c1 ok =>
      cases ok with
      | false =>
        simp only [Prod.mk.injEq, Bool.false_eq_true, and_false, false_iff]
        rintro ⟨l, h1, h2, _⟩
        cases h1 with
        | cons hh ht =>
          have := (addEntry_iff m t c _).2 ⟨_, hh, h2 _ (by simp), rfl⟩
          rw [he] at this
          cases this
      | true =>
        simp only
        rw [ih]
        obtain ⟨e, g1, g2, rfl⟩ := (addEntry_iff m t c c1).1 he
        constructor
        · rintro ⟨l, h1, h2, h3⟩
          refine ⟨e :: l, .cons g1 h1, ?_, ?_⟩
          · intro x hx
            rcases List.mem_cons.1 hx with rfl | hx
            · exact g2
            · exact h2 x hx
          · rw [h3]
            simp [numbered, Nat.add_assoc, Nat.add_comm 1]
        · rintro ⟨l, h1, h2, h3⟩
          cases h1 with
          | cons hh ht =>
            rename_i e' l
            have hee : e' = e := by
              have := (addEntry_iff m t c _).2 ⟨_, hh, h2 _ (by simp), rfl⟩
              rw [he] at this
              simp only [Prod.mk.injEq, and_true, ClChoice.mk.injEq, List.append_cancel_left_eq] at this
              obtain ⟨a, b, ts, q1, q2, q3, q4, q5, q6⟩ := hh
              obtain ⟨a', b', ts', r1, r2, r3, r4, r5, r6⟩ := g1
              have e1 := (pieces_two t a b).2 ⟨q1, q2, q3⟩
              have e2 := (pieces_two t a' b').2 ⟨r1, r2, r3⟩
              rw [e1] at e2
              simp only [List.cons.injEq, and_true] at e2
              obtain ⟨rfl, rfl⟩ := e2
              have e3 := (split_iff _ _ _).2 q5
              rw [(split_iff _ _ _).2 r5] at e3
              subst e3
              rw [q6] at r6
              rw [q4] at r4
              refine Prod.ext (Option.some.inj r4) ?_
              exact (List.map_injective_iff.2 (fun a b h => Option.some.inj h)) r6
            subst hee
            refine ⟨l, ht, fun x hx => h2 x (by simp [hx]), ?_⟩
            rw [h3]
            simp [numbered, Nat.add_assoc, Nat.add_comm 1]

lemma numbered_length (k : ℕ) (l : List (ℕ × List ℕ)) : (numbered k l).length = (l.map fun e => e.2.length).sum := by
  induction l generalizing k with
  | nil => rfl
  | cons e l ih => simp [numbered, ih]

/-- What `select_devices` of the OpenCL engine accepts, on an engine in any state: lists of entries whose devices
exist and work, such that the number of all devices of the engine becomes a power of two.  The devices are then those
chosen before and the new ones in the order written, each entry with a context of its own. -/
theorem opencl_accepts_iff (m : ClMachine) (text : List Char) (c c' : ClChoice) :
    clSelect m text c = (c', true) ↔ ∃ ts l, Pieces ';' text ts ∧ List.Forall₂ (IsEntry m.toUInt) ts l ∧
      (∀ e ∈ l, Available m e) ∧ (∃ k, c.devices.length + (l.map fun e => e.2.length).sum = 2 ^ k) ∧
      c'.devices = c.devices ++ numbered c.contexts l ∧ c'.contexts = c.contexts + l.length ∧
      (c'.same = true ↔ l.length = 1) := by
  have hlen : ∀ (ts : List (List Char)) (l : List (ℕ × List ℕ)), List.Forall₂ (IsEntry m.toUInt) ts l →
      ts.length = l.length := fun ts l h => h.length_eq
  unfold clSelect
  simp only
  cases he : addEntries m (splitOn ';' text) c with
  | mk c1 ok =>
    cases ok with
    | false =>
      simp only [Prod.mk.injEq, Bool.false_eq_true, and_false, false_iff]
      rintro ⟨ts, l, h1, h2, h3, _⟩
      have := (addEntries_iff m ts c _).2 ⟨l, h2, h3, rfl⟩
      rw [← (split_iff _ _ _).2 h1, he] at this
      cases this
    | true =>
      simp only
      obtain ⟨l, g1, g2, rfl⟩ := (addEntries_iff m _ c c1).1 he
      simp only [List.length_append, numbered_length]
      by_cases hp : isPowerOfTwo (c.devices.length + (l.map fun e => e.2.length).sum) = true
      · rw [if_pos hp]
        constructor
        · intro h
          simp only [Prod.mk.injEq, and_true] at h
          refine ⟨_, l, (split_iff _ _ _).1 rfl, g1, g2, (isPowerOfTwo_iff _).1 hp, ?_, ?_, ?_⟩
          · rw [← h]
          · rw [← h]
          · rw [← h, beq_iff_eq, hlen _ _ g1]
        · rintro ⟨ts, l', h1, h2, h3, h4, h5, h6, h7⟩
          have hts := (split_iff _ _ _).2 h1
          have := (addEntries_iff m ts c _).2 ⟨l', h2, h3, rfl⟩
          rw [← hts, he] at this
          simp only [Prod.mk.injEq, and_true, ClChoice.mk.injEq, true_and] at this
          obtain ⟨t1, t2⟩ := this
          simp only [Prod.mk.injEq, and_true]
          cases c' with
          | mk d s k =>
            simp only at h5 h6 h7
            simp only [ClChoice.mk.injEq]
            refine ⟨by rw [h5, ← t1], ?_, by rw [h6, ← t2]⟩
            rw [Bool.eq_iff_iff, beq_iff_eq, h7, hts, hlen _ _ h2]
      · rw [if_neg hp]
        simp only [Prod.mk.injEq, Bool.false_eq_true, and_false, false_iff]
        rintro ⟨ts, l', h1, h2, h3, ⟨k, h4⟩, _⟩
        have hts := (split_iff _ _ _).2 h1
        have := (addEntries_iff m ts c _).2 ⟨l', h2, h3, rfl⟩
        rw [← hts, he] at this
        simp only [Prod.mk.injEq, and_true, ClChoice.mk.injEq, true_and] at this
        have hl := congrArg List.length (List.append_cancel_left this.1)
        rw [numbered_length, numbered_length] at hl
        rw [← hl] at h4
        exact hp ((isPowerOfTwo_iff _).2 ⟨k, h4⟩)

/-- A choice that a user writes down is selected as written. -/
theorem opencl_selects_written (m : ClMachine) (l : List (ℕ × List ℕ)) (hne : l ≠ [])
    (hl : ∀ e ∈ l, e.2 ≠ [] ∧ Available m e) (hpow : ∃ k, (l.map fun e => e.2.length).sum = 2 ^ k)
    (hnum : ∀ e ∈ l, ∀ n ∈ e.1 :: e.2, m.toUInt (Nat.toDigits 10 n) = some n) :
    ∃ c, clSelect m (written l) .fresh = (c, true) ∧ c.devices = numbered 0 l := by
  obtain ⟨k, hk⟩ := hpow
  refine ⟨⟨numbered 0 l, decide (l.length = 1), l.length⟩, ?_, rfl⟩
  have hjoin : ∀ (x : Char) (sep : Char) (ps : List (List Char)), x ≠ sep → (∀ p ∈ ps, x ∉ p) → x ∉ joined sep ps := by
    intro x sep ps hx
    induction ps with
    | nil => intro _ h; simp [joined] at h
    | cons p ps ih =>
      intro h
      cases ps with
      | nil => exact h p (by simp)
      | cons q qs =>
        rw [joined]
        intro hh
        rcases List.mem_append.1 hh with hh | hh
        · exact h p (by simp) hh
        · rcases List.mem_cons.1 hh with hh | hh
          · exact hx hh
          · exact ih (fun r hr => h r (by simp [hr])) hh
  rw [opencl_accepts_iff]
  refine ⟨l.map fun e => Nat.toDigits 10 e.1 ++ ':' :: joined ',' (e.2.map (Nat.toDigits 10)), l,
    ⟨by simpa using hne, ?_, rfl⟩, ?_, fun e he => (hl e he).2, ⟨k, by simpa [ClChoice.fresh] using hk⟩,
    by simp [ClChoice.fresh], by simp [ClChoice.fresh], by simp⟩
  · intro p hp
    obtain ⟨e, _, rfl⟩ := List.mem_map.1 hp
    intro hh
    rcases List.mem_append.1 hh with hh | hh
    · exact absurd hh (notMem_digits (by decide))
    · rcases List.mem_cons.1 hh with hh | hh
      · exact absurd hh (by decide)
      · refine hjoin ';' ',' _ (by decide) (fun q hq => ?_) hh
        obtain ⟨n, _, rfl⟩ := List.mem_map.1 hq
        exact notMem_digits (by decide)
  · rw [List.forall₂_map_left_iff, List.forall₂_same]
    intro e he
    refine ⟨Nat.toDigits 10 e.1, joined ',' (e.2.map (Nat.toDigits 10)), e.2.map (Nat.toDigits 10),
      notMem_digits (by decide), hjoin ':' ',' _ (by decide) (fun q hq => ?_), rfl, hnum e he _ (by simp),
      ⟨by simpa using (hl e he).1, fun q hq => ?_, rfl⟩, ?_⟩
    · obtain ⟨n, _, rfl⟩ := List.mem_map.1 hq
      exact notMem_digits (by decide)
    · obtain ⟨n, _, rfl⟩ := List.mem_map.1 hq
      exact notMem_digits (by decide)
    · rw [List.map_map]
      exact List.map_congr_left fun n hn => hnum e he n (by simp [hn])

/-- On a new engine the flag for direct copies between devices is right: it is set exactly if all devices share one
context. -/
theorem same_context_right_partial (m : ClMachine) (text : List Char) (c : ClChoice)
    (h : clSelect m text .fresh = (c, true)) :
    c.same = true ↔ ∀ d ∈ c.devices, ∀ d' ∈ c.devices, d.context = d'.context := by
  obtain ⟨ts, l, h1, h2, h3, h4, h5, h6, h7⟩ := (opencl_accepts_iff m text _ c).1 h
  rw [h7, h5]
  simp only [ClChoice.fresh, List.nil_append]
  have hne : ∀ e ∈ l, e.2 ≠ [] := by
    clear h1 h3 h4 h5 h6 h7
    induction h2 with
    | nil => simp
    | cons hh _ ih =>
      intro e he
      rcases List.mem_cons.1 he with rfl | he
      · obtain ⟨a, b, ts, _, _, _, _, q5, q6⟩ := hh
        intro h0
        rw [h0] at q6
        exact q5.1 (by simpa using q6)
      · exact ih e he
  cases l with
  | nil =>
    cases h2
    exact absurd rfl h1.1
  | cons e l =>
    cases l with
    | nil =>
      simp only [List.length_cons, List.length_nil, true_iff, numbered, List.append_nil, List.mem_map]
      rintro d ⟨n, _, rfl⟩ d' ⟨n', _, rfl⟩
      rfl
    | cons e' l =>
      simp only [List.length_cons, numbered]
      refine iff_of_false (by omega) fun hall => ?_
      obtain ⟨n, hn⟩ := List.exists_mem_of_ne_nil _ (hne e (by simp))
      obtain ⟨n', hn'⟩ := List.exists_mem_of_ne_nil _ (hne e' (by simp))
      have := hall ⟨e.1, n, 0⟩ (by simp [hn]) ⟨e'.1, n', 0 + 1⟩ (by simp [hn'])
      simp at this

/-- Choosing again never removes a device, whether it fails or not. -/
theorem devices_stay (m : ClMachine) (text : List Char) (c : ClChoice) :
    c.devices <+: (clSelect m text c).1.devices := by
  have h1 : ∀ (p k : ℕ) (ns : List ℕ) (c : ClChoice), c.devices <+: (addDevices m p k ns c).1.devices := by
    intro p k ns
    induction ns with
    | nil => intro c; exact List.prefix_rfl
    | cons n ns ih =>
      intro c
      rw [addDevices]
      split
      · have := ih { c with devices := c.devices ++ [⟨p, n, k⟩] }
        exact List.IsPrefix.trans (List.prefix_append _ _) this
      · exact List.prefix_rfl
  have h2 : ∀ (t : List Char) (c : ClChoice), c.devices <+: (addEntry m t c).1.devices := by
    intro t c
    unfold addEntry
    split
    · rename_i a b _
      cases m.toUInt a with
      | none => exact List.prefix_rfl
      | some p =>
        simp only
        cases m.platforms[p]? with
        | none => exact List.prefix_rfl
        | some count =>
          simp only
          cases readIds m.toUInt count (splitOn ',' b) with
          | none => exact List.prefix_rfl
          | some ns => exact h1 p c.contexts ns { c with contexts := c.contexts + 1 }
    · exact List.prefix_rfl
  have h3 : ∀ (ts : List (List Char)) (c : ClChoice), c.devices <+: (addEntries m ts c).1.devices := by
    intro ts
    induction ts with
    | nil => intro c; exact List.prefix_rfl
    | cons t ts ih =>
      intro c
      rw [addEntries]
      have := h2 t c
      cases he : addEntry m t c with
      | mk c1 ok =>
        rw [he] at this
        cases ok with
        | false => exact this
        | true => exact this.trans (ih c1)
  unfold clSelect
  simp only
  have := h3 (splitOn ';' text) c
  cases he : addEntries m (splitOn ';' text) c with
  | mk c1 ok =>
    rw [he] at this
    cases ok with
    | false => exact this
    | true =>
      simp only
      split
      · exact this
      · exact this

/-! ### CUDA -/

lemma cudaIds_iff (f : List Char → Option ℤ) (count : ℤ) (ts : List (List Char)) (ns : List ℤ) :
    cudaIds f count ts = some ns ↔ ts.map f = ns.map some ∧ ∀ n ∈ ns, 0 ≤ n ∧ n < count := by
  induction ts generalizing ns with
  | nil => cases ns <;> simp [cudaIds]
  | cons t ts ih =>
    rw [cudaIds]
    cases ht : f t with
    | none => cases ns <;> simp [ht]
    | some n =>
      simp only
      by_cases hn : n < 0 ∨ count ≤ n
      · rw [if_pos hn]
        cases ns with
        | nil => simp
        | cons n' ns =>
          simp only [reduceCtorEq, List.map_cons, List.cons.injEq, ht, Option.some.injEq, List.mem_cons,
            forall_eq_or_imp, false_iff]
          rintro ⟨⟨rfl, _⟩, h, _⟩
          omega
      · rw [if_neg hn]
        cases hr : cudaIds f count ts with
        | none =>
          simp only [reduceCtorEq, List.map_cons, ht, false_iff]
          cases ns with
          | nil => simp
          | cons n' ns =>
            rintro ⟨h1, h2⟩
            simp only [List.map_cons, List.cons.injEq] at h1
            have := (ih ns).2 ⟨h1.2, fun k hk => h2 k (by simp [hk])⟩
            rw [hr] at this; cases this
        | some r =>
          have hr' := (ih r).1 hr
          cases ns with
          | nil => simp
          | cons n' ns =>
            simp only [Option.some.injEq, List.cons.injEq, List.map_cons, ht, List.mem_cons, forall_eq_or_imp]
            constructor
            · rintro ⟨rfl, rfl⟩
              exact ⟨⟨rfl, hr'.1⟩, by omega, hr'.2⟩
            · rintro ⟨⟨h1, h2⟩, h3, h4⟩
              refine ⟨h1, ?_⟩
              have := (ih ns).2 ⟨h2, h4⟩
              rw [hr] at this
              exact Option.some.inj this

/-- What `select_devices` of the CUDA engine accepts, on an engine in any state: the nonempty texts between the
commas are numbers of devices, at least one.  Those, in this order, are then the devices; a refused choice changes
nothing. -/
theorem cuda_accepts_iff (toInt : List Char → Option ℤ) (count : Option ℤ) (text : List Char) (ids ids' : List ℤ)
    (ts : List (List Char)) (hts : Pieces ',' text ts) :
    (cudaSelect toInt count text ids = (ids', true) ↔ ids' ≠ [] ∧ ∃ n, count = some n ∧
      (ts.filter fun t => t ≠ []).map toInt = ids'.map some ∧ ∀ i ∈ ids', 0 ≤ i ∧ i < n) ∧
    ((cudaSelect toInt count text ids).2 = false → (cudaSelect toInt count text ids).1 = ids) := by
  have hs : splitSkip ',' text = ts.filter fun t => t ≠ [] := by
    unfold splitSkip
    rw [(split_iff _ _ _).2 hts]
  unfold cudaSelect
  simp only [hs]
  generalize (ts.filter fun t => t ≠ []) = fs
  by_cases h0 : fs = []
  · subst h0
    rw [if_pos rfl]
    refine ⟨?_, fun _ => rfl⟩
    simp only [Prod.mk.injEq, Bool.false_eq_true, and_false, false_iff]
    rintro ⟨h1, n, _, h2, _⟩
    exact h1 (by simpa using h2.symm)
  · rw [if_neg h0]
    cases count with
    | none => simp
    | some n =>
      simp only
      cases hr : cudaIds toInt n fs with
      | none =>
        refine ⟨?_, fun _ => rfl⟩
        simp only [Prod.mk.injEq, Bool.false_eq_true, and_false, false_iff]
        rintro ⟨_, n', h1, h2, h3⟩
        cases h1
        rw [(cudaIds_iff _ _ _ _).2 ⟨h2, h3⟩] at hr
        cases hr
      | some new =>
        obtain ⟨g1, g2⟩ := (cudaIds_iff _ _ _ _).1 hr
        refine ⟨?_, fun h => by cases h⟩
        simp only [Prod.mk.injEq, and_true]
        constructor
        · rintro rfl
          refine ⟨?_, n, rfl, g1, g2⟩
          intro h; rw [h] at g1; exact h0 (by simpa using g1)
        · rintro ⟨_, n', h1, h2, h3⟩
          cases h1
          have := (cudaIds_iff _ _ _ _).2 ⟨h2, h3⟩
          rw [hr] at this
          exact Option.some.inj this

/-! ### Violations and concrete cases -/

/-- Two platforms with three devices and one device; one digit is read as a number. -/
def machine : ClMachine where
  platforms := [3, 1]
  builds := fun _ _ => true
  toUInt := fun
    | ['0'] => some 0
    | ['1'] => some 1
    | ['2'] => some 2
    | ['9'] => some 9
    | _ => none

/-- Choosing twice: the devices are in two contexts, but the flag for direct copies is set. -/
theorem same_context_wrong :
    (clSelect machine ['0', ':', '0'] .fresh).2 = true ∧
    (clSelect machine ['1', ':', '0'] (clSelect machine ['0', ':', '0'] .fresh).1) =
      (⟨[⟨0, 0, 0⟩, ⟨1, 0, 1⟩], true, 2⟩, true) := by decide +kernel

/-- A refused choice leaves an engine with devices of which the number is no power of two. -/
theorem refused_choice_stays :
    clSelect machine ['0', ':', '1', ',', '2'] (clSelect machine ['0', ':', '0'] .fresh).1 =
      (⟨[⟨0, 0, 0⟩, ⟨0, 1, 1⟩, ⟨0, 2, 1⟩], true, 2⟩, false) := by decide +kernel

/-- A new CUDA engine is on the first device, and stays there when the choice is refused. -/
theorem cuda_default (toInt : List Char → Option Int) (count : Option Int) (text : List Char) :
    cudaFresh.length = 1 ∧ (∀ i ∈ cudaFresh, i = 0) ∧
      ((cudaSelect toInt count text cudaFresh).2 = false → (cudaSelect toInt count text cudaFresh).1 = [0]) := by
  refine ⟨rfl, by simp [cudaFresh], ?_⟩
  unfold cudaSelect
  simp only
  split_ifs with h
  · intro _; rfl
  · cases count with
    | none => intro _; rfl
    | some c =>
      simp only
      cases cudaIds toInt c (splitSkip ',' text) with
      | none => intro _; rfl
      | some r => intro h; cases h

/-- A choice of a device there is not, refused. -/
example : (cudaSelect (fun t => if t = ['7'] then some 7 else none) (some 1) ['7'] cudaFresh).2 = false := by decide +kernel

/-- Three times the same CUDA device is accepted. -/
theorem cuda_no_check :
    cudaSelect (fun t => if t = ['0'] then some 0 else none) (some 1) ['0', ',', '0', ',', '0'] cudaFresh =
      ([0, 0, 0], true) := by decide +kernel

/-- A choice over two platforms. -/
example : clSelect machine (written [(0, [2, 0, 1]), (1, [0])]) .fresh =
    (⟨[⟨0, 2, 0⟩, ⟨0, 0, 0⟩, ⟨0, 1, 0⟩, ⟨1, 0, 1⟩], false, 2⟩, true) := by decide +kernel

/-- The conditions of `opencl_selects_written` hold for it. -/
example : (∀ e ∈ [(0, [2, 0, 1]), (1, [0])], e.2 ≠ [] ∧ Available machine e) ∧
    (∃ k, ([(0, [2, 0, 1]), (1, [0])].map fun e : ℕ × List ℕ => e.2.length).sum = 2 ^ k) ∧
    ∀ e ∈ [(0, [2, 0, 1]), (1, [0])], ∀ n ∈ e.1 :: e.2, machine.toUInt (Nat.toDigits 10 n) = some n := by
  refine ⟨?_, ⟨2, rfl⟩, by decide +kernel⟩
  intro e he
  simp only [List.mem_cons, List.not_mem_nil, or_false] at he
  rcases he with rfl | rfl
  · exact ⟨by simp, 3, rfl, by simp [machine]⟩
  · exact ⟨by simp, 1, rfl, by simp [machine]⟩

end NB.C71
