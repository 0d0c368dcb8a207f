import Verif.Model.Lifecycle
import Mathlib.Data.List.Perm.Basic
import Mathlib.Data.List.Nodup
import Mathlib.Tactic.SplitIfs

/-
Lemmas about creation and release of buffers.
-/

namespace NB

/-- Distinct buffers, all created by earlier calls. -/
def Heap.WF (h : Heap) : Prop := h.live.Nodup ∧ ∀ x ∈ h.live, x < h.calls

/-- The heap holds the buffers `own`, once each, beside `base`. -/
def Heap.Holds (h : Heap) (own base : List Nat) : Prop := h.WF ∧ h.live.Perm (own ++ base)

lemma Heap.Holds.nodup {h : Heap} {own base : List Nat} (hh : h.Holds own base) : (own ++ base).Nodup :=
  hh.2.nodup_iff.1 hh.1.1

lemma Heap.Holds.perm {h : Heap} {own own' base : List Nat} (hh : h.Holds own base) (hp : own.Perm own') :
    h.Holds own' base := ⟨hh.1, hh.2.trans (hp.append_right base)⟩

lemma Heap.Holds.assoc {h : Heap} {a b base : List Nat} : h.Holds (a ++ b) base ↔ h.Holds a (b ++ base) := by
  unfold Heap.Holds
  rw [List.append_assoc]

lemma Heap.Holds.swap {h : Heap} {a b base : List Nat} (hh : h.Holds a (b ++ base)) : h.Holds b (a ++ base) := by
  rw [← Heap.Holds.assoc] at hh ⊢
  exact hh.perm List.perm_append_comm

lemma freeBuffer_holds {h : Heap} {b : Option Nat} {base : List Nat} (hh : h.Holds b.toList base) :
    ∃ h', freeBuffer b h = .ok h' ∧ h'.Holds [] base ∧ h'.calls = h.calls := by
  cases b with
  | none => exact ⟨h, rfl, hh, rfl⟩
  | some n =>
    have hm : n ∈ h.live := hh.2.mem_iff.2 (by simp)
    refine ⟨{ h with live := h.live.erase n }, by unfold freeBuffer; simp only [if_pos hm], ⟨⟨hh.1.1.erase n, ?_⟩, ?_⟩, rfl⟩
    · intro x hx
      exact hh.1.2 x (List.mem_of_mem_erase hx)
    · have := hh.2.erase n
      simpa using this

lemma freeBuffers_holds (ms : List Nat) {h : Heap} {base : List Nat} (hh : h.Holds ms base) :
    ∃ h', freeBuffers ms h = .ok h' ∧ h'.Holds [] base ∧ h'.calls = h.calls := by
  induction ms generalizing h with
  | nil => exact ⟨h, rfl, hh, rfl⟩
  | cons m ms ih =>
    have h1 : h.Holds (some m).toList (ms ++ base) := by
      rw [← Heap.Holds.assoc]; exact hh
    obtain ⟨h', e, hh', hc⟩ := freeBuffer_holds h1
    obtain ⟨h'', e', hh'', hc'⟩ := ih (h := h') hh'
    refine ⟨h'', ?_, hh'', hc'.trans hc⟩
    simp only [freeBuffers, e, e']

/-- The buffers of a member. -/
def memberBufs : Option Nat ⊕ List Nat → List Nat
  | .inl b => b.toList
  | .inr l => l

lemma freeMembers_holds (ms : List (Option Nat ⊕ List Nat)) {h : Heap} {base : List Nat}
    (hh : h.Holds (ms.flatMap memberBufs) base) :
    ∃ h', freeMembers ms h = .ok h' ∧ h'.Holds [] base ∧ h'.calls = h.calls := by
  induction ms generalizing h with
  | nil => exact ⟨h, rfl, hh, rfl⟩
  | cons m ms ih =>
    rw [List.flatMap_cons, Heap.Holds.assoc] at hh
    cases m with
    | inl b =>
      obtain ⟨h', e, hh', hc⟩ := freeBuffer_holds hh
      obtain ⟨h'', e', hh'', hc'⟩ := ih (h := h') hh'
      refine ⟨h'', ?_, hh'', hc'.trans hc⟩
      simp only [freeMembers, e, e']
    | inr b =>
      obtain ⟨h', e, hh', hc⟩ := freeBuffers_holds b hh
      obtain ⟨h'', e', hh'', hc'⟩ := ih (h := h') hh'
      refine ⟨h'', ?_, hh'', hc'.trans hc⟩
      simp only [freeMembers, e, e']

lemma createBuffer_holds {fails : Nat → Bool} {h : Heap} {own base : List Nat} (hh : h.Holds own base) :
    (createBuffer fails h).2.Holds (own ++ (createBuffer fails h).1.toList) base ∧
      (createBuffer fails h).2.calls = h.calls + 1 ∧
      ((createBuffer fails h).1 = none ↔ fails h.calls = true) := by
  unfold createBuffer
  split_ifs with hf
  · refine ⟨⟨⟨hh.1.1, fun x hx => Nat.lt_succ_of_lt (hh.1.2 x hx)⟩, by simpa using hh.2⟩, rfl, by simp [hf]⟩
  · refine ⟨⟨⟨?_, ?_⟩, ?_⟩, rfl, by simp [hf]⟩
    · refine List.nodup_cons.2 ⟨fun hx => ?_, hh.1.1⟩
      exact absurd (hh.1.2 _ hx) (Nat.lt_irrefl _)
    · intro x hx
      rcases List.mem_cons.1 hx with rfl | hx
      · exact Nat.lt_succ_self _
      · exact Nat.lt_succ_of_lt (hh.1.2 x hx)
    · have h1 : (h.calls :: h.live).Perm (h.calls :: (own ++ base)) := hh.2.cons _
      refine h1.trans ?_
      simp only [Option.toList_some, List.append_assoc, List.cons_append, List.nil_append]
      exact List.perm_middle.symm

lemma createLoop_spec (fails : Nat → Bool) (n : Nat) (mema base : List Nat) (h : Heap) (hh : h.Holds mema base) :
    (∃ r h', createBuffersLoop fails n mema h = .ok (mema ++ r, h') ∧ r.length = n ∧ h'.Holds (mema ++ r) base ∧
      h'.calls = h.calls + n ∧ (∀ k < n, fails (h.calls + k) = false)) ∨
    (∃ k h', k < n ∧ fails (h.calls + k) = true ∧ (∀ j < k, fails (h.calls + j) = false) ∧
      createBuffersLoop fails n mema h = .ok ([], h') ∧ h'.Holds [] base ∧ h'.calls = h.calls + k + 1) := by
  induction n generalizing mema h with
  | zero => exact .inl ⟨[], h, by simp [createBuffersLoop], rfl, by simpa using hh, rfl, by simp⟩
  | succ n ih =>
    have hc := createBuffer_holds (fails := fails) hh
    cases hb : createBuffer fails h with
    | mk b h' =>
      rw [hb] at hc
      obtain ⟨h1, h2, h3⟩ := hc
      cases b with
      | none =>
        right
        have hf := h3.1 rfl
        obtain ⟨h'', e, hh'', hc''⟩ := freeBuffers_holds mema (h := h') (by simpa using h1)
        refine ⟨0, h'', Nat.succ_pos _, hf, by simp, ?_, hh'', by rw [hc'', h2]⟩
        simp only [createBuffersLoop, hb, e]
      | some m =>
        have hf : fails h.calls = false := by
          cases hff : fails h.calls with
          | false => rfl
          | true => exact absurd (h3.2 hff) (by simp)
        have h2' : h'.calls = h.calls + 1 := h2
        rcases ih (mema ++ [m]) h' h1 with ⟨r, h'', e, hl, hh'', hcc, hk⟩ | ⟨k, h'', hk, hfk, hj, e, hh'', hcc⟩
        · left
          refine ⟨m :: r, h'', ?_, by simp [hl], by simpa using hh'', by rw [hcc, h2']; omega, ?_⟩
          · simp only [createBuffersLoop, hb, e]; simp
          · intro k hkn
            rcases Nat.eq_zero_or_pos k with rfl | hpos
            · exact hf
            · have := hk (k - 1) (by omega)
              rw [h2'] at this
              rwa [show h.calls + 1 + (k - 1) = h.calls + k by omega] at this
        · right
          refine ⟨k + 1, h'', by omega, ?_, ?_, ?_, hh'', by rw [hcc, h2']; omega⟩
          · rw [h2'] at hfk
            rwa [show h.calls + (k + 1) = h.calls + 1 + k by omega]
          · intro j hjk
            rcases Nat.eq_zero_or_pos j with rfl | hpos
            · exact hf
            · have := hj (j - 1) (by omega)
              rw [h2'] at this
              rwa [show h.calls + 1 + (j - 1) = h.calls + j by omega] at this
          · simp only [createBuffersLoop, hb, e]

end NB

namespace NB

lemma destroyMembers_holds {ms : List (Option Nat ⊕ List Nat)} {h : Heap} {base : List Nat}
    (hh : h.Holds (ms.flatMap memberBufs) base) :
    ∃ h', destroyMembers true ms h = .ok h' ∧ h'.Holds [] base := by
  obtain ⟨h', e, h1, -⟩ := freeMembers_holds ms hh
  exact ⟨h', by simp [destroyMembers, e], h1⟩

/-- The buffers a Stetter solver owns. -/
def StetterObj.owned (s : StetterObj) : List Nat := s.fu ++ s.uv ++ s.tmp.toList ++ s.du.toList

/-- The buffers the parts of a Bulirsch-Stoer solver own. -/
def extOwned : Option (List Nat × List Nat × Option Nat) → List Nat
  | none => []
  | some (tb, tp, df) => tb ++ tp ++ df.toList

/-- The buffers a solver and its parts own. -/
def SolverObj.owned : SolverObj → List Nat
  | .euler _ dy => dy.toList
  | .midpoint _ a b c => a.toList ++ b.toList ++ c.toList
  | .stetter s => s.owned
  | .rk4 _ k tmp => k ++ tmp.toList
  | .trapeze _ f pr => f ++ pr.toList
  | .butcher _ _ _ _ k t tmpk yc tc ys => k ++ t.toList ++ tmpk.toList ++ yc.toList ++ tc.toList ++ ys
  | .bs _ _ y0 ext internal => y0.toList ++ extOwned ext ++ (internal.map StetterObj.owned).getD []
  | .adams _ _ _ _ s f cd => s.owned ++ (f ++ cd.toList)

/-- The solver and its parts have their engine. -/
def SolverObj.ready : SolverObj → Bool
  | .euler e .. => e
  | .midpoint e .. => e
  | .stetter s => s.eng
  | .rk4 e .. => e
  | .trapeze e .. => e
  | .butcher e .. => e
  | .bs e _ _ _ i => e && (i.map StetterObj.eng).getD true
  | .adams e _ _ _ s _ _ => e && s.ready

lemma stetterDestroy_holds {s : StetterObj} (hs : s.eng = true) {h : Heap} {base : List Nat}
    (hh : h.Holds s.owned base) : ∃ h', s.destroy h = .ok h' ∧ h'.Holds [] base := by
  unfold StetterObj.destroy
  rw [hs]
  apply destroyMembers_holds
  simpa [memberBufs, StetterObj.owned] using hh

lemma destroy_holds (o : SolverObj) (hr : o.ready = true) {h : Heap} {base : List Nat}
    (hh : h.Holds o.owned base) : ∃ h', o.destroy h = .ok h' ∧ h'.Holds [] base := by
  induction o generalizing h base with
  | euler e dy =>
    simp only [SolverObj.ready] at hr
    subst hr
    exact destroyMembers_holds (by simpa [memberBufs, SolverObj.owned] using hh)
  | midpoint e a b c =>
    simp only [SolverObj.ready] at hr
    subst hr
    exact destroyMembers_holds (by simpa [memberBufs, SolverObj.owned] using hh)
  | stetter s => exact stetterDestroy_holds hr hh
  | rk4 e k tmp =>
    simp only [SolverObj.ready] at hr
    subst hr
    exact destroyMembers_holds (by simpa [memberBufs, SolverObj.owned] using hh)
  | trapeze e f pr =>
    simp only [SolverObj.ready] at hr
    subst hr
    exact destroyMembers_holds (by simpa [memberBufs, SolverObj.owned] using hh)
  | butcher e st mr co k t tk yc tc ys =>
    simp only [SolverObj.ready] at hr
    subst hr
    exact destroyMembers_holds (by simpa [memberBufs, SolverObj.owned] using hh)
  | bs e lv y0 ext i =>
    simp only [SolverObj.ready, Bool.and_eq_true] at hr
    obtain ⟨rfl, hr2⟩ := hr
    simp only [SolverObj.owned, List.append_assoc] at hh
    rw [Heap.Holds.assoc] at hh
    obtain ⟨h1, e1, hh1⟩ := destroyMembers_holds (ms := [.inl y0]) (by simpa [memberBufs] using hh)
    have h2 : ∃ h2, destroyExtrapolator ext h1 = .ok h2 ∧
        h2.Holds [] ((i.map StetterObj.owned).getD [] ++ base) := by
      cases ext with
      | none => exact ⟨h1, rfl, by simpa [extOwned] using hh1⟩
      | some x =>
        obtain ⟨tb, tp, df⟩ := x
        have hh1' : h1.Holds (extOwned (some (tb, tp, df))) ((i.map StetterObj.owned).getD [] ++ base) :=
          hh1
        obtain ⟨h2, e2, hh2, -⟩ := freeMembers_holds [.inr tb, .inr tp, .inl df] (h := h1)
          (base := (i.map StetterObj.owned).getD [] ++ base) (by simpa [memberBufs, extOwned] using hh1')
        exact ⟨h2, e2, hh2⟩
    obtain ⟨h2, e2, hh2⟩ := h2
    simp only [SolverObj.destroy, e1, e2, bind, Except.bind]
    cases i with
    | none => exact ⟨h2, rfl, by simpa using hh2⟩
    | some s => exact stetterDestroy_holds (by simpa using hr2) hh2
  | adams e r m co s f cd ih =>
    simp only [SolverObj.ready, Bool.and_eq_true] at hr
    obtain ⟨rfl, hr2⟩ := hr
    simp only [SolverObj.owned] at hh
    rw [Heap.Holds.assoc] at hh
    obtain ⟨h1, e1, hh1⟩ := ih hr2 hh
    simp only [SolverObj.destroy, e1, bind, Except.bind]
    have hh2 : h1.Holds (f ++ cd.toList) base := hh1
    exact destroyMembers_holds (by simpa [memberBufs] using hh2)

/-- No creation fails: the CPU engines. -/
def NoFail (fails : Nat → Bool) : Prop := ∀ n, fails n = false

lemma createBuffer_ok {fails : Nat → Bool} (hf : NoFail fails) {h : Heap} {own base : List Nat}
    (hh : h.Holds own base) :
    ∃ b h', createBuffer fails h = (some b, h') ∧ h'.Holds (own ++ [b]) base := by
  have h1 := createBuffer_holds (fails := fails) hh
  refine ⟨h.calls, ⟨h.calls + 1, h.calls :: h.live⟩, ?_, ?_⟩
  · simp [createBuffer, hf h.calls]
  · have : createBuffer fails h = (some h.calls, ⟨h.calls + 1, h.calls :: h.live⟩) := by
      simp [createBuffer, hf h.calls]
    rw [this] at h1
    exact h1.1

lemma createBuffers_ok {fails : Nat → Bool} (hf : NoFail fails) (n : Nat) {h : Heap} {own base : List Nat}
    (hh : h.Holds own base) :
    ∃ r h', createBuffers fails n h = .ok (r, h') ∧ r.length = n ∧ h'.Holds (own ++ r) base := by
  have hh' : h.Holds [] (own ++ base) := hh
  rcases createLoop_spec fails n [] (own ++ base) h hh' with ⟨r, h', e, hl, h1, -⟩ | ⟨k, h', -, hk, -⟩
  · refine ⟨r, h', by simpa [createBuffers] using e, hl, ?_⟩
    have h2 : h'.Holds r (own ++ base) := by simpa using h1
    have := h2.swap
    exact (Heap.Holds.assoc.2 this)
  · rw [hf] at hk; exact absurd hk (by simp)

/-- A Stetter solver without arrays has no buffers at all. -/
def StetterObj.shape (s : StetterObj) : Prop :=
  (s.fu = [] → s.tmp = none ∧ s.du = none ∧ s.uv = []) ∧ (s.fu ≠ [] → s.uv ≠ [])

/-- What the histories of a solver keep: buffers are created together. -/
def SolverObj.shape : SolverObj → Prop
  | .euler .. => True
  | .midpoint _ a b c => a = none → b = none ∧ c = none
  | .stetter s => s.shape
  | .rk4 _ k tmp => k = [] → tmp = none
  | .trapeze _ f pr => f = [] → pr = none
  | .butcher _ st _ _ k t tk yc tc ys => 0 < st ∧ (k = [] → t = none ∧ tk = none ∧ yc = none ∧ tc = none ∧ ys = [])
  | .bs _ lv y0 ext i => (y0 = none → ext = none ∧ i = none) ∧
      (y0 ≠ none → ∃ tb tp df s, ext = some (tb, tp, df) ∧ i = some s ∧ tb.length = lv ∧ s.eng = true ∧ s.shape)
  | .adams _ r m _ s f cd => 1 ≤ r ∧ r ≤ 5 ∧ s.shape ∧ (f = [] → cd = none ∧ m = 0) ∧ (f ≠ [] → s.ready = true)

lemma stetterAdvise_ok {fails : Nat → Bool} (hf : NoFail fails) (s : StetterObj) (hs : s.eng = true) (hsh : s.shape)
    {h : Heap} {base : List Nat} (hh : h.Holds s.owned base) :
    ∃ s' h', stetterAdviseObj fails s h = .ok (s', h') ∧ s'.eng = true ∧ s'.shape ∧ h'.Holds s'.owned base := by
  unfold stetterAdviseObj
  rw [if_pos hs]
  by_cases hfu : s.fu = []
  · rw [if_pos hfu]
    obtain ⟨h1, h2, h3⟩ := hsh.1 hfu
    have hh0 : h.Holds [] base := by simpa [StetterObj.owned, hfu, h1, h2, h3] using hh
    obtain ⟨a, ha, e1, hh1⟩ := createBuffer_ok hf hh0
    obtain ⟨b, hb, e2, hh2⟩ := createBuffer_ok hf hh1
    obtain ⟨r, hr, e3, l3, hh3⟩ := createBuffers_ok hf 2 hh2
    obtain ⟨r', hr', e4, l4, hh4⟩ := createBuffers_ok hf 2 hh3
    have n3 : r ≠ [] := by rintro rfl; simp at l3
    have n4 : r' ≠ [] := by rintro rfl; simp at l4
    refine ⟨⟨s.eng, some a, some b, r, r'⟩, hr', ?_, hs, ⟨fun e => absurd e n3, fun _ => n4⟩, ?_⟩
    · simp only [e1, e2, e3, e4, bind, Except.bind]
      simp [n3, n4]
    · refine hh4.perm ?_
      simp only [StetterObj.owned, List.nil_append, Option.toList_some]
      rw [List.append_assoc, List.append_assoc (r ++ r')]
      exact List.perm_append_comm
  · rw [if_neg hfu]
    exact ⟨s, h, rfl, hs, hsh, hh⟩

lemma basic_ok {fails : Nat → Bool} (hf : NoFail fails) (o : SolverObj) (ho : o.attached = true) (hsh : o.shape)
    (hb : ∀ e l y x i, o ≠ .bs e l y x i) (ha : ∀ e r m c s f d, o ≠ .adams e r m c s f d)
    {h : Heap} {base : List Nat} (hh : h.Holds o.owned base) :
    ∃ o' h', o.adviseBasic fails h = .ok (o', h') ∧ o'.ready = true ∧ o'.attached = true ∧ o'.shape ∧
      h'.Holds o'.owned base := by
  cases o with
  | euler e dy =>
    simp only [SolverObj.attached] at ho
    subst ho
    cases dy with
    | some d => exact ⟨_, h, rfl, rfl, rfl, trivial, hh⟩
    | none =>
      obtain ⟨b, h', e, h1⟩ := createBuffer_ok hf (own := []) hh
      refine ⟨.euler true (some b), h', by simp [SolverObj.adviseBasic, e], rfl, rfl, trivial, ?_⟩
      simpa [SolverObj.owned] using h1
  | midpoint e a b c =>
    simp only [SolverObj.attached] at ho
    subst ho
    cases a with
    | some d => exact ⟨_, h, rfl, rfl, rfl, by simp [SolverObj.shape], hh⟩
    | none =>
      obtain ⟨rfl, rfl⟩ := hsh rfl
      obtain ⟨b1, h1, e1, hh1⟩ := createBuffer_ok hf (own := []) hh
      obtain ⟨b2, h2, e2, hh2⟩ := createBuffer_ok hf hh1
      obtain ⟨b3, h3, e3, hh3⟩ := createBuffer_ok hf hh2
      refine ⟨.midpoint true (some b1) (some b2) (some b3), h3, by simp [SolverObj.adviseBasic, e1, e2, e3], rfl, rfl,
        by simp [SolverObj.shape], ?_⟩
      simpa [SolverObj.owned] using hh3
  | stetter s =>
    obtain ⟨s', h', e, h1, h2, h3⟩ := stetterAdvise_ok hf s ho hsh hh
    refine ⟨.stetter s', h', by simp [SolverObj.adviseBasic, e, bind, Except.bind], h1, h1, h2, h3⟩
  | rk4 e k tmp =>
    simp only [SolverObj.attached] at ho
    subst ho
    by_cases hk : k = []
    · subst hk
      obtain rfl := hsh rfl
      obtain ⟨r, h1, e1, l1, hh1⟩ := createBuffers_ok hf 4 (own := []) hh
      obtain ⟨b2, h2, e2, hh2⟩ := createBuffer_ok hf hh1
      have n1 : r ≠ [] := by rintro rfl; simp at l1
      refine ⟨.rk4 true r (some b2), h2, ?_, rfl, rfl, by simp [SolverObj.shape, n1], by simpa [SolverObj.owned] using hh2⟩
      simp [SolverObj.adviseBasic, e1, e2, n1, bind, Except.bind]
    · exact ⟨.rk4 true k tmp, h, by simp [SolverObj.adviseBasic, hk], rfl, rfl, hsh, hh⟩
  | trapeze e k tmp =>
    simp only [SolverObj.attached] at ho
    subst ho
    by_cases hk : k = []
    · subst hk
      obtain rfl := hsh rfl
      obtain ⟨r, h1, e1, l1, hh1⟩ := createBuffers_ok hf 2 (own := []) hh
      obtain ⟨b2, h2, e2, hh2⟩ := createBuffer_ok hf hh1
      have n1 : r ≠ [] := by rintro rfl; simp at l1
      refine ⟨.trapeze true r (some b2), h2, ?_, rfl, rfl, by simp [SolverObj.shape, n1], by simpa [SolverObj.owned] using hh2⟩
      simp [SolverObj.adviseBasic, e1, e2, n1, bind, Except.bind]
    · exact ⟨.trapeze true k tmp, h, by simp [SolverObj.adviseBasic, hk], rfl, rfl, hsh, hh⟩
  | butcher e st mr co k t tk yc tc ys =>
    simp only [SolverObj.attached] at ho
    subst ho
    by_cases hk : k = []
    · subst hk
      obtain ⟨hst, hsh⟩ := hsh
      obtain ⟨rfl, rfl, rfl, rfl, rfl⟩ := hsh rfl
      obtain ⟨r, h1, e1, l1, hh1⟩ := createBuffers_ok hf st (own := []) hh
      obtain ⟨b2, h2, e2, hh2⟩ := createBuffer_ok hf hh1
      obtain ⟨b3, h3, e3, hh3⟩ := createBuffer_ok hf hh2
      obtain ⟨r4, h4, e4, l4, hh4⟩ := createBuffers_ok hf mr hh3
      have n1 : r ≠ [] := by rintro rfl; simp at l1; omega
      cases co with
      | false =>
        refine ⟨.butcher true st mr false r (some b2) (some b3) none none r4, h4, ?_, rfl, rfl,
          ⟨hst, fun e => absurd e n1⟩, by simpa [SolverObj.owned] using hh4⟩
        simp [SolverObj.adviseBasic, e1, e2, e3, e4, n1, bind, Except.bind]
      | true =>
        obtain ⟨b5, h5, e5, hh5⟩ := createBuffer_ok hf hh4
        obtain ⟨b6, h6, e6, hh6⟩ := createBuffer_ok hf hh5
        refine ⟨.butcher true st mr true r (some b2) (some b3) (some b5) (some b6) r4, h6, ?_, rfl, rfl,
          ⟨hst, fun e => absurd e n1⟩, ?_⟩
        · simp [SolverObj.adviseBasic, e1, e2, e3, e4, e5, e6, n1, bind, Except.bind]
        · refine hh6.perm ?_
          simp only [SolverObj.owned, List.nil_append, Option.toList_some, List.append_assoc]
          refine List.Perm.append_left _ (List.Perm.append_left _ (List.Perm.append_left _ ?_))
          have : (r4 ++ ([b5] ++ [b6])).Perm (([b5] ++ [b6]) ++ r4) := List.perm_append_comm
          simpa using this
    · exact ⟨.butcher true st mr co k t tk yc tc ys, h, by simp [SolverObj.adviseBasic, hk], rfl, rfl, hsh, hh⟩
  | bs e l y x i => exact absurd rfl (hb e l y x i)
  | adams e r m c s f d => exact absurd rfl (ha e r m c s f d)

lemma bs_ok {fails : Nat → Bool} (hf : NoFail fails) (lv : Nat) (y0 : Option Nat)
    (ext : Option (List Nat × List Nat × Option Nat)) (i : Option StetterObj)
    (hsh : (SolverObj.bs true lv y0 ext i).shape) {h : Heap} {base : List Nat}
    (hh : h.Holds (SolverObj.bs true lv y0 ext i).owned base) :
    ∃ o' h', bsAdviseObj fails true lv y0 ext i h = .ok (o', h') ∧ o'.ready = true ∧ o'.attached = true ∧ o'.shape ∧
      h'.Holds o'.owned base := by
  -- after the first part of `advise`
  have key : ∀ (y : Nat) (tb tp : List Nat) (df : Option Nat) (s : StetterObj) (h : Heap), tb.length = lv →
      s.eng = true → s.shape → h.Holds (SolverObj.bs true lv (some y) (some (tb, tp, df)) (some s)).owned base →
      ∃ o' h', (if lv = 0 then .ok (.bs true lv (some y) (some (tb, tp, df)) (some s), h)
        else if tb = [] then .error .oob else do
          let (i, h) ← stetterAdviseObj fails s h
          .ok (.bs true lv (some y) (some (tb, tp, df)) (some i), h) : Res (SolverObj × Heap)) = .ok (o', h') ∧
        o'.ready = true ∧ o'.attached = true ∧ o'.shape ∧ h'.Holds o'.owned base := by
    intro y tb tp df s h hl hs hss hh
    by_cases h0 : lv = 0
    · rw [if_pos h0]
      exact ⟨_, h, rfl, by simp [SolverObj.ready, hs], rfl, ⟨by simp, fun _ => ⟨tb, tp, df, s, rfl, rfl, hl, hs, hss⟩⟩, hh⟩
    · rw [if_neg h0]
      have hn : tb ≠ [] := by rintro rfl; simp at hl; omega
      rw [if_neg hn]
      have hh' : h.Holds s.owned (y :: (tb ++ tp ++ df.toList) ++ base) := by
        have : h.Holds (y :: (tb ++ tp ++ df.toList)) (s.owned ++ base) := by
          rw [← Heap.Holds.assoc]
          simpa [SolverObj.owned, extOwned] using hh
        exact this.swap
      obtain ⟨s', h', e, h1, h2, h3⟩ := stetterAdvise_ok hf s hs hss hh'
      refine ⟨.bs true lv (some y) (some (tb, tp, df)) (some s'), h', by simp only [e, bind, Except.bind], by simp [SolverObj.ready, h1], rfl,
        ⟨by simp, fun _ => ⟨tb, tp, df, s', rfl, rfl, hl, h1, h2⟩⟩, ?_⟩
      have := h3.swap
      rw [← Heap.Holds.assoc] at this
      simpa [SolverObj.owned, extOwned] using this
  unfold bsAdviseObj
  simp only [if_true]
  cases y0 with
  | some y =>
    obtain ⟨tb, tp, df, s, rfl, rfl, hl, hs, hss⟩ := hsh.2 (by simp)
    obtain ⟨o', h', e, rest⟩ := key y tb tp df s h hl hs hss hh
    exact ⟨o', h', by simpa [bind, Except.bind] using e, rest⟩
  | none =>
    obtain ⟨rfl, rfl⟩ := hsh.1 rfl
    have hh0 : h.Holds [] base := hh
    obtain ⟨b1, h1, e1, hh1⟩ := createBuffer_ok hf hh0
    obtain ⟨r2, h2, e2, l2, hh2⟩ := createBuffers_ok hf lv hh1
    obtain ⟨r3, h3, e3, l3, hh3⟩ := createBuffers_ok hf lv hh2
    obtain ⟨b4, h4, e4, hh4⟩ := createBuffer_ok hf hh3
    obtain ⟨o', h', e, rest⟩ := key b1 r2 r3 (some b4) ⟨true, none, none, [], []⟩ h4 l2 rfl
      ⟨by simp, by simp⟩ (by simpa [SolverObj.owned, extOwned, StetterObj.owned] using hh4)
    exact ⟨o', h', by simpa [e1, e2, e3, e4, bind, Except.bind] using e, rest⟩

lemma ready_attached (o : SolverObj) (h : o.ready = true) : o.attached = true := by
  cases o <;> simp_all [SolverObj.ready, SolverObj.attached]

lemma adviseAs_ok {fails : Nat → Bool} (hf : NoFail fails) (o : SolverObj) (att : Bool)
    (ho : (o.attached || att) = true) (hsh : o.shape) {h : Heap} {base : List Nat} (hh : h.Holds o.owned base) :
    ∃ o' h', o.adviseAs fails att h = .ok (o', h') ∧ o'.ready = true ∧ o'.attached = true ∧ o'.shape ∧
      h'.Holds o'.owned base := by
  induction o generalizing h base att with
  | euler e a =>
    exact basic_ok hf (.euler (e || att) a) ho hsh (by simp) (by simp) hh
  | midpoint e a b c => exact basic_ok hf (.midpoint (e || att) a b c) ho hsh (by simp) (by simp) hh
  | stetter s =>
    exact basic_ok hf (.stetter { s with eng := s.eng || att }) ho hsh (by simp) (by simp) hh
  | rk4 e a b => exact basic_ok hf (.rk4 (e || att) a b) ho hsh (by simp) (by simp) hh
  | trapeze e a b => exact basic_ok hf (.trapeze (e || att) a b) ho hsh (by simp) (by simp) hh
  | butcher e s m c k t tk yc tc ys =>
    exact basic_ok hf (.butcher (e || att) s m c k t tk yc tc ys) ho hsh (by simp) (by simp) hh
  | bs e l y x i =>
    simp only [SolverObj.attached] at ho
    simp only [SolverObj.adviseAs, ho]
    exact bs_ok hf l y x i hsh hh
  | adams e r m c s f cd ih =>
    simp only [SolverObj.attached] at ho
    obtain ⟨hr1, hr5, hss, hf0, hfn⟩ := hsh
    have n0 : ¬ r = 0 := by omega
    have n5 : ¬ 5 < r := by omega
    simp only [SolverObj.adviseAs, ho, if_true, if_neg n0, if_neg n5]
    by_cases hfe : f = []
    · subst hfe
      obtain ⟨rfl, rfl⟩ := hf0 rfl
      have hh0 : h.Holds s.owned base := by simpa [SolverObj.owned] using hh
      obtain ⟨r1, h1, e1, l1, hh1⟩ := createBuffers_ok hf r hh0
      have nr : r1 ≠ [] := by rintro rfl; simp at l1; omega
      cases c with
      | false =>
        have hh2 : h1.Holds s.owned (r1 ++ base) := Heap.Holds.assoc.1 hh1
        obtain ⟨s', h', e', hr', ha', hs', hh'⟩ := ih true (by simp) hss hh2
        refine ⟨.adams true r 1 false s' r1 none, h', ?_, by simp [SolverObj.ready, hr'], rfl,
          ⟨hr1, hr5, hs', fun e => absurd e nr, fun _ => hr'⟩, ?_⟩
        · simp [e1, e', nr, bind, Except.bind]
        · rw [← Heap.Holds.assoc] at hh'
          simpa [SolverObj.owned] using hh'
      | true =>
        obtain ⟨b, h2, e2, hh2⟩ := createBuffer_ok hf hh1
        have hh3 : h2.Holds s.owned (r1 ++ [b] ++ base) := by
          rw [← Heap.Holds.assoc, ← List.append_assoc]; exact hh2
        obtain ⟨s', h', e', hr', ha', hs', hh'⟩ := ih true (by simp) hss hh3
        refine ⟨.adams true r 1 true s' r1 (some b), h', ?_, by simp [SolverObj.ready, hr'], rfl,
          ⟨hr1, hr5, hs', fun e => absurd e nr, fun _ => hr'⟩, ?_⟩
        · simp [e1, e2, e', nr, bind, Except.bind]
        · rw [← Heap.Holds.assoc] at hh'
          simpa [SolverObj.owned] using hh'
    · have hsr := hfn hfe
      by_cases hm : r < m
      · refine ⟨.adams true r (m + 1) c s f cd, h, ?_, by simp [SolverObj.ready, hsr], rfl,
          ⟨hr1, hr5, hss, fun e => absurd e hfe, fun _ => hsr⟩, hh⟩
        simp [hfe, hm, bind, Except.bind]
      · have hh1 : h.Holds s.owned (f ++ cd.toList ++ base) := by
          rw [← Heap.Holds.assoc]; exact hh
        obtain ⟨s', h', e', hr', ha', hs', hh'⟩ := ih false (by simp [ready_attached s hsr]) hss hh1
        refine ⟨.adams true r (m + 1) c s' f cd, h', ?_, by simp [SolverObj.ready, hr'], rfl,
          ⟨hr1, hr5, hs', fun e => absurd e hfe, fun _ => hr'⟩, ?_⟩
        · simp [hfe, hm, e', bind, Except.bind]
        · rw [← Heap.Holds.assoc] at hh'
          exact hh'

lemma newObj_owned {D : Type} (d : SolverDesc D) : d.newObj.owned = [] := by
  induction d <;> simp_all [SolverDesc.newObj, SolverObj.owned, StetterObj.owned, extOwned]

lemma setEngine_owned (o : SolverObj) : o.setEngine.owned = o.owned := by
  cases o <;> rfl

lemma setEngine_attached (o : SolverObj) : o.setEngine.attached = true := by
  cases o <;> rfl

end NB
