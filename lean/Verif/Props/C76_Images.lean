import Verif.Lemmas.Compressor
import Mathlib.Data.List.Nodup

/-
C76: the image files of a recording.
-/

namespace NB.C76

/-! ### Names -/

/-- One or two digits that stand for 0 or 1 to `QString::arg`, and what follows them. -/
def LowNum (x post : List Char) : Prop :=
  x = ['0', '0'] ∨ x = ['0', '1'] ∨ ((x = ['0'] ∨ x = ['1']) ∧ ∀ c, post.head? = some c → c.isDigit = false)

/-- The text has one of the place markers `%0`, `%1`, `%00`, `%01`, perhaps with an `L`. -/
def LowMark (d : List Char) : Prop :=
  ∃ pre l x post, d = pre ++ '%' :: (l ++ x ++ post) ∧ (l = [] ∨ l = ['L']) ∧ LowNum x post

lemma digitOf_some {c : Char} {x : ℕ} (h : digitOf c = some x) : c.isDigit = true ∧ c.toNat = 48 + x := by
  unfold digitOf at h
  by_cases hc : c.isDigit = true
  · rw [if_pos hc] at h
    have e : '0'.toNat = 48 := rfl
    rw [e] at h
    have := digit_range hc
    exact ⟨hc, by have := Option.some.inj h; omega⟩
  · rw [if_neg hc] at h; cases h

lemma digitOf_none {c : Char} (h : digitOf c = none) : c.isDigit = false := by
  unfold digitOf at h
  by_cases hc : c.isDigit = true
  · rw [if_pos hc] at h; cases h
  · simpa using hc

lemma char_eq {a b : Char} (h : a.toNat = b.toNat) : a = b := Char.ext (UInt32.toNat_inj.1 h)

lemma takeNum_low {t : List Char} {q : ℕ × List Char × List Char} (h : takeNum t = some q) (hq : q.1 ≤ 1) :
    LowNum q.2.1 q.2.2 := by
  cases t with
  | nil => cases h
  | cons a t =>
    simp only [takeNum] at h
    cases ha : digitOf a with
    | none => rw [ha] at h; cases h
    | some x =>
      rw [ha] at h
      have h1 := digitOf_some ha
      have one : x ≤ 1 → [a] = ['0'] ∨ [a] = ['1'] := by
        intro hx
        have : x = 0 ∨ x = 1 := by omega
        rcases this with rfl | rfl
        · exact Or.inl (by rw [char_eq (show a.toNat = '0'.toNat from h1.2)])
        · exact Or.inr (by rw [char_eq (show a.toNat = '1'.toNat from h1.2)])
      cases t with
      | nil =>
        cases h
        exact Or.inr (Or.inr ⟨one hq, by simp⟩)
      | cons b t =>
        simp only at h
        cases hb : digitOf b with
        | none =>
          rw [hb] at h
          cases h
          exact Or.inr (Or.inr ⟨one hq, fun c hc => by
            simp only [List.head?_cons, Option.some.injEq] at hc
            subst hc
            exact digitOf_none hb⟩)
        | some y =>
          rw [hb] at h
          cases h
          have h2 := digitOf_some hb
          simp only at hq
          have hx : x = 0 := by omega
          have ha' : a = '0' := char_eq (by rw [h1.2, hx]; rfl)
          have : y = 0 ∨ y = 1 := by omega
          rcases this with rfl | rfl
          · exact Or.inl (by rw [ha', char_eq (show b.toNat = '0'.toNat from h2.2)])
          · exact Or.inr (Or.inl (by rw [ha', char_eq (show b.toNat = '1'.toNat from h2.2)]))

lemma low_takeNum {x post : List Char} (h : LowNum x post) :
    ∃ k, k ≤ 1 ∧ takeNum (x ++ post) = some (k, x, post) := by
  have e0 : digitOf '0' = some 0 := by decide
  have e1 : digitOf '1' = some 1 := by decide
  rcases h with rfl | rfl | ⟨h, hp⟩
  · exact ⟨0, by omega, by simp [takeNum, e0]⟩
  · exact ⟨1, by omega, by simp [takeNum, e0, e1]⟩
  · have key : ∀ (c : Char) (k : ℕ), digitOf c = some k → takeNum ([c] ++ post) = some (k, [c], post) := by
      intro c k hc
      cases post with
      | nil => simp [takeNum, hc]
      | cons b post =>
        have : digitOf b = none := by
          unfold digitOf
          rw [if_neg (by rw [hp b (by simp)]; simp)]
        simp [takeNum, hc, this]
    rcases h with rfl | rfl
    · exact ⟨0, by omega, key _ _ e0⟩
    · exact ⟨1, by omega, key _ _ e1⟩

lemma low_head {x post : List Char} (h : LowNum x post) : (x ++ post).head? ≠ some 'L' := by
  rcases h with rfl | rfl | ⟨rfl | rfl, _⟩ <;> simp

/-- The markers of the model are those of the specification. -/
lemma low_iff (d : List Char) : LowMark d ↔ ∃ k m, Seg.mark k m ∈ segs d ∧ k ≤ 1 := by
  induction hn : d.length using Nat.strong_induction_on generalizing d with
  | _ n ih =>
    cases d with
    | nil =>
      constructor
      · rintro ⟨pre, l, x, post, h, _⟩
        simp at h
      · rintro ⟨k, m, h, _⟩
        simp [segs_nil] at h
    | cons c t =>
      rw [segs_cons]
      constructor
      · rintro ⟨pre, l, x, post, h, hl, hx⟩
        cases pre with
        | nil =>
          simp only [List.nil_append, List.cons.injEq] at h
          obtain ⟨rfl, rfl⟩ := h
          obtain ⟨k, hk, hnum⟩ := low_takeNum hx
          have hm : ∃ m r, markAt ('%' :: (l ++ x ++ post)) = some (k, m, r) := by
            simp only [markAt, if_true]
            rcases hl with rfl | rfl
            · rw [List.nil_append, if_neg (low_head hx), hnum]
              exact ⟨_, _, rfl⟩
            · rw [if_pos (by simp)]
              simp only [List.cons_append, List.nil_append, List.tail_cons]
              rw [hnum]
              exact ⟨_, _, rfl⟩
          obtain ⟨m, r, hm⟩ := hm
          rw [hm]
          exact ⟨k, m, by simp, hk⟩
        | cons c' pre =>
          simp only [List.cons_append, List.cons.injEq] at h
          obtain ⟨rfl, h⟩ := h
          cases hq : markAt (c :: t) with
          | none =>
            obtain ⟨k, m, h1, h2⟩ := (ih t.length (by rw [← hn]; simp) t rfl).1 ⟨pre, l, x, post, h, hl, hx⟩
            exact ⟨k, m, by simp [h1], h2⟩
          | some q =>
            obtain ⟨q1, q2, q3⟩ := markAt_split hq
            -- the marker has no further percent sign
            obtain ⟨m', hm', hno⟩ : ∃ m', q.2.1 = c :: m' ∧ '%' ∉ m' := by
              have hdig : ∀ {t : List Char} {p : ℕ × List Char × List Char}, takeNum t = some p → '%' ∉ p.2.1 := by
                intro t p hp
                cases t with
                | nil => cases hp
                | cons a t =>
                  simp only [takeNum] at hp
                  cases ha : digitOf a with
                  | none => rw [ha] at hp; cases hp
                  | some v =>
                    rw [ha] at hp
                    have h1 : '%' ≠ a := fun e => by
                      have := (digitOf_some ha).1
                      rw [← e] at this
                      exact absurd this (by decide)
                    cases t with
                    | nil => cases hp; simpa using h1
                    | cons b t =>
                      simp only at hp
                      cases hb : digitOf b with
                      | none => rw [hb] at hp; cases hp; simpa using h1
                      | some w =>
                        rw [hb] at hp
                        have h2 : '%' ≠ b := fun e => by
                          have := (digitOf_some hb).1
                          rw [← e] at this
                          exact absurd this (by decide)
                        cases hp
                        simp [h1, h2]
              simp only [markAt] at hq
              by_cases hc : c = '%'
              · rw [if_pos hc] at hq
                split at hq
                · obtain ⟨p, hp, rfl⟩ := Option.map_eq_some_iff.1 hq
                  exact ⟨_, by rw [hc], by simpa using hdig hp⟩
                · obtain ⟨p, hp, rfl⟩ := Option.map_eq_some_iff.1 hq
                  exact ⟨_, by rw [hc], by simpa using hdig hp⟩
              · rw [if_neg hc] at hq; cases hq
            rw [hm', List.cons_append, List.cons.injEq] at q1
            obtain ⟨pre', hpre⟩ : ∃ pre', q.2.2 = pre' ++ '%' :: (l ++ x ++ post) := by
              have e := q1.2.symm.trans h
              rcases List.append_eq_append_iff.1 e with ⟨as, h1, h2⟩ | ⟨bs, h1, h2⟩
              · exact ⟨as, h2⟩
              · cases bs with
                | nil => exact ⟨[], by simpa using h2.symm⟩
                | cons y bs =>
                  exfalso
                  simp only [List.cons_append, List.cons.injEq] at h2
                  exact hno (by rw [h1, ← h2.1]; simp)
            have hlen := congrArg List.length q1.2
            rw [List.length_append] at hlen
            obtain ⟨k, m, h1, h2⟩ := (ih q.2.2.length (by rw [← hn]; simp; omega) q.2.2 rfl).1
              ⟨pre', l, x, post, hpre, hl, hx⟩
            exact ⟨k, m, by simp [h1], h2⟩
      · rintro ⟨k, m, h, hk⟩
        cases hq : markAt (c :: t) with
        | none =>
          rw [hq] at h
          simp only [List.mem_cons, reduceCtorEq, false_or] at h
          obtain ⟨pre, l, x, post, h1, h2⟩ := (ih t.length (by rw [← hn]; simp) t rfl).2 ⟨k, m, h, hk⟩
          exact ⟨c :: pre, l, x, post, by rw [h1]; rfl, h2⟩
        | some q =>
          obtain ⟨q1, q2, q3⟩ := markAt_split hq
          rw [hq] at h
          simp only [List.mem_cons, Seg.mark.injEq] at h
          rcases h with ⟨rfl, rfl⟩ | h
          · simp only [markAt] at hq
            by_cases hc : c = '%'
            · rw [if_pos hc] at hq
              split at hq
              · rename_i hl
                obtain ⟨p, hp, rfl⟩ := Option.map_eq_some_iff.1 hq
                obtain ⟨p1, _, _⟩ := takeNum_split hp
                cases t with
                | nil => simp at hl
                | cons l t =>
                  simp only [List.head?_cons, Option.some.injEq] at hl
                  simp only [List.tail_cons] at p1
                  exact ⟨[], ['L'], p.2.1, p.2.2, by rw [hc, hl, p1]; rfl, Or.inr rfl, takeNum_low hp hk⟩
              · obtain ⟨p, hp, rfl⟩ := Option.map_eq_some_iff.1 hq
                obtain ⟨p1, _, _⟩ := takeNum_split hp
                exact ⟨[], [], p.2.1, p.2.2, by rw [hc]; simpa using p1, Or.inl rfl, takeNum_low hp hk⟩
            · rw [if_neg hc] at hq; cases hq
          · have hlen := congrArg List.length q1
            rw [List.length_append] at hlen
            obtain ⟨pre, l, x, post, h1, h2⟩ := (ih q.2.2.length (by omega) q.2.2 rfl).2 ⟨k, m, h, hk⟩
            exact ⟨q.2.1 ++ pre, l, x, post, by rw [q1, h1]; simp, h2⟩

/-- The pieces of what is appended to the destination. -/
lemma suffix_segs : segs ['/', '%', '1', '.', 'p', 'n', 'g'] =
    [.lit '/', .mark 1 ['%', '1'], .lit '.', .lit 'p', .lit 'n', .lit 'g'] := by rfl

lemma name_eq (d : FName) (n : ℕ) : frameName d n =
    (segs d).flatMap (Seg.render (leastMark (segs d ++ segs ['/', '%', '1', '.', 'p', 'n', 'g'])) (pad8 n)) ++
    (segs ['/', '%', '1', '.', 'p', 'n', 'g']).flatMap
      (Seg.render (leastMark (segs d ++ segs ['/', '%', '1', '.', 'p', 'n', 'g'])) (pad8 n)) := by
  unfold frameName qArg
  rw [segs_append, List.flatMap_append]

/-- Images of a destination without such place markers lie in the destination; their names are the frame numbers
with at least eight digits. -/
theorem names_in_destination (d : FName) (hd : ¬ LowMark d) (n : ℕ) :
    ∃ z, frameName d n = d ++ '/' :: (List.replicate z '0' ++ Nat.toDigits 10 n) ++ ['.', 'p', 'n', 'g'] ∧
      8 ≤ z + (Nat.toDigits 10 n).length ∧ (0 < z → z + (Nat.toDigits 10 n).length = 8) := by
  refine ⟨8 - (Nat.toDigits 10 n).length, ?_, by omega, by omega⟩
  have hleast : leastMark (segs d ++ segs ['/', '%', '1', '.', 'p', 'n', 'g']) = some 1 := by
    rw [leastMark_append, suffix_segs]
    cases h : leastMark (segs d) with
    | none => rfl
    | some k =>
      obtain ⟨⟨m, hm⟩, _⟩ := leastMark_some h
      have : ¬ k ≤ 1 := fun hk => hd ((low_iff d).2 ⟨k, m, hm, hk⟩)
      simp only [leastMark, Option.some.injEq]
      omega
  rw [name_eq, hleast, render_other, segs_text, suffix_segs]
  · simp [Seg.render, pad8]
  · intro j m hm he
    cases he
    exact hd ((low_iff d).2 ⟨1, m, hm, le_rfl⟩)

/-- With such a marker no image lies in the destination (which is the directory that `set_destination` creates). -/
theorem names_elsewhere (d : FName) (hd : LowMark d) (n : ℕ) (f : FName) (hf : '/' ∉ f) :
    frameName d n ≠ d ++ '/' :: f := by
  obtain ⟨k0, m0, hm0, hk0⟩ := (low_iff d).1 hd
  obtain ⟨k, hk⟩ : ∃ k, leastMark (segs d) = some k := by
    cases h : leastMark (segs d) with
    | none => exact absurd hm0 (leastMark_none h k0 m0)
    | some k => exact ⟨k, rfl⟩
  obtain ⟨hmem, hmin⟩ := leastMark_some hk
  have hk1 : k ≤ 1 := (hmin _ _ hm0).trans hk0
  have hleast : leastMark (segs d ++ segs ['/', '%', '1', '.', 'p', 'n', 'g']) = some k := by
    rw [leastMark_append, suffix_segs, hk]
    simp only [leastMark, Option.some.injEq]
    omega
  obtain ⟨f', hf', he⟩ : ∃ f', '/' ∉ f' ∧ (segs ['/', '%', '1', '.', 'p', 'n', 'g']).flatMap
      (Seg.render (some k) (pad8 n)) = '/' :: f' := by
    rw [suffix_segs]
    by_cases h1 : k = 1
    · refine ⟨pad8 n ++ ['.', 'p', 'n', 'g'], ?_, by simp [Seg.render, h1]⟩
      simp only [List.mem_append, not_or]
      exact ⟨fun hh => absurd (pad8_digit n _ hh) (by decide), by decide⟩
    · exact ⟨['%', '1', '.', 'p', 'n', 'g'], by decide, by simp [Seg.render, h1]⟩
  intro h
  rw [name_eq, hleast, he] at h
  have hlast : ∀ (a b : List Char) (x y : List Char), '/' ∉ x → '/' ∉ y → a ++ '/' :: x = b ++ '/' :: y → a = b := by
    intro a b x y hx hy e
    rcases List.append_eq_append_iff.1 e with ⟨as, h1, h2⟩ | ⟨bs, h1, h2⟩
    · cases as with
      | nil => simpa using h1.symm
      | cons c as =>
        simp only [List.cons_append, List.cons.injEq] at h2
        exact absurd (by rw [h2.2]; simp) hx
    · cases bs with
      | nil => simpa using h1
      | cons c bs =>
        simp only [List.cons_append, List.cons.injEq] at h2
        exact absurd (by rw [h2.2]; simp) hy
  have := hlast _ _ _ _ hf' hf h
  have hlong := (render_longer (k := k) (s := segs d) (v := pad8 n) (fun j m hh => segs_mark_length hh)
    (by have := pad8_length n; omega)).2 hmem
  rw [this, segs_text] at hlong
  exact lt_irrefl _ hlong

/-- Different frames have different names, whatever the destination. -/
theorem names_distinct (d : FName) (m n : ℕ) (h : frameName d m = frameName d n) : m = n := by
  have hex : ∃ k, leastMark (segs (d ++ ['/', '%', '1', '.', 'p', 'n', 'g'])) = some k := by
    rw [segs_append, leastMark_append, suffix_segs]
    cases leastMark (segs d) with
    | none => exact ⟨_, rfl⟩
    | some k => exact ⟨_, rfl⟩
  obtain ⟨k, hk⟩ := hex
  unfold frameName qArg at h
  rw [hk] at h
  have := render_inj (leastMark_some hk).1 h
  rw [← pad8_val m, ← pad8_val n, this]

/-- The first hundred million images are in order when sorted by name. -/
theorem names_ordered_partial (d : FName) (hd : ¬ LowMark d) (m n : ℕ) (hmn : m < n) (hn : n < 10 ^ 8) :
    frameName d m < frameName d n := by
  have hname : ∀ k, frameName d k = (d ++ ['/']) ++ (pad8 k ++ ['.', 'p', 'n', 'g']) := by
    intro k
    obtain ⟨z, h1, h2, h3⟩ := names_in_destination d hd k
    have hz : z = 8 - (Nat.toDigits 10 k).length := by omega
    rw [h1, hz]
    simp [pad8]
  rw [hname, hname]
  have hlt : pad8 m < pad8 n := lex_of_val (by rw [pad8_length_eq (hmn.trans hn), pad8_length_eq hn])
    (pad8_digit m) (pad8_digit n) (by rw [pad8_val, pad8_val]; exact hmn)
  have hl : (pad8 m).length = (pad8 n).length := by rw [pad8_length_eq (hmn.trans hn), pad8_length_eq hn]
  generalize pad8 m = a at hlt hl
  generalize pad8 n = b at hlt hl
  have h1 : a ++ ['.', 'p', 'n', 'g'] < b ++ ['.', 'p', 'n', 'g'] := by
    clear hname hmn hn hd
    induction a generalizing b with
    | nil =>
      rw [List.length_nil] at hl
      rw [List.length_eq_zero_iff.1 hl.symm] at hlt
      exact absurd hlt (List.lt_irrefl _)
    | cons x a ih =>
      cases b with
      | nil => simp at hl
      | cons y b =>
        cases hlt with
        | rel h => exact List.Lex.rel h
        | cons h => exact List.Lex.cons (ih b h (by simpa using hl))
  generalize d ++ ['/'] = p
  induction p with
  | nil => exact h1
  | cons x p ih => exact List.Lex.cons ih

/-- Then the order is lost. -/
theorem names_unordered : frameName ['d'] (10 ^ 8) < frameName ['d'] (10 ^ 8 - 1) := by decide +kernel

/-! ### The queue -/

section
variable {J : Type}

/-- Images that are waiting to be saved. -/
def waiting (q : List (J × Bool)) : List J := (q.filter fun p => !p.2).map Prod.fst

/-- Steps that are left. -/
def left (c : Comp J) : ℕ := 3 * c.rest.length + (c.queue.map fun p => if p.2 then 1 else 2).sum

lemma steps_inv (max : ℕ) (jobs : List J) {k : ℕ} {c : Comp J} (h : Comp.Steps max k ⟨jobs, [], []⟩ c) :
    (c.saved ++ waiting c.queue ++ c.rest).Perm jobs ∧ c.queue.length ≤ max + 1 ∧ k + left c = 3 * jobs.length := by
  generalize ha : (⟨jobs, [], []⟩ : Comp J) = a at h
  induction h with
  | none c => subst ha; exact ⟨by simp [waiting], by simp, by simp [left]⟩
  | more h s ih =>
    obtain ⟨h1, h2, h3⟩ := ih ha
    clear ih
    cases s with
    | finish rest a j b saved =>
      refine ⟨?_, by simpa using h2, ?_⟩
      · refine List.Perm.trans ?_ h1
        simp only [waiting, List.filter_append, List.filter_cons, Bool.not_true, Bool.not_false, if_true,
          Bool.false_eq_true, if_false, List.map_append, List.map_cons, List.append_assoc]
        refine List.Perm.append_left saved ?_
        rw [List.singleton_append, List.cons_append]
        exact (List.perm_middle (a := j)).symm
      · simp only [left, List.map_append, List.map_cons, List.sum_append, List.sum_cons] at h3 ⊢
        simp only [if_true, Bool.false_eq_true, if_false] at h3 ⊢
        omega
    | push j rest queue saved hq =>
      refine ⟨?_, by simp; omega, ?_⟩
      · refine List.Perm.trans ?_ h1
        simp [waiting, List.filter_append, List.append_assoc]
      · simp only [left, List.map_append, List.map_cons, List.sum_append, List.sum_cons, List.length_cons,
          List.map_nil, List.sum_nil] at h3 ⊢
        simp only [Bool.false_eq_true, if_false] at h3 ⊢
        omega
    | erase rest a j b saved hq =>
      refine ⟨?_, ?_, ?_⟩
      · refine List.Perm.trans ?_ h1
        simp [waiting, List.filter_append]
      · simp only [List.length_append, List.length_cons] at h2 ⊢; omega
      · simp only [left, List.map_append, List.map_cons, List.sum_append, List.sum_cons] at h3 ⊢
        simp only [if_true] at h3 ⊢
        omega

/-- However the thread pool proceeds, at most one job more than allowed is in the queue, the number of steps is
bounded, and when nothing more happens every image was saved exactly once. -/
theorem all_saved_once (max : ℕ) (jobs : List J) (k : ℕ) (c : Comp J) (h : Comp.Steps max k ⟨jobs, [], []⟩ c) :
    c.queue.length ≤ max + 1 ∧ k ≤ 3 * jobs.length ∧
      ((∀ c', ¬ Comp.Step max c c') → c.rest = [] ∧ c.queue = [] ∧ c.saved.Perm jobs) := by
  obtain ⟨h1, h2, h3⟩ := steps_inv max jobs h
  refine ⟨h2, by omega, fun hstuck => ?_⟩
  obtain ⟨rest, queue, saved⟩ := c
  have hall : ∀ p ∈ queue, p.2 = true := by
    intro p hp
    by_contra hh
    obtain ⟨a, b, rfl⟩ := List.append_of_mem hp
    obtain ⟨j, f⟩ := p
    have : f = false := by simpa using hh
    subst this
    exact hstuck _ (.finish rest a j b saved)
  have hrest : rest = [] := by
    cases rest with
    | nil => rfl
    | cons j rest =>
      exfalso
      by_cases hq : queue.length ≤ max
      · exact hstuck _ (.push j rest queue saved hq)
      · cases queue with
        | nil => simp at hq
        | cons p q =>
          obtain ⟨i, f⟩ := p
          have : f = true := hall _ (List.mem_cons_self)
          subst this
          exact hstuck _ (.erase (j :: rest) [] i q saved (Or.inl (by simpa using hq)))
  subst hrest
  have hq : queue = [] := by
    cases queue with
    | nil => rfl
    | cons p q =>
      exfalso
      obtain ⟨i, f⟩ := p
      have : f = true := hall _ (List.mem_cons_self)
      subst this
      exact hstuck _ (.erase [] [] i q saved (Or.inr rfl))
  subst hq
  exact ⟨rfl, rfl, by simpa [waiting] using h1⟩

end

lemma saveAll_spec {I : Type} : ∀ (l : List (FName × I)) (disk : FName → Option I), (l.map Prod.fst).Nodup →
    (∀ f i, (f, i) ∈ l → saveAll disk l f = some i) ∧ ∀ f, f ∉ l.map Prod.fst → saveAll disk l f = disk f := by
  intro l
  induction l with
  | nil => intro disk _; exact ⟨by simp, fun _ _ => rfl⟩
  | cons p l ih =>
    intro disk hn
    obtain ⟨g, j⟩ := p
    simp only [List.map_cons, List.nodup_cons] at hn
    obtain ⟨h1, h2⟩ := ih (fun x => if x = g then some j else disk x) hn.2
    refine ⟨fun f i hf => ?_, fun f hf => ?_⟩
    · rcases List.mem_cons.1 hf with he | he
      · cases he
        rw [saveAll, h2 _ hn.1, if_pos rfl]
      · rw [saveAll]; exact h1 f i he
    · simp only [List.map_cons, List.mem_cons, not_or] at hf
      rw [saveAll, h2 _ hf.2, if_neg hf.1]

/-- After a recording of distinct frames, in whatever order the thread pool worked: under the name of each frame
there is its image, and no other file has changed. -/
theorem images_on_disk {I : Type} (d : FName) (max : ℕ) (out : List (ℕ × I)) (hout : (out.map Prod.fst).Nodup)
    (disk : FName → Option I) (k : ℕ) (c : Comp (FName × I))
    (h : Comp.Steps max k ⟨out.map fun p => (frameName d p.1, p.2), [], []⟩ c)
    (hend : ∀ c', ¬ Comp.Step max c c') :
    (∀ n i, (n, i) ∈ out → saveAll disk c.saved (frameName d n) = some i) ∧
    ∀ f, (∀ n ∈ out.map Prod.fst, f ≠ frameName d n) → saveAll disk c.saved f = disk f := by
  obtain ⟨_, _, hp⟩ := (all_saved_once max _ k c h).2.2 hend
  have hnames : ((out.map fun p => (frameName d p.1, p.2)).map Prod.fst) = (out.map Prod.fst).map (frameName d) := by
    simp [List.map_map, Function.comp_def]
  have hnd : (c.saved.map Prod.fst).Nodup := by
    rw [(hp.map Prod.fst).nodup_iff, hnames]
    exact hout.map fun a b hab => names_distinct d a b hab
  obtain ⟨h1, h2⟩ := saveAll_spec c.saved disk hnd
  refine ⟨fun n i hi => h1 _ _ ?_, fun f hf => h2 f ?_⟩
  · rw [hp.mem_iff]
    exact List.mem_map.2 ⟨(n, i), hi, rfl⟩
  · rw [(hp.map Prod.fst).mem_iff, hnames]
    intro hh
    obtain ⟨n, hn, rfl⟩ := List.mem_map.1 hh
    exact hf n hn rfl

/-! ### Concrete cases -/

/-- The name of an image. -/
example : frameName ['o', 'u', 't'] 42 = "out/00000042.png".toList := by decide +kernel

/-- A destination without markers that matter, although it has a percent sign and the marker 12. -/
example : frameName "50%/run%12".toList 7 = "50%/run%12/00000007.png".toList := by decide +kernel

example : ¬ LowMark ['o', 'u', 't'] := fun h => by
  obtain ⟨k, m, h1, _⟩ := (low_iff _).1 h
  have : segs ['o', 'u', 't'] = [.lit 'o', .lit 'u', .lit 't'] := by rfl
  rw [this] at h1
  simp at h1

/-- A destination with a marker: the images go elsewhere. -/
example : LowMark "run%1".toList ∧ frameName "run%1".toList 7 = "run00000007/00000007.png".toList :=
  ⟨⟨['r', 'u', 'n'], [], ['1'], [], rfl, Or.inl rfl, Or.inr (Or.inr ⟨Or.inr rfl, by simp⟩)⟩, by decide +kernel⟩

/-- Two images are pushed while one thread works, the second is saved first. -/
example : ∃ c : Comp ℕ, Comp.Steps 1 6 ⟨[10, 20], [], []⟩ c ∧ c.saved = [20, 10] ∧ ∀ c', ¬ Comp.Step 1 c c' := by
  refine ⟨⟨[], [], [20, 10]⟩, ?_, rfl, ?_⟩
  · have s1 : Comp.Step 1 ⟨[10, 20], [], []⟩ ⟨[20], [(10, false)], []⟩ := .push 10 [20] [] [] (by decide)
    have s2 : Comp.Step 1 ⟨[20], [(10, false)], []⟩ ⟨[], [(10, false), (20, false)], []⟩ :=
      .push 20 [] [(10, false)] [] (by decide)
    have s3 : Comp.Step 1 ⟨[], [(10, false), (20, false)], []⟩ ⟨[], [(10, false), (20, true)], [20]⟩ :=
      .finish [] [(10, false)] 20 [] []
    have s4 : Comp.Step 1 ⟨[], [(10, false), (20, true)], [20]⟩ ⟨[], [(10, true), (20, true)], [20, 10]⟩ :=
      .finish [] [] 10 [(20, true)] [20]
    have s5 : Comp.Step 1 ⟨[], [(10, true), (20, true)], [20, 10]⟩ ⟨[], [(20, true)], [20, 10]⟩ :=
      .erase [] [] 10 [(20, true)] [20, 10] (Or.inr rfl)
    have s6 : Comp.Step 1 ⟨[], [(20, true)], [20, 10]⟩ ⟨[], [], [20, 10]⟩ := .erase [] [] 20 [] [20, 10] (Or.inr rfl)
    exact .more (.more (.more (.more (.more (.more (.none _) s1) s2) s3) s4) s5) s6
  · intro c' h
    generalize hc : (⟨[], [], [20, 10]⟩ : Comp ℕ) = c at h
    cases h <;> simp at hc

end NB.C76
