import Verif.Lemmas.DataIO
import Verif.Lemmas.Prog
import Verif.Model.RealScalar
import Mathlib.Data.List.Forall2
import Mathlib.Tactic.Linarith

/-
C54.  `is_equal` compares exactly count, masses, radii, positions and velocities, each up to `eps`.
-/

namespace NB.C54

open TextSpec

section
variable {S C : Type} [Sub S] [FOps S]

/-- The arrays of the object have as many entries as its count says. -/
structure Whole {S C : Type} (d : DataObj S C) : Prop where
  vrt : d.vrt.length = d.count
  vel : d.vel.length = d.count
  mass : d.mass.length = d.count
  radius : d.radius.length = d.count

/-- Two numbers the comparison does not tell apart. -/
def Near (eps a b : S) : Prop := FOps.lt eps (FOps.abs (a - b)) = false

/-- Two vectors the comparison does not tell apart. -/
def NearVec (eps : S) (a b : Vec3 S) : Prop := Near eps a.x b.x ∧ Near eps a.y b.y ∧ Near eps a.z b.z

/-- Two bodies the comparison does not tell apart. -/
def NearBody (eps : S) (a b : BodyLine S) : Prop :=
  Near eps a.mass b.mass ∧ Near eps a.radius b.radius ∧ NearVec eps a.pos b.pos ∧ NearVec eps a.vel b.vel

lemma sameBody_eq {d o : DataObj S C} {bs cs : List (BodyLine S)} (hd : Holds d bs) (ho : Holds o cs) (eps : S)
    {n : ℕ} {b c : BodyLine S} (hb : bs[n]? = some b) (hc : cs[n]? = some c) :
    ∃ r, sameBody d o eps n = .ok r ∧ (r = true ↔ NearBody eps b c) := by
  refine ⟨!(isFar eps b.mass c.mass || isFar eps b.radius c.radius || isFar eps b.pos.x c.pos.x ||
    isFar eps b.pos.y c.pos.y || isFar eps b.pos.z c.pos.z || isFar eps b.vel.x c.vel.x ||
    isFar eps b.vel.y c.vel.y || isFar eps b.vel.z c.vel.z), ?_, ?_⟩
  · unfold sameBody rd
    rw [hd.mass, ho.mass, hd.radius, ho.radius, hd.vrt, ho.vrt, hd.vel, ho.vel]
    simp only [List.getElem?_map, hb, hc, Option.map_some]
    rfl
  · simp only [NearBody, NearVec, Near, isFar, Bool.not_eq_true', Bool.or_eq_false_iff, and_assoc]

lemma isEqual_bodies {d o : DataObj S C} {bs cs : List (BodyLine S)} (hd : Holds d bs) (ho : Holds o cs) (eps : S) :
    ∃ b, d.isEqual o eps = .ok b ∧ (b = true ↔ List.Forall₂ (NearBody eps) bs cs) := by
  unfold DataObj.isEqual
  by_cases hc : d.count = o.count
  swap
  · rw [if_pos hc]
    refine ⟨false, rfl, ?_⟩
    constructor
    · intro h; cases h
    · intro h
      exact absurd (by rw [hd.count, ho.count, h.length_eq]) hc
  rw [if_neg (by simpa using hc)]
  have hlen : bs.length = cs.length := by rw [← hd.count, ← ho.count, hc]
  rw [hd.count]
  -- after `n` bodies the answer is whether the first `n` bodies agree
  have key : ∀ n, n ≤ bs.length → ∃ b, forN (m := Res) n true (fun n eq =>
      if eq = false then pure false else sameBody d o eps n) = .ok b ∧
      (b = true ↔ List.Forall₂ (NearBody eps) (bs.take n) (cs.take n)) := by
    intro n
    induction n with
    | zero => intro _; exact ⟨true, rfl, by simp⟩
    | succ n ih =>
      intro hn
      obtain ⟨b, h1, h2⟩ := ih (by omega)
      rw [forN_succ, h1]
      have eb : bs[n]? = some (bs[n]'(by omega)) := List.getElem?_eq_getElem (by omega)
      have ec : cs[n]? = some (cs[n]'(by omega)) := List.getElem?_eq_getElem (by omega)
      have hfa : List.Forall₂ (NearBody eps) (bs.take (n + 1)) (cs.take (n + 1)) ↔
          List.Forall₂ (NearBody eps) (bs.take n) (cs.take n) ∧ NearBody eps (bs[n]'(by omega)) (cs[n]'(by omega)) := by
        rw [List.take_add_one, List.take_add_one, eb, ec]
        simp only [Option.toList_some]
        constructor
        · intro h
          have hl : (bs.take n).length = (cs.take n).length := by simp; omega
          have g := List.forall₂_iff_get.1 h
          constructor
          · rw [List.forall₂_iff_get]
            refine ⟨hl, fun i hi hi' => ?_⟩
            have := g.2 i (by simp at hi ⊢; omega) (by simp at hi' ⊢; omega)
            simpa [List.getElem_append, hi, hi'] using this
          · have := g.2 n (by simp; omega) (by simp; omega)
            have q1 : (bs.take n).length = n := by simp; omega
            have q2 : (cs.take n).length = n := by simp; omega
            simpa [List.getElem_append, q1, q2] using this
        · rintro ⟨h, h'⟩
          exact List.rel_append h (.cons h' .nil)
      cases b with
      | false =>
        refine ⟨false, rfl, ?_⟩
        rw [hfa]
        constructor
        · intro h; cases h
        · intro h; exact h2.2 h.1
      | true =>
        obtain ⟨b', g1, g2⟩ := sameBody_eq hd ho eps eb ec
        refine ⟨b', g1, ?_⟩
        rw [hfa, g2]
        exact ⟨fun h => ⟨h2.1 rfl, h⟩, fun h => h.2⟩
  have := key bs.length (Nat.le_refl _)
  rw [List.take_length, hlen, List.take_length, ← hlen] at this
  exact this

lemma forall₂_bodies {eps : S} {bs cs : List (BodyLine S)} :
    List.Forall₂ (NearBody eps) bs cs ↔
      List.Forall₂ (Near eps) (bs.map (·.mass)) (cs.map (·.mass)) ∧
      List.Forall₂ (Near eps) (bs.map (·.radius)) (cs.map (·.radius)) ∧
      List.Forall₂ (NearVec eps) (bs.map (·.pos)) (cs.map (·.pos)) ∧
      List.Forall₂ (NearVec eps) (bs.map (·.vel)) (cs.map (·.vel)) := by
  constructor
  · intro h
    induction h with
    | nil => simp
    | cons h1 _ ih =>
      obtain ⟨i1, i2, i3, i4⟩ := ih
      exact ⟨.cons h1.1 i1, .cons h1.2.1 i2, .cons h1.2.2.1 i3, .cons h1.2.2.2 i4⟩
  · induction bs generalizing cs with
    | nil =>
      rintro ⟨h, -⟩
      cases cs with
      | nil => exact .nil
      | cons c cs => simp at h
    | cons b bs ih =>
      rintro ⟨h1, h2, h3, h4⟩
      cases cs with
      | nil => simp at h1
      | cons c cs =>
        simp only [List.map_cons, List.forall₂_cons] at h1 h2 h3 h4
        exact .cons ⟨h1.1, h2.1, h3.1, h4.1⟩ (ih ⟨h1.2, h2.2, h3.2, h4.2⟩)

/-- For any arithmetic: two whole states compare without undefined behaviour, and the answer is yes exactly when
they have equally many bodies and no two corresponding masses, radii or components of positions and velocities
differ by more than `eps`.  Colours, time, step and box size do not matter. -/
theorem isEqual_iff (d o : DataObj S C) (hd : Whole d) (ho : Whole o) (eps : S) :
    ∃ b, d.isEqual o eps = .ok b ∧
      (b = true ↔ List.Forall₂ (Near eps) d.mass o.mass ∧ List.Forall₂ (Near eps) d.radius o.radius ∧
        List.Forall₂ (NearVec eps) d.vrt o.vrt ∧ List.Forall₂ (NearVec eps) d.vel o.vel) := by
  obtain ⟨bs, hbs⟩ := holds_exist hd.vrt hd.vel hd.mass hd.radius
  obtain ⟨cs, hcs⟩ := holds_exist ho.vrt ho.vel ho.mass ho.radius
  obtain ⟨b, h1, h2⟩ := isEqual_bodies hbs hcs eps
  refine ⟨b, h1, ?_⟩
  rw [h2, forall₂_bodies, hbs.mass, hbs.radius, hbs.vrt, hbs.vel, hcs.mass, hcs.radius, hcs.vrt, hcs.vel]

/-- A number that is unordered with everything, as a NaN is, counts as equal to every number: a state of one body
made of it equals every state of one body, whatever `eps`. -/
theorem isEqual_unordered (nan : S) (h : ∀ e y : S, FOps.lt e (FOps.abs (nan - y)) = false) (d o : DataObj S C)
    (hd : Whole d) (ho : Whole o) (h2 : o.count = 1) (hm : d.mass = [nan]) (hq : d.radius = [nan])
    (hr : d.vrt = [⟨nan, nan, nan⟩]) (hv : d.vel = [⟨nan, nan, nan⟩]) (eps : S) : d.isEqual o eps = .ok true := by
  obtain ⟨b, e1, e2⟩ := isEqual_iff d o hd ho eps
  rw [e1]
  congr 1
  rw [e2, hm, hq, hr, hv]
  have one : ∀ {α : Type} {l : List α}, l.length = 1 → ∃ x, l = [x] := fun h => List.length_eq_one_iff.1 h
  obtain ⟨m, hm'⟩ := one (ho.mass.trans h2)
  obtain ⟨q, hq'⟩ := one (ho.radius.trans h2)
  obtain ⟨r, hr'⟩ := one (ho.vrt.trans h2)
  obtain ⟨v, hv'⟩ := one (ho.vel.trans h2)
  rw [hm', hq', hr', hv']
  simp [Near, NearVec, h]

end

/-! ### Exact arithmetic -/

section
variable {C : Type}

lemma near_real {eps a b : ℝ} : Near eps a b ↔ |a - b| ≤ eps := by
  simp [Near]

/-- Over the reals: the distance of every pair of corresponding numbers is at most `eps`. -/
theorem isEqual_real (d o : DataObj ℝ C) (hd : Whole d) (ho : Whole o) (eps : ℝ) :
    d.isEqual o eps = .ok true ↔
      List.Forall₂ (fun a b => |a - b| ≤ eps) d.mass o.mass ∧
      List.Forall₂ (fun a b => |a - b| ≤ eps) d.radius o.radius ∧
      List.Forall₂ (fun a b : Vec3 ℝ => |a.x - b.x| ≤ eps ∧ |a.y - b.y| ≤ eps ∧ |a.z - b.z| ≤ eps) d.vrt o.vrt ∧
      List.Forall₂ (fun a b : Vec3 ℝ => |a.x - b.x| ≤ eps ∧ |a.y - b.y| ≤ eps ∧ |a.z - b.z| ≤ eps) d.vel o.vel := by
  obtain ⟨b, e1, e2⟩ := isEqual_iff d o hd ho eps
  rw [e1]
  have r1 : (Near eps : ℝ → ℝ → Prop) = fun a b => |a - b| ≤ eps := by
    funext a b; exact propext near_real
  have r2 : (NearVec eps : Vec3 ℝ → Vec3 ℝ → Prop) =
      fun a b => |a.x - b.x| ≤ eps ∧ |a.y - b.y| ≤ eps ∧ |a.z - b.z| ≤ eps := by
    funext a b; simp only [NearVec, near_real]
  rw [r1, r2] at e2
  rw [← e2]
  constructor
  · intro h; exact Except.ok.inj h
  · intro h; rw [h]

/-- Reflexive for every non-negative `eps`. -/
theorem isEqual_refl (d : DataObj ℝ C) (hd : Whole d) (eps : ℝ) (he : 0 ≤ eps) : d.isEqual d eps = .ok true := by
  rw [isEqual_real d d hd hd]
  refine ⟨?_, ?_, ?_, ?_⟩ <;> exact List.forall₂_same.2 fun x _ => by simp [he]

lemma forall₂_flip' {α : Type} {R : α → α → Prop} (hR : ∀ a b, R a b → R b a) {l m : List α} (h : List.Forall₂ R l m) :
    List.Forall₂ R m l := by
  induction h with
  | nil => exact .nil
  | cons h _ ih => exact .cons (hR _ _ h) ih

/-- Symmetric. -/
theorem isEqual_symm (d o : DataObj ℝ C) (hd : Whole d) (ho : Whole o) (eps : ℝ) :
    d.isEqual o eps = o.isEqual d eps := by
  have key : ∀ (d o : DataObj ℝ C), Whole d → Whole o → d.isEqual o eps = .ok true → o.isEqual d eps = .ok true := by
    intro d o hd ho h
    rw [isEqual_real d o hd ho] at h
    rw [isEqual_real o d ho hd]
    obtain ⟨h1, h2, h3, h4⟩ := h
    refine ⟨forall₂_flip' (fun a b h => ?_) h1, forall₂_flip' (fun a b h => ?_) h2, forall₂_flip' (fun a b h => ?_) h3,
      forall₂_flip' (fun a b h => ?_) h4⟩
    · rwa [abs_sub_comm]
    · rwa [abs_sub_comm]
    · rwa [abs_sub_comm b.x, abs_sub_comm b.y, abs_sub_comm b.z]
    · rwa [abs_sub_comm b.x, abs_sub_comm b.y, abs_sub_comm b.z]
  obtain ⟨b, e1, -⟩ := isEqual_iff d o hd ho eps
  obtain ⟨b', e2, -⟩ := isEqual_iff o d ho hd eps
  rw [e1, e2]
  congr 1
  cases b with
  | true =>
    have := key d o hd ho e1
    rw [e2] at this
    exact (Except.ok.inj this).symm
  | false => cases b' with
    | false => rfl
    | true =>
      have := key o d ho hd e2
      rw [e1] at this
      exact Except.ok.inj this

lemma forall₂_imp' {α : Type} {R R' : α → α → Prop} (hR : ∀ a b, R a b → R' a b) {l m : List α} (h : List.Forall₂ R l m) :
    List.Forall₂ R' l m := by
  induction h with
  | nil => exact .nil
  | cons h _ ih => exact .cons (hR _ _ h) ih

/-- Monotone in `eps`. -/
theorem isEqual_mono (d o : DataObj ℝ C) (hd : Whole d) (ho : Whole o) (eps eps' : ℝ) (he : eps ≤ eps')
    (h : d.isEqual o eps = .ok true) : d.isEqual o eps' = .ok true := by
  rw [isEqual_real d o hd ho] at h ⊢
  obtain ⟨h1, h2, h3, h4⟩ := h
  exact ⟨forall₂_imp' (fun a b h => h.trans he) h1, forall₂_imp' (fun a b h => h.trans he) h2,
    forall₂_imp' (fun a b h => ⟨h.1.trans he, h.2.1.trans he, h.2.2.trans he⟩) h3,
    forall₂_imp' (fun a b h => ⟨h.1.trans he, h.2.1.trans he, h.2.2.trans he⟩) h4⟩

lemma forall₂_trans' {α : Type} {R R' R'' : α → α → Prop} (hR : ∀ a b c, R a b → R' b c → R'' a c) {l m n : List α}
    (h : List.Forall₂ R l m) (h' : List.Forall₂ R' m n) : List.Forall₂ R'' l n := by
  induction h generalizing n with
  | nil => cases h'; exact .nil
  | cons h _ ih => cases h' with | cons g g' => exact .cons (hR _ _ _ h g) (ih g')

/-- Not transitive for one `eps`, but tolerances add up. -/
theorem isEqual_triangle (d o p : DataObj ℝ C) (hd : Whole d) (ho : Whole o) (hp : Whole p) (e1 e2 : ℝ)
    (h : d.isEqual o e1 = .ok true) (h' : o.isEqual p e2 = .ok true) : d.isEqual p (e1 + e2) = .ok true := by
  rw [isEqual_real d o hd ho] at h
  rw [isEqual_real o p ho hp] at h'
  rw [isEqual_real d p hd hp]
  have tri : ∀ a b c : ℝ, |a - b| ≤ e1 → |b - c| ≤ e2 → |a - c| ≤ e1 + e2 := fun a b c h h' =>
    (abs_sub_le a b c).trans (add_le_add h h')
  obtain ⟨h1, h2, h3, h4⟩ := h
  obtain ⟨g1, g2, g3, g4⟩ := h'
  exact ⟨forall₂_trans' tri h1 g1, forall₂_trans' tri h2 g2,
    forall₂_trans' (fun a b c h g => ⟨tri _ _ _ h.1 g.1, tri _ _ _ h.2.1 g.2.1, tri _ _ _ h.2.2 g.2.2⟩) h3 g3,
    forall₂_trans' (fun a b c h g => ⟨tri _ _ _ h.1 g.1, tri _ _ _ h.2.1 g.2.1, tri _ _ _ h.2.2 g.2.2⟩) h4 g4⟩

/-- With `eps = 0` exactly the same masses, radii, positions and velocities. -/
theorem isEqual_exact (d o : DataObj ℝ C) (hd : Whole d) (ho : Whole o) :
    d.isEqual o 0 = .ok true ↔ d.mass = o.mass ∧ d.radius = o.radius ∧ d.vrt = o.vrt ∧ d.vel = o.vel := by
  rw [isEqual_real d o hd ho]
  have z : ∀ {a b : ℝ}, |a - b| ≤ 0 ↔ a = b := by
    intro a b
    rw [abs_nonpos_iff, sub_eq_zero]
  have e1 : (fun a b : ℝ => |a - b| ≤ 0) = Eq := by funext a b; exact propext z
  have e2 : (fun a b : Vec3 ℝ => |a.x - b.x| ≤ 0 ∧ |a.y - b.y| ≤ 0 ∧ |a.z - b.z| ≤ 0) = Eq := by
    funext a b
    rw [z, z, z]
    cases a; cases b
    simp
  rw [e1, e2]
  simp only [List.forall₂_eq_eq_eq]

/-- With a negative `eps` only empty states are equal, not even a state to itself. -/
theorem isEqual_negative (d : DataObj ℝ C) (hd : Whole d) (eps : ℝ) (he : eps < 0) :
    d.isEqual d eps = .ok true ↔ d.count = 0 := by
  rw [isEqual_real d d hd hd]
  constructor
  · rintro ⟨h1, -⟩
    rw [← hd.mass]
    cases hm : d.mass with
    | nil => rfl
    | cons m ms =>
      rw [hm] at h1
      cases h1 with
      | cons h _ => simp at h; linarith
  · intro h0
    have e1 : d.mass = [] := List.length_eq_zero_iff.1 (hd.mass.trans h0)
    have e2 : d.radius = [] := List.length_eq_zero_iff.1 (hd.radius.trans h0)
    have e3 : d.vrt = [] := List.length_eq_zero_iff.1 (hd.vrt.trans h0)
    have e4 : d.vel = [] := List.length_eq_zero_iff.1 (hd.vel.trans h0)
    simp [e1, e2, e3, e4]

end

/-- A state of one body. -/
def one (x : ℝ) : DataObj ℝ Unit := ⟨1, 0, 0, 1, [⟨x, 2, 3⟩], [()], [⟨4, 5, 6⟩], [7], [8]⟩

lemma one_whole (x : ℝ) : Whole (one x) := ⟨rfl, rfl, rfl, rfl⟩

example : (one 1).isEqual (one 1.5) 1 = .ok true := by
  rw [isEqual_real _ _ (one_whole 1) (one_whole 1.5)]
  simp [one]
  norm_num [abs_le]

example : (one 1).isEqual (one 3) 1 ≠ .ok true := by
  rw [Ne, isEqual_real _ _ (one_whole 1) (one_whole 3)]
  simp [one]
  norm_num

end NB.C54
