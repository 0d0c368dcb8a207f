import Verif.Lemmas.DataIO
import Verif.Lemmas.StreamExample

/-
C44.  A state saved as text and loaded again is the same state, up to what printing does to a number.
-/

namespace NB.C44

open TextSpec

variable {S C : Type} [Zero S] [Mul S]

/-- For every object whose arrays have as many entries as its count says, `save` produces a text, and `load` of that
text into any object succeeds; count, positions, velocities, masses and radii are those saved, every number having
gone once through print and read, masses being multiplied by the factor of the units; colours are white; time, step
and box size of the target stay. -/
theorem save_load (T : TextOps S) {rnd : S → S} (hT : Formats T.fmt T.parse rnd) (white : C) (factor : S)
    (d e : DataObj S C) (h1 : d.vrt.length = d.count) (h2 : d.vel.length = d.count)
    (h3 : d.mass.length = d.count) (h4 : d.radius.length = d.count) :
    ∃ t, d.save T = .ok t ∧
      e.load T white factor t = (true,
        { count := d.count, time := e.time, step := e.step, box := e.box,
          vrt := d.vrt.map (fun r => ⟨rnd r.x, rnd r.y, rnd r.z⟩),
          vel := d.vel.map (fun r => ⟨rnd r.x, rnd r.y, rnd r.z⟩),
          mass := d.mass.map (fun m => rnd m * factor),
          radius := d.radius.map rnd,
          color := List.replicate d.count white }) := by
  obtain ⟨bs, hb⟩ := holds_exist h1 h2 h3 h4
  refine ⟨_, save_eq hb, ?_⟩
  set os : List (Option (BodyLine S)) := bs.map (fun b =>
    some ⟨⟨rnd b.pos.x, rnd b.pos.y, rnd b.pos.z⟩, ⟨rnd b.vel.x, rnd b.vel.y, rnd b.vel.z⟩, rnd b.mass,
        rnd b.radius⟩) with hos
  have hm : List.Forall₂ (Means T.parse) (bs.map (bodyText T.fmt)) os := by
    rw [hos]
    clear hos os hb
    induction bs with
    | nil => exact .nil
    | cons b bs ih => exact .cons (bodyText_means hT b) ih
  have hl : Lines ((bs.map (bodyText T.fmt)).flatMap (· ++ ['\n'])) (bs.map (bodyText T.fmt)) := by
    refine ⟨?_, Or.inl rfl⟩
    intro l hl hn
    obtain ⟨b, _, rfl⟩ := List.mem_map.1 hl
    have hf : ∀ x, '\n' ∉ T.fmt x := fun x hx => (hT.clean x _ hx).1 (Or.inr (Or.inr (Or.inl rfl)))
    simp [bodyText, hf] at hn
  unfold DataObj.load
  rw [lines_textLines hl]
  have := loadLines_good hm [] (white := white) (factor := factor) e.clear
  rw [List.append_nil] at this
  rw [this, DataObj.loadLines]
  have hf : os.filterMap id = bs.map (fun b => (⟨⟨rnd b.pos.x, rnd b.pos.y, rnd b.pos.z⟩,
      ⟨rnd b.vel.x, rnd b.vel.y, rnd b.vel.z⟩, rnd b.mass, rnd b.radius⟩ : BodyLine S)) := by
    rw [hos, List.filterMap_map]
    exact congrFun List.filterMap_eq_map' bs
  rw [hf]
  simp [DataObj.addBodies, DataObj.clear, hb.count, hb.vrt, hb.vel, hb.mass, hb.radius, Function.comp_def,
    List.map_const']

/-- When reading inverts printing and the units are those of the saved state, the loaded object has exactly the
saved count, positions, velocities, masses and radii. -/
theorem save_load_exact (T : TextOps S) (hT : Formats T.fmt T.parse id) (white : C) (one : S)
    (hone : ∀ x : S, x * one = x) (d e : DataObj S C) (h1 : d.vrt.length = d.count)
    (h2 : d.vel.length = d.count) (h3 : d.mass.length = d.count) (h4 : d.radius.length = d.count) :
    ∃ t e', d.save T = .ok t ∧ e.load T white one t = (true, e') ∧
      e'.count = d.count ∧ e'.vrt = d.vrt ∧ e'.vel = d.vel ∧ e'.mass = d.mass ∧ e'.radius = d.radius := by
  obtain ⟨t, ht, hl⟩ := save_load T hT white one d e h1 h2 h3 h4
  exact ⟨t, _, ht, hl, rfl, by simp, by simp, by simp [hone], by simp⟩

omit [Zero S] [Mul S] in
/-- An object shorter than its count says makes `save` read outside an array. -/
theorem save_short (T : TextOps S) (d : DataObj S C) (n : ℕ) (hn : n < d.count) (h : d.vrt.length ≤ n) :
    ∃ u, d.save T = .error u := by
  have aux : ∀ k, n < k → ∃ u, forN (m := Res) k ([] : List Char) (fun n t => do
      let l ← saveLine T d n
      pure (t ++ l)) = .error u := by
    intro k
    induction k with
    | zero => intro h; omega
    | succ k ih =>
      intro hk
      rw [forN]
      by_cases hn : n < k
      · obtain ⟨u, hu⟩ := ih hn
        exact ⟨u, by rw [hu]; rfl⟩
      · have : k = n := by omega
        subst this
        cases hq : forN (m := Res) k ([] : List Char) (fun n t => do
            let l ← saveLine T d n
            pure (t ++ l)) with
        | error u => exact ⟨u, rfl⟩
        | ok t =>
          refine ⟨.oob, ?_⟩
          change (do
            let l ← saveLine T d k
            pure (t ++ l) : Res (List Char)) = _
          have : saveLine T d k = .error .oob := by
            unfold saveLine rd
            rw [List.getElem?_eq_none h]
            rfl
          rw [this]
          rfl
  exact aux d.count hn

/-! A state of two bodies with 64-bit numbers printed in decimal. -/

open StreamExample

lemma formats : Formats text.fmt text.parse id where
  ne x := Nat.toDigits_ne_nil
  clean x c hc := by
    have hd := digits_digit c hc
    refine ⟨fun hb => ?_, not_digit_of hd (by decide)⟩
    have := digit_not_space hd
    rw [(isSpace_iff c).2 hb] at this
    cases this
  back x := by
    have h : x.toNat ≤ sizeMax := by have := x.toNat_lt; unfold sizeMax; omega
    simp [text, toULongLong_toDigits h]

/-- Two bodies. -/
def two : DataObj UInt64 UInt8 := ⟨2, 3, 4, 5, [⟨1, 2, 3⟩, ⟨4, 5, 6⟩], [7, 8], [⟨9, 10, 11⟩, ⟨12, 13, 14⟩], [15, 16], [17, 18]⟩

example : ∃ t e', two.save text = .ok t ∧ two.load text 0 1 t = (true, e') ∧ e'.count = 2 ∧ e'.vrt = two.vrt ∧
    e'.vel = two.vel ∧ e'.mass = two.mass ∧ e'.radius = two.radius :=
  save_load_exact text formats 0 1 (fun x => by simp) two two rfl rfl rfl rfl

example : two.save text = .ok "1 2 3 9 10 11 15 17\n4 5 6 12 13 14 16 18\n".toList := by decide +kernel

example : ∃ u, ({ two with count := 3 } : DataObj UInt64 UInt8).save text = .error u :=
  save_short text _ 2 (by decide) (by decide)

end NB.C44
