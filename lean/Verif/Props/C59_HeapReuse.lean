import Verif.Props.C28_Accounting
import Verif.Props.C60_Layouts
import Mathlib.Data.List.Perm.Basic

/-
C59  A heap object may be built again for another set of bodies.  `build` resizes the arrays and never writes
the radius of a leaf, so a leaf of a smaller heap inherits the radius of an inner node of the larger one.
-/

namespace NB.C59
open NB NB.Spec

section
variable {S : Type} [Add S] [Sub S] [Mul S] [Neg S] [Div S] [Zero S] [One S] [FOps S]

/-- Builds for the given numbers of bodies (given as exponents of two), positions and ratios, one after the
other on one object. -/
def builds (half : S) (nth : NthElement) (bs : List (ℕ × Bodies S × S)) (H : List (Cell S)) :
    Res (List (Cell S)) :=
  bs.foldlM (fun H b => heapBuild (2 ^ b.1) b.2.1 half b.2.2 nth 64 H) H

lemma clean_mono {k m : ℕ} (hkm : k ≤ m) {H : List (Cell S)} (hl : H = [] ∨ H.length = 2 ^ (k + 1))
    (h : C27.CleanLeaves (2 ^ k) H) : C27.CleanLeaves (2 ^ m) H := by
  intro j c h1 h2 hj
  rcases hl with rfl | hl
  · simp at hj
  · have hj' := (List.getElem?_eq_some_iff.1 hj).1
    have : 2 ^ k ≤ 2 ^ m := Nat.pow_le_pow_right (by norm_num) hkm
    exact h j c (by omega) (by rw [hl, pow_succ] at hj'; omega) hj

/-- **C59** as far as it holds: if the numbers of bodies never decrease, the last build on the used object
gives forces and visitor calls identical to those of the same build on a new object.
Missing: decreasing numbers, where it is false (`shrinking_loses_forces`). -/
theorem reuse_partial {half : S} {nth : NthElement} (hn : Reorders nth) (bs : List (ℕ × Bodies S × S))
    (k : ℕ) (B : Bodies S) (ratio : S)
    (hk : k ≤ 63) (hmono : (bs.map Prod.fst ++ [k]).Pairwise (· ≤ ·)) :
    ∃ H H', builds half nth (bs ++ [(k, B, ratio)]) [] = .ok H ∧ builds half nth [(k, B, ratio)] [] = .ok H' ∧
      heapVisits H = heapVisits H' ∧
      ∀ fuel v1 mass1, 2 ^ (k + 1) - 1 ≤ fuel → heapTraverse fuel H v1 mass1 = heapTraverse fuel H' v1 mass1 := by
  have key : ∀ (bs : List (ℕ × Bodies S × S)) (k0 : ℕ) (H : List (Cell S)),
      (H = [] ∨ H.length = 2 ^ (k0 + 1)) → C27.CleanLeaves (2 ^ k0) H →
      ((k0 :: bs.map Prod.fst) ++ [k]).Pairwise (· ≤ ·) →
      ∃ H', builds half nth bs H = .ok H' ∧ C27.CleanLeaves (2 ^ k) H' := by
    intro bs
    induction bs with
    | nil =>
      intro k0 H hl hc hp
      exact ⟨H, rfl, clean_mono (by simpa using hp) hl hc⟩
    | cons b rest ih =>
      intro k0 H hl hc hp
      have hp' := List.pairwise_cons.1 hp
      have hb : k0 ≤ b.1 := hp'.1 b.1 (by simp)
      have hb2 : b.1 ≤ k := (List.pairwise_cons.1 hp'.2).1 k (by simp)
      obtain ⟨H1, t, h1, h2, _, _, _, _, h6⟩ := C27.build_stores_tree (m := b.1) (fuel := 64) (B := b.2.1)
        (half := half) (ratio := b.2.2) hn H (by omega)
      obtain ⟨H', h7, h8⟩ := ih b.1 H1 (Or.inr h2) (h6 (clean_mono hb hl hc)).2 hp'.2
      refine ⟨H', ?_, h8⟩
      unfold builds at h7 ⊢
      rw [List.foldlM_cons, h1]
      exact h7
  have hempty : C27.CleanLeaves (2 ^ 0) ([] : List (Cell S)) := by intro j c _ _ hj; simp at hj
  obtain ⟨H0, r0, c0⟩ := key bs 0 [] (Or.inl rfl) hempty
    (List.pairwise_cons.2 ⟨fun _ _ => Nat.zero_le _, hmono⟩)
  obtain ⟨H, t, a1, a2, a3, a4, _, a5, a6⟩ := C27.build_stores_tree (m := k) (fuel := 64) (B := B)
        (half := half) (ratio := ratio) hn H0 (by omega)
  obtain ⟨H', t', b1, b2, b3, b4, _, b5, b6⟩ := C27.build_stores_tree (m := k) (fuel := 64) (B := B)
        (half := half) (ratio := ratio) hn [] (by omega)
  have ht : t = t' := by
    have e1 := (a6 c0).1
    have e2 := (b6 (clean_mono (Nat.zero_le k) (Or.inl rfl) hempty)).1
    rw [e1] at e2
    exact Except.ok.inj e2
  subst ht
  refine ⟨H, H', ?_, ?_, ?_, ?_⟩
  · unfold builds at r0 ⊢
    rw [List.foldlM_append, r0]
    simp only [List.foldlM_cons, List.foldlM_nil, res_ok_bind, a1]
    rfl
  · unfold builds
    simp only [List.foldlM_cons, List.foldlM_nil, b1]
    rfl
  · unfold heapVisits
    rw [a2, b2, show 2 ^ (k + 1) / 2 = 2 ^ k by rw [pow_succ]; omega, stores_drop a4 a3 a2,
      stores_drop b4 b3 b2]
  · intro fuel v1 mass1 hf
    rw [heapTraverse_eq hk a4 a3 a2 hf, heapTraverse_eq hk b4 b3 b2 hf]

/-- Building two bodies on an object whose cells 2 and 3 have the radii `r2` and `r3`. -/
lemma build_two {B : Bodies S} {half ratio : S} {nth : NthElement} (hn : Reorders nth) {H : List (Cell S)}
    {r2 r3 : S} (h2 : ((heapResize 4 H)[2]?).map (fun c => c.d.rsq) = some r2)
    (h3 : ((heapResize 4 H)[3]?).map (fun c => c.d.rsq) = some r3) :
    ∃ H' a b d, [a, b].Perm [0, 1] ∧ heapBuild 2 B half ratio nth 64 H = .ok H' ∧ H'.length = 4 ∧
      d = updateData half (ratio * ratio) ⟨B.pos a, B.mass a, 0, B.pos a, B.pos a⟩
        ⟨B.pos b, B.mass b, 0, B.pos b, B.pos b⟩ ∧
      Stores H' 1 (.node (.leaf a ⟨B.pos a, B.mass a, r2, B.pos a, B.pos a⟩)
        (.leaf b ⟨B.pos b, B.mass b, r3, B.pos b, B.pos b⟩) d) := by
  have hperm := hn [] 0 [0, 1]
  obtain ⟨a, b, hab⟩ : ∃ a b, nth [] 0 [0, 1] = [a, b] := by
    match hc : nth [] 0 [0, 1] with
    | [] => rw [hc] at hperm; simpa using hperm.length_eq
    | [a] => rw [hc] at hperm; simpa using hperm.length_eq
    | [a, b] => exact ⟨a, b, rfl⟩
    | a :: b :: c :: l => rw [hc] at hperm; simpa using hperm.length_eq
  rw [hab] at hperm
  have hl : (heapResize 4 H).length = 4 := C27.resize_length 4 H
  obtain ⟨c1, e1⟩ : ∃ c, (heapResize 4 H)[1]? = some c := ⟨_, C27.resize_get 4 H (by norm_num)⟩
  obtain ⟨c2, e2⟩ : ∃ c, (heapResize 4 H)[2]? = some c := ⟨_, C27.resize_get 4 H (by norm_num)⟩
  obtain ⟨c3, e3⟩ : ∃ c, (heapResize 4 H)[3]? = some c := ⟨_, C27.resize_get 4 H (by norm_num)⟩
  have hb1 := C27.resize_body 4 H 1 c1 e1
  rw [e2] at h2
  rw [e3] at h3
  simp only [Option.map_some, Option.some.injEq] at h2 h3
  set R := heapResize 4 H with hR
  refine ⟨((R.set 2 ⟨⟨B.pos a, B.mass a, r2, B.pos a, B.pos a⟩, a⟩).set 3
    ⟨⟨B.pos b, B.mass b, r3, B.pos b, B.pos b⟩, b⟩).set 1
    ⟨updateData half (ratio * ratio) ⟨B.pos a, B.mass a, 0, B.pos a, B.pos a⟩
        ⟨B.pos b, B.mass b, 0, B.pos b, B.pos b⟩, noBody⟩, a, b, _, hperm, ?_, by simp [hl], rfl, ?_⟩
  · unfold heapBuild
    rw [show List.range 2 = [0, 1] from rfl, heapBuildP_node _ _ _ _ 63 _ _ _ _ _ (by simp), hab,
      show heapResize (2 * 2) H = R from rfl]
    simp only [List.length_cons, List.length_nil, heapRoot, List.take, List.drop, Nat.reduceAdd, Nat.reduceMul,
      Nat.reduceDiv]
    rw [heapBuildP_leaf, rd_eq_ok.2 e2]
    simp only [bind, Except.bind]
    rw [wr_lt (by omega)]
    simp only []
    rw [heapBuildP_leaf]
    simp only [bind, Except.bind]
    rw [rd_eq_ok.2 (by rw [List.getElem?_set_ne (by norm_num)]; exact e3)]
    simp only []
    rw [wr_lt (by simp [hl])]
    simp only []
    rw [heapUpdate_ok (cl := ⟨⟨B.pos a, B.mass a, r2, B.pos a, B.pos a⟩, a⟩)
      (cr := ⟨⟨B.pos b, B.mass b, r3, B.pos b, B.pos b⟩, b⟩) (c := c1)
      (by rw [List.getElem?_set_ne (by norm_num), List.getElem?_set_self (by omega), h2])
      (by rw [List.getElem?_set_self (by simp [hl]), h3])
      (by rw [List.getElem?_set_ne (by norm_num), List.getElem?_set_ne (by norm_num), e1]), hb1, h2, h3]
    rfl
  · refine ⟨?_, ?_, ?_⟩
    · rw [List.getElem?_set_self (by simp [hl])]
    · rw [Stores, List.getElem?_set_ne (by norm_num), List.getElem?_set_ne (by norm_num),
        List.getElem?_set_self (by omega)]
    · rw [Stores, List.getElem?_set_ne (by norm_num), List.getElem?_set_self (by simp [hl])]

end

/-- An inner node with two bodies reaches at least half their distance. -/
lemma radius_pair {B : Bodies ℝ} {ratio : ℝ} {a b : ℕ} {d : NodeData ℝ}
    (h : C26.Summarises B ratio [a, b] d) :
    (B.pos a - B.pos b).norm * (ratio * ratio) ≤ 4 * d.rsq := by
  have ha := h.radius a (by simp)
  have hb := h.radius b (by simp)
  simp only [← norm_eq_dist2] at ha hb
  have e : (B.pos a - B.pos b).norm ≤ 2 * (B.pos a - d.mc).norm + 2 * (B.pos b - d.mc).norm := by
    simp only [Vec3.norm, Vec3.sub_x, Vec3.sub_y, Vec3.sub_z]
    nlinarith [sq_nonneg ((B.pos a).x - d.mc.x + ((B.pos b).x - d.mc.x)),
      sq_nonneg ((B.pos a).y - d.mc.y + ((B.pos b).y - d.mc.y)),
      sq_nonneg ((B.pos a).z - d.mc.z + ((B.pos b).z - d.mc.z))]
  have := mul_le_mul_of_nonneg_right e (mul_self_nonneg ratio)
  nlinarith

lemma two_walk {B : Bodies ℝ} {ratio : ℝ} (hr : 1 ≤ ratio) {a b : ℕ} {d : NodeData ℝ} {r2 r3 : ℝ}
    (hma : 0 < B.mass a) (hmb : 0 < B.mass b)
    (hd : d = updateData (1 / 2) (ratio * ratio) ⟨B.pos a, B.mass a, 0, B.pos a, B.pos a⟩
        ⟨B.pos b, B.mass b, 0, B.pos b, B.pos b⟩) {c : ℕ} (hc : c = a ∨ c = b) :
    acceptedNodes (B.pos c) (.node (.leaf a ⟨B.pos a, B.mass a, r2, B.pos a, B.pos a⟩)
        (.leaf b ⟨B.pos b, B.mass b, r3, B.pos b, B.pos b⟩) d) =
      (if r2 < (B.pos c - B.pos a).norm then [STree.leaf a ⟨B.pos a, B.mass a, r2, B.pos a, B.pos a⟩] else []) ++
      (if r3 < (B.pos c - B.pos b).norm then [STree.leaf b ⟨B.pos b, B.mass b, r3, B.pos b, B.pos b⟩] else []) := by
  have hs : C26.Summarises B ratio ([a] ++ [b]) d := by
    rw [hd]
    refine C26.summarises_update ?_ (by simp) (C26.summarises_leaf B ratio a _ rfl rfl rfl rfl rfl)
      (C26.summarises_leaf B ratio b _ rfl rfl rfl rfl rfl)
    simp [hma, hmb]
  have hrad := hs.radius c (by rcases hc with h | h <;> simp [h])
  rw [← norm_eq_dist2] at hrad
  have hn := Vec3.norm_nonneg (B.pos c - d.mc)
  have hroot : ¬ d.rsq < (B.pos c - d.mc).norm := by
    have : (B.pos c - d.mc).norm ≤ (B.pos c - d.mc).norm * (ratio * ratio) :=
      le_mul_of_one_le_right hn (by nlinarith)
    linarith
  simp only [acceptedNodes, accepts, real_lt, decide_eq_true_eq, hroot, if_false]

/-- **C59** is violated when the number of bodies decreases.  Build a heap of four bodies and then, on the
same object, one of two bodies that are at most half as far apart from each other as any two of the four
were: the force on each of the two bodies is computed as zero.  On a new object it is their attraction. -/
theorem shrinking_loses_forces {nth : NthElement} (hn : Reorders nth) {ratio : ℝ} (hr : 1 ≤ ratio)
    {B4 B2 : Bodies ℝ} (hm4 : ∀ i < 4, 0 < B4.mass i) (hm2 : ∀ i < 2, 0 < B2.mass i)
    (hfar : ∀ i < 4, ∀ j < 4, i ≠ j →
      4 * (B2.pos 0 - B2.pos 1).norm ≤ (B4.pos i - B4.pos j).norm)
    (hne : 0 < (B2.pos 0 - B2.pos 1).norm) :
    ∃ H, builds (1 / 2) nth [(2, B4, ratio), (1, B2, ratio)] [] = .ok H ∧
      heapTraverse 3 H (B2.pos 0) (B2.mass 0) = .ok 0 ∧ heapTraverse 3 H (B2.pos 1) (B2.mass 1) = .ok 0 ∧
      ∃ H', builds (1 / 2) nth [(1, B2, ratio)] [] = .ok H' ∧
        heapTraverse 3 H' (B2.pos 0) (B2.mass 0) = .ok (0 + force (B2.pos 0) (B2.pos 1) (B2.mass 0) (B2.mass 1)) ∧
        heapTraverse 3 H' (B2.pos 1) (B2.mass 1) = .ok (0 + force (B2.pos 1) (B2.pos 0) (B2.mass 1) (B2.mass 0)) := by
  have hsym : ∀ p q : Vec3 ℝ, (p - q).norm = (q - p).norm := by
    intro p q; simp only [Vec3.norm, Vec3.sub_x, Vec3.sub_y, Vec3.sub_z]; ring
  have hself : ∀ p : Vec3 ℝ, (p - p).norm = 0 := by
    intro p; simp [Vec3.norm, Vec3.sub_x, Vec3.sub_y, Vec3.sub_z]
  -- the first build
  obtain ⟨H4, t, a1, a2, a3, a4, a5, _, a6⟩ := C27.build_stores_tree (m := 2) (fuel := 64) (B := B4)
    (half := 1 / 2) (ratio := ratio) hn [] (by omega)
  have hbt := (a6 (by intro j c _ _ hj; simp at hj)).1
  have hF := C26.build_summarises hn hm4 hbt
  have hpair : ∀ s p, At t p s → Perfect 1 s → (B2.pos 0 - B2.pos 1).norm ≤ s.data.rsq := by
    intro s p hs hp
    have hsum := hF p s hs
    match s, hp with
    | .node (.leaf a da) (.leaf b db) d, _ =>
      have hmem : a ∈ t.bodies ∧ b ∈ t.bodies ∧ a ≠ b := by
        have hnd : t.bodies.Nodup := a5.nodup_iff.2 List.nodup_range
        have : ∀ {t : STree ℝ} {p s}, At t p s → t.bodies.Nodup → (∀ x ∈ s.bodies, x ∈ t.bodies) ∧ s.bodies.Nodup := by
          intro t p s hs
          induction hs with
          | here => exact fun h => ⟨fun _ h => h, h⟩
          | left _ ih =>
            intro h
            simp only [STree.bodies] at h ⊢
            obtain ⟨i1, i2⟩ := ih (List.nodup_append.1 h).1
            exact ⟨fun x hx => List.mem_append_left _ (i1 x hx), i2⟩
          | right _ ih =>
            intro h
            simp only [STree.bodies] at h ⊢
            obtain ⟨i1, i2⟩ := ih (List.nodup_append.1 h).2.1
            exact ⟨fun x hx => List.mem_append_right _ (i1 x hx), i2⟩
        obtain ⟨i1, i2⟩ := this hs hnd
        simp only [STree.bodies, List.cons_append, List.nil_append] at i1 i2
        exact ⟨i1 a (by simp), i1 b (by simp), by simpa using i2⟩
      have hlt : ∀ x ∈ t.bodies, x < 4 := fun x hx => by
        have := List.mem_range.1 (a5.mem_iff.1 hx); omega
      have h1 := radius_pair (B := B4) (ratio := ratio) (a := a) (b := b) (d := d) hsum
      have h2 := hfar a (hlt a hmem.1) b (hlt b hmem.2.1) hmem.2.2
      have h3 := Vec3.norm_nonneg (B4.pos a - B4.pos b)
      have h4 : (B4.pos a - B4.pos b).norm ≤ (B4.pos a - B4.pos b).norm * (ratio * ratio) :=
        le_mul_of_one_le_right h3 (by nlinarith)
      simp only [STree.data]
      linarith
  have hcells : ∃ r2 r3, ((heapResize 4 H4)[2]?).map (fun c => c.d.rsq) = some r2 ∧
      ((heapResize 4 H4)[3]?).map (fun c => c.d.rsq) = some r3 ∧
      (B2.pos 0 - B2.pos 1).norm ≤ r2 ∧ (B2.pos 0 - B2.pos 1).norm ≤ r3 := by
    match t, a4, a3 with
    | .node (.node l1 l2 d2) (.node l3 l4 d3) d, a4, a3 =>
      obtain ⟨_, ⟨e2, _⟩, ⟨e3, _⟩⟩ := a3
      refine ⟨d2.rsq, d3.rsq, ?_, ?_, ?_, ?_⟩
      · rw [C27.resize_get 4 H4 (by norm_num), e2]; rfl
      · rw [C27.resize_get 4 H4 (by norm_num), e3]; rfl
      · exact hpair _ _ (At.left (At.here _)) a4.1
      · exact hpair _ _ (At.right (At.here _)) a4.2
  obtain ⟨r2, r3, g2, g3, k2, k3⟩ := hcells
  obtain ⟨H, a, b, d, b1, b2, b3, b4, b5⟩ := build_two (B := B2) (half := 1 / 2) (ratio := ratio) hn g2 g3
  obtain ⟨H', a', b', d', c1, c2, c3, c4, c5⟩ := build_two (B := B2) (half := 1 / 2) (ratio := ratio) hn
    (H := []) (r2 := 0) (r3 := 0) rfl rfl
  have cases2 : ∀ {a b : ℕ}, [a, b].Perm [0, 1] → (a = 0 ∧ b = 1) ∨ (a = 1 ∧ b = 0) := by
    intro a b h
    have ha : a ∈ [0, 1] := h.mem_iff.1 (by simp)
    have hb : b ∈ [0, 1] := h.mem_iff.1 (by simp)
    have hnd : a ≠ b := by have := h.nodup_iff.2 (by simp); simpa using this
    simp only [List.mem_cons, List.not_mem_nil, or_false] at ha hb
    omega
  have e4 : (4 : ℕ) = 2 ^ (1 + 1) := rfl
  have walk : ∀ {H : List (Cell ℝ)} {t : STree ℝ} (v : Vec3 ℝ) (m : ℝ), Stores H 1 t →
      H.length = 4 → Perfect 1 t → heapTraverse 3 H v m = .ok ((acceptedNodes v t).foldl (addForce v m) 0) := by
    intro H t v m hs hl hp
    rw [heapTraverse_eq (k := 1) (by norm_num) hp hs hl (by norm_num)]
    exact traverse_eq t v m (by rw [perfect_height hp]; unfold maxStackSize; omega)
  have h01 := hm2 0 (by norm_num)
  have h11 := hm2 1 (by norm_num)
  refine ⟨H, ?_, ?_, ?_, H', ?_, ?_, ?_⟩
  · unfold builds
    simp only [List.foldlM_cons, List.foldlM_nil, a1, res_ok_bind]
    rw [show 2 ^ 1 = 2 from rfl, b2]
    rfl
  all_goals first
    | (unfold builds
       simp only [List.foldlM_cons, List.foldlM_nil]
       rw [show 2 ^ 1 = 2 from rfl, c2]
       rfl)
    | skip
  · rw [walk _ _ b5 b3 ⟨trivial, trivial⟩]
    rcases cases2 b1 with ⟨rfl, rfl⟩ | ⟨rfl, rfl⟩
    · rw [two_walk hr h01 h11 b4 (Or.inl rfl)]
      simp only [hself]
      rw [if_neg (by linarith), if_neg (by linarith)]
      rfl
    · rw [two_walk hr h11 h01 b4 (Or.inr rfl)]
      simp only [hself]
      rw [if_neg (by linarith), if_neg (by linarith)]
      rfl
  · rw [walk _ _ b5 b3 ⟨trivial, trivial⟩]
    have hs01 := hsym (B2.pos 0) (B2.pos 1)
    rcases cases2 b1 with ⟨rfl, rfl⟩ | ⟨rfl, rfl⟩
    · rw [two_walk hr h01 h11 b4 (Or.inr rfl)]
      simp only [hself]
      rw [if_neg (by linarith), if_neg (by linarith)]
      rfl
    · rw [two_walk hr h11 h01 b4 (Or.inl rfl)]
      simp only [hself]
      rw [if_neg (by linarith), if_neg (by linarith)]
      rfl
  · rw [walk _ _ c5 c3 ⟨trivial, trivial⟩]
    rcases cases2 c1 with ⟨rfl, rfl⟩ | ⟨rfl, rfl⟩
    · rw [two_walk hr h01 h11 c4 (Or.inl rfl)]
      simp only [hself]
      rw [if_neg (by linarith), if_pos (by linarith)]
      rfl
    · rw [two_walk hr h11 h01 c4 (Or.inr rfl)]
      simp only [hself]
      rw [if_pos (by linarith), if_neg (by linarith)]
      rfl
  · rw [walk _ _ c5 c3 ⟨trivial, trivial⟩]
    have hs01 := hsym (B2.pos 0) (B2.pos 1)
    rcases cases2 c1 with ⟨rfl, rfl⟩ | ⟨rfl, rfl⟩
    · rw [two_walk hr h01 h11 c4 (Or.inr rfl)]
      simp only [hself]
      rw [if_pos (by linarith), if_neg (by linarith)]
      rfl
    · rw [two_walk hr h11 h01 c4 (Or.inl rfl)]
      simp only [hself]
      rw [if_neg (by linarith), if_pos (by linarith)]
      rfl

/-! Non-vacuity: two, four and four bodies one after the other; four bodies at the distances 10 and then two
bodies at the distance 1. -/

/-- Bodies of unit mass on the x axis at multiples of `d`. -/
def row (d : ℝ) : Bodies ℝ := ⟨fun i => d * i, fun _ => 0, fun _ => 0, fun _ => 1⟩

example : ∃ H H', builds (1 / 2) C25.sortIds ([(1, row 1, 2), (2, row 3, 1)] ++ [(2, row 5, 1)]) [] = .ok H ∧
    builds (1 / 2) C25.sortIds [(2, row 5, 1)] [] = .ok H' ∧ heapVisits H = heapVisits H' ∧
    ∀ fuel v1 mass1, 2 ^ (2 + 1) - 1 ≤ fuel → heapTraverse fuel H v1 mass1 = heapTraverse fuel H' v1 mass1 :=
  reuse_partial C25.sortIds_reorders _ 2 _ _ (by norm_num) (by simp)

example : ∃ H, builds (1 / 2) C25.sortIds [(2, row 10, 1), (1, row 1, 1)] [] = .ok H ∧
    heapTraverse 3 H ((row 1).pos 0) 1 = .ok 0 := by
  obtain ⟨H, h1, h2, _⟩ := shrinking_loses_forces C25.sortIds_reorders (ratio := 1) (le_refl 1) (B4 := row 10)
    (B2 := row 1) (fun _ _ => one_pos) (fun _ _ => one_pos)
    (by
      intro i hi j hj hij
      have : (1 : ℝ) ≤ ((i : ℝ) - j) * ((i : ℝ) - j) := by
        rcases Nat.lt_or_gt_of_ne hij with h | h
        · have : (i : ℝ) + 1 ≤ j := by exact_mod_cast h
          nlinarith
        · have : (j : ℝ) + 1 ≤ i := by exact_mod_cast h
          nlinarith
      simp only [row, Bodies.pos, Vec3.norm, Vec3.sub_x, Vec3.sub_y, Vec3.sub_z]
      norm_num
      nlinarith)
    (by simp [row, Bodies.pos, Vec3.norm, Vec3.sub_x, Vec3.sub_y, Vec3.sub_z])
  exact ⟨H, h1, h2⟩

end NB.C59
