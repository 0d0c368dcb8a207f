import Verif.Lemmas.GpuRefresh
import Verif.Props.C27_HeapBounds
import Verif.Model.RealScalar
import Mathlib.Tactic.NormNum
import Mathlib.Tactic.Ring

/-
C56  Between two builds the devices refresh their copies of the tree themselves, level by level.  The result is
on every device the tree the host would get with `nbody_space_heap::rebuild`, for every interleaving of the work
items of a level.

`heapRebuild` is the rebuild of the host (C59, C60 say what it computes).  The theorems hold for every scalar type
with the identities of `RadiusLaws`: the host writes `(max - min).length() * 0.5`, the kernels
`length(min - max) / 2`.
-/

namespace NB.C56
open NB NB.Spec

section
variable {S : Type}

/-- A heap of `2 ^ k` bodies as `build` leaves it: a perfect tree whose leaves are these bodies. -/
def Valid (k : ℕ) (H : List (Cell S)) : Prop :=
  H.length = 2 ^ (k + 1) ∧ ∃ t, Perfect k t ∧ Stores H 1 t ∧ t.bodies.Perm (List.range (2 ^ k))

/-- The devices have the masses and the critical radii of the leaves: all the refresh takes from the upload. -/
def LeavesUp (T : DevTree) (D k : ℕ) (H : List (Cell S)) (m : Mem S) : Prop :=
  ∀ d i c, d < D → 2 ^ k ≤ i → H[i]? = some c →
    T.cell D m d .mass i = some c.d.mass ∧ T.cell D m d .crit i = some c.d.rsq

/-- `bodyN` holds the body numbers of the leaves. -/
def Numbers (k : ℕ) (H : List (Cell S)) (bodyN : List ℕ) : Prop :=
  ∀ i, 2 ^ k ≤ i → bodyN[i]? = (H[i]?).map Cell.body

/-- The buffers of the tree exist on all devices. -/
def Room (T : DevTree) (D k : ℕ) (m : Mem S) : Prop :=
  ∀ d F i, d < D → i < 2 ^ (k + 1) → (T.cell D m d F i).isSome

/-- All values of node `idx` on all devices are those of the heap. -/
def Agrees (T : DevTree) (D : ℕ) (H : List (Cell S)) (m : Mem S) (idx : ℕ) : Prop :=
  ∃ c, H[idx]? = some c ∧ ∀ d, d < D → ∀ F : NodeField, T.cell D m d F idx = some (F.of c.d)

variable [Add S] [Sub S] [Mul S] [Neg S] [Div S] [Zero S] [One S] [FOps S]

omit [Neg S] [One S] in
/-- `build` gives such a heap. -/
theorem build_valid {k fuel : ℕ} {B : Bodies S} {half ratio : S} {nth : NthElement} (hn : Reorders nth)
    (H : List (Cell S)) (hf : k < fuel) :
    ∃ H', heapBuild (2 ^ k) B half ratio nth fuel H = .ok H' ∧ Valid k H' := by
  obtain ⟨H', t, h1, h2, h3, h4, h5, _⟩ := C27.build_stores_tree (B := B) (half := half) (ratio := ratio) hn H hf
  exact ⟨H', h1, h2, t, h4, h3, h5⟩

omit [Add S] [Sub S] [Mul S] [Neg S] [Div S] [One S] [FOps S] in
/-- The upload of a heap: centres, radii and masses of all nodes reach all devices. -/
theorem upload {loop : Loop S} (hl : IsParLoop loop) {T : DevTree} {tex : Bool} (hT : T.Layout tex) {D k : ℕ}
    {H : List (Cell S)} (hv : Valid k H) {m : Mem S} (hr : Room T D k m) :
    ∃ m', GpuBH.uploadTree loop D T tex H m = .ok m' ∧ LeavesUp T D k H m' ∧ Room T D k m' ∧
      (∀ d idx c, d < D → H[idx]? = some c → ∀ F : NodeField, F.shared → T.cell D m' d F idx = some (F.of c.d)) ∧
      ∀ x j, ¬ T.Owns (x / D) → m'.cell x j = m.cell x j := by
  obtain ⟨m', a1, a2, a3, a4⟩ := uploadTree_run (D := D) hl hT (H := H) (m := m)
    (fun d F i hd hi => hr d F i hd (by rw [hv.1] at hi; exact hi))
  exact ⟨m', a1, fun d i c hd _ hc => ⟨a3 d i c hd hc .mass trivial, a3 d i c hd hc .crit trivial⟩,
    fun d F i hd hi => isSome_of_shape a2 (hr d F i hd hi), a3, a4⟩

omit [Neg S] [One S] in
/-- **The refresh.**  For every valid heap, every state `Y` of the bodies on the devices, every order `ord` in
which the host visits the nodes of a level and every interleaving `loop` of the work items: the host rebuild and
the refresh of the devices both succeed, afterwards *every* value of *every* node on *every* device is the value of
the host; the heap stays valid and the devices keep what the next refresh needs; nothing but the tree changes. -/
theorem refresh_equals_rebuild {g : Gpu} {w k : ℕ} (hf : g.Fits w) (hn : g.n = 2 ^ k) {loop : Loop S}
    (hl : IsParLoop loop) {T : DevTree} (hT : T.Sep) {ratio half : S} (hlaws : RadiusLaws S half)
    {ord : List ℕ → List ℕ} (hord : ∀ l, (ord l).Perm l) {y : Handle} (hy : ¬ T.Owns y) {Y : ℕ → S} {M : ℕ → S}
    {H : List (Cell S)} (hv : Valid k H) {m : Mem S}
    (hY : ∀ d j, d < g.D → j < 3 * 2 ^ k → m.cell (rep g.D y d) j = some (Y j)) (hr : Room T g.D k m)
    (hM : LeavesUp T g.D k H m) {bodyN : List ℕ} (hbn : Numbers k H bodyN) :
    ∃ H' m', heapRebuild ord (2 ^ k)
        ⟨fun b => Y b, fun b => Y (2 ^ k + b), fun b => Y (2 * 2 ^ k + b), M⟩ half ratio H = .ok H' ∧
      GpuBH.updateTree g T loop ratio bodyN y m = .ok m' ∧
      (∀ idx, 1 ≤ idx → idx < 2 ^ (k + 1) → Agrees T g.D H' m' idx) ∧
      Valid k H' ∧ LeavesUp T g.D k H' m' ∧ Room T g.D k m' ∧ Numbers k H' bodyN ∧
      ∀ x j, ¬ T.Owns (x / g.D) → m'.cell x j = m.cell x j := by
  obtain ⟨hlen, t, hp, hst, hperm⟩ := hv
  have hbod : ∀ b ∈ t.bodies, b < 2 ^ k := fun b hb => List.mem_range.1 (hperm.mem_iff.1 hb)
  set B : Bodies S := ⟨fun b => Y b, fun b => Y (2 ^ k + b), fun b => Y (2 * 2 ^ k + b), M⟩ with hB
  obtain ⟨H', h1, h2, h3, h4⟩ := heapRebuild_eq (B := B) (half := half) (ratio := ratio) hord hp hlen hst hbod
  obtain ⟨m', a1, a2, a3, a4⟩ := refresh_shows hf hn hl hT (ratio := ratio) hlaws hy (Y := Y) (m := m) hlen hp hst hbod
    (B := B) (fun b _ => by rw [hB]; simp [Bodies.pos]) hY (fun d F i hd _ hi => hr d F i hd hi) hM hbn
  have hperf : Perfect k (spaceTreeRebuild B half ratio t) := perfect_rebuild t k hp
  have hagree : ∀ idx, 1 ≤ idx → idx < 2 ^ (k + 1) → Agrees T g.D H' m' idx := by
    intro idx i1 i2
    obtain ⟨s, hs⟩ := nodeAt_all hperf idx i1 i2
    obtain ⟨b, hb⟩ := stores_data (nodeAt_stores h3 hs)
    exact ⟨_, hb, fun d hd F => ((a3 d hd).at hs).root F trivial⟩
  have e1 : 2 ^ (k + 1) = 2 * 2 ^ k := by ring
  have hpos : 0 < 2 ^ k := Nat.two_pow_pos k
  refine ⟨H', m', h1, a1, hagree, ⟨h2.trans hlen, _, hperf, h3, by
    change (STree.rebuild B half (ratio * ratio) t).bodies.Perm _
    rw [bodies_rebuild]; exact hperm⟩, ?_, ?_, ?_, a4⟩
  · intro d i c hd hi hc
    have hlt : i < 2 ^ (k + 1) := by
      have := (List.getElem?_eq_some_iff.1 hc).1
      rw [h2, hlen] at this
      exact this
    obtain ⟨c', hc', hF⟩ := hagree i (by omega) hlt
    obtain rfl : c' = c := Option.some.inj (hc'.symm.trans hc)
    exact ⟨hF d hd .mass, hF d hd .crit⟩
  · exact fun d F i hd hi => isSome_of_shape a2 (hr d F i hd hi)
  · intro i hi
    rw [hbn i hi]
    rcases Nat.lt_or_ge i (2 ^ (k + 1)) with hlt | hge
    · obtain ⟨b, x, l1, l2, _⟩ := leaf_at hp hst hi hlt
      have l3 := nodeAt_stores h3 (nodeAt_rebuild (B := B) (half := half) (ratio2 := ratio * ratio) l1)
      rw [l2, show H'[i]? = _ from l3]
      rfl
    · rw [List.getElem?_eq_none (by omega), List.getElem?_eq_none (by omega)]

end

/-- Exact arithmetic has the identities. -/
theorem real_laws : RadiusLaws ℝ (1 / 2) where
  add_comm := add_comm
  sq_sub a b := by ring
  half_eq a := by
    change a / ((2 : ℕ) : ℝ) = a * (1 / 2)
    push_cast
    ring

/-- A memory whose buffers hold `1000` numbers each. -/
noncomputable def sample (D : ℕ) : Mem ℝ := fun x => some (buf 1000 fun j => ((x / D + j : ℕ) : ℝ))

lemma sample_cell {D h d j : ℕ} (hd : d < D) (hj : j < 1000) : (sample D).cell (rep D h d) j = some ((h + j : ℕ) : ℝ) := by
  rw [Mem.cell_buf (g := fun j => ((rep D h d / D + j : ℕ) : ℝ)) rfl, if_pos hj, rep_div hd]

/-- Eleven buffers from number 20 on. -/
def columns : NodeField → Handle
  | .cmx => 20 | .cmy => 21 | .cmz => 22 | .crit => 23 | .mass => 24 | .minx => 25 | .miny => 26 | .minz => 27
  | .maxx => 28 | .maxy => 29 | .maxz => 30

lemma columns_inj (F G : NodeField) (h : columns F = columns G) : F = G := by
  cases F <;> cases G <;> first | rfl | exact absurd h (by decide)

/-- Bodies on a line. -/
def line : Bodies ℝ := ⟨fun i => i, fun _ => 0, fun _ => 0, fun _ => 1⟩

/-- The positions in buffer 1 of the sample. -/
def inBuffer (n : ℕ) : Bodies ℝ :=
  ⟨fun b => ((1 + b : ℕ) : ℝ), fun b => ((1 + (n + b) : ℕ) : ℝ), fun b => ((1 + (2 * n + b) : ℕ) : ℝ), fun _ => 0⟩

/-- Two devices of one OpenCL context, two bodies, groups of one work item; state in buffer 1. -/
example (loop : Loop ℝ) (hl : IsParLoop loop) (ord : List ℕ → List ℕ) (hord : ∀ l, (ord l).Perm l) :
    let g : Gpu := ⟨false, 2, 2, 1, none, fun _ => 12⟩
    let T := DevTree.plain columns
    ∃ (H : List (Cell ℝ)) (m : Mem ℝ) (H' : List (Cell ℝ)) (m' : Mem ℝ),
      heapBuild 2 line (1 / 2) 10 C25.sortIds 3 [] = .ok H ∧
      GpuBH.uploadTree loop 2 T false H (sample 2) = .ok m ∧
      heapRebuild ord 2 (inBuffer 2) (1 / 2) 10 H = .ok H' ∧
      GpuBH.updateTree g T loop 10 (H.map Cell.body) 1 m = .ok m' ∧ Agrees T 2 H' m' 1 ∧ Agrees T 2 H' m' 2 ∧
      Agrees T 2 H' m' 3 := by
  intro g T
  have hT : T.Layout false := ⟨columns, columns_inj, rfl⟩
  have hy : ¬ T.Owns 1 := by rintro ⟨F, hF⟩; cases F <;> exact absurd hF (by decide)
  obtain ⟨H, h1, hv⟩ := build_valid (k := 1) (fuel := 3) (B := line) (half := (1 / 2 : ℝ)) (ratio := 10)
    C25.sortIds_reorders [] (by norm_num)
  have hroom : Room T 2 1 (sample 2) := by
    intro d F i hd hi
    change ((sample 2).cell (rep 2 (columns F) d) (1 * i + 0)).isSome
    rw [sample_cell hd (by norm_num at hi; omega)]
    rfl
  obtain ⟨m, a1, a2, a3, _, a5⟩ := upload hl hT (D := 2) hv hroom
  obtain ⟨H', m', b1, b2, b3, _⟩ := refresh_equals_rebuild (g := g) (w := 1) (k := 1)
    ⟨rfl, by norm_num, by decide, ⟨by decide, fun _ => ⟨1, rfl⟩⟩, ⟨1, rfl⟩, fun h => (by cases h), fun _ => one_dvd _⟩ rfl
    hl hT.sep (ratio := 10) real_laws hord hy (Y := fun j => ((1 + j : ℕ) : ℝ)) (M := fun _ => 0) hv (m := m)
    (fun d j hd hj => by
      rw [a5 _ _ (by rw [rep_div hd]; exact hy)]
      exact sample_cell hd (by norm_num at hj; omega)) a3 a2 (bodyN := H.map Cell.body) (fun i _ => by simp)
  exact ⟨H, m, H', m', h1, a1, b1, b2, b3 1 (by norm_num) (by norm_num), b3 2 (by norm_num) (by norm_num),
    b3 3 (by norm_num) (by norm_num)⟩

/-- One CUDA device with textures and 64 bodies. -/
example (loop : Loop ℝ) (hl : IsParLoop loop) (ord : List ℕ → List ℕ) (hord : ∀ l, (ord l).Perm l) :
    let g : Gpu := ⟨true, 1, 64, 64, none, fun _ => 384⟩
    let T := DevTree.tex 31 columns
    ∃ (H : List (Cell ℝ)) (m : Mem ℝ) (H' : List (Cell ℝ)) (m' : Mem ℝ),
      heapBuild 64 line (1 / 2) 10 C25.sortIds 7 [] = .ok H ∧
      GpuBH.uploadTree loop 1 T true H (sample 1) = .ok m ∧
      heapRebuild ord 64 (inBuffer 64) (1 / 2) 10 H = .ok H' ∧
      GpuBH.updateTree g T loop 10 (H.map Cell.body) 1 m = .ok m' ∧
      ∀ idx, 1 ≤ idx → idx < 128 → Agrees T 1 H' m' idx := by
  intro g T
  have hT : T.Layout true := ⟨columns, columns_inj, 31, fun F => by cases F <;> decide, rfl⟩
  have hy : ¬ T.Owns 1 := by rintro ⟨F, hF⟩; cases F <;> exact absurd hF (by decide)
  obtain ⟨H, h1, hv⟩ := build_valid (k := 6) (fuel := 7) (B := line) (half := (1 / 2 : ℝ)) (ratio := 10)
    C25.sortIds_reorders [] (by norm_num)
  have hroom : Room T 1 6 (sample 1) := by
    intro d F i hd hi
    have : (T F).stride * i + (T F).off < 1000 := by
      norm_num at hi
      cases F <;> simp only [T, DevTree.tex] <;> omega
    change ((sample 1).cell (rep 1 (T F).h d) _).isSome
    rw [sample_cell hd this]
    rfl
  obtain ⟨m, a1, a2, a3, _, a5⟩ := upload hl hT (D := 1) hv hroom
  obtain ⟨H', m', b1, b2, b3, _⟩ := refresh_equals_rebuild (g := g) (w := 64) (k := 6)
    ⟨rfl, by norm_num, by decide, ⟨by decide, fun _ => ⟨0, rfl⟩⟩, ⟨1, rfl⟩, fun _ => ⟨⟨6, rfl⟩, ⟨1, rfl⟩, rfl⟩,
      fun h => by cases h⟩ rfl
    hl hT.sep (ratio := 10) real_laws hord hy (Y := fun j => ((1 + j : ℕ) : ℝ)) (M := fun _ => 0) hv (m := m)
    (fun d j hd hj => by
      rw [a5 _ _ (by rw [rep_div hd]; exact hy)]
      exact sample_cell hd (by norm_num at hj; omega)) a3 a2 (bodyN := H.map Cell.body) (fun i _ => by simp)
  exact ⟨H, m, H', m', h1, a1, b1, b2, fun idx i1 i2 => b3 idx i1 (by norm_num; omega)⟩

/-- There are interleavings. -/
example : ∃ loop : Loop ℝ, IsParLoop loop := ⟨_, orderedFor_isParLoop fun _ => List.reverse_perm _⟩

end NB.C56
