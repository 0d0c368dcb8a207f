import Verif.Lemmas.RealVec
import Mathlib.Algebra.BigOperators.Group.Finset.Basic

namespace NB

/-- Vectors form a commutative group under the model's own operations. -/
instance Vec3.instAddCommGroup {S : Type} [AddCommGroup S] : AddCommGroup (Vec3 S) where
  add_assoc a b c := by ext <;> simp [add_assoc]
  zero_add a := by ext <;> simp
  add_zero a := by ext <;> simp
  add_comm a b := by ext <;> simp [add_comm]
  neg_add_cancel a := by ext <;> simp
  sub_eq_add_neg a b := by ext <;> simp [sub_eq_add_neg]
  nsmul := nsmulRec
  zsmul := zsmulRec

theorem Vec3.sum_x {S : Type} [AddCommGroup S] {ι : Type*} (s : Finset ι) (g : ι → Vec3 S) :
    (∑ i ∈ s, g i).x = ∑ i ∈ s, (g i).x :=
  map_sum (⟨⟨fun v : Vec3 S => v.x, rfl⟩, fun _ _ => rfl⟩ : Vec3 S →+ S) g s

theorem Vec3.sum_y {S : Type} [AddCommGroup S] {ι : Type*} (s : Finset ι) (g : ι → Vec3 S) :
    (∑ i ∈ s, g i).y = ∑ i ∈ s, (g i).y :=
  map_sum (⟨⟨fun v : Vec3 S => v.y, rfl⟩, fun _ _ => rfl⟩ : Vec3 S →+ S) g s

theorem Vec3.sum_z {S : Type} [AddCommGroup S] {ι : Type*} (s : Finset ι) (g : ι → Vec3 S) :
    (∑ i ∈ s, g i).z = ∑ i ∈ s, (g i).z :=
  map_sum (⟨⟨fun v : Vec3 S => v.z, rfl⟩, fun _ _ => rfl⟩ : Vec3 S →+ S) g s

theorem Vec3.sum_coord {ι : Type*} (s : Finset ι) (g : ι → Vec3 ℝ) (k : Fin 3) :
    (∑ i ∈ s, g i).coord k = ∑ i ∈ s, (g i).coord k := by
  fin_cases k
  · exact Vec3.sum_x s g
  · exact Vec3.sum_y s g
  · exact Vec3.sum_z s g

end NB
