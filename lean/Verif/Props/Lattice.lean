import Verif.Model.Lattice
import Verif.Model.Poscar
import Verif.Lemmas.Dict
import Mathlib.LinearAlgebra.Matrix.Determinant.Basic
import Mathlib.Tactic.FieldSimp
import Mathlib.Tactic.Ring
import Mathlib.Tactic.LinearCombination
/-! # Direct and cartesian coordinates, reciprocal lattice (C16, C43) -/
set_option autoImplicit false
namespace Verif.Lattice

variable {K : Type} [Field K]

/-! ### specification: Mathlib's matrices -/

/-- The row vector of three numbers. -/
def V3.toFun (v : V3 K) : Fin 3 → K := ![v.x, v.y, v.z]
/-- The matrix with the three given rows. -/
def M3.toMatrix (m : M3 K) : Matrix (Fin 3) (Fin 3) K := !![m.a.x, m.a.y, m.a.z; m.b.x, m.b.y, m.b.z; m.c.x, m.c.y, m.c.z]

theorem det_toMatrix (m : M3 K) : m.toMatrix.det = m.det := by
  rw [Matrix.det_fin_three]
  simp [M3.toMatrix, M3.det]
  ring

theorem dirToCart_toFun (v : V3 K) (m : M3 K) : (dirToCart v m).toFun = Matrix.vecMul v.toFun m.toMatrix := by
  ext i
  fin_cases i <;> simp [dirToCart, V3.mul, V3.dot, M3.transpose, V3.toFun, M3.toMatrix, Matrix.vecMul, dotProduct, Fin.sum_univ_three]

theorem mul_inv {m : M3 K} (h : m.det ≠ 0) (v : V3 K) : (v.mul m).mul (m.adj.map (· / m.det)) = v := by
  have hd : m.det = m.a.x * (m.b.y * m.c.z - m.b.z * m.c.y) - m.a.y * (m.b.x * m.c.z - m.b.z * m.c.x) +
    m.a.z * (m.b.x * m.c.y - m.b.y * m.c.x) := rfl
  generalize m.det = d at *
  ext <;> simp only [V3.mul, V3.dot, M3.transpose, M3.adj, M3.map, V3.map] <;> field_simp <;> rw [hd] <;> ring

theorem inv_mul {m : M3 K} (h : m.det ≠ 0) (v : V3 K) : (v.mul (m.adj.map (· / m.det))).mul m = v := by
  have hd : m.det = m.a.x * (m.b.y * m.c.z - m.b.z * m.c.y) - m.a.y * (m.b.x * m.c.z - m.b.z * m.c.x) +
    m.a.z * (m.b.x * m.c.y - m.b.y * m.c.x) := rfl
  generalize m.det = d at *
  ext <;> simp only [V3.mul, V3.dot, M3.transpose, M3.adj, M3.map, V3.map] <;> field_simp <;> rw [hd] <;> ring

variable [DecidableEq K]

/-- C16: for every cell whose determinant (Mathlib's) is not zero both conversions are inverse to each other; for a singular
cell `cart_to_dir` fails. The matrix product is Mathlib's (`dirToCart_toFun`). -/
theorem C16_inverse (l : M3 K) :
    (l.toMatrix.det ≠ 0 → ∀ v : V3 K, cartToDir (dirToCart v l) l = some v ∧
      ∃ w, cartToDir v l = some w ∧ dirToCart w l = v ∧ Matrix.vecMul w.toFun l.toMatrix = v.toFun) ∧
    (l.toMatrix.det = 0 → ∀ v : V3 K, cartToDir v l = none) := by
  rw [det_toMatrix]
  constructor
  · intro h v
    unfold cartToDir M3.inv
    rw [if_neg h]
    refine ⟨by simp only [Option.map_some, dirToCart, mul_inv h], _, rfl, inv_mul h v, ?_⟩
    rw [← dirToCart_toFun]
    unfold dirToCart
    rw [inv_mul h v]
  · intro h v
    unfold cartToDir M3.inv
    rw [if_pos h]; rfl

/-- The conversion maps are the one-sided inverse the other way: a direct vector is determined by its cartesian image. -/
theorem C16_injective (l : M3 K) (h : l.toMatrix.det ≠ 0) (v w : V3 K) (hv : dirToCart v l = dirToCart w l) : v = w := by
  have h1 := ((C16_inverse l).1 h v).1
  have h2 := ((C16_inverse l).1 h w).1
  rw [hv, h2] at h1
  exact (Option.some.inj h1).symm

/-- C43: the rows of the reciprocal lattice are dual to the rows of the lattice, up to the factor `twoPi`; a singular lattice
is refused. -/
theorem C43_dual (twoPi : K) (l : M3 K) :
    (l.toMatrix.det ≠ 0 → ∃ r, latToReclat twoPi l = some r ∧
      ∀ i j : Fin 3, dotProduct (l.toMatrix i) (r.toMatrix j) = if i = j then twoPi else 0) ∧
    (l.toMatrix.det = 0 → latToReclat twoPi l = none) := by
  rw [det_toMatrix]
  have ht : l.transpose.det = l.det := by simp only [M3.det, M3.transpose]; ring
  constructor
  · intro h
    unfold latToReclat M3.inv
    rw [if_neg (by rw [ht]; exact h)]
    refine ⟨_, rfl, ?_⟩
    intro i j
    rw [ht]
    have hd : l.det = l.a.x * (l.b.y * l.c.z - l.b.z * l.c.y) - l.a.y * (l.b.x * l.c.z - l.b.z * l.c.x) +
      l.a.z * (l.b.x * l.c.y - l.b.y * l.c.x) := rfl
    generalize l.det = d at *
    fin_cases i <;> fin_cases j <;>
      simp [M3.toMatrix, dotProduct, Fin.sum_univ_three, M3.scale, M3.map, V3.map, M3.adj, M3.transpose] <;>
      field_simp <;> (rw [hd]; ring)
  · intro h
    unfold latToReclat M3.inv
    rw [if_pos (by rw [ht]; exact h)]; rfl

/-- A cell that is neither diagonal nor symmetric. -/
def exampleCell : M3 Rat := ⟨⟨1, 2, 0⟩, ⟨0, 3, 1⟩, ⟨-1, 0, 4⟩⟩

example : exampleCell.toMatrix.det ≠ 0 := by rw [det_toMatrix]; decide +kernel
example : dirToCart (⟨1/2, 1/3, 1⟩ : V3 Rat) exampleCell = ⟨-1/2, 2, 13/3⟩ ∧
    cartToDir (⟨-1/2, 2, 13/3⟩ : V3 Rat) exampleCell = some ⟨1/2, 1/3, 1⟩ := by decide +kernel
example : (exampleCell.transpose.toMatrix.det ≠ 0) := by rw [det_toMatrix]; decide +kernel

end Verif.Lattice
