import Verif.Props.ChgcarAccuracy
import Verif.Props.LatticeRound
/-! # CHGCAR with binary64 arithmetic (C146) -/
set_option autoImplicit false
namespace Verif.Chgcar
open Verif Verif.Utils
open Verif.Lattice (V3 M3)

/-- Every operation is correctly rounded; scalar products are summed from the left. -/
def Machine.ieee (N : Floats) : Machine where
  num := N.near
  read := N.near
  mul x y := N.near (x * y)
  sub x y := N.near (x - y)
  div x y := N.near (x / y)
  dot v w := N.near (N.near (N.near (v.x * w.x) + N.near (v.y * w.y)) + N.near (v.z * w.z))

/-- Zero, and the numbers from the smallest normal number `2^-1022` up to the largest number. -/
def Normal64 (r : Rat) : Prop := r = 0 ∨ 1 / 2 ^ 1022 ≤ |r| ∧ |r| ≤ Floats.binary64.big

theorem near_zero (N : Floats) : N.near 0 = 0 := by
  have := N.near_best 0 0 (by simp) N.zero_mem
  simpa using this

theorem near_normal {r : Rat} (h : Normal64 r) : Floats.binary64.mem (Floats.binary64.near r) ∧ |Floats.binary64.near r - r| ≤ 1 / 2 ^ 52 * |r| := by
  rcases h with rfl | ⟨h1, h2⟩
  · rw [near_zero]; exact ⟨Floats.binary64.zero_mem, by simp⟩
  · refine ⟨Floats.binary64.near_mem _ h2, (Poscar.C111_binary64.close r h2).trans ?_⟩
    have e1 : (1 : Rat) / 2 ^ 1075 = 1 / 2 ^ 53 * (1 / 2 ^ 1022) := by rw [one_div_mul_one_div, ← pow_add]
    have e2 : (1 : Rat) / 2 ^ 52 = 1 / 2 ^ 53 + 1 / 2 ^ 53 := by norm_num
    rw [e1, e2, add_mul]
    have : (0 : Rat) ≤ 1 / 2 ^ 53 := by positivity
    have := mul_le_mul_of_nonneg_left h1 this
    linarith

theorem ieee_accurate (N : Floats) (u d : Rat) (normal : Rat → Prop) (hu : 0 ≤ u) (hd : 0 ≤ d)
    (h : ∀ r, normal r → N.mem (N.near r) ∧ |N.near r - r| ≤ u * |r|)
    (k : ∀ v w : V3 Rat, N.mem v.x → N.mem v.y → N.mem v.z → N.mem w.x → N.mem w.y → N.mem w.z →
      normal (2 * (|v.x * w.x| + |v.y * w.y| + |v.z * w.z|)) →
      |N.near (N.near (N.near (v.x * w.x) + N.near (v.y * w.y)) + N.near (v.z * w.z)) - (v.x * w.x + v.y * w.y + v.z * w.z)| ≤
        d * (|v.x * w.x| + |v.y * w.y| + |v.z * w.z|)) : Accurate (Machine.ieee N) u d normal N.mem :=
  ⟨hu, hd, h, h, fun x y => h (x * y), fun x y => h (x - y), fun x y _ hn => (h (x / y) hn).2, k⟩

theorem dot_normal (N : Floats) (hN : Poscar.Rounding N (1 / 2 ^ 53) (1 / 2 ^ 53 * (1 / 2 ^ 1022))) (v w : V3 Rat) (h1 : N.mem v.x) (h2 : N.mem v.y)
    (h3 : N.mem v.z) (h4 : N.mem w.x) (h5 : N.mem w.y) (h6 : N.mem w.z) (hn : let S := 2 * (|v.x * w.x| + |v.y * w.y| + |v.z * w.z|)
      S = 0 ∨ 1 / 2 ^ 1022 ≤ |S| ∧ |S| ≤ N.big) :
    |N.near (N.near (N.near (v.x * w.x) + N.near (v.y * w.y)) + N.near (v.z * w.z)) - (v.x * w.x + v.y * w.y + v.z * w.z)| ≤
        1 / 2 ^ 49 * (|v.x * w.x| + |v.y * w.y| + |v.z * w.z|) := by
  have hS : 0 ≤ |v.x * w.x| + |v.y * w.y| + |v.z * w.z| := by positivity
  rcases hn with h0 | ⟨hl, hb⟩
  · have ha := abs_nonneg (v.x * w.x)
    have hb := abs_nonneg (v.y * w.y)
    have hc := abs_nonneg (v.z * w.z)
    have ea : v.x * w.x = 0 := abs_eq_zero.1 (by linarith)
    have eb : v.y * w.y = 0 := abs_eq_zero.1 (by linarith)
    have ec : v.z * w.z = 0 := abs_eq_zero.1 (by linarith)
    rw [ea, eb, ec]
    simp [near_zero]
  · rw [abs_of_nonneg (by linarith)] at hl hb
    have h := (Poscar.C111_dot _ _ _ hN (fun _ => none)).err v w ⟨h1, h2, h3⟩ ⟨h4, h5, h6⟩ (by linarith)
    refine h.trans ?_
    generalize |v.x * w.x| + |v.y * w.y| + |v.z * w.z| = S at *
    generalize (1 : Rat) / 2 ^ 1022 = T at *
    norm_num at *
    linarith

/-- **C146**, binary64: IEEE double precision is `Accurate` with `u = 2^-52` and `d = 2^-49` for numbers that neither overflow nor underflow. -/
theorem C146_binary64 : Accurate (Machine.ieee Floats.binary64) (1 / 2 ^ 52) (1 / 2 ^ 49) Normal64 Floats.binary64.mem := by
  have p1 : (0 : Rat) ≤ 1 / 2 ^ 52 := by positivity
  have p2 : (0 : Rat) ≤ 1 / 2 ^ 49 := by positivity
  have hN := Poscar.C111_binary64
  have e1 : (1 : Rat) / 2 ^ 1075 = 1 / 2 ^ 53 * (1 / 2 ^ 1022) := by rw [one_div_mul_one_div, ← pow_add]
  rw [e1] at hN
  exact ieee_accurate _ _ _ _ p1 p2 (fun r h => near_normal h) (fun v w h1 h2 h3 h4 h5 h6 hn => dot_normal _ hN v w h1 h2 h3 h4 h5 h6 hn)

/-! ### the hypotheses -/

theorem near_mem_eq (N : Floats) {r : Rat} (h : N.mem r) : N.near r = r := by
  have := N.near_best r r (N.bound r h) h
  rw [sub_self, abs_zero] at this
  exact sub_eq_zero.1 (abs_eq_zero.1 (le_antisymm this (abs_nonneg _)))

/-- Exact arithmetic is accurate, without any error. -/
theorem exact_accurate : Accurate Machine.exact 0 0 (fun _ => True) (fun _ => True) := by
  refine ⟨le_rfl, le_rfl, ?_, ?_, ?_, ?_, ?_, ?_⟩ <;> intros <;> simp [Machine.exact, V3.dot]

/-- The accuracy theorem on a concrete file. -/
example : ∃ D', Machine.exact.init none (some exampleText) = .ok D' ∧ CloseGrid ((1 + 0) ^ 2 / (1 - 0) - 1) D'.total [[[1, 2]], [[3, 4]]] := by
  obtain ⟨D', h1, h2, _⟩ := C146_accuracy exact_accurate exampleText ⟨[[[1, 2]], [[3, 4]]], .components [[[1/4, 1/2]], [[3/4, 1]]] [[[5/4, 3/2]], [[7/4, 2]]]
    [[[9/4, 5/2]], [[11/4, 3]]]⟩ (by decide +kernel) 0 (by norm_num) (fun scale cell nx ny nz pieces _ => ⟨⟨trivial, ⟨trivial, trivial, trivial, trivial, trivial, trivial⟩,
      ⟨trivial, trivial, trivial, trivial, trivial, trivial⟩, ⟨trivial, trivial, trivial, trivial, trivial, trivial⟩, ⟨trivial, trivial, trivial⟩,
      ⟨trivial, trivial, trivial⟩, ⟨trivial, trivial, trivial⟩, trivial⟩, fun _ _ _ _ _ _ _ _ => ⟨trivial, trivial⟩, by norm_num⟩)
  exact ⟨D', h1, h2⟩

/-- The cell of that file: nothing overflows or underflows on the way to its volume, with any machine numbers that include 1/2, 1, 2 and 4. -/
theorem exampleCell_normal (N : Floats) (normal : Rat → Prop) (nh : N.near (1 / 2) = 1 / 2) (n1 : N.near 1 = 1) (n2 : N.near 2 = 2) (n4 : N.near 4 = 4)
    (k0 : normal 0) (kh : normal (1 / 2)) (k1 : normal 1) (k2 : normal 2) (k4 : normal 4) (k8 : normal 8) :
    CellNormal (Machine.ieee N) normal 2 ⟨⟨1, 0, 0⟩, ⟨0, 1, 0⟩, ⟨0, 0, 1 / 2⟩⟩ := by
  have n0 := near_zero N
  have ea : machineVector (Machine.ieee N) 2 ⟨1, 0, 0⟩ = ⟨2, 0, 0⟩ := by simp [machineVector, Machine.ieee, V3.map, n0, n1, n2]
  have eb : machineVector (Machine.ieee N) 2 ⟨0, 1, 0⟩ = ⟨0, 2, 0⟩ := by simp [machineVector, Machine.ieee, V3.map, n0, n1, n2]
  have ec : machineVector (Machine.ieee N) 2 ⟨0, 0, 1 / 2⟩ = ⟨0, 0, 1⟩ := by
    simp only [machineVector, Machine.ieee, V3.map, n0, n2, nh, mul_zero]
    norm_num [n1]
  have ev : (Machine.ieee N).cross ⟨0, 2, 0⟩ ⟨0, 0, 1⟩ = ⟨2, 0, 0⟩ := by simp [Machine.cross, Machine.ieee, n0, n2]
  refine ⟨k2, ?_, ?_, ?_, ?_, ?_, ?_, ?_⟩
  · constructor <;> simp [Machine.ieee, n0, n1, n2, k0, k1, k2]
  · constructor <;> simp [Machine.ieee, n0, n1, n2, k0, k1, k2]
  · have kh' : normal 2⁻¹ := by simpa using kh
    have nh' : N.near 2⁻¹ = 2⁻¹ := by simpa using nh
    constructor <;> simp [Machine.ieee, n0, n2, nh', k0, kh', k1]
  · rw [eb, ec]; constructor <;> simp [Machine.ieee, n0, n2, k0, k2]
  · rw [eb, ec]; constructor <;> simp [Machine.ieee, n0, k0]
  · rw [eb, ec]; constructor <;> simp [Machine.ieee, n0, k0]
  · rw [ea, eb, ec, ev]
    show normal _
    norm_num
    exact k8

/-- The volume theorem with binary64: it is within `1e-13` of 4. -/
example : |machineVolume (Machine.ieee Floats.binary64) 2 ⟨⟨1, 0, 0⟩, ⟨0, 1, 0⟩, ⟨0, 0, 1 / 2⟩⟩ - 4| ≤ 1 / 10 ^ 13 := by
  have big : (8 : Rat) ≤ Floats.binary64.big := by
    have : 8 ≤ (2 ^ 53 - 1) * 2 ^ 971 := by decide +kernel
    exact_mod_cast this
  have tiny : (1 : Rat) / 2 ^ 1022 ≤ 1 / 2 := one_div_le_one_div_of_le (by norm_num) (le_self_pow₀ (by norm_num) (by norm_num))
  have norm : ∀ r : Rat, 1 / 2 ≤ r → r ≤ 8 → Normal64 r := fun r h1 h2 => .inr (by rw [abs_of_nonneg (by linarith)]; exact ⟨by linarith, by linarith⟩)
  have mem : ∀ (m j : Int), m.natAbs < 2 ^ 53 → -1074 ≤ j → j ≤ 971 → Floats.binary64.near ((m : Rat) * 2 ^ j) = (m : Rat) * 2 ^ j := fun m j h1 h2 h3 =>
    near_mem_eq _ ((Floats.binary64_mem _).2 ⟨m, j, h1, h2, h3, rfl⟩)
  have h := C146_volume C146_binary64 2 ⟨⟨1, 0, 0⟩, ⟨0, 1, 0⟩, ⟨0, 0, 1 / 2⟩⟩ (exampleCell_normal _ _ (by simpa using mem 1 (-1) (by norm_num) (by norm_num) (by norm_num))
    (by simpa using mem 1 0 (by norm_num) (by norm_num) (by norm_num)) (by simpa using mem 1 1 (by norm_num) (by norm_num) (by norm_num))
    (by simpa using mem 4 0 (by norm_num) (by norm_num) (by norm_num)) (.inl rfl) (norm _ (by norm_num) (by norm_num)) (norm _ (by norm_num) (by norm_num))
    (norm _ (by norm_num) (by norm_num)) (norm _ (by norm_num) (by norm_num)) (norm _ (by norm_num) (by norm_num)))
  have e1 : (2 : Rat) ^ 3 * M3.det ⟨⟨1, 0, 0⟩, ⟨0, 1, 0⟩, ⟨0, 0, 1 / 2⟩⟩ = 4 := by norm_num [M3.det]
  have e2 : absTriple 2 ⟨⟨1, 0, 0⟩, ⟨0, 1, 0⟩, ⟨0, 0, 1 / 2⟩⟩ = 4 := by norm_num [absTriple]
  rw [e1, e2] at h
  exact h.trans (by norm_num)

end Verif.Chgcar
