import Verif.Model.PoscarMachine
import Verif.Props.StableFloats
import Verif.Props.Lattice
import Mathlib.Algebra.Order.Field.Power
import Mathlib.Tactic.Linarith
import Mathlib.Data.Int.Log
import Mathlib.Data.Rat.Floor
/-! # C111: the coordinate functions with machine arithmetic -/
set_option autoImplicit false
namespace Verif.Poscar
open Verif Verif.Lattice

/-! ### specification -/

/-- A vector of machine numbers. -/
structure MemV (N : Floats) (v : Vec) : Prop where
  x : N.mem v.x
  y : N.mem v.y
  z : N.mem v.z

/-- All components are at most `b` in absolute value. -/
structure AtMost (b : Rat) (v : Vec) : Prop where
  x : |v.x| ≤ b
  y : |v.y| ≤ b
  z : |v.z| ≤ b

/-- All components differ by at most `b`. -/
structure Within (b : Rat) (v w : Vec) : Prop where
  x : |v.x - w.x| ≤ b
  y : |v.y - w.y| ≤ b
  z : |v.z - w.z| ≤ b

/-- Likewise for matrices. -/
structure MemM (N : Floats) (m : Cell) : Prop where
  row1 : MemV N m.a
  row2 : MemV N m.b
  row3 : MemV N m.c

/-- Likewise for matrices. -/
structure AtMostM (b : Rat) (m : Cell) : Prop where
  row1 : AtMost b m.a
  row2 : AtMost b m.b
  row3 : AtMost b m.c

/-- Likewise for matrices. -/
structure WithinM (b : Rat) (m n : Cell) : Prop where
  row1 : Within b m.a n.a
  row2 : Within b m.b n.b
  row3 : Within b m.c n.c

/-- The product of two matrices. -/
def matMul (p q : Cell) : Cell := ⟨p.a.mul q, p.b.mul q, p.c.mul q⟩

/-- The unit matrix. -/
def unit : Cell := ⟨⟨1, 0, 0⟩, ⟨0, 1, 0⟩, ⟨0, 0, 1⟩⟩

/-- Scalar products of machine vectors are machine numbers with relative error `γ` (of the sum of the absolute values) and absolute error `τ`,
unless they come near to the largest number. -/
structure DotOk (A : Arith) (N : Floats) (γ τ : Rat) : Prop where
  γ_nonneg : 0 ≤ γ
  τ_nonneg : 0 ≤ τ
  mem : ∀ v w : Vec, MemV N v → MemV N w → |v.x * w.x| + |v.y * w.y| + |v.z * w.z| ≤ N.big / 2 → N.mem (A.dot v w)
  err : ∀ v w : Vec, MemV N v → MemV N w → |v.x * w.x| + |v.y * w.y| + |v.z * w.z| ≤ N.big / 2 →
    |A.dot v w - (v.x * w.x + v.y * w.y + v.z * w.z)| ≤ γ * (|v.x * w.x| + |v.y * w.y| + |v.z * w.z|) + τ

/-- Every number up to the largest one has a machine number near to it: relative error `u` or absolute error `t`. -/
structure Rounding (N : Floats) (u t : Rat) : Prop where
  u_nonneg : 0 ≤ u
  t_nonneg : 0 ≤ t
  u_small : u ≤ 1 / 8
  t_small : t ≤ N.big / 32
  close : ∀ r : Rat, |r| ≤ N.big → |N.near r - r| ≤ u * |r| + t

/-! ### binary64 -/

theorem near_of_exists {N : Floats} {r d : Rat} (hr : |r| ≤ N.big) (h : ∃ x, N.mem x ∧ |x - r| ≤ d) : |N.near r - r| ≤ d := by
  obtain ⟨x, hx, hd⟩ := h
  exact (N.near_best r x hr hx).trans hd

theorem binary64_near_pos {r : Rat} (hr : 0 < r) (hb : r ≤ ((2 ^ 53 - 1) * 2 ^ 971 : Nat)) :
    ∃ x, Floats.binary64.mem x ∧ |x - r| ≤ (1 / 2 ^ 53) * r + 1 / 2 ^ 1075 := by
  -- the exponent
  have hlog1 : (2 : Rat) ^ Int.log 2 r ≤ r := by exact_mod_cast Int.zpow_log_le_self (b := 2) (by norm_num) hr
  have hlog2 : r < (2 : Rat) ^ (Int.log 2 r + 1) := by exact_mod_cast Int.lt_zpow_succ_log_self (b := 2) (by norm_num) r
  generalize Int.log 2 r = l at hlog1 hlog2
  obtain ⟨j, hj⟩ : ∃ j : Int, j = max (l - 52) (-1074) := ⟨_, rfl⟩
  have hj1 : -1074 ≤ j := by omega
  have hj2 : l - 52 ≤ j := by omega
  have h2j : (0 : Rat) < 2 ^ j := zpow_pos (by norm_num) j
  have hl971 : l ≤ 1023 := by
    by_contra hc
    have h1 : (2 : Rat) ^ (1024 : Int) ≤ 2 ^ l := zpow_le_zpow_right₀ (by norm_num) (by omega)
    have h2 : (2 : Rat) ^ (1024 : Int) ≤ ((2 ^ 53 - 1) * 2 ^ 971 : Nat) := h1.trans (hlog1.trans hb)
    have h3 : (2 : Rat) ^ (1024 : Int) = ((2 ^ 1024 : Nat) : Rat) := by
      rw [Nat.cast_pow]; exact zpow_natCast (2 : Rat) 1024
    rw [h3] at h2
    have h4 : (2 ^ 1024 : Nat) ≤ (2 ^ 53 - 1) * 2 ^ 971 := by exact_mod_cast h2
    exact absurd h4 (by decide +kernel)
  have hj3 : j ≤ 971 := by omega
  -- the quotient
  have hq : r / 2 ^ j < 2 ^ 53 := by
    rw [div_lt_iff₀ h2j]
    calc r < (2 : Rat) ^ (l + 1) := hlog2
      _ ≤ 2 ^ (53 + j) := zpow_le_zpow_right₀ (by norm_num) (by omega)
      _ = 2 ^ 53 * 2 ^ j := by rw [zpow_add₀ (by norm_num)]; congr 1
  have hqn : 0 ≤ r / 2 ^ j := (div_pos hr h2j).le
  have hfl : ((⌊r / 2 ^ j⌋ : Int) : Rat) ≤ r / 2 ^ j := Int.floor_le _
  have hfl2 : r / 2 ^ j < (⌊r / 2 ^ j⌋ : Int) + 1 := Int.lt_floor_add_one _
  have hf0 : 0 ≤ ⌊r / 2 ^ j⌋ := Int.floor_nonneg.2 hqn
  have hflt : ⌊r / 2 ^ j⌋ < 2 ^ 53 := by
    have : ((⌊r / 2 ^ j⌋ : Int) : Rat) < 2 ^ 53 := lt_of_le_of_lt hfl hq
    exact_mod_cast this
  generalize ⌊r / 2 ^ j⌋ = m at *
  -- both neighbours are machine numbers
  have hm1 : Floats.binary64.mem (m * (2 : Rat) ^ j) := (Floats.binary64_mem _).2 ⟨m, j, by omega, hj1, hj3, rfl⟩
  have herr : (2 : Rat) ^ j / 2 ≤ (1 / 2 ^ 53) * r + 1 / 2 ^ 1075 := by
    rcases le_or_gt (-1074) (l - 52) with h | h
    · have : j = l - 52 := by omega
      rw [this, zpow_sub₀ (by norm_num)]
      have h52 : (2 : Rat) ^ (52 : Int) = 2 ^ 52 := zpow_natCast (2 : Rat) 52
      rw [h52]
      have : (2 : Rat) ^ l / 2 ^ 52 / 2 = (1 / 2 ^ 53) * 2 ^ l := by rw [div_div]; ring
      rw [this]
      have h0 : (0 : Rat) ≤ 1 / 2 ^ 1075 := by positivity
      have := mul_le_mul_of_nonneg_left hlog1 (by positivity : (0 : Rat) ≤ 1 / 2 ^ 53)
      linarith
    · have : j = -1074 := by omega
      rw [this]
      have e : (2 : Rat) ^ (-1074 : Int) / 2 = 1 / 2 ^ 1075 := by
        rw [zpow_neg, pow_succ]
        have : (2 : Rat) ^ (1074 : Int) = 2 ^ 1074 := zpow_natCast (2 : Rat) 1074
        rw [this]; ring
      rw [e]
      have : (0 : Rat) ≤ 1 / 2 ^ 53 * r := by positivity
      linarith
  rcases le_or_gt (r / 2 ^ j - m) (1 / 2) with h | h
  · refine ⟨m * 2 ^ j, hm1, le_trans ?_ herr⟩
    rw [abs_sub_comm, abs_of_nonneg (by rw [sub_nonneg]; exact (le_div_iff₀ h2j).1 hfl)]
    have : r - m * 2 ^ j = (r / 2 ^ j - m) * 2 ^ j := by rw [sub_mul, div_mul_cancel₀ _ h2j.ne']
    rw [this]
    have := mul_le_mul_of_nonneg_right h h2j.le
    linarith
  · have hm2 : Floats.binary64.mem ((m + 1 : Int) * (2 : Rat) ^ j) := by
      by_cases hlt : m + 1 < 2 ^ 53
      · exact (Floats.binary64_mem _).2 ⟨m + 1, j, by omega, hj1, hj3, rfl⟩
      · have hm : m + 1 = 2 ^ 53 := by omega
        rw [hm]
        by_cases hj971 : j < 971
        · refine (Floats.binary64_mem _).2 ⟨2 ^ 52, j + 1, by norm_num, by omega, by omega, ?_⟩
          rw [zpow_add₀ (by norm_num)]
          push_cast
          ring
        · exfalso
          have hj9 : j = 971 := by omega
          have hmm : m = 2 ^ 53 - 1 := by omega
          rw [hj9, hmm] at h
          have h3 : (2 : Rat) ^ (971 : Int) = 2 ^ 971 := zpow_natCast (2 : Rat) 971
          rw [h3] at h
          have hp : (0 : Rat) < 2 ^ 971 := by positivity
          have hb' : r / 2 ^ 971 ≤ 2 ^ 53 - 1 := by
            rw [div_le_iff₀ hp]
            have e : (((2 ^ 53 - 1) * 2 ^ 971 : Nat) : Rat) = (2 ^ 53 - 1) * 2 ^ 971 := by
              rw [Nat.cast_mul, Nat.cast_pow, Nat.cast_sub (by norm_num)]; norm_num
            rw [← e]
            exact hb
          push_cast at h
          linarith
    refine ⟨_, hm2, le_trans ?_ herr⟩
    have e : ((m + 1 : Int) : Rat) * 2 ^ j - r = ((m + 1 : Rat) - r / 2 ^ j) * 2 ^ j := by
      rw [sub_mul, div_mul_cancel₀ _ h2j.ne']; push_cast; ring
    rw [e, abs_of_nonneg (mul_nonneg (by linarith) h2j.le)]
    have := mul_le_mul_of_nonneg_right (by linarith : (m + 1 : Rat) - r / 2 ^ j ≤ 1 / 2) h2j.le
    linarith

theorem binary64_mem_neg {x : Rat} (h : Floats.binary64.mem x) : Floats.binary64.mem (-x) := by
  obtain ⟨m, j, h1, h2, h3, h4⟩ := (Floats.binary64_mem x).1 h
  exact (Floats.binary64_mem _).2 ⟨-m, j, by simpa using h1, h2, h3, by rw [h4]; push_cast; ring⟩

/-- C111: binary64 has, for every number up to its largest one, a number with relative error at most 2^-53 or absolute error at most 2^-1075. -/
theorem C111_binary64 : Rounding Floats.binary64 (1 / 2 ^ 53) (1 / 2 ^ 1075) := by
  have hbig : Floats.binary64.big = (2 ^ 53 - 1) * 2 ^ 971 := rfl
  refine ⟨by positivity, by positivity, by norm_num, ?_, ?_⟩
  · rw [hbig]
    have h1 : (1 : Rat) / 2 ^ 1075 ≤ 1 := by
      rw [div_le_one (by positivity)]
      exact one_le_pow₀ (by norm_num)
    have h2 : (32 : Rat) ≤ ((2 ^ 53 - 1) * 2 ^ 971 : Nat) := by
      have : 32 ≤ (2 ^ 53 - 1) * 2 ^ 971 := by decide +kernel
      exact_mod_cast this
    generalize (((2 ^ 53 - 1) * 2 ^ 971 : Nat) : Rat) = B at *
    generalize (1 : Rat) / 2 ^ 1075 = T at *
    linarith
  · intro r hr
    apply near_of_exists hr
    rw [hbig] at hr
    rcases lt_trichotomy r 0 with h | h | h
    · obtain ⟨x, hx, hd⟩ := binary64_near_pos (r := -r) (by linarith) (by rw [abs_of_neg h] at hr; exact hr)
      refine ⟨-x, binary64_mem_neg hx, ?_⟩
      rw [abs_of_neg h, ← abs_neg]
      rw [show -(-x - r) = x - -r by ring]
      exact hd
    · subst h
      refine ⟨0, Floats.binary64.zero_mem, ?_⟩
      simp
    · rw [abs_of_pos h] at hr ⊢
      exact binary64_near_pos h hr

/-! ### scalar products -/

/-- Correctly rounded operations, from left to right, without fused multiply-add. -/
def Arith.ieee (N : Floats) (inv : Cell → Option Cell) : Arith where
  num := N.near
  mul a b := N.near (a * b)
  dot v w := N.near (N.near (N.near (v.x * w.x) + N.near (v.y * w.y)) + N.near (v.z * w.z))
  inv := inv

theorem abs_le_of_near {a b d : Rat} (h : |a - b| ≤ d) : |a| ≤ |b| + d := by
  have := abs_le.1 h
  rw [abs_le]
  constructor
  · linarith [neg_abs_le b]
  · linarith [le_abs_self b]

/-- C111: scalar products with correctly rounded operations have a relative error of about three roundings. -/
theorem C111_dot (N : Floats) (u t : Rat) (h : Rounding N u t) (inv : Cell → Option Cell) :
    DotOk (Arith.ieee N inv) N ((1 + u) ^ 3 - 1) (t * (5 + 6 * u + 2 * u ^ 2)) := by
  have hu := h.u_nonneg
  have ht := h.t_nonneg
  have hu8 := h.u_small
  have ht32 := h.t_small
  have key : ∀ v w : Vec, |v.x * w.x| + |v.y * w.y| + |v.z * w.z| ≤ N.big / 2 → N.mem ((Arith.ieee N inv).dot v w) ∧
      |(Arith.ieee N inv).dot v w - (v.x * w.x + v.y * w.y + v.z * w.z)| ≤
        ((1 + u) ^ 3 - 1) * (|v.x * w.x| + |v.y * w.y| + |v.z * w.z|) + t * (5 + 6 * u + 2 * u ^ 2) := by
    intro v w hs
    show N.mem (N.near (N.near (N.near (v.x * w.x) + N.near (v.y * w.y)) + N.near (v.z * w.z))) ∧ |N.near (N.near (N.near (v.x * w.x) + N.near (v.y * w.y)) + N.near (v.z * w.z)) - (v.x * w.x + v.y * w.y + v.z * w.z)| ≤ _
    generalize v.x * w.x = a at *
    generalize v.y * w.y = b at *
    generalize v.z * w.z = c at *
    have ha := abs_nonneg a
    have hb := abs_nonneg b
    have hc := abs_nonneg c
    have h1 := h.close a (by linarith)
    have h2 := h.close b (by linarith)
    have h3 := h.close c (by linarith)
    generalize N.near a = p at *
    generalize N.near b = q at *
    generalize N.near c = r at *
    have hpq : |p + q - (a + b)| ≤ u * (|a| + |b|) + 2 * t := by
      have := abs_add_le (p - a) (q - b)
      rw [show p + q - (a + b) = (p - a) + (q - b) by ring]
      linarith
    have hab := abs_add_le a b
    have hpq' := abs_le_of_near hpq
    have huA : u * (|a| + |b|) ≤ (1 / 8) * (|a| + |b|) := mul_le_mul_of_nonneg_right hu8 (by linarith)
    have h4 := h.close (p + q) (by linarith)
    have hu4 : u * |p + q| ≤ u * ((1 + u) * (|a| + |b|) + 2 * t) := mul_le_mul_of_nonneg_left (by linarith) hu
    generalize N.near (p + q) = s at *
    have hs1 : |s - (a + b)| ≤ (2 * u + u ^ 2) * (|a| + |b|) + (3 * t + 2 * (u * t)) := by
      have := abs_add_le (s - (p + q)) (p + q - (a + b))
      rw [show s - (a + b) = (s - (p + q)) + (p + q - (a + b)) by ring]
      linarith
    have hsr : |s + r - (a + b + c)| ≤ (2 * u + u ^ 2) * (|a| + |b|) + u * |c| + (4 * t + 2 * (u * t)) := by
      have := abs_add_le (s - (a + b)) (r - c)
      rw [show s + r - (a + b + c) = (s - (a + b)) + (r - c) by ring]
      linarith
    have habc := abs_add_le (a + b) c
    have hsr' := abs_le_of_near hsr
    have hut : u * t ≤ (1 / 8) * t := mul_le_mul_of_nonneg_right hu8 ht
    have huc : u * |c| ≤ (1 / 8) * |c| := mul_le_mul_of_nonneg_right hu8 hc
    have hu2 : u ^ 2 ≤ 1 / 64 := by nlinarith
    have hu2A : u ^ 2 * (|a| + |b|) ≤ (1 / 64) * (|a| + |b|) := mul_le_mul_of_nonneg_right hu2 (by linarith)
    have hfit : |s + r| ≤ N.big := by linarith
    have h5 := h.close (s + r) hfit
    have hmem := N.near_mem (s + r) hfit
    have hu5 : u * |s + r| ≤ u * ((1 + 2 * u + u ^ 2) * (|a| + |b|) + (1 + u) * |c| + (4 * t + 2 * (u * t))) := by
      apply mul_le_mul_of_nonneg_left _ hu
      linarith
    generalize N.near (s + r) = z at *
    refine ⟨hmem, ?_⟩
    have := abs_add_le (z - (s + r)) (s + r - (a + b + c))
    rw [show z - (a + b + c) = (z - (s + r)) + (s + r - (a + b + c)) by ring]
    have hc2 : (0 : Rat) ≤ (u ^ 3 + 2 * u ^ 2 + u) * |c| := by positivity
    linarith
  refine ⟨?_, by positivity, fun v w _ _ hs => (key v w hs).1, fun v w _ _ hs => (key v w hs).2⟩
  have : (1 : Rat) ≤ (1 + u) ^ 3 := one_le_pow₀ (by linarith)
  linarith

/-! ### products with matrices -/

/-- Error of a scalar product of vectors with components up to `a` and `b`. -/
def dotErr (γ τ a b : Rat) : Rat := γ * (3 * a * b) + τ

theorem abs3 {a b : Rat} {v w : Vec} (hv : AtMost a v) (hw : AtMost b w) : |v.x * w.x| + |v.y * w.y| + |v.z * w.z| ≤ 3 * a * b := by
  have h : ∀ {p q : Rat}, |p| ≤ a → |q| ≤ b → |p * q| ≤ a * b := fun hp hq => by
    rw [abs_mul]; exact mul_le_mul hp hq (abs_nonneg _) ((abs_nonneg _).trans hp)
  have h1 := h hv.x hw.x
  have h2 := h hv.y hw.y
  have h3 := h hv.z hw.z
  linarith

theorem abs_sum3 {a b : Rat} {v w : Vec} (hv : AtMost a v) (hw : AtMost b w) : |v.x * w.x + v.y * w.y + v.z * w.z| ≤ 3 * a * b := by
  have h1 := abs_add_le (v.x * w.x + v.y * w.y) (v.z * w.z)
  have h2 := abs_add_le (v.x * w.x) (v.y * w.y)
  have := abs3 hv hw
  linarith

theorem MemM.transpose {N : Floats} {m : Cell} (h : MemM N m) : MemM N m.transpose :=
  ⟨⟨h.row1.x, h.row2.x, h.row3.x⟩, ⟨h.row1.y, h.row2.y, h.row3.y⟩, ⟨h.row1.z, h.row2.z, h.row3.z⟩⟩

theorem AtMostM.transpose {b : Rat} {m : Cell} (h : AtMostM b m) : AtMostM b m.transpose :=
  ⟨⟨h.row1.x, h.row2.x, h.row3.x⟩, ⟨h.row1.y, h.row2.y, h.row3.y⟩, ⟨h.row1.z, h.row2.z, h.row3.z⟩⟩

variable {A : Arith} {N : Floats} {γ τ : Rat}

theorem DotOk.bound (h : DotOk A N γ τ) {a b : Rat} {v w : Vec} (mv : MemV N v) (mw : MemV N w) (hv : AtMost a v) (hw : AtMost b w)
    (hf : 3 * a * b ≤ N.big / 2) : N.mem (A.dot v w) ∧ |A.dot v w - (v.x * w.x + v.y * w.y + v.z * w.z)| ≤ dotErr γ τ a b := by
  have h3 := abs3 hv hw
  refine ⟨h.mem v w mv mw (h3.trans hf), (h.err v w mv mw (h3.trans hf)).trans ?_⟩
  unfold dotErr
  have := mul_le_mul_of_nonneg_left h3 h.γ_nonneg
  linarith

theorem DotOk.vecMul (h : DotOk A N γ τ) {a b : Rat} {v : Vec} {m : Cell} (mv : MemV N v) (mm : MemM N m) (hv : AtMost a v) (hm : AtMostM b m)
    (hf : 3 * a * b ≤ N.big / 2) : MemV N (A.vecMul v m) ∧ Within (dotErr γ τ a b) (A.vecMul v m) (v.mul m) := by
  have h1 := h.bound mv mm.transpose.row1 hv hm.transpose.row1 hf
  have h2 := h.bound mv mm.transpose.row2 hv hm.transpose.row2 hf
  have h3 := h.bound mv mm.transpose.row3 hv hm.transpose.row3 hf
  exact ⟨⟨h1.1, h2.1, h3.1⟩, ⟨h1.2, h2.2, h3.2⟩⟩

theorem Within.atMost {d a : Rat} {v w : Vec} (h : Within d v w) (hw : AtMost a w) : AtMost (a + d) v :=
  ⟨(abs_le_of_near h.x).trans (by linarith [hw.x]), (abs_le_of_near h.y).trans (by linarith [hw.y]), (abs_le_of_near h.z).trans (by linarith [hw.z])⟩

theorem atMost_mul {a b : Rat} {v : Vec} {m : Cell} (hv : AtMost a v) (hm : AtMostM b m) : AtMost (3 * a * b) (v.mul m) :=
  ⟨abs_sum3 hv hm.transpose.row1, abs_sum3 hv hm.transpose.row2, abs_sum3 hv hm.transpose.row3⟩

theorem Within.trans {d e : Rat} {u v w : Vec} (h : Within d u v) (h' : Within e v w) : Within (d + e) u w := by
  have key : ∀ {a b c : Rat}, |a - b| ≤ d → |b - c| ≤ e → |a - c| ≤ d + e := fun {a b c} h1 h2 => by
    have := abs_add_le (a - b) (b - c)
    rw [show a - c = (a - b) + (b - c) by ring]
    linarith
  exact ⟨key h.x h'.x, key h.y h'.y, key h.z h'.z⟩

theorem Within.mono {d e : Rat} {v w : Vec} (h : Within d v w) (hd : d ≤ e) : Within e v w := ⟨h.x.trans hd, h.y.trans hd, h.z.trans hd⟩

theorem Within.mul {d b : Rat} {v w : Vec} {m : Cell} (h : Within d v w) (hm : AtMostM b m) : Within (3 * d * b) (v.mul m) (w.mul m) := by
  have hd : AtMost d (⟨v.x - w.x, v.y - w.y, v.z - w.z⟩ : Vec) := ⟨h.x, h.y, h.z⟩
  have key : ∀ {r : Vec}, AtMost b r → |v.dot r - w.dot r| ≤ 3 * d * b := fun {r} hr => by
    have := abs_sum3 hd hr
    rw [show v.dot r - w.dot r = (v.x - w.x) * r.x + (v.y - w.y) * r.y + (v.z - w.z) * r.z by unfold V3.dot; ring]
    exact this
  exact ⟨key hm.transpose.row1, key hm.transpose.row2, key hm.transpose.row3⟩

theorem mul_mul (v : Vec) (p q : Cell) : (v.mul p).mul q = v.mul (matMul p q) := by
  simp only [V3.mul, matMul, V3.dot, M3.transpose]
  ext <;> simp only <;> ring

theorem mul_unit (v : Vec) : v.mul unit = v := by
  simp only [V3.mul, V3.dot, M3.transpose, unit]
  ext <;> simp

theorem mul_near_unit {a η : Rat} {v : Vec} {m : Cell} (hv : AtMost a v) (hm : WithinM η m unit) : Within (3 * a * η) (v.mul m) v := by
  have hd : AtMostM η (⟨⟨m.a.x - 1, m.a.y - 0, m.a.z - 0⟩, ⟨m.b.x - 0, m.b.y - 1, m.b.z - 0⟩, ⟨m.c.x - 0, m.c.y - 0, m.c.z - 1⟩⟩ : Cell) :=
    ⟨⟨hm.row1.x, hm.row1.y, hm.row1.z⟩, ⟨hm.row2.x, hm.row2.y, hm.row2.z⟩, ⟨hm.row3.x, hm.row3.y, hm.row3.z⟩⟩
  have h1 := abs_sum3 hv hd.transpose.row1
  have h2 := abs_sum3 hv hd.transpose.row2
  have h3 := abs_sum3 hv hd.transpose.row3
  simp only [M3.transpose] at h1 h2 h3
  refine ⟨?_, ?_, ?_⟩ <;> simp only [V3.mul, V3.dot, M3.transpose]
  · refine le_of_eq_of_le (congrArg _ ?_) h1; ring
  · refine le_of_eq_of_le (congrArg _ ?_) h2; ring
  · refine le_of_eq_of_le (congrArg _ ?_) h3; ring

/-- Error of multiplying with two matrices whose product is the unit matrix up to `η`: vectors up to `a`, matrices up to `p` and `q`. -/
def backErr (γ τ η a p q : Rat) : Rat :=
  3 * a * η + 3 * dotErr γ τ a p * q + dotErr γ τ (3 * a * p + dotErr γ τ a p) q

theorem there_and_back (h : DotOk A N γ τ) {a p q η : Rat} {v : Vec} {P Q : Cell} (mv : MemV N v) (mP : MemM N P) (mQ : MemM N Q)
    (hv : AtMost a v) (hP : AtMostM p P) (hQ : AtMostM q Q) (hη : WithinM η (matMul P Q) unit) (f1 : 3 * a * p ≤ N.big / 2)
    (f2 : 3 * (3 * a * p + dotErr γ τ a p) * q ≤ N.big / 2) : Within (backErr γ τ η a p q) (A.vecMul (A.vecMul v P) Q) v := by
  obtain ⟨m1, w1⟩ := h.vecMul mv mP hv hP f1
  have hw : AtMost (3 * a * p + dotErr γ τ a p) (A.vecMul v P) := w1.atMost (atMost_mul hv hP)
  obtain ⟨_, w2⟩ := h.vecMul m1 mQ hw hQ f2
  have w3 := w1.mul hQ
  rw [mul_mul] at w3
  have := (w2.trans w3).trans (mul_near_unit hv hη)
  exact this.mono (by unfold backErr; linarith)

/-! ### C111 -/

/-- The cell `c` is invertible for the machine: `np.linalg.inv` returns a matrix of machine numbers whose product with `c` (in exact arithmetic,
from the left and from the right) is the unit matrix up to `η`. -/
structure Inverted (A : Arith) (N : Floats) (η y : Rat) (c Y : Cell) : Prop where
  returns : A.inv c = some Y
  mem : MemM N Y
  bound : AtMostM y Y
  left : WithinM η (matMul Y c) unit
  right : WithinM η (matMul c Y) unit

/-- C111: converting cartesian coordinates to direct ones and back gives the same coordinates up to a bound that is stated: three times the
residual of the inverse and nine or eighteen times the error of a scalar product. -/
theorem C111_cart_dir_cart (h : DotOk A N γ τ) (a k y η : Rat) (v : Vec) (c Y : Cell) (mv : MemV N v) (mc : MemM N c) (hv : AtMost a v)
    (hc : AtMostM k c) (hi : Inverted A N η y c Y) (f1 : 3 * a * y ≤ N.big / 2) (f2 : 3 * (3 * a * y + dotErr γ τ a y) * k ≤ N.big / 2) :
    ∃ w, A.toDir v c = some w ∧ Within (3 * a * η + 3 * dotErr γ τ a y * k + dotErr γ τ (3 * a * y + dotErr γ τ a y) k) (A.toCart w c) v := by
  refine ⟨A.vecMul v Y, by unfold Arith.toDir; rw [hi.returns]; rfl, ?_⟩
  exact there_and_back h mv hi.mem mc hv hi.bound hc hi.left f1 f2

/-- C111: likewise from direct to cartesian coordinates and back. -/
theorem C111_dir_cart_dir (h : DotOk A N γ τ) (a k y η : Rat) (v : Vec) (c Y : Cell) (mv : MemV N v) (mc : MemM N c) (hv : AtMost a v)
    (hc : AtMostM k c) (hi : Inverted A N η y c Y) (f1 : 3 * a * k ≤ N.big / 2) (f2 : 3 * (3 * a * k + dotErr γ τ a k) * y ≤ N.big / 2) :
    ∃ w, A.toDir (A.toCart v c) c = some w ∧
      Within (3 * a * η + 3 * dotErr γ τ a k * y + dotErr γ τ (3 * a * k + dotErr γ τ a k) y) w v := by
  refine ⟨A.vecMul (A.toCart v c) Y, by unfold Arith.toDir; rw [hi.returns]; rfl, ?_⟩
  exact there_and_back h mv mc hi.mem hv hc hi.bound hi.right f1 f2

/-- C111: the cartesian coordinates computed differ from the exact ones by at most the error of a scalar product. -/
theorem C111_toCart (h : DotOk A N γ τ) (a k : Rat) (v : Vec) (c : Cell) (mv : MemV N v) (mc : MemM N c) (hv : AtMost a v) (hc : AtMostM k c)
    (f : 3 * a * k ≤ N.big / 2) : MemV N (A.toCart v c) ∧ Within (dotErr γ τ a k) (A.toCart v c) (dirToCart v c) :=
  h.vecMul mv mc hv hc f

/-- C111: the direct coordinates computed differ from the exact ones by at most nine times the residual (times the sizes of the vector and of the
exact inverse) and the error of a scalar product. -/
theorem C111_toDir (h : DotOk A N γ τ) (a y z η : Rat) (v w : Vec) (c Y : Cell) (mv : MemV N v) (hv : AtMost a v) (hi : Inverted A N η y c Y)
    (hw : cartToDir v c = some w) (hz : ∀ Z, c.inv = some Z → AtMostM z Z) (f : 3 * a * y ≤ N.big / 2) :
    ∃ w', A.toDir v c = some w' ∧ MemV N w' ∧ Within (9 * a * η * z + dotErr γ τ a y) w' w := by
  obtain ⟨m1, w1⟩ := h.vecMul mv hi.mem hv hi.bound f
  refine ⟨A.vecMul v Y, by unfold Arith.toDir; rw [hi.returns]; rfl, m1, ?_⟩
  unfold cartToDir at hw
  cases hinv : c.inv with
  | none => rw [hinv] at hw; cases hw
  | some Z =>
    rw [hinv] at hw
    cases hw
    have hone : matMul c Z = unit := by
      unfold M3.inv at hinv
      by_cases hd : c.det = 0
      · rw [if_pos hd] at hinv; cases hinv
      · rw [if_neg hd] at hinv
        cases hinv
        simp only [matMul, unit, V3.mul, V3.dot, M3.transpose, M3.map, V3.map, M3.adj]
        have e : ∀ s : Rat, s = c.det → s / c.det = 1 := fun s hs => by rw [hs]; exact div_self hd
        have e0 : ∀ s : Rat, s = 0 → s / c.det = 0 := fun s hs => by rw [hs]; exact zero_div _
        have hdet : c.det = c.a.x * (c.b.y * c.c.z - c.b.z * c.c.y) - c.a.y * (c.b.x * c.c.z - c.b.z * c.c.x) +
          c.a.z * (c.b.x * c.c.y - c.b.y * c.c.x) := rfl
        ext <;> simp only [mul_div_assoc', ← add_div]
        · apply e; rw [hdet]; ring
        · apply e0; ring
        · apply e0; ring
        · apply e0; ring
        · apply e; rw [hdet]; ring
        · apply e0; ring
        · apply e0; ring
        · apply e0; ring
        · apply e; rw [hdet]; ring
    have hYZ : v.mul Y = ((v.mul Y).mul c).mul Z := by rw [mul_mul (v.mul Y) c Z, hone, mul_unit]
    have hn : Within (3 * a * η) ((v.mul Y).mul c) v := by rw [mul_mul]; exact mul_near_unit hv hi.left
    have h3 := hn.mul (hz Z hinv)
    rw [← hYZ] at h3
    exact (w1.trans h3).mono (by linarith)

theorem reciprocal_bound (u t p k y η : Rat) (c Y : Cell) (hmul : ∀ x, |x| ≤ y → |A.mul p x - p * x| ≤ u * |p * x| + t)
    (hc : AtMostM k c) (hy : AtMostM y Y) (hr : WithinM η (matMul Y c.transpose) unit) (hu : 0 ≤ u) :
    WithinM (|p| * η + 3 * (u * (|p| * y) + t) * k) (matMul (Y.map (A.mul p)) c.transpose) ⟨⟨p, 0, 0⟩, ⟨0, p, 0⟩, ⟨0, 0, p⟩⟩ := by
  have hrow : ∀ r : Vec, AtMost y r → Within (u * (|p| * y) + t) (r.map (A.mul p)) (r.map (p * ·)) := by
    intro r hr
    have key : ∀ x : Rat, |x| ≤ y → |A.mul p x - p * x| ≤ u * (|p| * y) + t := fun x hx => by
      refine (hmul x hx).trans ?_
      rw [abs_mul]
      have := mul_le_mul_of_nonneg_left (mul_le_mul_of_nonneg_left hx (abs_nonneg p)) hu
      linarith
    exact ⟨key _ hr.x, key _ hr.y, key _ hr.z⟩
  have hsc : ∀ (r e : Vec), Within η (r.mul c.transpose) e → Within (|p| * η) ((r.map (p * ·)).mul c.transpose) (e.map (p * ·)) := by
    intro r e he
    have key : ∀ s e' : Rat, ∀ q : Vec, |r.dot q - e'| ≤ η → |(r.map (p * ·)).dot q - p * e'| ≤ |p| * η := fun s e' q h => by
      rw [show (r.map (p * ·)).dot q - p * e' = p * (r.dot q - e') by simp only [V3.map, V3.dot]; ring, abs_mul]
      exact mul_le_mul_of_nonneg_left h (abs_nonneg p)
    exact ⟨key 0 _ _ he.x, key 0 _ _ he.y, key 0 _ _ he.z⟩
  have all : ∀ (r e : Vec), AtMost y r → Within η (r.mul c.transpose) e →
      Within (|p| * η + 3 * (u * (|p| * y) + t) * k) ((r.map (A.mul p)).mul c.transpose) (e.map (p * ·)) := fun r e hr he =>
    (((hrow r hr).mul hc.transpose).trans (hsc r e he)).mono (by linarith)
  have h1 := all _ _ hy.row1 hr.row1
  have h2 := all _ _ hy.row2 hr.row2
  have h3 := all _ _ hy.row3 hr.row3
  simp only [V3.map, unit, mul_one, mul_zero] at h1 h2 h3
  exact ⟨h1, h2, h3⟩

/-- C111: the reciprocal lattice computed (`mul` with relative error `u` and absolute error `t`, `p` the machine number for 2π): the scalar products
of its vectors with the lattice vectors are `p` (for the same index) or 0 up to a bound. -/
theorem C111_reciprocal (u t p k y η : Rat) (c Y : Cell) (hmul : ∀ x, |x| ≤ y → |A.mul p x - p * x| ≤ u * |p * x| + t)
    (hc : AtMostM k c) (hi : Inverted A N η y c.transpose Y) (hu : 0 ≤ u) :
    ∃ r, A.latToReclat p c = some r ∧
      (∀ i j : Fin 3, |r.toMatrix i ⬝ᵥ c.toMatrix j - if i = j then p else 0| ≤ |p| * η + 3 * (u * (|p| * y) + t) * k) := by
  refine ⟨Y.map (A.mul p), by unfold Arith.latToReclat; rw [hi.returns]; rfl, ?_⟩
  have h := reciprocal_bound u t p k y η c Y hmul hc hi.bound hi.left hu
  have e : ∀ i j : Fin 3, (Y.map (A.mul p)).toMatrix i ⬝ᵥ c.toMatrix j = (matMul (Y.map (A.mul p)) c.transpose).toMatrix i j := by
    intro i j
    fin_cases i <;> fin_cases j <;>
      simp [M3.toMatrix, matMul, V3.mul, V3.dot, M3.transpose, dotProduct, Fin.sum_univ_three]
  intro i j
  rw [e]
  fin_cases i <;> fin_cases j
  · exact h.row1.x
  · exact h.row1.y
  · exact h.row1.z
  · exact h.row2.x
  · exact h.row2.y
  · exact h.row2.z
  · exact h.row3.x
  · exact h.row3.y
  · exact h.row3.z

/-! ### the hypotheses -/

/-- A third as Python stores it. -/
def third : Rat := 6004799503160661 / 18014398509481984

/-- Binary64 with an inverse for the cell of a cube of length 3. -/
def cubeArith : Arith := Arith.ieee Floats.binary64 fun _ => some ⟨⟨third, 0, 0⟩, ⟨0, third, 0⟩, ⟨0, 0, third⟩⟩

/-- The hypotheses of C111 are met: binary64, a cubic cell whose inverse is no machine matrix, and with coordinates up to 100 the bound for the way
to direct coordinates and back is below 10^-12. -/
example : DotOk cubeArith Floats.binary64 ((1 + 1 / 2 ^ 53) ^ 3 - 1) (1 / 2 ^ 1075 * (5 + 6 * (1 / 2 ^ 53) + 2 * (1 / 2 ^ 53) ^ 2)) ∧
    Inverted cubeArith Floats.binary64 (1 / 2 ^ 54) (1 / 2) ⟨⟨3, 0, 0⟩, ⟨0, 3, 0⟩, ⟨0, 0, 3⟩⟩ ⟨⟨third, 0, 0⟩, ⟨0, third, 0⟩, ⟨0, 0, third⟩⟩ ∧
    backErr ((1 + 1 / 2 ^ 53) ^ 3 - 1) (1 / 2 ^ 1075 * (5 + 6 * (1 / 2 ^ 53) + 2 * (1 / 2 ^ 53) ^ 2)) (1 / 2 ^ 54) 100 (1 / 2) 3 < 1 / 10 ^ 12 := by
  refine ⟨C111_dot _ _ _ C111_binary64 _, ⟨rfl, ?_, ?_, ?_, ?_⟩, ?_⟩
  · have z : Floats.binary64.mem 0 := Floats.binary64.zero_mem
    have t : Floats.binary64.mem third :=
      (Floats.binary64_mem _).2 ⟨6004799503160661, -54, by norm_num, by norm_num, by norm_num, by unfold third; norm_num⟩
    exact ⟨⟨t, z, z⟩, ⟨z, t, z⟩, ⟨z, z, t⟩⟩
  · constructor <;> constructor <;> decide +kernel
  · constructor <;> constructor <;> decide +kernel
  · constructor <;> constructor <;> decide +kernel
  · decide +kernel

end Verif.Poscar
