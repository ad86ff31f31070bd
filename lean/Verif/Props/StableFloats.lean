import Verif.Lemmas.Floats
import Mathlib.Tactic.NormNum.Prime
/-! # C101: IEEE 754 binary64 numbers are machine numbers in the sense of `Floats` -/
set_option autoImplicit false
namespace Verif
namespace Floats

/-- The number nearest to `r` (the first one of several) among 0 and a list. -/
def nearest (l : List Rat) (r : Rat) : Rat := l.foldl (fun a b => if |b - r| < |a - r| then b else a) 0

theorem nearest_aux (r : Rat) (l : List Rat) (a : Rat) :
    let m := l.foldl (fun a b => if |b - r| < |a - r| then b else a) a
    (m = a ∨ m ∈ l) ∧ |m - r| ≤ |a - r| ∧ ∀ x ∈ l, |m - r| ≤ |x - r| := by
  induction l generalizing a with
  | nil => exact ⟨.inl rfl, le_refl _, by simp⟩
  | cons b l ih =>
    simp only [List.foldl_cons]
    by_cases h : |b - r| < |a - r|
    · rw [if_pos h]
      obtain ⟨h1, h2, h3⟩ := ih b
      refine ⟨?_, h2.trans h.le, ?_⟩
      · rcases h1 with h1 | h1
        · right; rw [h1]; simp
        · right; simp [h1]
      · intro x hx
        rcases List.mem_cons.1 hx with rfl | hx
        · exact h2
        · exact h3 x hx
    · rw [if_neg h]
      obtain ⟨h1, h2, h3⟩ := ih a
      refine ⟨?_, h2, ?_⟩
      · rcases h1 with h1 | h1
        · exact .inl h1
        · right; simp [h1]
      · intro x hx
        rcases List.mem_cons.1 hx with rfl | hx
        · exact h2.trans (not_lt.1 h)
        · exact h3 x hx

/-- Machine numbers: 0 and the numbers of a list. -/
def ofList (l : List Rat) (big : Nat) (h : ∀ x ∈ l, |x| ≤ big) : Floats where
  mem x := x = 0 ∨ x ∈ l
  big := big
  near := nearest l
  zero_mem := .inl rfl
  bound x hx := by
    rcases hx with rfl | hx
    · simp
    · exact h x hx
  near_mem r _ := (nearest_aux r l 0).1
  near_best r x _ hx := by
    rcases hx with rfl | hx
    · exact (nearest_aux r l 0).2.1
    · exact (nearest_aux r l 0).2.2 x hx

/-- The numbers `± m · 2^k / 2^shift` with at most `digits` binary digits in `m` and `k ≤ emax`. -/
def binary (digits emax shift : Nat) : List Rat :=
  (List.range (emax + 1)).flatMap fun k => (List.range (2 ^ digits)).flatMap fun (m : Nat) =>
    [(m : Rat) * 2 ^ k / 2 ^ shift, -((m : Rat) * 2 ^ k / 2 ^ shift)]

theorem mem_binary {digits emax shift : Nat} {x : Rat} :
    x ∈ binary digits emax shift ↔ ∃ k m : Nat, k ≤ emax ∧ m < 2 ^ digits ∧ |x| = (m : Rat) * 2 ^ k / 2 ^ shift := by
  unfold binary
  simp only [List.mem_flatMap, List.mem_range, List.mem_cons, List.not_mem_nil, or_false]
  constructor
  · rintro ⟨k, hk, m, hm, rfl | rfl⟩
    · exact ⟨k, m, by omega, hm, abs_of_nonneg (by positivity)⟩
    · exact ⟨k, m, by omega, hm, by rw [abs_neg]; exact abs_of_nonneg (by positivity)⟩
  · rintro ⟨k, m, hk, hm, he⟩
    exact ⟨k, by omega, m, hm, (abs_eq (by positivity)).1 he⟩

/-- IEEE 754 binary64: 53 binary digits, exponents from -1074 to 971. -/
def binary64 : Floats := ofList (binary 53 2045 1074) ((2 ^ 53 - 1) * 2 ^ 971) (by
  intro x hx
  obtain ⟨k, m, hk, hm, he⟩ := mem_binary.1 hx
  rw [he, div_le_iff₀ (by positivity)]
  have h1 : m * 2 ^ k ≤ (2 ^ 53 - 1) * 2 ^ 2045 := Nat.mul_le_mul (by omega) (Nat.pow_le_pow_right (by norm_num) hk)
  have h2 : (2 ^ 53 - 1) * 2 ^ 2045 = (2 ^ 53 - 1) * 2 ^ 971 * 2 ^ 1074 := by
    rw [Nat.mul_assoc, ← Nat.pow_add]
  rw [h2] at h1
  exact_mod_cast h1)

/-- The numbers of binary64 are those of the standard: an integer of at most 53 binary digits times a power of two between 2^-1074 and 2^971. -/
theorem binary64_mem (x : Rat) : binary64.mem x ↔ ∃ m : Int, ∃ j : Int, m.natAbs < 2 ^ 53 ∧ -1074 ≤ j ∧ j ≤ 971 ∧ x = m * (2 : Rat) ^ j := by
  have key : ∀ k : Nat, (2 : Rat) ^ k / 2 ^ 1074 = (2 : Rat) ^ ((k : Int) - 1074) := by
    intro k
    rw [zpow_sub₀ (by norm_num), zpow_natCast]
    norm_cast
  constructor
  · rintro (rfl | hx)
    · exact ⟨0, 0, by norm_num, by norm_num, by norm_num, by simp⟩
    · obtain ⟨k, m, hk, hm, he⟩ := mem_binary.1 hx
      rw [mul_div_assoc, key] at he
      rcases (abs_eq (mul_nonneg (Nat.cast_nonneg m) (zpow_nonneg (by norm_num) _))).1 he with he | he
      · exact ⟨m, (k : Int) - 1074, by simpa using hm, by omega, by omega, by rw [he]; simp⟩
      · exact ⟨-m, (k : Int) - 1074, by simpa using hm, by omega, by omega, by rw [he]; simp⟩
  · rintro ⟨m, j, hm, h1, h2, rfl⟩
    right
    refine mem_binary.2 ⟨(j + 1074).toNat, m.natAbs, by omega, hm, ?_⟩
    rw [mul_div_assoc, key, abs_mul, abs_of_pos (zpow_pos (by norm_num) j : (0 : Rat) < 2 ^ j)]
    congr 1
    · rw [← Int.cast_abs, Int.abs_eq_natAbs]; simp
    · congr 1; omega

/-- A tenth is not a binary64 number, but 0.1 as Python stores it is; it is printed as 0.10000000 and not as a negative zero. -/
example : binary64.Shown 8 (3602879701896397 / 36028797018963968) ∧ ¬ binary64.mem (1 / 10) := by
  refine ⟨⟨(binary64_mem _).2 ⟨3602879701896397, -55, by norm_num, by norm_num, by norm_num, by norm_num⟩, fun h => absurd h (by norm_num)⟩, ?_⟩
  intro h
  obtain ⟨m, j, hm, h1, h2, he⟩ := (binary64_mem _).1 h
  have hm0 : m ≠ 0 := by rintro rfl; norm_num at he
  have hj : (1 : Rat) = m * 10 * 2 ^ j := by linarith
  rcases le_or_gt 0 j with h | h
  · obtain ⟨n, rfl⟩ := Int.eq_ofNat_of_zero_le h
    have : (1 : Int) = m * 10 * 2 ^ n := by
      have hq : ((1 : Int) : Rat) = ((m * 10 * 2 ^ n : Int) : Rat) := by push_cast; simpa using hj
      exact_mod_cast hq
    have h5 : (5 : Int) ∣ 1 := ⟨m * 2 * 2 ^ n, by linarith⟩
    norm_num at h5
  · obtain ⟨n, hn⟩ := Int.eq_ofNat_of_zero_le (by omega : 0 ≤ -j)
    have hj' : (2 : Rat) ^ n = m * 10 := by
      have e : (2 : Rat) ^ j = ((2 : Rat) ^ n)⁻¹ := by rw [show j = -(n : Int) by omega, zpow_neg, zpow_natCast]
      rw [e] at hj
      have hp : (2 : Rat) ^ n ≠ 0 := by positivity
      field_simp at hj
      linarith
    have hi : (2 : Int) ^ n = m * 10 := by exact_mod_cast hj'
    have h5 : (5 : Int) ∣ 2 ^ n := ⟨m * 2, by linarith⟩
    have h5' : 5 ∣ 2 ^ n := by exact_mod_cast h5
    have := Nat.Prime.dvd_of_dvd_pow (by norm_num : Nat.Prime 5) h5'
    norm_num at this

end Floats
end Verif
