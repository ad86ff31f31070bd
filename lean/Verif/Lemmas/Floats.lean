import Verif.Model.Floats
import Verif.Lemmas.Num
/-! Printing, reading and printing again a machine number gives the same text. -/
set_option autoImplicit false
namespace Verif

/-- `roundDiv` gives a nearest integer, in the middle an even one. -/
theorem roundDiv_near (n d : Nat) (hd : 0 < d) :
    (2 * n < (2 * roundDiv n d + 1) * d ∧ 2 * roundDiv n d * d < 2 * n + d) ∨
    ((2 * n = (2 * roundDiv n d + 1) * d ∨ 2 * roundDiv n d * d = 2 * n + d) ∧ roundDiv n d % 2 = 0) := by
  have h := Nat.div_add_mod n d
  have hr := Nat.mod_lt n hd
  unfold roundDiv
  generalize hq : n / d = q at *
  generalize hrr : n % d = r at *
  subst h
  dsimp only
  split
  · left; constructor <;> nlinarith
  · split
    · left; constructor <;> nlinarith
    · have : 2 * r = d := by omega
      split
      · right; refine ⟨.inl ?_, by assumption⟩; nlinarith
      · right; refine ⟨.inr ?_, by omega⟩; nlinarith

/-- And it is the only one. -/
theorem roundDiv_unique {n d k : Nat} (hd : 0 < d)
    (h : (2 * n < (2 * k + 1) * d ∧ 2 * k * d < 2 * n + d) ∨ ((2 * n = (2 * k + 1) * d ∨ 2 * k * d = 2 * n + d) ∧ k % 2 = 0)) :
    roundDiv n d = k := by
  have hs := roundDiv_near n d hd
  generalize roundDiv n d = m at *
  have key : m < k + 2 ∧ k < m + 2 := by
    constructor
    · by_contra hc
      have : (k + 2) * d ≤ m * d := Nat.mul_le_mul_right d (by omega)
      rcases hs with hs | ⟨hs | hs, _⟩ <;> rcases h with h | ⟨h | h, _⟩ <;> nlinarith
    · by_contra hc
      have : (m + 2) * d ≤ k * d := Nat.mul_le_mul_right d (by omega)
      rcases hs with hs | ⟨hs | hs, _⟩ <;> rcases h with h | ⟨h | h, _⟩ <;> nlinarith
  by_contra hne
  rcases (by omega : m = k + 1 ∨ k = m + 1) with rfl | rfl
  · rcases hs with hs | ⟨hs | hs, hm⟩ <;> rcases h with h | ⟨h | h, hk⟩ <;> first | omega | nlinarith
  · rcases hs with hs | ⟨hs | hs, hm⟩ <;> rcases h with h | ⟨h | h, hk⟩ <;> first | omega | nlinarith

theorem abs_eq_num_den (x : Rat) : |x| = (x.num.natAbs : Rat) / x.den := by
  conv_lhs => rw [← Rat.num_div_den x]
  rw [abs_div, Nat.abs_cast]
  congr 1
  rw [← Int.cast_abs, Int.abs_eq_natAbs]; simp

/-- The printed digits are nearest to the number, in the middle the even ones. -/
theorem scaledAbs_near (p : Nat) (x : Rat) : |(|x|) * 10 ^ p - scaledAbs p x| < 1 / 2 ∨
    (|(|x|) * 10 ^ p - scaledAbs p x| = 1 / 2 ∧ scaledAbs p x % 2 = 0) := by
  have h := roundDiv_near (x.num.natAbs * 10 ^ p) x.den x.pos
  have hd : (0 : Rat) < x.den := by exact_mod_cast x.pos
  have e : |x| * 10 ^ p = (x.num.natAbs * 10 ^ p : Nat) / (x.den : Rat) := by
    rw [abs_eq_num_den]; push_cast; ring
  unfold scaledAbs
  rw [e]
  generalize roundDiv (x.num.natAbs * 10 ^ p) x.den = k at *
  generalize x.num.natAbs * 10 ^ p = n at *
  rcases h with ⟨h1, h2⟩ | ⟨h | h, hk⟩
  · left
    have h1' : (2 * n : Rat) < (2 * k + 1) * x.den := by exact_mod_cast h1
    have h2' : (2 * k * x.den : Rat) < 2 * n + x.den := by exact_mod_cast h2
    rw [abs_lt]
    constructor
    · rw [lt_sub_iff_add_lt, lt_div_iff₀ hd]; linarith
    · rw [sub_lt_iff_lt_add, div_lt_iff₀ hd]; linarith
  · right
    have h' : (2 * n : Rat) = (2 * k + 1) * x.den := by exact_mod_cast h
    refine ⟨?_, hk⟩
    have : (n : Rat) / x.den = k + 1 / 2 := by rw [div_eq_iff hd.ne']; linarith
    rw [this]; norm_num
  · right
    have h' : (2 * k * x.den : Rat) = 2 * n + x.den := by exact_mod_cast h
    refine ⟨?_, hk⟩
    have : (n : Rat) / x.den = k - 1 / 2 := by rw [div_eq_iff hd.ne']; linarith
    rw [this]; rw [show (k : Rat) - 1 / 2 - k = -(1 / 2) by ring, abs_neg]; norm_num

theorem scaledAbs_unique {p k : Nat} {x : Rat} (h : |(|x|) * 10 ^ p - k| < 1 / 2 ∨ (|(|x|) * 10 ^ p - k| = 1 / 2 ∧ k % 2 = 0)) :
    scaledAbs p x = k := by
  have hd : (0 : Rat) < x.den := by exact_mod_cast x.pos
  have e : |x| * 10 ^ p = (x.num.natAbs * 10 ^ p : Nat) / (x.den : Rat) := by
    rw [abs_eq_num_den]; push_cast; ring
  unfold scaledAbs
  rw [e] at h
  apply roundDiv_unique x.pos
  generalize x.num.natAbs * 10 ^ p = n at *
  rcases h with h | ⟨h, hk⟩
  · left
    rw [abs_lt] at h
    obtain ⟨h1, h2⟩ := h
    rw [lt_sub_iff_add_lt, lt_div_iff₀ hd] at h1
    rw [sub_lt_iff_lt_add, div_lt_iff₀ hd] at h2
    constructor
    · have : (2 * n : Rat) < (2 * k + 1) * x.den := by linarith
      exact_mod_cast this
    · have : (2 * k * x.den : Rat) < 2 * n + x.den := by linarith
      exact_mod_cast this
  · right
    refine ⟨?_, hk⟩
    rcases (abs_eq (by norm_num : (0 : Rat) ≤ 1 / 2)).1 h with h | h
    · left
      have h' : (n : Rat) / x.den = k + 1 / 2 := by linarith
      rw [div_eq_iff hd.ne'] at h'
      have : (2 * n : Rat) = (2 * k + 1) * x.den := by linarith
      exact_mod_cast this
    · right
      have h' : (n : Rat) / x.den = k - 1 / 2 := by linarith
      rw [div_eq_iff hd.ne'] at h'
      have : (2 * k * x.den : Rat) = 2 * n + x.den := by linarith
      exact_mod_cast this

namespace Floats
variable (N : Floats)

/-- A machine number that is not printed as a negative zero. -/
def Shown (p : Nat) (x : Rat) : Prop := N.mem x ∧ (x < 0 → roundDec p x ≠ 0)

theorem roundDec_bound {p : Nat} {x : Rat} (hx : N.mem x) : |roundDec p x| ≤ N.big := by
  have hb := N.bound x hx
  have hp : (0 : Rat) < 10 ^ p := by positivity
  have e : |roundDec p x| = (scaledAbs p x : Rat) / 10 ^ p := by
    have : (0 : Rat) ≤ (scaledAbs p x : Rat) / 10 ^ p := by positivity
    unfold roundDec
    split
    · rw [abs_neg, abs_of_nonneg this]
    · rw [abs_of_nonneg this]
  rw [e, div_le_iff₀ hp]
  have h : |(|x|) * 10 ^ p - scaledAbs p x| ≤ 1 / 2 := by
    rcases scaledAbs_near p x with h | h
    · exact h.le
    · exact h.1.le
  have h2 : |x| * 10 ^ p ≤ N.big * 10 ^ p := mul_le_mul_of_nonneg_right hb hp.le
  by_contra hc
  have hc' : N.big * 10 ^ p < scaledAbs p x := by
    have := not_le.1 hc
    exact_mod_cast this
  have hc2 : (N.big * 10 ^ p + 1 : Rat) ≤ scaledAbs p x := by exact_mod_cast hc'
  rw [abs_le] at h
  linarith [h.1]

/-- Reading what is printed for a machine number and printing the number read gives the same text. -/
theorem fmt_near {p : Nat} {x : Rat} (h : N.Shown p x) : fmtFixedRaw p (N.near (roundDec p x)) = fmtFixedRaw p x := by
  obtain ⟨hx, hz⟩ := h
  have hb := N.roundDec_bound (p := p) hx
  have hn := N.near_best (roundDec p x) x hb hx
  have h0 := N.near_best (roundDec p x) 0 hb N.zero_mem
  have hp : (0 : Rat) < 10 ^ p := by positivity
  have hk := scaledAbs_near p x
  have hclose : ∀ y : Rat, |(|y|) - (scaledAbs p x : Rat) / 10 ^ p| ≤ |(|x|) - (scaledAbs p x : Rat) / 10 ^ p| → scaledAbs p y = scaledAbs p x := by
    intro y hle
    apply scaledAbs_unique
    have e : ∀ z : Rat, |z * 10 ^ p - scaledAbs p x| = |z - (scaledAbs p x : Rat) / 10 ^ p| * 10 ^ p := by
      intro z
      rw [← abs_of_pos hp, ← abs_mul, abs_of_pos hp, sub_mul, div_mul_cancel₀ _ hp.ne']
    have hle' : |(|y|) * 10 ^ p - scaledAbs p x| ≤ |(|x|) * 10 ^ p - scaledAbs p x| := by
      rw [e, e]; exact mul_le_mul_of_nonneg_right hle hp.le
    rcases hk with hk | ⟨hk, hk2⟩
    · exact .inl (lt_of_le_of_lt hle' hk)
    · rcases lt_or_eq_of_le hle' with h | h
      · left; rw [hk] at h; exact h
      · right; exact ⟨h.trans hk, hk2⟩
  have hhalf : |(|x|) - (scaledAbs p x : Rat) / 10 ^ p| ≤ 1 / (2 * 10 ^ p) := by
    rw [abs_sub_comm]; exact scaledAbs_spec p x
  have hsmall : 1 / (2 * 10 ^ p) < 1 / (10 : Rat) ^ p := by
    apply one_div_lt_one_div_of_lt hp; linarith
  have hbig : scaledAbs p x ≠ 0 → 1 / (10 : Rat) ^ p ≤ (scaledAbs p x : Rat) / 10 ^ p := by
    intro h
    have : (1 : Rat) ≤ scaledAbs p x := by exact_mod_cast Nat.pos_of_ne_zero h
    exact div_le_div_of_nonneg_right this hp.le
  generalize hy : N.near (roundDec p x) = y at *
  unfold fmtFixedRaw
  by_cases hneg : x < 0
  · have hd : roundDec p x = -((scaledAbs p x : Rat) / 10 ^ p) := by unfold roundDec; rw [if_pos hneg]
    have hne : scaledAbs p x ≠ 0 := by
      intro h0
      apply hz hneg
      rw [hd, h0]; simp
    rw [hd] at hn
    have e1 : |x - -((scaledAbs p x : Rat) / 10 ^ p)| = |(|x|) - (scaledAbs p x : Rat) / 10 ^ p| := by
      rw [abs_of_neg hneg, ← abs_neg]; congr 1; ring
    rw [e1] at hn
    have hb' := hbig hne
    have hyneg : y < 0 := by
      have := (abs_le.1 (hn.trans hhalf)).2
      linarith
    have e2 : |y - -((scaledAbs p x : Rat) / 10 ^ p)| = |(|y|) - (scaledAbs p x : Rat) / 10 ^ p| := by
      rw [abs_of_neg hyneg, ← abs_neg]; congr 1; ring
    rw [e2] at hn
    rw [if_pos hneg, if_pos hyneg, hclose y hn]
  · have hd : roundDec p x = (scaledAbs p x : Rat) / 10 ^ p := by unfold roundDec; rw [if_neg hneg]
    have hx0 : |x| = x := abs_of_nonneg (not_lt.1 hneg)
    have hynn : 0 ≤ y := by
      by_cases hne : scaledAbs p x = 0
      · rw [hd, hne] at h0
        simp at h0
        rw [h0]
      · have hb' := hbig hne
        rw [hd] at hn
        rw [hx0] at hhalf
        have := (abs_le.1 (hn.trans hhalf)).1
        linarith
    rw [hd] at hn
    have e2 : |y - (scaledAbs p x : Rat) / 10 ^ p| = |(|y|) - (scaledAbs p x : Rat) / 10 ^ p| := by rw [abs_of_nonneg hynn]
    have e1 : |x - (scaledAbs p x : Rat) / 10 ^ p| = |(|x|) - (scaledAbs p x : Rat) / 10 ^ p| := by rw [hx0]
    rw [e2, e1] at hn
    rw [if_neg hneg, if_neg (not_lt.2 hynn), hclose y hn]

/-- The number read is again one that is printed without a negative zero. -/
theorem shown_near {p : Nat} {x : Rat} (h : N.Shown p x) : N.Shown p (N.near (roundDec p x)) := by
  refine ⟨N.near_mem _ (N.roundDec_bound h.1), ?_⟩
  have e : roundDec p (N.near (roundDec p x)) = roundDec p x := by
    have := congrArg pyFloatRat (N.fmt_near h)
    rw [pyFloatRat_fmtFixedRaw, pyFloatRat_fmtFixedRaw] at this
    exact Option.some.inj this
  intro hneg hzero
  rw [e] at hzero
  by_cases hx : x < 0
  · exact h.2 hx hzero
  · have h0 := N.near_best (roundDec p x) 0 (N.roundDec_bound h.1) N.zero_mem
    rw [hzero] at h0 hneg
    simp at h0
    rw [h0] at hneg
    exact lt_irrefl _ hneg

end Floats
end Verif
