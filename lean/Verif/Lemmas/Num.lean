import Verif.Py.Num
import Verif.Lemmas.Str
import Mathlib.Tactic.Ring
import Mathlib.Tactic.FieldSimp
import Mathlib.Tactic.NormNum
import Mathlib.Tactic.Linarith
import Mathlib.Tactic.Positivity
import Mathlib.Algebra.Order.Field.Basic
import Mathlib.Algebra.Order.Field.Rat
import Mathlib.Data.Rat.Cast.Order
/-! Helper lemmas about numbers and their texts. -/
set_option autoImplicit false
namespace Verif

theorem digitChar_toNat {d : Nat} (h : d < 10) : (digitChar d).toNat = 48 + d :=
  ofNat_toNat_of_lt (by omega)

theorem isDigit_digitChar {d : Nat} (h : d < 10) : isDigit (digitChar d) = true := by
  simp [isDigit, digitChar_toNat h]; omega

theorem digitVal_digitChar {d : Nat} (h : d < 10) : digitVal (digitChar d) = d := by
  simp [digitVal, digitChar_toNat h]

/-- All characters are digits. -/
def Digits (s : Str) : Prop := ∀ c ∈ s, isDigit c = true

@[simp] theorem Digits.nil : Digits [] := by intro c h; cases h
@[simp] theorem Digits.cons_iff {c : Char} {s : Str} : Digits (c :: s) ↔ isDigit c = true ∧ Digits s := by simp [Digits]
@[simp] theorem Digits.append_iff {a b : Str} : Digits (a ++ b) ↔ Digits a ∧ Digits b := by
  simp only [Digits, List.mem_append]
  exact ⟨fun h => ⟨fun c hc => h c (.inl hc), fun c hc => h c (.inr hc)⟩,
    fun h c hc => hc.elim (h.1 c) (h.2 c)⟩
theorem Digits.replicate_zero (n : Nat) : Digits (List.replicate n '0') := by
  intro c h; rw [List.eq_of_mem_replicate h]; decide
theorem Digits.take {s : Str} (h : Digits s) (n : Nat) : Digits (s.take n) := fun c hc => h c (List.mem_of_mem_take hc)
theorem Digits.drop {s : Str} (h : Digits s) (n : Nat) : Digits (s.drop n) := fun c hc => h c (List.mem_of_mem_drop hc)

/-- A character which stops `spanDigits`. -/
def Stops (s : Str) : Prop := ∀ c, s.head? = some c → isDigit c = false ∧ c ≠ '_'

theorem spanDigits_stop (prev : Bool) {s : Str} (h : Stops s) : spanDigits prev s = ([], s) := by
  cases s with
  | nil => rfl
  | cons c cs =>
    have := h c rfl
    have h2 : (c == '_') = false := by simpa using this.2
    rw [spanDigits]; simp [this.1, h2]

theorem spanDigits_digits (prev : Bool) (a : Str) {b : Str} (ha : Digits a) (hb : Stops b) :
    spanDigits prev (a ++ b) = (a.map digitVal, b) := by
  induction a generalizing prev with
  | nil => simpa using spanDigits_stop prev hb
  | cons c cs ih =>
    rw [Digits.cons_iff] at ha
    rw [List.cons_append, spanDigits]; simp [ha.1, ih true ha.2]

theorem foldl_ofDigits (a : Nat) (ds : List Nat) :
    ds.foldl (fun a d => 10 * a + d) a = a * 10 ^ ds.length + ofDigits ds := by
  induction ds generalizing a with
  | nil => simp [ofDigits]
  | cons d ds ih =>
    simp only [List.foldl_cons, List.length_cons, ofDigits]
    rw [ih, ih (10 * 0 + d)]; ring

theorem ofDigits_append (a b : List Nat) : ofDigits (a ++ b) = ofDigits a * 10 ^ b.length + ofDigits b := by
  rw [ofDigits, List.foldl_append, foldl_ofDigits]; rfl

theorem ofDigits_cons (d : Nat) (ds : List Nat) : ofDigits (d :: ds) = d * 10 ^ ds.length + ofDigits ds := by
  rw [ofDigits, List.foldl_cons, foldl_ofDigits]; simp

/-- Value of a digit string. -/
def strVal (s : Str) : Nat := ofDigits (s.map digitVal)

theorem strVal_append (a b : Str) : strVal (a ++ b) = strVal a * 10 ^ b.length + strVal b := by
  simp [strVal, ofDigits_append]

@[simp] theorem strVal_nil : strVal [] = 0 := rfl

theorem strVal_replicate_zero (n : Nat) : strVal (List.replicate n '0') = 0 := by
  induction n with
  | zero => rfl
  | succ n ih =>
    rw [List.replicate_succ, strVal, List.map_cons, ofDigits_cons]
    rw [strVal] at ih; rw [ih]; simp [digitVal]

theorem natStrAux_spec (f n : Nat) (h : n < f) :
    Digits (natStrAux f n) ∧ strVal (natStrAux f n) = n ∧ natStrAux f n ≠ [] := by
  induction f generalizing n with
  | zero => omega
  | succ f ih =>
    rw [natStrAux]
    split
    · rename_i h10
      refine ⟨?_, ?_, by simp⟩
      · simp [isDigit_digitChar h10]
      · simp [strVal, ofDigits, digitVal_digitChar h10]
    · obtain ⟨h1, h2, h3⟩ := ih (n / 10) (by omega)
      have h10 : n % 10 < 10 := by omega
      refine ⟨by simp [h1, isDigit_digitChar h10], ?_, by simp⟩
      rw [strVal_append, h2]
      simp [strVal, ofDigits, digitVal_digitChar h10]; omega

theorem natStr_digits (n : Nat) : Digits (natStr n) := (natStrAux_spec (n + 1) n (by omega)).1
theorem natStr_val (n : Nat) : strVal (natStr n) = n := (natStrAux_spec (n + 1) n (by omega)).2.1
theorem natStr_ne_nil (n : Nat) : natStr n ≠ [] := (natStrAux_spec (n + 1) n (by omega)).2.2

theorem natStrPad_digits (k n : Nat) : Digits (natStrPad k n) := by
  simp [natStrPad, Digits.replicate_zero, natStr_digits]
theorem natStrPad_val (k n : Nat) : strVal (natStrPad k n) = n := by
  simp [natStrPad, strVal_append, strVal_replicate_zero, natStr_val]
theorem natStrPad_length (k n : Nat) : k ≤ (natStrPad k n).length := by
  simp only [natStrPad, List.length_append, List.length_replicate]; omega
theorem natStrPad_ne_nil (k n : Nat) : natStrPad k n ≠ [] := by simp [natStrPad, natStr_ne_nil]

theorem isDigit_not_space {c : Char} (h : isDigit c = true) : isSpace c = false := by
  simp only [isDigit, Bool.and_eq_true, decide_eq_true_eq] at h
  unfold isSpace
  rw [Bool.eq_false_iff]
  simp only [ne_eq, Bool.or_eq_true, Bool.and_eq_true, decide_eq_true_eq, beq_iff_eq]; omega

theorem Digits.free {s : Str} (h : Digits s) : Free isSpace s := fun c hc => isDigit_not_space (h c hc)

/-- Characters that may occur in a printed number. -/
def numChar (c : Char) : Bool := isDigit c || c == '.' || c == '-' || c == '+' || c == 'e'

theorem numChar_not_space {c : Char} (h : numChar c = true) : isSpace c = false := by
  simp only [numChar, Bool.or_eq_true, beq_iff_eq] at h
  rcases h with (((h | h) | h) | h) | h
  · exact isDigit_not_space h
  all_goals subst h; decide

/-- All characters may occur in a printed number. -/
def NumChars (s : Str) : Prop := ∀ c ∈ s, numChar c = true
@[simp] theorem NumChars.nil : NumChars [] := by intro c h; cases h
@[simp] theorem NumChars.cons_iff {c : Char} {s : Str} : NumChars (c :: s) ↔ numChar c = true ∧ NumChars s := by
  simp [NumChars]
@[simp] theorem NumChars.append_iff {a b : Str} : NumChars (a ++ b) ↔ NumChars a ∧ NumChars b := by
  simp only [NumChars, List.mem_append]
  exact ⟨fun h => ⟨fun c hc => h c (.inl hc), fun c hc => h c (.inr hc)⟩,
    fun h c hc => hc.elim (h.1 c) (h.2 c)⟩
theorem Digits.numChars {s : Str} (h : Digits s) : NumChars s := fun c hc => by simp [numChar, h c hc]
theorem NumChars.free {s : Str} (h : NumChars s) : Free isSpace s := fun c hc => numChar_not_space (h c hc)
theorem NumChars.token {s : Str} (h : NumChars s) (hne : s ≠ []) : Token s := ⟨hne, h.free⟩

/-! ### integers -/

theorem takeSign_digits {s : Str} (hs : Digits s) : takeSign s = (false, s) := by
  cases s with
  | nil => rfl
  | cons c cs =>
    rw [Digits.cons_iff] at hs
    rw [takeSign.eq_def]; split
    · rename_i heq; cases heq; simp [isDigit] at hs
    · rename_i heq; cases heq; simp [isDigit] at hs
    · rfl

theorem spanDigits_all {s : Str} (hs : Digits s) : spanDigits false s = (s.map digitVal, []) := by
  have := spanDigits_digits false s (b := []) hs (by intro c h; cases h)
  simpa using this

theorem pyInt_digits {s : Str} (hs : Digits s) (hne : s ≠ []) : pyInt s = some (strVal s : Int) := by
  have hst : strip s = s := strip_eq_self (Token.stripped ⟨hne, hs.free⟩)
  unfold pyInt
  simp only [hst, takeSign_digits hs, spanDigits_all hs]
  cases s with
  | nil => exact absurd rfl hne
  | cons c cs => simp [strVal]

theorem pyInt_neg_digits {s : Str} (hs : Digits s) (hne : s ≠ []) : pyInt ('-' :: s) = some (-(strVal s : Int)) := by
  have hst : strip ('-' :: s) = '-' :: s :=
    strip_eq_self (Token.stripped ⟨by simp, by simp only [Free.cons_iff]; exact ⟨by decide, hs.free⟩⟩)
  unfold pyInt
  simp only [hst, takeSign, spanDigits_all hs]
  cases s with
  | nil => exact absurd rfl hne
  | cons c cs => simp [strVal]

theorem pyInt_intStr (i : Int) : pyInt (intStr i) = some i := by
  unfold intStr
  split
  · rw [pyInt_neg_digits (natStr_digits _) (natStr_ne_nil _), natStr_val]; congr 1; omega
  · rw [pyInt_digits (natStr_digits _) (natStr_ne_nil _), natStr_val]; congr 1; omega

theorem intStr_numChars (i : Int) : NumChars (intStr i) := by
  unfold intStr; split
  · simp only [NumChars.cons_iff]; exact ⟨by decide, (natStr_digits _).numChars⟩
  · exact (natStr_digits _).numChars

theorem intStr_ne_nil (i : Int) : intStr i ≠ [] := by
  unfold intStr; split
  · simp
  · exact natStr_ne_nil _

theorem intStr_token (i : Int) : Token (intStr i) := (intStr_numChars i).token (intStr_ne_nil i)

theorem words_padLeft (w : Nat) {s : Str} (h : Token s) : words (padLeft w s) = [s] := by
  rw [padLeft, words_spaces_append _ _ (fun c hc => by rw [List.eq_of_mem_replicate hc]; decide), words_token h]

theorem words_fmtInt (w : Nat) (i : Int) : words (fmtInt w i) = [intStr i] := words_padLeft w (intStr_token i)

/-! ### fixed notation -/

theorem lowerC_digit {c : Char} (h : isDigit c = true) : lowerC c = c := by
  simp only [isDigit, Bool.and_eq_true, decide_eq_true_eq] at h
  unfold lowerC; rw [if_neg (by simp; omega)]

/-- A token that begins with a digit or a dot is no `inf`/`nan`. -/
theorem lower_ne_special {c : Char} {s t : Str} (h : isDigit c = true) (ht : t = c!"inf" ∨ t = c!"infinity" ∨ t = c!"nan") :
    lower (c :: s) ≠ t := by
  intro e
  rw [lower, List.map_cons, lowerC_digit h] at e
  rcases ht with rfl | rfl | rfl <;> (injection e with e1 _; subst e1; simp [isDigit] at h)

theorem pyFloat_pos_digit {c : Char} {s : Str} (hc : isDigit c = true) (hf : Free isSpace (c :: s)) :
    pyFloat (c :: s) = (parseDec false (c :: s)).map .fin := by
  have hst : strip (c :: s) = c :: s := strip_eq_self (Token.stripped ⟨by simp, hf⟩)
  have hts : takeSign (c :: s) = (false, c :: s) := by
    rw [takeSign.eq_def]; split
    · rename_i heq; cases heq; simp [isDigit] at hc
    · rename_i heq; cases heq; simp [isDigit] at hc
    · rfl
  unfold pyFloat
  simp only [hst, hts]
  rw [if_neg, if_neg]
  · exact lower_ne_special hc (.inr (.inr rfl))
  · rintro (h | h)
    · exact lower_ne_special hc (.inl rfl) h
    · exact lower_ne_special hc (.inr (.inl rfl)) h

theorem pyFloat_neg_digit {c : Char} {s : Str} (hc : isDigit c = true) (hf : Free isSpace (c :: s)) :
    pyFloat ('-' :: c :: s) = (parseDec true (c :: s)).map .fin := by
  have hst : strip ('-' :: c :: s) = '-' :: c :: s :=
    strip_eq_self (Token.stripped ⟨by simp, by rw [Free.cons_iff]; exact ⟨by decide, hf⟩⟩)
  unfold pyFloat
  simp only [hst, takeSign]
  rw [if_neg, if_neg]
  · exact lower_ne_special hc (.inr (.inr rfl))
  · rintro (h | h)
    · exact lower_ne_special hc (.inl rfl) h
    · exact lower_ne_special hc (.inr (.inl rfl)) h

theorem parseDec_point (neg : Bool) {a b : Str} (ha : Digits a) (hb : Digits b) (hane : a ≠ []) :
    parseDec neg (a ++ '.' :: b) = some ⟨neg, strVal (a ++ b), -(b.length : Int)⟩ := by
  have h1 := spanDigits_digits false a (b := '.' :: b) ha (by
    intro c h; simp only [List.head?_cons, Option.some.injEq] at h; subst h; decide)
  unfold parseDec
  rw [h1]; simp only [spanDigits_all hb]
  cases a with
  | nil => exact absurd rfl hane
  | cons x xs => simp [parseExp, strVal]

theorem parseDec_nopoint (neg : Bool) {a : Str} (ha : Digits a) (hane : a ≠ []) :
    parseDec neg a = some ⟨neg, strVal a, 0⟩ := by
  unfold parseDec
  rw [spanDigits_all ha]
  cases a with
  | nil => exact absurd rfl hane
  | cons x xs => simp [parseExp, strVal]

theorem fixedStr_shape (p r : Nat) : ∃ a b, Digits a ∧ Digits b ∧ a ≠ [] ∧ b.length = p ∧ strVal (a ++ b) = r ∧
    fixedStr p r = if p = 0 then a ++ b else a ++ '.' :: b := by
  have hl := natStrPad_length (p + 1) r
  refine ⟨(natStrPad (p+1) r).take ((natStrPad (p+1) r).length - p), (natStrPad (p+1) r).drop ((natStrPad (p+1) r).length - p),
    (natStrPad_digits _ _).take _, (natStrPad_digits _ _).drop _, ?_, ?_, ?_, ?_⟩
  · rw [← List.length_pos_iff, List.length_take]; omega
  · rw [List.length_drop]; omega
  · rw [List.take_append_drop, natStrPad_val]
  · rw [List.take_append_drop]; rfl

theorem fixedStr_numChars (p r : Nat) : NumChars (fixedStr p r) := by
  obtain ⟨a, b, ha, hb, _, _, _, he⟩ := fixedStr_shape p r
  rw [he]; split
  · simp [ha.numChars, hb.numChars]
  · simp [ha.numChars, hb.numChars, numChar]

theorem parseDec_fixedStr (neg : Bool) (p r : Nat) : parseDec neg (fixedStr p r) = some ⟨neg, r, -(p : Int)⟩ := by
  obtain ⟨a, b, ha, hb, hane, hbl, hv, he⟩ := fixedStr_shape p r
  rw [he]; split
  · rename_i hp; subst hp
    rw [parseDec_nopoint neg (by simp [ha, hb]) (by simp [hane]), hv]; rfl
  · rw [parseDec_point neg ha hb hane, hv, hbl]

theorem fixedStr_head (p r : Nat) : ∃ c s, fixedStr p r = c :: s ∧ isDigit c = true := by
  obtain ⟨a, b, ha, hb, hane, hbl, hv, he⟩ := fixedStr_shape p r
  cases a with
  | nil => exact absurd rfl hane
  | cons c cs =>
    rw [Digits.cons_iff] at ha
    rw [he]; split
    · exact ⟨c, cs ++ b, by simp, ha.1⟩
    · exact ⟨c, cs ++ '.' :: b, by simp, ha.1⟩

/-- The number nearest to `x` with `p` decimals, ties to even: what `'{:.pf}'` prints. -/
def roundDec (p : Nat) (x : Rat) : Rat :=
  if x < 0 then -((scaledAbs p x : Rat) / 10 ^ p) else (scaledAbs p x : Rat) / 10 ^ p

theorem Dec.toRat_negExp (neg : Bool) (r p : Nat) :
    (Dec.toRat ⟨neg, r, -(p : Int)⟩) = if neg then -((r : Rat) / 10 ^ p) else (r : Rat) / 10 ^ p := by
  unfold Dec.toRat
  cases p with
  | zero => simp
  | succ p =>
    have h : ¬ (0 : Int) ≤ -((p + 1 : Nat) : Int) := by omega
    have h2 : (-(-((p + 1 : Nat) : Int))).toNat = p + 1 := by omega
    simp only [h, if_false, h2]

theorem pyFloat_fmtFixedRaw (p : Nat) (x : Rat) :
    pyFloat (fmtFixedRaw p x) = some (.fin ⟨decide (x < 0), scaledAbs p x, -(p : Int)⟩) := by
  obtain ⟨c, s, he, hc⟩ := fixedStr_head p (scaledAbs p x)
  have hf : Free isSpace (c :: s) := he ▸ (fixedStr_numChars p (scaledAbs p x)).free
  unfold fmtFixedRaw
  split
  · rename_i h
    rw [he, pyFloat_neg_digit hc hf, ← he, parseDec_fixedStr]; simp [h]
  · rename_i h
    rw [he, pyFloat_pos_digit hc hf, ← he, parseDec_fixedStr]; simp [h]

theorem pyFloatRat_fmtFixedRaw (p : Nat) (x : Rat) : pyFloatRat (fmtFixedRaw p x) = some (roundDec p x) := by
  unfold pyFloatRat
  rw [pyFloat_fmtFixedRaw]
  simp only [Dec.toRat_negExp, roundDec, decide_eq_true_eq]

theorem fmtFixedRaw_numChars (p : Nat) (x : Rat) : NumChars (fmtFixedRaw p x) := by
  unfold fmtFixedRaw; split
  · simp [fixedStr_numChars, numChar]
  · exact fixedStr_numChars _ _

theorem fmtFixedRaw_ne_nil (p : Nat) (x : Rat) : fmtFixedRaw p x ≠ [] := by
  obtain ⟨c, s, he, _⟩ := fixedStr_head p (scaledAbs p x)
  unfold fmtFixedRaw; split <;> simp [he]

theorem fmtFixedRaw_token (p : Nat) (x : Rat) : Token (fmtFixedRaw p x) :=
  (fmtFixedRaw_numChars p x).token (fmtFixedRaw_ne_nil p x)

theorem words_fmtFixed (w p : Nat) (x : Rat) : words (fmtFixed w p x) = [fmtFixedRaw p x] :=
  words_padLeft w (fmtFixedRaw_token p x)

/-! ### rounding -/

theorem roundDiv_spec (n d : Nat) (hd : 0 < d) : 2 * n ≤ (2 * roundDiv n d + 1) * d ∧ 2 * roundDiv n d * d ≤ 2 * n + d := by
  have h := Nat.div_add_mod n d
  have hr := Nat.mod_lt n hd
  unfold roundDiv
  generalize hq : n / d = q at *
  generalize hrr : n % d = r at *
  subst h
  simp only
  split
  · constructor <;> nlinarith
  · split
    · constructor <;> nlinarith
    · split <;> constructor <;> nlinarith

/-- A multiple of the unit is not changed. -/
theorem roundDiv_mul (k d : Nat) (hd : 0 < d) : roundDiv (k * d) d = k := by
  unfold roundDiv
  simp [Nat.mul_div_cancel _ hd, hd]

theorem scaledAbs_spec (p : Nat) (x : Rat) : |(scaledAbs p x : Rat) / 10 ^ p - (|x|)| ≤ 1 / (2 * 10 ^ p) := by
  obtain ⟨h1, h2⟩ := roundDiv_spec (x.num.natAbs * 10 ^ p) x.den x.pos
  have hx : |x| = (x.num.natAbs : Rat) / x.den := by
    conv_lhs => rw [← Rat.num_div_den x]
    rw [abs_div, Nat.abs_cast]
    congr 1
    rw [← Int.cast_abs, Int.abs_eq_natAbs]; simp
  have hd : (0 : Rat) < x.den := by exact_mod_cast x.pos
  have hp : (0 : Rat) < 10 ^ p := by positivity
  have h1' : (2 : Rat) * (x.num.natAbs * 10 ^ p) ≤ (2 * (scaledAbs p x) + 1) * x.den := by exact_mod_cast h1
  have h2' : (2 : Rat) * (scaledAbs p x) * x.den ≤ 2 * (x.num.natAbs * 10 ^ p) + x.den := by exact_mod_cast h2
  rw [hx, abs_le]
  constructor
  · rw [neg_le_sub_iff_le_add, div_add_div _ _ hp.ne' (by positivity), div_le_div_iff₀ hd (by positivity)]
    nlinarith [mul_pos hp hp]
  · rw [sub_le_iff_le_add, div_add_div _ _ (by positivity) hd.ne', div_le_div_iff₀ hp (by positivity)]
    nlinarith [mul_pos hp hp]

/-- The printed value is within half a unit of the last place. -/
theorem roundDec_close (p : Nat) (x : Rat) : |roundDec p x - x| ≤ 1 / (2 * 10 ^ p) := by
  have h := scaledAbs_spec p x
  unfold roundDec
  split
  · rename_i hx
    rw [abs_of_neg hx] at h
    rw [← abs_neg]; convert h using 2; ring
  · rename_i hx
    rw [abs_of_nonneg (not_lt.1 hx)] at h; exact h

/-- Numbers with at most `p` decimals are printed exactly. -/
theorem scaledAbs_of_dec (p k : Nat) (x : Rat) (h : |x| = (k : Rat) / 10 ^ p) : scaledAbs p x = k := by
  have hx : |x| = (x.num.natAbs : Rat) / x.den := by
    conv_lhs => rw [← Rat.num_div_den x]
    rw [abs_div, Nat.abs_cast]
    congr 1
    rw [← Int.cast_abs, Int.abs_eq_natAbs]; simp
  have hd : (0 : Rat) < x.den := by exact_mod_cast x.pos
  rw [hx, div_eq_div_iff hd.ne' (by positivity)] at h
  have h' : x.num.natAbs * 10 ^ p = k * x.den := by exact_mod_cast h
  unfold scaledAbs; rw [h', roundDiv_mul _ _ x.pos]

theorem roundDec_of_dec (p k : Nat) (x : Rat) (h : |x| = (k : Rat) / 10 ^ p) : roundDec p x = x := by
  unfold roundDec; rw [scaledAbs_of_dec p k x h, ← h]
  split
  · rename_i hx; rw [abs_of_neg hx]; ring
  · rename_i hx; rw [abs_of_nonneg (not_lt.1 hx)]

theorem roundDec_idem (p : Nat) (x : Rat) : roundDec p (roundDec p x) = roundDec p x := by
  apply roundDec_of_dec p (scaledAbs p x)
  unfold roundDec
  have : (0 : Rat) ≤ (scaledAbs p x : Rat) / 10 ^ p := by positivity
  split
  · rw [abs_neg, abs_of_nonneg this]
  · rw [abs_of_nonneg this]

end Verif
