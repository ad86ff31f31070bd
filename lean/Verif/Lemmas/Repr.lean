import Verif.Lemmas.NumClass
/-! Helper lemmas: `str(float)` reads back as the same float. -/
set_option autoImplicit false
namespace Verif
open Verif.Utils

theorem stripZerosAux_mul (f m k : Nat) (e : Int) (hm : m % 10 ≠ 0) (hk : k ≤ f) :
    stripZerosAux f (m * 10 ^ k) e = (m, e + k) := by
  induction f generalizing k e with
  | zero =>
    have : k = 0 := by omega
    subst this; simp [stripZerosAux]
  | succ f ih =>
    cases k with
    | zero => simp [stripZerosAux, hm]
    | succ k =>
      have h1 : (m * 10 ^ (k + 1)) % 10 = 0 := by rw [pow_succ, ← mul_assoc]; simp
      have h2 : m * 10 ^ (k + 1) / 10 = m * 10 ^ k := by rw [pow_succ, ← mul_assoc]; simp
      rw [stripZerosAux, if_pos h1, h2, ih _ _ (by omega)]
      congr 1; push_cast; ring

theorem norm_mul (neg : Bool) (m k : Nat) (e : Int) (hm : m % 10 ≠ 0) :
    (Dec.norm ⟨neg, m * 10 ^ k, e⟩) = ⟨neg, m, e + k⟩ := by
  have hm0 : 0 < m := by rcases Nat.eq_zero_or_pos m with h | h; subst h; simp at hm; exact h
  have hne : m * 10 ^ k ≠ 0 := by positivity
  have hk : k ≤ m * 10 ^ k := by
    have : k < 10 ^ k := Nat.lt_pow_self (by norm_num)
    nlinarith
  unfold Dec.norm
  simp only [hne, if_false, stripZerosAux_mul _ m k e hm hk]

theorem norm_of_normal {d : Dec} (h : d.Normal) : d.norm = d := by
  obtain ⟨neg, m, e⟩ := d
  rcases h with ⟨h1, h2⟩ | h
  · dsimp only at h1 h2; subst h1; subst h2; rfl
  · have := norm_mul neg m 0 e h; simpa using this

theorem stripZerosAux_normal (f m : Nat) (e : Int) (hm : m ≠ 0) (hf : m ≤ f) : (stripZerosAux f m e).1 % 10 ≠ 0 := by
  induction f generalizing m e with
  | zero => omega
  | succ f ih =>
    rw [stripZerosAux]; split
    · exact ih _ _ (by omega) (by omega)
    · assumption

theorem norm_normal (d : Dec) : d.norm.Normal := by
  unfold Dec.norm; split
  · left; exact ⟨rfl, rfl⟩
  · rename_i h; right; exact stripZerosAux_normal _ _ _ h le_rfl

/-- A float environment without rounding: exact decimals. -/
def exactEnv : FloatEnv where
  round d := .fin d.norm
  normal := by intro d d' h; simp only [PyFloat.fin.injEq] at h; subst h; exact norm_normal d
  fix := by intro d d' d'' _ h2; rw [h2]

theorem parseExp_signed (neg : Bool) {s : Str} (hs : Digits s) (hne : s ≠ []) :
    parseExp ('e' :: (if neg then '-' else '+') :: s) = some (if neg then -(strVal s : Int) else strVal s) := by
  have h : takeSign ((if neg then '-' else '+') :: s) = (neg, s) := by cases neg <;> rfl
  simp only [parseExp, beq_self_eq_true, Bool.true_or, if_true, h, spanDigits_all hs]
  cases s with
  | nil => exact absurd rfl hne
  | cons c cs => simp [strVal]

theorem stops_e (s : Str) : Stops ('e' :: s) := by
  intro c h; simp only [List.head?_cons, Option.some.injEq] at h; subst h; decide
theorem stops_point (s : Str) : Stops ('.' :: s) := by
  intro c h; simp only [List.head?_cons, Option.some.injEq] at h; subst h; decide

theorem parseDec_exp (neg : Bool) {a s : Str} {e : Int} (ha : Digits a) (hne : a ≠ []) (he : parseExp ('e' :: s) = some e) :
    parseDec neg (a ++ 'e' :: s) = some ⟨neg, strVal a, e⟩ := by
  have h1 := spanDigits_digits false a ha (stops_e s)
  unfold parseDec
  rw [h1]
  cases a with
  | nil => exact absurd rfl hne
  | cons x xs => simp [he, strVal]

theorem parseDec_point_exp (neg : Bool) {a b s : Str} {e : Int} (ha : Digits a) (hb : Digits b) (hne : a ≠ [])
    (he : parseExp ('e' :: s) = some e) :
    parseDec neg (a ++ '.' :: (b ++ 'e' :: s)) = some ⟨neg, strVal (a ++ b), e - b.length⟩ := by
  have h1 := spanDigits_digits false a ha (stops_point (b ++ 'e' :: s))
  have h2 := spanDigits_digits false b hb (stops_e s)
  unfold parseDec
  rw [h1]; simp only [h2]
  cases a with
  | nil => exact absurd rfl hne
  | cons x xs => simp [he, strVal]

/-- Facts about the text of a float: shape and value. -/
theorem reprAbs_spec (neg : Bool) (m : Nat) (e : Int) (hn : (⟨neg, m, e⟩ : Dec).Normal) :
    (∃ d, parseDec neg (reprAbs m e) = some d ∧ d.norm = ⟨neg, m, e⟩) ∧ NumChars (reprAbs m e) ∧
    ('.' ∈ reprAbs m e ∨ 'e' ∈ reprAbs m e) ∧ (∃ c s, reprAbs m e = c :: s ∧ isDigit c = true) := by
  have hd := natStr_digits m
  have hv := natStr_val m
  have hne := natStr_ne_nil m
  unfold reprAbs
  generalize hds : natStr m = ds at *
  have hl : 0 < ds.length := List.length_pos_iff.2 hne
  obtain ⟨x, xs, hx⟩ : ∃ x xs, ds = x :: xs := by
    cases ds with
    | nil => exact absurd rfl hne
    | cons x xs => exact ⟨x, xs, rfl⟩
  have hxd : isDigit x = true := by rw [hx, Digits.cons_iff] at hd; exact hd.1
  dsimp only
  by_cases hpt : -4 < (ds.length : Int) + e ∧ (ds.length : Int) + e ≤ 16
  · rw [if_pos hpt]
    by_cases h0 : (ds.length : Int) + e ≤ 0
    · rw [if_pos h0]
      have hz := Digits.replicate_zero (-((ds.length : Int) + e)).toNat
      refine ⟨⟨⟨neg, m, e⟩, ?_, norm_of_normal hn⟩, ?_, ?_, ?_⟩
      · have := parseDec_point neg (a := ['0']) (b := List.replicate (-((ds.length : Int) + e)).toNat '0' ++ ds)
          (by simp [isDigit]) (Digits.append_iff.2 ⟨hz, hd⟩) (by simp)
        simp only [List.singleton_append] at this
        simp only [List.cons_append, List.nil_append]
        rw [this]
        congr 2
        · have : strVal ['0'] = 0 := by decide
          rw [show ('0' :: (List.replicate (-((ds.length : Int) + e)).toNat '0' ++ ds)) =
            ['0'] ++ (List.replicate (-((ds.length : Int) + e)).toNat '0' ++ ds) from rfl]
          rw [strVal_append, this, strVal_append, strVal_replicate_zero, hv]; simp
        · simp only [List.length_append, List.length_replicate]; omega
      · rw [NumChars.append_iff, NumChars.append_iff]
        exact ⟨⟨by simp [numChar, isDigit], hz.numChars⟩, hd.numChars⟩
      · left; simp
      · exact ⟨'0', _, rfl, by decide⟩
    · rw [if_neg h0]
      by_cases hn' : (ds.length : Int) ≤ (ds.length : Int) + e
      · rw [if_pos hn']
        have hz := Digits.replicate_zero e.toNat
        refine ⟨⟨⟨neg, m * 10 ^ (e.toNat + 1), -1⟩, ?_, ?_⟩, ?_, ?_, ?_⟩
        · have := parseDec_point neg (a := ds ++ List.replicate e.toNat '0') (b := ['0']) (by simp [hz, hd]) (by simp [isDigit])
            (by simp [hne])
          simp only [List.append_assoc] at this ⊢
          rw [this]
          congr 2
          rw [strVal_append, hv, strVal_append, strVal_replicate_zero]
          simp only [List.length_append, List.length_replicate, List.length_singleton, zero_mul, zero_add]
          rw [show strVal ['0'] = 0 by decide]; rfl
        · rcases hn with ⟨h1, h2⟩ | h
          · dsimp only at h1 h2; subst h1; subst h2; simp [Dec.norm]
          · rw [norm_mul _ _ _ _ h]; congr 1; push_cast; omega
        · simp [hz.numChars, hd.numChars, numChar, isDigit]
        · left; simp
        · rw [hx]; exact ⟨x, _, rfl, hxd⟩
      · rw [if_neg hn']
        refine ⟨⟨⟨neg, m, e⟩, ?_, norm_of_normal hn⟩, ?_, ?_, ?_⟩
        · have hta : ds.take ((ds.length : Int) + e).toNat ≠ [] := by
            rw [← List.length_pos_iff, List.length_take]; omega
          rw [parseDec_point neg (hd.take _) (hd.drop _) hta, List.take_append_drop, hv]
          congr 2
          simp only [List.length_drop]; omega
        · simp [(hd.take ((ds.length : Int) + e).toNat).numChars, (hd.drop ((ds.length : Int) + e).toNat).numChars, numChar]
        · left; simp
        · have h1 : ((ds.length : Int) + e).toNat ≠ 0 := by omega
          obtain ⟨k, hk⟩ := Nat.exists_eq_succ_of_ne_zero h1
          rw [hk, hx]; exact ⟨x, _, rfl, hxd⟩
  · rw [if_neg hpt]
    have hes : (if (ds.length : Int) + e - 1 < 0 then '-' :: natStrPad 2 ((ds.length : Int) + e - 1).natAbs
        else '+' :: natStrPad 2 ((ds.length : Int) + e - 1).natAbs) =
        (if decide ((ds.length : Int) + e - 1 < 0) then '-' else '+') :: natStrPad 2 ((ds.length : Int) + e - 1).natAbs := by
      by_cases h : (ds.length : Int) + e - 1 < 0 <;> simp [h]
    rw [hes]
    have hpe := parseExp_signed (decide ((ds.length : Int) + e - 1 < 0)) (natStrPad_digits 2 ((ds.length : Int) + e - 1).natAbs)
      (natStrPad_ne_nil _ _)
    rw [natStrPad_val] at hpe
    have hpe' : (if decide ((ds.length : Int) + e - 1 < 0) = true then -(((ds.length : Int) + e - 1).natAbs : Int)
        else (((ds.length : Int) + e - 1).natAbs : Int)) = (ds.length : Int) + e - 1 := by
      split
      · rename_i h; simp only [decide_eq_true_eq] at h; omega
      · rename_i h; simp only [decide_eq_true_eq] at h; omega
    rw [hpe'] at hpe
    have hnp := (natStrPad_digits 2 ((ds.length : Int) + e - 1).natAbs).numChars
    have hsg : numChar (if decide ((ds.length : Int) + e - 1 < 0) = true then '-' else '+') = true := by
      split <;> decide
    generalize natStrPad 2 ((ds.length : Int) + e - 1).natAbs = ts at *
    generalize (if decide ((ds.length : Int) + e - 1 < 0) = true then '-' else '+') = sg at *
    subst hx
    cases xs with
    | nil =>
      refine ⟨⟨⟨neg, m, e⟩, ?_, norm_of_normal hn⟩, ?_, ?_, ?_⟩
      · have := parseDec_exp neg hd (by simp) hpe
        simp only [List.singleton_append] at this ⊢
        rw [this, hv]; congr 2; simp
      · simp only [List.singleton_append, NumChars.cons_iff]
        exact ⟨by simp [numChar, hxd], by decide, hsg, hnp⟩
      · right; simp
      · exact ⟨x, _, rfl, hxd⟩
    | cons y ys =>
      refine ⟨⟨⟨neg, m, e⟩, ?_, norm_of_normal hn⟩, ?_, ?_, ?_⟩
      · rw [Digits.cons_iff] at hd
        have := parseDec_point_exp neg (a := [x]) (b := y :: ys) (by simp [hxd]) hd.2 (by simp) hpe
        simp only [List.singleton_append] at this
        simp only [List.cons_append] at this ⊢
        rw [this]
        rw [hv]; congr 2; simp only [List.length_cons]; push_cast; omega
      · rw [Digits.cons_iff] at hd
        simp only [List.cons_append, NumChars.cons_iff]
        have := hd.2.numChars
        rw [NumChars.cons_iff] at this
        refine ⟨by simp [numChar, hxd], by decide, this.1, ?_⟩
        simp only [NumChars.append_iff, NumChars.cons_iff]
        exact ⟨this.2, by decide, hsg, hnp⟩
      · left; simp
      · exact ⟨x, _, rfl, hxd⟩

/-- `str(x)` of a finite float: a number token that is no integer literal and reads back as the same float. -/
theorem floatStr_spec (d : Dec) (hn : d.Normal) :
    Token (floatStr (.fin d)) ∧ NumChars (floatStr (.fin d)) ∧ testStringContent (floatStr (.fin d)) = .float ∧
    ∃ d', pyFloat (floatStr (.fin d)) = some (.fin d') ∧ d'.norm = d := by
  obtain ⟨neg, m, e⟩ := d
  obtain ⟨⟨d', hp, hnorm⟩, hnc, hpt, c, s, hcs, hc⟩ := reprAbs_spec neg m e hn
  have hfree : Free isSpace (c :: s) := hcs ▸ hnc.free
  have hpf : pyFloat (floatStr (.fin ⟨neg, m, e⟩)) = some (.fin d') := by
    unfold floatStr
    cases neg with
    | true => simp only [if_true]; rw [hcs, pyFloat_neg_digit hc hfree, ← hcs, hp]; rfl
    | false => simp only [Bool.false_eq_true, if_false]; rw [hcs, pyFloat_pos_digit hc hfree, ← hcs, hp]; rfl
  have hnc' : NumChars (floatStr (.fin ⟨neg, m, e⟩)) := by
    unfold floatStr
    cases neg with
    | true => simp [hnc, numChar]
    | false => simpa using hnc
  have hne : floatStr (.fin ⟨neg, m, e⟩) ≠ [] := by
    unfold floatStr; cases neg <;> simp [hcs]
  have hpt' : '.' ∈ floatStr (.fin ⟨neg, m, e⟩) ∨ 'e' ∈ floatStr (.fin ⟨neg, m, e⟩) := by
    unfold floatStr
    cases neg with
    | true => simpa using hpt
    | false => simpa using hpt
  have hint : pyInt (floatStr (.fin ⟨neg, m, e⟩)) = none := by
    cases hi : pyInt (floatStr (.fin ⟨neg, m, e⟩)) with
    | none => rfl
    | some i =>
      have := pyInt_no_point (s := floatStr (.fin ⟨neg, m, e⟩)) (by simp [hi])
      rcases hpt' with h | h
      · exact absurd h this.1
      · exact absurd h this.2.1
  exact ⟨hnc'.token hne, hnc', testStringContent_of_float hpf hint, d', hpf, hnorm⟩

/-- A float read in some environment is printed and read back unchanged. -/
theorem pyFloatR_floatStr (F : FloatEnv) {d d' : Dec} (h : F.round d = .fin d') :
    pyFloatR F (floatStr (.fin d')) = some (.fin d') := by
  obtain ⟨_, _, _, d'', hp, hn⟩ := floatStr_spec d' (F.normal _ _ h)
  unfold pyFloatR; rw [hp]
  simp only [Option.map_some]
  rw [F.fix d d' d'' h hn]

end Verif
