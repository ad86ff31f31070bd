import Verif.Model.NpText
import Verif.Lemmas.Damaged
import Verif.Lemmas.Incar
/-! Helper lemmas about `np.fromstring`. -/
set_option autoImplicit false
namespace Verif.NpText
open Verif Verif.Utils

/-- The text does not go on as a number (but may begin with a sign). -/
def Stop (r : Str) : Prop := ∀ c, r.head? = some c → isDigit c = false ∧ c ≠ '.' ∧ c ≠ 'e' ∧ c ≠ 'E'
/-- The text does not begin with a sign. -/
def NoSign (r : Str) : Prop := ∀ c, r.head? = some c → c ≠ '+' ∧ c ≠ '-'

theorem digits_append {r : Str} (hr : Stop r) (a : Str) : digits (a ++ r) = ((digits a).1, (digits a).2 ++ r) := by
  induction a with
  | nil =>
    cases r with
    | nil => rfl
    | cons c cs => simp [digits, (hr c rfl).1]
  | cons c cs ih =>
    simp only [List.cons_append, digits, ih]
    split <;> rfl

theorem takeSign_append {a r : Str} (h : a ≠ [] ∨ NoSign r) : takeSign (a ++ r) = ((takeSign a).1, (takeSign a).2 ++ r) := by
  cases a with
  | cons c cs =>
    by_cases h1 : c = '-'
    · subst h1; rfl
    by_cases h2 : c = '+'
    · subst h2; rfl
    · rw [takeSign.eq_3 _ (by intro cs e; cases e; exact h1 rfl) (by intro cs e; cases e; exact h2 rfl),
        takeSign.eq_3 _ (by intro cs e; cases e; exact h1 rfl) (by intro cs e; cases e; exact h2 rfl)]
  | nil =>
    have h : NoSign r := by rcases h with h | h; exact absurd rfl h; exact h
    cases r with
    | nil => rfl
    | cons c cs =>
      obtain ⟨h1, h2⟩ := h c rfl
      rw [List.nil_append, takeSign.eq_3 _ (by intro cs e; cases e; exact h2 rfl) (by intro cs e; cases e; exact h1 rfl)]
      rfl

theorem exponent_stop {r : Str} (hr : Stop r) : exponent r = (0, r) := by
  cases r with
  | nil => rfl
  | cons c cs =>
    obtain ⟨_, _, h1, h2⟩ := hr c rfl
    simp [exponent, h1, h2]

theorem exponent_append {r : Str} (hr : Stop r) (hs : NoSign r) (a : Str) : exponent (a ++ r) = ((exponent a).1, (exponent a).2 ++ r) := by
  cases a with
  | nil => rw [List.nil_append, exponent_stop hr]; rfl
  | cons c cs =>
    simp only [List.cons_append, exponent, takeSign_append (.inr hs), digits_append hr]
    split
    · split <;> rfl
    · rfl

theorem exponent_complete {r a : Str} (hr : Stop r) (h : (exponent a).2 = []) : exponent (a ++ r) = ((exponent a).1, r) := by
  cases a with
  | nil => rw [List.nil_append, exponent_stop hr]; rfl
  | cons c cs =>
    have hcs : cs ≠ [] := by
      rintro rfl
      simp only [exponent] at h
      split at h
      · simp [takeSign, digits] at h
      · cases h
    simp only [List.cons_append, exponent, takeSign_append (.inl hcs), digits_append hr] at h ⊢
    split
    · rename_i hc
      rw [if_pos hc] at h
      split
      · rename_i he; rw [if_pos he] at h; cases h
      · rename_i he
        rw [if_neg he] at h
        simp only at h ⊢
        rw [h]; rfl
    · rename_i hc
      rw [if_neg hc] at h; cases h

theorem unsigned_point {neg : Bool} {s rest : Str} (h : (digits s).2 = '.' :: rest) : unsigned neg s =
    if (digits s).1.isEmpty && (digits rest).1.isEmpty then none
    else some (Dec.toRat ⟨neg, ofDigits ((digits s).1 ++ (digits rest).1), (exponent (digits rest).2).1 - (digits rest).1.length⟩,
      (exponent (digits rest).2).2) := by
  unfold unsigned
  simp only [h]

theorem unsigned_plain {neg : Bool} {s : Str} (h : ∀ rest, (digits s).2 ≠ '.' :: rest) : unsigned neg s =
    if (digits s).1.isEmpty then none
    else some (Dec.toRat ⟨neg, ofDigits (digits s).1, (exponent (digits s).2).1⟩, (exponent (digits s).2).2) := by
  unfold unsigned
  simp only

theorem unsigned_append {neg : Bool} {r : Str} (hr : Stop r) (hs : NoSign r) (a : Str) :
    unsigned neg (a ++ r) = (unsigned neg a).map fun p => (p.1, p.2 ++ r) := by
  have hd := digits_append hr a
  by_cases h : ∃ rest, (digits a).2 = '.' :: rest
  · obtain ⟨rest, h⟩ := h
    rw [unsigned_point h, unsigned_point (rest := rest ++ r) (by rw [hd, h]; rfl), hd, digits_append hr, exponent_append hr hs]
    simp only
    split <;> rfl
  · have h1 : ∀ rest, (digits a).2 ≠ '.' :: rest := fun rest hx => h ⟨rest, hx⟩
    have h2 : ∀ rest, (digits (a ++ r)).2 ≠ '.' :: rest := by
      intro rest hx
      rw [hd] at hx
      cases ha : (digits a).2 with
      | nil => rw [ha] at hx; simp only [List.nil_append] at hx; exact (hr '.' (by rw [hx]; rfl)).2.1 rfl
      | cons c cs => rw [ha] at hx; simp only [List.cons_append] at hx; cases hx; exact h1 _ ha
    rw [unsigned_plain h1, unsigned_plain h2, hd, exponent_append hr hs]
    simp only
    split <;> rfl

theorem unsigned_complete {neg : Bool} {r : Str} (hr : Stop r) {a : Str} {x : Rat} (h : unsigned neg a = some (x, [])) :
    unsigned neg (a ++ r) = some (x, r) := by
  have hd := digits_append hr a
  by_cases hp : ∃ rest, (digits a).2 = '.' :: rest
  · obtain ⟨rest, hp⟩ := hp
    rw [unsigned_point hp] at h
    rw [unsigned_point (rest := rest ++ r) (by rw [hd, hp]; rfl), hd, digits_append hr]
    simp only
    split at h
    · cases h
    · rename_i he
      rw [if_neg he]
      simp only [Option.some.injEq, Prod.mk.injEq] at h
      rw [exponent_complete hr h.2, ← h.1]
  · have h1 : ∀ rest, (digits a).2 ≠ '.' :: rest := fun rest hx => hp ⟨rest, hx⟩
    have h2 : ∀ rest, (digits (a ++ r)).2 ≠ '.' :: rest := by
      intro rest hx
      rw [hd] at hx
      cases ha : (digits a).2 with
      | nil => rw [ha] at hx; simp only [List.nil_append] at hx; exact (hr '.' (by rw [hx]; rfl)).2.1 rfl
      | cons c cs => rw [ha] at hx; simp only [List.cons_append] at hx; cases hx; exact h1 _ ha
    rw [unsigned_plain h1] at h
    rw [unsigned_plain h2, hd]
    simp only
    split at h
    · cases h
    · rename_i he
      rw [if_neg he]
      simp only [Option.some.injEq, Prod.mk.injEq] at h
      rw [exponent_complete hr h.2, ← h.1]

theorem strtod_append {r : Str} (hr : Stop r) (hs : NoSign r) (a : Str) : strtod (a ++ r) = (strtod a).map fun p => (p.1, p.2 ++ r) := by
  unfold strtod
  rw [takeSign_append (.inr hs)]
  exact unsigned_append hr hs _

theorem strtod_complete {r : Str} (hr : Stop r) {a : Str} {x : Rat} (h : strtod a = some (x, [])) : strtod (a ++ r) = some (x, r) := by
  have ha : a ≠ [] := by rintro rfl; cases h
  unfold strtod at h ⊢
  rw [takeSign_append (.inl ha)]
  exact unsigned_complete hr h

/-! ### what is consumed -/

/-- Characters of numbers. -/
def numberChar (c : Char) : Bool := isDigit c || c == '.' || c == 'e' || c == 'E' || c == '+' || c == '-'

theorem digits_split (s : Str) : ∃ p, s = p ++ (digits s).2 ∧ ∀ c ∈ p, isDigit c = true := by
  induction s with
  | nil => exact ⟨[], rfl, by simp⟩
  | cons c cs ih =>
    obtain ⟨p, h1, h2⟩ := ih
    simp only [digits]
    split
    · rename_i hc
      refine ⟨c :: p, by simp only [List.cons_append]; rw [← h1], ?_⟩
      intro x hx
      rcases List.mem_cons.1 hx with rfl | hx
      · exact hc
      · exact h2 x hx
    · exact ⟨[], rfl, by simp⟩

theorem numberChar_digit {c : Char} (h : isDigit c = true) : numberChar c = true := by simp [numberChar, h]

theorem takeSign_split (s : Str) : ∃ p, s = p ++ (takeSign s).2 ∧ ∀ c ∈ p, numberChar c = true := by
  rw [takeSign.eq_def]
  split
  · exact ⟨['-'], rfl, by decide⟩
  · exact ⟨['+'], rfl, by decide⟩
  · exact ⟨[], rfl, by simp⟩

theorem exponent_split (s : Str) : ∃ p, s = p ++ (exponent s).2 ∧ ∀ c ∈ p, numberChar c = true := by
  cases s with
  | nil => exact ⟨[], rfl, by simp⟩
  | cons c cs =>
    simp only [exponent]
    split
    · rename_i hc
      split
      · exact ⟨[], rfl, by simp⟩
      · obtain ⟨p, h1, h2⟩ := takeSign_split cs
        obtain ⟨q, h3, h4⟩ := digits_split (takeSign cs).2
        refine ⟨c :: (p ++ q), ?_, ?_⟩
        · simp only [List.cons_append, List.append_assoc]
          rw [← h3, ← h1]
        · intro x hx
          rcases List.mem_cons.1 hx with rfl | hx
          · simp only [Bool.or_eq_true, beq_iff_eq] at hc
            rcases hc with rfl | rfl <;> decide
          · rcases List.mem_append.1 hx with hx | hx
            · exact h2 x hx
            · exact numberChar_digit (h4 x hx)
    · exact ⟨[], rfl, by simp⟩

theorem unsigned_split {neg : Bool} {s r : Str} {x : Rat} (h : unsigned neg s = some (x, r)) : ∃ p, s = p ++ r ∧ ∀ c ∈ p, numberChar c = true := by
  obtain ⟨p, h1, h2⟩ := digits_split s
  by_cases hp : ∃ rest, (digits s).2 = '.' :: rest
  · obtain ⟨rest, hp⟩ := hp
    rw [unsigned_point hp] at h
    split at h
    · cases h
    · simp only [Option.some.injEq, Prod.mk.injEq] at h
      obtain ⟨q, h3, h4⟩ := digits_split rest
      obtain ⟨e, h5, h6⟩ := exponent_split (digits rest).2
      rw [h.2] at h5
      refine ⟨p ++ ('.' :: (q ++ e)), ?_, ?_⟩
      · rw [h1, hp]
        simp only [List.append_assoc, List.cons_append]
        rw [← h5, ← h3]
      · intro c hc
        rcases List.mem_append.1 hc with hc | hc
        · exact numberChar_digit (h2 c hc)
        · rcases List.mem_cons.1 hc with rfl | hc
          · decide
          · rcases List.mem_append.1 hc with hc | hc
            · exact numberChar_digit (h4 c hc)
            · exact h6 c hc
  · have h1' : ∀ rest, (digits s).2 ≠ '.' :: rest := fun rest hx => hp ⟨rest, hx⟩
    rw [unsigned_plain h1'] at h
    split at h
    · cases h
    · simp only [Option.some.injEq, Prod.mk.injEq] at h
      obtain ⟨e, h5, h6⟩ := exponent_split (digits s).2
      rw [h.2] at h5
      refine ⟨p ++ e, ?_, ?_⟩
      · rw [List.append_assoc, ← h5]; exact h1
      · intro c hc
        rcases List.mem_append.1 hc with hc | hc
        · exact numberChar_digit (h2 c hc)
        · exact h6 c hc

theorem strtod_split {s r : Str} {x : Rat} (h : strtod s = some (x, r)) : ∃ p, s = p ++ r ∧ ∀ c ∈ p, numberChar c = true := by
  obtain ⟨p, h1, h2⟩ := takeSign_split s
  obtain ⟨q, h3, h4⟩ := unsigned_split h
  refine ⟨p ++ q, by rw [List.append_assoc, ← h3]; exact h1, ?_⟩
  intro c hc
  rcases List.mem_append.1 hc with hc | hc
  · exact h2 c hc
  · exact h4 c hc

theorem unsigned_head {neg : Bool} {s r : Str} {x : Rat} (h : unsigned neg s = some (x, r)) : ∃ c cs, s = c :: cs ∧ (isDigit c = true ∨ c = '.') := by
  cases s with
  | nil => cases h
  | cons c cs =>
    refine ⟨c, cs, rfl, ?_⟩
    by_contra hn
    simp only [not_or, Bool.not_eq_true] at hn
    have hd : digits (c :: cs) = ([], c :: cs) := by simp [digits, hn.1]
    rw [unsigned_plain (by intro rest he; rw [hd] at he; cases he; exact hn.2 rfl), hd] at h
    cases h

theorem special_false {s r : Str} {x : Rat} (h : strtod s = some (x, r)) : special s = false := by
  obtain ⟨c, cs, h1, h2⟩ := unsigned_head h
  unfold special
  rw [h1]
  have : lowerC c ≠ 'n' ∧ lowerC c ≠ 'i' := by
    have hl := lowerC_toNat c
    rcases h2 with h2 | rfl
    · simp only [isDigit, Bool.and_eq_true, decide_eq_true_eq] at h2
      rw [if_neg (by simp; omega)] at hl
      constructor <;> intro h <;> rw [h] at hl <;> revert hl h2 <;> simp <;> omega
    · decide
  simp only [lower, List.map_cons, startsWith, List.isPrefixOf, Bool.or_eq_false_iff, Bool.and_eq_false_iff, beq_eq_false_iff_ne]
  exact ⟨.inl (Ne.symm this.1), .inl (Ne.symm this.2)⟩

/-! ### Python literals -/

theorem digits_span {s : Str} (h : '_' ∉ s) : ∀ b, spanDigits b s = digits s := by
  induction s with
  | nil => intro b; rfl
  | cons c cs ih =>
    intro b
    simp only [List.mem_cons, not_or] at h
    have hc : (c == '_') = false := by simp; exact fun e => h.1 e.symm
    simp only [spanDigits, digits, ih h.2, hc, Bool.false_and]
    simp

theorem mem_digits {s : Str} {c : Char} (h : c ∈ (digits s).2) : c ∈ s := by
  obtain ⟨p, h1, _⟩ := digits_split s
  rw [h1]; exact List.mem_append_right _ h

theorem mem_takeSign {s : Str} {c : Char} (h : c ∈ (takeSign s).2) : c ∈ s := by
  obtain ⟨p, h1, _⟩ := takeSign_split s
  rw [h1]; exact List.mem_append_right _ h

theorem parseExp_iff {s : Str} (hu : '_' ∉ s) (e : Int) : parseExp s = some e ↔ exponent s = (e, []) := by
  cases s with
  | nil => simp [parseExp, exponent]
  | cons c cs =>
    have h1 : '_' ∉ (takeSign cs).2 := fun h => hu (List.mem_cons_of_mem _ (mem_takeSign h))
    simp only [parseExp, exponent, digits_span h1]
    split
    · cases hd : digits (takeSign cs).2 with
      | mk ds r =>
        cases ds with
        | nil => simp
        | cons d ds =>
          cases r with
          | nil => simp
          | cons x xs => simp
    · simp

theorem parseDec_iff {neg : Bool} {s : Str} (hu : '_' ∉ s) (x : Rat) :
    (parseDec neg s).map Dec.toRat = some x ↔ unsigned neg s = some (x, []) := by
  unfold parseDec
  rw [digits_span hu]
  have hu1 : '_' ∉ (digits s).2 := fun h => hu (mem_digits h)
  by_cases hp : ∃ rest, (digits s).2 = '.' :: rest
  · obtain ⟨rest, hp⟩ := hp
    have hu2 : '_' ∉ rest := fun h => hu1 (by rw [hp]; exact List.mem_cons_of_mem _ h)
    have hu3 : '_' ∉ (digits rest).2 := fun h => hu2 (mem_digits h)
    rw [unsigned_point hp]
    have he : digits s = ((digits s).1, '.' :: rest) := Prod.ext rfl hp
    rw [he]
    simp only [digits_span hu2]
    split
    · simp
    · simp only [Option.map_map, Option.map_eq_some_iff, parseExp_iff hu3, Option.some.injEq, Prod.mk.injEq, Function.comp_apply]
      constructor
      · rintro ⟨e, h1, h2⟩; rw [h1]; exact ⟨h2, rfl⟩
      · rintro ⟨h1, h2⟩; exact ⟨_, Prod.ext rfl h2, h1⟩
  · have h1 : ∀ rest, (digits s).2 ≠ '.' :: rest := fun rest hx => hp ⟨rest, hx⟩
    rw [unsigned_plain h1]
    split
    · rename_i he; exact absurd (by rw [he]) (h1 _)
    · rename_i ip rest _ he
      rw [he] at hu1 ⊢
      simp only
      split
      · simp
      · simp only [Option.map_map, Option.map_eq_some_iff, parseExp_iff hu1, Option.some.injEq, Prod.mk.injEq, Function.comp_apply]
        constructor
        · rintro ⟨e, h1, h2⟩; rw [h1]; exact ⟨h2, rfl⟩
        · rintro ⟨h1, h2⟩; exact ⟨_, Prod.ext rfl h2, h1⟩

/-- On a word without underscores, `strtod` and `float()` agree about complete numbers. -/
theorem strtod_iff {w : Str} (hf : Free isSpace w) (hu : '_' ∉ w) (x : Rat) : pyFloatRat w = some x ↔ strtod w = some (x, []) := by
  have hs : strip w = w := strip_eq_self ⟨fun c hc => hf c (List.mem_of_mem_head? hc), fun c hc => hf c (List.mem_of_getLast? hc)⟩
  have hu1 : '_' ∉ (takeSign w).2 := fun h => hu (mem_takeSign h)
  have key : pyFloatRat w = some x ↔ (lower (takeSign w).2 ≠ c!"inf" ∧ lower (takeSign w).2 ≠ c!"infinity" ∧ lower (takeSign w).2 ≠ c!"nan") ∧
      (parseDec (takeSign w).1 (takeSign w).2).map Dec.toRat = some x := by
    unfold pyFloatRat pyFloat
    rw [hs]
    dsimp only
    by_cases h1 : lower (takeSign w).2 = c!"inf" ∨ lower (takeSign w).2 = c!"infinity"
    · rw [if_pos h1]
      simp only [reduceCtorEq, false_iff]
      rintro ⟨⟨a, b, _⟩, _⟩
      rcases h1 with h1 | h1
      · exact a h1
      · exact b h1
    · rw [if_neg h1]
      by_cases h2 : lower (takeSign w).2 = c!"nan"
      · rw [if_pos h2]
        simp only [reduceCtorEq, false_iff]
        rintro ⟨⟨_, _, a⟩, _⟩
        exact a h2
      · rw [if_neg h2]
        simp only [not_or] at h1
        cases parseDec (takeSign w).1 (takeSign w).2 with
        | none => simp
        | some d => simp [h1, h2]
  rw [key, parseDec_iff hu1]
  constructor
  · exact fun h => h.2
  · intro h
    have hsp := special_false (s := w) h
    refine ⟨⟨?_, ?_, ?_⟩, h⟩ <;> intro hl <;> unfold special at hsp <;> rw [hl] at hsp <;> revert hsp <;> decide

theorem numberChar_not_space {c : Char} (h : numberChar c = true) : isSpace c = false ∧ c ≠ '_' := by
  simp only [numberChar, Bool.or_eq_true, beq_iff_eq] at h
  rcases h with ((((h | rfl) | rfl) | rfl) | rfl) | rfl
  · exact ⟨digit_not_space h, by rintro rfl; revert h; decide⟩
  all_goals exact ⟨by decide, by decide⟩

/-- A word that is read completely is a number for `float()`, too. -/
theorem strtod_float {w : Str} {x : Rat} (h : strtod w = some (x, [])) : pyFloatRat w = some x := by
  obtain ⟨p, h1, h2⟩ := strtod_split h
  rw [List.append_nil] at h1
  subst h1
  exact (strtod_iff (fun c hc => (numberChar_not_space (h2 c hc)).1) (fun hc => (numberChar_not_space (h2 _ hc)).2 rfl) x).2 h

theorem strtod_sound {w : Str} {x : Rat} (h : strtod w = some (x, [])) : ¬ Damaged w := by
  have hf := strtod_float h
  obtain ⟨p, h1, h2⟩ := strtod_split h
  rw [List.append_nil] at h1
  subst h1
  intro hd
  unfold pyFloatRat at hf
  rw [pyFloat_damaged hd (fun c hc => (numberChar_not_space (h2 c hc)).1)] at hf
  cases hf


/-! ### the loop -/

/-- Specification: the white space of a text is that of C (Python's also has a few exotic characters). -/
def PlainSpace (s : Str) : Prop := ∀ c ∈ s, isSpace c = true → cSpace c = true

theorem space_of_cSpace {c : Char} (h : cSpace c = true) : isSpace c = true := by
  simp only [cSpace, Bool.or_eq_true, Bool.and_eq_true, decide_eq_true_eq, beq_iff_eq] at h
  simp only [isSpace, Bool.or_eq_true, Bool.and_eq_true, decide_eq_true_eq, beq_iff_eq]
  omega

theorem stop_space {c : Char} (h : isSpace c = true) : (isDigit c = false ∧ c ≠ '.' ∧ c ≠ 'e' ∧ c ≠ 'E') ∧ c ≠ '+' ∧ c ≠ '-' := by
  refine ⟨⟨?_, ?_, ?_, ?_⟩, ?_, ?_⟩
  · cases hd : isDigit c with
    | false => rfl
    | true => rw [digit_not_space hd] at h; cases h
  all_goals rintro rfl; revert h; decide

/-- The first word of a text, what stands in front of it and what follows. -/
theorem words_first {s w : Str} {ws : List Str} (h : words s = w :: ws) : ∃ sp rest, s = sp ++ (w ++ rest) ∧ (∀ c ∈ sp, isSpace c = true) ∧
    (∀ c, rest.head? = some c → isSpace c = true) ∧ words rest = ws ∧ w ≠ [] ∧ Free isSpace w := by
  obtain ⟨sp, h1, h2⟩ := lstrip_split s
  have hw : words (lstrip s) = w :: ws := by rw [words_lstrip, h]
  have hne : (lstrip s).takeWhile (fun c => !isSpace c) ≠ [] := by
    cases hl : lstrip s with
    | nil => rw [hl] at hw; cases hw
    | cons c cs =>
      have := dropWhile_head isSpace s c (by unfold lstrip at hl; rw [hl]; rfl)
      rw [List.takeWhile_cons, this]
      simp
  have hfree : Free isSpace ((lstrip s).takeWhile (fun c => !isSpace c)) := by
    intro c hc
    have := List.all_eq_true.1 (List.all_takeWhile (l := lstrip s) (p := fun c => !isSpace c)) c hc
    simpa using this
  have hrest : ∀ c, ((lstrip s).dropWhile (fun c => !isSpace c)).head? = some c → isSpace c = true := by
    intro c hc
    have := dropWhile_head (fun c => !isSpace c) (lstrip s) c hc
    simpa using this
  have hsplit := (List.takeWhile_append_dropWhile (p := fun c => !isSpace c) (l := lstrip s)).symm
  generalize (lstrip s).takeWhile (fun c => !isSpace c) = a at hne hfree hsplit
  generalize (lstrip s).dropWhile (fun c => !isSpace c) = b at hrest hsplit
  rw [hsplit] at hw
  have hab : words (a ++ b) = a :: words b := by
    cases b with
    | nil => rw [List.append_nil, words_free hfree hne]; rfl
    | cons c cs => rw [words_sep _ _ _ (hrest c rfl), words_free hfree hne, words_space_cons _ _ (hrest c rfl)]; rfl
  rw [hab] at hw
  cases hw
  exact ⟨sp, b, by rw [← hsplit, ← h1], h2, hrest, rfl, hne, hfree⟩

theorem dropWhile_spaces {sp w rest : Str} (hp : ∀ c ∈ sp, cSpace c = true) (hne : w ≠ []) (hf : Free isSpace w) :
    (sp ++ (w ++ rest)).dropWhile cSpace = w ++ rest := by
  rw [List.dropWhile_append_of_pos hp]
  cases w with
  | nil => exact absurd rfl hne
  | cons c cs =>
    have : cSpace c = false := by
      cases h : cSpace c with
      | false => rfl
      | true => have := hf c (by simp); rw [space_of_cSpace h] at this; cases this
    rw [List.cons_append, List.dropWhile_cons, this]
    rfl

theorem stop_rest {rest : Str} (h : ∀ c, rest.head? = some c → isSpace c = true) : Stop rest ∧ NoSign rest :=
  ⟨fun c hc => (stop_space (h c hc)).1, fun c hc => (stop_space (h c hc)).2⟩

/-- One turn of the loop: a complete number. -/
theorem loop_number {n : Nat} {s w : Str} {ws : List Str} {x : Rat} (hp : PlainSpace s) (h : words s = w :: ws) (hx : strtod w = some (x, [])) (hn : s.length < n + 1) :
    ∃ rest, PlainSpace rest ∧ words rest = ws ∧ rest.length < n ∧ (loop (n + 1) s = .ok ([x], []) ∧ ws = [] ∨
      loop (n + 1) s = (loop n rest >>= fun p => .ok (x :: p.1, p.2))) := by
  obtain ⟨sp, rest, rfl, h2, h3, h4, h5, h6⟩ := words_first h
  have hc : ∀ c ∈ sp, cSpace c = true := fun c hc => hp c (by simp [hc]) (h2 c hc)
  have hst := strtod_complete (stop_rest h3).1 hx
  have hl : 0 < w.length := List.length_pos_iff.2 h5
  refine ⟨rest, fun c hc' => hp c (by simp [hc']), h4, by simp at hn; omega, ?_⟩
  simp only [loop, dropWhile_spaces hc h5 h6, special_false hst, hst]
  cases rest with
  | nil => left; rw [← h4]; exact ⟨by simp, rfl⟩
  | cons c cs =>
    right
    have : cSpace c = true := hp c (by simp) (h3 c rfl)
    simp [this]

/-- The last turn of the loop: a word that is no complete number. -/
theorem loop_stop {n : Nat} {s w : Str} {ws : List Str} (hp : PlainSpace s) (h : words s = w :: ws) (hx : ∀ x, strtod w ≠ some (x, []))
    {p : List Rat × Str} (hl : loop (n + 1) s = .ok p) : p.1 = [] ∧ strtod w = none ∨ ∃ y r, p.1 = [y] ∧ strtod w = some (y, r) := by
  obtain ⟨sp, rest, rfl, h2, h3, h4, h5, h6⟩ := words_first h
  have hc : ∀ c ∈ sp, cSpace c = true := fun c hc => hp c (by simp [hc]) (h2 c hc)
  have hst := strtod_append (stop_rest h3).1 (stop_rest h3).2 w
  simp only [loop, dropWhile_spaces hc h5 h6] at hl
  split at hl
  · cases hl
  · rw [hst] at hl
    cases hw : strtod w with
    | none => rw [hw] at hl; cases hl; exact .inl ⟨rfl, rfl⟩
    | some q =>
      obtain ⟨y, r⟩ := q
      rw [hw] at hl
      cases r with
      | nil => exact absurd hw (hx y)
      | cons c cs =>
        simp only [Option.map_some, List.cons_append] at hl
        have : cSpace c = false := by
          cases hcs : cSpace c with
          | false => rfl
          | true =>
            obtain ⟨q, hq, _⟩ := strtod_split hw
            have := h6 c (by rw [hq]; simp)
            rw [space_of_cSpace hcs] at this; cases this
        rw [this] at hl
        cases hl
        exact .inr ⟨y, _, rfl, rfl⟩

/-- No words: nothing is read. -/
theorem loop_blank {n : Nat} {s : Str} (hp : PlainSpace s) (h : words s = []) : loop (n + 1) s = .ok ([], []) := by
  have : s.dropWhile cSpace = [] := by
    have hall : ∀ c ∈ s, cSpace c = true := fun c hc => hp c hc ((Incar.words_eq_nil_iff s).1 h c hc)
    have := List.dropWhile_append_of_pos (l₂ := []) hall
    simpa using this
  simp only [loop, this]
  rfl

/-- The words of a text are read up to the first that is no complete number. -/
theorem loop_words : ∀ (ws post : List Str) (s : Str) (n : Nat) (xs : List Rat), PlainSpace s → s.length < n → words s = ws ++ post →
    List.Forall₂ (fun w x => strtod w = some (x, [])) ws xs → (post = [] → loop n s = .ok (xs, [])) ∧
    (∀ (w : Str) (ws' : List Str), post = w :: ws' → (∀ x, strtod w ≠ some (x, [])) → ∀ p, loop n s = .ok p →
      p.1 = xs ∧ strtod w = none ∨ ∃ y r, p.1 = xs ++ [y] ∧ strtod w = some (y, r)) := by
  intro ws
  induction ws with
  | nil =>
    intro post s n xs hp hn hw hx
    cases hx
    obtain ⟨m, rfl⟩ : ∃ m, n = m + 1 := ⟨n - 1, by omega⟩
    refine ⟨?_, ?_⟩
    · rintro rfl; exact loop_blank hp hw
    · rintro w ws' rfl hno p hl
      exact loop_stop hp hw hno hl
  | cons w ws ih =>
    intro post s n xs hp hn hw hx
    obtain ⟨m, rfl⟩ : ∃ m, n = m + 1 := ⟨n - 1, by omega⟩
    cases hx with
    | @cons _ x _ xs hx hxs =>
      obtain ⟨rest, h1, h2, h3, h4⟩ := loop_number hp hw hx hn
      obtain ⟨i1, i2⟩ := ih post rest m xs h1 h3 h2 hxs
      rcases h4 with ⟨h4, h5⟩ | h4
      · obtain ⟨rfl, rfl⟩ := List.append_eq_nil_iff.1 h5
        cases hxs
        exact ⟨fun _ => h4, fun w ws' h => by cases h⟩
      · refine ⟨fun hpost => by rw [h4, i1 hpost]; rfl, ?_⟩
        intro w' ws' hpost hno p hl
        rw [h4] at hl
        obtain ⟨q, hq, hl⟩ := Res.bind_eq_ok.1 hl
        cases hl
        rcases i2 w' ws' hpost hno q hq with ⟨g1, g2⟩ | ⟨y, r, g1, g2⟩
        · exact .inl ⟨by rw [g1], g2⟩
        · exact .inr ⟨y, r, by rw [g1]; rfl, g2⟩

/-- A word that begins with a star ends the reading. -/
theorem loop_star {n : Nat} {s w : Str} {ws : List Str} (hp : PlainSpace s) (h : words s = w :: ws) (hw : startsWith ['*'] w = true) :
    ∃ r, loop (n + 1) s = .ok ([], r) := by
  obtain ⟨sp, rest, rfl, h2, h3, h4, h5, h6⟩ := words_first h
  have hc : ∀ c ∈ sp, cSpace c = true := fun c hc => hp c (by simp [hc]) (h2 c hc)
  simp only [loop, dropWhile_spaces hc h5 h6]
  cases w with
  | nil => exact absurd rfl h5
  | cons c cs =>
    simp only [startsWith, List.isPrefixOf, Bool.and_true, beq_iff_eq] at hw
    subst hw
    exact ⟨_, rfl⟩

theorem loop_fromWords : ∀ (ws : List Str) (s : Str) (n : Nat) (xs : List Rat), PlainSpace s → s.length < n → words s = ws →
    Vasprun.fromWords ws = .ok xs → ∃ r, loop n s = .ok (xs, r) := by
  intro ws
  induction ws with
  | nil =>
    intro s n xs hp hn hw hx
    cases hx
    obtain ⟨m, rfl⟩ : ∃ m, n = m + 1 := ⟨n - 1, by omega⟩
    exact ⟨_, loop_blank hp hw⟩
  | cons w ws ih =>
    intro s n xs hp hn hw hx
    obtain ⟨m, rfl⟩ : ∃ m, n = m + 1 := ⟨n - 1, by omega⟩
    simp only [Vasprun.fromWords] at hx
    split at hx
    · rename_i hst
      cases hx
      exact loop_star hp hw hst
    · split at hx
      · rename_i x hx1
        split at hx
        · cases hx
        · rename_i hu
          obtain ⟨ys, hy, hx⟩ := Res.bind_eq_ok.1 hx
          cases hx
          have hmem : w ∈ words s := by rw [hw]; simp
          obtain ⟨rest, h1, h2, h3, h4⟩ := loop_number hp hw ((strtod_iff (words_mem hmem).2 hu x).1 hx1) hn
          rcases h4 with ⟨h4, rfl⟩ | h4
          · cases hy; exact ⟨_, h4⟩
          · obtain ⟨r, hr⟩ := ih rest m ys h1 h3 h2 hy
            exact ⟨r, by rw [h4, hr]; rfl⟩
      · cases hx

theorem split_good (ws : List Str) : ∃ pre xs post, ws = pre ++ post ∧ List.Forall₂ (fun w x => strtod w = some (x, [])) pre xs ∧
    (post = [] ∨ ∃ w ws', post = w :: ws' ∧ ∀ x, strtod w ≠ some (x, [])) := by
  induction ws with
  | nil => exact ⟨[], [], [], rfl, .nil, .inl rfl⟩
  | cons w ws ih =>
    by_cases h : ∃ x, strtod w = some (x, [])
    · obtain ⟨x, hx⟩ := h
      obtain ⟨pre, xs, post, h1, h2, h3⟩ := ih
      exact ⟨w :: pre, x :: xs, post, by rw [h1]; rfl, .cons hx h2, h3⟩
    · exact ⟨[], [], w :: ws, rfl, .nil, .inr ⟨w, ws, rfl, fun x hx => h ⟨x, hx⟩⟩⟩

theorem forall₂_get {α β : Type} {R : α → β → Prop} {l : List α} {m : List β} (h : List.Forall₂ R l m) {i : Nat} {a : α} (hi : l[i]? = some a) :
    ∃ b, m[i]? = some b ∧ R a b := by
  induction h generalizing i with
  | nil => simp at hi
  | cons hr _ ih =>
    cases i with
    | zero => simp at hi; subst hi; exact ⟨_, rfl, hr⟩
    | succ i => simp at hi; simpa using ih hi

/-- What was read: every number but the last is that of a complete word. -/
theorem fromString_sound {s : Str} {xs : List Rat} (hp : PlainSpace s) (h : fromString s = .ok xs) : xs.length ≤ (words s).length ∧
    ∀ (j : Nat) (w : Str), j + 1 < xs.length → (words s)[j]? = some w → ∃ x, xs[j]? = some x ∧ strtod w = some (x, []) := by
  unfold fromString at h
  obtain ⟨p, hl, h⟩ := Res.bind_eq_ok.1 h
  cases h
  obtain ⟨pre, ys, post, h1, h2, h3⟩ := split_good (words s)
  obtain ⟨k1, k2⟩ := loop_words pre post s (s.length + 1) ys hp (by omega) h1 h2
  have hlen := h2.length_eq
  rcases h3 with rfl | ⟨w0, ws', rfl, h3⟩
  · rw [k1 rfl] at hl
    cases hl
    rw [List.append_nil] at h1
    refine ⟨by rw [h1]; exact hlen.ge, fun j w hj hw => ?_⟩
    rw [h1] at hw
    exact forall₂_get h2 hw
  · rcases k2 w0 ws' rfl h3 p hl with ⟨g1, g2⟩ | ⟨y, r, g1, g2⟩
    · refine ⟨by rw [h1, g1]; simp; omega, fun j w hj hw => ?_⟩
      rw [g1] at hj ⊢
      rw [h1, List.getElem?_append_left (by omega)] at hw
      exact forall₂_get h2 hw
    · refine ⟨by rw [h1, g1]; simp; omega, fun j w hj hw => ?_⟩
      rw [g1] at hj ⊢
      simp at hj
      rw [h1, List.getElem?_append_left (by omega)] at hw
      obtain ⟨b, hb, hb'⟩ := forall₂_get h2 hw
      exact ⟨b, by rw [List.getElem?_append_left (by omega), hb], hb'⟩

/-- A number with junk attached ends the reading, as if the junk were not there. -/
theorem fromString_junk {s : Str} (hp : PlainSpace s) {pre post : List Str} {v r : Str} {xs : List Rat} {x : Rat} (hw : words s = pre ++ (v ++ r) :: post)
    (hpre : List.Forall₂ (fun w x => strtod w = some (x, [])) pre xs) (hv : strtod v = some (x, [])) (hr : Stop r) (hne : r ≠ []) :
    fromString s = .ok (xs ++ [x]) := by
  have hstr := strtod_complete hr hv
  have key : ∀ (pre : List Str) (s : Str) (n : Nat) (xs : List Rat), PlainSpace s → s.length < n → words s = pre ++ (v ++ r) :: post →
      List.Forall₂ (fun w x => strtod w = some (x, [])) pre xs → ∃ q, loop n s = .ok (xs ++ [x], q) := by
    intro pre
    induction pre with
    | nil =>
      intro s n xs hp hn hw hx
      cases hx
      obtain ⟨m, rfl⟩ : ∃ m, n = m + 1 := ⟨n - 1, by omega⟩
      obtain ⟨sp, rest, rfl, h2, h3, h4, h5, h6⟩ := words_first hw
      have hc : ∀ c ∈ sp, cSpace c = true := fun c hc => hp c (by simp [hc]) (h2 c hc)
      have hst := strtod_append (stop_rest h3).1 (stop_rest h3).2 (v ++ r)
      rw [hstr] at hst
      simp only [loop, dropWhile_spaces hc h5 h6, special_false hst, hst]
      cases r with
      | nil => exact absurd rfl hne
      | cons c cs =>
        have : cSpace c = false := by
          cases hcs : cSpace c with
          | false => rfl
          | true =>
            have := h6 c (by simp)
            rw [space_of_cSpace hcs] at this; cases this
        simp [this]
    | cons w ws ih =>
      intro s n xs hp hn hw hx
      obtain ⟨m, rfl⟩ : ∃ m, n = m + 1 := ⟨n - 1, by omega⟩
      cases hx with
      | @cons _ x0 _ xs hx hxs =>
        obtain ⟨rest, h1, h2, h3, h4⟩ := loop_number hp hw hx hn
        rcases h4 with ⟨h4, h5⟩ | h4
        · simp at h5
        · obtain ⟨q, hq⟩ := ih rest m xs h1 h3 h2 hxs
          exact ⟨q, by rw [h4, hq]; rfl⟩
  obtain ⟨q, hq⟩ := key pre s (s.length + 1) xs hp (by omega) hw hpre
  unfold fromString
  rw [hq]
  rfl

/-! ### how numbers end -/

/-- The text ends with a digit or a point. -/
def EndsOk (s : Str) : Prop := ∀ c, s.getLast? = some c → isDigit c = true ∨ c = '.'

theorem endsOk_digits {s : Str} (h : ∀ c ∈ s, isDigit c = true) : EndsOk s := fun c hc => .inl (h c (List.mem_of_getLast? hc))

theorem endsOk_append {a b : Str} (hb : EndsOk b) (ha : b = [] → EndsOk a) : EndsOk (a ++ b) := by
  cases b with
  | nil => rw [List.append_nil]; exact ha rfl
  | cons x xs =>
    intro c hc
    rw [List.getLast?_append_of_ne_nil _ (by simp)] at hc
    exact hb c hc

theorem digits_ends {s : Str} (h : (digits s).2 = []) : EndsOk s := by
  obtain ⟨p, h1, h2⟩ := digits_split s
  rw [h, List.append_nil] at h1
  rw [h1]; exact endsOk_digits h2

theorem digits_empty {s : Str} (h : (digits s).2 = []) (h' : (digits s).1 ≠ []) : s ≠ [] := by
  rintro rfl; exact h' rfl

theorem exponent_ends {s : Str} (h : (exponent s).2 = []) : EndsOk s := by
  cases s with
  | nil => intro c hc; cases hc
  | cons c cs =>
    simp only [exponent] at h
    split at h
    · split at h
      · cases h
      · rename_i hne
        have hd := digits_ends h
        obtain ⟨p, h1, _⟩ := takeSign_split cs
        have : EndsOk ((c :: p) ++ (takeSign cs).2) := endsOk_append hd fun h0 => by rw [h0] at hne; simp [digits] at hne
        rw [h1]; exact this
    · cases h

theorem unsigned_ends {neg : Bool} {s : Str} {x : Rat} (h : unsigned neg s = some (x, [])) : EndsOk s := by
  obtain ⟨p, h1, h2⟩ := digits_split s
  by_cases hp : ∃ rest, (digits s).2 = '.' :: rest
  · obtain ⟨rest, hp⟩ := hp
    rw [unsigned_point hp] at h
    split at h
    · cases h
    · simp only [Option.some.injEq, Prod.mk.injEq] at h
      obtain ⟨q, h3, h4⟩ := digits_split rest
      have he := exponent_ends h.2
      rw [h1, hp]
      apply endsOk_append
      · rw [h3, ← List.singleton_append, ← List.append_assoc]
        refine endsOk_append he fun _ => endsOk_append (endsOk_digits h4) fun _ => ?_
        intro c hc; cases hc; exact .inr rfl
      · intro h0; cases h0
  · have h1' : ∀ rest, (digits s).2 ≠ '.' :: rest := fun rest hx => hp ⟨rest, hx⟩
    rw [unsigned_plain h1'] at h
    split at h
    · cases h
    · simp only [Option.some.injEq, Prod.mk.injEq] at h
      rw [h1]
      exact endsOk_append (exponent_ends h.2) fun _ => endsOk_digits h2

theorem strtod_ends {s : Str} {x : Rat} (h : strtod s = some (x, [])) : ∃ a c, s = a ++ [c] ∧ c ≠ 'e' ∧ c ≠ 'E' := by
  have hu : unsigned (takeSign s).1 (takeSign s).2 = some (x, []) := h
  obtain ⟨p, h1, _⟩ := takeSign_split s
  have hends := unsigned_ends hu
  obtain ⟨c0, cs0, h0, _⟩ := unsigned_head hu
  have hends' : EndsOk s := by
    rw [h1]
    exact endsOk_append hends fun hx => by rw [h0] at hx; cases hx
  have hne : s ≠ [] := by rintro rfl; cases h
  refine ⟨s.dropLast, s.getLast hne, (List.dropLast_append_getLast hne).symm, ?_⟩
  have := hends' _ (List.getLast?_eq_getLast_of_ne_nil hne)
  constructor <;> intro he <;> rw [he] at this <;> revert this <;> decide

/-- A number with a sign or star attached is damaged. -/
theorem damaged_junk {v r : Str} {x : Rat} {c : Char} (h : strtod v = some (x, [])) (hc : c = '-' ∨ c = '+' ∨ c = '*') : Damaged (v ++ c :: r) := by
  obtain ⟨a, c', rfl, h1, h2⟩ := strtod_ends h
  rcases hc with rfl | rfl | rfl
  · exact .inr ⟨a, r, c', '-', by simp, .inl rfl, h1, h2⟩
  · exact .inr ⟨a, r, c', '+', by simp, .inr rfl, h1, h2⟩
  · exact .inl (by simp)

end Verif.NpText
