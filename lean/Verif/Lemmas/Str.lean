import Verif.Py.Str
/-! Helper lemmas about the string vocabulary. -/
set_option autoImplicit false
namespace Verif

/-- No character of `s` satisfies `p`. -/
def Free (p : Char → Bool) (s : Str) : Prop := ∀ c ∈ s, p c = false

instance (p : Char → Bool) (s : Str) : Decidable (Free p s) := by unfold Free; infer_instance

@[simp] theorem Free.nil (p : Char → Bool) : Free p [] := by intro c h; cases h
@[simp] theorem Free.cons_iff {p : Char → Bool} {c : Char} {s : Str} :
    Free p (c :: s) ↔ p c = false ∧ Free p s := by simp [Free]
@[simp] theorem Free.append_iff {p : Char → Bool} {a b : Str} : Free p (a ++ b) ↔ Free p a ∧ Free p b := by
  simp only [Free, List.mem_append]
  exact ⟨fun h => ⟨fun c hc => h c (.inl hc), fun c hc => h c (.inr hc)⟩,
    fun h c hc => hc.elim (h.1 c) (h.2 c)⟩

theorem splitP_ne_nil (p : Char → Bool) (s : Str) : splitP p s ≠ [] := by
  cases s with
  | nil => simp [splitP]
  | cons x xs =>
    simp only [splitP]; split
    · simp
    · cases splitP p xs <;> simp [consHead]

theorem consHead_append {x : Char} {a b : List Str} (h : a ≠ []) : consHead x (a ++ b) = consHead x a ++ b := by
  cases a with
  | nil => exact absurd rfl h
  | cons => rfl

theorem splitP_append_sep (p : Char → Bool) (a : Str) (c : Char) (b : Str) (h : p c = true) :
    splitP p (a ++ c :: b) = splitP p a ++ splitP p b := by
  induction a with
  | nil => simp [splitP, h]
  | cons x xs ih =>
    simp only [List.cons_append, splitP, ih]
    split
    · rfl
    · rw [consHead_append (splitP_ne_nil p xs)]

theorem splitP_free {p : Char → Bool} {s : Str} (h : Free p s) : splitP p s = [s] := by
  induction s with
  | nil => rfl
  | cons x xs ih =>
    rw [Free.cons_iff] at h
    simp [splitP, h.1, ih h.2, consHead]

theorem splitP_pieces_free (p : Char → Bool) (s : Str) : ∀ w ∈ splitP p s, Free p w := by
  induction s with
  | nil => simp [splitP]
  | cons x xs ih =>
    simp only [splitP]
    split
    · simpa using ih
    · rename_i hx
      generalize hl : splitP p xs = l at ih
      cases l with
      | nil => exact absurd hl (splitP_ne_nil p xs)
      | cons w ws =>
        simp only [consHead, List.mem_cons, forall_eq_or_imp, Free.cons_iff] at ih ⊢
        exact ⟨⟨by simpa using hx, ih.1⟩, ih.2⟩

theorem words_sep (a : Str) (c : Char) (b : Str) (h : isSpace c = true) :
    words (a ++ c :: b) = words a ++ words b := by
  simp [words, splitP_append_sep _ _ _ _ h]

@[simp] theorem words_nil : words [] = [] := rfl

theorem words_space_cons (c : Char) (b : Str) (h : isSpace c = true) : words (c :: b) = words b := by
  have := words_sep [] c b h; simpa using this

theorem words_append_space (a : Str) (c : Char) (h : isSpace c = true) : words (a ++ [c]) = words a := by
  have := words_sep a c [] h; simpa using this

theorem words_free {s : Str} (h : Free isSpace s) (hne : s ≠ []) : words s = [s] := by
  cases s with
  | nil => exact absurd rfl hne
  | cons => simp [words, splitP_free h]

theorem words_spaces_append (sp b : Str) (h : ∀ c ∈ sp, isSpace c = true) : words (sp ++ b) = words b := by
  induction sp with
  | nil => rfl
  | cons x xs ih =>
    rw [List.cons_append, words_space_cons _ _ (h x (by simp)), ih (fun c hc => h c (by simp [hc]))]

theorem words_append_spaces (a sp : Str) (h : ∀ c ∈ sp, isSpace c = true) : words (a ++ sp) = words a := by
  induction sp generalizing a with
  | nil => simp
  | cons x xs ih =>
    rw [words_sep _ _ _ (h x (by simp))]
    have := words_spaces_append xs [] (fun c hc => h c (by simp [hc]))
    simp only [List.append_nil] at this
    simp [this]

/-- Every word is non-empty and free of white space. -/
theorem words_mem {s w : Str} (h : w ∈ words s) : w ≠ [] ∧ Free isSpace w := by
  simp only [words, List.mem_filter] at h
  refine ⟨?_, splitP_pieces_free _ _ _ h.1⟩
  rintro rfl; simp at h

/-- A token: something `split()` may return. -/
def Token (w : Str) : Prop := w ≠ [] ∧ Free isSpace w

instance (w : Str) : Decidable (Token w) := by unfold Token; infer_instance

theorem words_token {w : Str} (h : Token w) : words w = [w] := words_free h.2 h.1

theorem words_join_space : ∀ (ws : List Str), (∀ w ∈ ws, Token w) → words (join [' '] ws) = ws
  | [], _ => rfl
  | [w], h => by simpa [join] using words_token (h w (by simp))
  | w :: w' :: ws, h => by
    have ih := words_join_space (w' :: ws) (fun x hx => h x (by simp [hx]))
    simp only [join, List.append_assoc, List.singleton_append]
    rw [words_sep _ _ _ (by decide), ih, words_token (h w (by simp))]
    rfl

theorem splitOn_free {c : Char} {s : Str} (h : c ∉ s) : splitOn c s = [s] :=
  splitP_free (by intro x hx; simp; rintro rfl; exact h hx)

theorem splitOn_sep (a : Str) (c : Char) (b : Str) : splitOn c (a ++ c :: b) = splitOn c a ++ splitOn c b :=
  splitP_append_sep _ _ _ _ (by simp)

theorem splitOn_pieces {c : Char} {s w : Str} (h : w ∈ splitOn c s) : c ∉ w := by
  intro hc
  have := splitP_pieces_free _ _ _ h c hc
  simp at this

theorem join_cons_ne {sep : Str} {w : Str} {ws : List Str} (h : ws ≠ []) :
    join sep (w :: ws) = w ++ sep ++ join sep ws := by
  cases ws with
  | nil => exact absurd rfl h
  | cons => rfl

/-- Joining the pieces gives back the string. -/
theorem join_splitOn (c : Char) (s : Str) : join [c] (splitOn c s) = s := by
  induction s with
  | nil => rfl
  | cons x xs ih =>
    simp only [splitOn, splitP] at ih ⊢
    split
    · rename_i h; simp only [beq_iff_eq] at h; subst h
      rw [join_cons_ne (splitP_ne_nil _ _), ih]; simp
    · generalize hl : splitP (fun x => x == c) xs = l at ih
      cases l with
      | nil => exact absurd hl (splitP_ne_nil _ _)
      | cons w ws =>
        cases ws with
        | nil => simp only [consHead, join] at *; rw [ih]
        | cons w' ws => simp only [consHead, join, List.cons_append] at *; rw [ih]

theorem splitOn_join {c : Char} {ws : List Str} (hne : ws ≠ []) (h : ∀ w ∈ ws, c ∉ w) :
    splitOn c (join [c] ws) = ws := by
  match ws with
  | [w] => simpa [join] using splitOn_free (h w (by simp))
  | w :: w' :: ws =>
    have ih := splitOn_join (c := c) (ws := w' :: ws) (by simp) (fun x hx => h x (by simp [hx]))
    simp only [join, List.append_assoc, List.singleton_append]
    rw [splitOn_sep, ih, splitOn_free (h w (by simp))]; rfl

theorem split1_free {c : Char} {s : Str} (h : c ∉ s) : split1 c s = (s, none) := by
  induction s with
  | nil => rfl
  | cons x xs ih =>
    simp only [List.mem_cons, not_or] at h
    have hx : (x == c) = false := by simpa using Ne.symm h.1
    simp [split1, hx, ih h.2]

theorem split1_sep {c : Char} {a : Str} (b : Str) (h : c ∉ a) : split1 c (a ++ c :: b) = (a, some b) := by
  induction a with
  | nil => simp [split1]
  | cons x xs ih =>
    simp only [List.mem_cons, not_or] at h
    have hx : (x == c) = false := by simpa using Ne.symm h.1
    simp [split1, hx, ih h.2]

/-- The part before the first separator is the first piece of `split(c)`. -/
theorem split1_fst_eq_head (c : Char) (s : Str) : (splitOn c s).head? = some (split1 c s).1 := by
  induction s with
  | nil => rfl
  | cons x xs ih =>
    simp only [splitOn, splitP, split1] at ih ⊢
    split
    · rfl
    · generalize hl : splitP (fun x => x == c) xs = l at ih
      cases l with
      | nil => exact absurd hl (splitP_ne_nil _ _)
      | cons w ws => simp only [List.head?_cons, Option.some.injEq] at ih; simp [consHead, ih]

theorem split1_fst_not_mem (c : Char) (s : Str) : c ∉ (split1 c s).1 := by
  induction s with
  | nil => simp [split1]
  | cons x xs ih =>
    simp only [split1]; split
    · simp
    · rename_i h; simp only [beq_iff_eq] at h
      simp only [List.mem_cons, not_or]; exact ⟨fun h' => h h'.symm, ih⟩

/-! ### strip -/

theorem lstrip_token_append {a : Str} (b : Str) (h : Token a) : lstrip (a ++ b) = a ++ b := by
  obtain ⟨hne, hf⟩ := h
  cases a with
  | nil => exact absurd rfl hne
  | cons x xs => simp only [Free.cons_iff] at hf; simp [lstrip, hf.1]

theorem dropWhile_eq_self_of_head {p : Char → Bool} {s : Str} (h : ∀ c, s.head? = some c → p c = false) :
    s.dropWhile p = s := by
  cases s with
  | nil => rfl
  | cons x xs => simp [h x rfl]

theorem lstrip_eq_self {s : Str} (h : ∀ c, s.head? = some c → isSpace c = false) : lstrip s = s :=
  dropWhile_eq_self_of_head h

theorem rstrip_eq_self {s : Str} (h : ∀ c, s.getLast? = some c → isSpace c = false) : rstrip s = s := by
  unfold rstrip
  rw [dropWhile_eq_self_of_head (by simpa using h), List.reverse_reverse]

theorem dropWhile_spaces_append (sp b : Str) (h : ∀ c ∈ sp, isSpace c = true) :
    (sp ++ b).dropWhile isSpace = b.dropWhile isSpace := by
  induction sp with
  | nil => rfl
  | cons x xs ih =>
    rw [List.cons_append, List.dropWhile_cons_of_pos (h x (by simp)), ih (fun c hc => h c (by simp [hc]))]

theorem lstrip_spaces_append (sp b : Str) (h : ∀ c ∈ sp, isSpace c = true) : lstrip (sp ++ b) = lstrip b :=
  dropWhile_spaces_append sp b h

theorem rstrip_append_spaces (a sp : Str) (h : ∀ c ∈ sp, isSpace c = true) : rstrip (a ++ sp) = rstrip a := by
  unfold rstrip
  rw [List.reverse_append, dropWhile_spaces_append _ _ (by simpa using h)]

theorem dropWhile_head (p : Char → Bool) (s : Str) : ∀ c, (s.dropWhile p).head? = some c → p c = false := by
  induction s with
  | nil => simp
  | cons x xs ih =>
    intro c
    by_cases hx : p x = true
    · rw [List.dropWhile_cons_of_pos hx]; exact ih c
    · rw [List.dropWhile_cons_of_neg hx]
      simp only [List.head?_cons, Option.some.injEq]; rintro rfl; simpa using hx

theorem rstrip_getLast (s : Str) : ∀ c, (rstrip s).getLast? = some c → isSpace c = false := by
  unfold rstrip; intro c h; rw [List.getLast?_reverse] at h; exact dropWhile_head _ _ c h

theorem rstrip_prefix (s : Str) : rstrip s <+: s := by
  unfold rstrip
  have h := List.dropWhile_suffix isSpace (l := s.reverse)
  have := List.reverse_prefix.2 h
  simpa using this

theorem strip_head (s : Str) : ∀ c, (strip s).head? = some c → isSpace c = false := by
  intro c h
  unfold strip at h
  obtain ⟨t, ht⟩ := rstrip_prefix (lstrip s)
  cases hr : rstrip (lstrip s) with
  | nil => simp [hr] at h
  | cons x xs =>
    rw [hr] at h ht
    simp only [List.head?_cons, Option.some.injEq] at h; subst h
    exact dropWhile_head isSpace s x (by unfold lstrip at ht; rw [← ht]; rfl)

theorem strip_getLast (s : Str) : ∀ c, (strip s).getLast? = some c → isSpace c = false :=
  rstrip_getLast _

/-- Text without white space at its ends. -/
def Stripped (s : Str) : Prop :=
  (∀ c, s.head? = some c → isSpace c = false) ∧ (∀ c, s.getLast? = some c → isSpace c = false)

theorem strip_stripped (s : Str) : Stripped (strip s) := ⟨strip_head s, strip_getLast s⟩

theorem strip_eq_self {s : Str} (h : Stripped s) : strip s = s := by
  unfold strip; rw [lstrip_eq_self h.1, rstrip_eq_self h.2]

theorem strip_idem (s : Str) : strip (strip s) = strip s := strip_eq_self (strip_stripped s)

theorem Token.stripped {s : Str} (h : Token s) : Stripped s :=
  ⟨fun c hc => h.2 c (List.mem_of_mem_head? hc), fun c hc => h.2 c (List.mem_of_getLast? hc)⟩

theorem strip_pad {s : Str} (a b : Str) (h : Stripped s) (ha : ∀ c ∈ a, isSpace c = true)
    (hb : ∀ c ∈ b, isSpace c = true) : strip (a ++ s ++ b) = s := by
  unfold strip
  rw [List.append_assoc, lstrip_spaces_append _ _ ha]
  cases s with
  | nil =>
    have : lstrip b = [] := by
      have := lstrip_spaces_append b [] hb; simpa [lstrip] using this
    simp [this, rstrip]
  | cons x xs =>
    have hx : isSpace x = false := h.1 x rfl
    rw [lstrip_eq_self (by simpa using hx), rstrip_append_spaces _ _ hb, rstrip_eq_self h.2]

/-! ### case -/

theorem ofNat_toNat_of_lt {n : Nat} (h : n < 0xd800) : (Char.ofNat n).toNat = n := by
  have hv : n.isValidChar := by left; omega
  simp [Char.ofNat, hv, Char.ofNatAux, Char.toNat]

theorem char_ext_toNat {a b : Char} (h : a.toNat = b.toNat) : a = b := by
  have := congrArg Char.ofNat h
  simpa [Char.ofNat_toNat] using this

/-- Lower-casing an upper-cased lower-case character gives it back. -/
theorem lowerC_upperC (c : Char) : lowerC (upperC c) = lowerC c := by
  unfold lowerC upperC
  by_cases h : (97 ≤ c.toNat && c.toNat ≤ 122) = true
  · rw [if_pos h]
    simp only [Bool.and_eq_true, decide_eq_true_eq] at h
    have e := ofNat_toNat_of_lt (n := c.toNat - 32) (by omega)
    rw [e, if_pos (by simp; omega), if_neg (by simp; omega)]
    apply char_ext_toNat; rw [ofNat_toNat_of_lt (by omega)]; omega
  · rw [if_neg h]

theorem lower_upper (s : Str) : lower (upper s) = lower s := by
  simp [lower, upper, Function.comp_def, lowerC_upperC]

theorem lowerC_idem (c : Char) : lowerC (lowerC c) = lowerC c := by
  unfold lowerC
  by_cases h : (65 ≤ c.toNat && c.toNat ≤ 90) = true
  · rw [if_pos h]
    simp only [Bool.and_eq_true, decide_eq_true_eq] at h
    rw [ofNat_toNat_of_lt (by omega), if_neg (by simp; omega)]
  · rw [if_neg h, if_neg h]

theorem lower_idem (s : Str) : lower (lower s) = lower s := by
  simp [lower, Function.comp_def, lowerC_idem]

theorem upperC_toNat (c : Char) : (upperC c).toNat = if 97 ≤ c.toNat && c.toNat ≤ 122 then c.toNat - 32 else c.toNat := by
  unfold upperC; split
  · rename_i h; simp only [Bool.and_eq_true, decide_eq_true_eq] at h
    rw [ofNat_toNat_of_lt (by omega)]
  · rfl

theorem lowerC_toNat (c : Char) : (lowerC c).toNat = if 65 ≤ c.toNat && c.toNat ≤ 90 then c.toNat + 32 else c.toNat := by
  unfold lowerC; split
  · rename_i h; simp only [Bool.and_eq_true, decide_eq_true_eq] at h
    rw [ofNat_toNat_of_lt (by omega)]
  · rfl

theorem isSpace_upperC (c : Char) : isSpace (upperC c) = isSpace c := by
  unfold isSpace; simp only [upperC_toNat]
  split
  · rename_i h; simp only [Bool.and_eq_true, decide_eq_true_eq] at h
    rw [Bool.eq_iff_iff]
    simp only [Bool.or_eq_true, Bool.and_eq_true, decide_eq_true_eq, beq_iff_eq]; omega
  · rfl

theorem isSpace_lowerC (c : Char) : isSpace (lowerC c) = isSpace c := by
  unfold isSpace; simp only [lowerC_toNat]
  split
  · rename_i h; simp only [Bool.and_eq_true, decide_eq_true_eq] at h
    rw [Bool.eq_iff_iff]
    simp only [Bool.or_eq_true, Bool.and_eq_true, decide_eq_true_eq, beq_iff_eq]; omega
  · rfl

theorem Token.upper {s : Str} (h : Token s) : Token (upper s) := by
  refine ⟨by simpa [Verif.upper] using h.1, ?_⟩
  intro c hc
  simp only [Verif.upper, List.mem_map] at hc
  obtain ⟨d, hd, rfl⟩ := hc
  rw [isSpace_upperC]; exact h.2 d hd

theorem Token.lower {s : Str} (h : Token s) : Token (lower s) := by
  refine ⟨by simpa [Verif.lower] using h.1, ?_⟩
  intro c hc
  simp only [Verif.lower, List.mem_map] at hc
  obtain ⟨d, hd, rfl⟩ := hc
  rw [isSpace_lowerC]; exact h.2 d hd

/-- A character which is no ASCII letter occurs in the upper-case string iff it occurs in the string. -/
theorem mem_upper_of_nonletter {c : Char} {s : Str} (h1 : ¬ (65 ≤ c.toNat ∧ c.toNat ≤ 90)) (h : c ∉ s) : c ∉ upper s := by
  simp only [upper, List.mem_map, not_exists, not_and]
  intro d hd e
  have := congrArg Char.toNat e
  rw [upperC_toNat] at this
  split at this
  · rename_i h2; simp only [Bool.and_eq_true, decide_eq_true_eq] at h2; omega
  · exact h (char_ext_toNat this ▸ hd)

/-! ### lines -/

theorem readlines_line_append {a : Str} (b : Str) (h : '\n' ∉ a) :
    readlines (a ++ '\n' :: b) = (a ++ ['\n']) :: readlines b := by
  induction a with
  | nil => simp [readlines]
  | cons x xs ih =>
    simp only [List.mem_cons, not_or] at h
    have hx : (x == '\n') = false := by simpa using Ne.symm h.1
    simp [readlines, hx, ih h.2, consHead]

theorem readlines_noeol {a : Str} (h : '\n' ∉ a) (hne : a ≠ []) : readlines a = [a] := by
  induction a with
  | nil => exact absurd rfl hne
  | cons x xs ih =>
    simp only [List.mem_cons, not_or] at h
    have hx : (x == '\n') = false := by simpa using Ne.symm h.1
    cases xs with
    | nil => simp [readlines, hx, consHead]
    | cons y ys => simp only [readlines, hx] at ih ⊢; simp only [ih h.2 (by simp)]; simp [consHead]

/-- The text made of the given lines, each terminated by a newline. -/
def unlines (ls : List Str) : Str := ls.flatMap (· ++ ['\n'])

@[simp] theorem unlines_nil : unlines [] = [] := rfl
theorem unlines_cons (l : Str) (ls : List Str) : unlines (l :: ls) = l ++ '\n' :: unlines ls := by
  simp [unlines]
theorem unlines_append (a b : List Str) : unlines (a ++ b) = unlines a ++ unlines b := by
  simp [unlines]

theorem readlines_unlines (ls : List Str) (h : ∀ l ∈ ls, '\n' ∉ l) :
    readlines (unlines ls) = ls.map (· ++ ['\n']) := by
  induction ls with
  | nil => rfl
  | cons l ls ih =>
    rw [unlines_cons, readlines_line_append _ (h l (by simp)), ih (fun x hx => h x (by simp [hx]))]; rfl

theorem isLineBreak_isSpace {c : Char} (h : isLineBreak c = true) : isSpace c = true := by
  unfold isLineBreak at h; unfold isSpace
  simp only [Bool.or_eq_true, Bool.and_eq_true, decide_eq_true_eq, beq_iff_eq] at *
  omega

theorem splitlines_cons_of_ne {x : Char} (xs : Str) (h : x ≠ '\r') :
    splitlines (x :: xs) = if isLineBreak x then [] :: splitlines xs else consHead x (splitlines xs) := by
  rw [splitlines.eq_def]
  split
  · rename_i heq; cases heq
  · rename_i heq; cases heq; exact absurd rfl h
  · rename_i heq; cases heq; rfl

theorem splitlines_line_append {a : Str} (b : Str) (h : Free isLineBreak a) :
    splitlines (a ++ '\n' :: b) = a :: splitlines b := by
  induction a with
  | nil => rw [List.nil_append, splitlines_cons_of_ne _ (by decide)]; simp [isLineBreak]
  | cons x xs ih =>
    rw [Free.cons_iff] at h
    rw [List.cons_append, splitlines_cons_of_ne _ (by rintro rfl; simp [isLineBreak] at h), ih h.2]
    simp [h.1, consHead]

theorem splitlines_unlines (ls : List Str) (h : ∀ l ∈ ls, Free isLineBreak l) : splitlines (unlines ls) = ls := by
  induction ls with
  | nil => simp [splitlines]
  | cons l ls ih =>
    rw [unlines_cons, splitlines_line_append _ (h l (by simp)), ih (fun x hx => h x (by simp [hx]))]

end Verif
