import Verif.Model.Poscar
import Verif.Model.Eigenval
import Verif.Lemmas.Num
/-! # Lower-casing a text commutes with cutting it into lines and words and does not change its numbers -/
set_option autoImplicit false
namespace Verif

@[simp] theorem lower_nil : lower [] = [] := rfl
@[simp] theorem lower_cons (c : Char) (s : Str) : lower (c :: s) = lowerC c :: lower s := rfl
@[simp] theorem lower_append (a b : Str) : lower (a ++ b) = lower a ++ lower b := by simp [lower]
@[simp] theorem lower_isEmpty (s : Str) : (lower s).isEmpty = s.isEmpty := by cases s <;> rfl
@[simp] theorem lower_eq_nil (s : Str) : lower s = [] ↔ s = [] := by cases s <;> simp

/-- Neither an upper-case nor a lower-case ASCII letter. -/
def NoLetter (x : Char) : Prop := ¬ (65 ≤ x.toNat ∧ x.toNat ≤ 90) ∧ ¬ (97 ≤ x.toNat ∧ x.toNat ≤ 122)
instance (x : Char) : Decidable (NoLetter x) := by unfold NoLetter; infer_instance

theorem lowerC_eq_iff {x : Char} (hx : NoLetter x) (c : Char) : lowerC c = x ↔ c = x := by
  constructor
  · intro h
    have h' := congrArg Char.toNat h
    rw [lowerC_toNat] at h'
    obtain ⟨h1, h2⟩ := hx
    split at h'
    · rename_i hc
      simp only [Bool.and_eq_true, decide_eq_true_eq] at hc
      omega
    · exact char_ext_toNat h'
  · rintro rfl
    unfold lowerC
    rw [if_neg (by have := hx.1; simp; omega)]

theorem lowerC_beq {x : Char} (hx : NoLetter x) (c : Char) : (lowerC c == x) = (c == x) := by
  rw [Bool.eq_iff_iff, beq_iff_eq, beq_iff_eq, lowerC_eq_iff hx]

theorem isLineBreak_lowerC (c : Char) : isLineBreak (lowerC c) = isLineBreak c := by
  unfold isLineBreak; simp only [lowerC_toNat]
  split
  · rename_i h; simp only [Bool.and_eq_true, decide_eq_true_eq] at h
    rw [Bool.eq_iff_iff]
    simp only [Bool.or_eq_true, Bool.and_eq_true, decide_eq_true_eq, beq_iff_eq]; omega
  · rfl

theorem isDigit_lowerC (c : Char) : isDigit (lowerC c) = isDigit c := by
  unfold isDigit; simp only [lowerC_toNat]
  split
  · rename_i h; simp only [Bool.and_eq_true, decide_eq_true_eq] at h
    rw [Bool.eq_iff_iff]
    simp only [Bool.and_eq_true, decide_eq_true_eq]; omega
  · rfl

theorem consHead_lower (x : Char) (ls : List Str) : (consHead x ls).map lower = consHead (lowerC x) (ls.map lower) := by
  cases ls <;> rfl

theorem splitP_lower {p : Char → Bool} (hp : ∀ c, p (lowerC c) = p c) (s : Str) : splitP p (lower s) = (splitP p s).map lower := by
  induction s with
  | nil => rfl
  | cons x xs ih =>
    simp only [lower_cons, splitP, hp]
    split
    · simp [ih]
    · rw [ih, consHead_lower]

theorem splitOn_lower {x : Char} (hx : NoLetter x) (s : Str) : splitOn x (lower s) = (splitOn x s).map lower :=
  splitP_lower (fun c => lowerC_beq hx c) s

theorem words_lower (s : Str) : words (lower s) = (words s).map lower := by
  unfold words
  rw [splitP_lower isSpace_lowerC, List.filter_map]
  congr 1
  apply List.filter_congr
  intro a _
  simp

theorem split1_lower {x : Char} (hx : NoLetter x) (s : Str) : split1 x (lower s) = (lower (split1 x s).1, (split1 x s).2.map lower) := by
  induction s with
  | nil => rfl
  | cons c cs ih =>
    simp only [lower_cons, split1, lowerC_beq hx]
    split
    · rfl
    · simp [ih]

theorem dropWhile_lower {p : Char → Bool} (hp : ∀ c, p (lowerC c) = p c) (s : Str) : (lower s).dropWhile p = lower (s.dropWhile p) := by
  induction s with
  | nil => rfl
  | cons x xs ih =>
    simp only [lower_cons, List.dropWhile_cons, hp]
    split
    · exact ih
    · rfl

theorem reverse_lower (s : Str) : (lower s).reverse = lower s.reverse := by simp [lower]

theorem strip_lower (s : Str) : strip (lower s) = lower (strip s) := by
  unfold strip rstrip lstrip
  rw [dropWhile_lower isSpace_lowerC, reverse_lower, dropWhile_lower isSpace_lowerC, reverse_lower]

theorem filter_lower {p : Char → Bool} (hp : ∀ c, p (lowerC c) = p c) (s : Str) : (lower s).filter p = lower (s.filter p) := by
  unfold lower
  rw [List.filter_map]
  congr 1
  apply List.filter_congr
  intro a _
  exact hp a

theorem readlines_lower (s : Str) : readlines (lower s) = (readlines s).map lower := by
  induction s with
  | nil => rfl
  | cons x xs ih =>
    simp only [lower_cons, readlines, lowerC_beq (x := '\n') (by decide)]
    split
    · simp only [List.map_cons, ih]; rfl
    · rw [ih, consHead_lower]

theorem splitlines_lower (s : Str) : splitlines (lower s) = (splitlines s).map lower := by
  induction s using splitlines.induct with
  | case1 => rfl
  | case2 xs ih =>
    rw [splitlines]
    show splitlines ('\r' :: '\n' :: lower xs) = _
    rw [splitlines, ih]; rfl
  | case3 x xs hx hb ih =>
    have hx' : ∀ (ys : Str), lowerC x = '\r' → lower xs = '\n' :: ys → False := by
      intro ys h1 h2
      cases xs with
      | nil => cases h2
      | cons y ys' =>
        simp only [lower_cons, List.cons.injEq] at h2
        exact hx ys' ((lowerC_eq_iff (by decide) x).1 h1) (by rw [(lowerC_eq_iff (by decide) y).1 h2.1])
    rw [splitlines, if_pos hb, lower_cons, splitlines, if_pos (by rw [isLineBreak_lowerC]; exact hb), ih]
    · rfl
    · exact hx'
    · exact hx
  | case4 x xs hx hb ih =>
    have hx' : ∀ (ys : Str), lowerC x = '\r' → lower xs = '\n' :: ys → False := by
      intro ys h1 h2
      cases xs with
      | nil => cases h2
      | cons y ys' =>
        simp only [lower_cons, List.cons.injEq] at h2
        exact hx ys' ((lowerC_eq_iff (by decide) x).1 h1) (by rw [(lowerC_eq_iff (by decide) y).1 h2.1])
    rw [splitlines, if_neg hb, lower_cons, splitlines, if_neg (by rw [isLineBreak_lowerC]; exact hb), ih, consHead_lower]
    · exact hx'
    · exact hx

theorem splitlinesKeep_lower (s : Str) : Poscar.splitlinesKeep (lower s) = (Poscar.splitlinesKeep s).map lower := by
  induction s using splitlines.induct with
  | case1 => rfl
  | case2 xs ih =>
    rw [Poscar.splitlinesKeep]
    show Poscar.splitlinesKeep ('\r' :: '\n' :: lower xs) = _
    rw [Poscar.splitlinesKeep, ih]; rfl
  | case3 x xs hx hb ih =>
    have hx' : ∀ (ys : Str), lowerC x = '\r' → lower xs = '\n' :: ys → False := by
      intro ys h1 h2
      cases xs with
      | nil => cases h2
      | cons y ys' =>
        simp only [lower_cons, List.cons.injEq] at h2
        exact hx ys' ((lowerC_eq_iff (by decide) x).1 h1) (by rw [(lowerC_eq_iff (by decide) y).1 h2.1])
    rw [Poscar.splitlinesKeep, if_pos hb, lower_cons, Poscar.splitlinesKeep, if_pos (by rw [isLineBreak_lowerC]; exact hb), ih]
    · rfl
    · exact hx'
    · exact hx
  | case4 x xs hx hb ih =>
    have hx' : ∀ (ys : Str), lowerC x = '\r' → lower xs = '\n' :: ys → False := by
      intro ys h1 h2
      cases xs with
      | nil => cases h2
      | cons y ys' =>
        simp only [lower_cons, List.cons.injEq] at h2
        exact hx ys' ((lowerC_eq_iff (by decide) x).1 h1) (by rw [(lowerC_eq_iff (by decide) y).1 h2.1])
    rw [Poscar.splitlinesKeep, if_neg hb, lower_cons, Poscar.splitlinesKeep, if_neg (by rw [isLineBreak_lowerC]; exact hb), ih, consHead_lower]
    · exact hx'
    · exact hx

/-! ### numbers -/

theorem headDigit_lower (s : Str) : headDigit (lower s) = headDigit s := by
  cases s with
  | nil => rfl
  | cons c cs => exact isDigit_lowerC c

theorem spanDigits_lower (s : Str) : ∀ b : Bool, spanDigits b (lower s) = ((spanDigits b s).1, lower (spanDigits b s).2) := by
  induction s with
  | nil => intro b; rfl
  | cons c cs ih =>
    intro b
    simp only [lower_cons, spanDigits, isDigit_lowerC, lowerC_beq (x := '_') (by decide), headDigit_lower]
    by_cases hd : isDigit c = true
    · rw [if_pos hd, if_pos hd, ih, lowerC_digit hd]
    · rw [if_neg hd, if_neg hd]
      split
      · rw [ih]
      · rfl

theorem takeSign_lower (s : Str) : takeSign (lower s) = ((takeSign s).1, lower (takeSign s).2) := by
  cases s with
  | nil => rfl
  | cons c cs =>
    by_cases h1 : c = '-'
    · subst h1; rfl
    · by_cases h2 : c = '+'
      · subst h2; rfl
      · have e1 : lowerC c ≠ '-' := fun h => h1 ((lowerC_eq_iff (by decide) c).1 h)
        have e2 : lowerC c ≠ '+' := fun h => h2 ((lowerC_eq_iff (by decide) c).1 h)
        rw [lower_cons]
        have a1 : takeSign (c :: cs) = (false, c :: cs) := by
          unfold takeSign; split
          · rename_i h; cases h; exact absurd rfl h1
          · rename_i h; cases h; exact absurd rfl h2
          · rfl
        have a2 : takeSign (lowerC c :: lower cs) = (false, lowerC c :: lower cs) := by
          unfold takeSign; split
          · rename_i h; exact absurd (List.cons.inj h).1 e1
          · rename_i h; exact absurd (List.cons.inj h).1 e2
          · rfl
        rw [a1, a2]; rfl

theorem pyInt_lower (s : Str) : pyInt (lower s) = pyInt s := by
  unfold pyInt
  simp only [strip_lower, takeSign_lower, spanDigits_lower]
  rcases spanDigits false (takeSign (strip s)).2 with ⟨_ | ⟨d, ds⟩, _ | ⟨x, xs⟩⟩ <;> rfl

theorem lowerC_e (c : Char) : (lowerC c == 'e' || lowerC c == 'E') = (c == 'e' || c == 'E') := by
  rw [Bool.eq_iff_iff]
  simp only [Bool.or_eq_true, beq_iff_eq]
  constructor
  · rintro (h | h)
    · have h' := congrArg Char.toNat h
      rw [lowerC_toNat] at h'
      split at h'
      · right; exact char_ext_toNat (by have : 'E'.toNat = 69 := rfl; have : 'e'.toNat = 101 := rfl; omega)
      · left; exact char_ext_toNat h'
    · exfalso
      have h' := congrArg Char.toNat h
      rw [lowerC_toNat, show 'E'.toNat = 69 from rfl] at h'
      split at h'
      · rename_i hc; simp at hc; omega
      · rename_i hc; simp at hc; omega
  · rintro (rfl | rfl) <;> decide

theorem parseExp_lower (s : Str) : parseExp (lower s) = parseExp s := by
  cases s with
  | nil => rfl
  | cons c cs =>
    rw [lower_cons, parseExp, parseExp, lowerC_e]
    split
    · simp only [takeSign_lower, spanDigits_lower]
      rcases spanDigits false (takeSign cs).2 with ⟨_ | ⟨d, ds⟩, _ | ⟨x, xs⟩⟩ <;> rfl
    · rfl

theorem parseDec_nodot {neg : Bool} {s : Str} {ip : List Nat} {r : Str} (h : spanDigits false s = (ip, r)) (hr : r.head? ≠ some '.') :
    parseDec neg s = if ip.isEmpty then none else (parseExp r).map fun e => ⟨neg, ofDigits ip, e⟩ := by
  unfold parseDec
  rw [h]
  split
  · rename_i h'; cases h'; exact absurd rfl hr
  · rename_i h'; cases h'; rfl

theorem parseDec_dot {neg : Bool} {s : Str} {ip : List Nat} {r : Str} (h : spanDigits false s = (ip, '.' :: r)) :
    parseDec neg s = if ip.isEmpty && (spanDigits false r).1.isEmpty then none
      else (parseExp (spanDigits false r).2).map fun e => ⟨neg, ofDigits (ip ++ (spanDigits false r).1), e - (spanDigits false r).1.length⟩ := by
  unfold parseDec
  rw [h]
  rfl

theorem parseDec_lower (neg : Bool) (s : Str) : parseDec neg (lower s) = parseDec neg s := by
  have h := spanDigits_lower s false
  rcases hs : spanDigits false s with ⟨ip, r⟩
  rw [hs] at h
  by_cases hr : r.head? = some '.'
  · obtain ⟨r', rfl⟩ : ∃ r', r = '.' :: r' := by
      cases r with
      | nil => cases hr
      | cons x xs => cases hr; exact ⟨xs, rfl⟩
    rw [parseDec_dot (r := lower r') h, parseDec_dot hs, spanDigits_lower]
    simp only [parseExp_lower]
  · have hr' : (lower r).head? ≠ some '.' := by
      cases r with
      | nil => simp
      | cons x xs =>
        intro hc
        simp only [lower_cons, List.head?_cons, Option.some.injEq] at hc
        exact hr (by rw [(lowerC_eq_iff (by decide) x).1 hc]; rfl)
    rw [parseDec_nodot h hr', parseDec_nodot hs hr, parseExp_lower]

theorem pyFloat_lower (s : Str) : pyFloat (lower s) = pyFloat s := by
  unfold pyFloat
  simp only [strip_lower, takeSign_lower, lower_idem, parseDec_lower]

theorem pyFloatR_lower (F : FloatEnv) (s : Str) : pyFloatR F (lower s) = pyFloatR F s := by unfold pyFloatR; rw [pyFloat_lower]

open Verif.Kpoints (idx toFloat toInt)

theorem toFloat_lower (s : Str) : toFloat (lower s) = toFloat s := by unfold toFloat; rw [pyFloat_lower]
theorem toInt_lower (s : Str) : toInt (lower s) = toInt s := by unfold toInt; rw [pyInt_lower]
theorem isNumber_lower (s : Str) : Utils.isNumber (lower s) = Utils.isNumber s := by unfold Utils.isNumber; rw [pyFloat_lower]
theorem isNumbers_lower (s : Str) : Utils.isNumbers (lower s) = Utils.isNumbers s := by
  unfold Utils.isNumbers
  rw [splitOn_lower (by decide), List.all_map]
  congr 1
  funext a
  exact isNumber_lower a

/-- Going on with an element of a list whose elements were changed one by one. -/
theorem idx_map {α β γ : Type} (f : α → β) (l : List α) (i : Nat) (g : β → Res γ) : (idx (l.map f) i >>= g) = (idx l i >>= fun a => g (f a)) := by
  unfold idx
  rw [List.getElem?_map]
  cases l[i]? <;> rfl

theorem idx_lower {γ : Type} (s : Str) (i : Nat) (g : Char → Res γ) : (idx (lower s) i >>= g) = (idx s i >>= fun a => g (lowerC a)) :=
  idx_map lowerC s i g

theorem mapM'_map {α β γ : Type} (f : α → β) (g : β → Res γ) (l : List α) : Res.mapM' g (l.map f) = Res.mapM' (fun a => g (f a)) l := by
  induction l with
  | nil => rfl
  | cons a as ih => simp only [List.map_cons, Res.mapM', ih]

theorem foldlM'_map {α β σ : Type} (f : α → β) (g : σ → β → Res σ) (l : List α) : ∀ s : σ, Res.foldlM' g s (l.map f) = Res.foldlM' (fun s a => g s (f a)) s l := by
  induction l with
  | nil => intro s; rfl
  | cons a as ih =>
    intro s
    simp only [List.map_cons, Res.foldlM']
    cases g s (f a) with
    | ok t => exact ih t
    | exit => rfl
    | raise => rfl

theorem lineToType_lower {α : Type} (conv : Str → Res α) (hc : ∀ w, conv (lower w) = conv w) (l : Str) :
    Utils.lineToType conv (lower l) = Utils.lineToType conv l := by
  unfold Utils.lineToType
  rw [words_lower, mapM'_map, funext hc]

end Verif
