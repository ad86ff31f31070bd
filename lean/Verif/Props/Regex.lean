import Verif.Lemmas.Regex
import Verif.Props.Potcar
import Verif.Model.Eigenval
import Verif.Model.Vasprun
/-! # C154: the regular expressions of the program -/
set_option autoImplicit false
namespace Verif.Regex
open Verif Verif.Utils

theorem spanP_free {p : Char → Bool} (s : Str) : ∀ c, (spanP p s).2.head? = some c → p c = false := (Potcar.spanP_split p s).2.2

/-! ### whole numbers in OUTCAR lines -/

/-- utils.py:356 `^ +key *= *([-0-9]+)`; the group is what the last two pieces take. -/
def paramPattern (key : Str) : List Piece :=
  .one (· == ' ') :: .star (· == ' ') :: (lits key ++ [.star (· == ' '), .one (· == '='), .star (· == ' '), .one (fun c => c == '-' || isDigit c), .star fun c => c == '-' || isDigit c])

/-- A group at the end of a match. -/
def lastGroup (n : Nat) (y : List Str × Str) : Str := (y.1.drop (y.1.length - n)).flatten

theorem first_plus (p : Char → Bool) (s : Str) : first [.one p, .star p] s = match (spanP p s) with
    | ([], _) => none
    | (c :: cs, t) => some ([[c], cs], t) := by
  cases s with
  | nil => rw [first_one_nil]; rfl
  | cons c cs =>
    rw [first_one_cons]
    by_cases hc : p c = true
    · rw [if_pos hc]
      rw [first_star_longest cs (first_nil _)]
      simp only [spanP, hc, if_true]; rfl
    · have : p c = false := by simpa using hc
      rw [if_neg hc]
      simp only [spanP, this, Bool.false_eq_true, if_false]

theorem lastGroup_push (m : Str) (y : List Str × Str) (n : Nat) (h : n ≤ y.1.length) : lastGroup n (push m y) = lastGroup n y := by
  unfold lastGroup push
  dsimp only
  rw [List.length_cons, show y.1.length + 1 - n = (y.1.length - n) + 1 by omega, List.drop_succ_cons]

theorem first_length : ∀ (r : List Piece) (s : Str) (y : List Str × Str), first r s = some y → y.1.length = r.length
  | [], s, y, h => by rw [first_nil] at h; cases h; rfl
  | x :: r, s, y, h => by
    rw [first_cons] at h
    obtain ⟨l, hl, hy⟩ := List.exists_of_findSome?_eq_some h
    cases hf : first r l.2 with
    | none => rw [hf] at hy; cases hy
    | some z => rw [hf] at hy; cases hy; simp [push, first_length r _ z hf]

theorem map_push_group (m : Str) (n : Nat) (r : List Piece) (s : Str) (h : n ≤ r.length) :
    ((first r s).map (push m)).map (lastGroup n) = (first r s).map (lastGroup n) := by
  cases hf : first r s with
  | none => rfl
  | some y =>
    simp only [Option.map_some]
    rw [lastGroup_push]
    rw [first_length r s y hf]; exact h

/-- C154, `utils.match_integer_param`: the scanner finds the group of the regular expression, for a key that does not begin with a blank. -/
theorem C154_integer_param (k : Char) (key s : Str) (hk : k ≠ ' ') : matchIntParam (k :: key) s = (first (paramPattern (k :: key)) s).map (lastGroup 2) := by
  have hblank : ∀ (r : List Piece), ∀ c t, (c == ' ') = true → first (lits (k :: key) ++ r) (c :: t) = none := by
    intro r c t hc
    show first (.one (· == k) :: (lits key ++ r)) (c :: t) = none
    rw [first_one_cons, if_neg]
    simp only [beq_iff_eq] at hc ⊢
    rw [hc]; exact fun h => hk h.symm
  have hD : ∀ c t, (c == ' ') = true → first [.one (fun c => c == '-' || isDigit c), .star fun c => c == '-' || isDigit c] (c :: t) = none := by
    intro c t hc
    simp only [beq_iff_eq] at hc
    rw [first_one_cons, if_neg]
    subst hc; decide
  have hE : ∀ (r : List Piece), ∀ c t, (c == ' ') = true → first (.one (· == '=') :: r) (c :: t) = none := by
    intro r c t hc
    simp only [beq_iff_eq] at hc
    rw [first_one_cons, if_neg]
    subst hc; decide
  unfold paramPattern
  cases s with
  | nil => rw [first_one_nil]; rfl
  | cons c cs =>
    rw [first_one_cons]
    by_cases hc : (c == ' ') = true
    · rw [if_pos hc, first_star_only (hblank _)]
      unfold matchIntParam
      simp only [spanP, hc, if_true]
      rw [first_lits]
      cases hd : dropPrefix? (k :: key) (spanP (· == ' ') cs).2 with
      | none => simp
      | some r2 =>
        simp only [Option.bind_some]
        rw [first_star_only (hE _)]
        cases hr : (spanP (· == ' ') r2).2 with
        | nil => rw [first_one_nil]; rfl
        | cons e r3 =>
          rw [first_one_cons]
          by_cases he : e = '='
          · subst he
            simp only [beq_self_eq_true, if_true]
            rw [first_star_only hD, first_plus]
            match hx : spanP (fun c => c == '-' || isDigit c) (spanP (· == ' ') r3).2 with
            | ([], t) => rfl
            | (a :: as, t) =>
              have hl : ∀ (P : List Str) (x y : Str) (t : Str), lastGroup 2 (P ++ [x, y], t) = x ++ y := by
                intro P x y t
                unfold lastGroup
                simp
              have e : ∀ (A B C : Str) (D : List Str), A :: B :: (D ++ [C, ['='], (spanP (· == ' ') r3).1, [a], as]) =
                (A :: B :: (D ++ [C, ['='], (spanP (· == ' ') r3).1])) ++ [[a], as] := by simp
              simp only [Option.map_some, push]
              rw [e, hl]; rfl
          · rw [if_neg (by simpa using he)]
            simp only [Option.map_none]
            split
            · rename_i h1; exact absurd (List.cons.inj h1).1 he
            · rfl
    · have hc' : (c == ' ') = false := by simpa using hc
      rw [if_neg hc]
      unfold matchIntParam
      simp only [spanP, hc', Bool.false_eq_true, if_false]
      rfl

/-! ### iterations -/

/-- outcar.py:135 `Iteration *(\d+)\( *(\d+)\)`. -/
def iterPattern : List Piece :=
  lits c!"Iteration" ++ [.star (· == ' '), .one isDigit, .star isDigit, .one (· == '('), .star (· == ' '), .one isDigit, .star isDigit, .one (· == ')')]

/-- The two numbers of a match: the second and third, and the sixth and seventh piece behind the word. -/
def iterGroups (y : List Str × Str) : Nat × Nat :=
  match y.1.drop 9 with
  | [_, a, as, _, _, b, bs, _] => (ofDigits ((a ++ as).map digitVal), ofDigits ((b ++ bs).map digitVal))
  | _ => (0, 0)

theorem blank_not_digit (r : List Piece) : ∀ c t, (c == ' ') = true → first (.one isDigit :: r) (c :: t) = none := by
  intro c t hc
  simp only [beq_iff_eq] at hc
  rw [first_one_cons, if_neg]
  subst hc; decide

theorem digit_not (d : Char) (hd : isDigit d = false) (r : List Piece) : ∀ c t, isDigit c = true → first (.one (· == d) :: r) (c :: t) = none := by
  intro c t hc
  rw [first_one_cons, if_neg]
  simp only [beq_iff_eq]
  rintro rfl; rw [hd] at hc; cases hc

/-- Digits, at least one, and then something else. -/
theorem first_digits (d : Char) (hd : isDigit d = false) (r : List Piece) (s : Str) :
    first (.one isDigit :: .star isDigit :: .one (· == d) :: r) s = match spanP isDigit s with
      | ([], _) => none
      | (a :: as, t) => (first (.one (· == d) :: r) t).map fun y => ([a] :: as :: y.1, y.2) := by
  cases s with
  | nil => rw [first_one_nil]; rfl
  | cons c cs =>
    rw [first_one_cons]
    by_cases hc : isDigit c = true
    · rw [if_pos hc, first_star_only (digit_not d hd r)]
      simp only [spanP, hc, if_true]
      cases first (.one (· == d) :: r) (spanP isDigit cs).2 <;> rfl
    · have : isDigit c = false := by simpa using hc
      rw [if_neg hc]
      simp only [spanP, this, Bool.false_eq_true, if_false]

theorem iterHere_eq (s : Str) : Outcar.iterHere s = (first iterPattern s).map iterGroups := by
  unfold Outcar.iterHere iterPattern
  rw [first_lits]
  cases dropPrefix? c!"Iteration" s with
  | none => rfl
  | some r =>
    simp only [Option.bind_some]
    rw [first_star_only (blank_not_digit _), first_digits '(' (by decide)]
    match spanP isDigit (spanP (· == ' ') r).2 with
    | ([], _) => rfl
    | (a :: as, []) => simp only; rw [first_one_nil]; rfl
    | (a :: as, c :: r2) =>
      simp only
      rw [first_one_cons]
      by_cases hc : c = '('
      · subst hc
        simp only [beq_self_eq_true, if_true]
        rw [first_star_only (blank_not_digit _), first_digits ')' (by decide)]
        match spanP isDigit (spanP (· == ' ') r2).2 with
        | ([], _) => rfl
        | (b :: bs, []) => simp only; rw [first_one_nil]; rfl
        | (b :: bs, e :: r3) =>
          simp only
          rw [first_one_cons]
          by_cases he : e = ')'
          · subst he
            simp only [beq_self_eq_true, if_true, first_nil]
            rfl
          · rw [if_neg (by simpa using he)]
            simp only [Option.map_none]
            split
            · rename_i h1; exact absurd (by cases h1; rfl) he
            · rfl
      · rw [if_neg (by simpa using hc)]
        simp only [Option.map_none]
        split
        · rename_i h1; exact absurd (by cases h1; rfl) hc
        · rfl

/-- C154, the iterations of an OUTCAR line: the scanner finds the two groups of the leftmost match. -/
theorem C154_iteration (s : Str) : Outcar.iterOf s = (search iterPattern s).map fun y => iterGroups y.2 := by
  induction s with
  | nil => rfl
  | cons c cs ih =>
    rw [Outcar.iterOf, search, iterHere_eq, ih]
    cases first iterPattern (c :: cs) with
    | some y => rfl
    | none => cases search iterPattern cs <;> rfl

/-! ### version -/

/-- vasprun.py:3540 `(\d+)\.(\d+)\.(\d+)`. -/
def versionPattern : List Piece :=
  [.one isDigit, .star isDigit, .one (· == '.'), .one isDigit, .star isDigit, .one (· == '.'), .one isDigit, .star isDigit]

theorem versionAt_eq (s : Str) : Vasprun.versionAt s = (first versionPattern s).map fun y => y.1.flatten := by
  unfold Vasprun.versionAt versionPattern Vasprun.digitsAt
  rw [first_digits '.' (by decide)]
  match spanP isDigit s with
  | ([], _) => rfl
  | (a :: as, []) => simp only; rw [first_one_nil]; rfl
  | (a :: as, c :: r2) =>
    simp only [reduceCtorEq, if_false, Option.bind_some]
    rw [first_one_cons]
    by_cases hc : c = '.'
    · subst hc
      simp only [Vasprun.dotAt, beq_self_eq_true, if_true, Option.bind_some]
      rw [first_digits '.' (by decide)]
      match spanP isDigit r2 with
      | ([], _) => rfl
      | (b :: bs, []) => simp only; rw [first_one_nil]; rfl
      | (b :: bs, e :: r3) =>
        simp only [reduceCtorEq, if_false, Option.bind_some]
        rw [first_one_cons]
        by_cases he : e = '.'
        · subst he
          simp only [Vasprun.dotAt, beq_self_eq_true, if_true, Option.bind_some]
          rw [first_plus]
          match spanP isDigit r3 with
          | ([], _) => rfl
          | (d :: ds, t) => simp [push]
        · rw [if_neg (by simpa using he)]
          simp [Vasprun.dotAt, he]
    · rw [if_neg (by simpa using hc)]
      simp [Vasprun.dotAt, hc]

/-- C154, the version of vasprun.xml: the leftmost match of the regular expression, `None.group` if there is none. -/
theorem C154_version (s : Str) : Vasprun.versionIn s = match search versionPattern s with
    | some y => .ok y.2.1.flatten
    | none => .raise .attributeError := by
  induction s with
  | nil => rfl
  | cons c cs ih =>
    rw [Vasprun.versionIn, search, versionAt_eq, ih]
    cases first versionPattern (c :: cs) with
    | some y => rfl
    | none => cases search versionPattern cs <;> rfl

/-! ### blank lines of EIGENVAL -/

/-- utils.py:389 `[\r\n]\s*[\r\n]`. -/
def blankPattern : List Piece := [.one Eigenval.isNl, .star isSpace, .one Eigenval.isNl]

theorem nl_space {c : Char} (h : Eigenval.isNl c = true) : isSpace c = true := by
  unfold Eigenval.isNl at h
  simp only [Bool.or_eq_true, beq_iff_eq] at h
  rcases h with rfl | rfl <;> decide

theorem skipBlank_eq (s : Str) : (first [.star isSpace, .one Eigenval.isNl] s).map Prod.snd = Eigenval.skipBlank s := by
  induction s with
  | nil => rw [first_star_stop _ (by simp), first_one_nil]; rfl
  | cons c cs ih =>
    rw [Eigenval.skipBlank, ← ih]
    by_cases hc : isSpace c = true
    · rw [if_pos hc, first_star_take _ _ hc, first_one_cons]
      cases first [.star isSpace, .one Eigenval.isNl] cs with
      | some y =>
        simp only [Option.map_some, Option.some_or]
        unfold grow
        cases y.1 <;> rfl
      | none =>
        by_cases hn : Eigenval.isNl c = true
        · simp [hn, first_nil, push]
        · simp [hn]
    · have hn : Eigenval.isNl c ≠ true := fun hn => hc (nl_space hn)
      rw [if_neg hc, first_star_stop _ (by intro d hd; cases hd; simpa using hc), first_one_cons, if_neg hn]; rfl

theorem skipBlank_length {s r : Str} (h : Eigenval.skipBlank s = some r) : r.length < s.length := by
  induction s generalizing r with
  | nil => cases h
  | cons c cs ih =>
    rw [Eigenval.skipBlank] at h
    split at h
    · split at h
      · rename_i r' hr; cases h; have := ih hr; simp; omega
      · split at h
        · cases h; simp
        · cases h
    · cases h

theorem first_blank (c : Char) (cs : Str) : (first blankPattern (c :: cs)).map Prod.snd = if Eigenval.isNl c then Eigenval.skipBlank cs else none := by
  unfold blankPattern
  rw [first_one_cons]
  split
  · rw [← skipBlank_eq]
    cases first [.star isSpace, .one Eigenval.isNl] cs <;> rfl
  · rfl

theorem Split.cons {r : List Piece} {c : Char} {cs : Str} {l : List Str} (hf : first r (c :: cs) = none) (h : Split r cs l) :
    Split r (c :: cs) (consHead c l) := by
  cases h with
  | done h => exact .done (by rw [search, hf, h]; rfl)
  | next h hr => exact .next (by rw [search, hf, h]; rfl) hr

/-- C154, the blocks of an EIGENVAL: the text is split at the matches of the regular expression for blank lines. -/
theorem C154_blank_lines (s : Str) : Split blankPattern s (Eigenval.splitEmpty s.length s) := by
  have : ∀ n, ∀ s : Str, s.length ≤ n → Split blankPattern s (Eigenval.splitEmpty n s) := by
    intro n
    induction n with
    | zero =>
      intro s hs
      have : s = [] := List.length_eq_zero_iff.1 (by omega)
      subst this
      exact .done rfl
    | succ n ih =>
      intro s hs
      cases s with
      | nil => exact .done rfl
      | cons c cs =>
        simp only [List.length_cons] at hs
        have hb := first_blank c cs
        rw [Eigenval.splitEmpty]
        by_cases hn : Eigenval.isNl c = true
        · rw [if_pos hn] at hb ⊢
          cases hk : Eigenval.skipBlank cs with
          | some r =>
            rw [hk] at hb
            cases hf : first blankPattern (c :: cs) with
            | none => rw [hf] at hb; cases hb
            | some y =>
              obtain ⟨ms, t⟩ := y
              rw [hf] at hb
              simp only [Option.map_some, Option.some.injEq] at hb
              subst hb
              have := skipBlank_length hk
              exact .next (pre := []) (by rw [search, hf]) (ih _ (by omega))
          | none =>
            rw [hk] at hb
            exact Split.cons (by simpa using hb) (ih cs (by omega))
        · rw [if_neg hn] at hb ⊢
          exact Split.cons (by simpa using hb) (ih cs (by omega))
  exact this _ s le_rfl

theorem Split.unique {r : List Piece} {s : Str} {a b : List Str} (ha : Split r s a) (hb : Split r s b) : a = b := by
  induction ha generalizing b with
  | done h =>
    cases hb with
    | done => rfl
    | next h' => rw [h] at h'; cases h'
  | next h _ ih =>
    cases hb with
    | done h' => rw [h] at h'; cases h'
    | next h' hr' => rw [h] at h'; cases h'; rw [ih hr']

theorem FindAll.unique {r : List Piece} {s : Str} {a b : List (List Str)} (ha : FindAll r s a) (hb : FindAll r s b) : a = b := by
  induction ha generalizing b with
  | done h =>
    cases hb with
    | done => rfl
    | next h' => rw [h] at h'; cases h'
  | next h _ ih =>
    cases hb with
    | done h' => rw [h] at h'; cases h'
    | next h' hr' => rw [h] at h'; cases h'; rw [ih hr']

/-! ### POTCAR: values -/

/-- `[TFtf]`. -/
def tf (c : Char) : Bool := c == 'T' || c == 'F' || c == 't' || c == 'f'
/-- `[A-Za-z]`. -/
def letter (c : Char) : Bool := (65 ≤ c.toNat && c.toNat ≤ 90) || (97 ≤ c.toNat && c.toNat ≤ 122)

/-- potcar.py:110-112 `^\.?([TFtf])[A-Za-z]*\.?`. -/
def boolPattern : List Piece := [.opt (· == '.'), .one tf, .star letter, .opt (· == '.')]
/-- potcar.py:113-115 `^-?[0-9]+`. -/
def intPattern : List Piece := [.opt (· == '-'), .one isDigit, .star isDigit]
/-- potcar.py:116-130 `^-?\d*\.?\d*[eE]?-?\d*`. -/
def realPattern : List Piece :=
  [.opt (· == '-'), .star isDigit, .opt (· == '.'), .star isDigit, .opt (fun x => x == 'e' || x == 'E'), .opt (· == '-'), .star isDigit]

theorem first_opt_yes {p : Char → Bool} {r : List Piece} {s : Str} {y : List Str × Str} (h : first r (Potcar.optional p s).2 = some y) :
    first (.opt p :: r) s = some (push (Potcar.optional p s).1 y) := by
  rw [first_opt]
  cases s with
  | nil => rw [first_one_nil]; rw [show Potcar.optional p [] = ([], []) from rfl] at *; rw [h]; rfl
  | cons c cs =>
    rw [first_one_cons]
    by_cases hc : p c = true
    · simp only [Potcar.optional, hc, if_true] at h ⊢
      rw [h]; rfl
    · have : p c = false := by simpa using hc
      simp only [Potcar.optional, this, Bool.false_eq_true, if_false] at h ⊢
      rw [h]; rfl

/-- What follows cannot begin with the optional character. -/
theorem first_opt_only {p : Char → Bool} {r : List Piece} (hr : ∀ c t, p c = true → first r (c :: t) = none) (s : Str) :
    first (.opt p :: r) s = (first r (Potcar.optional p s).2).map (push (Potcar.optional p s).1) := by
  rw [first_opt]
  cases s with
  | nil => rw [first_one_nil]; rfl
  | cons c cs =>
    rw [first_one_cons]
    by_cases hc : p c = true
    · simp only [Potcar.optional, hc, if_true]
      rw [hr c cs hc]
      cases first r cs <;> rfl
    · have : p c = false := by simpa using hc
      simp only [Potcar.optional, this, Bool.false_eq_true, if_false]
      rfl

theorem first_opt_nil (p : Char → Bool) (s : Str) : first [.opt p] s = some ([(Potcar.optional p s).1], (Potcar.optional p s).2) :=
  first_opt_yes (first_nil _)

/-- C154, truth values of a POTCAR: the group of the match, in lower case, is compared with t. -/
theorem C154_bool (v : Str) : Potcar.toBool v = match first boolPattern v with
    | some (_ :: g :: _, _) => .ok (.bool (decide (lower g ∈ [c!"t"])))
    | _ => .raise .attributeError := by
  have hp : ∀ c t, (c == '.') = true → first [.one tf, .star letter, .opt (· == '.')] (c :: t) = none := by
    intro c t hc
    simp only [beq_iff_eq] at hc
    rw [first_one_cons, if_neg]
    subst hc; decide
  unfold Potcar.toBool boolPattern
  rw [first_opt_only hp]
  cases (Potcar.optional (· == '.') v).2 with
  | nil => rw [first_one_nil]; rfl
  | cons c cs =>
    rw [first_one_cons, first_star_longest cs (first_opt_nil _ _)]
    simp only
    by_cases h1 : c = 'T'
    · subst h1; simp [tf, push, lower]; decide
    by_cases h2 : c = 't'
    · subst h2; simp [tf, push, lower]; decide
    by_cases h3 : c = 'F'
    · subst h3; simp [tf, push, lower]; decide
    by_cases h4 : c = 'f'
    · subst h4; simp [tf, push, lower]; decide
    have ht : tf c = false := by simp [tf, h1, h2, h3, h4]
    simp [h1, h2, h3, h4, ht]

/-- C154, whole numbers of a POTCAR: `int()` of the match. -/
theorem C154_int (v : Str) : Potcar.toInteger v = match first intPattern v with
    | some y => Kpoints.toInt y.1.flatten >>= fun i => .ok (.int i)
    | none => .raise .attributeError := by
  have hp : ∀ c t, (c == '-') = true → first [.one isDigit, .star isDigit] (c :: t) = none := by
    intro c t hc
    simp only [beq_iff_eq] at hc
    rw [first_one_cons, if_neg]
    subst hc; decide
  unfold Potcar.toInteger intPattern
  rw [first_opt_only hp, first_plus]
  dsimp only
  cases hx : spanP isDigit (Potcar.optional (fun x => x == '-') v).2 with
  | mk d t =>
    cases d with
    | nil => rfl
    | cons a as => simp [push]

/-- C154, real numbers of a POTCAR: there is always a match, and `float()` gets it. -/
theorem C154_real (v : Str) : ∃ y, first realPattern v = some y ∧ y.1.flatten = Potcar.floatPart v := by
  unfold realPattern
  refine ⟨_, first_opt_yes (first_star_longest _ (first_opt_yes (first_star_longest _ (first_opt_yes (first_opt_yes (first_star_longest _ (first_nil _))))))), ?_⟩
  simp [push, Potcar.floatPart]

/-! ### POTCAR: entries -/

/-- `(?=;|$)` with `MULTILINE`. -/
def atEnd (s : Str) : Bool := match s with
  | [] => true
  | c :: _ => c == ';' || c == '\n'

/-- potcar.py:140 `(\S+)\s*=\s*(.*?)(?=;|$)`. -/
def entryPattern : List Piece :=
  [.one nonSpace, .star nonSpace, .star isSpace, .one (· == '='), .star isSpace, .lazy dot, .ahead atEnd]

/-- The two groups of a match. -/
def entryGroups (ms : List Str) : Str × Str :=
  match ms with
  | [a, as, _, _, _, v, _] => (a ++ as, v)
  | _ => ([], [])

theorem atEnd_cons (c : Char) (cs : Str) : atEnd (c :: cs) = Potcar.isEnd c := rfl

theorem first_lazy_value (s : Str) : first [.lazy dot, .ahead atEnd] s = some ([(spanP (fun x => !Potcar.isEnd x) s).1, []], (spanP (fun x => !Potcar.isEnd x) s).2) := by
  induction s with
  | nil => rw [first_lazy_stop _ (by simp), first_ahead]; rfl
  | cons c cs ih =>
    by_cases he : Potcar.isEnd c = true
    · simp only [spanP, he, Bool.not_true, Bool.false_eq_true, if_false]
      have hx : first [.ahead atEnd] (c :: cs) = some ([[]], c :: cs) := by rw [first_ahead, atEnd_cons, he]; rfl
      by_cases hd : dot c = true
      · rw [first_lazy_take _ _ hd, hx]; rfl
      · rw [first_lazy_stop _ (by intro d hd'; cases hd'; simpa using hd), hx]; rfl
    · have he' : Potcar.isEnd c = false := by simpa using he
      have hd : dot c = true := by
        unfold Potcar.isEnd at he'
        simp only [Bool.or_eq_false_iff] at he'
        unfold dot
        simpa using he'.2
      simp only [spanP, he', Bool.not_false, if_true]
      rw [first_lazy_take _ _ hd, ih]
      have : first [.ahead atEnd] (c :: cs) = none := by rw [first_ahead, atEnd_cons, he']; rfl
      rw [this]; rfl

theorem first_value (s : Str) : first [.star isSpace, .lazy dot, .ahead atEnd] s =
    some ([(spanP isSpace s).1, (Potcar.valueAt s).1, []], (Potcar.valueAt s).2) :=
  first_star_longest s (first_lazy_value _)

/-- Behind the `=` everything matches. -/
theorem first_eq (s : Str) : first [.one (· == '='), .star isSpace, .lazy dot, .ahead atEnd] s =
    (Potcar.afterEq s).map fun r => ([['='], (spanP isSpace r).1, (Potcar.valueAt r).1, []], (Potcar.valueAt r).2) := by
  cases s with
  | nil => rw [first_one_nil]; rfl
  | cons c cs =>
    rw [first_one_cons, Potcar.afterEq]
    by_cases hc : c = '='
    · subst hc
      simp only [beq_self_eq_true, if_true, first_value, Option.map_some]
      rfl
    · rw [if_neg (by simpa using hc), if_neg hc]; rfl

theorem first_gap (s : Str) : first [.star isSpace, .one (· == '='), .star isSpace, .lazy dot, .ahead atEnd] s =
    (Potcar.afterEq (spanP isSpace s).2).map fun r => ([(spanP isSpace s).1, ['='], (spanP isSpace r).1, (Potcar.valueAt r).1, []], (Potcar.valueAt r).2) := by
  rw [first_star_only, first_eq]
  · cases Potcar.afterEq (spanP isSpace s).2 <;> rfl
  · intro c t hc
    rw [first_eq, Potcar.afterEq, if_neg]; · rfl
    rintro rfl; exact absurd hc (by decide)

/-- The last `=`, which may be at the front. -/
def lastEq' (w : Str) : Option (Str × Str) := match Potcar.lastEq w with
  | some x => some x
  | none => (Potcar.afterEq w).map fun r => ([], r)

theorem lastEq_cons (c : Char) (w : Str) : Potcar.lastEq (c :: w) = (lastEq' w).map fun x => (c :: x.1, x.2) := by
  rw [Potcar.lastEq]
  unfold lastEq'
  cases Potcar.lastEq w with
  | some x => rfl
  | none => cases Potcar.afterEq w <;> rfl

/-- The part of an entry behind the first character of the key: what is taken of the run, and the rest behind the `=`. -/
def tailKey (s : Str) : Option (Str × Str) :=
  match Potcar.afterEq (spanP isSpace (spanP nonSpace s).2).2 with
  | some r => some ((spanP nonSpace s).1, r)
  | none => (lastEq' (spanP nonSpace s).1).map fun kr => (kr.1, kr.2 ++ (spanP nonSpace s).2)

theorem keyAt_cons (c : Char) (cs : Str) (hc : nonSpace c = true) : Potcar.keyAt (c :: cs) = (tailKey cs).map fun x => (c :: x.1, x.2) := by
  have hs : isSpace c = false := by simpa [nonSpace] using hc
  unfold Potcar.keyAt tailKey
  have e : spanP (fun c => !isSpace c) (c :: cs) = (c :: (spanP nonSpace cs).1, (spanP nonSpace cs).2) := by
    simp only [spanP, hs, Bool.not_false, if_true]; rfl
  simp only [e]
  cases Potcar.afterEq (spanP isSpace (spanP nonSpace cs).2).2 with
  | some r => simp
  | none =>
    simp only [lastEq_cons]
    cases lastEq' (spanP nonSpace cs).1 <;> rfl

theorem keyAt_space (c : Char) (cs : Str) (hc : nonSpace c = false) : Potcar.keyAt (c :: cs) = none := by
  have hs : isSpace c = true := by simpa [nonSpace] using hc
  unfold Potcar.keyAt
  have e : spanP (fun c => !isSpace c) (c :: cs) = ([], c :: cs) := by simp only [spanP, hs, Bool.not_true, Bool.false_eq_true, if_false]
  simp only [e]
  cases Potcar.afterEq (spanP isSpace (c :: cs)).2 <;> rfl

/-- The key behind its first character, the value, and what is left. -/
def view (y : List Str × Str) : Str × Str × Str := match y.1 with
  | [as, _, _, _, v, _] => (as, v, y.2)
  | _ => ([], [], [])

theorem view_grow (c : Char) (y : List Str × Str) (h : y.1.length = 6) : view (grow c y) = (c :: (view y).1, (view y).2) := by
  obtain ⟨ms, t⟩ := y
  match ms, h with
  | [_, _, _, _, _, _], _ => rfl

/-- Behind the first character of the key. -/
def tailPattern : List Piece := [.star nonSpace, .star isSpace, .one (· == '='), .star isSpace, .lazy dot, .ahead atEnd]

theorem first_tail (s : Str) : (first tailPattern s).map view = (tailKey s).map fun x => (x.1, Potcar.valueAt x.2) := by
  induction s with
  | nil => unfold tailPattern; rw [first_star_stop _ (by simp), first_gap]; rfl
  | cons c cs ih =>
    by_cases hc : nonSpace c = true
    · have hs : isSpace c = false := by simpa [nonSpace] using hc
      have hg : first [.star isSpace, .one (· == '='), .star isSpace, .lazy dot, .ahead atEnd] (c :: cs) =
          (Potcar.afterEq (c :: cs)).map fun r => ([[], ['='], (spanP isSpace r).1, (Potcar.valueAt r).1, []], (Potcar.valueAt r).2) := by
        rw [first_gap]
        simp only [spanP, hs, Bool.false_eq_true, if_false]
      unfold tailPattern at ih ⊢
      rw [first_star_take _ _ hc, hg]
      unfold tailKey at ih ⊢
      have e : spanP nonSpace (c :: cs) = (c :: (spanP nonSpace cs).1, (spanP nonSpace cs).2) := by simp only [spanP, hc, if_true]
      simp only [e]
      have hsplit := (Potcar.spanP_split nonSpace cs).1
      generalize hf : first [.star nonSpace, .star isSpace, .one (· == '='), .star isSpace, .lazy dot, .ahead atEnd] cs = o at ih
      have hlen : ∀ y, o = some y → y.1.length = 6 := fun y hy => first_length _ _ y (hf.trans hy)
      cases ha : Potcar.afterEq (spanP isSpace (spanP nonSpace cs).2).2 with
      | some r =>
        simp only [ha, Option.map_some] at ih ⊢
        cases o with
        | none => cases ih
        | some y =>
          simp only [Option.map_some, Option.some.injEq] at ih
          simp only [Option.map_some, Option.some_or]
          rw [view_grow c y (hlen y rfl), ih]
      | none =>
        simp only [ha] at ih ⊢
        cases hl : lastEq' (spanP nonSpace cs).1 with
        | some x =>
          have hl' : lastEq' (c :: (spanP nonSpace cs).1) = some (c :: x.1, x.2) := by
            unfold lastEq'; rw [lastEq_cons, hl]; rfl
          rw [hl] at ih
          rw [hl']
          cases o with
          | none => cases ih
          | some y =>
            simp only [Option.map_some, Option.some.injEq] at ih
            simp only [Option.map_some, Option.some_or]
            rw [view_grow c y (hlen y rfl), ih]
        | none =>
          have hl' : lastEq' (c :: (spanP nonSpace cs).1) = (Potcar.afterEq (c :: (spanP nonSpace cs).1)).map fun r => ([], r) := by
            unfold lastEq'; rw [lastEq_cons, hl]; rfl
          rw [hl] at ih
          rw [hl']
          cases o with
          | some y => cases ih
          | none =>
            by_cases hq : c = '='
            · subst hq
              simp only [Potcar.afterEq, if_true, Option.map_some, Option.map_none, Option.none_or]
              rw [← hsplit]; rfl
            · simp only [Potcar.afterEq, hq, if_false, Option.map_none, Option.none_or]
    · have hc' : nonSpace c = false := by simpa using hc
      unfold tailPattern
      rw [first_star_stop _ (by intro d hd; cases hd; exact hc'), first_gap]
      unfold tailKey
      have e : spanP nonSpace (c :: cs) = ([], c :: cs) := by simp only [spanP, hc', Bool.false_eq_true, if_false]
      simp only [e]
      cases Potcar.afterEq (spanP isSpace (c :: cs)).2 with
      | some r => rfl
      | none => rfl

/-- At one place: the match has the key and value of the scanner. -/
theorem first_entry (s : Str) : (first entryPattern s).map (fun y => (entryGroups y.1, y.2)) =
    (Potcar.keyAt s).map fun x => ((x.1, (Potcar.valueAt x.2).1), (Potcar.valueAt x.2).2) := by
  cases s with
  | nil => unfold entryPattern; rw [first_one_nil]; rfl
  | cons c cs =>
    unfold entryPattern
    rw [first_one_cons]
    by_cases hc : nonSpace c = true
    · rw [if_pos hc, keyAt_cons c cs hc]
      have ht := first_tail cs
      unfold tailPattern at ht
      generalize hf : first [.star nonSpace, .star isSpace, .one (· == '='), .star isSpace, .lazy dot, .ahead atEnd] cs = o at ht
      have hlen : ∀ y, o = some y → y.1.length = 6 := fun y hy => first_length _ _ y (hf.trans hy)
      cases o with
      | none =>
        cases hk : tailKey cs with
        | none => rfl
        | some x => rw [hk] at ht; cases ht
      | some y =>
        obtain ⟨ms, t⟩ := y
        cases hk : tailKey cs with
        | none => rw [hk] at ht; cases ht
        | some x =>
          rw [hk] at ht
          simp only [Option.map_some, Option.some.injEq] at ht
          have := hlen _ rfl
          match ms, this with
          | [m0, _, _, _, v, _], _ =>
            simp only [view, Prod.mk.injEq] at ht
            obtain ⟨h1, h2⟩ := ht
            simp only [Option.map_some, push, entryGroups, Option.some.injEq, Prod.mk.injEq]
            rw [← h1, ← h2]
            exact ⟨⟨rfl, rfl⟩, rfl⟩
    · have hc' : nonSpace c = false := by simpa using hc
      rw [if_neg hc, keyAt_space c cs hc']; rfl

theorem FindAll.cons {r : List Piece} {c : Char} {cs : Str} {l : List (List Str)} (hf : first r (c :: cs) = none) (h : FindAll r cs l) : FindAll r (c :: cs) l := by
  cases h with
  | done h => exact .done (by rw [search, hf, h]; rfl)
  | next h hr => exact .next (by rw [search, hf, h]; rfl) hr

theorem valueAt_length (s : Str) : (Potcar.valueAt s).2.length ≤ s.length := by
  unfold Potcar.valueAt
  have h1 := congrArg List.length (Potcar.spanP_split isSpace s).1
  have h2 := congrArg List.length (Potcar.spanP_split (fun x => !Potcar.isEnd x) (spanP isSpace s).2).1
  rw [List.length_append] at h1 h2
  omega

theorem lastEq'_length {w : Str} {x : Str × Str} (h : lastEq' w = some x) : x.2.length < w.length := by
  induction w generalizing x with
  | nil => cases h
  | cons c w ih =>
    unfold lastEq' at h
    rw [lastEq_cons] at h
    cases hl : lastEq' w with
    | some y => rw [hl] at h; cases h; have := ih hl; simp; omega
    | none =>
      rw [hl] at h
      simp only [Option.map_none, Potcar.afterEq] at h
      split at h
      · cases h; simp
      · cases h

theorem afterEq_length {s r : Str} (h : Potcar.afterEq s = some r) : r.length < s.length := by
  cases s with
  | nil => cases h
  | cons c cs =>
    rw [Potcar.afterEq] at h
    split at h
    · cases h; simp
    · cases h

theorem tailKey_length {s : Str} {x : Str × Str} (h : tailKey s = some x) : x.2.length < s.length := by
  unfold tailKey at h
  have h1 := congrArg List.length (Potcar.spanP_split nonSpace s).1
  have h2 := congrArg List.length (Potcar.spanP_split isSpace (spanP nonSpace s).2).1
  rw [List.length_append] at h1 h2
  cases ha : Potcar.afterEq (spanP isSpace (spanP nonSpace s).2).2 with
  | some r =>
    rw [ha] at h
    cases h
    have := afterEq_length ha
    dsimp only
    omega
  | none =>
    rw [ha] at h
    cases hl : lastEq' (spanP nonSpace s).1 with
    | none => rw [hl] at h; cases h
    | some y =>
      rw [hl] at h
      cases h
      have := lastEq'_length hl
      dsimp only
      rw [List.length_append]
      omega

/-- C154, the entries of a POTCAR: the scanner finds what `re.findall` finds. -/
theorem C154_entries (s : Str) : ∃ l, FindAll entryPattern s l ∧ Potcar.findAll s.length s = l.map entryGroups := by
  have : ∀ n, ∀ s : Str, s.length ≤ n → ∃ l, FindAll entryPattern s l ∧ Potcar.findAll n s = l.map entryGroups := by
    intro n
    induction n with
    | zero =>
      intro s hs
      have : s = [] := List.length_eq_zero_iff.1 (by omega)
      subst this
      exact ⟨[], .done (by unfold entryPattern; rw [search, first_one_nil]; rfl), rfl⟩
    | succ n ih =>
      intro s hs
      cases s with
      | nil => exact ⟨[], .done (by unfold entryPattern; rw [search, first_one_nil]; rfl), rfl⟩
      | cons c cs =>
        simp only [List.length_cons] at hs
        have he := first_entry (c :: cs)
        rw [Potcar.findAll]
        cases hk : Potcar.keyAt (c :: cs) with
        | none =>
          rw [hk] at he
          obtain ⟨l, h1, h2⟩ := ih cs (by omega)
          exact ⟨l, FindAll.cons (by simpa using he) h1, h2⟩
        | some x =>
          rw [hk] at he
          have hlen : x.2.length ≤ cs.length := by
            by_cases hc : nonSpace c = true
            · rw [keyAt_cons c cs hc] at hk
              cases ht : tailKey cs with
              | none => rw [ht] at hk; cases hk
              | some z => rw [ht] at hk; cases hk; exact (tailKey_length ht).le
            · rw [keyAt_space c cs (by simpa using hc)] at hk; cases hk
          have := valueAt_length x.2
          obtain ⟨l, h1, h2⟩ := ih (Potcar.valueAt x.2).2 (by omega)
          cases hf : first entryPattern (c :: cs) with
          | none => rw [hf] at he; cases he
          | some y =>
            obtain ⟨ms, t⟩ := y
            rw [hf] at he
            simp only [Option.map_some, Option.some.injEq, Prod.mk.injEq] at he
            obtain ⟨e1, e2⟩ := he
            refine ⟨ms :: l, .next (pre := []) (t := t) (by rw [search, hf]) (by rw [e2]; exact h1), ?_⟩
            rw [List.map_cons, e1, ← h2]; rfl
  exact this _ s le_rfl

end Verif.Regex
