import Verif.Model.Utils
import Verif.Lemmas.Dict
import Verif.Lemmas.NumClass
/-! # C44 line selection, C57 integer parameters, C60 `line_to_type` -/
set_option autoImplicit false
namespace Verif.Utils
open Verif

/-! ### substring test -/

theorem startsWith_iff (p s : Str) : startsWith p s = true ↔ p <+: s := by
  induction p generalizing s with
  | nil => simp [startsWith]
  | cons a p ih =>
    cases s with
    | nil => simp [startsWith]
    | cons b s =>
      simp only [startsWith, Bool.and_eq_true, beq_iff_eq, ih, List.cons_prefix_cons]

/-- The model of Python's `p in s` is the substring relation. -/
theorem contains_iff (p s : Str) : contains p s = true ↔ p <:+: s := by
  induction s with
  | nil =>
    simp only [contains, startsWith_iff]
    simp
  | cons x xs ih =>
    simp only [contains, Bool.or_eq_true, startsWith_iff, ih, List.infix_cons_iff]

/-! ### C44 -/

theorem foldl_elements (es : List Str) (line : Str) (parsed : List Str) :
    es.foldl (fun parsed element => if Verif.contains element line then parsed ++ [line] else parsed) parsed =
      parsed ++ List.replicate (es.countP fun e => Verif.contains e line) line := by
  induction es generalizing parsed with
  | nil => simp
  | cons e es ih =>
    rw [List.foldl_cons, ih, List.countP_cons]
    by_cases h : Verif.contains e line = true
    · rw [if_pos h, if_pos h, List.append_assoc, List.singleton_append, ← List.replicate_succ]
    · rw [if_neg h, if_neg h]; simp

theorem selectLines_elements (fd : List Str) (c : Contains) (h : c ≠ .none) :
    selectLines fd c = .lines (fd.flatMap fun l => List.replicate ((containsElements c).countP fun e => Verif.contains e l) l) := by
  have key : ∀ acc : List Str, fd.foldl (fun parsed line =>
        (containsElements c).foldl (fun parsed element =>
          if Verif.contains element line then parsed ++ [line] else parsed) parsed) acc =
      acc ++ fd.flatMap fun l => List.replicate ((containsElements c).countP fun e => Verif.contains e l) l := by
    induction fd with
    | nil => simp
    | cons l ls ih => intro acc; rw [List.foldl_cons, foldl_elements, ih]; simp
  have := key []
  rw [List.nil_append] at this
  cases c with
  | none => exact absurd rfl h
  | list es => simp only [selectLines, isSequence, if_true, this]
  | str s => simp only [selectLines, isSequence, if_true, this]

/-- C44. Without selector the whole file is returned. -/
theorem C44_no_selector (text : Str) : readFromFile text .none = .lines (readlines text) := rfl

/-- C44, list selector: every line is returned once per element it contains, in file order. In particular exactly the lines
containing some element occur in the answer. -/
theorem C44_list (text : Str) (es : List Str) :
    ∃ r, readFromFile text (.list es) = .lines r ∧
      r = (readlines text).flatMap (fun l => List.replicate (es.countP fun e => Verif.contains e l) l) ∧
      ∀ l, l ∈ r ↔ l ∈ readlines text ∧ ∃ e ∈ es, e <:+: l := by
  refine ⟨_, selectLines_elements _ _ (by simp), rfl, ?_⟩
  intro l
  simp only [List.mem_flatMap, containsElements, List.mem_replicate]
  constructor
  · rintro ⟨a, ha, hc, rfl⟩
    refine ⟨ha, ?_⟩
    have : 0 < es.countP (fun e => Verif.contains e l) := Nat.pos_of_ne_zero hc
    obtain ⟨e, he, hel⟩ := List.countP_pos_iff.1 this
    exact ⟨e, he, (contains_iff e l).1 hel⟩
  · rintro ⟨hl, e, he, hel⟩
    refine ⟨l, hl, ?_, rfl⟩
    have : 0 < es.countP (fun e => Verif.contains e l) := List.countP_pos_iff.2 ⟨e, he, (contains_iff e l).2 hel⟩
    omega

/-- C44, partial, list selector: if no line contains two of the elements, the answer is exactly the list of lines containing an
element, in order. Missing: lines containing several elements, which are repeated (`C44_violation_duplicate`). -/
theorem C44_list_filter_partial (text : Str) (es : List Str)
    (h : ∀ l ∈ readlines text, es.countP (fun e => Verif.contains e l) ≤ 1) :
    ∃ r, readFromFile text (.list es) = .lines r ∧
      r = (readlines text).filter (fun l => decide (∃ e ∈ es, Verif.contains e l = true)) := by
  refine ⟨_, selectLines_elements _ _ (by simp), ?_⟩
  simp only [containsElements]
  generalize readlines text = fd at h
  induction fd with
  | nil => rfl
  | cons l ls ih =>
    rw [List.flatMap_cons, List.filter_cons, ih (fun x hx => h x (by simp [hx]))]
    have h1 := h l (by simp)
    by_cases hm : ∃ e ∈ es, Verif.contains e l = true
    · have : es.countP (fun e => Verif.contains e l) = 1 := by
        obtain ⟨e, he, hel⟩ := hm
        have := List.countP_pos_iff (p := fun e => Verif.contains e l).2 ⟨e, he, hel⟩
        omega
      simp [this, hm]
    · have : es.countP (fun e => Verif.contains e l) = 0 := by
        rw [List.countP_eq_zero]; intro e he hel; exact hm ⟨e, he, hel⟩
      simp [this, hm]

example : readFromFile c!"aX\nb\ncY\n" (.list [c!"X", c!"Y"]) = .lines [c!"aX\n", c!"cY\n"] := by decide

/-- C44 is violated: a line containing two of the elements is returned twice. -/
theorem C44_violation_duplicate : readFromFile c!"ab\n" (.list [c!"a", c!"b"]) = .lines [c!"ab\n", c!"ab\n"] := by decide

/-- C44 is violated for a string selector: Python 3 strings are iterable, so every line is tested against the single
characters; a line not containing the string is returned. -/
theorem C44_violation_string : ∃ text s : Str, ∃ l, readFromFile text (.str s) = .lines [l] ∧ ¬ s <:+: l :=
  ⟨c!"a line\n", c!"abc", c!"a line\n", by decide, by rw [← contains_iff]; decide⟩

/-- C44, what a string selector really does: a line is returned once per character of the string that occurs in it. Missing: the claim itself is false for string selectors (`C44_violation_*`). -/
theorem C44_string_partial (text s : Str) :
    readFromFile text (.str s) = .lines ((readlines text).flatMap fun l => List.replicate (s.countP (· ∈ l)) l) := by
  have := selectLines_elements (readlines text) (.str s) (by simp)
  unfold readFromFile
  rw [this]
  congr 1
  congr 1
  funext l
  congr 1
  simp only [containsElements, List.countP_map]
  congr 1
  funext c
  simp only [Function.comp_apply]
  rw [Bool.eq_iff_iff, contains_iff, List.singleton_infix_iff, decide_eq_true_iff]

/-! ### C57 -/

theorem spanP_spec (p : Char → Bool) (s : Str) :
    s = (spanP p s).1 ++ (spanP p s).2 ∧ (∀ c ∈ (spanP p s).1, p c = true) ∧ ∀ c, (spanP p s).2.head? = some c → p c = false := by
  induction s with
  | nil => simp [spanP]
  | cons x xs ih =>
    simp only [spanP]
    by_cases h : p x = true
    · simp only [h, if_true]
      refine ⟨by rw [List.cons_append, ← ih.1], ?_, ih.2.2⟩
      intro c hc
      rcases List.mem_cons.1 hc with rfl | hc
      · exact h
      · exact ih.2.1 c hc
    · simp only [h]
      simp [h]

theorem spanP_unique (p : Char → Bool) (a b : Str) (ha : ∀ c ∈ a, p c = true) (hb : ∀ c, b.head? = some c → p c = false) :
    spanP p (a ++ b) = (a, b) := by
  induction a with
  | nil =>
    cases b with
    | nil => rfl
    | cons x xs => simp [spanP, hb x rfl]
  | cons x xs ih => simp [spanP, ha x (by simp), ih (fun c hc => ha c (by simp [hc]))]

theorem dropPrefix?_eq_some (p s r : Str) : dropPrefix? p s = some r ↔ s = p ++ r := by
  induction p generalizing s with
  | nil => simp [dropPrefix?, eq_comm]
  | cons a p ih =>
    cases s with
    | nil => simp [dropPrefix?]
    | cons b s =>
      simp only [dropPrefix?]
      by_cases h : a = b
      · simp [h, ih]
      · simp [h]; intro h'; exact absurd h'.symm h

/-- The characters of the captured group. -/
def signOrDigit (c : Char) : Bool := c == '-' || isDigit c

/-- Specification of the line format `  KEY = 123...`: at least one blank, the key, blanks, `=`, blanks, a maximal non-empty run `g`
of digits and minus signs. -/
def PrintsParam (key s g : Str) : Prop :=
  ∃ n m k rest, s = List.replicate (n + 1) ' ' ++ (key ++ (List.replicate m ' ' ++ '=' :: (List.replicate k ' ' ++ (g ++ rest)))) ∧
    g ≠ [] ∧ (∀ c ∈ g, signOrDigit c = true) ∧ ∀ c, rest.head? = some c → signOrDigit c = false

theorem blanks_eq (s : Str) (h : ∀ c ∈ s, (c == ' ') = true) : s = List.replicate s.length ' ' := by
  rw [List.eq_replicate_iff]; exact ⟨rfl, fun c hc => by simpa using h c hc⟩

theorem matchIntParam_iff (key s g : Str) (hk : ∀ c, key.head? = some c → c ≠ ' ') (hne : key ≠ []) :
    matchIntParam key s = some g ↔ PrintsParam key s g := by
  constructor
  · intro h
    unfold matchIntParam at h
    obtain ⟨e1, b1, _⟩ := spanP_spec (· == ' ') s
    match hs : spanP (· == ' ') s with
    | ([], r1) => rw [hs] at h; cases h
    | (x :: xs, r1) =>
      rw [hs] at h e1 b1
      dsimp only at h e1 b1
      cases hd : dropPrefix? key r1 with
      | none => rw [hd] at h; cases h
      | some r2 =>
        rw [hd] at h
        dsimp only at h
        have e2 := (dropPrefix?_eq_some key r1 r2).1 hd
        obtain ⟨e3, b3, _⟩ := spanP_spec (· == ' ') r2
        split at h
        · rename_i r3 hr3
          obtain ⟨e4, b4, _⟩ := spanP_spec (· == ' ') r3
          obtain ⟨e5, b5, s5⟩ := spanP_spec (fun c => c == '-' || isDigit c) (spanP (· == ' ') r3).2
          split at h
          · rename_i c cs rest hg
            cases h
            rw [hg] at e5 b5 s5
            rw [hr3] at e3
            refine ⟨xs.length, (spanP (· == ' ') r2).1.length, (spanP (· == ' ') r3).1.length, rest, ?_, by simp, b5, s5⟩
            rw [← blanks_eq _ b3, ← blanks_eq _ b4]
            have : List.replicate (xs.length + 1) ' ' = x :: xs := (blanks_eq (x :: xs) b1).symm
            rw [this, ← e5, ← e4, ← e3, ← e2, ← e1]
          · cases h
        · cases h
  · rintro ⟨n, m, k, rest, rfl, hg, hgs, hrest⟩
    have hb : ∀ n, ∀ c ∈ List.replicate n ' ', (c == ' ') = true := by
      intro n c hc; rw [(List.mem_replicate.1 hc).2]; rfl
    obtain ⟨x, xs, rfl⟩ := List.exists_cons_of_ne_nil hne
    obtain ⟨y, ys, rfl⟩ := List.exists_cons_of_ne_nil hg
    unfold matchIntParam
    rw [spanP_unique _ _ _ (hb _) (by intro c hc; simp at hc; subst hc; have := hk x rfl; simpa using this)]
    rw [List.replicate_succ]
    have hd : dropPrefix? (x :: xs) (x :: xs ++ (List.replicate m ' ' ++ '=' :: (List.replicate k ' ' ++ (y :: ys ++ rest)))) = _ :=
      (dropPrefix?_eq_some _ _ _).2 rfl
    simp only [hd]
    rw [spanP_unique _ _ _ (hb m) (by intro c hc; simp at hc; subst hc; decide)]
    show (match spanP (fun c => c == '-' || isDigit c) (spanP (· == ' ') (List.replicate k ' ' ++ (y :: ys ++ rest))).2 with
      | (c :: cs, _) => some (c :: cs)
      | _ => none) = _
    rw [spanP_unique _ _ _ (hb k) (by
      intro c hc
      have hc : y = c := by simpa using hc
      subst hc
      have hy := hgs y (by simp)
      cases hsp : (y == ' ') with
      | false => rfl
      | true => rw [beq_iff_eq] at hsp; subst hsp; revert hy; decide)]
    dsimp only
    rw [spanP_unique (fun c => c == '-' || isDigit c) _ _ hgs hrest]

/-- C57. On a line `  KEY = g...` whose run `g` is the integer `i`, the lower-case key is set to `i` and nothing else changes. -/
theorem C57_sets (inputs : Dict Str (Option Int)) (key s g : Str) (i : Int) (hne : key ≠ [])
    (hk : ∀ c, key.head? = some c → c ≠ ' ') (hm : PrintsParam key s g) (hi : pyInt g = some i) :
    ∃ d, matchIntegerParam inputs key s = .ok d ∧
      ∀ k, d.get? k = if lower key = k then some (some i) else inputs.get? k := by
  refine ⟨inputs.set (lower key) (some i), ?_, fun k => Dict.get?_set _ _ _ _⟩
  unfold matchIntegerParam
  rw [(matchIntParam_iff key s g hk hne).2 hm]
  simp only [hi]

/-- C57. On every other line nothing changes. -/
theorem C57_ignores (inputs : Dict Str (Option Int)) (key s : Str) (hne : key ≠ [])
    (hk : ∀ c, key.head? = some c → c ≠ ' ') (hm : ∀ g, ¬ PrintsParam key s g) :
    matchIntegerParam inputs key s = .ok inputs := by
  unfold matchIntegerParam
  cases h : matchIntParam key s with
  | none => rfl
  | some g => exact absurd ((matchIntParam_iff key s g hk hne).1 h) (hm g)

example : PrintsParam c!"NSW" c!"   NSW    =     20    number of steps" c!"20" ∧ pyInt c!"20" = some 20 :=
  ⟨(matchIntParam_iff _ _ _ (by decide) (by decide)).1 (by decide), by decide⟩
example : ∀ g, ¬ PrintsParam c!"NSW" c!"NSW = 20" g := by
  intro g h
  have := (matchIntParam_iff _ _ _ (by decide) (by decide)).2 h
  revert this
  rw [show matchIntParam c!"NSW" c!"NSW = 20" = none by decide]; simp

/-- C57, remaining lines: a run of signs and digits that is no integer raises `ValueError` (e.g. `NSW = 1-2`). -/
theorem C57_bad_integer (inputs : Dict Str (Option Int)) (key s g : Str) (hne : key ≠ [])
    (hk : ∀ c, key.head? = some c → c ≠ ' ') (hm : PrintsParam key s g) (hi : pyInt g = none) :
    matchIntegerParam inputs key s = .raise .valueError := by
  unfold matchIntegerParam
  rw [(matchIntParam_iff key s g hk hne).2 hm]
  simp only [hi]

/-! ### C60 -/

/-- C60. A line of exactly one token gives the converted token, any other line the list of all converted tokens in order; the
call succeeds exactly if every conversion does. -/
theorem C60_shape {α} (conv : Str → Res α) (line : Str) (as : List α)
    (h : List.Forall₂ (fun w a => conv w = .ok a) (words line) as) :
    lineToType conv line = .ok (match as with | [a] => .one a | as => .many as) := by
  unfold lineToType
  rw [Res.mapM'_eq_ok.2 h]
  match as with
  | [] => rfl
  | [_] => rfl
  | _ :: _ :: _ => rfl

/-- C60, converse. -/
theorem C60_success {α} (conv : Str → Res α) (line : Str) (r : OneOrMany α) (h : lineToType conv line = .ok r) :
    ∃ as, List.Forall₂ (fun w a => conv w = .ok a) (words line) as ∧ r = (match as with | [a] => .one a | as => .many as) := by
  unfold lineToType at h
  cases hm : Res.mapM' conv (words line) with
  | ok as =>
    refine ⟨as, Res.mapM'_eq_ok.1 hm, ?_⟩
    rw [hm] at h
    match as with
    | [] => cases h; rfl
    | [_] => cases h; rfl
    | _ :: _ :: _ => cases h; rfl
  | exit => rw [hm] at h; cases h
  | raise => rw [hm] at h; cases h

example : lineToType (fun w => match pyInt w with | some i => Res.ok i | none => .raise .valueError) c!" 4  -5 \n" = .ok (.many [4, -5]) := by
  decide
example : lineToType (fun w => match pyInt w with | some i => Res.ok i | none => .raise .valueError) c!" 4 \n" = .ok (.one 4) := by
  decide

end Verif.Utils
