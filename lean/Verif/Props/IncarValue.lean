import Verif.Lemmas.Incar2
import Mathlib.Data.List.TakeWhile
/-! # Value typing of INCAR entries (C05) and number classification (C45) -/
set_option autoImplicit false
namespace Verif.Incar
open Verif Verif.Utils Verif.IncarSpec

/-! ### C45 -/

/-- Specification: the literals of the infinities and of nan, the only float literals of no finite value. -/
def NonFinite (s : Str) : Prop := (∃ b, pyFloat s = some (.inf b)) ∨ pyFloat s = some .nan

/-- C45, partial: on every string that is no literal of an infinity or nan, `test_string_content` answers `'int'` exactly if
`int()` accepts it, `'float'` exactly if `float()` but not `int()` accepts it, `'string'` exactly if `float()` rejects it.
Missing: the non-finite literals, for which the claim is false (`C45_violation`). -/
theorem C45_classification_partial (s : Str) (h : ¬ NonFinite s) :
    (testStringContent s = .int ↔ (pyInt s).isSome) ∧
    (testStringContent s = .float ↔ (pyFloat s).isSome ∧ pyInt s = none) ∧
    (testStringContent s = .string ↔ pyFloat s = none) := by
  cases hf : pyFloat s with
  | none =>
    have h1 := (testStringContent_string s).2 hf
    have h2 : pyInt s = none := by
      cases hi : pyInt s with
      | none => rfl
      | some i => obtain ⟨d, hd, _⟩ := pyFloat_of_pyInt hi; rw [hf] at hd; cases hd
    simp [h1, h2]
  | some f =>
    cases f with
    | inf b => exact absurd (.inl ⟨b, hf⟩) h
    | nan => exact absurd (.inr hf) h
    | fin d =>
      cases hi : pyInt s with
      | some i => simp [testStringContent_of_int hi]
      | none => simp [testStringContent_of_float hf hi]

/-- C45: `'string'` is answered exactly for the strings `float()` rejects, without exception. -/
theorem C45_string_iff (s : Str) : testStringContent s = .string ↔ pyFloat s = none := testStringContent_string s

/-- C45 is violated by every non-finite literal: it is called `'int'` although `int()` rejects it. -/
theorem C45_violation (s : Str) (h : NonFinite s) : testStringContent s = .int ∧ pyInt s = none :=
  ⟨testStringContent_of_special h, pyInt_special h⟩

example : NonFinite c!"nan" ∧ NonFinite c!" -Infinity" := ⟨.inr (by decide +kernel), .inl ⟨true, by decide +kernel⟩⟩
example : ¬ NonFinite c!"1_0e-3" := by
  have : pyFloat c!"1_0e-3" = some (.fin ⟨false, 10, -3⟩) := by decide +kernel
  rintro (⟨b, h⟩ | h) <;> rw [this] at h <;> cases h

/-! ### C05 -/

/-- Specification: one element is stored as a scalar, otherwise a list. -/
def Packed (xs : List Scalar) (v : Value) : Prop := (∃ x, xs = [x] ∧ v = .one x) ∨ (xs.length ≠ 1 ∧ v = .list xs)

theorem cleanString_of_tokens (F : FloatEnv) (v : Str) (r : List (Kind × Scalar)) (k : Kind)
    (h : List.Forall₂ (fun w p => cleanToken F w = .ok p) (words v) r) (hk : ∀ p ∈ r, p.1 = k) :
    ∃ val, cleanString F v = .ok val ∧ Packed (r.map Prod.snd) val := by
  have hm := Res.mapM'_eq_ok.2 h
  have hs : allSame (r.map Prod.fst) = true := by
    cases r with
    | nil => rfl
    | cons p ps =>
      simp only [allSame, List.map_cons, List.all_cons, beq_self_eq_true, Bool.true_and, List.all_map, List.all_eq_true,
        Function.comp_apply, beq_iff_eq]
      intro q hq
      rw [hk q (by simp [hq]), hk p (by simp)]
  unfold cleanString
  rw [hm]
  dsimp only
  rw [if_pos hs]
  refine ⟨_, rfl, ?_⟩
  match hx : r.map Prod.snd with
  | [x] => exact .inl ⟨x, rfl, rfl⟩
  | [] => exact .inr ⟨by simp, rfl⟩
  | _ :: _ :: _ => exact .inr ⟨by simp, rfl⟩

theorem cleanEntry_of_string (F : FloatEnv) (tag v : Str) (c : Option Str) {w : Str} {ws : List Str} {val : Value}
    (ht : words tag = w :: ws) (hr : lower w ∉ rawTags) (hv : cleanString F v = .ok val) :
    cleanEntry F tag (.one (.str v)) c = .ok ⟨lower w, val, c.map strip⟩ := by
  rw [cleanEntry_str, ht]; dsimp only; rw [if_neg hr, hv]; rfl

/-- C05, integers: if every token of the value is an integer literal, the tag holds these integers (a scalar if there is
just one). Also covers the empty value, stored as the empty list. -/
theorem C05_integers (F : FloatEnv) (tag v : Str) (c : Option Str) (w : Str) (ws : List Str) (is : List Int)
    (ht : words tag = w :: ws) (hr : lower w ∉ rawTags)
    (h : List.Forall₂ (fun tok i => pyInt tok = some i) (words v) is) :
    ∃ val, cleanEntry F tag (.one (.str v)) c = .ok ⟨lower w, val, c.map strip⟩ ∧ Packed (is.map .int) val := by
  have h' : List.Forall₂ (fun w p => cleanToken F w = .ok p) (words v) (is.map fun i => (Kind.int, Scalar.int i)) := by
    rw [List.forall₂_map_right_iff]
    refine h.imp ?_
    intro tok i hi
    unfold cleanToken; rw [testStringContent_of_int hi]; simp [hi]
  obtain ⟨val, h1, h2⟩ := cleanString_of_tokens F v _ .int h' (by simp)
  exact ⟨val, cleanEntry_of_string F tag v c ht hr h1, by simpa [Function.comp_def] using h2⟩

/-- C05, floats: if every token is a finite float literal but no integer literal, the tag holds these floats. Missing: the non-finite literals (`C05_violation_nan`). -/
theorem C05_floats_partial (F : FloatEnv) (tag v : Str) (c : Option Str) (w : Str) (ws : List Str) (ds : List Dec)
    (ht : words tag = w :: ws) (hr : lower w ∉ rawTags)
    (h : List.Forall₂ (fun tok d => pyInt tok = none ∧ pyFloat tok = some (.fin d)) (words v) ds) :
    ∃ val, cleanEntry F tag (.one (.str v)) c = .ok ⟨lower w, val, c.map strip⟩ ∧
      Packed (ds.map fun d => .float (F.round d)) val := by
  have h' : List.Forall₂ (fun w p => cleanToken F w = .ok p) (words v)
      (ds.map fun d => (Kind.float, Scalar.float (F.round d))) := by
    rw [List.forall₂_map_right_iff]
    refine h.imp ?_
    intro tok d hd
    unfold cleanToken; rw [testStringContent_of_float hd.2 hd.1]; simp [pyFloatR, hd.2]
  obtain ⟨val, h1, h2⟩ := cleanString_of_tokens F v _ .float h' (by simp)
  exact ⟨val, cleanEntry_of_string F tag v c ht hr h1, by simpa [Function.comp_def] using h2⟩

/-- The ten spellings of Fortran booleans the reader looks for. -/
def trueForms : List Str := [c!".True.", c!".TRUE.", c!".true.", c!".t.", c!".T."]
/-- See `trueForms`. -/
def falseForms : List Str := [c!".False.", c!".FALSE.", c!".false.", c!".f.", c!".F."]

/-- Specification of the scalar made of a token that is no number. -/
def TextScalar (tok : Str) (s : Scalar) : Prop :=
  ((∃ f ∈ trueForms, contains f tok = true) → s = .bool true) ∧
  ((¬ ∃ f ∈ trueForms, contains f tok = true) → (∃ f ∈ falseForms, contains f tok = true) → s = .bool false) ∧
  ((¬ ∃ f ∈ trueForms, contains f tok = true) → (¬ ∃ f ∈ falseForms, contains f tok = true) → s = .str tok)

theorem textScalar_test (tok : Str) : TextScalar tok (testStringForBool tok) := by
  unfold TextScalar testStringForBool trueForms falseForms
  simp only [List.mem_cons, List.not_mem_nil, or_false, exists_eq_or_imp, exists_eq_left]
  refine ⟨?_, ?_, ?_⟩
  · intro h; rw [if_pos]; simpa [or_assoc] using h
  · intro h1 h2; rw [if_neg (by simpa [or_assoc] using h1), if_pos]; simpa [or_assoc] using h2
  · intro h1 h2; rw [if_neg (by simpa [or_assoc] using h1), if_neg]; simpa [or_assoc] using h2

/-- C05, text: if no token is a number literal, each token becomes a boolean if it contains a Fortran boolean, otherwise it
stays the string it is. -/
theorem C05_text (F : FloatEnv) (tag v : Str) (c : Option Str) (w : Str) (ws : List Str)
    (ht : words tag = w :: ws) (hr : lower w ∉ rawTags) (h : ∀ tok ∈ words v, pyFloat tok = none) :
    ∃ val ss, cleanEntry F tag (.one (.str v)) c = .ok ⟨lower w, val, c.map strip⟩ ∧ Packed ss val ∧
      List.Forall₂ TextScalar (words v) ss := by
  have h' : List.Forall₂ (fun w p => cleanToken F w = .ok p) (words v)
      ((words v).map fun tok => (Kind.string, testStringForBool tok)) := by
    rw [List.forall₂_map_right_iff, List.forall₂_same]
    intro tok ht
    unfold cleanToken; rw [(testStringContent_string tok).2 (h tok ht)]
  obtain ⟨val, h1, h2⟩ := cleanString_of_tokens F v _ .string h' (by simp)
  refine ⟨val, (words v).map testStringForBool, cleanEntry_of_string F tag v c ht hr h1, by simpa [Function.comp_def] using h2, ?_⟩
  rw [List.forall₂_map_right_iff, List.forall₂_same]
  exact fun tok _ => textScalar_test tok

/-- C05, mixed kinds: two tokens of different kind (none of the tokens being `inf`/`nan`) exit 104. Missing: values with `inf` or `nan`, for which the claim is false (`C05_violation_nan`). -/
theorem C05_mixed_exit_partial (F : FloatEnv) (tag v : Str) (c : Option Str) (w : Str) (ws : List Str)
    (ht : words tag = w :: ws) (hr : lower w ∉ rawTags) (hn : ∀ tok ∈ words v, ¬ NonFinite tok)
    (a b : Str) (ha : a ∈ words v) (hb : b ∈ words v) (hab : testStringContent a ≠ testStringContent b) :
    cleanEntry F tag (.one (.str v)) c = .exit 104 := by
  have hcl : ∀ tok ∈ words v, ∃ s, cleanToken F tok = .ok (testStringContent tok, s) := by
    intro tok ht
    obtain ⟨h1, h2, h3⟩ := C45_classification_partial tok (hn tok ht)
    unfold cleanToken
    split
    · rename_i hk
      obtain ⟨i, hi⟩ := Option.isSome_iff_exists.1 (h1.1 hk)
      exact ⟨.int i, by rw [hi, hk]⟩
    · rename_i hk
      obtain ⟨f, hf⟩ := Option.isSome_iff_exists.1 (h2.1 hk).1
      unfold pyFloatR; rw [hf, hk]; exact ⟨_, rfl⟩
    · rename_i hk
      rw [hk]; exact ⟨_, rfl⟩
  have hex : ∃ r, Res.mapM' (cleanToken F) (words v) = .ok r ∧ r.map Prod.fst = (words v).map testStringContent := by
    clear ha hb hn
    generalize words v = L at hcl ⊢
    induction L with
    | nil => exact ⟨[], rfl, rfl⟩
    | cons t ts ih =>
      obtain ⟨s, hs⟩ := hcl t (by simp)
      obtain ⟨r, hr1, hr2⟩ := ih (fun x hx => hcl x (by simp [hx]))
      exact ⟨(testStringContent t, s) :: r, by simp [Res.mapM', hs, hr1], by simp [hr2]⟩
  obtain ⟨r, hr1, hr2⟩ := hex
  have hs : allSame (r.map Prod.fst) = false := by
    rw [hr2, Bool.eq_false_iff]
    intro hall
    cases hw : words v with
    | nil => rw [hw] at ha; cases ha
    | cons t ts =>
      rw [hw] at hall ha hb
      simp only [allSame, List.map_cons, List.all_eq_true, beq_iff_eq] at hall
      have e : ∀ x ∈ t :: ts, testStringContent x = testStringContent t := by
        intro x hx
        exact hall _ (by
          rw [← List.map_cons]; exact List.mem_map.2 ⟨x, hx, rfl⟩)
      exact hab ((e a ha).trans (e b hb).symm)
  have hcs : cleanString F v = .exit 104 := by
    unfold cleanString; rw [hr1]; dsimp only; rw [if_neg (by simp [hs])]
  rw [cleanEntry_str, ht]; dsimp only; rw [if_neg hr, hcs]; rfl

/-- C05, raw tags: SYSTEM, MAGMOM and M_CONSTR keep the text, stripped of white space at its ends. -/
theorem C05_raw (F : FloatEnv) (tag v : Str) (c : Option Str) (w : Str) (ws : List Str)
    (ht : words tag = w :: ws) (hr : lower w = c!"system" ∨ lower w = c!"magmom" ∨ lower w = c!"m_constr") :
    ∃ s, cleanEntry F tag (.one (.str v)) c = .ok ⟨lower w, .one (.str s), none⟩ ∧ Stripped s ∧
      ∃ a b, v = a ++ s ++ b ∧ (∀ x ∈ a, isSpace x = true) ∧ (∀ x ∈ b, isSpace x = true) := by
  refine ⟨strip v, ?_, strip_stripped v, ?_⟩
  · rw [cleanEntry_str, ht]; dsimp only; rw [if_pos]; simpa [rawTags] using hr
  · refine ⟨v.takeWhile isSpace, ((lstrip v).reverse.takeWhile isSpace).reverse, ?_, ?_, ?_⟩
    · have h1 : lstrip v = strip v ++ ((lstrip v).reverse.takeWhile isSpace).reverse := by
        have h0 := List.takeWhile_append_dropWhile (p := isSpace) (l := (lstrip v).reverse)
        have := congrArg List.reverse h0
        rw [List.reverse_append, List.reverse_reverse] at this
        exact this.symm
      have h2 : v.takeWhile isSpace ++ lstrip v = v := List.takeWhile_append_dropWhile
      rw [List.append_assoc, ← h1, h2]
    · intro x hx; exact List.mem_takeWhile_imp hx
    · intro x hx
      rw [List.mem_reverse] at hx
      exact List.mem_takeWhile_imp hx

/-- C05, values given as Python objects: numbers, booleans and lists are stored as given, anything else exits 105. -/
theorem C05_objects (F : FloatEnv) (tag : Str) (v : Value) (c : Option Str) (w : Str) (ws : List Str)
    (ht : words tag = w :: ws) (hv : ∀ s, v ≠ .one (.str s)) :
    cleanEntry F tag v c = if v = .other then .exit 105 else .ok ⟨lower w, v, c.map strip⟩ := by
  unfold cleanEntry; rw [ht]; dsimp only
  split
  · rename_i s; exact absurd rfl (hv s)
  · rfl
  · rename_i h1 h2
    rw [if_neg (by intro h; exact h2 h)]

theorem cleanToken_cases (F : FloatEnv) (tok : Str) : (∃ p, cleanToken F tok = .ok p) ∨ cleanToken F tok = .raise .valueError := by
  unfold cleanToken
  split
  · cases pyInt tok with
    | some i => exact .inl ⟨_, rfl⟩
    | none => exact .inr rfl
  · cases pyFloatR F tok with
    | some i => exact .inl ⟨_, rfl⟩
    | none => exact .inr rfl
  · exact .inl ⟨_, rfl⟩

theorem cleanToken_nonFinite (F : FloatEnv) {tok : Str} (h : NonFinite tok) : cleanToken F tok = .raise .valueError := by
  unfold cleanToken
  rw [(C45_violation tok h).1]
  dsimp only
  rw [(C45_violation tok h).2]

theorem mapM'_valueError (F : FloatEnv) (l : List Str) (h : ∃ tok ∈ l, NonFinite tok) : Res.mapM' (cleanToken F) l = .raise .valueError := by
  induction l with
  | nil => obtain ⟨_, h, _⟩ := h; cases h
  | cons a as ih =>
    simp only [Res.mapM']
    rcases cleanToken_cases F a with ⟨p, hp⟩ | hp
    · have : ∃ tok ∈ as, NonFinite tok := by
        obtain ⟨tok, h1, h2⟩ := h
        rcases List.mem_cons.1 h1 with rfl | h1
        · rw [cleanToken_nonFinite F h2] at hp; cases hp
        · exact ⟨tok, h1, h2⟩
      rw [hp, ih this]
    · rw [hp]

/-- C05 is false for `nan` and `inf`, which are float literals: every entry of a typed tag with such a token among its values raises
`ValueError`. -/
theorem C05_violation_nan (F : FloatEnv) (tag v : Str) (c : Option Str) (w : Str) (ws : List Str)
    (ht : words tag = w :: ws) (hr : lower w ∉ rawTags) (h : ∃ tok ∈ words v, NonFinite tok) :
    cleanEntry F tag (.one (.str v)) c = .raise .valueError := by
  have hcs : cleanString F v = .raise .valueError := by
    unfold cleanString; rw [mapM'_valueError F _ h]
  rw [cleanEntry_str, ht]; dsimp only; rw [if_neg hr, hcs]; rfl

/-- Such an entry: `EDIFF = 1.0 inf`. -/
example : ∃ tok ∈ words c!"1.0 inf", NonFinite tok := ⟨c!"inf", by decide +kernel, .inl ⟨false, by decide +kernel⟩⟩

example : List.Forall₂ (fun tok i => pyInt tok = some i) (words c!" 1 -2\t+3 ") [1, -2, 3] := by
  have : words c!" 1 -2\t+3 " = [c!"1", c!"-2", c!"+3"] := by decide +kernel
  rw [this]; exact .cons (by decide +kernel) (.cons (by decide +kernel) (.cons (by decide +kernel) .nil))
example : List.Forall₂ (fun tok d => pyInt tok = none ∧ pyFloat tok = some (.fin d)) (words c!"1.5 1e-3")
    [⟨false, 15, -1⟩, ⟨false, 1, -3⟩] := by
  have : words c!"1.5 1e-3" = [c!"1.5", c!"1e-3"] := by decide +kernel
  rw [this]; exact .cons (by decide +kernel) (.cons (by decide +kernel) .nil)
example : (∀ tok ∈ words c!"10*1.0 .TRUE. Fast", pyFloat tok = none) ∧
    cleanEntry exactEnv c!"Algo" (.one (.str c!"10*1.0 .TRUE. Fast")) none =
      .ok ⟨c!"algo", .list [.str c!"10*1.0", .bool true, .str c!"Fast"], none⟩ := by decide +kernel
example : (∀ tok ∈ words c!"1 2.0", ¬ NonFinite tok) ∧ testStringContent c!"1" ≠ testStringContent c!"2.0" := by
  have hw : words c!"1 2.0" = [c!"1", c!"2.0"] := by decide +kernel
  have h1 : pyFloat c!"1" = some (.fin ⟨false, 1, 0⟩) := by decide +kernel
  have h2 : pyFloat c!"2.0" = some (.fin ⟨false, 20, -1⟩) := by decide +kernel
  refine ⟨?_, by decide +kernel⟩
  rw [hw]; intro tok ht
  simp only [List.mem_cons, List.not_mem_nil, or_false] at ht
  rcases ht with rfl | rfl <;> rintro (⟨b, h⟩ | h) <;> simp only [h1, h2] at h <;> cases h
example : cleanEntry exactEnv c!" MAGMOM " (.one (.str c!"  4*1.0 2*0\n")) (some c!"x") =
    .ok ⟨c!"magmom", .one (.str c!"4*1.0 2*0"), none⟩ := by decide +kernel

end Verif.Incar
