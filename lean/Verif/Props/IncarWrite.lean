import Verif.Lemmas.IncarWrite
import Verif.Props.IncarParse
import Verif.Props.IncarValue
/-! # Writing INCAR and reading it back (C01, C02) -/
set_option autoImplicit false
namespace Verif.Incar
open Verif Verif.Utils Verif.IncarSpec

/-! ### C01 -/

/-- Specification: how a scalar is shown. A single truth value is shown the VASP way, inside a list the Python way. -/
inductive ShowsElem : Scalar → Str → Prop
  | int (i : Int) : ShowsElem (.int i) (intStr i)
  | float (f : PyFloat) : ShowsElem (.float f) (floatStr f)
  | str (s : Str) : ShowsElem (.str s) s
  | yes : ShowsElem (.bool true) c!"True"
  | no : ShowsElem (.bool false) c!"False"

/-- Specification: the text of a value. -/
inductive Shows : Value → Str → Prop
  | yes : Shows (.one (.bool true)) c!".TRUE."
  | no : Shows (.one (.bool false)) c!".FALSE."
  | one {x : Scalar} {s : Str} : (∀ b, x ≠ .bool b) → ShowsElem x s → Shows (.one x) s
  | list {l : List Scalar} {ss : List Str} : List.Forall₂ ShowsElem l ss → Shows (.list l) (join [' '] ss)

theorem shows_scalarStr (x : Scalar) : ShowsElem x (scalarStr x) := by
  cases x with
  | bool b => cases b <;> constructor
  | _ => constructor

theorem shows_valueStr {v : Value} (h : v ≠ .other) : Shows v (valueStr v) := by
  cases v with
  | other => exact absurd rfl h
  | list l =>
    refine .list ?_
    induction l with
    | nil => exact .nil
    | cons x xs ih => exact .cons (shows_scalarStr x) (ih (by simp))
  | one x =>
    cases x with
    | bool b => cases b <;> constructor
    | int i => exact .one (by simp) (.int i)
    | float f => exact .one (by simp) (.float f)
    | str s => exact .one (by simp) (.str s)

/-- Alphabetical order of strings: lexicographic by code point. -/
def Alphabetical : Str → Str → Prop := List.Lex (fun a b : Char => a.toNat < b.toNat)

theorem sortedEntries_alphabetical (d : Entries) (h : d.keys.Nodup) :
    (sortedEntries d).Pairwise (fun a b => Alphabetical a.1 b.1) := by
  have h1 := sortStrs_sorted d.keys
  have h2 : (sortStrs d.keys).Nodup := (sortStrs_perm d.keys).nodup_iff.2 h
  have h3 : (sortStrs d.keys).Pairwise Alphabetical := by
    have := h1.and h2
    refine this.imp ?_
    rintro a b ⟨hab, hne⟩
    rcases strLe_lex hab with e | e
    · exact absurd e hne
    · exact e
  rw [← sortedEntries_keys] at h3
  exact List.pairwise_map.1 h3

/-- C01. The text is one piece `TAG = value` + newline per stored entry, tags upper case, in strictly increasing alphabetical
order of the stored tag, and nothing else. -/
theorem C01_canonical_text (d : Entries) (h : d.keys.Nodup) (hv : ∀ e ∈ d, e.2.value ≠ .other) :
    ∃ es : List (Str × Item), es.Perm d ∧ es.Pairwise (fun a b => Alphabetical a.1 b.1) ∧
      ∃ texts : List Str, List.Forall₂ (fun e t => Shows e.2.value t) es texts ∧
        getString d = ((es.zip texts).map fun p => upper p.1.1 ++ c!" = " ++ p.2 ++ c!"\n").flatten := by
  refine ⟨sortedEntries d, sortedEntries_perm d h, sortedEntries_alphabetical d h,
    (sortedEntries d).map (fun e => valueStr e.2.value), ?_, ?_⟩
  · have hm : ∀ e ∈ sortedEntries d, e.2.value ≠ .other := fun e he => hv e ((sortedEntries_perm d h).mem_iff.1 he)
    generalize sortedEntries d = es at hm
    induction es with
    | nil => exact .nil
    | cons e es ih =>
      exact .cons (shows_valueStr (hm e (by simp))) (ih (fun x hx => hm x (by simp [hx])))
  · unfold getString
    rw [writeText_eq]
    generalize sortedEntries d = es
    induction es with
    | nil => rfl
    | cons e es ih =>
      simp only [List.flatMap_cons, List.map_cons, List.zip_cons_cons, List.flatten_cons, ih]
      congr 1
      simp only [writeLine]
      cases e.2.comment <;> simp

/-- C01. If no stored text contains a newline, these pieces are exactly the lines of the text: as many lines as entries. -/
theorem C01_one_line_per_tag (d : Entries) (h : d.keys.Nodup)
    (hv : ∀ e ∈ d, e.2.value ≠ .other ∧ '\n' ∉ upper e.1 ∧ '\n' ∉ valueStr e.2.value) :
    (readlines (getString d)).length = d.length := by
  unfold getString
  rw [writeText_eq, ← (sortedEntries_perm d h).length_eq]
  have hm : ∀ e ∈ sortedEntries d, '\n' ∉ upper e.1 ∧ '\n' ∉ valueStr e.2.value :=
    fun e he => (hv e ((sortedEntries_perm d h).mem_iff.1 he)).2
  generalize sortedEntries d = es at hm
  induction es with
  | nil => rfl
  | cons e es ih =>
    have he := hm e (by simp)
    have hw : writeLine false e.1 e.2 = (upper e.1 ++ c!" = " ++ valueStr e.2.value) ++ ['\n'] := by
      simp only [writeLine]; cases e.2.comment <;> simp
    rw [List.flatMap_cons, hw, List.append_assoc, List.singleton_append, readlines_line_append, List.length_cons,
      ih (fun x hx => hm x (by simp [hx])), List.length_cons]
    simp only [List.mem_append, not_or]
    exact ⟨⟨he.1, by decide⟩, he.2⟩

example : getString [(c!"nsw", ⟨c!"nsw", .list [.int 1, .int (-2)], none⟩), (c!"lreal", ⟨c!"lreal", .one (.bool false), some c!"x"⟩)] =
    c!"LREAL = .FALSE.\nNSW = 1 -2\n" := by decide +kernel

/-! ### C02 -/

/-- A tag that can be written: one lower-case word without `=`, `;`, `#`. -/
def GoodTag (t : Str) : Prop := Token t ∧ lower t = t ∧ '=' ∉ t ∧ ';' ∉ t ∧ '#' ∉ t

/-- A piece of text that means itself: one word, no number, no truth value inside, no `=`, `;`, `#`. -/
def PlainWord (s : Str) : Prop :=
  Token s ∧ pyFloat s = none ∧ (∀ f, f ∈ trueForms ∨ f ∈ falseForms → contains f s = false) ∧ '=' ∉ s ∧ ';' ∉ s ∧ '#' ∉ s

/-- A float that can be read: finite, result of reading some literal. -/
def Readable (F : FloatEnv) (f : PyFloat) : Prop := ∃ d d', f = .fin d' ∧ F.round d = .fin d'

/-- Values of ordinary tags that survive: a single integer, readable float, truth value or plain word; or a list, not of length
one, all integers, all readable floats or all plain words. -/
inductive StorableValue (F : FloatEnv) : Value → Prop
  | int (i : Int) : StorableValue F (.one (.int i))
  | float {f : PyFloat} : Readable F f → StorableValue F (.one (.float f))
  | bool (b : Bool) : StorableValue F (.one (.bool b))
  | str {s : Str} : PlainWord s → StorableValue F (.one (.str s))
  | ints {is : List Int} : is.length ≠ 1 → StorableValue F (.list (is.map .int))
  | floats {fs : List PyFloat} : fs.length ≠ 1 → (∀ f ∈ fs, Readable F f) → StorableValue F (.list (fs.map .float))
  | strs {ss : List Str} : ss.length ≠ 1 → (∀ s ∈ ss, PlainWord s) → StorableValue F (.list (ss.map .str))

/-- Values of the tags kept verbatim: a stripped text without newline and without `=`, `;`, `#`. -/
def RawValue (v : Value) : Prop :=
  ∃ s, v = .one (.str s) ∧ Stripped s ∧ '\n' ∉ s ∧ '=' ∉ s ∧ ';' ∉ s ∧ '#' ∉ s

/-- An entry that survives writing and reading. -/
def StorableItem (F : FloatEnv) (i : Item) : Prop :=
  GoodTag i.tag ∧
  (if i.tag ∈ rawTags then RawValue i.value ∧ i.comment = none
   else StorableValue F i.value ∧ ∀ c, i.comment = some c → Stripped c ∧ '\n' ∉ c)

/-- Text that cannot be mistaken for anything but a value: free of the characters with a meaning on INCAR lines. -/
def Inert (s : Str) : Prop := '\n' ∉ s ∧ '=' ∉ s ∧ ';' ∉ s ∧ '#' ∉ s

theorem NumChars.inert {s : Str} (h : NumChars s) : Inert s := by
  refine ⟨fun hm => ?_, fun hm => ?_, fun hm => ?_, fun hm => ?_⟩ <;> exact absurd (h _ hm) (by decide)

theorem PlainWord.inert {s : Str} (h : PlainWord s) : Inert s :=
  ⟨fun hm => absurd (h.1.2 _ hm) (by decide), h.2.2.2⟩

theorem PlainWord.test {s : Str} (h : PlainWord s) : testStringForBool s = .str s := by
  refine (textScalar_test s).2.2 ?_ ?_
  · rintro ⟨f, hf, hc⟩; rw [h.2.2.1 f (.inl hf)] at hc; cases hc
  · rintro ⟨f, hf, hc⟩; rw [h.2.2.1 f (.inr hf)] at hc; cases hc

/-- What is needed of the text of one list element. -/
def ElemOK (F : FloatEnv) (k : Kind) (x : Scalar) : Prop :=
  Token (scalarStr x) ∧ Inert (scalarStr x) ∧ cleanToken F (scalarStr x) = .ok (k, x)

theorem elemOK_int (F : FloatEnv) (i : Int) : ElemOK F .int (.int i) := by
  refine ⟨intStr_token i, NumChars.inert (intStr_numChars i), ?_⟩
  unfold cleanToken scalarStr
  rw [testStringContent_of_int (pyInt_intStr i)]
  simp only [pyInt_intStr]

theorem elemOK_float (F : FloatEnv) {f : PyFloat} (h : Readable F f) : ElemOK F .float (.float f) := by
  obtain ⟨d, d', rfl, hr⟩ := h
  obtain ⟨h1, h2, h3, _⟩ := floatStr_spec d' (F.normal _ _ hr)
  refine ⟨h1, NumChars.inert h2, ?_⟩
  unfold cleanToken scalarStr
  rw [h3]
  simp only [pyFloatR_floatStr F hr]

theorem elemOK_str (F : FloatEnv) {s : Str} (h : PlainWord s) : ElemOK F .string (.str s) := by
  refine ⟨h.1, h.inert, ?_⟩
  unfold cleanToken scalarStr
  rw [(testStringContent_string s).2 h.2.1]
  simp only [h.test]

theorem inert_join {ws : List Str} (h : ∀ w ∈ ws, Inert w) : Inert (join [' '] ws) := by
  have key : ∀ c, c ≠ ' ' → (∀ w ∈ ws, c ∉ w) → c ∉ join [' '] ws := by
    intro c hc
    induction ws with
    | nil => intro _; simp [join]
    | cons w ws ih =>
      intro hw
      cases ws with
      | nil => simpa [join] using hw
      | cons v vs =>
        rw [join_cons_ne (by simp)]
        simp only [List.mem_append, List.mem_singleton, not_or]
        exact ⟨⟨hw w (by simp), hc⟩, ih (fun x hx => h x (by simp [hx])) (fun x hx => hw x (by simp [hx]))⟩
  exact ⟨key _ (by decide) fun w hw => (h w hw).1, key _ (by decide) fun w hw => (h w hw).2.1,
    key _ (by decide) fun w hw => (h w hw).2.2.1, key _ (by decide) fun w hw => (h w hw).2.2.2⟩

theorem cleanString_list (F : FloatEnv) (k : Kind) (xs : List Scalar) (hl : xs.length ≠ 1) (h : ∀ x ∈ xs, ElemOK F k x) :
    Inert (valueStr (.list xs)) ∧ cleanString F (valueStr (.list xs)) = .ok (.list xs) := by
  unfold valueStr
  have hw : words (join [' '] (xs.map scalarStr)) = xs.map scalarStr := by
    apply words_join_space
    intro w hw
    obtain ⟨x, hx, rfl⟩ := List.mem_map.1 hw
    exact (h x hx).1
  refine ⟨inert_join ?_, ?_⟩
  · intro w hw
    obtain ⟨x, hx, rfl⟩ := List.mem_map.1 hw
    exact (h x hx).2.1
  · have hf : List.Forall₂ (fun w p => cleanToken F w = .ok p) (xs.map scalarStr) (xs.map fun x => (k, x)) := by
      clear hw hl
      induction xs with
      | nil => exact .nil
      | cons x xs ih => exact .cons (h x (by simp)).2.2 (ih (fun y hy => h y (by simp [hy])))
    rw [← hw] at hf
    obtain ⟨val, h1, h2⟩ := cleanString_of_tokens F _ _ k hf (by simp)
    rw [h1]
    have : (xs.map fun x => (k, x)).map Prod.snd = xs := by simp [Function.comp_def]
    rw [this] at h2
    rcases h2 with ⟨x, rfl, _⟩ | ⟨_, rfl⟩
    · exact absurd rfl hl
    · rfl

theorem cleanString_one (F : FloatEnv) (k : Kind) (x : Scalar) (w : Str) (hw : Token w) (h : cleanToken F w = .ok (k, x)) :
    cleanString F w = .ok (.one x) := by
  have hf : List.Forall₂ (fun w p => cleanToken F w = .ok p) (words w) [(k, x)] := by
    rw [words_token hw]; exact .cons h .nil
  obtain ⟨val, h1, h2⟩ := cleanString_of_tokens F _ _ k hf (by simp)
  rw [h1]
  rcases h2 with ⟨y, hy, rfl⟩ | ⟨hl, _⟩
  · simp at hy; subst hy; rfl
  · simp at hl

theorem storable_string (F : FloatEnv) {v : Value} (h : StorableValue F v) :
    Inert (valueStr v) ∧ cleanString F (valueStr v) = .ok v := by
  cases h with
  | int i => exact ⟨(elemOK_int F i).2.1, cleanString_one F .int _ _ (elemOK_int F i).1 (elemOK_int F i).2.2⟩
  | float h => exact ⟨(elemOK_float F h).2.1, cleanString_one F .float _ _ (elemOK_float F h).1 (elemOK_float F h).2.2⟩
  | str h => exact ⟨(elemOK_str F h).2.1, cleanString_one F .string _ _ (elemOK_str F h).1 (elemOK_str F h).2.2⟩
  | bool b =>
    cases b
    · exact ⟨by unfold Inert; decide, cleanString_one F .string _ c!".FALSE." (by unfold Token Free; decide)
        (by unfold cleanToken; rw [(testStringContent_string _).2 (by decide)]; rfl)⟩
    · exact ⟨by unfold Inert; decide, cleanString_one F .string _ c!".TRUE." (by unfold Token Free; decide)
        (by unfold cleanToken; rw [(testStringContent_string _).2 (by decide)]; rfl)⟩
  | ints hl =>
    exact cleanString_list F .int _ (by simpa using hl) (by
      intro x hx; obtain ⟨i, _, rfl⟩ := List.mem_map.1 hx; exact elemOK_int F i)
  | floats hl h =>
    exact cleanString_list F .float _ (by simpa using hl) (by
      intro x hx; obtain ⟨i, hi, rfl⟩ := List.mem_map.1 hx; exact elemOK_float F (h i hi))
  | strs hl h =>
    exact cleanString_list F .string _ (by simpa using hl) (by
      intro x hx; obtain ⟨i, hi, rfl⟩ := List.mem_map.1 hx; exact elemOK_str F (h i hi))

theorem cleanString_congr (F : FloatEnv) {a b : Str} (h : words a = words b) : cleanString F a = cleanString F b := by
  unfold cleanString; rw [h]

/-- What is read back from the line of an entry. -/
def kept (b : Bool) (i : Item) : Item := { i with comment := if b then i.comment else none }

theorem line_item (F : FloatEnv) (b : Bool) (i : Item) (h : StorableItem F i) :
    (∃ body, '\n' ∉ body ∧ writeLine b i.tag i = body ++ ['\n']) ∧
    Res.mapM' (itemOf F) (assigns [writeLine b i.tag i]) = .ok [kept b i] := by
  obtain ⟨⟨ht, hlow, heq, hsc, hha⟩, hv⟩ := h
  obtain ⟨tag, value, comment⟩ := i
  dsimp only at *
  have hsp : isSpace ' ' = true := by decide
  have hin : Inert (valueStr value) := by
    split at hv
    · obtain ⟨⟨s, rfl, _, h⟩, _⟩ := hv; exact h
    · exact (storable_string F hv.1).1
  have hu : ∀ c : Char, ¬ (65 ≤ c.toNat ∧ c.toNat ≤ 90) → c ∉ tag → c ∉ upper tag := fun c h1 h2 => mem_upper_of_nonletter h1 h2
  have hnl : '\n' ∉ upper tag := hu _ (by decide) (fun hm => absurd (ht.2 _ hm) (by decide))
  have heq' := hu '=' (by decide) heq
  have hsc' := hu ';' (by decide) hsc
  have hha' := hu '#' (by decide) hha
  -- shape of the line
  have hitem : ∀ (suf : Str) (c : Option Str), (∀ x ∈ suf, isSpace x = true) → (tag ∈ rawTags ∨ c.map strip = (kept b ⟨tag, value, comment⟩).comment) →
      itemOf F (upper tag ++ c!" = " ++ valueStr value ++ suf, c) = .ok (kept b ⟨tag, value, comment⟩) := by
    intro suf c hsuf hc
    have hs : splitOn '=' (upper tag ++ c!" = " ++ valueStr value ++ suf) = [upper tag ++ [' '], ' ' :: (valueStr value ++ suf)] := by
      have e : upper tag ++ c!" = " ++ valueStr value ++ suf = (upper tag ++ [' ']) ++ '=' :: (' ' :: (valueStr value ++ suf)) := by simp
      rw [e, splitOn_sep, splitOn_free, splitOn_free]
      · rfl
      · simp only [List.mem_cons, List.mem_append, not_or]
        exact ⟨by decide, hin.2.1, fun hm => absurd (hsuf _ hm) (by decide)⟩
      · simp only [List.mem_append, List.mem_singleton, not_or]; exact ⟨heq', by decide⟩
    unfold itemOf
    simp only [hs]
    rw [cleanEntry_str, words_append_space _ _ hsp, words_token ht.upper]
    simp only [lower_upper, hlow]
    split at hv
    · rename_i hraw
      obtain ⟨⟨s, rfl, hst, _⟩, hcn⟩ := hv
      rw [if_pos hraw]
      have : strip (' ' :: (valueStr (.one (.str s)) ++ suf)) = s := by
        have e : ' ' :: (valueStr (.one (.str s)) ++ suf) = [' '] ++ s ++ suf := rfl
        rw [e]; exact strip_pad _ _ hst (by simpa using hsp) hsuf
      rw [this]
      simp only [kept]; cases b <;> simp [hcn]
    · rename_i hraw
      rw [if_neg hraw]
      have hw : words (' ' :: (valueStr value ++ suf)) = words (valueStr value) := by
        rw [words_space_cons _ _ hsp, words_append_spaces _ _ hsuf]
      rw [cleanString_congr F hw, (storable_string F hv.1).2]
      rcases hc with hc | hc
      · exact absurd hc hraw
      · show Res.ok _ = _
        rw [hc]; rfl
  have hsc2 : ∀ suf : Str, (∀ x ∈ suf, isSpace x = true) → ';' ∉ upper tag ++ c!" = " ++ valueStr value ++ suf := by
    intro suf hsuf
    simp only [List.mem_append, not_or]
    exact ⟨⟨⟨hsc', by decide⟩, hin.2.2.1⟩, fun hm => absurd (hsuf _ hm) (by decide)⟩
  have hha2 : ∀ suf : Str, (∀ x ∈ suf, isSpace x = true) → '#' ∉ upper tag ++ c!" = " ++ valueStr value ++ suf := by
    intro suf hsuf
    simp only [List.mem_append, not_or]
    exact ⟨⟨⟨hha', by decide⟩, hin.2.2.2⟩, fun hm => absurd (hsuf _ hm) (by decide)⟩
  have hblank : ∀ suf : Str, ¬ ∀ c ∈ upper tag ++ c!" = " ++ valueStr value ++ suf, isSpace c = true := by
    intro suf hb
    have : '=' ∈ upper tag ++ c!" = " ++ valueStr value ++ suf := by simp
    exact absurd (hb _ this) (by decide)
  have hnotnl : ∀ suf : Str, upper tag ++ c!" = " ++ valueStr value ++ suf ≠ ['\n'] := by
    intro suf hb
    have : '=' ∈ upper tag ++ c!" = " ++ valueStr value ++ suf := by simp
    rw [hb] at this; revert this; decide
  have hassign : ∀ (line suf : Str), (∀ x ∈ suf, isSpace x = true) → code line = upper tag ++ c!" = " ++ valueStr value ++ suf →
      assigns [line] = [(upper tag ++ c!" = " ++ valueStr value ++ suf, remark line)] := by
    intro line suf hsuf hcode
    have hb : ¬ Blank line := by unfold Blank; rw [hcode]; exact hblank suf
    simp only [assigns, List.flatMap_cons, List.flatMap_nil, List.append_nil, assignTexts, hb, if_false, hcode,
      splitOn_free (hsc2 suf hsuf)]
    have := hnotnl suf
    simp only [List.append_assoc] at this ⊢
    simp only [List.filter_cons, this, decide_false, Bool.not_false, if_true, List.filter_nil, List.map_cons, List.map_nil]
  by_cases hb : b = true ∧ comment.isSome
  · obtain ⟨hb, hcs⟩ := hb
    obtain ⟨c, rfl⟩ := Option.isSome_iff_exists.1 hcs
    subst hb
    have hcc : Stripped c ∧ '\n' ∉ c := by
      split at hv
      · simp at hv
      · exact hv.2 c rfl
    have hline : writeLine true tag ⟨tag, value, some c⟩ =
        (upper tag ++ c!" = " ++ valueStr value ++ [' ']) ++ '#' :: (' ' :: c ++ ['\n']) := by
      simp [writeLine]
    have hs1 : ∀ x ∈ [' '], isSpace x = true := by simpa using hsp
    constructor
    · refine ⟨(upper tag ++ c!" = " ++ valueStr value ++ [' ']) ++ '#' :: (' ' :: c), ?_, by rw [hline]; simp⟩
      simp only [List.mem_append, List.mem_cons, not_or]
      exact ⟨⟨⟨⟨hnl, by decide⟩, hin.1⟩, by decide⟩, by decide, by decide, hcc.2⟩
    · rw [hline, hassign _ [' '] hs1 (code_hash _ (hha2 _ hs1)), remark_hash _ (hha2 _ hs1)]
      have : itemOf F (upper tag ++ c!" = " ++ valueStr value ++ [' '], some (' ' :: c ++ ['\n'])) = .ok (kept true ⟨tag, value, some c⟩) := by
        refine hitem [' '] _ hs1 (.inr ?_)
        have e : ' ' :: c ++ ['\n'] = [' '] ++ c ++ ['\n'] := rfl
        simp only [Option.map_some, kept, if_true, e]
        rw [strip_pad _ _ hcc.1 (by simpa using hsp) (by simp; decide)]
      simp only [Res.mapM', this]
  · have hline : writeLine b tag ⟨tag, value, comment⟩ = upper tag ++ c!" = " ++ valueStr value ++ ['\n'] := by
      cases comment with
      | none => simp [writeLine]
      | some c =>
        have : b = false := by simpa using hb
        subst this; simp [writeLine]
    have hs1 : ∀ x ∈ ['\n'], isSpace x = true := by simp; decide
    constructor
    · refine ⟨upper tag ++ c!" = " ++ valueStr value, ?_, by rw [hline]⟩
      simp only [List.mem_append, not_or]
      exact ⟨⟨hnl, by decide⟩, hin.1⟩
    · rw [hline, hassign _ ['\n'] hs1 (code_eq_self (hha2 _ hs1)), remark_none (hha2 _ hs1)]
      have : itemOf F (upper tag ++ c!" = " ++ valueStr value ++ ['\n'], none) = .ok (kept b ⟨tag, value, comment⟩) := by
        refine hitem ['\n'] _ hs1 (.inr ?_)
        simp only [Option.map_none, kept]
        cases b
        · rfl
        · cases comment
          · rfl
          · simp at hb
      simp only [Res.mapM', this]

theorem read_written (F : FloatEnv) (b : Bool) (es : List (Str × Item)) (h : ∀ e ∈ es, e.1 = e.2.tag ∧ StorableItem F e.2) :
    Res.mapM' (itemOf F) (assigns (readlines (es.flatMap fun e => writeLine b e.1 e.2))) = .ok (es.map fun e => kept b e.2) := by
  induction es with
  | nil => rfl
  | cons e es ih =>
    obtain ⟨he, hs⟩ := h e (by simp)
    obtain ⟨⟨body, hb, hl⟩, hm⟩ := line_item F b e.2 hs
    rw [List.flatMap_cons, he, hl, List.append_assoc, List.singleton_append, readlines_line_append _ hb]
    rw [hl] at hm
    have e2 : ∀ (x : Str) (xs : List Str), assigns (x :: xs) = assigns [x] ++ assigns xs := by
      intro x xs; rw [← assigns_append]; rfl
    rw [e2, mapM'_append, hm, ih (fun x hx => h x (by simp [hx]))]
    rfl

theorem lastFor_unique (es : List (Str × Item)) (b : Bool) (hk : (es.map Prod.fst).Nodup) (h : ∀ e ∈ es, e.1 = e.2.tag) (t : Str) :
    lastFor Item.tag t (es.map fun e => kept b e.2) = (Dict.get? es t).map (kept b) := by
  induction es with
  | nil => rfl
  | cons e es ih =>
    simp only [List.map_cons, List.nodup_cons] at hk
    have he := h e (by simp)
    have ih' := ih hk.2 (fun x hx => h x (by simp [hx]))
    unfold lastFor at *
    have hkt : (kept b e.2).tag = e.1 := he.symm
    by_cases ht : e.1 = t
    · have hnone : ((es.map fun e => kept b e.2).filter fun a => decide (a.tag = t)) = [] := by
        rw [List.filter_eq_nil_iff]
        intro a ha
        obtain ⟨x, hx, rfl⟩ := List.mem_map.1 ha
        simp only [decide_eq_true_eq]
        intro hxt
        apply hk.1
        rw [ht, ← hxt]
        exact List.mem_map.2 ⟨x, hx, (h x (by simp [hx]))⟩
      rw [List.map_cons, List.filter_cons, hnone]
      simp [hkt, ht, Dict.get?]
    · rw [List.map_cons, List.filter_cons]
      simp only [hkt, ht, decide_false, Bool.false_eq_true, if_false]
      rw [ih']
      simp [Dict.get?, ht]

/-- C02 for the file text: every INCAR all of whose entries are storable is written and read back with the same tags and
values; with comments written, also the same comments. -/
theorem C02_round_trip (F : FloatEnv) (b : Bool) (d : Entries) (hk : d.keys.Nodup)
    (hd : ∀ e ∈ d, e.1 = e.2.tag ∧ StorableItem F e.2) :
    ∃ d', fromList F (readlines (writeText b d)) = .ok d' ∧ (∀ t, get d' t = get d t) ∧
      (b = true → ∀ t, (d'.get? t).map Item.comment = (d.get? t).map Item.comment) := by
  have hp := sortedEntries_perm d hk
  have hs : ∀ e ∈ sortedEntries d, e.1 = e.2.tag ∧ StorableItem F e.2 := fun e he => hd e (hp.mem_iff.1 he)
  have hsk : ((sortedEntries d).map Prod.fst).Nodup := (hp.map Prod.fst).nodup_iff.2 hk
  have hget : ∀ t, Dict.get? (sortedEntries d) t = d.get? t := by
    intro t
    cases hg : d.get? t with
    | some i => exact Dict.get?_eq_some_of_mem _ hsk (hp.mem_iff.2 (Dict.mem_of_get? _ hg))
    | none =>
      cases hg2 : Dict.get? (sortedEntries d) t with
      | none => rfl
      | some i =>
        have := Dict.get?_eq_some_of_mem d hk (hp.mem_iff.1 (Dict.mem_of_get? _ hg2))
        rw [hg] at this; cases this
  rw [writeText_eq, fromList_eq, read_written F b _ hs]
  refine ⟨_, rfl, ?_, ?_⟩
  · intro t
    simp only [get, get?_foldl_set, Dict.get?_nil]
    rw [← hget]
    have := lastFor_unique (sortedEntries d) b hsk (fun e he => (hs e he).1) t
    rw [this]
    cases Dict.get? (sortedEntries d) t <;> simp [kept]
  · rintro rfl t
    simp only [get?_foldl_set, Dict.get?_nil]
    rw [← hget]
    have := lastFor_unique (sortedEntries d) true hsk (fun e he => (hs e he).1) t
    rw [this]
    cases Dict.get? (sortedEntries d) t <;> simp [kept]

/-! ### every parsed INCAR file qualifies -/

theorem infix_join {c : Char} {ws : List Str} {w : Str} (h : w ∈ ws) : w <:+: join [c] ws := by
  induction ws with
  | nil => cases h
  | cons x xs ih =>
    cases xs with
    | nil => rcases List.mem_singleton.1 h with rfl; exact List.infix_refl _
    | cons y ys =>
      rw [join_cons_ne (by simp)]
      rcases List.mem_cons.1 h with rfl | h
      · exact ⟨[], [c] ++ join [c] (y :: ys), by simp⟩
      · exact (ih h).trans ⟨x ++ [c], [], by simp⟩

theorem splitOn_infix {c : Char} {s w : Str} (h : w ∈ splitOn c s) : w <:+: s := by
  have := infix_join (c := c) h
  rwa [join_splitOn] at this

theorem dropLast_infix {w s : Str} {c : Char} (h : w <:+: s) (hs : c ∉ s.dropLast) : c ∉ w.dropLast := by
  obtain ⟨a, b, rfl⟩ := h
  intro hm
  apply hs
  by_cases hb : b = []
  · subst hb
    rw [List.append_nil]
    by_cases hw : w = []
    · subst hw; simp at hm
    · rw [List.dropLast_append_of_ne_nil hw]; exact List.mem_append_right _ hm
  · rw [List.dropLast_append_of_ne_nil hb]
    exact List.mem_append_left _ (List.mem_append_right _ (List.mem_of_mem_dropLast hm))

theorem readlines_dropLast (t : Str) : ∀ l ∈ readlines t, '\n' ∉ l.dropLast := by
  induction hn : t.length using Nat.strong_induction_on generalizing t with
  | _ n ih =>
    intro l hl
    by_cases h : '\n' ∈ t
    · obtain ⟨a, b, rfl, ha⟩ := List.eq_append_cons_of_mem h
      rw [readlines_line_append b ha] at hl
      rcases List.mem_cons.1 hl with rfl | hl
      · simpa using ha
      · exact ih b.length (by subst hn; simp; omega) b rfl l hl
    · cases t with
      | nil => simp [readlines] at hl
      | cons x xs =>
        rw [readlines_noeol h (by simp)] at hl
        rcases List.mem_singleton.1 hl with rfl
        exact fun hm => h (List.mem_of_mem_dropLast hm)


/-- Specification: values the text format cannot lose: no infinity or nan, and no truth value inside a list. -/
def Lossless : Value → Prop
  | .one (.float f) => ∃ d, f = .fin d
  | .list l => ∀ x ∈ l, (∀ b, x ≠ .bool b) ∧ ∀ f, x = .float f → ∃ d, f = .fin d
  | _ => True

theorem cleanToken_kind (F : FloatEnv) {w : Str} {k : Kind} {x : Scalar} (h : cleanToken F w = .ok (k, x)) :
    (k = .int ∧ ∃ i, x = .int i) ∨ (k = .float ∧ ∃ f, x = .float f ∧ pyFloatR F w = some f) ∨
    (k = .string ∧ pyFloat w = none ∧ x = testStringForBool w) := by
  unfold cleanToken at h
  split at h
  · split at h
    · cases h; exact .inl ⟨rfl, _, rfl⟩
    · cases h
  · split at h
    · rename_i f hf; cases h; exact .inr (.inl ⟨rfl, _, rfl, hf⟩)
    · cases h
  · rename_i hk; cases h; exact .inr (.inr ⟨rfl, (testStringContent_string w).1 hk, rfl⟩)

theorem readable_of_read (F : FloatEnv) {w : Str} {f : PyFloat} {d : Dec} (h : pyFloatR F w = some f) (hf : f = .fin d) :
    Readable F f := by
  subst hf
  unfold pyFloatR at h
  cases hp : pyFloat w with
  | none => rw [hp] at h; cases h
  | some g =>
    rw [hp] at h
    cases g with
    | fin e => simp only [Option.map_some, Option.some.injEq] at h; exact ⟨e, d, rfl, h⟩
    | inf b => simp at h
    | nan => simp at h

theorem testStringForBool_cases (s : Str) : (∃ b, testStringForBool s = .bool b) ∨ 
    (testStringForBool s = .str s ∧ ∀ f, f ∈ trueForms ∨ f ∈ falseForms → contains f s = false) := by
  obtain ⟨h1, h2, h3⟩ := textScalar_test s
  by_cases ht : ∃ f ∈ trueForms, contains f s = true
  · exact .inl ⟨_, h1 ht⟩
  · by_cases hf : ∃ f ∈ falseForms, contains f s = true
    · exact .inl ⟨_, h2 ht hf⟩
    · refine .inr ⟨h3 ht hf, ?_⟩
      intro f hm
      cases hc : contains f s with
      | false => rfl
      | true =>
        rcases hm with hm | hm
        · exact absurd ⟨f, hm, hc⟩ ht
        · exact absurd ⟨f, hm, hc⟩ hf

theorem words_sub {s w : Str} (h : w ∈ words s) {c : Char} (hc : c ∈ w) : c ∈ s := by
  unfold words at h
  have hw := List.mem_of_mem_filter h
  clear h
  induction s generalizing w with
  | nil => simp [splitP] at hw; subst hw; cases hc
  | cons x xs ih =>
    simp only [splitP] at hw
    split at hw
    · rcases List.mem_cons.1 hw with rfl | hw
      · cases hc
      · exact List.mem_cons_of_mem _ (ih hc hw)
    · unfold consHead at hw
      split at hw
      · rcases List.mem_singleton.1 hw with rfl
        exact List.mem_cons.2 (.inl (by simpa using hc))
      · rename_i y ys heq
        rcases List.mem_cons.1 hw with rfl | hw
        · rcases List.mem_cons.1 hc with rfl | hc
          · simp
          · exact List.mem_cons_of_mem _ (ih hc (by rw [heq]; simp))
        · exact List.mem_cons_of_mem _ (ih hc (by rw [heq]; simp [hw]))

theorem forall₂_mem_right {α β} {R : α → β → Prop} {l : List α} {m : List β} (h : List.Forall₂ R l m) {b : β} (hb : b ∈ m) :
    ∃ a ∈ l, R a b := by
  induction h with
  | nil => cases hb
  | cons h1 _ ih =>
    rcases List.mem_cons.1 hb with rfl | hb
    · exact ⟨_, by simp, h1⟩
    · obtain ⟨a, ha, h⟩ := ih hb; exact ⟨a, by simp [ha], h⟩

theorem mem_lower_of_nonletter {c : Char} {s : Str} (h1 : ¬ (97 ≤ c.toNat ∧ c.toNat ≤ 122)) (h : c ∉ s) : c ∉ lower s := by
  intro hm
  unfold lower at hm
  obtain ⟨x, hx, rfl⟩ := List.mem_map.1 hm
  have ht := lowerC_toNat x
  by_cases hh : 65 ≤ x.toNat ∧ x.toNat ≤ 90
  · rw [if_pos (by simpa using hh)] at ht; omega
  · rw [if_neg (by simpa using hh)] at ht
    rw [char_ext_toNat ht] at h
    exact h hx

theorem storable_of_cleanString (F : FloatEnv) {v : Str} {val : Value} (h : cleanString F v = .ok val) (hl : Lossless val)
    (hv : '=' ∉ v ∧ ';' ∉ v ∧ '#' ∉ v) : StorableValue F val := by
  unfold cleanString at h
  cases hm : Res.mapM' (cleanToken F) (words v) with
  | exit => rw [hm] at h; cases h
  | raise => rw [hm] at h; cases h
  | ok r =>
    rw [hm] at h
    dsimp only at h
    split at h
    swap
    · cases h
    rename_i hs
    have hf := Res.mapM'_eq_ok.1 hm
    have hplain : ∀ w ∈ words v, pyFloat w = none → testStringForBool w = .str w → PlainWord w := by
      intro w hw hp ht
      refine ⟨words_mem hw, hp, ?_, fun hc => hv.1 (words_sub hw hc), fun hc => hv.2.1 (words_sub hw hc),
        fun hc => hv.2.2 (words_sub hw hc)⟩
      rcases testStringForBool_cases w with ⟨b, hb⟩ | ⟨_, hb⟩
      · rw [ht] at hb; cases hb
      · exact hb
    -- one token, or a list
    match r, hf with
    | [p], hf =>
      cases h
      obtain ⟨k, x⟩ := p
      generalize hW : words v = W at *
      cases hf with
      | cons hc hnil =>
        rename_i w _
        cases hnil
        rcases cleanToken_kind F hc with ⟨_, i, rfl⟩ | ⟨_, f, rfl, hr⟩ | ⟨_, hp, hx⟩
        · exact .int i
        · obtain ⟨d, hd⟩ := hl
          exact .float (readable_of_read F hr hd)
        · rcases testStringForBool_cases w with ⟨b, hb⟩ | ⟨hb, _⟩
          · rw [hx]; simp only [hb]; exact .bool b
          · rw [hx]; simp only [hb]; exact .str (hplain w (by simp) hp hb)
    | [], hf => cases h; exact .ints (is := []) (by simp)
    | p :: q :: r', hf =>
      cases h
      have hlist : ∀ x ∈ (p :: q :: r').map Prod.snd, (∀ b, x ≠ .bool b) ∧ ∀ f, x = .float f → ∃ d, f = .fin d := hl
      have hk : ∀ z ∈ p :: q :: r', z.1 = p.1 := by
        intro z hz
        have := List.all_eq_true.1 (show ((p :: q :: r').map Prod.fst).all (· == p.1) = true from hs) z.1 (List.mem_map.2 ⟨z, hz, rfl⟩)
        simpa using this
      have hne : (p :: q :: r').length ≠ 1 := by simp
      show StorableValue F (.list ((p :: q :: r').map Prod.snd))
      generalize p :: q :: r' = R at *
      generalize p.1 = k at hk
      have hel : ∀ z ∈ R, ∃ w ∈ words v, cleanToken F w = .ok (k, z.2) := by
        intro z hz
        obtain ⟨w, hw, hc⟩ := forall₂_mem_right hf hz
        exact ⟨w, hw, by rw [hc, ← hk z hz]⟩
      cases k with
      | int =>
        have : ∀ R : List (Kind × Scalar), (∀ z ∈ R, ∃ i, z.2 = .int i) → ∃ is : List Int, R.map Prod.snd = is.map .int := by
          intro R
          induction R with
          | nil => intro _; exact ⟨[], rfl⟩
          | cons z R ih =>
            intro h
            obtain ⟨i, hi⟩ := h z (by simp)
            obtain ⟨is, his⟩ := ih (fun y hy => h y (by simp [hy]))
            exact ⟨i :: is, by simp [hi, his]⟩
        obtain ⟨is, his⟩ := this R (fun z hz => by
          obtain ⟨w, _, hc⟩ := hel z hz
          rcases cleanToken_kind F hc with ⟨_, h⟩ | ⟨h, _⟩ | ⟨h, _⟩
          · exact h
          · cases h
          · cases h)
        rw [his]
        refine .ints ?_
        have := congrArg List.length his
        simp only [List.length_map] at this
        rw [← this]; exact hne
      | float =>
        have : ∀ R : List (Kind × Scalar), (∀ z ∈ R, ∃ f, z.2 = .float f ∧ Readable F f) →
            ∃ fs : List PyFloat, R.map Prod.snd = fs.map .float ∧ ∀ f ∈ fs, Readable F f := by
          intro R
          induction R with
          | nil => intro _; exact ⟨[], rfl, by simp⟩
          | cons z R ih =>
            intro h
            obtain ⟨i, hi, hi2⟩ := h z (by simp)
            obtain ⟨is, his, his2⟩ := ih (fun y hy => h y (by simp [hy]))
            exact ⟨i :: is, by simp [hi, his], by simpa using ⟨hi2, his2⟩⟩
        obtain ⟨fs, his, hfs⟩ := this R (fun z hz => by
          obtain ⟨w, _, hc⟩ := hel z hz
          rcases cleanToken_kind F hc with ⟨h, _⟩ | ⟨_, f, h, hr⟩ | ⟨h, _⟩
          · cases h
          · obtain ⟨d, hd⟩ := (hlist z.2 (List.mem_map.2 ⟨z, hz, rfl⟩)).2 f h
            exact ⟨f, h, readable_of_read F hr hd⟩
          · cases h)
        rw [his]
        refine .floats ?_ hfs
        have := congrArg List.length his
        simp only [List.length_map] at this
        rw [← this]; exact hne
      | string =>
        have : ∀ R : List (Kind × Scalar), (∀ z ∈ R, ∃ f, z.2 = .str f ∧ PlainWord f) →
            ∃ fs : List Str, R.map Prod.snd = fs.map .str ∧ ∀ f ∈ fs, PlainWord f := by
          intro R
          induction R with
          | nil => intro _; exact ⟨[], rfl, by simp⟩
          | cons z R ih =>
            intro h
            obtain ⟨i, hi, hi2⟩ := h z (by simp)
            obtain ⟨is, his, his2⟩ := ih (fun y hy => h y (by simp [hy]))
            exact ⟨i :: is, by simp [hi, his], by simpa using ⟨hi2, his2⟩⟩
        obtain ⟨fs, his, hfs⟩ := this R (fun z hz => by
          obtain ⟨w, hw, hc⟩ := hel z hz
          rcases cleanToken_kind F hc with ⟨h, _⟩ | ⟨h, _⟩ | ⟨_, hp, hx⟩
          · cases h
          · cases h
          · rcases testStringForBool_cases w with ⟨b, hb⟩ | ⟨hb, _⟩
            · exact absurd (hx.trans hb) ((hlist z.2 (List.mem_map.2 ⟨z, hz, rfl⟩)).1 b)
            · exact ⟨w, hx.trans hb, hplain w hw hp hb⟩)
        rw [his]
        refine .strs ?_ hfs
        have := congrArg List.length his
        simp only [List.length_map] at this
        rw [← this]; exact hne

theorem strip_infix (s : Str) : strip s <:+: s := by
  unfold strip
  refine (List.IsPrefix.isInfix (rstrip_prefix _)).trans ?_
  exact (List.dropWhile_suffix _).isInfix

theorem strip_noNewline {s : Str} (h : '\n' ∉ s.dropLast) : '\n' ∉ strip s := by
  intro hm
  have h1 := dropLast_infix (strip_infix s) h
  have hne : strip s ≠ [] := by intro e; rw [e] at hm; cases hm
  rw [← List.dropLast_append_getLast hne] at hm
  rcases List.mem_append.1 hm with hm | hm
  · exact h1 hm
  · have hg := strip_getLast s _ (List.getLast?_eq_some_getLast hne)
    rw [← List.mem_singleton.1 hm] at hg
    revert hg; decide

/-- What is known of an entry read from a text. -/
theorem parsed_entry (F : FloatEnv) (t : Str) (a : Str × Option Str) (i : Item) (ha : a ∈ assigns (readlines t))
    (hi : Assigns F a i) : GoodTag i.tag ∧
    (if i.tag ∈ rawTags then RawValue i.value ∧ i.comment = none
     else (∃ v, cleanString F v = .ok i.value ∧ '=' ∉ v ∧ ';' ∉ v ∧ '#' ∉ v) ∧ ∀ c, i.comment = some c → Stripped c ∧ '\n' ∉ c) := by
  obtain ⟨tg, v, h1, h2, h3, h4⟩ := hi
  unfold assigns at ha
  obtain ⟨l, hlm, hp⟩ := List.mem_flatMap.1 ha
  obtain ⟨p, hq, rfl⟩ := List.mem_map.1 hp
  dsimp only at *
  have hnl := readlines_dropLast t l hlm
  unfold assignTexts at hq
  split at hq
  · cases hq
  have hp' := List.mem_of_mem_filter hq
  have hsc : ';' ∉ p := splitOn_pieces hp'
  have hpi : p <:+: code l := splitOn_infix hp'
  have hci : code l <:+: l := (List.takeWhile_prefix _).isInfix
  have hha : '#' ∉ p := by
    intro hm
    have : '#' ∈ code l := hpi.subset hm
    rw [code_eq_split1] at this
    exact split1_fst_not_mem _ _ this
  have hvp : v <:+: p := by rw [h1]; exact ⟨tg ++ ['='], [], by simp⟩
  have htp : tg <:+: p := by rw [h1]; exact ⟨[], '=' :: v, by simp⟩
  have hvnl : '\n' ∉ v.dropLast := dropLast_infix ((hvp.trans hpi).trans hci) hnl
  have hvs : '=' ∉ v ∧ ';' ∉ v ∧ '#' ∉ v := ⟨h3, fun h => hsc (hvp.subset h), fun h => hha (hvp.subset h)⟩
  rw [cleanEntry_str] at h4
  split at h4
  · cases h4
  rename_i w ws hw
  have hwm : w ∈ words tg := by rw [hw]; simp
  have hlw : ∀ c : Char, ¬ (97 ≤ c.toNat ∧ c.toNat ≤ 122) → c ∉ w → c ∉ lower w := fun c h1 h2 => mem_lower_of_nonletter h1 h2
  have hgood : GoodTag (lower w) := by
    refine ⟨Token.lower (words_mem hwm), lower_idem w, hlw _ (by decide) fun h => h2 (words_sub hwm h), ?_, ?_⟩
    · exact hlw _ (by decide) fun h => hsc (htp.subset (words_sub hwm h))
    · exact hlw _ (by decide) fun h => hha (htp.subset (words_sub hwm h))
  split at h4
  · rename_i hraw
    cases h4
    refine ⟨hgood, ?_⟩
    dsimp only
    rw [if_pos hraw]
    exact ⟨⟨_, rfl, strip_stripped v, strip_noNewline hvnl, fun h => hvs.1 ((strip_infix v).subset h),
      fun h => hvs.2.1 ((strip_infix v).subset h), fun h => hvs.2.2 ((strip_infix v).subset h)⟩, rfl⟩
  · rename_i hraw
    rw [Res.bind_eq_ok] at h4
    obtain ⟨val, hv1, hv2⟩ := h4
    cases hv2
    refine ⟨hgood, ?_⟩
    dsimp only
    rw [if_neg hraw]
    refine ⟨⟨v, hv1, hvs⟩, ?_⟩
    intro c hc
    obtain ⟨r, hr, rfl⟩ := Option.map_eq_some_iff.1 hc
    refine ⟨strip_stripped r, strip_noNewline (dropLast_infix ?_ hnl)⟩
    rw [remark] at hr
    split at hr
    · cases hr
    · rename_i x y heq
      cases hr
      have : l.dropWhile (· != '#') <:+: l := (List.dropWhile_suffix _).isInfix
      rw [heq] at this
      exact List.IsInfix.trans ⟨[x], [], by simp⟩ this

theorem storable_of_parsed (F : FloatEnv) (t : Str) (a : Str × Option Str) (i : Item) (ha : a ∈ assigns (readlines t))
    (hi : Assigns F a i) (hl : Lossless i.value) : StorableItem F i := by
  obtain ⟨h1, h2⟩ := parsed_entry F t a i ha hi
  refine ⟨h1, ?_⟩
  split
  · rename_i h; rw [if_pos h] at h2; exact h2
  · rename_i h
    rw [if_neg h] at h2
    obtain ⟨⟨v, hv, hvs⟩, hc⟩ := h2
    exact ⟨storable_of_cleanString F hv hl hvs, hc⟩

/-- C02, partial: every INCAR file, once parsed, is written and read back with the same tags and values (and comments, if
written), provided no value is an infinity or nan and no list holds a truth value. Missing: exactly these values, for which the
claim is false (`C02_violation_bool_list`, `C02_violation_inf`), and values stored by `modify` that no text denotes
(`C02_violation_raw_list`, `C02_violation_singleton`). -/
theorem C02_parsed_file_partial (F : FloatEnv) (b : Bool) (t : Str) (d : Entries) (h : fromList F (readlines t) = .ok d)
    (hl : ∀ e ∈ d, Lossless e.2.value) :
    ∃ d', fromList F (readlines (writeText b d)) = .ok d' ∧ (∀ t, get d' t = get d t) ∧
      (b = true → ∀ t, (d'.get? t).map Item.comment = (d.get? t).map Item.comment) := by
  have hk : d.keys.Nodup := by
    rw [fromList_eq, Res.bind_eq_ok] at h
    obtain ⟨is, _, h2⟩ := h
    cases h2
    exact keys_foldl_nodup [] is (by simp [Dict.keys])
  refine C02_round_trip F b d hk ?_
  intro e he
  have hm : e.1 ∈ d.keys := List.mem_map.2 ⟨e, he, rfl⟩
  obtain ⟨a, ha, i, hai, hit, hg⟩ := (C11_nothing_dropped F _ d h).2 e.1 hm
  have := Dict.get?_eq_some_of_mem d hk (k := e.1) (v := e.2) he
  rw [hg] at this
  cases this
  exact ⟨hit.symm, storable_of_parsed F t a e.2 ha hai (hl e he)⟩

/-- Decidable form of `Lossless`, for examples. -/
def losslessB : Value → Bool
  | .one (.float (.fin _)) => true
  | .one (.float _) => false
  | .list l => l.all fun | .bool _ => false | .float (.fin _) => true | .float _ => false | _ => true
  | _ => true

theorem lossless_of_B {v : Value} (h : losslessB v = true) : Lossless v := by
  unfold losslessB at h
  split at h
  · exact ⟨_, rfl⟩
  · cases h
  · rename_i l
    intro x hx
    have := List.all_eq_true.1 h x hx
    cases x with
    | bool b => cases this
    | float f => cases f with
      | fin d => exact ⟨by simp, by intro f hf; cases hf; exact ⟨d, rfl⟩⟩
      | inf => cases this
      | nan => cases this
    | int => exact ⟨by simp, by simp⟩
    | str => exact ⟨by simp, by simp⟩
  · rename_i hf hl
    unfold Lossless; split
    · exact absurd rfl (hf _)
    · exact absurd rfl (hl _)
    · trivial

example : ∃ d, fromList exactEnv (readlines c!"System = a b # c\nEDIFF = 1e-6 # tight # or not\nLREAL=.true.; isym = 0\nLIST = 1 2 3 \nB = x y\n") = .ok d ∧
    d.length = 6 ∧ ∀ e ∈ d, Lossless e.2.value := by
  refine ⟨_, rfl, by decide +kernel, ?_⟩
  intro e he
  apply lossless_of_B
  revert e
  decide +kernel

/-- Violation of C02: a list of truth values (as in `ROTATE = .TRUE. .FALSE.`) comes back as a list of strings. -/
theorem C02_violation_bool_list : ∃ t : Str, ∃ d d', fromList exactEnv (readlines t) = .ok d ∧
    fromList exactEnv (readlines (getString d)) = .ok d' ∧
    get d c!"lvec" = some (.list [.bool true, .bool false]) ∧ get d' c!"lvec" = some (.list [.str c!"True", .str c!"False"]) :=
  ⟨c!"LVEC = .TRUE. .FALSE.\n", _, _, rfl, rfl, by decide +kernel, by decide +kernel⟩

/-- A float environment with the overflow of binary64. -/
theorem C02_violation_inf (F : FloatEnv) (h : F.round ⟨false, 1, 999⟩ = .inf false) : ∃ t : Str, ∃ d,
    fromList F (readlines t) = .ok d ∧ fromList F (readlines (getString d)) = .raise .valueError := by
  refine ⟨c!"EMAX = 1e999\n", [(c!"emax", ⟨c!"emax", .one (.float (.inf false)), none⟩)], ?_, ?_⟩
  · have h1 : pyFloat c!"1e999" = some (.fin ⟨false, 1, 999⟩) := by decide +kernel
    have h2 : testStringContent c!"1e999" = .float := by decide +kernel
    have h3 : cleanToken F c!"1e999" = .ok (.float, .float (.inf false)) := by
      unfold cleanToken; rw [h2]; simp [pyFloatR, h1, h]
    have h4 : cleanString F c!" 1e999\n" = .ok (.one (.float (.inf false))) := by
      rw [cleanString_congr F (b := c!"1e999") (by decide)]
      exact cleanString_one F _ _ _ (by unfold Token Free; decide) h3
    have h5 : cleanEntry F c!"EMAX " (.one (.str c!" 1e999\n")) none = .ok ⟨c!"emax", .one (.float (.inf false)), none⟩ := by
      rw [cleanEntry_str, h4]; rfl
    rw [fromList_eq]
    have h6 : assigns (readlines c!"EMAX = 1e999\n") = [(c!"EMAX = 1e999\n", none)] := by decide +kernel
    rw [h6]
    have h7 : itemOf F (c!"EMAX = 1e999\n", none) = .ok ⟨c!"emax", .one (.float (.inf false)), none⟩ := by
      unfold itemOf
      have : splitOn '=' c!"EMAX = 1e999\n" = [c!"EMAX ", c!" 1e999\n"] := by decide +kernel
      simp only [this, h5]
    simp only [Res.mapM', h7]; rfl
  · have h2 : cleanToken F c!"inf" = .raise .valueError := by
      unfold cleanToken
      have h2 : testStringContent c!"inf" = .int := by decide +kernel
      have h3 : pyInt c!"inf" = none := by decide +kernel
      rw [h2]; simp [h3]
    rw [fromList_eq]
    have h6 : assigns (readlines (getString [(c!"emax", ⟨c!"emax", .one (.float (.inf false)), none⟩)])) = [(c!"EMAX = inf\n", none)] := by
      decide +kernel
    rw [h6]
    have h7 : itemOf F (c!"EMAX = inf\n", none) = .raise .valueError := by
      unfold itemOf
      have : splitOn '=' c!"EMAX = inf\n" = [c!"EMAX ", c!" inf\n"] := by decide +kernel
      have h8 : cleanString F c!" inf\n" = .raise .valueError := by
        unfold cleanString
        have : words c!" inf\n" = [c!"inf"] := by decide
        rw [this]; simp [Res.mapM', h2]
      simp only [this]
      rw [cleanEntry_str, h8]; rfl
    simp only [Res.mapM', h7]; rfl

/-- Violation of C02 through `modify`: a list given for MAGMOM comes back as a text. -/
theorem C02_violation_raw_list : ∃ d d', modify exactEnv [] c!"MAGMOM" (.list [.int 1, .int 2]) none = .ok d ∧
    fromList exactEnv (readlines (getString d)) = .ok d' ∧
    get d c!"magmom" = some (.list [.int 1, .int 2]) ∧ get d' c!"magmom" = some (.one (.str c!"1 2")) :=
  ⟨_, _, rfl, rfl, by decide +kernel, by decide +kernel⟩

/-- Violation of C02 through `modify`: a list of one element comes back as a scalar. -/
theorem C02_violation_singleton : ∃ d d', modify exactEnv [] c!"KPAR" (.list [.int 4]) none = .ok d ∧
    fromList exactEnv (readlines (getString d)) = .ok d' ∧
    get d c!"kpar" = some (.list [.int 4]) ∧ get d' c!"kpar" = some (.one (.int 4)) :=
  ⟨_, _, rfl, rfl, by decide +kernel, by decide +kernel⟩

end Verif.Incar
