import Verif.Props.IncarMap
import Verif.Props.LineEnds
import Verif.Props.IncarValue
import Verif.Props.FinalNewline
/-!
# C126: a `;` at the end of a line of INCAR; exactly where C04, C10, C11, C61, C103 and C120 fail for INCAR

The counterexamples of `Props/IncarParse`, `Props/IncarMap` and `Props/LineEnds` are single texts. Here: every accepted text with a line that ends with `;`,
and every spelling of a tag that is not lower case.
-/
set_option autoImplicit false
namespace Verif.Incar
open Verif Verif.Utils Verif.IncarSpec Verif.Newlines
open Verif.Sources (Plain)

/-- Specification: the line ends with `;` and has no comment. -/
def Trailing (l : Str) : Prop := l.getLast? = some ';' ∧ '#' ∉ l

instance (l : Str) : Decidable (Trailing l) := by unfold Trailing; infer_instance

theorem trailing_eq {l : Str} (h : Trailing l) : ∃ e, l = e ++ [';'] ∧ '#' ∉ e := by
  refine ⟨l.dropLast, (List.dropLast_append_getLast? _ h.1).symm, fun hm => h.2 (List.mem_of_mem_dropLast hm)⟩

theorem not_blank_semicolon {l : Str} (h : ';' ∈ code l) : ¬ Blank l := fun hb => absurd (hb _ h) (by decide)

/-- The assignments of a line whose part in front of the comment is `e` and a `;`: those of `e` and an empty one. -/
theorem assigns_semicolon {l e : Str} (h : code l = e ++ [';']) :
    assigns [l] = ((splitOn ';' e).filter (fun p => !decide (p = ['\n']))).map (fun p => (p, remark l)) ++ [([], remark l)] := by
  simp only [assigns, List.flatMap_cons, List.flatMap_nil, List.append_nil]
  unfold assignTexts
  rw [if_neg (not_blank_semicolon (by rw [h]; simp)), h, splitOn_sep, splitOn_free (c := ';') (s := []) (by simp), List.filter_append]
  simp

theorem assigns_semicolon_newline {l e : Str} (h : code l = e ++ [';'] ++ ['\n']) :
    assigns [l] = ((splitOn ';' e).filter (fun p => !decide (p = ['\n']))).map (fun p => (p, remark l)) := by
  simp only [assigns, List.flatMap_cons, List.flatMap_nil, List.append_nil]
  unfold assignTexts
  rw [if_neg (not_blank_semicolon (by rw [h]; simp)), h, List.append_assoc, List.singleton_append, splitOn_sep,
    splitOn_free (c := ';') (s := ['\n']) (by decide), List.filter_append]
  simp

theorem itemOf_empty (F : FloatEnv) (c : Option Str) : itemOf F ([], c) = .exit 102 := rfl

theorem mapM'_ok_mem {α β} {f : α → Res β} {l : List α} {r : List β} (h : Res.mapM' f l = .ok r) (a : α) (ha : a ∈ l) : ∃ b, f a = .ok b := by
  have := Res.mapM'_eq_ok.1 h
  clear h
  induction this with
  | nil => simp at ha
  | @cons x y xs ys h1 _ ih =>
    rcases List.mem_cons.1 ha with rfl | ha
    · exact ⟨y, h1⟩
    · exact ih ha

/-- Whether an assignment is accepted does not depend on the comment. -/
theorem itemOf_ok_remark {F : FloatEnv} {p : Str} {c : Option Str} (c' : Option Str) {i : Item} (h : itemOf F (p, c) = .ok i) : ∃ j, itemOf F (p, c') = .ok j := by
  have := itemOf_remark F p c c'
  rw [h] at this
  cases hc : itemOf F (p, c') with
  | ok j => exact ⟨j, rfl⟩
  | exit k => rw [hc] at this; cases this
  | raise e => rw [hc] at this; cases this

/-- C04 is false for every accepted file with a line that ends with `;`: with any comment appended to that line the file is refused with exit code 102. -/
theorem C04_violation_every (F : FloatEnv) (pre post : List Str) (a c : Str) (d : Entries) (h : Trailing a)
    (hd : fromList F (pre ++ (a ++ ['\n']) :: post) = .ok d) : fromList F (pre ++ (a ++ '#' :: (c ++ ['\n'])) :: post) = .exit 102 := by
  obtain ⟨e, rfl, he⟩ := trailing_eq h
  rw [fromList_eq] at hd ⊢
  have h1 : code (e ++ [';'] ++ '#' :: (c ++ ['\n'])) = e ++ [';'] := code_hash _ (by simpa using he)
  have h2 : code (e ++ [';'] ++ ['\n']) = e ++ [';'] ++ ['\n'] := code_eq_self (by simpa using he)
  obtain ⟨is, hm, -⟩ := Res.bind_eq_ok.1 hd
  have split : ∀ x : Str, assigns (pre ++ x :: post) = assigns pre ++ (assigns [x] ++ assigns post) := by
    intro x; rw [assigns_append, show x :: post = [x] ++ post from rfl, assigns_append]
  rw [split, assigns_semicolon_newline h2] at hm
  rw [split, assigns_semicolon h1, List.append_assoc, ← List.append_assoc, List.singleton_append, (mapM'_first_bad _ _ _ _ ?_).1 102 (itemOf_empty F _)]
  · rfl
  · intro x hx
    rw [List.mem_append] at hx
    rcases hx with hx | hx
    · exact mapM'_ok_mem hm x (by simp [hx])
    · obtain ⟨p, hp, rfl⟩ := List.mem_map.1 hx
      obtain ⟨i, hi⟩ := mapM'_ok_mem hm (p, remark (e ++ [';'] ++ ['\n'])) (by
        rw [List.mem_append, List.mem_append]; exact .inr (.inl (List.mem_map.2 ⟨p, hp, rfl⟩)))
      exact itemOf_ok_remark _ hi

example : Trailing c!"NSW = 1; ISIF = 2;" ∧ (fromList exactEnv (c!"A=1\n" :: (c!"NSW = 1; ISIF = 2;" ++ ['\n']) :: [c!"B=3\n"])).isOk = true := by decide +kernel

/-- C126, all cases of a comment appended to a line of an accepted file: no tag and no value changes unless the line ends with `;` and has no comment yet; then the
file is refused with exit code 102. -/
theorem C126_comment (F : FloatEnv) (pre post : List Str) (a c : Str) (d : Entries) (hnl : '\n' ∉ a)
    (hd : fromList F (pre ++ (a ++ ['\n']) :: post) = .ok d) :
    valuesOutcome (fromList F (pre ++ (a ++ '#' :: (c ++ ['\n'])) :: post)) = if Trailing a then .exit 102 else .ok (valuesOf d) := by
  by_cases h : Trailing a
  · rw [if_pos h, C04_violation_every F pre post a c d h hd]; rfl
  · rw [if_neg h]
    have he : valuesOutcome (fromList F (pre ++ (a ++ '#' :: (c ++ ['\n'])) :: post)) = valuesOutcome (fromList F (pre ++ (a ++ ['\n']) :: post)) := by
      rw [C04_comment_appended]
      apply valuesOutcome_congr
      rw [← mapM'_fmap, ← mapM'_fmap, mapM'_assign_newline F a hnl ?_]
      by_cases h' : '#' ∈ a
      · exact .inr h'
      · exact .inl fun hl => h ⟨hl, h'⟩
    rw [he, hd]; rfl

/-- The lines of a file and of a string, with what becomes of a `;` at the end of a line. -/
theorem fromList_trailing (F : FloatEnv) : ∀ (r s : List Str), List.Forall₂ (fun r s => '\n' ∉ s ∧ (r = s ∨ r = s ++ ['\n'])) r s → ∀ is, Res.mapM' (itemOf F) (assigns r) = .ok is →
    Res.mapM' (itemOf F) (assigns s) = if ∃ l ∈ s, Trailing l then .exit 102 else .ok is := by
  intro r s hrs
  induction hrs with
  | nil => intro is h; rw [if_neg (by simp)]; exact h
  | @cons a b l₁ l₂ h1 h2 ih =>
    intro is h
    rw [show a :: l₁ = [a] ++ l₁ from rfl, assigns_append, mapM'_append] at h
    obtain ⟨x, hx, h⟩ := Res.bind_eq_ok.1 h
    obtain ⟨y, hy, h⟩ := Res.bind_eq_ok.1 h
    cases h
    rw [show b :: l₂ = [b] ++ l₂ from rfl, assigns_append]
    have ih' := ih y hy
    obtain ⟨hb, h1⟩ := h1
    by_cases ht : Trailing b
    · have ha : a = b ++ ['\n'] := by
        refine h1.resolve_left fun hab => ?_
        subst hab
        obtain ⟨e, rfl, he⟩ := trailing_eq ht
        rw [assigns_semicolon (code_eq_self ht.2)] at hx
        obtain ⟨i, hi⟩ := mapM'_ok_mem hx ([], remark (e ++ [';'])) (by simp)
        cases hi
      subst ha
      rw [if_pos ⟨b, by simp, ht⟩]
      obtain ⟨e, rfl, he⟩ := trailing_eq ht
      have c1 : code (e ++ [';']) = e ++ [';'] := code_eq_self ht.2
      have c2 : code (e ++ [';'] ++ ['\n']) = e ++ [';'] ++ ['\n'] := code_eq_self (by simpa using he)
      rw [assigns_semicolon_newline c2] at hx
      rw [assigns_semicolon c1, List.append_assoc, List.singleton_append, (mapM'_first_bad _ _ _ _ ?_).1 102 (itemOf_empty F _)]
      intro z hz
      obtain ⟨p, hp, rfl⟩ := List.mem_map.1 hz
      obtain ⟨i, hi⟩ := mapM'_ok_mem hx (p, remark (e ++ [';'] ++ ['\n'])) (List.mem_map.2 ⟨p, hp, rfl⟩)
      exact itemOf_ok_remark _ hi
    · have hx : Res.mapM' (itemOf F) (assigns [b]) = .ok x := by
        rcases h1 with rfl | rfl
        · exact hx
        · rwa [mapM'_assign_newline F b hb (by
            by_cases h' : '#' ∈ b
            · exact .inr h'
            · exact .inl fun hl => ht ⟨hl, h'⟩)] at hx
      rw [mapM'_append, hx, Res.ok_bind, ih']
      by_cases hq : ∃ l ∈ l₂, Trailing l
      · rw [if_pos hq, if_pos (by obtain ⟨l, hl, hq⟩ := hq; exact ⟨l, by simp [hl], hq⟩)]; rfl
      · rw [if_neg hq, if_neg (by simpa [ht] using hq)]; rfl

/-- C126, all cases of a text whose line breaks are newlines: if the file is accepted, the string gives the same entries, comments included, unless a line ends with `;`
and has no comment; then the string is refused with exit code 102. -/
theorem C126_string (F : FloatEnv) (t : Str) (hb : ∀ c ∈ t, isLineBreak c = true → c = '\n') (d : Entries) (h : fromList F (readlines t) = .ok d) :
    fromList F (splitlines t) = if ∃ l ∈ splitlines t, Trailing l then .exit 102 else .ok d := by
  rw [fromList_eq] at h ⊢
  obtain ⟨is, hm, hd⟩ := Res.bind_eq_ok.1 h
  cases hd
  rw [fromList_trailing F _ _ (readlines_splitlines t hb) is hm]
  split <;> rfl

/-- C126, the other direction: a string that is accepted has no such line and is accepted as a file, with the same entries. -/
theorem C126_string_accepted (F : FloatEnv) (t : Str) (hb : ∀ c ∈ t, isLineBreak c = true → c = '\n') (d : Entries) (h : fromList F (splitlines t) = .ok d) :
    fromList F (readlines t) = .ok d := by
  have hs : ∀ l ∈ splitlines t, l.getLast? ≠ some ';' ∨ '#' ∈ l := by
    intro l hl
    by_contra hc
    rw [not_or, not_not] at hc
    obtain ⟨e, rfl, he⟩ := trailing_eq (l := l) hc
    rw [fromList_eq] at h
    obtain ⟨is, hm, -⟩ := Res.bind_eq_ok.1 h
    obtain ⟨i, hi⟩ := mapM'_ok_mem hm ([], remark (e ++ [';'])) (by
      unfold assigns
      rw [List.mem_flatMap]
      refine ⟨_, hl, ?_⟩
      have := assigns_semicolon (l := e ++ [';']) (code_eq_self hc.2)
      simp only [assigns, List.flatMap_cons, List.flatMap_nil, List.append_nil] at this
      rw [this]; simp)
    cases hi
  rw [C10_string_file_agree_partial F t hb hs, h]

example : Trailing c!"NSW = 1;" ∧ c!"NSW = 1;" ∈ splitlines c!"A = 2\nNSW = 1;\n" ∧ (fromList exactEnv (readlines c!"A = 2\nNSW = 1;\n")).isOk = true := by decide +kernel

/-- C126, INCAR through a file handler, all cases of an accepted file: with CRLF line ends it gives the same object unless a line ends with `;` and has no comment;
then it is refused with exit code 102. -/
theorem C126_crlf (F : FloatEnv) (allowed : List Str) (vt : Bool) (t : Str) (h : Plain t) (d : Entries)
    (hd : init F allowed vt { handler := some t } = .ok d) :
    init F allowed vt { handler := some (dos t) } = if ∃ l ∈ splitlines t, Trailing l then .exit 102 else .ok d := by
  rw [(C120_incar F allowed vt t h).2.2]
  have hs : init F allowed vt { string := some t } = (fromList F (splitlines t) >>= fun x => validate vt allowed x >>= fun _ => .ok x) := rfl
  have hh : init F allowed vt { handler := some t } = (fromList F (readlines t) >>= fun x => validate vt allowed x >>= fun _ => .ok x) := rfl
  rw [hh] at hd
  obtain ⟨x, hx, hd⟩ := Res.bind_eq_ok.1 hd
  rw [hs, C126_string F t h x hx]
  split
  · rfl
  · exact hd

/-- Without the newline behind a line that ends with `;` an accepted file is refused. -/
theorem newline_dropped (F : FloatEnv) (pre post : List Str) (a : Str) (d : Entries) (h : Trailing a)
    (hd : fromList F (pre ++ (a ++ ['\n']) :: post) = .ok d) : fromList F (pre ++ a :: post) = .exit 102 := by
  obtain ⟨e, rfl, he⟩ := trailing_eq h
  rw [fromList_eq] at hd ⊢
  have h1 : code (e ++ [';']) = e ++ [';'] := code_eq_self h.2
  have h2 : code (e ++ [';'] ++ ['\n']) = e ++ [';'] ++ ['\n'] := code_eq_self (by simpa using he)
  obtain ⟨is, hm, -⟩ := Res.bind_eq_ok.1 hd
  have split : ∀ x : Str, assigns (pre ++ x :: post) = assigns pre ++ (assigns [x] ++ assigns post) := by
    intro x; rw [assigns_append, show x :: post = [x] ++ post from rfl, assigns_append]
  rw [split, assigns_semicolon_newline h2] at hm
  rw [split, assigns_semicolon h1, List.append_assoc, ← List.append_assoc, List.singleton_append, (mapM'_first_bad _ _ _ _ ?_).1 102 (itemOf_empty F _)]
  · rfl
  · intro x hx
    rw [List.mem_append] at hx
    rcases hx with hx | hx
    · exact mapM'_ok_mem hm x (by simp [hx])
    · obtain ⟨p, hp, rfl⟩ := List.mem_map.1 hx
      obtain ⟨i, hi⟩ := mapM'_ok_mem hm (p, remark (e ++ [';'] ++ ['\n'])) (by
        rw [List.mem_append, List.mem_append]; exact .inr (.inl (List.mem_map.2 ⟨p, hp, rfl⟩)))
      exact itemOf_ok_remark _ hi

/-- C126, the newline at the end of an accepted file: without it the file gives the same object unless its last line ends with `;` and has no comment; then it is
refused with exit code 102. -/
theorem C126_final_newline (F : FloatEnv) (allowed : List Str) (vt : Bool) (u : Str) (h : EndsInText u) (d : Entries)
    (hd : init F allowed vt { handler := some (u ++ ['\n']) } = .ok d) :
    init F allowed vt { handler := some u } = if ∃ l, (readlines u).getLast? = some l ∧ Trailing l then .exit 102 else .ok d := by
  by_cases ht : ∃ l, (readlines u).getLast? = some l ∧ Trailing l
  · rw [if_pos ht]
    obtain ⟨A, l, -, -, h3, h4⟩ := readlines_final h
    obtain ⟨l', hl, ht⟩ := ht
    rw [h3, List.getLast?_concat, Option.some.injEq] at hl
    subst hl
    have hh : ∀ t, init F allowed vt { handler := some t } = (fromList F (readlines t) >>= fun x => validate vt allowed x >>= fun _ => .ok x) := fun _ => rfl
    rw [hh, h4] at hd
    obtain ⟨x, hx, -⟩ := Res.bind_eq_ok.1 hd
    rw [hh, h3, newline_dropped F A [] l x ht hx]
    rfl
  · rw [if_neg ht, ← ((C103_incar_partial F allowed vt u h).1 fun l hl hs => ?_).1, hd]
    by_contra hc
    exact ht ⟨l, hl, hs, hc⟩

example : EndsInText c!"NSW = 1;" ∧ (init exactEnv [c!"nsw"] true { handler := some (c!"NSW = 1;" ++ ['\n']) }).isOk = true := ⟨⟨';', by decide, by decide⟩, by decide +kernel⟩

/-! ### C11 -/

/-- C11 is false for every entry without a tag: if the entries in front of it are good, the text ends with an uncaught `IndexError`. -/
theorem C11_violation_every_empty_tag (F : FloatEnv) (lines : List Str) (pre post : List (Str × Option Str)) (a : Str × Option Str) (t v : Str)
    (hl : assigns lines = pre ++ a :: post) (hpre : ∀ x ∈ pre, ∃ i, Assigns F x i) (ha : a.1 = t ++ '=' :: v) (ht : '=' ∉ t) (hv : '=' ∉ v)
    (hw : ∀ c ∈ t, isSpace c = true) : fromList F lines = .raise .indexError := by
  have hpre' : ∀ x ∈ pre, ∃ i, itemOf F x = .ok i := fun x hx => by
    obtain ⟨i, hi⟩ := hpre x hx; exact ⟨i, (itemOf_ok_iff F x i).2 hi⟩
  have h1 : itemOf F a = .raise .indexError := by
    unfold itemOf
    rw [ha, splitOn_sep, splitOn_free ht, splitOn_free hv]
    show cleanEntry F t _ _ = _
    unfold cleanEntry
    rw [(words_eq_nil_iff t).2 hw]
  rw [fromList_eq, hl, (mapM'_first_bad (itemOf F) pre post a hpre').2 _ h1]; rfl

/-- A value with an infinite number or NaN among its words raises. -/
theorem cleanTokens_special (F : FloatEnv) : ∀ ws : List Str, (∃ w ∈ ws, NonFinite w) → Res.mapM' (cleanToken F) ws = .raise .valueError
  | [], h => by simp at h
  | x :: xs, h => by
    by_cases hx : NonFinite x
    · have : cleanToken F x = .raise .valueError := by
        unfold cleanToken
        rw [(C45_violation x hx).1, (C45_violation x hx).2]
      simp only [Res.mapM', this]
    · have ih := cleanTokens_special F xs (by
        obtain ⟨w, hw, hn⟩ := h
        rcases List.mem_cons.1 hw with rfl | hw
        · exact absurd hn hx
        · exact ⟨w, hw, hn⟩)
      cases hc : cleanToken F x with
      | ok y => simp only [Res.mapM', hc, ih]
      | exit k =>
        unfold cleanToken at hc
        split at hc
        · split at hc <;> cases hc
        · split at hc <;> cases hc
        · cases hc
      | raise e =>
        obtain ⟨h1, -⟩ := cleanToken_raise F x e hc
        subst h1
        simp only [Res.mapM', hc]

/-- C11 is false for every value with the literal of an infinite number or NaN, but for the tags whose text is kept: if the entries in front of it are good, the text
ends with an uncaught `ValueError`. -/
theorem C11_violation_every_special (F : FloatEnv) (lines : List Str) (pre post : List (Str × Option Str)) (a : Str × Option Str) (t v w : Str) (ws : List Str)
    (hl : assigns lines = pre ++ a :: post) (hpre : ∀ x ∈ pre, ∃ i, Assigns F x i) (ha : a.1 = t ++ '=' :: v) (ht : '=' ∉ t) (hv : '=' ∉ v)
    (hw : words t = w :: ws) (hr : lower w ∉ [c!"system", c!"magmom", c!"m_constr"]) (hn : ∃ x ∈ words v, NonFinite x) : fromList F lines = .raise .valueError := by
  have hpre' : ∀ x ∈ pre, ∃ i, itemOf F x = .ok i := fun x hx => by
    obtain ⟨i, hi⟩ := hpre x hx; exact ⟨i, (itemOf_ok_iff F x i).2 hi⟩
  have h1 : itemOf F a = .raise .valueError := by
    unfold itemOf
    rw [ha, splitOn_sep, splitOn_free ht, splitOn_free hv]
    show cleanEntry F t _ _ = _
    unfold cleanEntry
    rw [hw]
    have hr' : lower w ∉ rawTags := hr
    simp only [hr', if_false]
    unfold cleanString
    rw [cleanTokens_special F _ hn]
  rw [fromList_eq, hl, (mapM'_first_bad (itemOf F) pre post a hpre').2 _ h1]; rfl

/-! ### C61 -/

/-- Every stored tag is in lower case. -/
def Lowered (d : Entries) : Prop := ∀ k ∈ d.keys, lower k = k

theorem cleanEntry_lower {F : FloatEnv} {tag : Str} {v : Value} {c : Option Str} {i : Item} (hc : cleanEntry F tag v c = .ok i) : lower i.tag = i.tag := by
  unfold cleanEntry at hc
  split at hc
  · cases hc
  · rename_i w ws hw
    dsimp only at hc
    split at hc
    · split at hc
      · cases hc; exact lower_idem _
      · split at hc <;> cases hc; exact lower_idem _
    · cases hc
    · cases hc; exact lower_idem _

theorem Lowered.set {d : Entries} (h : Lowered d) {i : Item} (hi : lower i.tag = i.tag) : Lowered (d.set i.tag i) := by
  intro k hk
  rcases (Dict.keys_set_mem d i.tag k i).1 hk with rfl | hk
  · exact hi
  · exact h k hk

theorem Lowered.del {d : Entries} (h : Lowered d) (t : Str) : Lowered (d.del t) := by
  intro k hk
  refine h k ?_
  rw [Dict.mem_keys_iff] at hk ⊢
  rw [Dict.get?_del] at hk
  split at hk
  · simp at hk
  · exact hk

theorem fromList_lowered {F : FloatEnv} {lines : List Str} {d : Entries} (h : fromList F lines = .ok d) : Lowered d := by
  intro k hk
  obtain ⟨a, _, i, ⟨t, v, _, _, _, hc⟩, rfl, _⟩ := (C11_nothing_dropped F lines d h).2 k hk
  exact cleanEntry_lower hc

theorem dictItem_lower {F : FloatEnv} {t : Str} {v : Value} {i : Item} (h : dictItem F t v = .ok i) : lower i.tag = i.tag := by
  unfold dictItem at h
  split at h
  · split at h
    · exact cleanEntry_lower h
    · exact cleanEntry_lower h
    · cases h
  · exact cleanEntry_lower h

theorem fromDict_lowered {F : FloatEnv} {items : List (Str × Value)} {d : Entries} (h : fromDict F items = .ok d) : Lowered d := by
  unfold fromDict at h
  have key : ∀ (items : List (Str × Value)) (d0 d : Entries), Lowered d0 → Res.foldlM' (fun d (p : Str × Value) => match dictItem F p.1 p.2 with
      | .ok item => .ok (d.set item.tag item)
      | .exit c => .exit c
      | .raise e => .raise e) d0 items = .ok d → Lowered d := by
    intro items
    induction items with
    | nil => intro d0 d h0 h; cases h; exact h0
    | cons p ps ih =>
      intro d0 d h0 h
      simp only [Res.foldlM'] at h
      cases hp : dictItem F p.1 p.2 with
      | ok i =>
        rw [hp] at h
        exact ih _ _ (h0.set (dictItem_lower hp)) h
      | exit k => rw [hp] at h; cases h
      | raise e => rw [hp] at h; cases h
  exact key items [] d (by intro k hk; simp [Dict.keys] at hk) h

theorem init_lowered {F : FloatEnv} {allowed : List Str} {vt : Bool} {s : Sources} {d : Entries} (h : init F allowed vt s = .ok d) : Lowered d := by
  unfold init at h
  split at h
  · cases h
  split at h
  · cases h
  obtain ⟨x, hx, h⟩ := Res.bind_eq_ok.1 h
  obtain ⟨-, -, h⟩ := Res.bind_eq_ok.1 h
  cases h
  have key : ∀ ls, parseSource F s ls = .ok d → Lowered d := by
    intro ls hp
    unfold parseSource at hp
    split at hp
    · exact fromDict_lowered hp
    · exact fromList_lowered hp
  unfold loadEntries at hx
  split at hx
  · obtain ⟨ls, -, hx⟩ := Res.bind_eq_ok.1 hx
    exact key _ hx
  · exact key _ hx

theorem run_lowered (F : FloatEnv) (ops : List Op) (d : Entries) (h : Lowered d) : Lowered (run F d ops) := by
  induction ops generalizing d with
  | nil => exact h
  | cons o ops ih =>
    refine ih _ ?_
    cases o with
    | delete t => exact h.del t
    | modify t v c =>
      show Lowered (match modify F d t v c with | .ok d' => (d', Res.ok ()) | .exit k => (d, .exit k) | .raise e => (d, .raise e)).1
      unfold modify
      cases hc : cleanEntry F t v c with
      | ok i => exact h.set (cleanEntry_lower hc)
      | exit k => exact h
      | raise e => exact h

/-- C61 is false for every spelling that is not in lower case: whatever the source of the object and the history of `modify` and `delete`, `get` finds nothing under it and
`delete` removes nothing - not even the entry `modify` has just stored under this spelling. -/
theorem C61_violation_every (F : FloatEnv) (allowed : List Str) (vt : Bool) (s : Sources) (d : Entries) (ops : List Op) (t : Str)
    (h : init F allowed vt s = .ok d) (ht : lower t ≠ t) : get (run F d ops) t = none ∧ delete (run F d ops) t = run F d ops := by
  have hl := run_lowered F ops d (init_lowered h)
  have hk : t ∉ (run F d ops).keys := fun hm => ht (hl t hm)
  have hg : (run F d ops).get? t = none := by
    rw [Dict.mem_keys_iff] at hk
    simpa using hk
  refine ⟨by simp [get, hg], ?_⟩
  unfold delete Dict.del
  rw [List.filter_eq_self]
  intro e he
  have : e.1 ∈ (run F d ops).keys := List.mem_map.2 ⟨e, he, rfl⟩
  simp only [decide_eq_true_eq, bne_iff_ne, ne_eq, Bool.not_eq_true', decide_eq_false_iff_not, beq_eq_false_iff_ne]
  rintro rfl
  exact hk this

example : lower c!"Encut" ≠ c!"Encut" ∧ (init exactEnv [] false { string := some c!"ENCUT = 300" }).isOk = true := by decide +kernel

end Verif.Incar
