import Verif.Props.IncarExact
import Verif.Lemmas.Ok
/-! # C153: which INCAR texts, dictionaries and assignments are accepted -/
set_option autoImplicit false
namespace Verif.Incar.Accepts
open Verif Verif.Utils Verif.IncarSpec Verif.Incar

/-! ### specification -/

/-- A number that is not whole: a finite decimal number `int()` rejects. -/
def Fraction (w : Str) : Prop := (∃ d, pyFloat w = some (.fin d)) ∧ ¬ IsInt w
/-- No number. -/
def Text (w : Str) : Prop := pyFloat w = none
/-- All words are whole numbers, or all are other finite numbers, or none is a number. -/
def OneKind (ws : List Str) : Prop := (∀ w ∈ ws, IsInt w) ∨ (∀ w ∈ ws, Fraction w) ∨ ∀ w ∈ ws, Text w

/-- The tag, given by the first word in any case, is one of those whose text is kept. -/
def Kept (w : Str) : Prop := lower w ∈ [c!"system", c!"magmom", c!"m_constr"]

/-- An assignment of a text: one `=`, a tag in front of it, and, but for the tags whose text is kept, words of one kind behind it. -/
def Entry (p : Str) : Prop :=
  ∃ t v w ws, p = t ++ '=' :: v ∧ '=' ∉ t ∧ '=' ∉ v ∧ words t = w :: ws ∧ (Kept w ∨ OneKind (words v))

/-- What is wrong with an assignment, and how it ends the reading: an exit with a code, or an exception. -/
inductive Fault : Str → Nat ⊕ Exc → Prop
  | two {p : Str} (h : 2 ≤ p.count '=') : Fault p (.inl 101)
  | none {p : Str} (h : p.count '=' = 0) : Fault p (.inl 102)
  | tagless {t v : Str} (ht : '=' ∉ t) (hv : '=' ∉ v) (h : ∀ c ∈ t, isSpace c = true) : Fault (t ++ '=' :: v) (.inr .indexError)
  | special {t v w : Str} {ws : List Str} (ht : '=' ∉ t) (hv : '=' ∉ v) (hw : words t = w :: ws) (hk : ¬ Kept w) (h : ∃ x ∈ words v, NonFinite x) :
      Fault (t ++ '=' :: v) (.inr .valueError)
  | mixed {t v w : Str} {ws : List Str} (ht : '=' ∉ t) (hv : '=' ∉ v) (hw : words t = w :: ws) (hk : ¬ Kept w) (h : ∀ x ∈ words v, ¬ NonFinite x)
      (hm : ¬ OneKind (words v)) : Fault (t ++ '=' :: v) (.inl 104)

/-- The first assignment of the text that is at fault has this fault. -/
def FirstFault (L : List Str) (c : Nat ⊕ Exc) : Prop :=
  ∃ pre a post, assigns L = pre ++ a :: post ∧ (∀ x ∈ pre, Entry x.1) ∧ Fault a.1 c

/-- An item of a dictionary or the arguments of `modify`: a tag, and behind it a string of words of one kind, or a value that is not a string but of one of the types. -/
def Given (tag : Str) (value : Value) : Prop :=
  ∃ w ws, words tag = w :: ws ∧ value ≠ .other ∧ ∀ s, value = .one (.str s) → Kept w ∨ OneKind (words s)

/-- An item of a dictionary: a string may have one `#`, and only what is in front of it counts. -/
def GivenItem (tag : Str) (value : Value) : Prop :=
  ∃ w ws, words tag = w :: ws ∧ value ≠ .other ∧ ∀ s, value = .one (.str s) → s.count '#' ≤ 1 ∧ (Kept w ∨ OneKind (words (s.takeWhile (· != '#'))))

/-- The tag of every assignment is in the table. -/
def TagsIn (allowed : List Str) (L : List Str) : Prop :=
  ∀ a ∈ assigns L, ∀ w ws, words (a.1.takeWhile (· != '=')) = w :: ws → lower w ∈ allowed

/-! ### words -/

theorem three (w : Str) : IsInt w ∨ Fraction w ∨ Text w ∨ NonFinite w := by
  unfold Fraction Text NonFinite
  by_cases hi : IsInt w
  · exact .inl hi
  · cases h : pyFloat w with
    | none => exact .inr (.inr (.inl rfl))
    | some f =>
      cases f with
      | fin d => exact .inr (.inl ⟨⟨d, rfl⟩, hi⟩)
      | inf b => exact .inr (.inr (.inr (.inl ⟨b, rfl⟩)))
      | nan => exact .inr (.inr (.inr (.inr rfl)))

theorem isInt_some {w : Str} : IsInt w ↔ (pyInt w).isSome := by
  unfold IsInt; rw [Option.isSome_iff_exists]

theorem not_special {w : Str} (h : IsInt w ∨ Fraction w ∨ Text w) : ¬ NonFinite w := by
  intro hn
  rcases h with h | ⟨⟨d, h⟩, -⟩ | h
  · obtain ⟨n, hn'⟩ := h
    rw [pyInt_special hn] at hn'; cases hn'
  · rcases hn with ⟨b, hn⟩ | hn <;> rw [h] at hn <;> cases hn
  · unfold Text at h; rcases hn with ⟨b, hn⟩ | hn <;> rw [h] at hn <;> cases hn

theorem kind_int {w : Str} (h : ¬ NonFinite w) : testStringContent w = .int ↔ IsInt w := by
  rw [(C45_classification_partial w h).1, isInt_some]

theorem kind_float {w : Str} (h : ¬ NonFinite w) : testStringContent w = .float ↔ Fraction w := by
  rw [(C45_classification_partial w h).2.1]
  unfold Fraction
  rw [isInt_some]
  constructor
  · rintro ⟨h1, h2⟩
    obtain ⟨f, hf⟩ := Option.isSome_iff_exists.1 h1
    refine ⟨?_, by rw [h2]; simp⟩
    cases f with
    | fin d => exact ⟨d, hf⟩
    | inf b => exact absurd (.inl ⟨b, hf⟩) h
    | nan => exact absurd (.inr hf) h
  · rintro ⟨⟨d, hd⟩, h2⟩
    exact ⟨by rw [hd]; rfl, by simpa using h2⟩

theorem kind_text (w : Str) : testStringContent w = .string ↔ Text w := C45_string_iff w

/-- Words that are not special have one kind exactly if they do not differ in kind. -/
theorem oneKind_iff {ws : List Str} (h : ∀ w ∈ ws, ¬ NonFinite w) : OneKind ws ↔ ∀ a ∈ ws, ∀ b ∈ ws, testStringContent a = testStringContent b := by
  constructor
  · rintro (hk | hk | hk) a ha b hb
    · rw [(kind_int (h a ha)).2 (hk a ha), (kind_int (h b hb)).2 (hk b hb)]
    · rw [(kind_float (h a ha)).2 (hk a ha), (kind_float (h b hb)).2 (hk b hb)]
    · rw [(kind_text a).2 (hk a ha), (kind_text b).2 (hk b hb)]
  · intro hs
    cases ws with
    | nil => exact .inl (by simp)
    | cons x xs =>
      cases hx : testStringContent x with
      | int => exact .inl fun w hw => (kind_int (h w hw)).1 (by rw [hs w hw x (by simp), hx])
      | float => exact .inr (.inl fun w hw => (kind_float (h w hw)).1 (by rw [hs w hw x (by simp), hx]))
      | string => exact .inr (.inr fun w hw => (kind_text w).1 (by rw [hs w hw x (by simp), hx]))

theorem OneKind.not_special {ws : List Str} (h : OneKind ws) : ∀ w ∈ ws, ¬ NonFinite w := by
  intro w hw
  rcases h with h | h | h
  · exact Accepts.not_special (.inl (h w hw))
  · exact Accepts.not_special (.inr (.inl (h w hw)))
  · exact Accepts.not_special (.inr (.inr (h w hw)))

theorem token_ok (F : FloatEnv) {w : Str} (h : ¬ NonFinite w) : ∃ s, cleanToken F w = .ok (testStringContent w, s) := by
  obtain ⟨h1, h2, h3⟩ := C45_classification_partial w h
  unfold cleanToken
  split
  · rename_i hk
    obtain ⟨i, hi⟩ := Option.isSome_iff_exists.1 (h1.1 hk)
    exact ⟨.int i, by rw [hi, hk]⟩
  · rename_i hk
    obtain ⟨f, hf⟩ := Option.isSome_iff_exists.1 (h2.1 hk).1
    unfold pyFloatR; rw [hf, hk]; exact ⟨_, rfl⟩
  · rename_i hk
    rw [hk]; exact ⟨_, rfl⟩

theorem cleanString_good (F : FloatEnv) {v : Str} (h : OneKind (words v)) : Ok (cleanString F v) := by
  have hn := h.not_special
  have hs := (oneKind_iff hn).1 h
  have hm : ∃ r, Res.mapM' (cleanToken F) (words v) = .ok r ∧ r.map Prod.fst = (words v).map testStringContent := by
    clear h hs
    generalize words v = L at hn ⊢
    induction L with
    | nil => exact ⟨[], rfl, rfl⟩
    | cons t ts ih =>
      obtain ⟨s, hs⟩ := token_ok F (hn t (by simp))
      obtain ⟨r, hr1, hr2⟩ := ih fun x hx => hn x (by simp [hx])
      exact ⟨(testStringContent t, s) :: r, by simp [Res.mapM', hs, hr1], by simp [hr2]⟩
  obtain ⟨r, hr, hr2⟩ := hm
  unfold cleanString
  rw [hr]
  dsimp only
  have : allSame (r.map Prod.fst) = true := by
    rw [hr2]
    cases hw : words v with
    | nil => rfl
    | cons t ts =>
      rw [hw] at hs
      simp only [List.map_cons, allSame, List.all_cons, List.all_eq_true, beq_iff_eq, Bool.and_eq_true, List.mem_map, forall_exists_index, and_imp,
        forall_apply_eq_imp_iff₂]
      exact ⟨trivial, fun x hx => hs x (by simp [hx]) t (by simp)⟩
  rw [if_pos this]
  exact ok_ok _

theorem cleanString_special (F : FloatEnv) {v : Str} (h : ∃ x ∈ words v, NonFinite x) : cleanString F v = .raise .valueError := by
  unfold cleanString; rw [mapM'_valueError F _ h]

theorem cleanString_ok (F : FloatEnv) (v : Str) : Ok (cleanString F v) ↔ OneKind (words v) := by
  constructor
  · rintro ⟨r, hr⟩
    have hn : ∀ x ∈ words v, ¬ NonFinite x := fun x hx hs => by rw [cleanString_special F ⟨x, hx, hs⟩] at hr; cases hr
    rw [oneKind_iff hn]
    intro a ha b hb
    by_contra hab
    have := C05_mixed_exit_partial F c!"a" v none c!"a" [] (by decide) (by decide) hn a b ha hb hab
    rw [cleanEntry_str, show words c!"a" = [c!"a"] by decide] at this
    dsimp only at this
    rw [if_neg (by decide), hr] at this
    cases this
  · exact cleanString_good F

theorem cleanEntry_ok (F : FloatEnv) (tag : Str) (value : Value) (c : Option Str) : Ok (cleanEntry F tag value c) ↔ Given tag value := by
  unfold Given
  cases value with
  | other =>
    constructor
    · rintro ⟨i, hi⟩
      unfold cleanEntry at hi
      cases hw : words tag <;> rw [hw] at hi <;> cases hi
    · rintro ⟨w, ws, -, h, -⟩; exact absurd rfl h
  | list l =>
    unfold cleanEntry
    cases hw : words tag with
    | nil => simp [Ok]
    | cons w ws => simp [Ok]
  | one s =>
    cases s with
    | str s =>
      rw [cleanEntry_str]
      cases hw : words tag with
      | nil => simp [Ok]
      | cons w ws =>
        dsimp only
        by_cases hk : lower w ∈ rawTags
        · rw [if_pos hk]
          exact ⟨fun _ => ⟨w, ws, rfl, by simp, fun _ _ => .inl hk⟩, fun _ => ok_ok _⟩
        · rw [if_neg hk, ok_bind_const (P := True) (fun _ _ => ⟨fun _ => trivial, fun _ => ok_ok _⟩), and_true, cleanString_ok]
          constructor
          · intro h; exact ⟨w, ws, rfl, by simp, fun s' hs => by cases hs; exact .inr h⟩
          · rintro ⟨w', ws', hw', -, h⟩
            cases hw'
            exact (h s rfl).resolve_left hk
    | int i =>
      unfold cleanEntry
      cases hw : words tag with
      | nil => simp [Ok]
      | cons w ws => simp [Ok]
    | float i =>
      unfold cleanEntry
      cases hw : words tag with
      | nil => simp [Ok]
      | cons w ws => simp [Ok]
    | bool i =>
      unfold cleanEntry
      cases hw : words tag with
      | nil => simp [Ok]
      | cons w ws => simp [Ok]

/-! ### assignments of a text -/

theorem itemOf_ok (F : FloatEnv) (a : Str × Option Str) : Ok (itemOf F a) ↔ Entry a.1 := by
  unfold Ok
  simp only [itemOf_ok_iff]
  unfold Assigns Entry
  constructor
  · rintro ⟨i, t, v, h1, h2, h3, h4⟩
    obtain ⟨w, ws, hw, -, h⟩ := (cleanEntry_ok F t (.one (.str v)) a.2).1 ⟨i, h4⟩
    exact ⟨t, v, w, ws, h1, h2, h3, hw, h v rfl⟩
  · rintro ⟨t, v, w, ws, h1, h2, h3, hw, h⟩
    obtain ⟨i, hi⟩ := (cleanEntry_ok F t (.one (.str v)) a.2).2 ⟨w, ws, hw, by simp, fun s hs => by cases hs; exact h⟩
    exact ⟨i, t, v, h1, h2, h3, hi⟩

/-- How a computation ends that does not succeed. -/
def Ends {α : Type} (r : Res α) : Nat ⊕ Exc → Prop
  | .inl k => r = .exit k
  | .inr e => r = .raise e

theorem itemOf_pair (F : FloatEnv) (t v : Str) (c : Option Str) (ht : '=' ∉ t) (hv : '=' ∉ v) : itemOf F (t ++ '=' :: v, c) = cleanEntry F t (.one (.str v)) c := by
  unfold itemOf
  dsimp only
  rw [splitOn_sep, splitOn_free ht, splitOn_free hv]
  rfl

theorem Fault.ends (F : FloatEnv) {p : Str} {c : Nat ⊕ Exc} (h : Fault p c) (r : Option Str) : Ends (itemOf F (p, r)) c := by
  cases h with
  | two h => exact itemOf_two F (p, r) h
  | none h => exact itemOf_none F (p, r) h
  | @tagless t v ht hv h =>
    show itemOf F (t ++ '=' :: v, r) = .raise .indexError
    rw [itemOf_pair F t v r ht hv]
    unfold cleanEntry
    rw [(words_eq_nil_iff t).2 h]
  | @special t v w ws ht hv hw hk h =>
    show itemOf F (t ++ '=' :: v, r) = .raise .valueError
    rw [itemOf_pair F t v r ht hv]
    exact C05_violation_nan F t v r w ws hw hk h
  | @mixed t v w ws ht hv hw hk hn hm =>
    show itemOf F (t ++ '=' :: v, r) = .exit 104
    rw [itemOf_pair F t v r ht hv]
    rw [oneKind_iff hn] at hm
    simp only [not_forall] at hm
    obtain ⟨a, ha, b, hb, hab⟩ := hm
    exact C05_mixed_exit_partial F t v r w ws hw hk hn a b ha hb hab

theorem Fault.total (p : Str) (h : ¬ Entry p) : ∃ c, Fault p c := by
  by_cases h2 : 2 ≤ p.count '='
  · exact ⟨_, .two h2⟩
  by_cases h0 : p.count '=' = 0
  · exact ⟨_, .none h0⟩
  have hm : '=' ∈ p := List.count_pos_iff.1 (by omega)
  obtain ⟨t, v, rfl, ht⟩ := List.eq_append_cons_of_mem hm
  have hv : '=' ∉ v := by
    intro hv
    have := List.count_pos_iff.2 hv
    rw [List.count_append, List.count_cons_self] at h2
    omega
  cases hw : words t with
  | nil => exact ⟨_, .tagless ht hv ((words_eq_nil_iff t).1 hw)⟩
  | cons w ws =>
    have hk : ¬ Kept w := fun hk => h ⟨t, v, w, ws, rfl, ht, hv, hw, .inl hk⟩
    have ho : ¬ OneKind (words v) := fun ho => h ⟨t, v, w, ws, rfl, ht, hv, hw, .inr ho⟩
    by_cases hs : ∃ x ∈ words v, NonFinite x
    · exact ⟨_, .special ht hv hw hk hs⟩
    · exact ⟨_, .mixed ht hv hw hk (fun x hx hn => hs ⟨x, hx, hn⟩) ho⟩

/-! ### C153 -/

/-- **C153.** An INCAR text is accepted exactly if every assignment of it has one `=`, a tag, and, but for SYSTEM, MAGMOM and M_CONSTR, values of one kind: whole
numbers, other finite numbers, or words that are no numbers. -/
theorem C153_accepted (F : FloatEnv) (L : List Str) : Ok (fromList F L) ↔ ∀ a ∈ assigns L, Entry a.1 := by
  rw [fromList_eq, ok_bind_const (P := True) (fun _ _ => ⟨fun _ => trivial, fun _ => ok_ok _⟩), and_true, ok_mapM']
  exact forall₂_congr fun a _ => itemOf_ok F a

theorem first_bad {L : List (Str × Option Str)} (h : ¬ ∀ a ∈ L, Entry a.1) : ∃ pre a post, L = pre ++ a :: post ∧ (∀ x ∈ pre, Entry x.1) ∧ ¬ Entry a.1 := by
  induction L with
  | nil => simp at h
  | cons x xs ih =>
    by_cases hx : Entry x.1
    · obtain ⟨pre, a, post, h1, h2, h3⟩ := ih fun h' => h (by simpa [hx] using h')
      exact ⟨x :: pre, a, post, by rw [h1]; rfl, by simpa [hx] using h2, h3⟩
    · exact ⟨[], x, xs, rfl, by simp, hx⟩

theorem firstFault_ends (F : FloatEnv) (L : List Str) (c : Nat ⊕ Exc) (h : FirstFault L c) : Ends (fromList F L) c := by
  obtain ⟨pre, a, post, h1, h2, h3⟩ := h
  have h4 := h3.ends F a.2
  have h5 := mapM'_first_bad (itemOf F) pre post a fun x hx => (itemOf_ok F x).2 (h2 x hx)
  rw [fromList_eq, h1]
  cases c with
  | inl k => show _ = Res.exit k; rw [h5.1 k h4]; rfl
  | inr e => show _ = Res.raise e; rw [h5.2 e h4]; rfl

/-- **C153.** A text is refused as its first assignment at fault says: 101 for two `=`, 102 for none, `IndexError` for no tag, `ValueError` for the literal of an
infinity or NaN among the values, and 104 for values of several kinds; and never otherwise. -/
theorem C153_refused (F : FloatEnv) (L : List Str) (c : Nat ⊕ Exc) : Ends (fromList F L) c ↔ FirstFault L c := by
  constructor
  · intro h
    have hb : ¬ ∀ a ∈ assigns L, Entry a.1 := by
      rw [← C153_accepted F L]
      rintro ⟨d, hd⟩
      rw [hd] at h
      cases c <;> cases h
    obtain ⟨pre, a, post, h1, h2, h3⟩ := first_bad hb
    obtain ⟨c', hc'⟩ := Fault.total a.1 h3
    have hf : FirstFault L c' := ⟨pre, a, post, h1, h2, hc'⟩
    have he := firstFault_ends F L c' hf
    have : c = c' := by
      cases c <;> cases c' <;> simp only [Ends] at h he <;> rw [h] at he <;> cases he <;> rfl
    rw [this]; exact hf
  · exact firstFault_ends F L c

theorem keys_tags (F : FloatEnv) (L allowed : List Str) (d : Entries) (h : fromList F L = .ok d) : (∀ k ∈ d.keys, k ∈ allowed) ↔ TagsIn allowed L := by
  obtain ⟨h1, h2⟩ := C11_nothing_dropped F L d h
  constructor
  · intro hk a ha w ws hw
    obtain ⟨-, i, hi, hm⟩ := h1 a ha
    obtain ⟨w', ws', hw', ht⟩ := C03_tag_normalised F a i hi
    rw [hw] at hw'
    cases hw'
    rw [← ht]; exact hk _ hm
  · intro ht k hk
    obtain ⟨a, ha, i, hi, hik, -⟩ := h2 k hk
    obtain ⟨w, ws, hw, hiw⟩ := C03_tag_normalised F a i hi
    rw [← hik, hiw]
    exact ht a ha w ws hw

theorem validate_iff (allowed : List Str) (vt : Bool) (d : Entries) : Ok (validate vt allowed d) ↔ (vt = true → ∀ k ∈ d.keys, k ∈ allowed) := by
  unfold validate
  cases vt with
  | false => simp [Ok]
  | true =>
    simp only [Bool.not_true, Bool.false_eq_true, if_false]
    by_cases h : (d.keys.all fun k => decide (k ∈ allowed)) = true
    · rw [if_pos h]; simp only [List.all_eq_true, decide_eq_true_eq] at h; exact ⟨fun _ _ => h, fun _ => ok_ok _⟩
    · rw [if_neg h]
      simp only [List.all_eq_true, decide_eq_true_eq] at h
      exact ⟨(by rintro ⟨_, hx⟩; cases hx), fun h' => absurd (h' trivial) h⟩

theorem object_ok (F : FloatEnv) (allowed : List Str) (vt : Bool) (L : List Str) :
    Ok (fromList F L >>= fun entries => validate vt allowed entries >>= fun _ => .ok entries) ↔ (∀ a ∈ assigns L, Entry a.1) ∧ (vt = true → TagsIn allowed L) := by
  rw [ok_bind_const (P := vt = true → TagsIn allowed L), C153_accepted]
  intro d hd
  rw [ok_bind_const (P := True) (fun _ _ => ⟨fun _ => trivial, fun _ => ok_ok _⟩), and_true, validate_iff, keys_tags F L allowed d hd]

/-- **C153.** The object: an `Incar` can be made of a file (by name or handler) or a string exactly if its text is acceptable and, unless the validation is switched
off, every tag is in the table. -/
theorem C153_sources (F : FloatEnv) (allowed : List Str) (vt : Bool) (t : Str) :
    (Ok (init F allowed vt { path := some (some t) }) ↔ (∀ a ∈ assigns (readlines t), Entry a.1) ∧ (vt = true → TagsIn allowed (readlines t))) ∧
    (Ok (init F allowed vt { handler := some t }) ↔ (∀ a ∈ assigns (readlines t), Entry a.1) ∧ (vt = true → TagsIn allowed (readlines t))) ∧
    (Ok (init F allowed vt { string := some t }) ↔ (∀ a ∈ assigns (splitlines t), Entry a.1) ∧ (vt = true → TagsIn allowed (splitlines t))) :=
  ⟨object_ok F allowed vt (readlines t), object_ok F allowed vt (readlines t), object_ok F allowed vt (splitlines t)⟩

theorem dictItem_ok (F : FloatEnv) (tag : Str) (value : Value) : Ok (dictItem F tag value) ↔ GivenItem tag value := by
  by_cases hs : ∃ s, value = .one (.str s)
  · obtain ⟨s, rfl⟩ := hs
    have hl := length_splitOn '#' s
    have hp := split1_fst_takeWhile '#' s
    unfold dictItem
    dsimp only
    match h : splitOn '#' s with
    | [] => rw [h] at hl; simp at hl
    | [x] =>
      rw [h] at hl
      have hc : s.count '#' = 0 := by simpa using hl.symm
      have hf : '#' ∉ s := List.count_eq_zero.1 hc
      have ht : s.takeWhile (· != '#') = s := by rw [← hp, split1_free hf]
      rw [cleanEntry_ok]
      unfold Given GivenItem
      constructor
      · rintro ⟨w, ws, h1, h2, h3⟩; exact ⟨w, ws, h1, h2, fun s' hs' => by cases hs'; exact ⟨by omega, by rw [ht]; exact h3 s rfl⟩⟩
      · rintro ⟨w, ws, h1, h2, h3⟩; exact ⟨w, ws, h1, h2, fun s' hs' => by cases hs'; rw [← ht]; exact (h3 s rfl).2⟩
    | [x, y] =>
      rw [h] at hl
      have hc : s.count '#' = 1 := by simpa using hl.symm
      have ht : s.takeWhile (· != '#') = x := by
        have h2 := split1_fst_eq_head '#' s
        rw [h] at h2
        rw [← hp]
        simpa using h2.symm
      rw [cleanEntry_ok]
      unfold Given GivenItem
      constructor
      · rintro ⟨w, ws, h1, h2, h3⟩; exact ⟨w, ws, h1, by simp, fun s' hs' => by cases hs'; exact ⟨by omega, by rw [ht]; exact h3 x rfl⟩⟩
      · rintro ⟨w, ws, h1, h2, h3⟩; exact ⟨w, ws, h1, by simp, fun s' hs' => by cases hs'; rw [← ht]; exact (h3 s rfl).2⟩
    | x :: y :: z :: r =>
      rw [h] at hl
      simp only [List.length_cons] at hl
      constructor
      · rintro ⟨_, h⟩; cases h
      · rintro ⟨w, ws, -, -, h3⟩
        have := (h3 s rfl).1
        omega
  · have : dictItem F tag value = cleanEntry F tag value none := by
      unfold dictItem
      split
      · rename_i s; exact absurd ⟨s, rfl⟩ hs
      · rfl
    rw [this, cleanEntry_ok]
    unfold Given GivenItem
    constructor
    · rintro ⟨w, ws, h1, h2, h3⟩; exact ⟨w, ws, h1, h2, fun s hs' => absurd ⟨s, hs'⟩ hs⟩
    · rintro ⟨w, ws, h1, h2, h3⟩; exact ⟨w, ws, h1, h2, fun s hs' => absurd ⟨s, hs'⟩ hs⟩

/-- **C153.** A dictionary is accepted exactly if each of its items is. -/
theorem C153_dictionary (F : FloatEnv) (items : List (Str × Value)) : Ok (fromDict F items) ↔ ∀ p ∈ items, GivenItem p.1 p.2 := by
  unfold fromDict
  refine ok_foldlM' (P := fun p : Str × Value => GivenItem p.1 p.2) (I := fun _ => True) items (fun _ _ _ _ _ _ => trivial) (fun b a _ _ => ?_) [] trivial
  rw [← dictItem_ok F]
  cases dictItem F a.1 a.2 <;> simp [Ok]

/-- **C153.** `modify` succeeds exactly if the tag and the value are acceptable; what is stored already does not matter, and nor does the comment. -/
theorem C153_modify (F : FloatEnv) (d : Entries) (tag : Str) (value : Value) (c : Option Str) : Ok (modify F d tag value c) ↔ Given tag value := by
  rw [← cleanEntry_ok F tag value c]
  unfold modify
  cases cleanEntry F tag value c <;> simp [Ok]

/-! ### examples -/

example : (∀ a ∈ assigns [c!"ENCUT = 300 # eV", c!"SYSTEM = 1 and 2.5; ISIF=2", c!"", c!"# done"], (itemOf exactEnv a).isOk = true) := by decide +kernel
example : Entry c!" MAGMOM = 2*0 1.5" :=
  ⟨c!" MAGMOM ", c!" 2*0 1.5", c!"MAGMOM", [], rfl, by decide, by decide, by decide, .inl (by unfold Kept; decide +kernel)⟩
example : FirstFault [c!"ENCUT = 300", c!"ROPT = 1 1.5"] (.inl 104) := by
  rw [← C153_refused exactEnv]
  exact (by decide +kernel : fromList exactEnv [c!"ENCUT = 300", c!"ROPT = 1 1.5"] = .exit 104)
example : FirstFault [c!"= 300"] (.inr .indexError) := ⟨[], (c!"= 300", none), [], by decide +kernel, by simp, .tagless (t := []) (v := c!" 300") (by simp) (by decide) (by simp)⟩

end Verif.Incar.Accepts
