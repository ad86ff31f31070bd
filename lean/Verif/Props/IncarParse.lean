import Verif.Lemmas.Incar2
/-!
# Properties of reading INCAR texts (C03, C04, C10, C11)

`fromList F lines` models `Incar._from_list`; `readlines`/`splitlines` give the lines of a file/of a string.
`assigns lines` (Spec/Incar.lean) lists the assignments of a text in reading order.
-/
set_option autoImplicit false
namespace Verif.Incar
open Verif Verif.Utils Verif.IncarSpec

/-- Specification: the assignment text `a.1` (comment `a.2`) is `tag=value` and yields the INCAR item `i`. -/
def Assigns (F : FloatEnv) (a : Str × Option Str) (i : Item) : Prop :=
  ∃ t v, a.1 = t ++ '=' :: v ∧ '=' ∉ t ∧ '=' ∉ v ∧ cleanEntry F t (.one (.str v)) a.2 = .ok i

theorem itemOf_ok_iff (F : FloatEnv) (a : Str × Option Str) (i : Item) : itemOf F a = .ok i ↔ Assigns F a i := by
  constructor
  · intro h
    unfold itemOf at h
    split at h
    · rename_i t v heq
      refine ⟨t, v, ?_, splitOn_pieces (s := a.1) (by rw [heq]; simp), splitOn_pieces (s := a.1) (by rw [heq]; simp), h⟩
      rw [← join_splitOn '=' a.1, heq]; simp [join]
    · cases h
    · cases h
  · rintro ⟨t, v, h1, h2, h3, h4⟩
    unfold itemOf
    rw [h1, splitOn_sep, splitOn_free h2, splitOn_free h3]
    exact h4

/-- C03. If the text is accepted, its assignments were interpreted one by one in reading order and every tag holds the item of
its last assignment; a tag without assignment is absent. -/
theorem C03_last_assignment_wins (F : FloatEnv) (lines : List Str) (d : Entries) (h : fromList F lines = .ok d) :
    ∃ items, List.Forall₂ (Assigns F) (assigns lines) items ∧
      (∀ t, d.get? t = lastFor Item.tag t items) ∧
      (∀ t, get d t = none ↔ ∀ i ∈ items, i.tag ≠ t) := by
  rw [fromList_eq, Res.bind_eq_ok] at h
  obtain ⟨items, h1, h2⟩ := h
  cases h2
  have hg : ∀ t, (List.foldl (fun d i => Dict.set d i.tag i) [] items).get? t = lastFor Item.tag t items := by
    intro t; rw [get?_foldl_set]; simp
  refine ⟨items, ?_, hg, ?_⟩
  · have := Res.mapM'_eq_ok.1 h1
    exact this.imp (fun a i => (itemOf_ok_iff F a i).1)
  · intro t
    simp only [get, hg, Option.map_eq_none_iff, lastFor, List.getLast?_eq_none_iff, List.filter_eq_nil_iff,
      decide_eq_true_eq, ne_eq]

/-- C03, the tag under which an assignment is stored: its first word in lower case, whatever the spacing and case. -/
theorem C03_tag_normalised (F : FloatEnv) (a : Str × Option Str) (i : Item) (h : Assigns F a i) :
    ∃ w ws, words (a.1.takeWhile (· != '=')) = w :: ws ∧ i.tag = lower w := by
  obtain ⟨t, v, h1, h2, _, h4⟩ := h
  rw [cleanEntry_str] at h4
  have : a.1.takeWhile (· != '=') = t := by
    rw [← split1_fst_takeWhile, h1, split1_sep v h2]
  rw [this]
  split at h4
  · cases h4
  · rename_i w ws heq
    refine ⟨w, ws, heq, ?_⟩
    split at h4
    · cases h4; rfl
    · rw [Res.bind_eq_ok] at h4
      obtain ⟨v', _, h5⟩ := h4
      cases h5; rfl

example : (fromList exactEnv [c!"ENCUT = 300\n", c!" # hello\n", c!" encut=400 ; Isym = 0\n"]) =
    .ok [(c!"encut", ⟨c!"encut", .one (.int 400), none⟩), (c!"isym", ⟨c!"isym", .one (.int 0), none⟩)] := by decide +kernel

/-- C04 (a). A blank or comment-only line may be put anywhere: the outcome is exactly the same. -/
theorem C04_comment_lines_inert (F : FloatEnv) (pre post : List Str) (c : Str) (h : Blank c) :
    fromList F (pre ++ c :: post) = fromList F (pre ++ post) := by
  rw [fromList_eq, fromList_eq]
  have : assigns (pre ++ c :: post) = assigns (pre ++ post) := by
    rw [assigns_append, assigns_append, show c :: post = [c] ++ post from rfl, assigns_append, assigns_blank c h]; rfl
  rw [this]

example : Blank c!"  # a comment = with; signs\n" ∧ Blank c!" \t\n" ∧ ¬ Blank c!"A = 1 # x" := by decide

/-- What `Incar` holds, without the comments. -/
def valuesOutcome (r : Res Entries) : Res (List (Str × Value)) := valuesOf <$> r

theorem mapM'_tagValue_congr (F : FloatEnv) (l l' : Str) (h : code l = code l') :
    Res.mapM' (fun a => tagValue <$> itemOf F a) (assigns [l]) = Res.mapM' (fun a => tagValue <$> itemOf F a) (assigns [l']) := by
  simp only [assigns, List.flatMap_cons, List.flatMap_nil, List.append_nil]
  rw [mapM'_map, mapM'_map, assignTexts_congr h]
  exact mapM'_congr (fun p _ => itemOf_remark F p _ _)

theorem valuesOutcome_congr (F : FloatEnv) (pre post : List Str) (l l' : Str)
    (h : Res.mapM' (fun a => tagValue <$> itemOf F a) (assigns [l]) = Res.mapM' (fun a => tagValue <$> itemOf F a) (assigns [l'])) :
    valuesOutcome (fromList F (pre ++ l :: post)) = valuesOutcome (fromList F (pre ++ l' :: post)) := by
  unfold valuesOutcome
  rw [valuesOf_fromList, valuesOf_fromList]
  have e : ∀ x, assigns (pre ++ x :: post) = assigns pre ++ (assigns [x] ++ assigns post) := by
    intro x; rw [assigns_append, show x :: post = [x] ++ post from rfl, assigns_append]
  rw [e, e, mapM'_append, mapM'_append, mapM'_append, mapM'_append, h]

/-- C04 (b), lines without newline (INCAR given as a string): appending `# comment` to any line changes no tag and no value,
nor the kind of failure. -/
theorem C04_comment_appended (F : FloatEnv) (pre post : List Str) (a c : Str) :
    valuesOutcome (fromList F (pre ++ (a ++ '#' :: c) :: post)) = valuesOutcome (fromList F (pre ++ a :: post)) := by
  apply valuesOutcome_congr
  apply mapM'_tagValue_congr
  rcases hash_cases a with h | ⟨x, y, hx, rfl⟩
  · rw [code_hash _ h, code_eq_self h]
  · rw [List.append_assoc, List.cons_append, code_hash _ hx, code_hash _ hx]

/-- C04 (c), partial, lines terminated by a newline (INCAR read from a file): the same unless the line ends with `;`. Missing:
lines ending with `;`, for which the claim is false, see `C04_violation_semicolon`. -/
theorem C04_comment_appended_file_partial (F : FloatEnv) (pre post : List Str) (a c : Str)
    (hnl : '\n' ∉ a) (hs : a.getLast? ≠ some ';') :
    valuesOutcome (fromList F (pre ++ (a ++ '#' :: (c ++ ['\n'])) :: post)) =
      valuesOutcome (fromList F (pre ++ (a ++ ['\n']) :: post)) := by
  rw [C04_comment_appended]
  apply valuesOutcome_congr
  rw [← mapM'_fmap, ← mapM'_fmap, mapM'_assign_newline F a hnl (.inl hs)]

/-- C04 is violated for a file line ending with `;`: `"NSW = 1;"` is accepted, `"NSW = 1;# c"` exits 102. -/
theorem C04_violation_semicolon : ∃ a c : Str, '\n' ∉ a ∧
    valuesOutcome (fromList exactEnv [a ++ ['\n']]) = .ok [(c!"nsw", .one (.int 1))] ∧
    valuesOutcome (fromList exactEnv [a ++ '#' :: (c ++ ['\n'])]) = .exit 102 :=
  ⟨c!"NSW = 1;", c!" c", by decide, by decide +kernel, by decide +kernel⟩

example : (c!"NSW = 1; Isif = 3 ").getLast? ≠ some ';' ∧ '\n' ∉ c!"NSW = 1; Isif = 3 " := by decide

/-- C10, partial: a text whose only line breaks are newlines and in which no line ends with `;` in front of a comment-free
newline is parsed to the same entries (comments included) from a string and from a file. Missing: texts with a trailing `;`
(claim false, `C10_violation`) and texts with exotic line breaks such as form feed (claim false, `C10_violation_formfeed`). -/
theorem C10_string_file_agree_partial (F : FloatEnv) (t : Str) (hb : ∀ c ∈ t, isLineBreak c = true → c = '\n')
    (hs : ∀ l ∈ splitlines t, l.getLast? ≠ some ';' ∨ '#' ∈ l) :
    fromList F (readlines t) = fromList F (splitlines t) := by
  have h := readlines_splitlines t hb
  revert hs
  rw [fromList_eq, fromList_eq]
  have key : ∀ (r s : List Str), List.Forall₂ (fun r s => '\n' ∉ s ∧ (r = s ∨ r = s ++ ['\n'])) r s →
      (∀ l ∈ s, l.getLast? ≠ some ';' ∨ '#' ∈ l) →
      Res.mapM' (itemOf F) (assigns r) = Res.mapM' (itemOf F) (assigns s) := by
    intro r s hrs
    induction hrs with
    | nil => intro _; rfl
    | @cons a b l₁ l₂ h1 h2 ih =>
      intro hs
      rw [show a :: l₁ = [a] ++ l₁ from rfl, show b :: l₂ = [b] ++ l₂ from rfl, assigns_append, assigns_append,
        mapM'_append, mapM'_append, ih (fun l hl => hs l (by simp [hl]))]
      rcases h1.2 with h' | h'
      · rw [h']
      · rw [h', mapM'_assign_newline F b h1.1 (hs b (by simp))]
  intro hs
  rw [key _ _ h hs]

example : (∀ c ∈ c!"A = 1 ; b=2 # x;\n\nC=3", isLineBreak c = true → c = '\n') ∧
    (∀ l ∈ splitlines c!"A = 1 ; b=2 # x;\n\nC=3", l.getLast? ≠ some ';' ∨ '#' ∈ l) := by decide +kernel

/-- C10 is violated by a trailing semicolon: accepted from a file, exit 102 from a string. -/
theorem C10_violation : ∃ t : Str,
    (fromList exactEnv (readlines t)).isOk = true ∧ fromList exactEnv (splitlines t) = .exit 102 :=
  ⟨c!"NSW = 1;\n", by decide +kernel, by decide +kernel⟩

/-- C10 is violated by a form feed inside a comment: ignored in a file, an entry of its own in a string. -/
theorem C10_violation_formfeed : ∃ t : Str,
    (fromList exactEnv (readlines t)).isOk = true ∧ fromList exactEnv (splitlines t) = .exit 102 :=
  ⟨c!"NSW = 1 # a" ++ [Char.ofNat 12] ++ c!"b\n", by decide +kernel, by decide +kernel⟩

/-! ### C11: malformed entries -/

theorem mapM'_first_bad {α β} (f : α → Res β) (pre post : List α) (a : α) (hpre : ∀ x ∈ pre, ∃ y, f x = .ok y) :
    (∀ k, f a = .exit k → Res.mapM' f (pre ++ a :: post) = .exit k) ∧
    (∀ e, f a = .raise e → Res.mapM' f (pre ++ a :: post) = .raise e) := by
  induction pre with
  | nil => constructor <;> intro k hk <;> simp [Res.mapM', hk]
  | cons x xs ih =>
    obtain ⟨y, hy⟩ := hpre x (by simp)
    have ih' := ih (fun z hz => hpre z (by simp [hz]))
    constructor
    · intro k hk; simp [Res.mapM', hy, ih'.1 k hk]
    · intro k hk; simp [Res.mapM', hy, ih'.2 k hk]

theorem itemOf_two (F : FloatEnv) (a : Str × Option Str) (h : 2 ≤ a.1.count '=') : itemOf F a = .exit 101 := by
  have := length_splitOn '=' a.1
  unfold itemOf
  match hs : splitOn '=' a.1 with
  | [] => rw [hs] at this; simp at this
  | [_] => rw [hs] at this; simp at this; omega
  | [_, _] => rw [hs] at this; simp at this; omega
  | _ :: _ :: _ :: _ => rfl

theorem itemOf_none (F : FloatEnv) (a : Str × Option Str) (h : a.1.count '=' = 0) : itemOf F a = .exit 102 := by
  have := length_splitOn '=' a.1
  unfold itemOf
  match hs : splitOn '=' a.1 with
  | [] => rfl
  | [_] => rfl
  | _ :: _ :: _ => rw [hs, h] at this; simp at this

/-- C11. The first assignment that is not acceptable decides the outcome: two `=` exit 101, no `=` exits 102. -/
theorem C11_malformed_entry (F : FloatEnv) (lines : List Str) (pre post : List (Str × Option Str)) (a : Str × Option Str)
    (hl : assigns lines = pre ++ a :: post) (hpre : ∀ x ∈ pre, ∃ i, Assigns F x i) :
    (2 ≤ a.1.count '=' → fromList F lines = .exit 101) ∧ (a.1.count '=' = 0 → fromList F lines = .exit 102) := by
  have hpre' : ∀ x ∈ pre, ∃ i, itemOf F x = .ok i := fun x hx => by
    obtain ⟨i, hi⟩ := hpre x hx; exact ⟨i, (itemOf_ok_iff F x i).2 hi⟩
  obtain ⟨h1, _⟩ := mapM'_first_bad (itemOf F) pre post a hpre'
  constructor
  · intro h; rw [fromList_eq, hl, h1 _ (itemOf_two F a h)]; rfl
  · intro h; rw [fromList_eq, hl, h1 _ (itemOf_none F a h)]; rfl

example : ∃ pre post : List (Str × Option Str), ∃ a : Str × Option Str,
    assigns [c!"A = 1\n", c!"b=2=3 # x\n"] = pre ++ a :: post ∧
    2 ≤ a.1.count '=' ∧ pre.length = 1 ∧ ∀ x ∈ pre, (itemOf exactEnv x).isOk = true :=
  ⟨[(c!"A = 1\n", none)], [], (c!"b=2=3 ", some c!" x\n"), by decide +kernel, by decide, rfl, by decide +kernel⟩

/-- C11. An accepted text drops nothing: every assignment has exactly one `=` and its tag is among the entries, and every entry
comes from an assignment. -/
theorem C11_nothing_dropped (F : FloatEnv) (lines : List Str) (d : Entries) (h : fromList F lines = .ok d) :
    (∀ a ∈ assigns lines, a.1.count '=' = 1 ∧ ∃ i, Assigns F a i ∧ i.tag ∈ d.keys) ∧
    (∀ t ∈ d.keys, ∃ a ∈ assigns lines, ∃ i, Assigns F a i ∧ i.tag = t ∧ d.get? t = some i) := by
  obtain ⟨items, h1, h2, h3⟩ := C03_last_assignment_wins F lines d h
  constructor
  · intro a ha
    obtain ⟨i, hi, hai⟩ : ∃ i ∈ items, Assigns F a i := by
      clear h2 h3 h
      generalize assigns lines = L at h1 ha
      induction h1 with
      | nil => cases ha
      | cons hx _ ih =>
        rcases List.mem_cons.1 ha with rfl | ha
        · exact ⟨_, by simp, hx⟩
        · obtain ⟨i, hi, h⟩ := ih ha; exact ⟨i, by simp [hi], h⟩
    refine ⟨?_, i, hai, ?_⟩
    · obtain ⟨t, v, e1, e2, e3, _⟩ := hai
      rw [e1, List.count_append, List.count_cons_self, List.count_eq_zero_of_not_mem e2, List.count_eq_zero_of_not_mem e3]
    · rw [Dict.mem_keys_iff]
      cases hg : d.get? i.tag with
      | some => rfl
      | none =>
        have : get d i.tag = none := by simp [get, hg]
        exact absurd rfl ((h3 _).1 this i hi)
  · intro t ht
    rw [Dict.mem_keys_iff, h2] at ht
    obtain ⟨i, hi⟩ := Option.isSome_iff_exists.1 ht
    have hm : i ∈ items ∧ i.tag = t := by
      have := List.mem_of_getLast? hi
      simpa using this
    obtain ⟨a, ha, hai⟩ : ∃ a ∈ assigns lines, Assigns F a i := by
      clear h2 h3 h hi ht
      generalize assigns lines = L at h1
      induction h1 with
      | nil => cases hm.1
      | cons hx _ ih =>
        rcases List.mem_cons.1 hm.1 with rfl | ha
        · exact ⟨_, by simp, hx⟩
        · obtain ⟨a, ha', h⟩ := ih ⟨ha, hm.2⟩; exact ⟨a, by simp [ha'], h⟩
    exact ⟨a, ha, i, hai, hm.2, by rw [h2, hi]⟩

/-- Failures of one value: which exits and exceptions `cleanString` has. -/
theorem cleanToken_raise (F : FloatEnv) (w : Str) (e : Exc) (h : cleanToken F w = .raise e) :
    e = .valueError ∧ ((∃ b, pyFloat w = some (.inf b)) ∨ pyFloat w = some .nan) := by
  unfold cleanToken at h
  split at h
  · rename_i hk
    split at h
    · cases h
    · rename_i hi
      cases h
      refine ⟨rfl, ?_⟩
      cases hf : pyFloat w with
      | none => rw [(testStringContent_string w).2 hf] at hk; cases hk
      | some f =>
        cases f with
        | fin d => rw [testStringContent_of_float hf hi] at hk; cases hk
        | inf b => exact .inl ⟨b, rfl⟩
        | nan => exact .inr rfl
  · rename_i hk
    split at h
    · cases h
    · rename_i hi
      cases hf : pyFloat w with
      | none => rw [(testStringContent_string w).2 hf] at hk; cases hk
      | some f => simp [pyFloatR, hf] at hi
  · cases h

theorem mapM'_raise {α β} {f : α → Res β} {l : List α} {e : Exc} (h : Res.mapM' f l = .raise e) : ∃ a ∈ l, f a = .raise e := by
  induction l with
  | nil => cases h
  | cons a as ih =>
    simp only [Res.mapM'] at h
    cases hf : f a with
    | ok b =>
      rw [hf] at h
      cases hm : Res.mapM' f as with
      | ok => rw [hm] at h; cases h
      | exit => rw [hm] at h; cases h
      | raise e' =>
        rw [hm] at h; cases h
        obtain ⟨x, hx, hfx⟩ := ih hm; exact ⟨x, by simp [hx], hfx⟩
    | exit => rw [hf] at h; cases h
    | raise e' => rw [hf] at h; cases h; exact ⟨a, by simp, hf⟩

theorem mapM'_exit {α β} {f : α → Res β} {l : List α} {k : Nat} (h : Res.mapM' f l = .exit k) : ∃ a ∈ l, f a = .exit k := by
  induction l with
  | nil => cases h
  | cons a as ih =>
    simp only [Res.mapM'] at h
    cases hf : f a with
    | ok b =>
      rw [hf] at h
      cases hm : Res.mapM' f as with
      | ok => rw [hm] at h; cases h
      | raise => rw [hm] at h; cases h
      | exit e' =>
        rw [hm] at h; cases h
        obtain ⟨x, hx, hfx⟩ := ih hm; exact ⟨x, by simp [hx], hfx⟩
    | raise => rw [hf] at h; cases h
    | exit e' => rw [hf] at h; cases h; exact ⟨a, by simp, hf⟩

theorem cleanString_exit (F : FloatEnv) (v : Str) (k : Nat) (h : cleanString F v = .exit k) : k = 104 := by
  unfold cleanString at h
  split at h
  · dsimp only at h; split at h
    · cases h
    · cases h; rfl
  · rename_i c hm
    obtain ⟨w, _, hw⟩ := mapM'_exit hm
    unfold cleanToken at hw
    split at hw <;> (try split at hw) <;> cases hw
  · cases h

/-- C11, partial: the only other ways to fail. An exit is 101, 102 or 104 (mixed kinds); an uncaught exception is an
`IndexError` for an assignment with empty tag or a `ValueError` for a value token `inf`/`nan`. Missing: the claim that no
exception escapes, which is false (`C11_violation_nan`, `C11_violation_empty_tag`). -/
theorem C11_failures_partial (F : FloatEnv) (lines : List Str) :
    (∀ k, fromList F lines = .exit k → k = 101 ∨ k = 102 ∨ k = 104) ∧
    (∀ e, fromList F lines = .raise e → ∃ a ∈ assigns lines, ∃ t v, a.1 = t ++ '=' :: v ∧
      ((e = .indexError ∧ words t = []) ∨
       (e = .valueError ∧ ∃ w ∈ words v, (∃ b, pyFloat w = some (.inf b)) ∨ pyFloat w = some .nan))) := by
  rw [fromList_eq]
  constructor
  · intro k h
    cases hm : Res.mapM' (itemOf F) (assigns lines) with
    | ok => rw [hm] at h; cases h
    | raise => rw [hm] at h; cases h
    | exit c =>
      rw [hm] at h; cases h
      obtain ⟨a, _, ha⟩ := mapM'_exit hm
      unfold itemOf at ha
      split at ha
      · rw [cleanEntry_str] at ha
        split at ha
        · cases ha
        · split at ha
          · cases ha
          · rename_i value _ _ _ _ _ _
            cases hc : cleanString F value with
            | ok => rw [hc] at ha; cases ha
            | raise => rw [hc] at ha; cases ha
            | exit c' => rw [hc] at ha; cases ha; exact .inr (.inr (cleanString_exit F _ _ hc))
      · cases ha; exact .inl rfl
      · cases ha; exact .inr (.inl rfl)
  · intro e h
    cases hm : Res.mapM' (itemOf F) (assigns lines) with
    | ok => rw [hm] at h; cases h
    | exit => rw [hm] at h; cases h
    | raise c =>
      rw [hm] at h; cases h
      obtain ⟨a, hmem, ha⟩ := mapM'_raise hm
      refine ⟨a, hmem, ?_⟩
      unfold itemOf at ha
      split at ha
      · rename_i t v heq
        refine ⟨t, v, by rw [← join_splitOn '=' a.1, heq]; simp [join], ?_⟩
        rw [cleanEntry_str] at ha
        split at ha
        · rename_i hw; cases ha; exact .inl ⟨rfl, hw⟩
        · split at ha
          · cases ha
          · right
            unfold cleanString at ha
            split at ha
            · rename_i r _; dsimp only at ha; split at ha <;> cases ha
            · cases ha
            · rename_i e' hm'
              cases ha
              obtain ⟨w, hw, hwe⟩ := mapM'_raise hm'
              obtain ⟨h1, h2⟩ := cleanToken_raise F w _ hwe
              exact ⟨h1, w, hw, h2⟩
      · cases ha
      · cases ha

/-- C11 is violated: the well formed entry `EDIFF = nan` raises an uncaught `ValueError`. -/
theorem C11_violation_nan : ∃ l : Str, fromList exactEnv [l] = .raise .valueError ∧ (assigns [l]).length = 1 ∧ l.count '=' = 1 :=
  ⟨c!"EDIFF = nan", by decide +kernel, by decide +kernel, by decide⟩

/-- C11 is violated: an entry without tag raises an uncaught `IndexError` instead of a documented exit. -/
theorem C11_violation_empty_tag : ∃ l : Str, fromList exactEnv [l] = .raise .indexError ∧ l.count '=' = 1 :=
  ⟨c!" = 3", by decide +kernel, by decide⟩

end Verif.Incar
