import Verif.Lemmas.Incar
import Verif.Lemmas.Repr
/-! More helper lemmas about the INCAR model: newline handling, comments, values. -/
set_option autoImplicit false
namespace Verif.Incar
open Verif Verif.Utils Verif.IncarSpec

theorem mapM'_congr {α β} {f g : α → Res β} {l : List α} (h : ∀ a ∈ l, f a = g a) : Res.mapM' f l = Res.mapM' g l := by
  induction l with
  | nil => rfl
  | cons a as ih =>
    simp only [Res.mapM', h a (by simp), ih (fun b hb => h b (by simp [hb]))]

theorem mapM'_snocLast {β} (f : Str → Res β) (x : Char) (ps : List Str) (hne : ps ≠ [])
    (h : ∀ p, f (p ++ [x]) = f p) : Res.mapM' f (snocLast x ps) = Res.mapM' f ps := by
  induction ps with
  | nil => exact absurd rfl hne
  | cons p ps ih =>
    cases ps with
    | nil => simp only [snocLast, Res.mapM', h]
    | cons p' ps => simp only [snocLast, Res.mapM'] at ih ⊢; rw [ih (by simp)]

theorem snocLast_mem {x : Char} {ps : List Str} {w : Str} (h : w ∈ snocLast x ps) :
    w ∈ ps ∨ (∃ v, w = v ++ [x] ∧ ps.getLast? = some v) ∨ ps = [] := by
  induction ps with
  | nil => simp
  | cons p ps ih =>
    cases ps with
    | nil => simp only [snocLast, List.mem_singleton] at h; right; left; exact ⟨p, h, rfl⟩
    | cons p' ps =>
      simp only [snocLast, List.mem_cons] at h
      rcases h with rfl | h
      · left; simp
      · rcases ih (by simpa [snocLast] using h) with h | ⟨v, h1, h2⟩ | h
        · left; exact List.mem_cons_of_mem _ h
        · right; left; exact ⟨v, h1, by simpa using h2⟩
        · simp at h

/-- The last piece is empty only if the string is empty or ends with the separator. -/
theorem splitOn_getLast_nil {c : Char} {s : Str} (h : (splitOn c s).getLast? = some []) : s = [] ∨ s.getLast? = some c := by
  induction s with
  | nil => exact .inl rfl
  | cons x xs ih =>
    right
    simp only [splitOn, splitP] at h ih
    have hne := splitP_ne_nil (fun y => y == c) xs
    split at h
    · rename_i hx
      simp only [beq_iff_eq] at hx; subst hx
      cases xs with
      | nil => rfl
      | cons y ys =>
        have h' : (splitP (fun y => y == x) (y :: ys)).getLast? = some [] := by
          cases hs : splitP (fun y => y == x) (y :: ys) with
          | nil => exact absurd hs hne
          | cons w ws => rw [hs] at h; simpa using h
        have := ih h'
        simp only [reduceCtorEq, false_or] at this
        simpa using this
    · cases hs : splitP (fun y => y == c) xs with
      | nil => exact absurd hs hne
      | cons w ws =>
        rw [hs] at h ih
        cases ws with
        | nil => simp [consHead] at h
        | cons w' ws =>
          have h' : (w :: w' :: ws).getLast? = some [] := by simpa [consHead] using h
          rcases ih h' with h1 | h1
          · subst h1; simp [splitP] at hs
          · cases xs with
            | nil => simp at h1
            | cons y ys => simpa using h1

theorem blank_iff (l : Str) : Blank l ↔ words (code l) = [] := (words_eq_nil_iff _).symm

theorem assignTexts_congr {l l' : Str} (h : code l = code l') : assignTexts l = assignTexts l' := by
  have hb : Blank l ↔ Blank l' := by rw [blank_iff, blank_iff, h]
  unfold assignTexts
  by_cases hl : Blank l
  · rw [if_pos hl, if_pos (hb.1 hl)]
  · rw [if_neg hl, if_neg (fun x => hl (hb.2 x)), h]

/-- A terminating newline does not matter unless the line ends with a `;`. -/
theorem mapM'_assign_newline (F : FloatEnv) (l : Str) (hnl : '\n' ∉ l) (hs : l.getLast? ≠ some ';' ∨ '#' ∈ l) :
    Res.mapM' (itemOf F) (assigns [l ++ ['\n']]) = Res.mapM' (itemOf F) (assigns [l]) := by
  simp only [assigns, List.flatMap_cons, List.flatMap_nil, List.append_nil]
  rw [mapM'_map, mapM'_map]
  rcases hash_cases l with h | ⟨a, c, ha, rfl⟩
  · have hs' : l.getLast? ≠ some ';' := by
      rcases hs with h' | h'
      · exact h'
      · exact absurd h' h
    have h' : '#' ∉ l ++ ['\n'] := by simp [h]
    rw [remark_none h, remark_none h']
    have hb : Blank (l ++ ['\n']) ↔ Blank l := by
      rw [blank_iff, blank_iff, code_eq_self h, code_eq_self h', words_newline]
    unfold assignTexts
    by_cases hbl : Blank l
    · rw [if_pos hbl, if_pos (hb.2 hbl)]
    · rw [if_neg hbl, if_neg (fun x => hbl (hb.1 x)), code_eq_self h, code_eq_self h']
      have hsp : splitOn ';' (l ++ ['\n']) = snocLast '\n' (splitOn ';' l) := splitP_snoc _ _ _ (by decide)
      have hf1 : (splitOn ';' l).filter (fun p => !decide (p = ['\n'])) = splitOn ';' l := by
        rw [List.filter_eq_self]
        intro p hp
        simp only [Bool.not_eq_true', decide_eq_false_iff_not]
        rintro rfl
        apply hnl
        have := join_splitOn ';' l
        rw [← this]
        clear this
        have key : ∀ ps : List Str, ['\n'] ∈ ps → '\n' ∈ join [';'] ps := by
          intro ps
          induction ps with
          | nil => simp
          | cons q qs ih =>
            intro hm
            cases qs with
            | nil => simp only [List.mem_singleton] at hm; subst hm; simp [join]
            | cons q' qs =>
              simp only [join, List.mem_append]
              rcases List.mem_cons.1 hm with rfl | hm
              · left; left; simp
              · right; exact ih hm
        exact key _ hp
      have hf2 : (snocLast '\n' (splitOn ';' l)).filter (fun p => !decide (p = ['\n'])) = snocLast '\n' (splitOn ';' l) := by
        rw [List.filter_eq_self]
        intro p hp
        simp only [Bool.not_eq_true', decide_eq_false_iff_not]
        rintro rfl
        rcases snocLast_mem hp with h1 | ⟨v, h1, h2⟩ | h1
        · have := List.filter_eq_self.1 hf1 _ h1; simp at this
        · have : v = [] := by simpa using (List.append_inj_left' (s₁ := []) h1 rfl).symm
          subst this
          rcases splitOn_getLast_nil h2 with h3 | h3
          · subst h3; exact hbl (by intro c hc; simp [code] at hc)
          · exact hs' h3
        · exact splitP_ne_nil _ _ h1
      rw [hsp, hf1, hf2]
      exact mapM'_snocLast _ _ _ (splitP_ne_nil _ _) (fun p => itemOf_newline F p none)
  · have e : a ++ '#' :: c ++ ['\n'] = a ++ '#' :: (c ++ ['\n']) := by simp
    rw [e, assignTexts_congr (l' := a ++ '#' :: c) (by rw [code_hash _ ha, code_hash _ ha]), remark_hash _ ha, remark_hash _ ha]
    exact mapM'_congr (fun p _ => itemOf_comment_newline F p c)

/-! ### tags and values do not depend on comments -/

/-- Outcome reduced to tags and values. -/
def tagValue (i : Item) : Str × Value := (i.tag, i.value)

theorem itemOf_remark (F : FloatEnv) (p : Str) (c c' : Option Str) :
    (tagValue <$> itemOf F (p, c)) = (tagValue <$> itemOf F (p, c')) := by
  unfold itemOf
  dsimp only
  split
  · rw [cleanEntry_str, cleanEntry_str]
    split
    · rfl
    · split
      · rfl
      · rename_i value _ _ _ _ _ _
        cases cleanString F value <;> rfl
  · rfl
  · rfl

theorem mapM'_fmap {α β γ} (g : β → γ) (f : α → Res β) (l : List α) :
    (List.map g <$> Res.mapM' f l) = Res.mapM' (fun a => g <$> f a) l := by
  induction l with
  | nil => rfl
  | cons a as ih =>
    simp only [Res.mapM', ← ih]
    cases f a <;> cases Res.mapM' f as <;> simp

/-- Entries reduced to tags and values, in storage order. -/
def valuesOf (d : Entries) : List (Str × Value) := d.map fun e => (e.1, e.2.value)

theorem valuesOf_set (d : Entries) (i : Item) :
    valuesOf (Dict.set d i.tag i) = Dict.set (valuesOf d) i.tag i.value := by
  induction d with
  | nil => rfl
  | cons e r ih =>
    obtain ⟨k, v⟩ := e
    simp only [Dict.set, valuesOf, List.map_cons] at ih ⊢
    split
    · rfl
    · simp [ih]

theorem valuesOf_foldl (d : Entries) (is : List Item) :
    valuesOf (is.foldl (fun d i => Dict.set d i.tag i) d) =
      (is.map tagValue).foldl (fun d p => Dict.set d p.1 p.2) (valuesOf d) := by
  induction is generalizing d with
  | nil => rfl
  | cons i is ih => simp only [List.foldl_cons, List.map_cons, ih, valuesOf_set, tagValue]

theorem valuesOf_fromList (F : FloatEnv) (lines : List Str) :
    (valuesOf <$> fromList F lines) =
      (Res.mapM' (fun a => tagValue <$> itemOf F a) (assigns lines) >>= fun ps =>
        .ok (ps.foldl (fun d p => Dict.set d p.1 p.2) [])) := by
  rw [fromList_eq, ← mapM'_fmap]
  cases Res.mapM' (itemOf F) (assigns lines) with
  | ok is => simp only [Res.ok_bind, Res.map_ok, valuesOf_foldl]; rfl
  | exit => rfl
  | raise => rfl

theorem assigns_append (a b : List Str) : assigns (a ++ b) = assigns a ++ assigns b := by
  simp [assigns]

theorem assigns_blank (c : Str) (h : Blank c) : assigns [c] = [] := by
  simp [assigns, assignTexts, h]

/-! ### string and file lines -/

/-- The lines of a file and of the same string correspond, up to the newline. -/
theorem readlines_splitlines (t : Str) (h : ∀ c ∈ t, isLineBreak c = true → c = '\n') :
    List.Forall₂ (fun r s => '\n' ∉ s ∧ (r = s ∨ r = s ++ ['\n'])) (readlines t) (splitlines t) := by
  induction t with
  | nil => rw [splitlines.eq_def]; exact .nil
  | cons x xs ih =>
    have ih' := ih (fun c hc => h c (by simp [hc]))
    have hxr : x ≠ '\r' := by rintro rfl; have := h '\r' (by simp) (by decide); revert this; decide
    rw [splitlines_cons_of_ne _ hxr, readlines]
    by_cases hx : x = '\n'
    · subst hx
      simp only [beq_self_eq_true, if_true, show isLineBreak '\n' = true by decide]
      exact .cons ⟨by simp, .inr rfl⟩ ih'
    · have hb : isLineBreak x = false := by
        cases hb : isLineBreak x with
        | false => rfl
        | true => exact absurd (h x (by simp) hb) hx
      have hx' : (x == '\n') = false := by simpa using hx
      simp only [hx', hb, Bool.false_eq_true, if_false]
      cases hr : readlines xs with
      | nil =>
        rw [hr] at ih'; cases hsp : splitlines xs with
        | nil => exact .cons ⟨by simpa using Ne.symm hx, .inl rfl⟩ .nil
        | cons => rw [hsp] at ih'; cases ih'
      | cons r rs =>
        rw [hr] at ih'
        cases hsp : splitlines xs with
        | nil => rw [hsp] at ih'; cases ih'
        | cons s ss =>
          rw [hsp] at ih'
          cases ih' with
          | cons h1 h2 =>
            refine .cons ⟨?_, ?_⟩ h2
            · simp only [List.mem_cons, not_or]; exact ⟨Ne.symm hx, h1.1⟩
            · rcases h1.2 with h | h
              · left; rw [h]
              · right; rw [h]; rfl

end Verif.Incar
