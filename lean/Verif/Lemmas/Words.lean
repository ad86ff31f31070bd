import Verif.Lemmas.NumClass
import Verif.Lemmas.Poscar
import Verif.Lemmas.Incar
/-! # Words of lines: stripping, numbers -/
set_option autoImplicit false
namespace Verif
open Verif.Utils

theorem lstrip_split (s : Str) : ∃ sp, s = sp ++ lstrip s ∧ ∀ c ∈ sp, isSpace c = true :=
  ⟨s.takeWhile isSpace, (List.takeWhile_append_dropWhile).symm, fun c h => List.all_eq_true.1 (List.all_takeWhile (l := s)) c h⟩

theorem words_lstrip (s : Str) : words (lstrip s) = words s := by
  obtain ⟨sp, h, hsp⟩ := lstrip_split s
  conv => rhs; rw [h]
  rw [words_spaces_append _ _ hsp]

theorem words_strip (s : Str) : words (strip s) = words s := by unfold strip; rw [words_rstrip, words_lstrip]

/-- A text that begins with a non-blank character: its first word begins with it. -/
theorem words_head_cons {c : Char} (cs : Str) (h : isSpace c = false) : ∃ w ws, words (c :: cs) = (c :: w) :: ws := by
  unfold words
  rw [splitP, if_neg (by rw [h]; simp)]
  cases hs : splitP isSpace cs with
  | nil => exact absurd hs (splitP_ne_nil _ _)
  | cons w ws => exact ⟨w, ws.filter (fun w => !w.isEmpty), by simp [consHead]⟩

theorem strip_head_words (s : Str) : (strip s).head? = (words s).head?.bind List.head? := by
  rw [← words_strip s]
  cases hs : strip s with
  | nil => rfl
  | cons c cs =>
    obtain ⟨w, ws, h⟩ := words_head_cons cs (strip_head s c (by rw [hs]; rfl))
    rw [h]; rfl

theorem strip_eq_nil_iff (s : Str) : strip s = [] ↔ words s = [] := by
  constructor
  · intro h; rw [← words_strip, h]; rfl
  · intro h
    cases hs : strip s with
    | nil => rfl
    | cons c cs =>
      obtain ⟨w, ws, h'⟩ := words_head_cons cs (strip_head s c (by rw [hs]; rfl))
      rw [← words_strip, hs, h'] at h; cases h

theorem digit_not_space {c : Char} (h : isDigit c = true) : isSpace c = false := by
  simp only [isDigit, Bool.and_eq_true, decide_eq_true_eq] at h
  have h1 : 48 ≤ c.toNat := h.1
  have h2 : c.toNat ≤ 57 := h.2
  simp only [isSpace, Bool.or_eq_false_iff, Bool.and_eq_false_iff, decide_eq_false_iff_not, beq_eq_false_iff_ne]
  omega

theorem takeSign_free {s : Str} (h : Free isSpace (takeSign s).2) : Free isSpace s := by
  obtain ⟨p, h1, h2⟩ := takeSign_suffix s
  rw [h1]
  intro c hc
  rcases List.mem_append.1 hc with hc | hc
  · rcases h2 c hc with rfl | rfl <;> rfl
  · exact h c hc

theorem spanDigits_free {b : Bool} {s : Str} (h : Free isSpace (spanDigits b s).2) : Free isSpace s := by
  obtain ⟨p, h1, h2⟩ := spanDigits_split b s
  rw [h1]
  intro c hc
  rcases List.mem_append.1 hc with hc | hc
  · rcases h2 c hc with hc | rfl
    · exact digit_not_space hc
    · rfl
  · exact h c hc

theorem free_nil : Free isSpace [] := fun _ h => by cases h

theorem parseExp_free {s : Str} {e : Int} (h : parseExp s = some e) : Free isSpace s := by
  cases s with
  | nil => exact free_nil
  | cons c cs =>
    simp only [parseExp] at h
    split at h
    · rename_i hc
      have hcs : Free isSpace cs := by
        apply takeSign_free
        apply spanDigits_free (b := false)
        split at h
        · rename_i he; rw [he]; exact free_nil
        · cases h
      intro x hx
      rcases List.mem_cons.1 hx with rfl | hx
      · simp only [Bool.or_eq_true, beq_iff_eq] at hc
        rcases hc with rfl | rfl <;> rfl
      · exact hcs x hx
    · cases h

theorem parseDec_free {b : Bool} {s : Str} {d : Dec} (h : parseDec b s = some d) : Free isSpace s := by
  unfold parseDec at h
  apply spanDigits_free (b := false)
  split at h
  · rename_i ip rest he
    rw [he]
    dsimp only at h
    split at h
    · cases h
    · simp only [Option.map_eq_some_iff] at h
      obtain ⟨e, h, _⟩ := h
      intro x hx
      rcases List.mem_cons.1 hx with rfl | hx
      · rfl
      · exact spanDigits_free (parseExp_free h) x hx
  · rename_i he
    rw [he]
    split at h
    · cases h
    · simp only [Option.map_eq_some_iff] at h
      obtain ⟨e, h, _⟩ := h
      exact parseExp_free h

/-- A number literal has no blanks inside. -/
theorem pyFloat_free {s : Str} (h : (pyFloat s).isSome = true) : Free isSpace (strip s) := by
  apply takeSign_free
  unfold pyFloat at h
  dsimp only at h
  have low : ∀ (t : Str), lower (takeSign (strip s)).2 = t → Free isSpace t → Free isSpace (takeSign (strip s)).2 := by
    intro t ht hf c hc
    rw [← isSpace_lowerC]
    exact hf _ (by rw [← ht]; exact List.mem_map_of_mem hc)
  split at h
  · rename_i hl
    rcases hl with hl | hl
    · exact low _ hl (by intro c hc; revert c; decide)
    · exact low _ hl (by intro c hc; revert c; decide)
  split at h
  · rename_i hl
    exact low _ hl (by intro c hc; revert c; decide)
  · rw [Option.isSome_map] at h
    obtain ⟨d, hd⟩ := Option.isSome_iff_exists.1 h
    exact parseDec_free hd

theorem pyFloat_strip (s : Str) : pyFloat (strip s) = pyFloat s := by unfold pyFloat; rw [strip_idem]

/-- What `float()` accepts is one word. -/
theorem pyFloat_words {s : Str} (h : (pyFloat s).isSome = true) : words s = [strip s] := by
  rw [← words_strip]
  apply words_free (pyFloat_free h)
  intro he
  rw [← pyFloat_strip, he] at h
  revert h; decide

theorem words_splitOn (s : Str) : words s = (splitOn ' ' s).flatMap words := by
  have key : ∀ ls : List Str, words (join [' '] ls) = ls.flatMap words := by
    intro ls
    induction ls with
    | nil => rfl
    | cons w ws ih =>
      cases ws with
      | nil => simp [join]
      | cons y ys =>
        rw [join_cons_ne (by simp), List.flatMap_cons, ← ih]
        rw [show w ++ [' '] ++ join [' '] (y :: ys) = w ++ ' ' :: join [' '] (y :: ys) by simp]
        exact words_sep _ _ _ (by decide)
  conv => lhs; rw [← join_splitOn ' ' s]
  exact key _

/-- A line taken for numbers has only numbers as words. -/
theorem isNumbers_words {s : Str} (h : isNumbers s = true) : ∀ w ∈ words s, isNumber w = true := by
  unfold isNumbers at h
  rw [List.all_eq_true] at h
  rw [words_splitOn]
  intro w hw
  obtain ⟨p, hp, hw⟩ := List.mem_flatMap.1 hw
  have := h p hp
  unfold isNumber at this ⊢
  rw [pyFloat_words this, List.mem_singleton] at hw
  rw [hw, pyFloat_strip]; exact this

end Verif
