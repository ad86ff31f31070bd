import Verif.Model.Kpoints
import Verif.Lemmas.Str
import Verif.Lemmas.Num
import Verif.Lemmas.Dict
import Verif.Lemmas.Incar
/-! Helper lemmas about rows of numbers and indexed loops (shared by KPOINTS and POSCAR). -/
set_option autoImplicit false
namespace Verif
open Verif

theorem words_join_flat (ws : List Str) : words (join [' '] ws) = ws.flatMap words := by
  induction ws with
  | nil => rfl
  | cons w ws ih =>
    cases ws with
    | nil => simp [join]
    | cons v vs =>
      rw [join_cons_ne (by simp), List.append_assoc, List.singleton_append, words_sep _ _ _ (by decide), ih]
      simp

/-- Blanks, or nothing, at the end of a line (`''` or `'\n'`). -/
def Eol (suf : Str) : Prop := suf = [] ∨ suf = ['\n']

theorem Eol.space {suf : Str} (h : Eol suf) : ∀ c ∈ suf, isSpace c = true := by
  rcases h with rfl | rfl
  · simp
  · simp; decide

theorem Eol.words {suf : Str} (h : Eol suf) (l : Str) : words (l ++ suf) = words l := words_append_spaces _ _ h.space

theorem Eol.strip {suf : Str} (h : Eol suf) (l : Str) : strip (l ++ suf) = strip l := by
  rcases h with rfl | rfl
  · simp
  · exact Verif.Incar.strip_snoc_space l '\n' (by decide)

namespace Kpoints

/-- A row of floats without newline. -/
def floatLine (prec : Nat) (xs : List Rat) : Str := join [' '] (xs.map (fmtFixed (prec + 4) prec))
/-- A row of integers without newline. -/
def intLine (w : Nat) (xs : List Int) : Str := join [' '] (xs.map (fmtInt w))

theorem words_floatLine (prec : Nat) (xs : List Rat) : words (floatLine prec xs) = xs.map (fmtFixedRaw prec) := by
  unfold floatLine
  rw [words_join_flat]
  induction xs with
  | nil => rfl
  | cons x xs ih => simp only [List.map_cons, List.flatMap_cons, words_fmtFixed, ih]; rfl

theorem words_intLine (w : Nat) (xs : List Int) : words (intLine w xs) = xs.map intStr := by
  unfold intLine
  rw [words_join_flat]
  induction xs with
  | nil => rfl
  | cons x xs ih => simp only [List.map_cons, List.flatMap_cons, words_fmtInt, ih]; rfl

theorem toFloat_fmt (prec : Nat) (x : Rat) : toFloat (fmtFixedRaw prec x) = .ok (roundDec prec x) := by
  have h := pyFloatRat_fmtFixedRaw prec x
  unfold pyFloatRat at h
  unfold toFloat
  split at h
  · rename_i d hd
    rw [hd]; simp only [Option.some.injEq] at h; simp [h]
  · cases h

theorem toInt_intStr (i : Int) : toInt (intStr i) = .ok i := by unfold toInt; rw [pyInt_intStr]

theorem mapM'_toFloat (prec : Nat) (xs : List Rat) :
    Res.mapM' toFloat (xs.map (fmtFixedRaw prec)) = .ok (xs.map (roundDec prec)) := by
  induction xs with
  | nil => rfl
  | cons x xs ih => simp [Res.mapM', toFloat_fmt, ih]

theorem mapM'_toInt (xs : List Int) : Res.mapM' toInt (xs.map intStr) = .ok xs := by
  induction xs with
  | nil => rfl
  | cons x xs ih => simp [Res.mapM', toInt_intStr, ih]

/-! ### no line breaks inside rows -/

theorem free_of_free {p q : Char → Bool} (h : ∀ c, p c = true → q c = true) {s : Str} (hs : Free q s) : Free p s := by
  intro c hc
  cases hp : p c with
  | false => rfl
  | true => have := hs c hc; rw [h c hp] at this; cases this

theorem free_join {p : Char → Bool} (hp : p ' ' = false) (ws : List Str) (h : ∀ w ∈ ws, Free p w) : Free p (join [' '] ws) := by
  induction ws with
  | nil => simp [join]
  | cons w ws ih =>
    cases ws with
    | nil => simpa [join] using h
    | cons v vs =>
      rw [join_cons_ne (by simp)]
      simp only [Free.append_iff, Free.cons_iff, Free.nil, and_true]
      exact ⟨⟨h w (by simp), hp⟩, ih (fun x hx => h x (by simp [hx]))⟩

theorem free_padLeft {p : Char → Bool} (hp : p ' ' = false) (w : Nat) {s : Str} (h : Free p s) : Free p (padLeft w s) := by
  unfold padLeft
  rw [Free.append_iff]
  refine ⟨?_, h⟩
  intro c hc; rw [(List.mem_replicate.1 hc).2]; exact hp

theorem NumChars.noBreak {s : Str} (h : NumChars s) : Free isLineBreak s :=
  free_of_free (fun _ hc => isLineBreak_isSpace hc) (NumChars.free h)

theorem floatLine_noBreak (prec : Nat) (xs : List Rat) : Free isLineBreak (floatLine prec xs) := by
  refine free_join (by decide) _ ?_
  intro w hw
  obtain ⟨x, _, rfl⟩ := List.mem_map.1 hw
  exact free_padLeft (by decide) _ (NumChars.noBreak (fmtFixedRaw_numChars prec x))

theorem fmtInt_noBreak (w : Nat) (i : Int) : Free isLineBreak (fmtInt w i) :=
  free_padLeft (by decide) _ (NumChars.noBreak (intStr_numChars i))

theorem intLine_noBreak (w : Nat) (xs : List Int) : Free isLineBreak (intLine w xs) := by
  refine free_join (by decide) _ ?_
  intro v hv
  obtain ⟨x, _, rfl⟩ := List.mem_map.1 hv
  exact fmtInt_noBreak w x

theorem noNewline_of_noBreak {s : Str} (h : Free isLineBreak s) : '\n' ∉ s := by
  intro hm; have := h _ hm; revert this; decide

/-- A text made of lines without breaks: read as a file or as a string. -/
theorem read_unlines (ls : List Str) (h : ∀ l ∈ ls, Free isLineBreak l) :
    readlines (unlines ls) = ls.map (· ++ ['\n']) ∧ splitlines (unlines ls) = ls.map (· ++ []) := by
  refine ⟨readlines_unlines ls (fun l hl => noNewline_of_noBreak (h l hl)), ?_⟩
  rw [splitlines_unlines ls h]; simp

/-! ### indexed loops -/

theorem idx_append_right {α} (a b : List α) (i : Nat) : idx (a ++ b) (i + a.length) = idx b i := by
  unfold idx
  rw [List.getElem?_append_right (by omega)]
  simp

theorem idx_cons_succ {α} (x : α) (l : List α) (i : Nat) : idx (x :: l) (i + 1) = idx l i := rfl

theorem mapM'_range_idx {α β} (f : α → Res β) (b c : List α) (a : List α) :
    Res.mapM' (fun k => idx (a ++ (b ++ c)) (k + a.length) >>= f) (List.range b.length) = Res.mapM' f b := by
  have h : ∀ k, idx (a ++ (b ++ c)) (k + a.length) = idx (b ++ c) k := fun k => idx_append_right a _ k
  simp only [h]
  clear h
  induction b with
  | nil => rfl
  | cons x xs ih =>
    rw [List.length_cons, List.range_succ_eq_map]
    simp only [Res.mapM']
    have h0 : (idx (x :: xs ++ c) 0 >>= f) = f x := rfl
    rw [h0, Verif.Incar.mapM'_map]
    have : (fun a => idx (x :: xs ++ c) (Nat.succ a) >>= f) = fun k => idx (xs ++ c) k >>= f := by
      funext k; rfl
    rw [this, ih]

end Kpoints
end Verif
