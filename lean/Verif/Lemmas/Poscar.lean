import Verif.Model.Poscar
import Verif.Lemmas.Kpoints
/-! Helper lemmas about the lines of a POSCAR. -/
set_option autoImplicit false
namespace Verif
open Verif

theorem rstrip_split (s : Str) : ∃ sp, s = rstrip s ++ sp ∧ ∀ c ∈ sp, isSpace c = true := by
  refine ⟨(s.reverse.takeWhile isSpace).reverse, ?_, ?_⟩
  · unfold rstrip
    rw [← List.reverse_append, List.takeWhile_append_dropWhile, List.reverse_reverse]
  · intro c hc
    rw [List.mem_reverse] at hc
    have : ∀ (l : List Char), c ∈ l.takeWhile isSpace → isSpace c = true := by
      intro l
      induction l with
      | nil => simp
      | cons x xs ih =>
        intro h
        rw [List.takeWhile_cons] at h
        split at h
        · rcases List.mem_cons.1 h with rfl | h
          · assumption
          · exact ih h
        · simp at h
    exact this _ hc

theorem words_rstrip (s : Str) : words (rstrip s) = words s := by
  obtain ⟨sp, h, hsp⟩ := rstrip_split s
  conv => rhs; rw [h]
  rw [words_append_spaces _ _ hsp]

theorem rstrip_free {p : Char → Bool} {s : Str} (h : Free p s) : Free p (rstrip s) :=
  fun c hc => h c ((rstrip_prefix s).mem hc)

/-- Right stripping keeps a leading word. -/
theorem rstrip_token_prefix {a b : Str} (ha : Token a) : ∃ r, rstrip (a ++ b) = a ++ r ∧ (r = [] ∨ ∃ sp, b = r ++ sp) := by
  obtain ⟨sp, h, hsp⟩ := rstrip_split (a ++ b)
  rcases List.append_eq_append_iff.1 h with ⟨as, h1, h2⟩ | ⟨bs, h1, h2⟩
  · exact ⟨as, h1, .inr ⟨sp, h2⟩⟩
  · cases bs with
    | nil => simp only [List.append_nil] at h1; exact ⟨[], by rw [← h1, List.append_nil], .inl rfl⟩
    | cons x xs =>
      exfalso
      have h3 : isSpace x = true := hsp x (by rw [h2]; simp)
      have h4 : isSpace x = false := ha.2 x (by rw [h1]; simp)
      rw [h3] at h4; cases h4

namespace Poscar

theorem splitlinesKeep_cons_of_ne {x : Char} (xs : Str) (h : x ≠ '\r') :
    splitlinesKeep (x :: xs) = if isLineBreak x then [x] :: splitlinesKeep xs else consHead x (splitlinesKeep xs) := by
  rw [splitlinesKeep]
  intro _ h'
  exact absurd h' h

theorem splitlinesKeep_line_append {a : Str} (b : Str) (h : Free isLineBreak a) :
    splitlinesKeep (a ++ '\n' :: b) = (a ++ ['\n']) :: splitlinesKeep b := by
  induction a with
  | nil => rw [List.nil_append, splitlinesKeep_cons_of_ne _ (by decide)]; rfl
  | cons x xs ih =>
    have hx : isLineBreak x = false := h x (by simp)
    have hne : x ≠ '\r' := by rintro rfl; revert hx; decide
    rw [List.cons_append, splitlinesKeep_cons_of_ne _ hne, hx, ih (fun c hc => h c (by simp [hc]))]
    rfl

theorem splitlinesKeep_unlines (ls : List Str) (h : ∀ l ∈ ls, Free isLineBreak l) :
    splitlinesKeep (unlines ls) = ls.map (· ++ ['\n']) := by
  induction ls with
  | nil => rfl
  | cons l ls ih =>
    rw [unlines_cons, splitlinesKeep_line_append _ (h l (by simp)), ih (fun x hx => h x (by simp [hx])), List.map_cons]

theorem withNewlines_eq (ls : List Str) : withNewlines ls = unlines ls := by
  unfold withNewlines unlines
  rw [List.flatMap_def]

/-! ### capitalisation -/

theorem upperC_idem (c : Char) : upperC (upperC c) = upperC c := by
  apply char_ext_toNat
  simp only [upperC_toNat]
  split_ifs <;> simp_all <;> omega

theorem upperC_lowerC_upperC (c : Char) : upperC (lowerC (upperC c)) = upperC c := by
  apply char_ext_toNat
  simp only [upperC_toNat, lowerC_toNat]
  (split <;> split <;> simp_all) <;> omega

theorem lower_lower' (s : Str) : lower (lower s) = lower s := lower_idem s

theorem capitalize_idem (s : Str) : capitalize (capitalize s) = capitalize s := by
  cases s with
  | nil => rfl
  | cons c cs => simp [capitalize, upperC_idem, lower_idem]

theorem capitalize_lower_capitalize (s : Str) : capitalize (lower (capitalize s)) = capitalize s := by
  cases s with
  | nil => rfl
  | cons c cs =>
    have : lower (upperC c :: lower cs) = lowerC (upperC c) :: lower (lower cs) := rfl
    simp [capitalize, this, upperC_lowerC_upperC, lower_idem]

theorem capitalize_capitalize_lower (s : Str) : capitalize (lower s) = capitalize s := by
  cases s with
  | nil => rfl
  | cons c cs =>
    have : lower (c :: cs) = lowerC c :: lower cs := rfl
    have h2 : upperC (lowerC c) = upperC c := by
      apply char_ext_toNat
      simp only [upperC_toNat, lowerC_toNat]
      (split <;> split <;> simp_all) <;> omega
    simp [capitalize, this, lower_idem, h2]

/-! ### species and count lines -/

theorem words_padRight (w : Nat) {s : Str} (h : Token s) : words (padRight w s) = [s] := by
  unfold padRight
  rw [words_append_spaces _ _ (by intro c hc; rw [(List.mem_replicate.1 hc).2]; decide), words_token h]

theorem words_flatMap_blank {α} (f : α → Str) (l : List α) :
    words (l.flatMap fun x => f x ++ [' ']) = l.flatMap fun x => words (f x) := by
  induction l with
  | nil => rfl
  | cons x xs ih =>
    rw [List.flatMap_cons, List.append_assoc, List.singleton_append, words_sep _ _ _ (by decide), ih, List.flatMap_cons]

/-- The species line. -/
def speciesLine (species : List Str) : Str := rstrip (species.flatMap fun s => padRight 5 (capitalize s) ++ [' '])
/-- The count line. -/
def countLine (nums : List Nat) : Str := rstrip (nums.flatMap fun (n : Nat) => fmtInt 5 n ++ [' '])

theorem words_speciesLine (species : List Str) (h : ∀ s ∈ species, Token (capitalize s)) :
    words (speciesLine species) = species.map capitalize := by
  unfold speciesLine
  rw [words_rstrip, words_flatMap_blank (fun s => padRight 5 (capitalize s))]
  induction species with
  | nil => rfl
  | cons s ss ih =>
    rw [List.flatMap_cons, words_padRight _ (h s (by simp)), ih (fun t ht => h t (by simp [ht]))]
    rfl

theorem words_countLine (nums : List Nat) : words (countLine nums) = nums.map fun n : Nat => intStr n := by
  unfold countLine
  rw [words_rstrip, words_flatMap_blank (fun (n : Nat) => fmtInt 5 n)]
  induction nums with
  | nil => rfl
  | cons n ns ih => rw [List.flatMap_cons, words_fmtInt, ih]; rfl

/-- The species line is not taken for a line of numbers. -/
theorem speciesLine_not_numbers (species : List Str) (h : ∀ s ∈ species, Token (capitalize s) ∧ pyFloat (capitalize s) = none)
    : Utils.isNumbers (speciesLine species ++ ['\n']) = false := by
  have key : ∀ (l : Str) (x : Str), x ∈ splitOn ' ' l → pyFloat x = none → Utils.isNumbers l = false := by
    intro l x hx hn
    unfold Utils.isNumbers
    rw [List.all_eq_false]
    exact ⟨x, hx, by simp [Utils.isNumber, hn]⟩
  cases species with
  | nil =>
    refine key _ ['\n'] ?_ (by decide)
    decide
  | cons s ss =>
    obtain ⟨ht, hn⟩ := h s (by simp)
    have hb : ' ' ∉ capitalize s := fun hm => by have := ht.2 _ hm; revert this; decide
    unfold speciesLine
    rw [List.flatMap_cons, padRight, List.append_assoc, List.append_assoc]
    obtain ⟨r, hr, hr2⟩ := rstrip_token_prefix (a := capitalize s)
      (b := List.replicate (5 - (capitalize s).length) ' ' ++ ([' '] ++ ss.flatMap fun s => padRight 5 (capitalize s) ++ [' '])) ht
    rw [hr]
    cases r with
    | nil =>
      refine key _ (capitalize s ++ ['\n']) ?_ ?_
      · rw [List.append_nil, splitOn_free (by simpa using hb)]; simp
      · have : strip (capitalize s ++ ['\n']) = strip (capitalize s) := Eol.strip (.inr rfl) _
        unfold pyFloat at hn ⊢
        rw [this]; exact hn
    | cons x xs =>
      rcases hr2 with h' | ⟨sp, h'⟩
      · cases h'
      · have hx : x = ' ' := by
          cases hk : 5 - (capitalize s).length with
          | zero => rw [hk] at h'; simp at h'; exact h'.1.symm
          | succ k => rw [hk] at h'; simp [List.replicate_succ] at h'; exact h'.1.symm
        subst hx
        refine key _ (capitalize s) ?_ hn
        rw [List.append_assoc, List.cons_append, splitOn_sep, splitOn_free hb]
        simp

theorem Token.noBreak {s : Str} (h : Token s) : Free isLineBreak s :=
  Kpoints.free_of_free (fun _ hc => isLineBreak_isSpace hc) h.2

theorem free_flatMap {α} {p : Char → Bool} {l : List α} {f : α → Str} (h : ∀ a ∈ l, Free p (f a)) : Free p (l.flatMap f) := by
  intro c hc
  obtain ⟨a, ha, hc⟩ := List.mem_flatMap.1 hc
  exact h a ha c hc

theorem free_replicate_blank (n : Nat) : Free isLineBreak (List.replicate n ' ') := by
  intro c hc; rw [(List.mem_replicate.1 hc).2]; decide

theorem speciesLine_noBreak (species : List Str) (h : ∀ s ∈ species, Token (capitalize s)) : Free isLineBreak (speciesLine species) := by
  refine rstrip_free (free_flatMap ?_)
  intro s hs
  unfold padRight
  rw [Free.append_iff, Free.append_iff]
  refine ⟨⟨Token.noBreak (h s hs), free_replicate_blank _⟩, ?_⟩
  intro c hc; simp at hc; subst hc; decide

theorem countLine_noBreak (nums : List Nat) : Free isLineBreak (countLine nums) := by
  refine rstrip_free (free_flatMap ?_)
  intro n _
  rw [Free.append_iff]
  refine ⟨Kpoints.fmtInt_noBreak 5 n, ?_⟩
  intro c hc; simp at hc; subst hc; decide

/-! ### rows of numbers -/

/-- Componentwise rounding. -/
def roundV (prec : Nat) (v : Vec) : Vec := v.map (roundDec prec)

theorem vecLine_eq (prec : Nat) (v : Vec) : vecLine prec v = Kpoints.floatLine prec [v.x, v.y, v.z] := rfl

theorem vecLine_noBreak (prec : Nat) (v : Vec) : Free isLineBreak (vecLine prec v) := by
  rw [vecLine_eq]; exact Kpoints.floatLine_noBreak _ _

theorem words_vecLine (prec : Nat) (v : Vec) : words (vecLine prec v) = [fmtFixedRaw prec v.x, fmtFixedRaw prec v.y, fmtFixedRaw prec v.z] := by
  rw [vecLine_eq, Kpoints.words_floatLine]; rfl

theorem readVec_of_words {l : Str} {prec : Nat} {v : Vec} {r : List Str}
    (h : words l = [fmtFixedRaw prec v.x, fmtFixedRaw prec v.y, fmtFixedRaw prec v.z] ++ r) : readVec l = .ok (roundV prec v) := by
  unfold readVec
  rw [h]
  simp [Kpoints.idx, Kpoints.toFloat_fmt, roundV, Lattice.V3.map]

theorem readVec_vecLine (prec : Nat) (v : Vec) : readVec (vecLine prec v ++ ['\n']) = .ok (roundV prec v) := by
  refine readVec_of_words (r := []) ?_
  rw [Incar.words_newline, words_vecLine]; rfl

/-- The selective flags as written. -/
def flagText (f : Bool × Bool × Bool) : Str := flagStr f.1 ++ [' '] ++ flagStr f.2.1 ++ [' '] ++ flagStr f.2.2

theorem posLine_eq (prec : Nat) (direct : Bool) (c : Cell) (sel : Bool) (s : Site) :
    posLine prec direct c sel s = vecLine prec (if direct then s.position else Lattice.dirToCart s.position c) ++
      (if sel then ' ' :: flagText s.selective else []) := by
  unfold posLine flagText
  cases sel <;> simp

theorem words_posLine (prec : Nat) (direct : Bool) (c : Cell) (sel : Bool) (s : Site) :
    words (posLine prec direct c sel s ++ ['\n']) =
      words (vecLine prec (if direct then s.position else Lattice.dirToCart s.position c)) ++
        (if sel then [flagStr s.selective.1, flagStr s.selective.2.1, flagStr s.selective.2.2] else []) := by
  rw [posLine_eq, Incar.words_newline]
  cases sel with
  | false => simp
  | true =>
    simp only [if_true]
    rw [words_sep _ _ _ (by decide)]
    congr 1
    obtain ⟨a, b, d⟩ := s.selective
    cases a <;> cases b <;> cases d <;> decide

theorem readFlags_posLine (prec : Nat) (direct : Bool) (c : Cell) (sel : Bool) (s : Site) (h : sel = false → s.frozen = false) :
    readFlags (posLine prec direct c sel s ++ ['\n']) sel = .ok s.selective := by
  unfold readFlags
  cases sel with
  | false =>
    have := h rfl
    unfold Site.frozen at this
    generalize s.selective = f at *
    obtain ⟨a, b, d⟩ := f
    cases a <;> cases b <;> cases d <;> simp_all
  | true =>
    unfold readFlag
    rw [words_posLine, words_vecLine]
    simp only [if_true]
    obtain ⟨a, b, d⟩ := s.selective
    cases a <;> cases b <;> cases d <;> rfl

theorem readVec_posLine (prec : Nat) (direct : Bool) (c : Cell) (sel : Bool) (s : Site) :
    readVec (posLine prec direct c sel s ++ ['\n']) = .ok (roundV prec (if direct then s.position else Lattice.dirToCart s.position c)) := by
  refine readVec_of_words (r := if sel then [flagStr s.selective.1, flagStr s.selective.2.1, flagStr s.selective.2.2] else []) ?_
  rw [words_posLine, words_vecLine]

theorem posLine_noBreak (prec : Nat) (direct : Bool) (c : Cell) (sel : Bool) (s : Site) : Free isLineBreak (posLine prec direct c sel s) := by
  rw [posLine_eq, Free.append_iff]
  refine ⟨vecLine_noBreak _ _, ?_⟩
  cases sel with
  | false => intro c hc; simp at hc
  | true =>
    obtain ⟨a, b, d⟩ := s.selective
    unfold Free
    cases a <;> cases b <;> cases d <;> decide

theorem roundDec_one (prec : Nat) : roundDec prec 1 = 1 := by
  refine roundDec_of_dec prec (10 ^ prec) 1 ?_
  have : (10 : Rat) ^ prec ≠ 0 := by positivity
  rw [abs_one]; push_cast; rw [div_self this]

end Poscar
end Verif
