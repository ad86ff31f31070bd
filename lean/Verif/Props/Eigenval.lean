import Verif.Model.Eigenval
import Verif.Props.Doscar
import Verif.Lemmas.Str
import Mathlib.Data.List.Induction
import Mathlib.Data.List.Basic
import Mathlib.Tactic.Linarith
/-! # EIGENVAL: k-points and eigenvalues stand where they are printed (C40) -/
set_option autoImplicit false
namespace Verif.Eigenval
open Verif Verif.Utils
open Verif.Kpoints (idx toFloat toInt)
open Verif.Doscar (unpack cartesianOf)

/-! ### specification -/

/-- The maximal runs of lines that are not blank; lines are given by their words. -/
def runs : List (List Str) → List (List (List Str))
  | [] => []
  | l :: ls => if l = [] then runs ls else
      match ls with
      | [] => [[l]]
      | x :: _ => if x = [] then [l] :: runs ls else
          match runs ls with
          | [] => [[l]]
          | r :: rs => (l :: r) :: rs

/-- The k-point blocks of a text: the runs of lines behind the sixth line. -/
def pointBlocks (text : Str) : List (List (List Str)) := runs (((readlines text).drop 6).map words)

/-- The numbers printed by words. -/
def Numbers (ws : List Str) (xs : List Rat) : Prop := List.Forall₂ (fun w x => pyFloatRat w = some x) ws xs

/-- The line begins with the number of band `b` (counted from zero); numbers up to zero count from the last band. -/
def Concerns (numBands : Nat) (line : List Str) (b : Nat) : Prop :=
  ∃ w n, line.head? = some w ∧ pyInt w = some n ∧ (n = b + 1 ∨ n ≤ 0 ∧ n + numBands = b + 1)

/-- `v` is the number in column `s` behind the band number (or the only number, if there should be several). -/
def InColumn (numSpins : Nat) (line : List Str) (s : Nat) (v : Rat) : Prop :=
  ∃ xs, Numbers ((line.drop 1).take numSpins) xs ∧ (xs[s]? = some v ∧ xs.length = numSpins ∨ xs = [v] ∧ numSpins ≠ 1)

/-- The value of a band among the band lines of a block: that of the last line with its number, zero without such a line. -/
def BandValue (numSpins numBands : Nat) (lines : List (List Str)) (s b : Nat) (v : Rat) : Prop :=
  (∃ pre line post, lines = pre ++ line :: post ∧ Concerns numBands line b ∧ (∀ q ∈ post, ¬ Concerns numBands q b) ∧
    InColumn numSpins line s v) ∨
  ((∀ q ∈ lines, ¬ Concerns numBands q b) ∧ v = 0)

/-- An element of the array of eigenvalues. -/
def at3 (e : Values) (s k b : Nat) : Option Rat := (e[s]?.bind fun m => m[k]?).bind fun r => r[b]?

/-! ### blank lines -/

theorem words_eq_nil {l : Str} : words l = [] ↔ ∀ c ∈ l, isSpace c = true := by
  constructor
  · intro h
    induction l with
    | nil => simp
    | cons c cs ih =>
      by_cases hc : isSpace c = true
      · rw [words_space_cons c cs hc] at h
        intro x hx
        rcases List.mem_cons.1 hx with rfl | hx
        · exact hc
        · exact ih h x hx
      · exfalso
        unfold words at h
        have hne := splitP_ne_nil isSpace cs
        simp only [splitP, hc, if_false, Bool.false_eq_true] at h
        cases hs : splitP isSpace cs with
        | nil => exact hne hs
        | cons w ws => rw [hs] at h; simp [consHead] at h
  · intro h
    have := words_spaces_append l [] h
    simpa using this

theorem isNl_nl : isNl '\n' = true := by decide
theorem isSpace_nl : isSpace '\n' = true := by decide

/-- Lines as the theorem sees them: no line break inside. -/
abbrev Lf (l : Str) : Prop := Free isLineBreak l

theorem Lf.notNl {l : Str} (h : Lf l) : ∀ c ∈ l, isNl c = false := by
  intro c hc
  have := h c hc
  unfold isNl
  by_contra hn
  simp only [Bool.not_eq_false, Bool.or_eq_true, beq_iff_eq] at hn
  rcases hn with rfl | rfl
  · exact absurd this (by decide)
  · exact absurd this (by decide)

theorem skipBlank_line {l : Str} (h : Lf l) : skipBlank l = none := by
  have hn := h.notNl
  clear h
  induction l with
  | nil => rfl
  | cons c cs ih =>
    unfold skipBlank
    rw [ih fun x hx => hn x (by simp [hx])]
    simp [hn c (by simp)]

theorem skipBlank_blank {l : Str} (R : Str) (hb : ∀ c ∈ l, isSpace c = true) :
    skipBlank (l ++ '\n' :: R) = some ((skipBlank R).getD R) := by
  induction l with
  | nil =>
    simp only [List.nil_append, skipBlank, isSpace_nl, isNl_nl, if_true]
    cases skipBlank R <;> rfl
  | cons c cs ih =>
    simp only [List.cons_append]
    conv_lhs => unfold skipBlank
    rw [if_pos (hb c (by simp)), ih fun x hx => hb x (by simp [hx])]

theorem skipBlank_nonblank {l : Str} (R : Str) (h : Lf l) (hb : words l ≠ []) : skipBlank (l ++ R) = none := by
  have hn := h.notNl
  clear h
  induction l with
  | nil => exact absurd rfl hb
  | cons c cs ih =>
    simp only [List.cons_append]
    unfold skipBlank
    by_cases hc : isSpace c = true
    · rw [words_space_cons c cs hc] at hb
      rw [if_pos hc, ih hb fun x hx => hn x (by simp [hx])]
      simp [hn c (by simp)]
    · rw [if_neg hc]

/-- Put a text in front of the first piece. -/
def consStr (l : Str) : List Str → List Str
  | [] => [l]
  | w :: ws => (l ++ w) :: ws

theorem splitEmpty_ne_nil (n : Nat) (s : Str) : splitEmpty n s ≠ [] := by
  induction n generalizing s with
  | zero => cases s <;> simp [splitEmpty]
  | succ n ih =>
    cases s with
    | nil => simp [splitEmpty]
    | cons c cs =>
      have hc : ∀ x : List Str, consHead c x ≠ [] := by intro x; cases x <;> simp [consHead]
      unfold splitEmpty
      split
      · split
        · simp
        · exact hc _
      · exact hc _

theorem splitEmpty_prefix {l : Str} (h : Lf l) (R : Str) (n : Nat) : splitEmpty (l.length + n) (l ++ R) = consStr l (splitEmpty n R) := by
  have hn := h.notNl
  clear h
  induction l with
  | nil =>
    simp only [List.length_nil, Nat.zero_add, List.nil_append]
    cases hs : splitEmpty n R with
    | nil => exact absurd hs (splitEmpty_ne_nil n R)
    | cons w ws => rfl
  | cons c cs ih =>
    have : (c :: cs).length + n = (cs.length + n) + 1 := by simp; omega
    rw [this, List.cons_append, splitEmpty, if_neg (by simp [hn c (by simp)]), ih fun x hx => hn x (by simp [hx])]
    cases hs : splitEmpty n R with
    | nil => exact absurd hs (splitEmpty_ne_nil n R)
    | cons w ws => rfl

/-- The lines of a block without the blank ones. -/
def bw (block : Str) : List (List Str) := ((splitlines block).map words).filter fun l => !l.isEmpty

theorem bw_line {l : Str} (h : Lf l) : bw l = if words l = [] then [] else [words l] := by
  unfold bw
  have : splitlines l = if l = [] then [] else [l] := by
    cases l with
    | nil => rfl
    | cons c cs =>
      have key : ∀ (s : Str), Free isLineBreak s → s ≠ [] → splitlines s = [s] := by
        intro s
        induction s with
        | nil => intro _ h; exact absurd rfl h
        | cons x xs ih =>
          intro hf _
          have hx : isLineBreak x = false := hf x (by simp)
          have hxr : x ≠ '\r' := by rintro rfl; exact absurd hx (by decide)
          rw [splitlines_cons_of_ne xs hxr]
          simp only [hx, Bool.false_eq_true, if_false]
          cases xs with
          | nil => rfl
          | cons y ys =>
            rw [ih (fun c hc => hf c (by simp [hc])) (by simp)]
            rfl
      rw [if_neg (by simp)]
      exact key _ h (by simp)
  rw [this]
  by_cases hl : l = []
  · subst hl; rfl
  · rw [if_neg hl]
    by_cases hw : words l = []
    · simp [hw]
    · simp [hw]

theorem bw_cons {l : Str} (B : Str) (h : Lf l) : bw (l ++ '\n' :: B) = (if words l = [] then [] else [words l]) ++ bw B := by
  unfold bw
  rw [splitlines_line_append B h]
  by_cases hw : words l = []
  · simp [hw]
  · simp [hw]

/-! ### runs -/

theorem runs_blank (ls : List (List Str)) : runs ([] :: ls) = runs ls := by
  simp [runs]

theorem runs_append_blank (X : List (List Str)) : runs (X ++ [[]]) = runs X := by
  induction X with
  | nil => rfl
  | cons l ls ih =>
    cases ls with
    | nil =>
      by_cases hl : l = []
      · subst hl; rfl
      · simp [runs, hl]
    | cons x xs =>
      simp only [List.cons_append] at ih ⊢
      unfold runs
      rw [ih]

theorem runs_ne_nil {x : List Str} (hx : x ≠ []) (xs : List (List Str)) : ∃ r rs, runs (x :: xs) = (x :: r) :: rs := by
  unfold runs
  rw [if_neg hx]
  cases xs with
  | nil => exact ⟨[], [], rfl⟩
  | cons y ys =>
    simp only
    split
    · exact ⟨[], _, rfl⟩
    · split
      · exact ⟨[], [], rfl⟩
      · exact ⟨_, _, rfl⟩

/-- Non-empty blocks. -/
def solid (bs : List (List (List Str))) : List (List (List Str)) := bs.filter fun b => !b.isEmpty

/-- Skip leading blank lines but for the last line. -/
def skip : List Str → List Str
  | l :: x :: xs => if words l = [] then skip (x :: xs) else l :: x :: xs
  | L => L

theorem skip_length (L : List Str) : (skip L).length ≤ L.length := by
  induction L with
  | nil => simp [skip]
  | cons l ls ih =>
    cases ls with
    | nil => simp [skip]
    | cons x xs =>
      unfold skip
      split
      · simp only [List.length_cons] at ih ⊢; omega
      · exact le_refl _

theorem skip_mem {L : List Str} {l : Str} (h : l ∈ skip L) : l ∈ L := by
  induction L with
  | nil => simpa [skip] using h
  | cons y ls ih =>
    cases ls with
    | nil => simpa [skip] using h
    | cons x xs =>
      unfold skip at h
      split at h
      · exact List.mem_cons_of_mem _ (ih h)
      · exact h

theorem skip_ne_nil {L : List Str} (h : L ≠ []) : skip L ≠ [] := by
  induction L with
  | nil => exact absurd rfl h
  | cons y ls ih =>
    cases ls with
    | nil => simp [skip]
    | cons x xs =>
      unfold skip
      split
      · exact ih (by simp)
      · simp

theorem runs_skip (L : List Str) : runs ((skip L).map words) = runs (L.map words) := by
  induction L with
  | nil => rfl
  | cons y ls ih =>
    cases ls with
    | nil => rfl
    | cons x xs =>
      unfold skip
      split
      · rename_i hy
        rw [ih]
        simp only [List.map_cons, hy]
        rw [runs_blank]
      · rfl

theorem skipBlank_join : ∀ (L : List Str), (∀ l ∈ L, Lf l) → L ≠ [] →
    skipBlank (join ['\n'] L) = (match L with
      | l :: _ :: _ => if words l = [] then some (join ['\n'] (skip L)) else none
      | _ => none)
  | [], _, h => absurd rfl h
  | [l], hf, _ => by simpa [join] using skipBlank_line (hf l (by simp))
  | l :: x :: xs, hf, _ => by
    have ih := skipBlank_join (x :: xs) (fun y hy => hf y (by simp [hy])) (by simp)
    have hl := hf l (by simp)
    simp only [join]
    have e : l ++ ['\n'] ++ join ['\n'] (x :: xs) = l ++ '\n' :: join ['\n'] (x :: xs) := by simp
    rw [e]
    by_cases hw : words l = []
    · rw [if_pos hw, skipBlank_blank _ (words_eq_nil.1 hw), ih]
      unfold skip
      rw [if_pos hw]
      cases xs with
      | nil => rfl
      | cons y ys =>
        simp only
        by_cases hx : words x = []
        · rw [if_pos hx]; rfl
        · rw [if_neg hx]
          unfold skip
          rw [if_neg hx]; rfl
    · rw [if_neg hw, skipBlank_nonblank _ hl hw]

/-- The first piece begins with the first line. -/
theorem splitEmpty_head {l : Str} (L : List Str) (h : Lf l) (n : Nat) (hn : (join ['\n'] (l :: L)).length ≤ n) :
    ∃ B rest, splitEmpty n (join ['\n'] (l :: L)) = (l ++ B) :: rest ∧ (B = [] ∨ ∃ B', B = '\n' :: B') := by
  cases L with
  | nil =>
    simp only [join] at hn ⊢
    have := splitEmpty_prefix h [] (n - l.length)
    rw [List.append_nil, Nat.add_sub_cancel' hn] at this
    rw [this]
    cases n - l.length <;> exact ⟨[], [], by simp [splitEmpty, consStr], .inl rfl⟩
  | cons x xs =>
    have e : join ['\n'] (l :: x :: xs) = l ++ '\n' :: join ['\n'] (x :: xs) := by simp [join]
    rw [e] at hn ⊢
    have hlen : l.length + 1 ≤ n := by simp at hn; omega
    have := splitEmpty_prefix h ('\n' :: join ['\n'] (x :: xs)) (n - l.length - 1 + 1)
    rw [show l.length + (n - l.length - 1 + 1) = n by omega] at this
    rw [this, splitEmpty, if_pos isNl_nl]
    split
    · rename_i r _
      exact ⟨[], splitEmpty (n - l.length - 1) r, by simp [consStr], .inl rfl⟩
    · cases hs : splitEmpty (n - l.length - 1) (join ['\n'] (x :: xs)) with
      | nil => exact absurd hs (splitEmpty_ne_nil _ _)
      | cons w ws => exact ⟨'\n' :: w, ws, by simp [consStr, consHead], .inr ⟨_, rfl⟩⟩

/-- The blocks that are not empty are the runs of lines. -/
theorem blocks_runs : ∀ (k : Nat) (L : List Str) (n : Nat), L.length ≤ k → (∀ l ∈ L, Lf l) → L ≠ [] → (join ['\n'] L).length ≤ n →
    solid ((splitEmpty n (join ['\n'] L)).map bw) = runs (L.map words)
  | 0, L, _, hk, _, hne, _ => by cases L <;> simp_all
  | k + 1, [l], n, _, hf, _, hn => by
    have hl := hf l (by simp)
    simp only [join] at hn ⊢
    have := splitEmpty_prefix hl [] (n - l.length)
    rw [List.append_nil, Nat.add_sub_cancel' hn] at this
    rw [this]
    have hs : splitEmpty (n - l.length) [] = [[]] := by cases n - l.length <;> rfl
    rw [hs]
    simp only [consStr, List.append_nil, List.map_cons, List.map_nil, bw_line hl]
    by_cases hw : words l = []
    · simp [hw, solid, runs]
    · simp [hw, solid, runs]
  | k + 1, l :: x :: xs, n, hk, hf, _, hn => by
    have hl := hf l (by simp)
    have hx := hf x (by simp)
    have hfr : ∀ y ∈ x :: xs, Lf y := fun y hy => hf y (by simp [hy])
    have e : join ['\n'] (l :: x :: xs) = l ++ '\n' :: join ['\n'] (x :: xs) := by simp [join]
    rw [e] at hn ⊢
    have hlen : l.length + 1 + (join ['\n'] (x :: xs)).length ≤ n := by simp at hn; omega
    have hsp := splitEmpty_prefix hl ('\n' :: join ['\n'] (x :: xs)) (n - l.length - 1 + 1)
    rw [show l.length + (n - l.length - 1 + 1) = n by omega, splitEmpty, if_pos isNl_nl, skipBlank_join (x :: xs) hfr (by simp)] at hsp
    have nosplit : (match (x :: xs : List Str) with
        | y :: _ :: _ => if words y = [] then some (join ['\n'] (skip (x :: xs))) else none
        | _ => none) = none → solid ((splitEmpty n (l ++ '\n' :: join ['\n'] (x :: xs))).map bw) = runs ((l :: x :: xs).map words) := by
      intro hnone
      rw [hnone] at hsp
      simp only at hsp
      have hlen' : (join ['\n'] (x :: xs)).length ≤ n - l.length - 1 := by omega
      have ih := blocks_runs k (x :: xs) (n - l.length - 1) (by simp at hk ⊢; omega) hfr (by simp) hlen'
      obtain ⟨B, rest, hb, hB⟩ := splitEmpty_head xs hx (n - l.length - 1) hlen'
      rw [hb] at hsp ih
      rw [hsp]
      simp only [consHead, consStr, List.map_cons] at ih ⊢
      rw [bw_cons _ hl]
      have hxB : bw (x ++ B) = (if words x = [] then [] else [words x]) ++ bw (B.drop 1) := by
        rcases hB with rfl | ⟨B', rfl⟩
        · simp only [List.append_nil, bw_line hx]; simp [bw, splitlines]
        · rw [bw_cons B' hx]; rfl
      by_cases hw : words l = []
      · rw [if_pos hw, List.nil_append, ih, hw, runs_blank]
      · rw [if_neg hw]
        by_cases hxw : words x = []
        · -- then `x` is the last line
          have hxs : xs = [] := by
            cases xs with
            | nil => rfl
            | cons y ys => simp [hxw] at hnone
          subst hxs
          have hB0 : B = [] ∧ rest = [] := by
            simp only [join] at hb hlen'
            have h1 := splitEmpty_prefix hx [] (n - l.length - 1 - x.length)
            rw [List.append_nil, Nat.add_sub_cancel' hlen'] at h1
            have h2 : splitEmpty (n - l.length - 1 - x.length) [] = [[]] := by cases n - l.length - 1 - x.length <;> rfl
            rw [h1, h2] at hb
            simp only [consStr, List.append_nil, List.cons.injEq] at hb
            exact ⟨by simpa using hb.1, hb.2.symm⟩
          obtain ⟨rfl, rfl⟩ := hB0
          rw [List.append_nil, bw_line hx, if_pos hxw]
          simp [solid, runs, hw, hxw]
        · obtain ⟨r, rs, hr⟩ := runs_ne_nil hxw (xs.map words)
          rw [hr] at ih
          rw [hxB, if_neg hxw] at ih ⊢
          have hs : solid (([words x] ++ bw (B.drop 1)) :: rest.map bw) = ([words x] ++ bw (B.drop 1)) :: solid (rest.map bw) := by
            simp [solid]
          rw [hs] at ih
          injection ih with i1 i2
          have hs2 : solid (([words l] ++ ([words x] ++ bw (B.drop 1))) :: rest.map bw) =
              (words l :: ([words x] ++ bw (B.drop 1))) :: solid (rest.map bw) := by
            simp [solid]
          rw [hs2, i1, i2]
          have : runs (words l :: words x :: xs.map words) = (words l :: words x :: r) :: rs := by
            conv_lhs => unfold runs
            rw [if_neg hw]
            simp only [hxw, if_false, hr]
          rw [this]
    cases xs with
    | nil => exact nosplit rfl
    | cons y ys =>
      by_cases hxw : words x = []
      · simp only [hxw, if_true] at hsp
        rw [hsp]
        simp only [consStr, List.append_nil, List.map_cons]
        have hsl : (join ['\n'] (skip (x :: y :: ys))).length ≤ n - l.length - 1 := by
          have : ∀ M : List Str, (join ['\n'] (skip M)).length ≤ (join ['\n'] M).length := by
            intro M
            induction M with
            | nil => simp [skip]
            | cons a as ih =>
              cases as with
              | nil => simp [skip]
              | cons b bs =>
                unfold skip
                split
                · refine le_trans ih ?_
                  simp only [join, List.length_append]
                  omega
                · exact le_refl _
          exact le_trans (this _) (by omega)
        have ih := blocks_runs k (skip (x :: y :: ys)) (n - l.length - 1)
          (le_trans (skip_length _) (by simp at hk ⊢; omega)) (fun z hz => hfr z (skip_mem hz)) (skip_ne_nil (by simp)) hsl
        rw [runs_skip] at ih
        rw [bw_line hl]
        have hrx : runs (words l :: (x :: y :: ys).map words) = if words l = [] then runs ((x :: y :: ys).map words)
            else [words l] :: runs ((x :: y :: ys).map words) := by
          conv_lhs => unfold runs
          simp only [List.map_cons, hxw, if_true]
        simp only [List.map_cons] at hrx ih ⊢
        rw [hrx, ← ih]
        by_cases hw : words l = []
        · simp [hw, solid]
        · simp [hw, solid]
      · exact nosplit (by simp [hxw])

/-! ### the text behind the header -/

theorem flatten_readlines (t : Str) : (readlines t).flatten = t := by
  induction t with
  | nil => rfl
  | cons x xs ih =>
    rw [readlines]
    split
    · rename_i hx
      simp only [List.flatten_cons, ih, eq_of_beq hx]; rfl
    · cases hr : readlines xs with
      | nil => rw [hr] at ih; simp [consHead, ← ih]
      | cons w ws => rw [hr] at ih; simp only [consHead, List.flatten_cons, List.cons_append] at ih ⊢; rw [ih]

theorem readlines_drop : ∀ (k : Nat) (t : Str), readlines ((readlines t).drop k).flatten = (readlines t).drop k
  | 0, t => by simp [flatten_readlines]
  | k + 1, t => by
    by_cases hm : '\n' ∈ t
    · obtain ⟨a, b, rfl, ha⟩ := List.eq_append_cons_of_mem hm
      rw [readlines_line_append b ha]
      simpa using readlines_drop k b
    · cases t with
      | nil => rfl
      | cons x xs => rw [readlines_noeol hm (by simp)]; simp [readlines]

theorem splitOn_words : ∀ (n : Nat) (u : Str), u.length ≤ n → (splitOn '\n' u).map words = (readlines u).map words ∨
    (splitOn '\n' u).map words = (readlines u).map words ++ [[]]
  | 0, u, h => by
    cases u with
    | nil => exact .inr (by decide)
    | cons x xs => simp at h
  | n + 1, u, h => by
    by_cases hm : '\n' ∈ u
    · obtain ⟨a, b, rfl, ha⟩ := List.eq_append_cons_of_mem hm
      rw [readlines_line_append b ha, show splitOn '\n' (a ++ '\n' :: b) = a :: splitOn '\n' b by
        rw [splitOn, splitP_append_sep _ a _ b (by simp), splitP_free (fun c hc => by simp; rintro rfl; exact ha hc)]; rfl]
      simp only [List.map_cons, words_append_space a '\n' isSpace_nl]
      rcases splitOn_words n b (by simp at h; omega) with h1 | h1
      · left; rw [h1]
      · right; rw [h1]; rfl
    · cases u with
      | nil => exact .inr (by decide)
      | cons x xs =>
        left
        rw [readlines_noeol hm (by simp), splitOn, splitP_free (fun c hc => by simp; rintro rfl; exact hm hc)]

theorem mem_splitP_sub {p : Char → Bool} {s w : Str} {c : Char} (hw : w ∈ splitP p s) (hc : c ∈ w) : c ∈ s ∧ p c = false := by
  induction s generalizing w with
  | nil => simp [splitP] at hw; subst hw; cases hc
  | cons x xs ih =>
    rw [splitP] at hw
    split at hw
    · rcases List.mem_cons.1 hw with rfl | hw
      · cases hc
      · exact ⟨List.mem_cons_of_mem _ (ih hw hc).1, (ih hw hc).2⟩
    · rename_i hx
      cases hs : splitP p xs with
      | nil => exact absurd hs (splitP_ne_nil _ _)
      | cons y ys =>
        rw [hs] at hw ih
        simp only [consHead, List.mem_cons] at hw
        rcases hw with rfl | hw
        · rcases List.mem_cons.1 hc with rfl | hc
          · exact ⟨by simp, by simpa using hx⟩
          · have := ih (w := y) (by simp) hc
            exact ⟨List.mem_cons_of_mem _ this.1, this.2⟩
        · have := ih (w := w) (by simp [hw]) hc
          exact ⟨List.mem_cons_of_mem _ this.1, this.2⟩

theorem mem_flatten_drop {t : Str} {k : Nat} {c : Char} (h : c ∈ ((readlines t).drop k).flatten) : c ∈ t := by
  rw [← flatten_readlines t]
  obtain ⟨l, hl, hc⟩ := List.mem_flatten.1 h
  exact List.mem_flatten.2 ⟨l, List.mem_of_mem_drop hl, hc⟩

theorem solid_blocks (t : Str) (hb : ∀ c ∈ t, isLineBreak c = true → c = '\n') :
    solid (blocks ((readlines t).drop 6).flatten) = pointBlocks t := by
  have hu := readlines_drop 6 t
  have hbu : ∀ c ∈ ((readlines t).drop 6).flatten, isLineBreak c = true → c = '\n' := fun c hc => hb c (mem_flatten_drop hc)
  unfold pointBlocks
  generalize ((readlines t).drop 6).flatten = u at hu hbu
  rw [← hu]
  have hlf : ∀ l ∈ splitOn '\n' u, Lf l := by
    intro l hl c hc
    have := mem_splitP_sub hl hc
    by_contra hne
    have := hbu c this.1 (by simpa using hne)
    subst this
    simp at *
  have key := blocks_runs (splitOn '\n' u).length (splitOn '\n' u) u.length le_rfl hlf (splitP_ne_nil _ _) (by rw [join_splitOn])
  rw [join_splitOn] at key
  have e : blocks u = (splitEmpty u.length u).map bw := rfl
  rw [e, key]
  rcases splitOn_words u.length u le_rfl with h | h
  · rw [h]
  · rw [h, runs_append_blank]

/-! ### arrays -/

theorem numbers_iff (ws : List Str) (xs : List Rat) : Numbers ws xs ↔ Res.mapM' toFloat ws = .ok xs := by
  unfold Numbers
  rw [Res.mapM'_eq_ok]
  simp only [Doscar.toFloat_iff]

theorem broadcast_ok {n : Nat} {vs v : List Rat} (h : broadcast n vs = .ok v) : v.length = n ∧
    (v = vs ∨ ∃ x, vs = [x] ∧ n ≠ 1 ∧ v = List.replicate n x) := by
  unfold broadcast at h
  split at h
  · rename_i hl; cases h; exact ⟨hl, .inl rfl⟩
  · rename_i hl
    split at h
    · rename_i x; cases h; exact ⟨by simp, .inr ⟨x, rfl, fun hn => hl (by simp [hn]), rfl⟩⟩
    · cases h

theorem index_ok {n b : Nat} {i : Int} (h : index n i = .ok b) : b < n ∧ (i = b ∨ i < 0 ∧ i + n = b) := by
  unfold index at h
  split at h
  · cases h; omega
  · split at h
    · cases h; omega
    · cases h

/-- All elements are there and no others. -/
structure Shape (ns nk nb : Nat) (e : Values) : Prop where
  len : e.length = ns
  elem : ∀ s k b, (at3 e s k b).isSome = true ↔ s < ns ∧ k < nk ∧ b < nb

theorem at3_assign (e : Values) (k b : Nat) (vs : List Rat) (s k' b' : Nat) (hs : e.length = vs.length) :
    at3 (assign e k b vs) s k' b' = if k = k' ∧ b = b' then (at3 e s k' b').bind fun _ => vs[s]? else at3 e s k' b' := by
  unfold at3 assign
  rw [List.getElem?_zipWith]
  by_cases h1 : s < e.length
  · rw [List.getElem?_eq_getElem h1, List.getElem?_eq_getElem (hs ▸ h1 : s < vs.length)]
    simp only [Option.bind_some, List.getElem?_modify]
    by_cases hk : k = k'
    · subst hk
      simp only [if_true, true_and]
      cases hr : e[s][k]? with
      | none => simp
      | some r =>
        simp only [Option.map_eq_map, Option.map_some, Option.bind_some, List.getElem?_set]
        by_cases hbb : b = b'
        · subst hbb
          by_cases hlen : b < r.length <;> simp [hlen]
        · simp [hbb]
    · simp [hk]
  · have : e[s]? = none := List.getElem?_eq_none (by omega)
    simp [this]

theorem Shape.assign {ns nk nb : Nat} {e : Values} (h : Shape ns nk nb e) (k b : Nat) {vs : List Rat} (hv : vs.length = ns) :
    Shape ns nk nb (assign e k b vs) := by
  refine ⟨by unfold Eigenval.assign; simp [h.len, hv], fun s k' b' => ?_⟩
  rw [at3_assign e k b vs s k' b' (by rw [h.len, hv]), ← h.elem]
  split
  · cases hx : at3 e s k' b' with
    | none => simp
    | some y =>
      have : s < ns := ((h.elem s k' b').1 (by simp [hx])).1
      simp [List.getElem?_eq_getElem (hv.symm ▸ this : s < vs.length)]
  · rfl

theorem Shape.zeros (ns nk nb : Nat) : Shape ns nk nb (List.replicate ns (List.replicate nk (List.replicate nb 0))) := by
  refine ⟨by simp, fun s k b => ?_⟩
  unfold at3
  by_cases hs : s < ns
  · by_cases hk : k < nk
    · by_cases hb : b < nb <;> simp [List.getElem?_replicate, hs, hk, hb]
    · simp [List.getElem?_replicate, hs, hk]
  · simp [List.getElem?_replicate, hs]

theorem at3_zeros {ns nk nb s k b : Nat} (h : s < ns ∧ k < nk ∧ b < nb) :
    at3 (List.replicate ns (List.replicate nk (List.replicate nb 0))) s k b = some 0 := by
  unfold at3
  simp [List.getElem?_replicate, h.1, h.2.1, h.2.2]

/-- One band line. -/
theorem readBand_ok {ns nb k nk : Nat} {e e' : Values} {point : List Str} (hs : Shape ns nk nb e)
    (h : readBand ns nb k e point = .ok e') : Shape ns nk nb e' ∧
    (∀ s k' b, k' ≠ k → at3 e' s k' b = at3 e s k' b) ∧
    (∀ s b, s < ns → k < nk → b < nb → Concerns nb point b → ∃ v, at3 e' s k b = some v ∧ InColumn ns point s v) ∧
    (∀ s b, b < nb → ¬ Concerns nb point b → at3 e' s k b = at3 e s k b) := by
  unfold readBand at h
  obtain ⟨w, hw, h⟩ := Res.bind_eq_ok.1 h
  obtain ⟨n, hn, h⟩ := Res.bind_eq_ok.1 h
  obtain ⟨b, hb, h⟩ := Res.bind_eq_ok.1 h
  obtain ⟨vs, hvs, h⟩ := Res.bind_eq_ok.1 h
  obtain ⟨v, hv, h⟩ := Res.bind_eq_ok.1 h
  cases h
  obtain ⟨hvl, hvv⟩ := broadcast_ok hv
  obtain ⟨hbn, hbi⟩ := index_ok hb
  have hhead : point.head? = some w := by rw [List.head?_eq_getElem?]; exact Doscar.idx_ok' hw
  have hint : pyInt w = some n := by
    unfold toInt at hn
    cases hp : pyInt w with
    | none => rw [hp] at hn; cases hn
    | some m => rw [hp] at hn; cases hn; rfl
  have hc : ∀ b', b' < nb → (Concerns nb point b' ↔ b = b') := by
    intro b' hb'
    constructor
    · rintro ⟨w', n', h1, h2, h3⟩
      rw [hhead] at h1; cases h1
      rw [hint] at h2; cases h2
      omega
    · rintro rfl
      exact ⟨w, n, hhead, hint, by omega⟩
  have el : e.length = v.length := by rw [hs.len, hvl]
  refine ⟨hs.assign k b hvl, ?_, ?_, ?_⟩
  · intro s k' b' hk
    rw [at3_assign _ _ _ _ _ _ _ el, if_neg (fun hh => hk hh.1.symm)]
  · intro s b' hsn hkn hbn' hcon
    have hbb := (hc b' hbn').1 hcon
    subst hbb
    rw [at3_assign _ _ _ _ _ _ _ el, if_pos ⟨rfl, rfl⟩]
    obtain ⟨y, hy⟩ := Option.isSome_iff_exists.1 ((hs.elem s k b).2 ⟨hsn, hkn, hbn'⟩)
    rw [hy, Option.bind_some, List.getElem?_eq_getElem (hvl.symm ▸ hsn : s < v.length)]
    refine ⟨_, rfl, vs, (numbers_iff _ _).2 hvs, ?_⟩
    rcases hvv with rfl | ⟨x, rfl, hne, rfl⟩
    · exact .inl ⟨List.getElem?_eq_getElem _, hvl⟩
    · exact .inr ⟨by simp, hne⟩
  · intro s b' hbn' hcon
    rw [at3_assign _ _ _ _ _ _ _ el, if_neg (fun hh => hcon ((hc b' hbn').2 hh.2))]

/-- The band lines of a block. -/
theorem readBands_ok {ns nb k nk : Nat} (lines : List (List Str)) {e e' : Values} (hs : Shape ns nk nb e)
    (h0 : ∀ s b, s < ns → k < nk → b < nb → at3 e s k b = some 0)
    (h : Res.foldlM' (readBand ns nb k) e lines = .ok e') : Shape ns nk nb e' ∧
    (∀ s k' b, k' ≠ k → at3 e' s k' b = at3 e s k' b) ∧
    (∀ s b, s < ns → k < nk → b < nb → ∃ v, at3 e' s k b = some v ∧ BandValue ns nb lines s b v) := by
  induction lines using List.reverseRecOn generalizing e' with
  | nil =>
    cases h
    exact ⟨hs, fun _ _ _ _ => rfl, fun s b h1 h2 h3 => ⟨0, h0 s b h1 h2 h3, .inr ⟨by simp, rfl⟩⟩⟩
  | append_singleton ls line ih =>
    rw [Res.foldlM'_append] at h
    obtain ⟨m, hm, h⟩ := Res.bind_eq_ok.1 h
    obtain ⟨i1, i2, i3⟩ := ih hm
    have hl : readBand ns nb k m line = .ok e' := by
      simp only [Res.foldlM'] at h
      cases hx : readBand ns nb k m line with
      | ok y => rw [hx] at h; exact h
      | exit c => rw [hx] at h; cases h
      | raise x => rw [hx] at h; cases h
    obtain ⟨j1, j2, j3, j4⟩ := readBand_ok i1 hl
    refine ⟨j1, fun s k' b hk => by rw [j2 s k' b hk, i2 s k' b hk], fun s b h1 h2 h3 => ?_⟩
    by_cases hc : Concerns nb line b
    · obtain ⟨v, hv, hin⟩ := j3 s b h1 h2 h3 hc
      exact ⟨v, hv, .inl ⟨ls, line, [], rfl, hc, by simp, hin⟩⟩
    · obtain ⟨v, hv, hbv⟩ := i3 s b h1 h2 h3
      refine ⟨v, by rw [j4 s b h3 hc, hv], ?_⟩
      rcases hbv with ⟨pre, q, post, rfl, hq, hpost, hin⟩ | ⟨hall, hz⟩
      · refine .inl ⟨pre, q, post ++ [line], by simp, hq, ?_, hin⟩
        intro x hx
        rcases List.mem_append.1 hx with hx | hx
        · exact hpost x hx
        · rw [List.mem_singleton] at hx; rw [hx]; exact hc
      · refine .inr ⟨?_, hz⟩
        intro x hx
        rcases List.mem_append.1 hx with hx | hx
        · exact hall x hx
        · rw [List.mem_singleton] at hx; rw [hx]; exact hc

/-- The k-point a line describes: three coordinates and the weight; a single number stands for all four. -/
def PointLine (line : List Str) (kp : List Rat) : Prop :=
  Numbers line kp ∧ kp.length = 4 ∨ ∃ x, Numbers line [x] ∧ kp = [x, x, x, x]

/-- What the arrays say about block `k`. -/
def Placed (ns nb : Nat) (a : Arrays) (k : Nat) (block : List (List Str)) : Prop :=
  ∃ first rest, block = first :: rest ∧ (∃ kp, a.kpoints[k]? = some kp ∧ PointLine first kp) ∧
    ∀ s b, s < ns → b < nb → ∃ v, at3 a.values s k b = some v ∧ BandValue ns nb rest s b v

theorem readBlock_ok {ns nb nk k : Nat} {a a' : Arrays} {block : List (List Str)} (hs : Shape ns nk nb a.values)
    (hk : a.kpoints.length = nk) (h0 : ∀ s b, s < ns → k < nk → b < nb → at3 a.values s k b = some 0)
    (h : readBlock ns nb a (block, k) = .ok a') : k < nk ∧ Shape ns nk nb a'.values ∧ a'.kpoints.length = nk ∧
    Placed ns nb a' k block ∧ ∀ k', k' ≠ k → a'.kpoints[k']? = a.kpoints[k']? ∧ ∀ s b, at3 a'.values s k' b = at3 a.values s k' b := by
  unfold readBlock at h
  cases block with
  | nil => cases h
  | cons first rest =>
    simp only at h
    obtain ⟨kpi, hkpi, h⟩ := Res.bind_eq_ok.1 h
    split at h
    · rename_i hlt
      obtain ⟨kp, hkp, h⟩ := Res.bind_eq_ok.1 h
      obtain ⟨e, he, h⟩ := Res.bind_eq_ok.1 h
      cases h
      obtain ⟨r1, r2, r3⟩ := readBands_ok rest hs h0 he
      have hknk : k < nk := hk ▸ hlt
      obtain ⟨hkl, hkv⟩ := broadcast_ok hkp
      refine ⟨hknk, r1, by simpa using hk, ⟨first, rest, rfl, ⟨kp, by simp [hlt], ?_⟩, fun s b h1 h2 => r3 s b h1 hknk h2⟩, ?_⟩
      · rcases hkv with rfl | ⟨x, rfl, _, rfl⟩
        · exact .inl ⟨(numbers_iff _ _).2 hkpi, hkl⟩
        · exact .inr ⟨x, (numbers_iff _ _).2 hkpi, rfl⟩
      · intro k' hk'
        exact ⟨by simp [List.getElem?_set, Ne.symm hk'], fun s b => r2 s k' b hk'⟩
    · cases h

theorem readBlocks_ok {ns nb nk : Nat} (bs : List (List (List Str))) {a' : Arrays}
    (h : Res.foldlM' (readBlock ns nb) ⟨List.replicate nk [0, 0, 0, 0], List.replicate ns (List.replicate nk (List.replicate nb 0))⟩
      bs.zipIdx = .ok a') : bs.length ≤ nk ∧ Shape ns nk nb a'.values ∧ a'.kpoints.length = nk ∧
    (∀ k block, bs[k]? = some block → Placed ns nb a' k block) ∧
    ∀ k, bs.length ≤ k → k < nk → a'.kpoints[k]? = some [0, 0, 0, 0] ∧ ∀ s b, s < ns → b < nb → at3 a'.values s k b = some 0 := by
  induction bs using List.reverseRecOn generalizing a' with
  | nil =>
    cases h
    refine ⟨by simp, Shape.zeros _ _ _, by simp, by simp, fun k _ hk => ⟨by simp [List.getElem?_replicate, hk], fun s b hs hb => at3_zeros ⟨hs, hk, hb⟩⟩⟩
  | append_singleton bs block ih =>
    rw [List.zipIdx_append, Res.foldlM'_append] at h
    obtain ⟨m, hm, h⟩ := Res.bind_eq_ok.1 h
    obtain ⟨i0, i1, i2, i3, i4⟩ := ih hm
    have hl : readBlock ns nb m (block, bs.length) = .ok a' := by
      simp only [List.zipIdx_cons, List.zipIdx_nil, Nat.zero_add, Res.foldlM'] at h
      cases hx : readBlock ns nb m (block, bs.length) with
      | ok y => rw [hx] at h; exact h
      | exit c => rw [hx] at h; cases h
      | raise x => rw [hx] at h; cases h
    obtain ⟨j0, j1, j2, j3, j4⟩ := readBlock_ok i1 i2 (fun s b h1 h2 h3 => (i4 _ le_rfl h2).2 s b h1 h3) hl
    refine ⟨by simp; omega, j1, j2, ?_, ?_⟩
    · intro k blk hk
      by_cases hkl : k < bs.length
      · rw [List.getElem?_append_left hkl] at hk
        obtain ⟨first, rest, hb, ⟨kp, hkp, hpl⟩, hv⟩ := i3 k blk hk
        obtain ⟨q1, q2⟩ := j4 k (by omega)
        exact ⟨first, rest, hb, ⟨kp, by rw [q1, hkp], hpl⟩, fun s b h1 h2 => by rw [q2]; exact hv s b h1 h2⟩
      · rw [List.getElem?_append_right (by omega)] at hk
        have hk0 : k = bs.length := by
          have := (List.getElem?_eq_some_iff.1 hk).1
          simp at this; omega
        subst hk0
        simp at hk
        subst hk
        exact j3
    · intro k hk hkn
      have hk' : bs.length + 1 ≤ k := by simpa using hk
      obtain ⟨q1, q2⟩ := j4 k (by omega)
      obtain ⟨z1, z2⟩ := i4 k (by omega) hkn
      exact ⟨by rw [q1, z1], fun s b h1 h2 => by rw [q2, z2 s b h1 h2]⟩

theorem solid_of_ok {ns nb : Nat} (bs : List (List (List Str))) {k : Nat} {a a' : Arrays}
    (h : Res.foldlM' (readBlock ns nb) a (bs.zipIdx k) = .ok a') : solid bs = bs := by
  induction bs generalizing k a with
  | nil => rfl
  | cons b bs ih =>
    simp only [List.zipIdx_cons, Res.foldlM'] at h
    cases hx : readBlock ns nb a (b, k) with
    | ok y =>
      rw [hx] at h
      have : b ≠ [] := by rintro rfl; simp [readBlock] at hx
      have ih' := ih h
      unfold solid at ih' ⊢
      rw [List.filter_cons_of_pos (by simp [this]), ih']
    | exit c => rw [hx] at h; cases h
    | raise x => rw [hx] at h; cases h

/-! ### files without surplus blank lines -/

/-- At least one line is not blank, neither the first two lines nor the last two are blank. -/
structure Good (L : List Str) : Prop where
  some' : ∃ l ∈ L, words l ≠ []
  first : ∀ a b r, L = a :: b :: r → words a ≠ [] ∨ words b ≠ []
  last : ∀ r a b, L = r ++ [a, b] → words a ≠ [] ∨ words b ≠ []

theorem skip_suffix (L : List Str) : ∃ pre, L = pre ++ skip L ∧ ∀ l ∈ pre, words l = [] := by
  induction L with
  | nil => exact ⟨[], rfl, by simp⟩
  | cons y ls ih =>
    cases ls with
    | nil => exact ⟨[], rfl, by simp⟩
    | cons x xs =>
      unfold skip
      split
      · rename_i hy
        obtain ⟨pre, hp, hb⟩ := ih
        refine ⟨y :: pre, by rw [List.cons_append, ← hp], fun l hl => ?_⟩
        rcases List.mem_cons.1 hl with rfl | hl
        · exact hy
        · exact hb l hl
      · exact ⟨[], rfl, by simp⟩

theorem skip_head (L : List Str) {a : Str} {r : List Str} (h : skip L = a :: r) : words a ≠ [] ∨ r = [] := by
  induction L with
  | nil => simp [skip] at h
  | cons y ls ih =>
    cases ls with
    | nil => simp [skip] at h; exact .inr h.2
    | cons x xs =>
      unfold skip at h
      split at h
      · exact ih h
      · rename_i hy
        injection h with h1 h2
        exact .inl (h1 ▸ hy)

theorem bw_prefix {l : Str} (B : Str) (hl : Lf l) : bw (l ++ '\n' :: B) = [] ↔ words l = [] ∧ bw B = [] := by
  rw [bw_cons B hl]
  by_cases hw : words l = [] <;> simp [hw]

theorem pieces_solid : ∀ (k : Nat) (L : List Str) (n : Nat), L.length ≤ k → (∀ l ∈ L, Lf l) → Good L → (join ['\n'] L).length ≤ n →
    ∀ p ∈ splitEmpty n (join ['\n'] L), bw p ≠ []
  | 0, L, _, hk, _, hg, _ => by
    obtain ⟨l, hl, _⟩ := hg.some'
    cases L <;> simp_all
  | k + 1, [], _, _, _, hg, _ => by
    obtain ⟨l, hl, _⟩ := hg.some'
    cases hl
  | k + 1, [l], n, _, hf, hg, hn => by
    have hl := hf l (by simp)
    simp only [join] at hn ⊢
    have := splitEmpty_prefix hl [] (n - l.length)
    rw [List.append_nil, Nat.add_sub_cancel' hn] at this
    rw [this]
    have hs : splitEmpty (n - l.length) [] = [[]] := by cases n - l.length <;> rfl
    rw [hs]
    simp only [consStr, List.append_nil, List.mem_singleton]
    rintro p rfl
    obtain ⟨l', hl', hw⟩ := hg.some'
    rw [List.mem_singleton] at hl'
    rw [bw_line hl, if_neg (hl' ▸ hw)]
    simp
  | k + 1, l :: x :: xs, n, hk, hf, hg, hn => by
    have hl := hf l (by simp)
    have hx := hf x (by simp)
    have hfr : ∀ y ∈ x :: xs, Lf y := fun y hy => hf y (by simp [hy])
    have e : join ['\n'] (l :: x :: xs) = l ++ '\n' :: join ['\n'] (x :: xs) := by simp [join]
    rw [e] at hn ⊢
    have hlen : l.length + 1 + (join ['\n'] (x :: xs)).length ≤ n := by simp at hn; omega
    have hsp := splitEmpty_prefix hl ('\n' :: join ['\n'] (x :: xs)) (n - l.length - 1 + 1)
    rw [show l.length + (n - l.length - 1 + 1) = n by omega, splitEmpty, if_pos isNl_nl, skipBlank_join (x :: xs) hfr (by simp)] at hsp
    have hlen' : (join ['\n'] (x :: xs)).length ≤ n - l.length - 1 := by omega
    by_cases hxw : words x = []
    · have hlw : words l ≠ [] := (hg.first l x xs rfl).resolve_right (by simp [hxw])
      cases xs with
      | nil =>
        simp only [join] at hsp hlen' ⊢
        have h1 := splitEmpty_prefix hx [] (n - l.length - 1 - x.length)
        rw [List.append_nil, Nat.add_sub_cancel' hlen'] at h1
        have h2 : splitEmpty (n - l.length - 1 - x.length) [] = [[]] := by cases n - l.length - 1 - x.length <;> rfl
        rw [h1, h2] at hsp
        rw [hsp]
        simp only [consStr, consHead, List.append_nil, List.mem_singleton]
        rintro p rfl
        rw [Ne, bw_prefix _ hl]
        exact fun hh => hlw hh.1
      | cons y ys =>
        simp only [hxw, if_true] at hsp
        rw [hsp]
        simp only [consStr, List.append_nil]
        obtain ⟨pre, hpre, hblank⟩ := skip_suffix (x :: y :: ys)
        have hgood : Good (skip (x :: y :: ys)) := by
          obtain ⟨a, r, har⟩ := List.exists_cons_of_ne_nil (skip_ne_nil (L := x :: y :: ys) (by simp))
          have hlastS : ∀ r a b, skip (x :: y :: ys) = r ++ [a, b] → words a ≠ [] ∨ words b ≠ [] := by
            intro r a b hr
            refine hg.last (l :: pre ++ r) a b ?_
            rw [hpre, hr]; simp
          have ha : words a ≠ [] := by
            rcases skip_head _ har with h | h
            · exact h
            · subst h
              rw [har] at hpre
              rcases List.eq_nil_or_concat pre with rfl | ⟨q, z, rfl⟩
              · simp at hpre
              · have hz : words z = [] := hblank z (by simp)
                have := hg.last (l :: q) z a (by rw [hpre]; simp)
                exact this.resolve_left (by simp [hz])
          refine ⟨⟨a, by rw [har]; simp, ha⟩, ?_, hlastS⟩
          intro a' b' r' h'
          rw [har] at h'
          injection h' with h1 h2
          exact .inl (h1 ▸ ha)
        have hsl : (join ['\n'] (skip (x :: y :: ys))).length ≤ n - l.length - 1 := by
          have : ∀ M : List Str, (join ['\n'] (skip M)).length ≤ (join ['\n'] M).length := by
            intro M
            induction M with
            | nil => simp [skip]
            | cons a as ih =>
              cases as with
              | nil => simp [skip]
              | cons b bs =>
                unfold skip
                split
                · refine le_trans ih ?_
                  simp only [join, List.length_append]
                  omega
                · exact le_refl _
          exact le_trans (this _) (by omega)
        have ih := pieces_solid k (skip (x :: y :: ys)) (n - l.length - 1)
          (le_trans (skip_length _) (by simp at hk ⊢; omega)) (fun z hz => hfr z (skip_mem hz)) hgood hsl
        intro p hp
        rcases List.mem_cons.1 hp with rfl | hp
        · rw [bw_line hl, if_neg hlw]; simp
        · exact ih p hp
    · have hgood : Good (x :: xs) := by
        refine ⟨⟨x, by simp, hxw⟩, ?_, ?_⟩
        · intro a b r h
          injection h with h1 h2
          exact .inl (h1 ▸ hxw)
        · intro r a b h
          exact hg.last (l :: r) a b (by rw [h]; rfl)
      have hnone : (match (x :: xs : List Str) with
          | y :: _ :: _ => if words y = [] then some (join ['\n'] (skip (x :: xs))) else none
          | _ => none) = none := by
        cases xs with
        | nil => rfl
        | cons y ys => simp [hxw]
      rw [hnone] at hsp
      simp only at hsp
      have ih := pieces_solid k (x :: xs) (n - l.length - 1) (by simp at hk ⊢; omega) hfr hgood hlen'
      cases hs : splitEmpty (n - l.length - 1) (join ['\n'] (x :: xs)) with
      | nil => exact absurd hs (splitEmpty_ne_nil _ _)
      | cons w ws =>
        rw [hs] at hsp ih
        rw [hsp]
        simp only [consHead, consStr]
        intro p hp
        rcases List.mem_cons.1 hp with rfl | hp
        · rw [Ne, bw_prefix _ hl]
          exact fun hh => ih w (by simp) hh.2
        · exact ih p (by simp [hp])

theorem blocks_of_tame (t : Str) (hb : ∀ c ∈ t, isLineBreak c = true → c = '\n')
    (hfirst : ∀ a b r, (readlines t).drop 6 = a :: b :: r → words a ≠ [] ∨ words b ≠ [])
    (hlast : ∃ l, ((readlines t).drop 6).getLast? = some l ∧ words l ≠ []) :
    blocks ((readlines t).drop 6).flatten = pointBlocks t := by
  rw [← solid_blocks t hb]
  have hu := readlines_drop 6 t
  have hbu : ∀ c ∈ ((readlines t).drop 6).flatten, isLineBreak c = true → c = '\n' := fun c hc => hb c (mem_flatten_drop hc)
  generalize ((readlines t).drop 6).flatten = u at hu hbu
  rw [← hu] at hfirst hlast
  obtain ⟨z, hz, hzw⟩ := hlast
  obtain ⟨S, hS⟩ := List.getLast?_eq_some_iff.1 hz
  have hlf : ∀ l ∈ splitOn '\n' u, Lf l := by
    intro l hl c hc
    have := mem_splitP_sub hl hc
    by_contra hne
    have := hbu c this.1 (by simpa using hne)
    subst this
    simp at *
  -- the words of the lines
  have hmap : ∃ tail, (tail = [] ∨ tail = [[]]) ∧ (splitOn '\n' u).map words = S.map words ++ words z :: tail := by
    rcases splitOn_words u.length u le_rfl with h | h
    · exact ⟨[], .inl rfl, by rw [h, hS]; simp⟩
    · exact ⟨[[]], .inr rfl, by rw [h, hS]; simp⟩
  obtain ⟨tail, htail, hmap⟩ := hmap
  have hg : Good (splitOn '\n' u) := by
    refine ⟨?_, ?_, ?_⟩
    · have : words z ∈ (splitOn '\n' u).map words := by rw [hmap]; simp
      obtain ⟨l, hl, he⟩ := List.mem_map.1 this
      exact ⟨l, hl, by rw [he]; exact hzw⟩
    · intro a b r h
      rw [h] at hmap
      match S, hS, hmap with
      | [], hS, hmap => simp only [List.map_cons, List.map_nil, List.nil_append, List.cons.injEq] at hmap; exact .inl (hmap.1 ▸ hzw)
      | [s], hS, hmap =>
        simp only [List.map_cons, List.map_nil, List.singleton_append, List.cons.injEq] at hmap
        exact .inr (hmap.2.1 ▸ hzw)
      | s :: s' :: S', hS, hmap =>
        simp only [List.map_cons, List.cons_append, List.cons.injEq] at hmap
        have := hfirst s s' (S' ++ [z]) (by rw [hS]; rfl)
        rw [hmap.1, hmap.2.1]
        exact this
    · intro r a b h
      rw [h] at hmap
      rcases htail with rfl | rfl
      · have : (r ++ [a]).map words ++ [words b] = S.map words ++ [words z] := by simpa using hmap
        have := (List.append_inj' this rfl).2
        simp only [List.cons.injEq, and_true] at this
        exact .inr (this ▸ hzw)
      · have : r.map words ++ [words a, words b] = S.map words ++ [words z, []] := by simpa using hmap
        have := (List.append_inj' this rfl).2
        simp only [List.cons.injEq, and_true] at this
        exact .inl (this.1 ▸ hzw)
  have key := pieces_solid (splitOn '\n' u).length (splitOn '\n' u) u.length le_rfl hlf hg (by rw [join_splitOn])
  rw [join_splitOn] at key
  symm
  unfold solid
  rw [List.filter_eq_self]
  intro b hb'
  obtain ⟨p, hp, rfl⟩ := List.mem_map.1 hb'
  have := key p hp
  unfold bw at this
  simpa using this

/-! ### a blank line at the end -/

theorem skipBlank_end (u r : Str) (h : skipBlank (u ++ ['\n', '\n']) = some r) :
    r.length < (u ++ ['\n', '\n']).length ∧ (r = [] ∨ ∃ v, r = v ++ ['\n', '\n']) := by
  induction u generalizing r with
  | nil =>
    have : skipBlank ([] ++ ['\n', '\n']) = some [] := by decide
    rw [this] at h; cases h; simp
  | cons c cs ih =>
    simp only [List.cons_append] at h
    rw [skipBlank] at h
    split at h
    · cases hs : skipBlank (cs ++ ['\n', '\n']) with
      | some q =>
        rw [hs] at h
        cases h
        obtain ⟨h1, h2⟩ := ih r hs
        exact ⟨by simp at h1 ⊢; omega, h2⟩
      | none =>
        rw [hs] at h
        simp only at h
        split at h
        · cases h; exact ⟨by simp, .inr ⟨cs, rfl⟩⟩
        · cases h
    · cases h

theorem splitEmpty_end : ∀ (n : Nat) (u : Str), (u ++ ['\n', '\n']).length ≤ n → ([] : Str) ∈ splitEmpty n (u ++ ['\n', '\n']) ∧
    (splitEmpty n (u ++ ['\n', '\n'])).getLast? = some [] ∧ 2 ≤ (splitEmpty n (u ++ ['\n', '\n'])).length
  | 0, u, h => by simp at h
  | n + 1, [], h => by
    have : splitEmpty (n + 1) ([] ++ ['\n', '\n']) = [[], []] := by
      rw [List.nil_append, splitEmpty, if_pos isNl_nl]
      have : skipBlank ['\n'] = some [] := by decide
      rw [this]
      cases n <;> rfl
    rw [this]; simp
  | n + 1, c :: cs, h => by
    have hlen : (cs ++ ['\n', '\n']).length ≤ n := by simp at h ⊢; omega
    have hc : ∀ x : List Str, 2 ≤ x.length → x.getLast? = some [] → ([] : Str) ∈ consHead c x ∧ (consHead c x).getLast? = some [] ∧
        2 ≤ (consHead c x).length := by
      intro x h1 h2
      match x, h1, h2 with
      | a :: b :: r, _, h2 =>
        have h3 : ((c :: a) :: b :: r).getLast? = some [] := by simpa using h2
        exact ⟨List.mem_of_getLast? h3, h3, by simp [consHead]⟩
    rw [List.cons_append, splitEmpty]
    split
    · split
      · rename_i r hr
        obtain ⟨h1, h2⟩ := skipBlank_end cs r hr
        rcases h2 with rfl | ⟨v, rfl⟩
        · have : splitEmpty n [] = [[]] := by cases n <;> rfl
          rw [this]; simp
        · obtain ⟨_, i2, i3⟩ := splitEmpty_end n v (by omega)
          refine ⟨by simp, ?_, by simp; omega⟩
          rw [List.getLast?_cons, i2]; rfl
      · obtain ⟨_, i2, i3⟩ := splitEmpty_end n cs hlen
        exact hc _ i3 i2
    · obtain ⟨_, i2, i3⟩ := splitEmpty_end n cs hlen
      exact hc _ i3 i2

/-! ### theorems -/

/-- The whole numbers printed on a line. -/
def Ints (line : Str) (xs : List Int) : Prop := List.Forall₂ (fun w x => pyInt w = some x) (words line) xs

theorem ints_many {line : Str} {l : List Int} (h : lineToType toInt line = .ok (.many l)) : Ints line l := by
  unfold lineToType at h
  cases hm : Res.mapM' toInt (words line) with
  | exit c => rw [hm] at h; cases h
  | raise e => rw [hm] at h; cases h
  | ok as =>
    rw [hm] at h
    have hl : as = l := by
      match as, h with
      | [], h => simpa using h
      | [a], h => cases h
      | a :: b :: r, h => simpa using h
    subst hl
    refine (Res.mapM'_eq_ok.1 hm).imp fun w x hx => ?_
    unfold toInt at hx
    cases hp : pyInt w with
    | none => rw [hp] at hx; cases hx
    | some m => rw [hp] at hx; cases hx; rfl

theorem size_ok {n : Int} {k : Nat} (h : size n = .ok k) : n = k := by
  unfold size at h
  split at h
  · cases h
  · cases h; omega

/-- What an accepted file looks like. -/
theorem fromList_ok {lines : List Str} {d : Data} (h : fromList lines = .ok d) : ∃ (l0 l1 l2 l3 l4 l5 : Str) (ni na p sn : Int) (nk ns nb : Nat)
    (coord : OneOrMany Str),
    lines[0]? = some l0 ∧ lines[1]? = some l1 ∧ lines[2]? = some l2 ∧ lines[3]? = some l3 ∧ lines[4]? = some l4 ∧ lines[5]? = some l5 ∧
    Ints l0 [ni, na, p, ns] ∧ Ints l5 [sn, nk, nb] ∧
    lineToType toFloat l1 = .ok d.metadata.line1 ∧ lineToType toFloat l2 = .ok d.metadata.line2 ∧
    lineToType Res.ok l3 = .ok coord ∧ cartesianOf coord = .ok d.metadata.cartesian ∧
    d.metadata.line0 = [ni, na, p, ns] ∧ d.metadata.nIons = ni ∧ d.metadata.nAtoms = na ∧ d.metadata.p00 = p ∧ d.metadata.nspin = ns ∧
    d.metadata.someNum = sn ∧ d.metadata.nKp = nk ∧ d.metadata.nBands = nb ∧ d.metadata.name = strip l4 ∧
    Res.foldlM' (readBlock ns nb) ⟨List.replicate nk [0, 0, 0, 0], List.replicate ns (List.replicate nk (List.replicate nb 0))⟩
      (blocks (lines.drop 6).flatten).zipIdx = .ok d.arrays := by
  unfold fromList at h
  obtain ⟨l0, e0, h⟩ := Res.bind_eq_ok.1 h
  obtain ⟨v0, f0, h⟩ := Res.bind_eq_ok.1 h
  obtain ⟨l1, e1, h⟩ := Res.bind_eq_ok.1 h
  obtain ⟨v1, f1, h⟩ := Res.bind_eq_ok.1 h
  obtain ⟨l2, e2, h⟩ := Res.bind_eq_ok.1 h
  obtain ⟨v2, f2, h⟩ := Res.bind_eq_ok.1 h
  obtain ⟨l3, e3, h⟩ := Res.bind_eq_ok.1 h
  obtain ⟨coord, f3, h⟩ := Res.bind_eq_ok.1 h
  obtain ⟨l4, e4, h⟩ := Res.bind_eq_ok.1 h
  obtain ⟨l5, e5, h⟩ := Res.bind_eq_ok.1 h
  obtain ⟨v5, f5, h⟩ := Res.bind_eq_ok.1 h
  obtain ⟨h5, g5, h⟩ := Res.bind_eq_ok.1 h
  obtain ⟨h0, g0, h⟩ := Res.bind_eq_ok.1 h
  rw [(Doscar.unpack_ok g0).1] at f0
  rw [(Doscar.unpack_ok g5).1] at f5
  have k0 := (Doscar.unpack_ok g0).2
  have k5 := (Doscar.unpack_ok g5).2
  match h0, k0, h5, k5, f0, f5, h with
  | [ni, na, p, nsp], _, [sn, nkp, nbd], _, f0, f5, h =>
    simp only at h
    obtain ⟨nk, hnk, h⟩ := Res.bind_eq_ok.1 h
    obtain ⟨ns, hns, h⟩ := Res.bind_eq_ok.1 h
    obtain ⟨nb, hnb, h⟩ := Res.bind_eq_ok.1 h
    obtain ⟨a, ha, h⟩ := Res.bind_eq_ok.1 h
    obtain ⟨cart, hcart, h⟩ := Res.bind_eq_ok.1 h
    cases h
    have q1 := size_ok hnk
    have q2 := size_ok hns
    have q3 := size_ok hnb
    refine ⟨l0, l1, l2, l3, l4, l5, ni, na, p, sn, nk, ns, nb, coord, Doscar.idx_ok' e0, Doscar.idx_ok' e1, Doscar.idx_ok' e2,
      Doscar.idx_ok' e3, Doscar.idx_ok' e4, Doscar.idx_ok' e5, q2 ▸ ints_many f0, q1 ▸ q3 ▸ ints_many f5, f1, f2, f3, hcart, ?_, rfl, rfl, rfl,
      q2, rfl, q1, q3, rfl, ha⟩
    simp only [q2]

/-- C40: in an accepted file the numbers of spins, k-points and bands are those of the header; there are no more blocks than k-points;
the k-point and all eigenvalues of every block stand at its place: the eigenvalue of spin `s` and band `b` is the number in column `s`
of the last line of that block with the number of the band (zero without such a line); places without block hold zero.
Missing in the full claim: that blank lines never matter (see `C40_blank_partial` and the violations). -/
theorem C40_placement_partial (text : Str) (d : Data) (hb : ∀ c ∈ text, isLineBreak c = true → c = '\n')
    (h : init none (some text) = .ok d) : ∃ (ns nk nb : Nat) (ni na p sn : Int) (l0 l5 : Str),
    (readlines text)[0]? = some l0 ∧ Ints l0 [ni, na, p, ns] ∧ (readlines text)[5]? = some l5 ∧ Ints l5 [sn, nk, nb] ∧
    (pointBlocks text).length ≤ nk ∧ d.arrays.kpoints.length = nk ∧
    (∀ s k b, (at3 d.arrays.values s k b).isSome = true ↔ s < ns ∧ k < nk ∧ b < nb) ∧
    (∀ k block, (pointBlocks text)[k]? = some block → ∃ first rest, block = first :: rest ∧
      (∃ kp, d.arrays.kpoints[k]? = some kp ∧ PointLine first kp) ∧
      ∀ s b, s < ns → b < nb → ∃ v, at3 d.arrays.values s k b = some v ∧ BandValue ns nb rest s b v) ∧
    ∀ k, (pointBlocks text).length ≤ k → k < nk → d.arrays.kpoints[k]? = some [0, 0, 0, 0] ∧
      ∀ s b, s < ns → b < nb → at3 d.arrays.values s k b = some 0 := by
  obtain ⟨l0, l1, l2, l3, l4, l5, ni, na, p, sn, nk, ns, nb, coord, e0, _, _, _, _, e5, i0, i5, _, _, _, _, _, _, _, _, _, _, _, _, _, hf⟩ :=
    fromList_ok h
  have hs := solid_of_ok _ hf
  rw [solid_blocks text hb] at hs
  rw [← hs] at hf
  obtain ⟨r1, r2, r3, r4, r5⟩ := readBlocks_ok _ hf
  exact ⟨ns, nk, nb, ni, na, p, sn, l0, l5, e0, i0, e5, i5, r1, r3, r2.elem, r4, r5⟩

/-- C40, metadata: every header value is the one printed at its place. -/
theorem C40_metadata (text : Str) (d : Data) (h : init none (some text) = .ok d) : ∃ (l0 l1 l2 l3 l4 l5 : Str) (ns nk nb : Nat)
    (x1 x2 : List Rat),
    (readlines text).take 6 = [l0, l1, l2, l3, l4, l5] ∧
    Ints l0 [d.metadata.nIons, d.metadata.nAtoms, d.metadata.p00, d.metadata.nspin] ∧
    d.metadata.line0 = [d.metadata.nIons, d.metadata.nAtoms, d.metadata.p00, d.metadata.nspin] ∧
    d.metadata.nspin = ns ∧ d.metadata.nKp = nk ∧ d.metadata.nBands = nb ∧
    Doscar.Numbers l1 x1 ∧ d.metadata.line1 = Doscar.wrap x1 ∧ Doscar.Numbers l2 x2 ∧ d.metadata.line2 = Doscar.wrap x2 ∧
    (∃ w, words l3 = [w] ∧ (d.metadata.cartesian = true ↔ ∃ t, w = 'c' :: t ∨ w = 'C' :: t)) ∧
    d.metadata.name = strip l4 ∧
    Ints l5 [d.metadata.someNum, d.metadata.nKp, d.metadata.nBands] := by
  obtain ⟨l0, l1, l2, l3, l4, l5, ni, na, p, sn, nk, ns, nb, coord, e0, e1, e2, e3, e4, e5, i0, i5, hl1, hl2, hc, hcart, m0, m1, m2, m3, m4,
    m5, m6, m7, m8, _⟩ := fromList_ok h
  obtain ⟨x1, hx1, hw1⟩ := Doscar.lineToType_ok.1 hl1
  obtain ⟨x2, hx2, hw2⟩ := Doscar.lineToType_ok.1 hl2
  refine ⟨l0, l1, l2, l3, l4, l5, ns, nk, nb, x1, x2, ?_, by rw [m1, m2, m3, m4]; exact i0, by rw [m0, m1, m2, m3, m4], m4, m6, m7, hx1, hw1, hx2, hw2,
    ?_, m8, by rw [m5, m6, m7]; exact i5⟩
  · match hr : readlines text, e0, e1, e2, e3, e4, e5 with
    | a :: b :: c :: e :: f :: g :: r, e0, e1, e2, e3, e4, e5 =>
      simp at e0 e1 e2 e3 e4 e5
      simp [e0, e1, e2, e3, e4, e5]
  · unfold lineToType at hc
    have hm : ∀ ws : List Str, Res.mapM' Res.ok ws = .ok ws := by
      intro ws
      induction ws with
      | nil => rfl
      | cons w ws ih => simp only [Res.mapM', ih]
    rw [hm] at hc
    match hw : words l3, hc with
    | [], hc => cases hc; cases hcart
    | w :: w' :: ws, hc => cases hc; cases hcart
    | [w], hc =>
      cases hc
      refine ⟨w, rfl, ?_⟩
      unfold cartesianOf at hcart
      injection hcart with hcart
      rw [← hcart]
      match w with
      | [] => simp [startsWith]
      | x :: t =>
        simp only [startsWith, Bool.and_true, Bool.or_eq_true, List.cons.injEq]
        constructor
        · rintro (hx | hx)
          · exact ⟨t, .inl ⟨(eq_of_beq hx).symm, rfl⟩⟩
          · exact ⟨t, .inr ⟨(eq_of_beq hx).symm, rfl⟩⟩
        · rintro ⟨_, ⟨hx, _⟩ | ⟨hx, _⟩⟩
          · left; simp [hx]
          · right; simp [hx]

/-- C40, blank lines: texts whose part behind the sixth line does not start with two blank lines and does not end with a blank line are read
alike (whatever the outcome) if their first six lines and their blocks of lines that are not blank agree. Missing: other blank lines, for which the claim is false (`C40_violation_end`, `C40_violation_inside`). -/
theorem C40_blank_partial (t₁ t₂ : Str) (hb₁ : ∀ c ∈ t₁, isLineBreak c = true → c = '\n') (hb₂ : ∀ c ∈ t₂, isLineBreak c = true → c = '\n')
    (hf₁ : ∀ a b r, (readlines t₁).drop 6 = a :: b :: r → words a ≠ [] ∨ words b ≠ [])
    (hf₂ : ∀ a b r, (readlines t₂).drop 6 = a :: b :: r → words a ≠ [] ∨ words b ≠ [])
    (hl₁ : ∃ l, ((readlines t₁).drop 6).getLast? = some l ∧ words l ≠ [])
    (hl₂ : ∃ l, ((readlines t₂).drop 6).getLast? = some l ∧ words l ≠ [])
    (head : (readlines t₁).take 6 = (readlines t₂).take 6) (same : pointBlocks t₁ = pointBlocks t₂) :
    init none (some t₁) = init none (some t₂) := by
  have hi : ∀ i, i < 6 → idx (readlines t₁) i = idx (readlines t₂) i := by
    intro i hi
    have := congrArg (fun l => l[i]?) head
    simp only [List.getElem?_take, hi, if_true] at this
    unfold idx
    rw [this]
  show fromList _ = fromList _
  unfold fromList
  rw [blocks_of_tame t₁ hb₁ hf₁ hl₁, blocks_of_tame t₂ hb₂ hf₂ hl₂, same, hi 0 (by omega), hi 1 (by omega), hi 2 (by omega), hi 3 (by omega),
    hi 4 (by omega), hi 5 (by omega)]

theorem readlines_append_line {t : Str} (x : Str) : ∀ n, t.length ≤ n → (t = [] ∨ t.getLast? = some '\n') →
    readlines (t ++ x) = readlines t ++ readlines x
  | n, hn, h => by
    rcases h with rfl | h
    · rfl
    · have hm : '\n' ∈ t := List.mem_of_getLast? h
      obtain ⟨a, b, rfl, ha⟩ := List.eq_append_cons_of_mem hm
      match n, hn with
      | 0, hn => simp at hn
      | n + 1, hn =>
        have hb : b = [] ∨ b.getLast? = some '\n' := by
          cases b with
          | nil => exact .inl rfl
          | cons y ys => right; simpa using h
        have := readlines_append_line x n (by simp at hn; omega) hb
        rw [List.append_assoc, List.cons_append, readlines_line_append _ ha, this, readlines_line_append _ ha]; rfl

theorem readlines_ne_nil {t l : Str} (h : l ∈ readlines t) : l ≠ [] := by
  induction t generalizing l with
  | nil => cases h
  | cons x xs ih =>
    rw [readlines] at h
    split at h
    · rcases List.mem_cons.1 h with rfl | h
      · simp
      · exact ih h
    · cases hr : readlines xs with
      | nil => rw [hr] at h; simp only [consHead, List.mem_singleton] at h; simp [h]
      | cons w ws =>
        rw [hr] at h ih
        simp only [consHead, List.mem_cons] at h
        rcases h with rfl | h
        · simp
        · exact ih (by simp [h])

/-- C40 is false for a blank line at the end: no text with at least seven lines that ends with one is accepted. -/
theorem C40_violation_end (text : Str) (hlen : 7 ≤ (readlines text).length) (hend : text.getLast? = some '\n') (d : Data) :
    init none (some (text ++ ['\n'])) ≠ .ok d := by
  intro h
  obtain ⟨_, _, _, _, _, _, _, _, _, _, nk, ns, nb, _, _, _, _, _, _, _, _, _, _, _, _, _, _, _, _, _, _, _, _, _, _, hf⟩ := fromList_ok h
  have hs := solid_of_ok _ hf
  rw [readlines_append_line _ _ le_rfl (.inr hend), List.drop_append_of_le_length (by omega)] at hs
  have hne : (readlines text).drop 6 ≠ [] := by
    intro h0
    have := congrArg List.length h0
    simp at this; omega
  have hlast : ((readlines text).drop 6).flatten.getLast? = some '\n' := by
    have h1 : text = ((readlines text).take 6).flatten ++ ((readlines text).drop 6).flatten := by
      rw [← List.flatten_append, List.take_append_drop, flatten_readlines]
    have h2 : ((readlines text).drop 6).flatten ≠ [] := by
      intro h0
      obtain ⟨l, r, hl⟩ := List.exists_cons_of_ne_nil hne
      rw [hl] at h0
      simp only [List.flatten_cons, List.append_eq_nil_iff] at h0
      exact readlines_ne_nil (List.mem_of_mem_drop (i := 6) (by rw [hl]; simp)) h0.1
    rw [h1, List.getLast?_append_of_ne_nil _ h2] at hend
    exact hend
  obtain ⟨v, hv⟩ := List.getLast?_eq_some_iff.1 hlast
  have e : ((readlines text).drop 6 ++ readlines ['\n']).flatten = v ++ ['\n', '\n'] := by
    have : readlines ['\n'] = [['\n']] := by decide
    rw [this, List.flatten_append, hv]; simp
  rw [e] at hs
  have hmem := (splitEmpty_end _ v le_rfl).1
  have hb : ([] : List (List Str)) ∈ blocks (v ++ ['\n', '\n']) := by
    refine List.mem_map.2 ⟨[], hmem, ?_⟩
    rfl
  rw [← hs] at hb
  have := (List.mem_filter.1 hb).2
  simp at this


/-- C40 is false for blank lines inside a block: the part behind the blank line is taken for another k-point. -/
theorem C40_violation_inside : ∃ (t t' : Str) (d d' : Data),
    ((readlines t).filter fun l => !(words l).isEmpty) = ((readlines t').filter fun l => !(words l).isEmpty) ∧
    init none (some t) = .ok d ∧ init none (some t') = .ok d' ∧ d.arrays ≠ d'.arrays := by
  refine ⟨c!"1 1 1 1\n0\n0\nCAR\nn\n2 2 1\n\n0 0 0 1\n1 5 1 1\n", c!"1 1 1 1\n0\n0\nCAR\nn\n2 2 1\n\n0 0 0 1\n\n1 5 1 1\n", ⟨⟨[1, 1, 1, 1], .one 0, .one 0, 1, 1, 1, 1, true, ['n'], 2, 1, 2⟩,
    ⟨[[0, 0, 0, 1], [0, 0, 0, 0]], [[[5], [0]]]⟩⟩, ⟨⟨[1, 1, 1, 1], .one 0, .one 0, 1, 1, 1, 1, true, ['n'], 2, 1, 2⟩,
    ⟨[[0, 0, 0, 1], [1, 5, 1, 1]], [[[0], [0]]]⟩⟩, ?_, ?_, ?_, ?_⟩ <;> decide +kernel

/-- Two spins, two k-points and two bands. -/
def exampleText : Str := c!"4 4 1 2\n 0.1E+02 0.4 0.4\n 1.0E-4\n CAR \n some name\n 8 2 2\n\n 0.0 0.0 0.0 0.5\n 1 -6.1 -6.2\n 2 1.5 1.25\n \n\n 0.5 0.0 0.0 0.5\n 1 -5.0 -5.5\n 2 2.0 2.5\n"

/-- The same with other blank lines. -/
def exampleText' : Str := c!"4 4 1 2\n 0.1E+02 0.4 0.4\n 1.0E-4\n CAR \n some name\n 8 2 2\n 0.0 0.0 0.0 0.5\n 1 -6.1 -6.2\n 2 1.5 1.25\n\n 0.5 0.0 0.0 0.5\n 1 -5.0 -5.5\n 2 2.0 2.5"

/-- What they contain. -/
def exampleData : Data := ⟨⟨[4, 4, 1, 2], .many [10, 2/5, 2/5], .one (1/10000), 4, 4, 1, 2, true, c!"some name", 8, 2, 2⟩,
  ⟨[[0, 0, 0, 1/2], [1/2, 0, 0, 1/2]], [[[-61/10, 3/2], [-5, 2]], [[-31/5, 5/4], [-11/2, 5/2]]]⟩⟩

/-- A file with two spins, two k-points and two bands meets the hypotheses. -/
example : init none (some exampleText) = .ok exampleData := by decide +kernel

example : (∀ c ∈ exampleText, isLineBreak c = true → c = '\n') ∧ (∀ c ∈ exampleText', isLineBreak c = true → c = '\n') ∧
    (readlines exampleText).take 6 = (readlines exampleText').take 6 ∧ pointBlocks exampleText = pointBlocks exampleText' ∧
    (∃ l, ((readlines exampleText).drop 6).getLast? = some l ∧ words l ≠ []) ∧
    (∃ l, ((readlines exampleText').drop 6).getLast? = some l ∧ words l ≠ []) ∧
    (((readlines exampleText).drop 6).take 2).map words ≠ [[], []] ∧ (((readlines exampleText').drop 6).take 2).map words ≠ [[], []] ∧
    (pointBlocks exampleText).length = 2 := by
  refine ⟨?_, ?_, ?_, ?_, ⟨c!" 2 2.0 2.5\n", ?_⟩, ⟨c!" 2 2.0 2.5", ?_⟩, ?_, ?_, ?_⟩ <;> decide +kernel

/-- The hypotheses of the violation: this accepted text ends with a newline. -/
example : 7 ≤ (readlines exampleText).length ∧ exampleText.getLast? = some '\n' := by decide +kernel

end Verif.Eigenval
