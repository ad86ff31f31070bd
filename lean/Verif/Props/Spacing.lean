import Verif.Lemmas.Words
import Verif.Lemmas.Cut
import Verif.Model.Kpoints
import Verif.Model.Poscar
import Verif.Model.Doscar
import Verif.Lemmas.Kpoints
/-! # C102: blanks between and around the words of a line do not matter -/
set_option autoImplicit false
namespace Verif
open Verif

/-- The same words, whatever blanks stand between and around them. -/
def SameWords (a b : Str) : Prop := words a = words b

/-- Equally many lines, line by line with the same words. -/
abbrev Respaced (A B : List Str) : Prop := List.Forall₂ SameWords A B

theorem Respaced.of_map {A B : List Str} (h : A.map words = B.map words) : Respaced A B := by
  induction A generalizing B with
  | nil => cases B with
    | nil => exact .nil
    | cons b bs => simp at h
  | cons a as ih => cases B with
    | nil => simp at h
    | cons b bs => simp at h; exact .cons h.1 (ih (by simpa using h.2))

namespace Spacing
open Verif.Kpoints (idx toFloat toInt)

theorem forall₂_get {α β : Type} {R : α → β → Prop} : ∀ {A : List α} {B : List β}, List.Forall₂ R A B → ∀ (i : Nat) (a : α) (b : β),
    A[i]? = some a → B[i]? = some b → R a b
  | _, _, .nil, i, a, b, h, _ => by simp at h
  | _, _, .cons hr hrs, 0, a, b, ha, hb => by simp at ha hb; subst ha hb; exact hr
  | _, _, .cons hr hrs, i + 1, a, b, ha, hb => by simp at ha hb; exact forall₂_get hrs i a b ha hb

/-- Going on with the same line of two texts. -/
theorem idx_congr {α γ : Type} {A B : List α} (hl : A.length = B.length) (i : Nat) {f g : α → Res γ}
    (h : ∀ a b, A[i]? = some a → B[i]? = some b → f a = g b) : (idx A i >>= f) = (idx B i >>= g) := by
  by_cases hi : i < A.length
  · have hi' : i < B.length := hl ▸ hi
    have ha := List.getElem?_eq_getElem hi
    have hb := List.getElem?_eq_getElem hi'
    unfold idx
    rw [ha, hb]
    exact h _ _ ha hb
  · have ha : A[i]? = none := by simp; omega
    have hb : B[i]? = none := by simp; omega
    unfold idx
    rw [ha, hb]; rfl

theorem idx_congr' {α γ : Type} {A B : List α} (he : A = B) (i : Nat) {f g : α → Res γ}
    (h : ∀ a, f a = g a) : (idx A i >>= f) = (idx B i >>= g) := by
  subst he; rw [funext h]

theorem mapM'_congr {α β : Type} {f g : α → Res β} (l : List α) (h : ∀ a ∈ l, f a = g a) : Res.mapM' f l = Res.mapM' g l := by
  induction l with
  | nil => rfl
  | cons x xs ih => simp only [Res.mapM', h x (by simp), ih fun a ha => h a (by simp [ha])]

theorem idx_strip_head {γ : Type} {a b : Str} (h : words a = words b) {f : Char → Res γ} : (idx (strip a) 0 >>= f) = (idx (strip b) 0 >>= f) := by
  have : (strip a)[0]? = (strip b)[0]? := by
    rw [← List.head?_eq_getElem?, ← List.head?_eq_getElem?, strip_head_words, strip_head_words, h]
  unfold idx; rw [this]

end Spacing

namespace Kpoints
open Verif.Spacing

theorem parseTetra_respaced {A B : List Str} (hl : A.length = B.length) (h : ∀ (i : Nat) (a b : Str), A[i]? = some a → B[i]? = some b → words a = words b)
    (n : Nat) : parseTetra A n = parseTetra B n := by
  unfold parseTetra
  rw [hl]
  split
  · refine idx_congr hl _ fun a b ha hb => ?_
    rw [idx_strip_head (h _ _ _ ha hb)]
    refine congrArg _ (funext fun c => ?_)
    split
    · split
      · refine idx_congr hl _ fun a b ha hb => ?_
        rw [h _ _ _ ha hb]
        congr 1; funext n
        congr 1; funext num
        congr 1; funext v
        congr 1; funext vol
        congr 1
        refine mapM'_congr _ fun t _ => ?_
        refine idx_congr hl _ fun a b ha hb => ?_
        unfold parseTetraLine
        rw [h _ _ _ ha hb]
      · rfl
    · rfl
  · rfl

/-- KPOINTS: two lists of lines with the same first line, the same words on every line and the same empty lines are read alike, whether
they are accepted or refused. -/
theorem fromList_respaced {A B : List Str} (hw : Respaced A B) (hc : A.head? = B.head?)
    (hb : ∀ (i : Nat) (a b : Str), A[i]? = some a → B[i]? = some b → (a = ['\n'] ↔ b = ['\n'])) : fromList A = fromList B := by
  have hl := hw.length_eq
  have h : ∀ (i : Nat) (a b : Str), A[i]? = some a → B[i]? = some b → words a = words b := forall₂_get hw
  unfold fromList
  congr 1
  unfold parse
  refine idx_congr hl 0 fun a0 b0 ha0 hb0 => ?_
  have h0 : a0 = b0 := by
    rw [List.head?_eq_getElem?, List.head?_eq_getElem?, ha0, hb0] at hc; exact Option.some.inj hc
  subst h0
  refine idx_congr hl 1 fun a1 b1 ha1 hb1 => ?_
  rw [h _ _ _ ha1 hb1]
  congr 1; funext w
  congr 1; funext num
  refine idx_congr hl 2 fun a2 b2 ha2 hb2 => ?_
  rw [idx_strip_head (h _ _ _ ha2 hb2)]
  congr 1; funext c
  dsimp only
  congr 1
  · split
    · unfold parseExplicit
      split
      · rfl
      · dsimp only
        congr 1
        · refine mapM'_congr _ fun k _ => idx_congr hl _ fun a b ha hb => ?_
          unfold parsePoint; rw [h _ _ _ ha hb]
        · funext pts; rw [parseTetra_respaced hl h]
    · rfl
  · funext p
    congr 1
    · split
      · unfold parseAutomatic
        rw [hl]
        split
        · rfl
        split
        · refine idx_congr hl _ fun a b ha hb => ?_
          rw [h _ _ _ ha hb]
          congr 1; funext d
          congr 1
          split
          · refine idx_congr hl _ fun a b ha hb => ?_
            rw [h _ _ _ ha hb]
          · rfl
        split
        · congr 1
          · refine mapM'_congr _ fun k _ => idx_congr hl _ fun a b ha hb => ?_
            rw [h _ _ _ ha hb]
          · funext gv
            refine idx_congr hl _ fun a b ha hb => ?_
            rw [h _ _ _ ha hb]
        split <;> rfl
      · rfl
    · funext p
      split
      · unfold parseLineMode
        refine idx_congr hl _ fun a b ha hb' => ?_
        rw [h _ _ _ ha hb']
        congr 1; funext w
        congr 1; funext c
        split
        · congr 1
          have key : ∀ (X Y : List Str), List.Forall₂ (fun a b => words a = words b ∧ (a = ['\n'] ↔ b = ['\n'])) X Y →
              Res.mapM' parseLinePoint X = Res.mapM' parseLinePoint Y := by
            intro X Y hXY
            induction hXY with
            | nil => rfl
            | cons hr _ ih =>
              simp only [Res.mapM', ih]
              congr 1
              unfold parseLinePoint
              rw [hr.1]
              simp only [hr.2]
          apply key
          rw [List.forall₂_iff_get]
          refine ⟨by simp [hl], fun i h1 h2 => ?_⟩
          simp only [List.length_drop] at h1 h2
          have e1 : A[4 + i]? = some ((A.drop 4).get ⟨i, by simpa using h1⟩) := by simp
          have e2 : B[4 + i]? = some ((B.drop 4).get ⟨i, by simpa using h2⟩) := by simp
          exact ⟨h _ _ _ e1 e2, hb _ _ _ e1 e2⟩
        · rfl
      · rfl

end Kpoints

/-- An ASCII letter. -/
def IsLetter (c : Char) : Prop := (65 ≤ c.toNat ∧ c.toNat ≤ 90) ∨ (97 ≤ c.toNat ∧ c.toNat ≤ 122)

/-- A line whose first word begins with a letter (`Direct`, `Cartesian`, `Selective dynamics`, ...). -/
def Keyword (l : Str) : Prop := ∃ c w ws, words l = (c :: w) :: ws ∧ IsLetter c

namespace Poscar
open Verif.Spacing
open Verif.Kpoints (idx toFloat toInt)
open Verif.Utils (isNumber isNumbers)

/-- Two POSCAR texts, as lines, that differ in blanks only: the same comment line, line by line the same words, a species line with a
word that is no number (or the same species line, perhaps with a newline more), and behind the counts the same lines without words and the same first character of lines with a keyword. -/
structure SameButBlanks (A B : List Str) : Prop where
  words : Respaced A B
  comment : A.head? = B.head?
  species : ∀ a b : Str, A[5]? = some a → B[5]? = some b → a = b ∨ b = a ++ ['\n'] ∨ ∃ w ∈ Verif.words a, pyFloat w = none
  blank : ∀ (i : Nat) (a b : Str), 7 ≤ i → A[i]? = some a → B[i]? = some b → Verif.words a = [] → a = b
  keyword : ∀ (i : Nat) (a b : Str), 7 ≤ i → A[i]? = some a → B[i]? = some b → Keyword a → a.head? = b.head?

/-- The first characters of two lines are the same, or none is a letter. -/
def Heads (a b : Str) : Prop := a.head? = b.head? ∨ ∃ c d, a.head? = some c ∧ b.head? = some d ∧ ¬ IsLetter c ∧ ¬ IsLetter d

theorem space_no_letter {c : Char} (h : isSpace c = true) : ¬ IsLetter c := by
  unfold IsLetter
  simp only [isSpace, Bool.or_eq_true, Bool.and_eq_true, decide_eq_true_eq, beq_iff_eq] at h
  omega

theorem head_space_or {l : Str} {c : Char} (h : l.head? = some c) : isSpace c = true ∨ ∃ w ws, words l = (c :: w) :: ws := by
  cases l with
  | nil => cases h
  | cons x xs =>
    cases h
    by_cases hc : isSpace c = true
    · exact .inl hc
    · exact .inr (words_head_cons xs (by simpa using hc))

theorem SameButBlanks.heads {A B : List Str} (h : SameButBlanks A B) (i : Nat) (a b : Str) (hi : 7 ≤ i) (ha : A[i]? = some a) (hb : B[i]? = some b) :
    Heads a b := by
  have hw : Verif.words a = Verif.words b := forall₂_get h.words i a b ha hb
  by_cases h0 : Verif.words a = []
  · rw [h.blank i a b hi ha hb h0]; exact .inl rfl
  by_cases hk : Keyword a
  · exact .inl (h.keyword i a b hi ha hb hk)
  · have nol : ∀ (x : Str), Verif.words x = Verif.words a → ∃ c, x.head? = some c ∧ ¬ IsLetter c := by
      intro x hx
      cases x with
      | nil => exact absurd hx.symm h0
      | cons c cs =>
        refine ⟨c, rfl, ?_⟩
        rcases head_space_or (l := c :: cs) rfl with hs | ⟨w, ws, hws⟩
        · exact space_no_letter hs
        · intro hl; exact hk ⟨c, w, ws, hx ▸ hws, hl⟩
    obtain ⟨c, hc, hc'⟩ := nol a rfl
    obtain ⟨d, hd, hd'⟩ := nol b hw.symm
    exact .inr ⟨c, d, hc, hd, hc', hd'⟩

theorem lowerC_ne_of_no_letter {c x : Char} (h : ¬ IsLetter c) (hx : 97 ≤ x.toNat ∧ x.toNat ≤ 122) : lowerC c ≠ x := by
  intro he
  have := lowerC_toNat c
  rw [he] at this
  unfold IsLetter at h
  split at this
  · rename_i hc
    simp only [Bool.and_eq_true, decide_eq_true_eq] at hc
    exact h (.inl hc)
  · exact h (.inr (by omega))

/-- Going on with the first characters of two lines with a function that looks at letters only. -/
theorem idx_heads {γ : Type} {a b : Str} (h : Heads a b) {f g : Char → Res γ} (hfg : ∀ c, f c = g c)
    (hn : ∀ c d, ¬ IsLetter c → ¬ IsLetter d → f c = f d) : (idx a 0 >>= f) = (idx b 0 >>= g) := by
  rw [← funext hfg]
  unfold idx
  rw [← List.head?_eq_getElem?, ← List.head?_eq_getElem?]
  rcases h with h | ⟨c, d, hc, hd, hc', hd'⟩
  · rw [h]
  · rw [hc, hd]
    exact hn c d hc' hd'

theorem isNumbers_newline (s : Str) : isNumbers (s ++ ['\n']) = isNumbers s := by
  have key : ∀ s : Str, ∃ A e, splitOn ' ' s = A ++ [e] ∧ splitOn ' ' (s ++ ['\n']) = A ++ [e ++ ['\n']] := by
    intro s
    induction s with
    | nil => exact ⟨[], [], rfl, by decide⟩
    | cons c cs ih =>
      obtain ⟨A, e, h1, h2⟩ := ih
      unfold splitOn at h1 h2 ⊢
      rw [List.cons_append, splitP, splitP, h1, h2]
      split
      · exact ⟨[] :: A, e, rfl, rfl⟩
      · cases A with
        | nil => exact ⟨[], c :: e, rfl, rfl⟩
        | cons a as => exact ⟨(c :: a) :: as, e, rfl, rfl⟩
  obtain ⟨A, e, h1, h2⟩ := key s
  have h3 : isNumber (e ++ ['\n']) = isNumber e := by
    unfold isNumber pyFloat
    rw [Incar.strip_snoc_space e '\n' (by decide)]
  unfold isNumbers
  rw [h1, h2]
  simp [h3]

theorem readHeader_respaced {A B : List Str} (h : SameButBlanks A B) : readHeader A = readHeader B := by
  have hl := h.words.length_eq
  have hw : ∀ (i : Nat) (a b : Str), A[i]? = some a → B[i]? = some b → Verif.words a = Verif.words b := forall₂_get h.words
  unfold readHeader
  refine idx_congr hl 0 fun a0 b0 ha0 hb0 => ?_
  have h0 : a0 = b0 := by
    have hc := h.comment
    rw [List.head?_eq_getElem?, List.head?_eq_getElem?, ha0, hb0] at hc; exact Option.some.inj hc
  subst h0
  refine idx_congr hl 5 fun a5 b5 ha5 hb5 => ?_
  have h5 := hw _ _ _ ha5 hb5
  have n5 : isNumbers a5 = isNumbers b5 := by
    rcases h.species a5 b5 ha5 hb5 with rfl | rfl | ⟨w, hm, hn⟩
    · rfl
    · exact (isNumbers_newline a5).symm
    · have e1 : isNumbers a5 = false := by
        rw [Bool.eq_false_iff]; intro ht
        have := isNumbers_words ht w hm
        simp [isNumber, hn] at this
      have e2 : isNumbers b5 = false := by
        rw [Bool.eq_false_iff]; intro ht
        have := isNumbers_words ht w (h5 ▸ hm)
        simp [isNumber, hn] at this
      rw [e1, e2]
  rw [n5, h5]
  refine idx_congr hl 1 fun a b ha hb => ?_
  rw [hw _ _ _ ha hb]
  congr 1; funext w
  congr 1; funext scaling
  split
  · rfl
  split
  · rfl
  refine idx_congr hl 2 fun a b ha hb => ?_
  unfold readRow
  rw [hw _ _ _ ha hb]
  congr 1; funext r1
  refine idx_congr hl 3 fun a b ha hb => ?_
  rw [hw _ _ _ ha hb]
  congr 1; funext r2
  refine idx_congr hl 4 fun a b ha hb => ?_
  rw [hw _ _ _ ha hb]
  congr 1; funext r3
  congr 1; funext cell
  refine idx_congr hl 6 fun a b ha hb => ?_
  rw [hw _ _ _ ha hb]
  congr 1; funext atoms
  refine idx_congr hl 7 fun a7 b7 ha7 hb7 => ?_
  refine idx_heads (h.heads 7 _ _ (by omega) ha7 hb7) (fun c => ?_) fun c d hc hd => ?_
  · dsimp only
    split
    · refine idx_congr hl 8 fun a8 b8 ha8 hb8 => ?_
      refine idx_heads (h.heads 8 _ _ (by omega) ha8 hb8) (fun c => rfl) fun c d hc hd => ?_
      have e1 := lowerC_ne_of_no_letter (x := 'd') hc (by decide)
      have e2 := lowerC_ne_of_no_letter (x := 'd') hd (by decide)
      simp [e1, e2]
    · rfl
  · have e1 := lowerC_ne_of_no_letter (x := 'd') hc (by decide)
    have e2 := lowerC_ne_of_no_letter (x := 'd') hd (by decide)
    have e3 := lowerC_ne_of_no_letter (x := 's') hc (by decide)
    have e4 := lowerC_ne_of_no_letter (x := 's') hd (by decide)
    simp [e1, e2, e3, e4]

theorem readVec_words {a b : Str} (h : words a = words b) : readVec a = readVec b := by unfold readVec; rw [h]

theorem readFlags_words {a b : Str} (h : words a = words b) (s : Bool) : readFlags a s = readFlags b s := by
  unfold readFlags readFlag; rw [h]

theorem readSites_respaced {A B : List Str} (hl : A.length = B.length) (hw : ∀ (i : Nat) (a b : Str), A[i]? = some a → B[i]? = some b → words a = words b)
    (h : Header) : ∀ (n i slot : Nat) (index : Int), readSites h A n i slot index = readSites h B n i slot index
  | 0, _, _, _ => rfl
  | n + 1, i, slot, index => by
    simp only [readSites]
    congr 1; funext a
    congr 1; funext s
    refine idx_congr hl _ fun x y hx hy => ?_
    unfold readPos
    rw [readVec_words (hw _ _ _ hx hy), readFlags_words (hw _ _ _ hx hy)]
    simp only [readSites_respaced hl hw h n]

theorem readVecs_respaced {A B : List Str} (hl : A.length = B.length) (hw : ∀ (i : Nat) (a b : Str), A[i]? = some a → B[i]? = some b → words a = words b)
    (p n : Nat) (conv : Vec → Res Vec) : readVecs A p n conv = readVecs B p n conv := by
  unfold readVecs
  refine mapM'_congr _ fun k _ => idx_congr hl _ fun a b ha hb => ?_
  rw [readVec_words (hw _ _ _ ha hb)]

theorem isBlank_words {l : Str} (h : isBlank l = true) : words l = [] := by
  rw [Incar.words_eq_nil_iff]
  intro c hc
  by_cases hb : c = ' '
  · subst hb; rfl
  · have : c ∈ l.filter (· != ' ') := by simp [hc, hb]
    unfold isBlank at h
    rw [beq_iff_eq] at h
    rw [h, List.mem_singleton] at this
    subst this; rfl

theorem SameButBlanks.isBlank {A B : List Str} (h : SameButBlanks A B) (i : Nat) (a b : Str) (hi : 7 ≤ i) (ha : A[i]? = some a) (hb : B[i]? = some b) :
    isBlank a = isBlank b := by
  have hw : Verif.words a = Verif.words b := forall₂_get h.words i a b ha hb
  by_cases h0 : Verif.words a = []
  · rw [h.blank i a b hi ha hb h0]
  · have h1 : Poscar.isBlank a = false := by rw [Bool.eq_false_iff]; exact fun ht => h0 (isBlank_words ht)
    have h2 : Poscar.isBlank b = false := by rw [Bool.eq_false_iff]; exact fun ht => h0 (hw ▸ isBlank_words ht)
    rw [h1, h2]

theorem readTail_respaced {A B : List Str} (h : SameButBlanks A B) (p : Nat) (hp : 7 ≤ p) : readTail A p = readTail B p := by
  have hl := h.words.length_eq
  have hw : ∀ (i : Nat) (a b : Str), A[i]? = some a → B[i]? = some b → Verif.words a = Verif.words b := forall₂_get h.words
  unfold readTail
  rw [hl]
  congr 1
  · split
    · refine idx_congr hl _ fun a b ha hb => ?_
      rw [h.isBlank p a b hp ha hb]
      refine idx_heads (h.heads p _ _ hp ha hb) (fun c => rfl) fun c d hc hd => ?_
      have e1 := lowerC_ne_of_no_letter (x := 'd') hc (by decide)
      have e2 := lowerC_ne_of_no_letter (x := 'd') hd (by decide)
      have e3 := lowerC_ne_of_no_letter (x := 'c') hc (by decide)
      have e4 := lowerC_ne_of_no_letter (x := 'c') hd (by decide)
      simp [e1, e2, e3, e4]
    · rfl
  · funext t
    split
    · refine idx_congr hl _ fun a b ha hb => ?_
      rw [hw _ _ _ ha hb]
    · rfl

theorem readPredAfter_respaced {A B : List Str} (h : SameButBlanks A B) (p n : Nat) (hp : 7 ≤ p) : readPredAfter A p n = readPredAfter B p n := by
  have hl := h.words.length_eq
  have hw : ∀ (i : Nat) (a b : Str), A[i]? = some a → B[i]? = some b → Verif.words a = Verif.words b := forall₂_get h.words
  unfold readPredAfter
  rw [hl]
  split
  · refine idx_congr hl _ fun a b ha hb => ?_
    rw [h.isBlank p a b hp ha hb]
    split
    · refine idx_congr hl _ fun a b ha hb => ?_
      rw [hw _ _ _ ha hb, readVecs_respaced hl hw]
    · rfl
  · rfl

theorem header_loopmax {A : List Str} {h : Header} (hh : readHeader A = .ok h) : 7 ≤ h.loopmax := by
  unfold readHeader at hh
  obtain ⟨l0, -, hh⟩ := Res.bind_eq_ok.1 hh
  obtain ⟨l5, -, hh⟩ := Res.bind_eq_ok.1 hh
  obtain ⟨l1, -, hh⟩ := Res.bind_eq_ok.1 hh
  obtain ⟨w, -, hh⟩ := Res.bind_eq_ok.1 hh
  obtain ⟨s, -, hh⟩ := Res.bind_eq_ok.1 hh
  split at hh
  · cases hh
  split at hh
  · cases hh
  obtain ⟨_, -, hh⟩ := Res.bind_eq_ok.1 hh
  obtain ⟨_, -, hh⟩ := Res.bind_eq_ok.1 hh
  obtain ⟨_, -, hh⟩ := Res.bind_eq_ok.1 hh
  obtain ⟨_, -, hh⟩ := Res.bind_eq_ok.1 hh
  obtain ⟨_, -, hh⟩ := Res.bind_eq_ok.1 hh
  obtain ⟨_, -, hh⟩ := Res.bind_eq_ok.1 hh
  obtain ⟨_, -, hh⟩ := Res.bind_eq_ok.1 hh
  obtain ⟨_, -, hh⟩ := Res.bind_eq_ok.1 hh
  obtain ⟨_, -, hh⟩ := Res.bind_eq_ok.1 hh
  obtain ⟨_, -, hh⟩ := Res.bind_eq_ok.1 hh
  obtain ⟨_, -, hh⟩ := Res.bind_eq_ok.1 hh
  dsimp only at hh
  split at hh
  · obtain ⟨_, -, hh⟩ := Res.bind_eq_ok.1 hh
    obtain ⟨_, -, hh⟩ := Res.bind_eq_ok.1 hh
    cases hh; show 7 ≤ 9; omega
  · cases hh; show 7 ≤ 8; omega

/-- POSCAR: such texts are read alike, whether they are accepted or refused. -/
theorem fromList_respaced {A B : List Str} (h : SameButBlanks A B) : fromList A = fromList B := by
  have hl := h.words.length_eq
  have hw : ∀ (i : Nat) (a b : Str), A[i]? = some a → B[i]? = some b → Verif.words a = Verif.words b := forall₂_get h.words
  unfold fromList
  congr 1
  unfold parse
  rw [readHeader_respaced h]
  cases hh : readHeader B with
  | exit c => rfl
  | raise e => rfl
  | ok hd =>
    have h7 := header_loopmax hh
    simp only [Res.ok_bind]
    split
    · rfl
    · rw [readTail_respaced h _ (by omega)]
      simp only [readSites_respaced hl hw, readVecs_respaced hl hw]
      congr 1; funext raws
      congr 1; funext t
      rw [readPredAfter_respaced h _ _ (by omega)]

end Poscar
end Verif
