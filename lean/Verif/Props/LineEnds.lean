import Verif.Model.Newlines
import Verif.Props.Spacing
import Verif.Props.SpacingInput
import Verif.Props.SpacingIncar
import Verif.Props.SpacingOutput
import Verif.Props.SourcesWritable
import Verif.Props.FinalNewline
import Verif.Props.CutPoscar
import Verif.Model.Chgcar
import Verif.Model.Potcar
import Verif.Model.Outcar
import Verif.Model.Stream
/-! # C120: Windows and old Macintosh line ends -/
set_option autoImplicit false
namespace Verif.Newlines
open Verif
open Verif.Sources (Plain)

/-! ### specification -/

/-- The text with Windows line ends. -/
def dos (t : Str) : Str := t.flatMap fun c => if c = '\n' then ['\r', '\n'] else [c]

/-- The text with the line ends of the old Macintosh. -/
def mac (t : Str) : Str := t.map fun c => if c = '\n' then '\r' else c

example : dos c!"a\nb\n" = c!"a\r\nb\r\n" ∧ mac c!"a\nb\n" = c!"a\rb\r" := by decide

/-! ### files named by their path -/

theorem mac_head (xs : Str) : ∀ ys, mac xs ≠ '\n' :: ys := by
  intro ys hy
  cases xs with
  | nil => cases hy
  | cons c cs =>
    simp only [mac, List.map_cons] at hy
    split at hy <;> rename_i hc
    · exact absurd (List.cons.inj hy).1 (by decide)
    · exact hc (List.cons.inj hy).1

theorem universal_cons {x : Char} (xs : Str) (h : x ≠ '\r') : universal (x :: xs) = x :: universal xs := by
  rw [universal]
  · rw [if_neg h]
  · intro _ e; exact absurd e h

/-- C120, files: whatever the line ends, `open` gives the same text. -/
theorem C120_universal (t : Str) (h : '\r' ∉ t) : universal (dos t) = t ∧ universal (mac t) = t ∧ universal t = t := by
  induction t with
  | nil => exact ⟨rfl, rfl, rfl⟩
  | cons x xs ih =>
    simp only [List.mem_cons, not_or] at h
    obtain ⟨h1, h2, h3⟩ := ih h.2
    have hx : x ≠ '\r' := fun e => h.1 e.symm
    by_cases hn : x = '\n'
    · subst hn
      refine ⟨?_, ?_, ?_⟩
      · show universal ('\r' :: '\n' :: dos xs) = _
        rw [universal, h1]
      · show universal ('\r' :: mac xs) = _
        rw [universal, if_pos rfl, h2]
        intro _ _ e; exact absurd e (mac_head _ _)
      · rw [universal_cons _ hx, h3]
    · refine ⟨?_, ?_, ?_⟩
      · have : dos (x :: xs) = x :: dos xs := by simp [dos, hn]
        rw [this, universal_cons _ hx, h1]
      · have : mac (x :: xs) = x :: mac xs := by simp [mac, hn]
        rw [this, universal_cons _ hx, h2]
      · rw [universal_cons _ hx, h3]

/-! ### lines -/

/-- The same line with another line end. -/
def OtherEnd (l m : Str) : Prop := ('\n' ∉ l ∧ m = l) ∨ ∃ a, l = a ++ ['\n'] ∧ (m = a ++ ['\r', '\n'] ∨ m = a ++ ['\r'])

theorem ended_consHead {x : Char} (hx : x ≠ '\n') {A B : List Str} (h : List.Forall₂ OtherEnd A B) : List.Forall₂ OtherEnd (consHead x A) (consHead x B) := by
  cases h with
  | nil => exact .cons (.inl ⟨by simpa using Ne.symm hx, rfl⟩) .nil
  | cons hr hrs =>
    refine .cons ?_ hrs
    rcases hr with ⟨h1, rfl⟩ | ⟨a, rfl, rfl | rfl⟩
    · exact .inl ⟨by simp [Ne.symm hx, h1], rfl⟩
    · exact .inr ⟨x :: a, rfl, .inl rfl⟩
    · exact .inr ⟨x :: a, rfl, .inr rfl⟩

theorem dos_cons {x : Char} (hx : x ≠ '\n') (xs : Str) : dos (x :: xs) = x :: dos xs := by simp [dos, hx]
theorem dos_newline (xs : Str) : dos ('\n' :: xs) = '\r' :: '\n' :: dos xs := rfl
theorem mac_cons {x : Char} (hx : x ≠ '\n') (xs : Str) : mac (x :: xs) = x :: mac xs := by simp [mac, hx]
theorem mac_newline (xs : Str) : mac ('\n' :: xs) = '\r' :: mac xs := rfl

theorem readlines_dos (t : Str) : List.Forall₂ OtherEnd (readlines t) (readlines (dos t)) := by
  induction t with
  | nil => exact .nil
  | cons x xs ih =>
    by_cases hx : x = '\n'
    · subst hx
      rw [dos_newline]
      simp only [readlines, beq_self_eq_true, if_true]
      exact .cons (.inr ⟨[], rfl, .inl rfl⟩) ih
    · rw [dos_cons hx, readlines, readlines, if_neg (by simpa using hx), if_neg (by simpa using hx)]
      exact ended_consHead hx ih

theorem splitlinesKeep_ends (t : Str) (h : '\r' ∉ t) : List.Forall₂ OtherEnd (Poscar.splitlinesKeep t) (Poscar.splitlinesKeep (dos t)) ∧
    List.Forall₂ OtherEnd (Poscar.splitlinesKeep t) (Poscar.splitlinesKeep (mac t)) := by
  induction t with
  | nil => exact ⟨.nil, .nil⟩
  | cons x xs ih =>
    simp only [List.mem_cons, not_or] at h
    obtain ⟨h1, h2⟩ := ih h.2
    have hr : x ≠ '\r' := fun e => h.1 e.symm
    by_cases hx : x = '\n'
    · subst hx
      rw [dos_newline, mac_newline, Poscar.splitlinesKeep_cons_of_ne _ hr, if_pos (by decide)]
      refine ⟨?_, ?_⟩
      · rw [Poscar.splitlinesKeep]; exact .cons (.inr ⟨[], rfl, .inl rfl⟩) h1
      · rw [Poscar.splitlinesKeep, if_pos (by decide)]
        · exact .cons (.inr ⟨[], rfl, .inr rfl⟩) h2
        · intro _ _ e; exact absurd e (mac_head _ _)
    · rw [dos_cons hx, mac_cons hx, Poscar.splitlinesKeep_cons_of_ne _ hr, Poscar.splitlinesKeep_cons_of_ne _ hr, Poscar.splitlinesKeep_cons_of_ne _ hr]
      split
      · exact ⟨.cons (.inl ⟨by simpa using Ne.symm hx, rfl⟩) h1, .cons (.inl ⟨by simpa using Ne.symm hx, rfl⟩) h2⟩
      · exact ⟨ended_consHead hx h1, ended_consHead hx h2⟩

theorem splitlines_ends (t : Str) (h : '\r' ∉ t) : splitlines (dos t) = splitlines t ∧ splitlines (mac t) = splitlines t := by
  induction t with
  | nil => exact ⟨rfl, rfl⟩
  | cons x xs ih =>
    simp only [List.mem_cons, not_or] at h
    obtain ⟨h1, h2⟩ := ih h.2
    have hr : x ≠ '\r' := fun e => h.1 e.symm
    by_cases hx : x = '\n'
    · subst hx
      rw [dos_newline, mac_newline, splitlines_cons_of_ne _ hr, if_pos (by decide)]
      refine ⟨?_, ?_⟩
      · rw [splitlines, h1]
      · rw [splitlines, if_pos (by decide), h2]
        intro _ _ e; exact absurd e (mac_head _ _)
    · rw [dos_cons hx, mac_cons hx, splitlines_cons_of_ne _ hr, splitlines_cons_of_ne _ hr, splitlines_cons_of_ne _ hr, h1, h2]
      exact ⟨rfl, rfl⟩

theorem OtherEnd.words {l m : Str} (h : OtherEnd l m) : Verif.words l = Verif.words m := by
  rcases h with ⟨_, rfl⟩ | ⟨a, rfl, rfl | rfl⟩
  · rfl
  · rw [words_append_spaces a ['\n'] (by decide), words_append_spaces a ['\r', '\n'] (by decide)]
  · rw [words_append_spaces a ['\n'] (by decide), words_append_spaces a ['\r'] (by decide)]

theorem OtherEnd.shown {l m : Str} (h : OtherEnd l m) : strip (l.filter (· != '#')) = strip (m.filter (· != '#')) := by
  have e1 : ∀ s : Str, strip (s ++ ['\n']) = strip s := fun s => Incar.strip_snoc_space s '\n' (by decide)
  have e2 : ∀ s : Str, strip (s ++ ['\r']) = strip s := fun s => Incar.strip_snoc_space s '\r' (by decide)
  have e3 : ∀ s : Str, strip (s ++ ['\r', '\n']) = strip s := fun s => by
    rw [show s ++ ['\r', '\n'] = s ++ ['\r'] ++ ['\n'] by simp, e1, e2]
  rcases h with ⟨_, rfl⟩ | ⟨a, rfl, rfl | rfl⟩
  · rfl
  · rw [List.filter_append, List.filter_append]
    exact (e1 _).trans (e3 _).symm
  · rw [List.filter_append, List.filter_append]
    exact (e1 _).trans (e2 _).symm

theorem OtherEnd.strip {l m : Str} (h : OtherEnd l m) : Verif.strip l = Verif.strip m := by
  rcases h with ⟨_, rfl⟩ | ⟨a, rfl, rfl | rfl⟩
  · rfl
  · rw [show a ++ ['\r', '\n'] = a ++ ['\r'] ++ ['\n'] by simp, Incar.strip_snoc_space _ '\n' (by decide),
      Incar.strip_snoc_space _ '\n' (by decide), Incar.strip_snoc_space _ '\r' (by decide)]
  · rw [Incar.strip_snoc_space _ '\n' (by decide), Incar.strip_snoc_space _ '\r' (by decide)]

/-- The lines of the file with Windows line ends and of the same string correspond, up to the line end. -/
theorem readlines_dos_splitlines (t : Str) (h : Plain t) :
    List.Forall₂ (fun r s => '\n' ∉ s ∧ (r = s ∨ r = s ++ ['\r', '\n'])) (readlines (dos t)) (splitlines t) := by
  induction t with
  | nil => rw [splitlines.eq_def]; exact .nil
  | cons x xs ih =>
    have ih' := ih (fun c hc => h c (by simp [hc]))
    have hxr : x ≠ '\r' := by rintro rfl; have := h '\r' (by simp) (by decide); revert this; decide
    rw [splitlines_cons_of_ne _ hxr]
    by_cases hx : x = '\n'
    · subst hx
      rw [dos_newline, if_pos (by decide)]
      exact .cons ⟨by simp, .inr rfl⟩ ih'
    · have hb : isLineBreak x = false := by
        cases hb : isLineBreak x with
        | false => rfl
        | true => exact absurd (h x (by simp) hb) hx
      rw [dos_cons hx, readlines, if_neg (by simpa using hx), if_neg (by simp [hb])]
      generalize readlines (dos xs) = A at ih'
      generalize splitlines xs = B at ih'
      cases ih' with
      | nil => exact .cons ⟨by simpa using Ne.symm hx, .inl rfl⟩ .nil
      | cons hr hrs =>
        refine .cons ⟨by simp [Ne.symm hx, hr.1], ?_⟩ hrs
        rcases hr.2 with rfl | rfl
        · exact .inl rfl
        · exact .inr rfl

theorem plain_no_cr {t : Str} (h : Plain t) : '\r' ∉ t := fun hc => absurd (h _ hc (by decide)) (by decide)

theorem strip_crlf (s : Str) : strip (s ++ ['\r', '\n']) = strip s := by
  rw [show s ++ ['\r', '\n'] = s ++ ['\r'] ++ ['\n'] by simp, Incar.strip_snoc_space _ '\n' (by decide), Incar.strip_snoc_space _ '\r' (by decide)]

theorem words_crlf (s : Str) : words (s ++ ['\r', '\n']) = words s := words_append_spaces s ['\r', '\n'] (by decide)

end Verif.Newlines

namespace Verif.Kpoints
open Verif Verif.Spacing Verif.Newlines
open Verif.Sources (Plain IsLineMode kpoints_init_string C115_kpoints_partial C115_violation)

/-- The first line matters by its comment only. -/
theorem fromList_comment {a b : Str} (h : strip (a.filter (· != '#')) = strip (b.filter (· != '#'))) (L : List Str) : fromList (a :: L) = fromList (b :: L) := by
  have hp : parse (a :: L) = parse (b :: L) := by
    unfold parse
    show (idx (a :: L) 1 >>= _) = (idx (b :: L) 1 >>= _)
    rw [show idx (a :: L) 1 = idx (b :: L) 1 from rfl]
    congr 1; funext l1
    congr 1; funext w
    congr 1; funext num
    rw [show idx (a :: L) 2 = idx (b :: L) 2 from rfl]
    congr 1; funext l2
    congr 1; funext c
    rw [h]
    rfl
  unfold fromList
  rw [hp]

/-- C120, KPOINTS: a string gives the same, whatever its line ends; a file handler that does not translate Windows line ends gives what the
string gives: the same entries, or the same refusal. -/
theorem C120_kpoints (t : Str) (h : Plain t) : init { string := some (dos t) } = init { string := some t } ∧
    init { string := some (mac t) } = init { string := some t } ∧ init { handler := some (dos t) } = init { string := some t } := by
  obtain ⟨h1, h2⟩ := splitlines_ends t (plain_no_cr h)
  refine ⟨by rw [kpoints_init_string, kpoints_init_string, h1], by rw [kpoints_init_string, kpoints_init_string, h2], ?_⟩
  have hf := readlines_dos_splitlines t h
  have key : fromList (readlines (dos t)) = fromList (splitlines t) := by
    generalize readlines (dos t) = A at hf
    generalize splitlines t = B at hf
    cases hf with
    | nil => rfl
    | cons hr hrs =>
      rename_i a b L M
      have hc : strip (a.filter (· != '#')) = strip (b.filter (· != '#')) := by
        rcases hr.2 with rfl | rfl
        · rfl
        · rw [List.filter_append]; exact strip_crlf _
      rw [fromList_comment hc]
      refine fromList_respaced (.cons rfl (hrs.imp fun r s hrs => ?_)) rfl fun i x y hx hy => ?_
      · rcases hrs.2 with rfl | rfl
        · rfl
        · exact words_crlf _
      · cases i with
        | zero =>
          simp only [List.getElem?_cons_zero, Option.some.injEq] at hx hy
          rw [← hx, ← hy]
        | succ i =>
          simp only [List.getElem?_cons_succ] at hx hy
          obtain ⟨g1, g2⟩ := forall₂_get hrs i x y hx hy
          constructor
          · rintro rfl
            rcases g2 with rfl | g2
            · rfl
            · have := congrArg List.length g2
              simp at this
          · rintro rfl; exact absurd (by simp) g1
  unfold init load fromFile
  simp [guards, key]

/-- C120, KPOINTS from a file handler that does not translate line ends: Windows line ends do not matter, unless there are empty lines in line
mode. Missing: that case, for which the claim is false (`C120_violation_*`). -/
theorem C120_kpoints_handler_partial (t : Str) (h : Plain t) (hl : IsLineMode t → [] ∉ (splitlines t).drop 4) :
    init { handler := some (dos t) } = init { handler := some t } :=
  (C120_kpoints t h).2.2.trans (C115_kpoints_partial t h hl).2

/-- C120 is false for every KPOINTS in line mode with empty lines between the points, read from a file handler that does not translate line
ends: with Windows line ends every empty line gives a point without coordinates. -/
theorem C120_violation_line (t : Str) (h : Plain t) (hl : IsLineMode t) (hb : [] ∈ (splitlines t).drop 4) (e : Entries)
    (hf : init { handler := some t } = .ok e) :
    ∃ e' ps qs, init { handler := some (dos t) } = .ok e' ∧ e.get? c!"points" = some (atomsVal .point ps) ∧
      e'.get? c!"points" = some (atomsVal .point qs) ∧ qs.length = ps.length + ((splitlines t).drop 4).count [] ∧
      (⟨[], some 1, true⟩ : Kpoint) ∈ qs := by
  rw [(C120_kpoints t h).2.2]
  exact C115_violation t h hl hb e hf

end Verif.Kpoints

namespace Verif.Incar
open Verif Verif.Newlines
open Verif.Sources (Plain)

theorem splitOn_crlf {c : Char} (h1 : '\r' ≠ c) (h2 : '\n' ≠ c) (s : Str) : ∃ A e, splitOn c s = A ++ [e] ∧ splitOn c (s ++ ['\r', '\n']) = A ++ [e ++ ['\r', '\n']] := by
  obtain ⟨A, e, a1, a2, -⟩ := splitOn_snoc h1 s
  obtain ⟨A', e', b1, b2, -⟩ := splitOn_snoc h2 (s ++ ['\r'])
  rw [a2] at b1
  obtain ⟨rfl, q⟩ := List.append_inj' b1 rfl
  have q := List.singleton_inj.1 q
  subst q
  refine ⟨A, e, a1, ?_⟩
  rw [show s ++ ['\r', '\n'] = s ++ ['\r'] ++ ['\n'] by simp, b2]
  simp

theorem sameEntry_refl (s : Str) : SameEntry s s :=
  ⟨List.forall₂_same.2 fun _ _ => rfl, fun t v t' v' e e' _ => by rw [e] at e'; cases e'; rfl, Iff.rfl⟩

/-- A line with a Windows line end and the line without any. -/
theorem sameLine_crlf {l : Str} (h : '\n' ∉ l) : SameLine (l ++ ['\r', '\n']) l := by
  by_cases hc : '#' ∈ l
  · obtain ⟨r, h1, h2⟩ := split1_snoc_in ['\r', '\n'] hc
    rw [SameLine, h2, h1]
    exact ⟨by simp [strip_crlf], List.forall₂_same.2 fun s _ => sameEntry_refl s⟩
  · have hc' : '#' ∉ l ++ ['\r', '\n'] := by simp [hc]
    unfold SameLine
    rw [split1_free hc, split1_free hc']
    refine ⟨rfl, ?_⟩
    obtain ⟨A, e, h1, h2⟩ := splitOn_crlf (c := ';') (by decide) (by decide) l
    show List.Forall₂ SameEntry (splitOn ';' (l ++ ['\r', '\n'])) (splitOn ';' l)
    rw [h1, h2]
    refine List.rel_append (List.forall₂_same.2 fun s _ => sameEntry_refl s) (.cons ?_ .nil)
    obtain ⟨B, v, g1, g2⟩ := splitOn_crlf (c := '=') (by decide) (by decide) e
    refine ⟨?_, ?_, ?_⟩
    · rw [g1, g2]; exact List.rel_append (List.forall₂_same.2 fun s _ => (rfl : SameWords s s)) (.cons (words_crlf v) .nil)
    · intro t w t' w' e1 e2 _
      rw [g2] at e1
      rw [g1] at e2
      have e1 : B ++ [v ++ ['\r', '\n']] = [t] ++ [w] := e1
      have e2 : B ++ [v] = [t'] ++ [w'] := e2
      have a1 := List.append_inj' e1 rfl
      have a2 := List.append_inj' e2 rfl
      rw [← List.singleton_inj.1 a1.2, ← List.singleton_inj.1 a2.2]
      exact strip_crlf v
    · constructor
      · intro hcc
        have := congrArg List.length hcc
        simp at this
      · rintro rfl
        exact absurd (Eigenval.mem_splitP_sub (p := (· == ';')) (s := l) (w := ['\n']) (by unfold splitOn at h1; rw [h1]; simp) (by simp)).1 h

/-- C120, INCAR: a string gives the same, whatever its line ends; a file handler that does not translate Windows line ends gives what the
string gives: the same entries, or the same refusal. -/
theorem C120_incar (F : FloatEnv) (allowed : List Str) (vt : Bool) (t : Str) (h : Plain t) :
    init F allowed vt { string := some (dos t) } = init F allowed vt { string := some t } ∧
    init F allowed vt { string := some (mac t) } = init F allowed vt { string := some t } ∧
    init F allowed vt { handler := some (dos t) } = init F allowed vt { string := some t } := by
  obtain ⟨h1, h2⟩ := splitlines_ends t (plain_no_cr h)
  have hs : ∀ u : Str, init F allowed vt { string := some u } = (fromList F (splitlines u) >>= fun x => validate vt allowed x >>= fun _ => .ok x) := fun _ => rfl
  have hh : ∀ u : Str, init F allowed vt { handler := some u } = (fromList F (readlines u) >>= fun x => validate vt allowed x >>= fun _ => .ok x) := fun _ => rfl
  refine ⟨by rw [hs, hs, h1], by rw [hs, hs, h2], ?_⟩
  rw [hh, hs, fromList_blanks F ((readlines_dos_splitlines t h).imp fun r s hrs => ?_)]
  rcases hrs.2 with rfl | rfl
  · exact ⟨rfl, List.forall₂_same.2 fun s _ => sameEntry_refl s⟩
  · exact sameLine_crlf hrs.1

/-- C120, INCAR from a file handler that does not translate line ends: Windows line ends do not matter, unless a line ends with a `;`. Missing: that case, for which the claim is false (`C120_violation_*`). -/
theorem C120_incar_handler_partial (F : FloatEnv) (allowed : List Str) (vt : Bool) (t : Str) (h : Plain t)
    (hs : ∀ l ∈ splitlines t, l.getLast? ≠ some ';' ∨ '#' ∈ l) :
    init F allowed vt { handler := some (dos t) } = init F allowed vt { handler := some t } := by
  rw [(C120_incar F allowed vt t h).2.2]
  show (fromList F (splitlines t) >>= _) = (fromList F (readlines t) >>= _)
  rw [C10_string_file_agree_partial F t h hs]

/-- C120 is false for an INCAR line that ends with a `;`, read from a file handler that does not translate line ends: with Windows line ends it
is refused. -/
theorem C120_violation_incar : ∃ t : Str, Plain t ∧ (init exactEnv [] false { handler := some t }).isOk = true ∧
    init exactEnv [] false { handler := some (dos t) } = .exit 102 :=
  ⟨c!"NSW = 1;\n", by unfold Plain; decide, by decide +kernel, by decide +kernel⟩

end Verif.Incar

namespace Verif.Poscar
open Verif Verif.Spacing Verif.Newlines
open Verif.Sources (Plain)
open Verif.Kpoints (idx toFloat toInt)
open Verif.Utils (isNumber isNumbers)

theorem bindAssoc {α β γ : Type} (r : Res α) (f : α → Res β) (g : β → Res γ) : (r >>= f >>= g) = (r >>= fun a => f a >>= g) := by
  cases r <;> rfl

theorem otherEnd_heads {a b : Str} (h : OtherEnd a b) : Heads a b := by
  have key : ∀ (x y : Char) (c s t : Str), ¬ IsLetter x → ¬ IsLetter y → Heads (c ++ x :: s) (c ++ y :: t) := by
    intro x y c s t hx hy
    cases c with
    | nil => exact .inr ⟨x, y, rfl, rfl, hx, hy⟩
    | cons d ds => exact .inl rfl
  have n1 : ¬ IsLetter '\n' := by unfold IsLetter; decide
  have n2 : ¬ IsLetter '\r' := by unfold IsLetter; decide
  rcases h with ⟨_, rfl⟩ | ⟨c, rfl, rfl | rfl⟩
  · exact .inl rfl
  · exact key _ _ _ _ _ n1 n2
  · exact key _ _ _ _ _ n1 n2

theorem isNumbers_snoc {x : Char} (hx : isSpace x = true) (hb : x ≠ ' ') (s : Str) : isNumbers (s ++ [x]) = isNumbers s := by
  obtain ⟨A, e, h1, h2, -⟩ := Incar.splitOn_snoc (c := ' ') hb s
  have h3 : isNumber (e ++ [x]) = isNumber e := by
    unfold isNumber pyFloat
    rw [Incar.strip_snoc_space e x hx]
  unfold isNumbers
  rw [h1, h2]
  simp [h3]

theorem otherEnd_isNumbers {a b : Str} (h : OtherEnd a b) : isNumbers a = isNumbers b := by
  have e1 : ∀ s : Str, isNumbers (s ++ ['\n']) = isNumbers s := isNumbers_snoc (by decide) (by decide)
  have e2 : ∀ s : Str, isNumbers (s ++ ['\r']) = isNumbers s := isNumbers_snoc (by decide) (by decide)
  rcases h with ⟨_, rfl⟩ | ⟨c, rfl, rfl | rfl⟩
  · rfl
  · rw [show c ++ ['\r', '\n'] = c ++ ['\r'] ++ ['\n'] by simp, e1, e1, e2]
  · rw [e1, e2]

theorem otherEnd_isBlank {a b : Str} (h : OtherEnd a b) : isBlank b = false := by
  unfold isBlank
  rcases h with ⟨h, rfl⟩ | ⟨c, rfl, rfl | rfl⟩
  · rw [Bool.eq_false_iff, ne_eq, beq_iff_eq]
    intro hc
    have : '\n' ∈ b.filter (· != ' ') := by rw [hc]; simp
    exact h (List.mem_of_mem_filter this)
  · rw [Bool.eq_false_iff, ne_eq, beq_iff_eq]
    intro hc
    have : '\r' ∈ (c ++ ['\r', '\n']).filter (· != ' ') := by simp
    rw [hc] at this
    exact absurd this (by decide)
  · rw [Bool.eq_false_iff, ne_eq, beq_iff_eq]
    intro hc
    have : '\r' ∈ (c ++ ['\r']).filter (· != ' ') := by simp
    rw [hc] at this
    exact absurd this (by decide)

theorem readHeader_ended {A B : List Str} (h : List.Forall₂ OtherEnd A B) : readHeader A = readHeader B := by
  have hl := h.length_eq
  have hr : ∀ (i : Nat) (a b : Str), A[i]? = some a → B[i]? = some b → OtherEnd a b := forall₂_get h
  unfold readHeader
  refine idx_congr hl 0 fun a0 b0 ha0 hb0 => ?_
  rw [(hr _ _ _ ha0 hb0).shown]
  refine idx_congr hl 5 fun a5 b5 ha5 hb5 => ?_
  rw [otherEnd_isNumbers (hr _ _ _ ha5 hb5), (hr _ _ _ ha5 hb5).words]
  refine idx_congr hl 1 fun a b ha hb => ?_
  rw [(hr _ _ _ ha hb).words]
  congr 1; funext w
  congr 1; funext scaling
  split
  · rfl
  split
  · rfl
  refine idx_congr hl 2 fun a b ha hb => ?_
  unfold readRow
  rw [(hr _ _ _ ha hb).words]
  congr 1; funext r1
  refine idx_congr hl 3 fun a b ha hb => ?_
  rw [(hr _ _ _ ha hb).words]
  congr 1; funext r2
  refine idx_congr hl 4 fun a b ha hb => ?_
  rw [(hr _ _ _ ha hb).words]
  congr 1; funext r3
  congr 1; funext cell
  refine idx_congr hl 6 fun a b ha hb => ?_
  rw [(hr _ _ _ ha hb).words]
  congr 1; funext atoms
  refine idx_congr hl 7 fun a7 b7 ha7 hb7 => ?_
  refine idx_heads (otherEnd_heads (hr _ _ _ ha7 hb7)) (fun c => ?_) fun c d hc hd => ?_
  · dsimp only
    split
    · refine idx_congr hl 8 fun a8 b8 ha8 hb8 => ?_
      refine idx_heads (otherEnd_heads (hr _ _ _ ha8 hb8)) (fun c => rfl) fun c d hc hd => ?_
      have e1 := lowerC_ne_of_no_letter (x := 'd') hc (by decide)
      have e2 := lowerC_ne_of_no_letter (x := 'd') hd (by decide)
      simp [e1, e2]
    · rfl
  · have e1 := lowerC_ne_of_no_letter (x := 'd') hc (by decide)
    have e2 := lowerC_ne_of_no_letter (x := 'd') hd (by decide)
    have e3 := lowerC_ne_of_no_letter (x := 's') hc (by decide)
    have e4 := lowerC_ne_of_no_letter (x := 's') hd (by decide)
    simp [e1, e2, e3, e4]

/-- What follows the positions: the same, but blank lines are not recognised. -/
theorem readTail_ended {A B : List Str} (h : List.Forall₂ OtherEnd A B) (p : Nat) :
    readTail B p = (readTail A p >>= fun t => .ok (t.1, t.2.1, false)) := by
  have hl := h.length_eq
  have hr : ∀ (i : Nat) (a b : Str), A[i]? = some a → B[i]? = some b → OtherEnd a b := forall₂_get h
  have hr' : ∀ (i : Nat) (b a : Str), B[i]? = some b → A[i]? = some a → OtherEnd a b := fun i b a hb ha => hr i a b ha hb
  have second : ∀ t t' : Bool × Bool × Bool, t'.1 = t.1 → t'.2.1 = t.2.1 → t'.2.2 = false →
      (if p + 1 < B.length then idx B (p + 1) >>= fun l => idx (words l) 0 >>= fun w => if isNumber w then .ok t' else Res.exit 302
        else .ok (t'.1, t'.2.1, false)) =
      ((if p + 1 < A.length then idx A (p + 1) >>= fun l => idx (words l) 0 >>= fun w => if isNumber w then .ok t else Res.exit 302
        else .ok (t.1, t.2.1, false)) >>= fun t => Res.ok (t.1, t.2.1, false)) := by
    rintro ⟨x, y, z⟩ ⟨x', y', z'⟩ h1 h2 h3
    simp only at h1 h2 h3
    subst h1 h2 h3
    rw [hl]
    split
    · rw [bindAssoc]
      refine idx_congr hl.symm _ fun b a hb ha => ?_
      rw [(hr _ _ _ ha hb).words, bindAssoc]
      congr 1; funext w
      split <;> rfl
    · rfl
  unfold readTail
  rw [bindAssoc]
  by_cases hp : p < A.length
  · rw [if_pos hp, if_pos (hl ▸ hp), bindAssoc, bindAssoc]
    refine idx_congr hl.symm _ fun b a hb ha => ?_
    rw [bindAssoc, bindAssoc, otherEnd_isBlank (hr _ _ _ ha hb)]
    have hh := otherEnd_heads (hr _ _ _ ha hb)
    have hh' : Heads b a := by
      rcases hh with h | ⟨c, d, h1, h2, h3, h4⟩
      · exact .inl h.symm
      · exact .inr ⟨d, c, h2, h1, h4, h3⟩
    refine idx_heads hh' (fun c => ?_) fun c d hc hd => ?_
    · split
      · exact second _ _ rfl rfl rfl
      · exact second _ _ rfl rfl rfl
    · have e1 := lowerC_ne_of_no_letter (x := 'd') hc (by decide)
      have e2 := lowerC_ne_of_no_letter (x := 'd') hd (by decide)
      have e3 := lowerC_ne_of_no_letter (x := 'c') hc (by decide)
      have e4 := lowerC_ne_of_no_letter (x := 'c') hd (by decide)
      simp [e1, e2, e3, e4]
  · rw [if_neg hp, if_neg (hl ▸ hp)]
    exact second _ _ rfl rfl rfl

theorem readPredAfter_ended {A B : List Str} (h : List.Forall₂ OtherEnd A B) (p n : Nat) : readPredAfter B p n = .ok none := by
  have hr : ∀ (i : Nat) (a b : Str), A[i]? = some a → B[i]? = some b → OtherEnd a b := forall₂_get h
  unfold readPredAfter
  split
  · rename_i hp
    have hp' : p < A.length := h.length_eq ▸ hp
    unfold idx
    rw [List.getElem?_eq_getElem hp]
    simp only [Res.ok_bind]
    rw [otherEnd_isBlank (hr p A[p] B[p] (List.getElem?_eq_getElem hp') (List.getElem?_eq_getElem hp))]
    rfl
  · rfl

/-- A POSCAR with other line ends: as before, without predictors. -/
theorem parse_ended {A B : List Str} (h : List.Forall₂ OtherEnd A B) {P : Parsed} (hP : parse A = .ok P) :
    parse B = .ok ⟨P.comment, P.cell, P.sites.map Site.withoutPredictors⟩ := by
  have hl := h.length_eq
  have hw : ∀ (i : Nat) (a b : Str), A[i]? = some a → B[i]? = some b → words a = words b := fun i a b ha hb => (forall₂_get h i a b ha hb).words
  unfold parse at hP ⊢
  rw [← readHeader_ended h]
  obtain ⟨hd, h1, hP⟩ := Res.bind_eq_ok.1 hP
  rw [h1, Res.ok_bind]
  dsimp only at hP ⊢
  split at hP
  · cases hP
  rename_i hn
  rw [if_neg hn]
  obtain ⟨raws, h2, hP⟩ := Res.bind_eq_ok.1 hP
  rw [← readSites_respaced hl hw, h2, Res.ok_bind]
  obtain ⟨t, h3, hP⟩ := Res.bind_eq_ok.1 hP
  rw [readTail_ended h, h3, Res.ok_bind, Res.ok_bind]
  dsimp only
  split at hP
  · rename_i ht
    rw [if_pos ht]
    obtain ⟨vels, h4, hP⟩ := Res.bind_eq_ok.1 hP
    rw [← readVecs_respaced hl hw, h4, Res.ok_bind, readPredAfter_ended h, Res.ok_bind]
    obtain ⟨preds, -, hP⟩ := Res.bind_eq_ok.1 hP
    cases hP
    rw [assemble_withoutPredictors]
  · rename_i ht
    rw [if_neg ht, if_neg (by simp)]
    split at hP
    · obtain ⟨preds, -, hP⟩ := Res.bind_eq_ok.1 hP
      cases hP
      rw [assemble_withoutPredictors]
    · cases hP
      rw [assemble_withoutPredictors]

/-- Without blank lines behind the counts also the refusals are the same. -/
theorem parse_ended_noblank {A B : List Str} (h : List.Forall₂ OtherEnd A B) (hb : ∀ l ∈ A, isBlank l = false) : parse B = parse A := by
  have hl := h.length_eq
  have hw : ∀ (i : Nat) (a b : Str), A[i]? = some a → B[i]? = some b → words a = words b := fun i a b ha hb => (forall₂_get h i a b ha hb).words
  have htail : ∀ p, (readTail A p >>= fun t => Res.ok (t.1, t.2.1, false)) = readTail A p := by
    intro p
    have one : ∀ l ∈ A, ∀ f : Bool × Bool × Bool → Res (Bool × Bool × Bool),
        (∀ x y : Bool, (f (x, y, false) >>= fun t => Res.ok (t.1, t.2.1, false)) = f (x, y, false)) →
        ((idx l 0 >>= fun c => if lowerC c = 'd' ∨ lowerC c = 'c' then Res.ok (true, decide (lowerC c = 'c'), false) else .ok (false, false, isBlank l)) >>= f >>=
          fun t => Res.ok (t.1, t.2.1, false)) =
        ((idx l 0 >>= fun c => if lowerC c = 'd' ∨ lowerC c = 'c' then Res.ok (true, decide (lowerC c = 'c'), false) else .ok (false, false, isBlank l)) >>= f) := by
      intro l hl f hf
      rw [hb l hl]
      cases idx l 0 with
      | ok c =>
        simp only [Res.ok_bind]
        split
        · rw [Res.ok_bind, hf]
        · rw [Res.ok_bind, hf]
      | exit c => rfl
      | raise c => rfl
    have hf : ∀ x y : Bool, ((if p + 1 < A.length then idx A (p + 1) >>= fun l => idx (words l) 0 >>= fun w => if isNumber w then .ok (x, y, false) else Res.exit 302
        else .ok (x, y, false)) >>= fun t => Res.ok (t.1, t.2.1, false)) = (if p + 1 < A.length then idx A (p + 1) >>= fun l => idx (words l) 0 >>= fun w =>
          if isNumber w then .ok (x, y, false) else Res.exit 302 else Res.ok (x, y, false)) := by
      intro x y
      split
      · cases idx A (p + 1) with
        | ok l =>
          simp only [Res.ok_bind]
          cases idx (words l) 0 with
          | ok w => simp only [Res.ok_bind]; split <;> rfl
          | exit c => rfl
          | raise c => rfl
        | exit c => rfl
        | raise c => rfl
      · rfl
    unfold readTail
    split
    · rename_i hp
      have : idx A p = .ok A[p] := by unfold idx; rw [List.getElem?_eq_getElem hp]
      rw [this, Res.ok_bind]
      exact one A[p] (List.getElem_mem hp) _ hf
    · exact hf _ _
  have hpred : ∀ p n, readPredAfter A p n = .ok none := by
    intro p n
    unfold readPredAfter
    split
    · rename_i hp
      have : idx A p = .ok A[p] := by unfold idx; rw [List.getElem?_eq_getElem hp]
      rw [this, Res.ok_bind, hb _ (List.getElem_mem hp)]
      rfl
    · rfl
  unfold parse
  rw [← readHeader_ended h]
  congr 1; funext hd
  dsimp only
  split
  · rfl
  · rw [← readSites_respaced hl hw]
    congr 1; funext raws
    rw [readTail_ended h, htail]
    congr 1; funext t
    rw [hpred, readPredAfter_ended h]
    simp only [← readVecs_respaced hl hw]

theorem fromLines_ok (L : List Str) (e : Entries) : (fromList L >>= fun d => fromDict d >>= fun e => validate e >>= fun _ => .ok e) = .ok e ↔
    ∃ P c, parse L = .ok P ∧ P.cell = some c ∧ e = fileEntries P.comment c P.sites := by
  have hdir : ∀ P, parse L = .ok P → ∀ s ∈ P.sites, s.direct = true := by
    intro P hP s hs
    obtain ⟨_, _, _, _, _, _, _, _, _, rfl, _⟩ := parse_parts hP
    unfold assemble at hs
    obtain ⟨x, _, rfl⟩ := List.mem_map.1 hs
    rfl
  have hfd : ∀ P, parse L = .ok P → fromDict P.toEntries = .ok P.toEntries := fun P hP =>
    fromDict_direct ⟨rfl, hdir P hP⟩ rfl
  constructor
  · intro h
    unfold fromList at h
    obtain ⟨d, hd, h⟩ := Res.bind_eq_ok.1 h
    obtain ⟨P, hP, hd⟩ := Res.bind_eq_ok.1 hd
    cases hd
    rw [hfd P hP, Res.ok_bind] at h
    obtain ⟨_, hv, h⟩ := Res.bind_eq_ok.1 h
    cases h
    cases hc : P.cell with
    | some c => exact ⟨P, c, hP, hc, by rw [fileEntries, ← hc]; rfl⟩
    | none =>
      exfalso
      unfold validate at hv
      obtain ⟨_, _, hv⟩ := Res.bind_eq_ok.1 hv
      obtain ⟨_, hv, _⟩ := Res.bind_eq_ok.1 hv
      have : checkCell P.toEntries .none = .exit 13 := by
        unfold checkCell argOr lookup
        simp only [if_true]
        rw [show P.toEntries.get? c!"unitcell" = some (.cell P.cell) from rfl, hc]
        rfl
      rw [this] at hv
      cases hv
  · rintro ⟨P, c, hP, hc, rfl⟩
    have e1 : fileEntries P.comment c P.sites = P.toEntries := by rw [fileEntries, ← hc]; rfl
    rw [e1]
    unfold fromList
    rw [hP]
    simp only [Res.ok_bind]
    rw [hfd P hP, Res.ok_bind, validate_holds (holds_toEntries P c hc (hdir P hP)), Res.ok_bind]

/-- C120, POSCAR: with other line ends (a string with Windows or Macintosh line ends, or a file handler that does not translate Windows line
ends) an accepted text is accepted with the same comment, cell, positions, flags and velocities, and without predictors. Missing: the predictors, which are lost (`C120_violation_*`). -/
theorem C120_poscar_partial (t comment : Str) (cell : Cell) (sites : List Site) :
    ('\r' ∉ t → init { string := some t } = .ok (fileEntries comment cell sites) →
      init { string := some (dos t) } = .ok (fileEntries comment cell (sites.map Site.withoutPredictors)) ∧
      init { string := some (mac t) } = .ok (fileEntries comment cell (sites.map Site.withoutPredictors))) ∧
    (init { handler := some t } = .ok (fileEntries comment cell sites) →
      init { handler := some (dos t) } = .ok (fileEntries comment cell (sites.map Site.withoutPredictors))) := by
  have hs : ∀ u : Str, init { string := some u } = (fromList (splitlinesKeep u) >>= fun d => fromDict d >>= fun e => validate e >>= fun _ => .ok e) := by
    intro u
    unfold init load
    simp [guards]
  have hh : ∀ u : Str, init { handler := some u } = (fromList (readlines u) >>= fun d => fromDict d >>= fun e => validate e >>= fun _ => .ok e) := by
    intro u
    unfold init load fromFile
    simp [guards]
  have key : ∀ A B : List Str, List.Forall₂ OtherEnd A B →
      (fromList A >>= fun d => fromDict d >>= fun e => validate e >>= fun _ => Res.ok e) = .ok (fileEntries comment cell sites) →
      (fromList B >>= fun d => fromDict d >>= fun e => validate e >>= fun _ => Res.ok e) =
        .ok (fileEntries comment cell (sites.map Site.withoutPredictors)) := by
    intro A B h hA
    obtain ⟨P, c, hP, hc, he⟩ := (fromLines_ok A _).1 hA
    refine (fromLines_ok B _).2 ⟨_, c, parse_ended h hP, hc, ?_⟩
    unfold fileEntries at he ⊢
    simp only [List.cons.injEq, Prod.mk.injEq, true_and, and_true, Val.str.injEq, Val.cell.injEq, Val.sites.injEq, Option.some.injEq] at he
    have hinj : Function.Injective Elem.site := fun a b h => by cases h; rfl
    have h3 : sites = P.sites := List.map_injective_iff.2 hinj he.2.2
    rw [he.1, he.2.1, h3]
  refine ⟨fun hr h => ?_, fun h => ?_⟩
  · obtain ⟨h1, h2⟩ := splitlinesKeep_ends t hr
    rw [hs] at h
    exact ⟨by rw [hs]; exact key _ _ h1 h, by rw [hs]; exact key _ _ h2 h⟩
  · rw [hh] at h ⊢
    exact key _ _ (readlines_dos t) h

/-- C120, POSCAR without a line of blanks: other line ends give the same entries, or the same refusal. -/
theorem C120_poscar_noblank (t : Str) (hr : '\r' ∉ t) :
    ((∀ l ∈ splitlinesKeep t, isBlank l = false) → init { string := some (dos t) } = init { string := some t } ∧
      init { string := some (mac t) } = init { string := some t }) ∧
    ((∀ l ∈ readlines t, isBlank l = false) → init { handler := some (dos t) } = init { handler := some t }) := by
  obtain ⟨h1, h2⟩ := splitlinesKeep_ends t hr
  refine ⟨fun hb => ?_, fun hb => ?_⟩
  · unfold init load fromList
    simp [guards, parse_ended_noblank h1 hb, parse_ended_noblank h2 hb]
  · unfold init load fromFile fromList
    simp [guards, parse_ended_noblank (readlines_dos t) hb]

/-- C120 is false for every POSCAR with predictors: with Windows line ends they are lost silently, from a string as from a file handler that
does not translate line ends. -/
theorem C120_violation_predictors (t comment : Str) (cell : Cell) (sites : List Site) (hr : '\r' ∉ t)
    (h : init { string := some t } = .ok (fileEntries comment cell sites)) (hp : ∃ s ∈ sites, s.predictors ≠ none) :
    ∃ sites', init { string := some (dos t) } = .ok (fileEntries comment cell sites') ∧ sites' ≠ sites ∧ ∀ s ∈ sites', s.predictors = none := by
  refine ⟨_, ((C120_poscar_partial t comment cell sites).1 hr h).1, ?_, ?_⟩
  · intro hc
    obtain ⟨s, hs, hn⟩ := hp
    rw [← hc] at hs
    obtain ⟨s', -, rfl⟩ := List.mem_map.1 hs
    exact hn rfl
  · intro s hs
    obtain ⟨s', -, rfl⟩ := List.mem_map.1 hs
    rfl

/-- Such a file: one atom with predictors. -/
example : ∃ (t comment : Str) (cell : Cell) (sites : List Site), '\r' ∉ t ∧ init { string := some t } = .ok (fileEntries comment cell sites) ∧
    ∃ s ∈ sites, s.predictors ≠ none :=
  ⟨c!"a\n1.0\n1 0 0\n0 1 0\n0 0 1\nSi\n1\nDirect\n0 0 0\n\n0.1 0.2 0.3\n", c!"a", ⟨⟨1, 0, 0⟩, ⟨0, 1, 0⟩, ⟨0, 0, 1⟩⟩,
    [{ specie := c!"si", position := ⟨0, 0, 0⟩, selective := (true, true, true), velocities := none, predictors := some ⟨1/10, 1/5, 3/10⟩, direct := true }],
    by decide, by decide +kernel, _, List.mem_singleton.2 rfl, by simp⟩

end Verif.Poscar

namespace Verif.Newlines
open Verif Verif.Spacing
open Verif.Sources (Plain)

/-- C120, DOSCAR from a file handler that does not translate line ends: Windows line ends do not matter. -/
theorem C120_doscar (nc : Bool) (t : Str) : Doscar.init none (some (dos t)) nc = Doscar.init none (some t) nc :=
  (Doscar.C102_doscar nc t (dos t) ((readlines_dos t).imp fun _ _ h => h.words) fun a b ha hb =>
    (forall₂_get (readlines_dos t) 4 a b ha hb).strip).1.symm

theorem dos_no_blank (t : Str) : ¬ c!"\n\n" <:+: dos t := by
  have key : ∀ (t : Str) (x y : Str), dos t = x ++ '\n' :: y → y.head? ≠ some '\n' := by
    intro t
    induction t with
    | nil =>
      intro x y h
      have := congrArg List.length h
      simp [dos] at this
    | cons c cs ih =>
      intro x y h
      by_cases hc : c = '\n'
      · subst hc
        rw [dos_newline] at h
        match x, h with
        | [], h => cases h
        | [a], h =>
          simp only [List.cons_append, List.nil_append, List.cons.injEq, true_and] at h
          rw [← h.2]
          cases cs with
          | nil => simp [dos]
          | cons d ds =>
            by_cases hd : d = '\n'
            · subst hd; rw [dos_newline]; simp
            · rw [dos_cons hd]; simpa using hd
        | a :: b :: x, h =>
          simp only [List.cons_append, List.cons.injEq] at h
          exact ih x y h.2.2
      · rw [dos_cons hc] at h
        match x, h with
        | [], h =>
          simp only [List.nil_append, List.cons.injEq] at h
          exact absurd h.1 hc
        | a :: x, h =>
          simp only [List.cons_append, List.cons.injEq] at h
          exact ih x y h.2
  rintro ⟨x, y, h⟩
  exact key t x ('\n' :: y) (by rw [← h]; simp) rfl

/-- C120 is false for every CHGCAR read from a file handler that does not translate line ends: with Windows line ends it is refused. -/
theorem C120_violation_chgcar (t : Str) : Chgcar.init none (some (dos t)) = .raise .indexError := by
  have : Outcar.cut c!"\n\n" (dos t) = (dos t, none) := (Chgcar.cut_none (by decide)).2 ⟨rfl, dos_no_blank t⟩
  show Chgcar.fromText (dos t) = _
  unfold Chgcar.fromText
  rw [this]
  rfl

end Verif.Newlines
