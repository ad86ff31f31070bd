import Verif.Props.SpacingInput
import Verif.Props.SpacingOutput
import Verif.Props.SpacingIncar
/-! # C103: whether the last line ends with a newline does not matter (KPOINTS, POSCAR, INCAR, DOSCAR) -/
set_option autoImplicit false
namespace Verif

/-- The text ends in the middle of a line: its last character is no white space (and in particular no newline). -/
def EndsInText (u : Str) : Prop := ∃ c, u.getLast? = some c ∧ isSpace c = false

theorem EndsInText.ne_nil {u : Str} (h : EndsInText u) : u ≠ [] := by rintro rfl; obtain ⟨c, h, -⟩ := h; cases h

theorem EndsInText.words {u : Str} (h : EndsInText u) : words u ≠ [] := by
  obtain ⟨c, h1, h2⟩ := h
  intro hw
  have := (Incar.words_eq_nil_iff u).1 hw c (List.mem_of_getLast? h1)
  rw [h2] at this; cases this

theorem EndsInText.tail {x : Char} {xs : Str} (h : EndsInText (x :: xs)) (hx : isSpace x = true) : EndsInText xs := by
  obtain ⟨c, h1, h2⟩ := h
  cases xs with
  | nil =>
    have : x = c := by simpa using h1
    subst this; rw [hx] at h2; cases h2
  | cons y ys => exact ⟨c, by simpa using h1, h2⟩

theorem EndsInText.right {a b : Str} (h : EndsInText (a ++ b)) (hb : b ≠ []) : EndsInText b := by
  obtain ⟨c, h1, h2⟩ := h
  refine ⟨c, ?_, h2⟩
  rw [List.getLast?_append] at h1
  cases hl : b.getLast? with
  | none => exact absurd (List.getLast?_eq_none_iff.1 hl) hb
  | some x => rw [hl] at h1; exact h1

theorem EndsInText.left (a : Str) {b : Str} (h : EndsInText b) : EndsInText (a ++ b) := by
  obtain ⟨c, h1, h2⟩ := h
  exact ⟨c, by rw [List.getLast?_append, h1]; rfl, h2⟩

/-- The last line of a text. -/
theorem last_line (u : Str) : ∃ p l, u = p ++ l ∧ LineEnd p ∧ '\n' ∉ l := by
  induction u with
  | nil => exact ⟨[], [], rfl, .inl rfl, by simp⟩
  | cons x xs ih =>
    obtain ⟨p, l, rfl, h1, h2⟩ := ih
    cases p with
    | nil =>
      by_cases hx : x = '\n'
      · exact ⟨[x], l, rfl, .inr (by rw [hx]; rfl), h2⟩
      · exact ⟨[], x :: l, rfl, .inl rfl, by simp [Ne.symm hx, h2]⟩
    | cons y ys =>
      refine ⟨x :: y :: ys, l, rfl, .inr ?_, h2⟩
      rcases h1 with h1 | h1
      · cases h1
      · simpa using h1

/-- The lines of a text without and with a newline at its end. -/
theorem readlines_final {u : Str} (h : EndsInText u) :
    ∃ A l, EndsInText l ∧ '\n' ∉ l ∧ readlines u = A ++ [l] ∧ readlines (u ++ ['\n']) = A ++ [l ++ ['\n']] := by
  obtain ⟨p, l, rfl, h1, h2⟩ := last_line u
  have hl : l ≠ [] := by
    rintro rfl
    rw [List.append_nil] at h
    rcases h1 with rfl | h1
    · exact h.ne_nil rfl
    · obtain ⟨c, g1, g2⟩ := h
      rw [h1] at g1; cases g1; revert g2; decide
  refine ⟨readlines p, l, h.right hl, h2, ?_, ?_⟩
  · rw [readlines_lineEnd h1, readlines_noeol h2 hl]
  · rw [List.append_assoc, readlines_lineEnd h1, readlines_line_append [] h2]; rfl

theorem lineBreak_space {c : Char} (h : isLineBreak c = true) : isSpace c = true := by
  simp only [isLineBreak, isSpace, Bool.or_eq_true, Bool.and_eq_true, decide_eq_true_eq, beq_iff_eq] at *
  omega

theorem splitlines_final {u : Str} (h : EndsInText u) : splitlines (u ++ ['\n']) = splitlines u ∧ splitlines u ≠ [] := by
  induction u using splitlines.induct with
  | case1 => exact absurd rfl h.ne_nil
  | case2 xs ih =>
    have := ih ((h.tail (by decide)).tail (by decide))
    simp [splitlines, this.1]
  | case3 x xs hx hb ih =>
    have := ih (h.tail (lineBreak_space hb))
    have hne : ∀ zs : Str, x = '\r' → xs ++ ['\n'] = '\n' :: zs → False := by
      intro zs h1 h2
      cases xs with
      | nil => exact (h.tail (lineBreak_space hb)).ne_nil rfl
      | cons y ys => cases h2; exact hx ys h1 rfl
    rw [List.cons_append, splitlines, if_pos hb, splitlines, if_pos hb, this.1]
    · exact ⟨rfl, by simp⟩
    · exact hx
    · exact hne
  | case4 x xs hx hb ih =>
    have hxr : x ≠ '\r' := by rintro rfl; exact hb (by decide)
    rw [List.cons_append, splitlines_cons_of_ne _ hxr, splitlines_cons_of_ne _ hxr, if_neg hb, if_neg hb]
    cases xs with
    | nil => exact ⟨by simp [splitlines, consHead, isLineBreak], by simp [splitlines, consHead]⟩
    | cons y ys =>
      have := ih (by obtain ⟨c, h1, h2⟩ := h; exact ⟨c, by simpa using h1, h2⟩)
      rw [this.1]
      refine ⟨rfl, ?_⟩
      cases splitlines (y :: ys) <;> simp [consHead]

theorem splitlinesKeep_final {u : Str} (h : EndsInText u) :
    ∃ A l, EndsInText l ∧ Poscar.splitlinesKeep u = A ++ [l] ∧ Poscar.splitlinesKeep (u ++ ['\n']) = A ++ [l ++ ['\n']] := by
  induction u using Poscar.splitlinesKeep.induct with
  | case1 => exact absurd rfl h.ne_nil
  | case2 xs ih =>
    obtain ⟨A, l, h1, h2, h3⟩ := ih ((h.tail (by decide)).tail (by decide))
    exact ⟨['\r', '\n'] :: A, l, h1, by simp [Poscar.splitlinesKeep, h2], by simp [Poscar.splitlinesKeep, h3]⟩
  | case3 x xs hx hb ih =>
    obtain ⟨A, l, h1, h2, h3⟩ := ih (h.tail (lineBreak_space hb))
    have hne : ∀ zs : Str, x = '\r' → xs ++ ['\n'] = '\n' :: zs → False := by
      intro zs h1 h2
      cases xs with
      | nil => exact (h.tail (lineBreak_space hb)).ne_nil rfl
      | cons y ys => cases h2; exact hx ys h1 rfl
    refine ⟨[x] :: A, l, h1, ?_, ?_⟩
    · rw [Poscar.splitlinesKeep, if_pos hb, h2]
      · rfl
      · exact hx
    · rw [List.cons_append, Poscar.splitlinesKeep, if_pos hb, h3]
      · rfl
      · exact hne
  | case4 x xs hx hb ih =>
    have hxr : x ≠ '\r' := by rintro rfl; exact hb (by decide)
    rw [List.cons_append, Poscar.splitlinesKeep_cons_of_ne _ hxr, Poscar.splitlinesKeep_cons_of_ne _ hxr, if_neg hb, if_neg hb]
    cases xs with
    | nil => exact ⟨[], [x], h, rfl, rfl⟩
    | cons y ys =>
      obtain ⟨A, l, h1, h2, h3⟩ := ih (by obtain ⟨c, h1, h2⟩ := h; exact ⟨c, by simpa using h1, h2⟩)
      rw [h2, h3]
      cases A with
      | nil => exact ⟨[], x :: l, h1.left [x], rfl, rfl⟩
      | cons a as => exact ⟨(x :: a) :: as, l, h1, rfl, rfl⟩

theorem respaced_final (A : List Str) (l : Str) : Respaced (A ++ [l]) (A ++ [l ++ ['\n']]) :=
  Respaced.of_map (by simp [words_append_space l '\n' (by decide)])

/-- The same line of the two texts: the same, or the last one. -/
theorem final_get {A : List Str} {l : Str} {i : Nat} {a b : Str} (ha : (A ++ [l])[i]? = some a) (hb : (A ++ [l ++ ['\n']])[i]? = some b) :
    a = b ∨ a = l ∧ b = l ++ ['\n'] := by
  by_cases hi : i < A.length
  · rw [List.getElem?_append_left hi] at ha hb
    rw [ha] at hb
    exact .inl (Option.some.inj hb)
  · rw [List.getElem?_append_right (by omega)] at ha hb
    cases hj : i - A.length with
    | zero => rw [hj] at ha hb; simp at ha hb; exact .inr ⟨ha.symm, hb.symm⟩
    | succ j => rw [hj] at ha; simp at ha

namespace Kpoints
open Verif.Spacing

/-- C103 for KPOINTS: a file or a string is read alike with and without a newline behind its last word: the same entries, or the same
refusal. -/
theorem C103_kpoints (u : Str) (h : EndsInText u) : init { handler := some (u ++ ['\n']) } = init { handler := some u } ∧
    init { path := some (some (u ++ ['\n'])) } = init { path := some (some u) } ∧ init { string := some (u ++ ['\n']) } = init { string := some u } := by
  have key : fromList (readlines u) = fromList (readlines (u ++ ['\n'])) := by
    obtain ⟨A, l, h1, h2, h3, h4⟩ := readlines_final h
    rw [h3, h4]
    cases A with
    | nil => rfl
    | cons a as =>
      refine fromList_respaced (respaced_final _ _) rfl fun i x y hx hy => ?_
      rcases final_get hx hy with rfl | ⟨rfl, rfl⟩
      · rfl
      · constructor
        · rintro rfl; simp at h2
        · intro hc
          have := congrArg List.length hc
          simp at this
          exact absurd this h1.ne_nil
  refine ⟨?_, ?_, ?_⟩
  · unfold init load fromFile
    simp [guards, key]
  · unfold init load fromFile
    simp [guards, key]
  · unfold init load fromFile
    simp [guards, (splitlines_final h).1]

/-- A file that is accepted. -/
example : EndsInText c!"b\n20\nLine-mode\nrec\n 0 0 0\n\n 0.5 0 0" ∧ (init { handler := some c!"b\n20\nLine-mode\nrec\n 0 0 0\n\n 0.5 0 0" }).isOk = true :=
  ⟨⟨'0', by decide, by decide⟩, rfl⟩

end Kpoints

namespace Poscar
open Verif.Spacing
open Verif.Kpoints (idx toFloat toInt)

theorem fromList_final (A : List Str) (l : Str) (hl : EndsInText l) :
    fromList (A ++ [l]) = fromList (A ++ [l ++ ['\n']]) := by
  cases A with
  | nil => rfl
  | cons a as =>
    refine fromList_respaced ⟨respaced_final _ _, rfl, fun x y hx hy => ?_, fun i x y _ hx hy hw => ?_, fun i x y _ hx hy _ => ?_⟩
    · rcases final_get hx hy with rfl | ⟨rfl, rfl⟩
      · exact .inl rfl
      · exact .inr (.inl rfl)
    · rcases final_get hx hy with rfl | ⟨rfl, rfl⟩
      · rfl
      · exact absurd hw hl.words
    · rcases final_get hx hy with rfl | ⟨rfl, rfl⟩
      · rfl
      · cases x with
        | nil => exact absurd rfl hl.ne_nil
        | cons c cs => rfl

/-- C103 for POSCAR: a file or a string is read alike with and without a newline behind its last word: the same entries, or the same
refusal. -/
theorem C103_poscar (u : Str) (h : EndsInText u) : init { handler := some (u ++ ['\n']) } = init { handler := some u } ∧
    init { path := some (some (u ++ ['\n'])) } = init { path := some (some u) } ∧ init { string := some (u ++ ['\n']) } = init { string := some u } := by
  obtain ⟨A, l, h1, -, h3, h4⟩ := readlines_final h
  have k1 := fromList_final A l h1
  obtain ⟨A', l', h1', h3', h4'⟩ := splitlinesKeep_final h
  have k2 := fromList_final A' l' h1'
  unfold init load fromFile
  simp [guards, h3, h4, k1, h3', h4', k2]

example : EndsInText c!"c\n1.0\n2 0 0\n0 2 0\n0 0 2\nH\n1\nDirect\n0.5 0 0" ∧
    (match init { handler := some c!"c\n1.0\n2 0 0\n0 2 0\n0 0 2\nH\n1\nDirect\n0.5 0 0" } with | .ok e => e.keys.length | _ => 0) = 3 :=
  ⟨⟨'0', by decide, by decide⟩, by decide +kernel⟩

end Poscar

namespace Doscar
open Verif.Spacing

/-- C103 for DOSCAR. -/
theorem C103_doscar (nc : Bool) (u : Str) (h : EndsInText u) : init none (some (u ++ ['\n'])) nc = init none (some u) nc ∧
    init (some (some (u ++ ['\n']))) none nc = init (some (some u)) none nc := by
  obtain ⟨A, l, h1, -, h3, h4⟩ := readlines_final h
  have := C102_doscar nc u (u ++ ['\n']) (by rw [h3, h4]; exact respaced_final A l) (fun a b ha hb => by
    rw [h3] at ha; rw [h4] at hb
    rcases final_get ha hb with rfl | ⟨rfl, rfl⟩
    · rfl
    · exact (Incar.strip_snoc_space _ '\n' (by decide)).symm)
  exact ⟨this.1.symm, this.2.symm⟩

example : ∃ u, u ++ ['\n'] = cutFile ∧ EndsInText u ∧ (init none (some u) false).isOk = true :=
  ⟨cutFile.dropLast, by decide +kernel, ⟨'8', by decide +kernel, by decide⟩, by decide +kernel⟩

end Doscar

namespace Incar

theorem split1_snoc_in {c : Char} {s : Str} (x : Str) (h : c ∈ s) : ∃ r, split1 c s = ((split1 c s).1, some r) ∧ split1 c (s ++ x) = ((split1 c s).1, some (r ++ x)) := by
  induction s with
  | nil => cases h
  | cons y ys ih =>
    by_cases hy : y = c
    · subst hy; exact ⟨ys, by simp [split1], by simp [split1]⟩
    · obtain ⟨r, h1, h2⟩ := ih (by simpa [Ne.symm hy] using h)
      refine ⟨r, ?_, ?_⟩
      · simp only [split1, beq_iff_eq, hy, if_false]; rw [h1]
      · simp only [List.cons_append, split1, beq_iff_eq, hy, if_false]; rw [h2]

theorem splitOn_snoc {c x : Char} (hx : x ≠ c) (s : Str) : ∃ A e, splitOn c s = A ++ [e] ∧ splitOn c (s ++ [x]) = A ++ [e ++ [x]] ∧ ∃ p, s = p ++ e ∧ (p = [] ∨ p.getLast? = some c) := by
  induction s with
  | nil => exact ⟨[], [], rfl, by simp [splitOn, splitP, hx, consHead], [], rfl, .inl rfl⟩
  | cons y ys ih =>
    obtain ⟨A, e, h1, h2, p, h3, h4⟩ := ih
    unfold splitOn at h1 h2 ⊢
    by_cases hy : y = c
    · subst hy
      refine ⟨[] :: A, e, by simp [splitP, h1], by simp [splitP, h2], y :: p, by rw [h3]; rfl, .inr ?_⟩
      rcases h4 with rfl | h4
      · rfl
      · cases p with
        | nil => rfl
        | cons z zs => simpa using h4
    · cases A with
      | nil =>
        have hp : p = [] ∨ p.getLast? = some c := h4
        have hpe : ys = e := by
          have := join_splitOn c ys
          unfold splitOn at this
          rw [h1] at this; simpa [join] using this.symm
        have hp0 : p = [] := by
          have := congrArg List.length h3
          rw [← hpe] at this
          simp at this
          exact this
        exact ⟨[], y :: e, by simp [splitP, hy, h1, consHead], by simp [splitP, hy, h2, consHead], [], by rw [h3, hp0]; rfl, .inl rfl⟩
      | cons a as =>
        refine ⟨(y :: a) :: as, e, by simp [splitP, hy, h1, consHead], by simp [splitP, hy, h2, consHead], y :: p, by rw [h3]; rfl, ?_⟩
        rcases h4 with rfl | h4
        · exfalso
          -- a piece before the last one means a separator before it
          have hc : c ∈ ys := by
            by_contra hc
            have := splitOn_free hc
            unfold splitOn at this
            rw [this] at h1
            have := congrArg List.length h1
            simp at this
          rw [List.nil_append] at h3
          subst h3
          have := Eigenval.mem_splitP_sub (p := (· == c)) (s := ys) (w := ys) (by rw [h1]; simp) hc
          simp at this
        · right
          cases p with
          | nil => cases h4
          | cons z zs => simpa using h4

/-- C103 for one line: with and without the newline at its end. -/
theorem sameLine_final {l : Str} (h : EndsInText l) (hs : l.getLast? = some ';' → '#' ∈ l) : SameLine l (l ++ ['\n']) := by
  have refl : ∀ s : Str, SameEntry s s := fun s => ⟨List.forall₂_same.2 fun _ _ => rfl, fun t v t' v' e e' _ => by rw [e] at e'; cases e'; rfl, Iff.rfl⟩
  by_cases hc : '#' ∈ l
  · obtain ⟨r, h1, h2⟩ := split1_snoc_in ['\n'] hc
    rw [SameLine, h2, h1]
    refine ⟨by simp [strip_snoc_space r '\n' (by decide)], ?_⟩
    exact List.forall₂_same.2 fun s _ => refl s
  · have hc' : '#' ∉ l ++ ['\n'] := by simp [hc]
    unfold SameLine
    rw [split1_free hc, split1_free hc']
    refine ⟨rfl, ?_⟩
    obtain ⟨A, e, h1, h2, p, hp, hp'⟩ := splitOn_snoc (c := ';') (x := '\n') (by decide) l
    show List.Forall₂ SameEntry (splitOn ';' l) (splitOn ';' (l ++ ['\n']))
    rw [h1, h2]
    refine List.rel_append (List.forall₂_same.2 fun s _ => refl s) (.cons ?_ .nil)
    have he : e ≠ [] := by
      rintro rfl
      rw [List.append_nil] at hp
      subst hp
      rcases hp' with hp' | hp'
      · exact h.ne_nil hp'
      · exact hc (hs hp')
    have hend : EndsInText e := by rw [hp] at h; exact h.right he
    obtain ⟨B, v, g1, g2, -⟩ := splitOn_snoc (c := '=') (x := '\n') (by decide) e
    refine ⟨?_, ?_, ?_⟩
    · rw [g1, g2]; exact respaced_final B v
    · intro t w t' w' e1 e2 _
      rw [g1] at e1
      rw [g2] at e2
      have e1 : B ++ [v] = [t] ++ [w] := e1
      have e2 : B ++ [v ++ ['\n']] = [t'] ++ [w'] := e2
      have a1 := List.append_inj' e1 rfl
      have a2 := List.append_inj' e2 rfl
      rw [← List.singleton_inj.1 a1.2, ← List.singleton_inj.1 a2.2]
      exact (strip_snoc_space v '\n' (by decide)).symm
    · constructor
      · rintro rfl; obtain ⟨c, q1, q2⟩ := hend; cases q1; revert q2; decide
      · intro hcc
        have := congrArg List.length hcc
        simp at this
        exact absurd this he

/-- C103 for INCAR: a file or a string is read alike with and without a newline behind its last word: the same entries, or the same refusal. A
file must not end with a `;` outside a comment. Missing: files that do, for which the claim is false (`C103_violation_*`). -/
theorem C103_incar_partial (F : FloatEnv) (allowed : List Str) (vt : Bool) (u : Str) (h : EndsInText u) :
    ((∀ l, (readlines u).getLast? = some l → l.getLast? = some ';' → '#' ∈ l) →
      init F allowed vt { handler := some (u ++ ['\n']) } = init F allowed vt { handler := some u } ∧
      init F allowed vt { path := some (some (u ++ ['\n'])) } = init F allowed vt { path := some (some u) }) ∧
    init F allowed vt { string := some (u ++ ['\n']) } = init F allowed vt { string := some u } := by
  have refl : ∀ s : Str, SameLine s s := fun s => ⟨rfl, List.forall₂_same.2 fun s _ =>
    ⟨List.forall₂_same.2 fun _ _ => rfl, fun t v t' v' e e' _ => by rw [e] at e'; cases e'; rfl, Iff.rfl⟩⟩
  refine ⟨fun hs => ?_, ?_⟩
  · obtain ⟨A, l, h1, h2, h3, h4⟩ := readlines_final h
    have := (C102_incar_partial F allowed vt u (u ++ ['\n'])).1 (by
      rw [h3, h4]
      refine List.rel_append (List.forall₂_same.2 fun s _ => refl s) (.cons (sameLine_final h1 (hs l (by rw [h3]; simp))) .nil))
    exact ⟨this.1.symm, this.2.symm⟩
  · have := (C102_incar_partial F allowed vt u (u ++ ['\n'])).2 (by
      rw [(splitlines_final h).1]
      exact List.forall₂_same.2 fun s _ => refl s)
    exact this.symm

example : EndsInText c!"NSW = 5;ALGO = Fast # quick;" ∧ (∀ l, (readlines c!"NSW = 5;ALGO = Fast # quick;").getLast? = some l → l.getLast? = some ';' → '#' ∈ l) ∧
    (init exactEnv [c!"nsw", c!"algo"] true { handler := some c!"NSW = 5;ALGO = Fast # quick;" }).isOk = true :=
  ⟨⟨';', by decide, by decide⟩, fun l hl _ => by cases hl; decide, by decide +kernel⟩

/-- C103 is false for an INCAR file that ends with a `;`: with a newline behind it the file may be accepted, without the newline any such file is
refused with code 102. -/
theorem C103_violation_incar (F : FloatEnv) (allowed : List Str) (vt : Bool) (p e : Str) (d : Entries) (hp : LineEnd p) (he : ∀ c ∈ e, c ≠ '\n' ∧ c ≠ '#')
    (h : init F allowed vt { handler := some (p ++ e ++ c!";\n") } = .ok d) : init F allowed vt { handler := some (p ++ e ++ c!";") } = .exit 102 := by
  have loaded : ∀ t : Str, init F allowed vt { handler := some t } = (fromList F (readlines t) >>= fun x => validate vt allowed x >>= fun _ => .ok x) :=
    fun _ => rfl
  have g1 : '\n' ∉ e ++ [';'] := by simp; exact fun hm => (he _ hm).1 rfl
  have g2 : '#' ∉ e ++ [';'] := by simp; exact fun hm => (he _ hm).2 rfl
  have r1 : readlines (p ++ e ++ c!";\n") = readlines p ++ [e ++ [';'] ++ ['\n']] := by
    rw [List.append_assoc, readlines_lineEnd hp, show e ++ c!";\n" = (e ++ [';']) ++ '\n' :: [] by simp, readlines_line_append [] g1]; rfl
  have r2 : readlines (p ++ e ++ c!";") = readlines p ++ [e ++ [';']] := by
    rw [List.append_assoc, readlines_lineEnd hp, readlines_noeol g1 (by simp)]
  have parsed : ∀ s : Str, '#' ∉ s → ';' ∉ s → ∀ d, parseLine F d (e ++ ';' :: s) =
      (Res.foldlM' (parseEntry F none) d (splitOn ';' e) >>= fun d' => Res.foldlM' (parseEntry F none) d' [s]) := by
    intro s hs hs' d
    have hh : '#' ∉ e ++ ';' :: s := by simp; exact ⟨fun hm => (he _ hm).2 rfl, hs⟩
    have hw : words (e ++ ';' :: s) ≠ [] := by
      intro hc
      have := (words_eq_nil_iff _).1 hc ';' (by simp)
      exact absurd this (by decide)
    unfold parseLine
    rw [split1_free hh, splitOn_free hh]
    simp only [List.head?_cons, Option.getD_some, List.isEmpty_iff, hw, if_false]
    rw [splitOn_sep, splitOn_free hs', Res.foldlM'_append]
  rw [loaded, r1] at h
  rw [loaded, r2]
  unfold fromList at h ⊢
  rw [Res.foldlM'_append] at h ⊢
  obtain ⟨x, hx, -⟩ := Res.bind_eq_ok.1 h
  obtain ⟨d0, h0, hx⟩ := Res.bind_eq_ok.1 hx
  rw [h0, Res.ok_bind]
  rw [show e ++ [';'] ++ ['\n'] = e ++ ';' :: ['\n'] by simp, Res.foldlM', parsed ['\n'] (by decide) (by decide)] at hx
  rw [Res.foldlM', parsed [] (by simp) (by simp)]
  obtain ⟨d1, h1, -⟩ := Res.bind_eq_ok.1 hx
  obtain ⟨d2, h2, -⟩ := Res.bind_eq_ok.1 h1
  rw [h2]
  rfl

example : init exactEnv [c!"nsw"] true { handler := some (c!"" ++ c!"NSW = 5" ++ c!";\n") } = .ok [(c!"nsw", ⟨c!"nsw", .one (.int 5), none⟩)] := by
  decide +kernel

end Incar
end Verif
