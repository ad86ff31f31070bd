import Verif.Props.Sources
import Verif.Props.IncarParse
import Verif.Props.KpointsRound
import Verif.Props.PoscarEdit
import Verif.Props.Eigenval
/-! # Where the writable parsers take their text from (C69, C115) -/
set_option autoImplicit false
namespace Verif.Sources
open Verif Verif.Utils

/-- C69 for INCAR (with any list of allowed tags, with or without their check). -/
theorem C69_incar (F : FloatEnv) (allowed : List Str) (vt : Bool) :
    Reads (fun p h => Incar.init F allowed vt { path := p, handler := h }) (.exit 10) := by
  refine ⟨rfl, rfl, fun _ => rfl, fun p t => ?_⟩
  cases p <;> rfl

/-- C69 for KPOINTS. -/
theorem C69_kpoints : Reads (fun p h => Kpoints.init { path := p, handler := h }) (.exit 10) := by
  refine ⟨rfl, rfl, fun _ => rfl, fun p t => ?_⟩
  cases p <;> rfl

/-- C69 for POSCAR. -/
theorem C69_poscar : Reads (fun p h => Poscar.init { path := p, handler := h }) (.exit 10) := by
  refine ⟨rfl, rfl, fun _ => rfl, fun p t => ?_⟩
  cases p <;> rfl

/-- A path without file is noticed even if a dictionary is given besides (the dictionary is not used then). -/
theorem C69_missing_with_dict (F : FloatEnv) (allowed : List Str) (vt : Bool) (d : List (Str × Incar.Value)) (k : Kpoints.Entries)
    (e : Poscar.Entries) :
    Incar.init F allowed vt { dict := some d, path := some none } = .exit 14 ∧
    Kpoints.init { dict := some k, path := some none } = .exit 14 ∧
    Poscar.init { dict := some e, path := some none } = .exit 14 := ⟨rfl, rfl, rfl⟩

/-- The texts are told apart. -/
example : Kpoints.init { path := some (some c!"c\n0\nG\n1 2 3\n") } ≠ Kpoints.init { handler := some c!"c\n0\nM\n1 2 3\n" } := by
  decide +kernel

/-! ### C115: a string and a file with the same text -/

/-- The line breaks of the text are newlines only. -/
def Plain (t : Str) : Prop := ∀ c ∈ t, isLineBreak c = true → c = '\n'

theorem splitlinesKeep_eq (t : Str) (h : Plain t) : Poscar.splitlinesKeep t = readlines t := by
  induction t with
  | nil => rfl
  | cons x xs ih =>
    have hxr : x ≠ '\r' := by rintro rfl; have := h '\r' (by simp) (by decide); revert this; decide
    rw [Poscar.splitlinesKeep_cons_of_ne _ hxr, ih (fun c hc => h c (by simp [hc])), readlines]
    by_cases hx : x = '\n'
    · subst hx; simp [show isLineBreak '\n' = true by decide]
    · have hb : isLineBreak x = false := by
        cases hb : isLineBreak x with
        | false => rfl
        | true => exact absurd (h x (by simp) hb) hx
      simp only [hb, Bool.false_eq_true, if_false, show (x == '\n') = false by simpa using hx]

/-- C115 for POSCAR: a text whose line breaks are newlines gives the same from a string, a file and a handler, whether it is accepted or
not. Missing: other line breaks, for which the claim is false (`C115_violation_*`). -/
theorem C115_poscar_partial (t : Str) (h : Plain t) :
    Poscar.init { string := some t } = Poscar.init { path := some (some t) } ∧
    Poscar.init { string := some t } = Poscar.init { handler := some t } := by
  have e : Poscar.fromList (Poscar.splitlinesKeep t) = Poscar.fromList (readlines t) := by rw [splitlinesKeep_eq t h]
  constructor <;>
  · show (Poscar.fromList (Poscar.splitlinesKeep t) >>= fun d => _) = (Poscar.fromList (readlines t) >>= fun d => Res.ok d) >>= fun d => _
    rw [e]
    cases Poscar.fromList (readlines t) <;> rfl

/-! KPOINTS -/

/-- A line of a file and the same line of a string. -/
def SameLine (r s : Str) : Prop := '\n' ∉ s ∧ (r = s ∨ r = s ++ ['\n'])

theorem SameLine.words {r s : Str} (h : SameLine r s) : words r = words s := by
  rcases h.2 with h' | h'
  · rw [h']
  · rw [h']; exact words_append_space s '\n' (by decide)

theorem dropWhile_all {α : Type} {p : α → Bool} {l : List α} (h : l.dropWhile p = []) : ∀ c ∈ l, p c = true := by
  induction l with
  | nil => simp
  | cons x xs ih =>
    rw [List.dropWhile_cons] at h
    split at h
    · rename_i hx; intro c hc; rcases List.mem_cons.1 hc with rfl | hc
      · exact hx
      · exact ih h c hc
    · cases h

theorem strip_append_newline (s : Str) : strip (s ++ ['\n']) = strip s := by
  have hn : ∀ c ∈ ['\n'], isSpace c = true := by decide
  by_cases h : ∀ c ∈ s, isSpace c = true
  · have h2 : lstrip (s ++ ['\n']) = [] := by
      rw [lstrip_spaces_append s _ h]; decide
    have h3 : lstrip s = [] := by
      have := lstrip_spaces_append s [] h
      simpa [show lstrip [] = [] from rfl] using this
    unfold strip; rw [h2, h3]
  · have : lstrip (s ++ ['\n']) = lstrip s ++ ['\n'] := by
      unfold lstrip
      rw [List.dropWhile_append, if_neg]
      intro he
      apply h
      intro c hc
      have he' : List.dropWhile isSpace s = [] := by simpa using he
      exact dropWhile_all he' c hc
    unfold strip; rw [this, rstrip_append_spaces _ _ hn]

theorem SameLine.strip {r s : Str} (h : SameLine r s) : strip r = strip s := by
  rcases h.2 with h' | h'
  · rw [h']
  · rw [h']; exact strip_append_newline s

theorem SameLine.filter {r s : Str} (h : SameLine r s) : SameLine (r.filter (· != '#')) (s.filter (· != '#')) := by
  refine ⟨fun hm => h.1 (List.mem_of_mem_filter hm), ?_⟩
  rcases h.2 with h' | h'
  · left; rw [h']
  · right; rw [h', List.filter_append]; rfl

/-- Reading line `i` of either. -/
theorem idx_same {α : Type} {r s : List Str} (h : List.Forall₂ SameLine r s) (i : Nat) {f g : Str → Res α} (hfg : ∀ a b, s[i]? = some b → SameLine a b → f a = g b) :
    (Kpoints.idx r i >>= f) = (Kpoints.idx s i >>= g) := by
  unfold Kpoints.idx
  induction h generalizing i with
  | nil => rfl
  | cons h1 _ ih =>
    cases i with
    | zero => exact hfg _ _ rfl h1
    | succ i => simpa using ih i (by simpa using hfg)

theorem parsePoint_same {a b : Str} (h : SameLine a b) : Kpoints.parsePoint a = Kpoints.parsePoint b := by
  unfold Kpoints.parsePoint; rw [h.words]

theorem parseTetraLine_same {a b : Str} (h : SameLine a b) : Kpoints.parseTetraLine a = Kpoints.parseTetraLine b := by
  unfold Kpoints.parseTetraLine; rw [h.words]

theorem parseTetra_same {r s : List Str} (h : List.Forall₂ SameLine r s) (n : Nat) : Kpoints.parseTetra r n = Kpoints.parseTetra s n := by
  unfold Kpoints.parseTetra
  rw [h.length_eq]
  split
  · refine idx_same h _ fun a b _ hab => ?_
    rw [hab.strip]
    congr 1; funext c
    split
    · split
      · refine idx_same h _ fun a b _ hab => ?_
        rw [hab.words]
        congr 1; funext n; congr 1; funext num; congr 1; funext v; congr 1; funext vol
        congr 1
        congr 1; funext t
        exact idx_same h _ fun a b _ hab => parseTetraLine_same hab
      · rfl
    · rfl
  · rfl

theorem parseExplicit_same {r s : List Str} (h : List.Forall₂ SameLine r s) (p : Kpoints.Parsed) (c : Char) :
    Kpoints.parseExplicit r p c = Kpoints.parseExplicit s p c := by
  unfold Kpoints.parseExplicit
  rw [parseTetra_same h]
  split
  · rfl
  · congr 1
    congr 1; funext t
    exact idx_same h _ fun a b _ hab => parsePoint_same hab

theorem parseAutomatic_same {r s : List Str} (h : List.Forall₂ SameLine r s) (p : Kpoints.Parsed) (c : Char) :
    Kpoints.parseAutomatic r p c = Kpoints.parseAutomatic s p c := by
  unfold Kpoints.parseAutomatic
  rw [h.length_eq]
  split
  · rfl
  split
  · refine idx_same h _ fun a b _ hab => ?_
    rw [hab.words]
    congr 1; funext d
    congr 1
    split
    · exact idx_same h _ fun a b _ hab => by rw [hab.words]
    · rfl
  split
  · congr 1
    · congr 1; funext k
      exact idx_same h _ fun a b _ hab => by rw [hab.words]
    · funext gv
      exact idx_same h _ fun a b _ hab => by rw [hab.words]
  · rfl

/-- The lines of line mode, none of them empty. -/
theorem parseLineMode_same {r s : List Str} (h : List.Forall₂ SameLine r s) (p : Kpoints.Parsed) (hne : [] ∉ s.drop 4) :
    Kpoints.parseLineMode r p = Kpoints.parseLineMode s p := by
  unfold Kpoints.parseLineMode
  refine idx_same h _ fun a b _ hab => ?_
  rw [hab.words]
  congr 1; funext w; congr 1; funext c
  split
  · congr 1
    have h' : List.Forall₂ SameLine (r.drop 4) (s.drop 4) := by
      have := List.forall₂_drop 4 h
      exact this
    revert h' hne
    generalize r.drop 4 = a
    generalize s.drop 4 = b
    intro hne h'
    induction h' with
    | nil => rfl
    | cons h1 _ ih =>
      rename_i x y xs ys hxs
      rw [Res.mapM', Res.mapM', ih (fun hm => hne (by simp [hm]))]
      have : Kpoints.parseLinePoint x = Kpoints.parseLinePoint y := by
        unfold Kpoints.parseLinePoint
        rw [h1.words]
        have hy : y ≠ [] := fun hy => hne (by simp [hy])
        have hy2 : y ≠ ['\n'] := fun hy => h1.1 (by simp [hy])
        rw [if_neg hy2]
        rw [if_neg]
        rcases h1.2 with h2 | h2
        · rw [h2]; exact hy2
        · rw [h2]; intro h3; exact hy (by simpa using h3)
      rw [this]
  · rfl

theorem parse_same {r s : List Str} (h : List.Forall₂ SameLine r s)
    (hne : (∃ l c, s[2]? = some l ∧ (strip l)[0]? = some c ∧ lowerC c = 'l') → [] ∉ s.drop 4) : Kpoints.parse r = Kpoints.parse s := by
  unfold Kpoints.parse
  refine idx_same h _ fun a b _ hab => ?_
  refine idx_same h _ fun a' b' _ hab' => ?_
  rw [hab'.words, hab.filter.strip]
  congr 1; funext w; congr 1; funext num
  refine idx_same h _ fun a2 b2 h2 hab2 => ?_
  rw [hab2.strip]
  unfold Kpoints.idx
  cases hc : (strip b2)[0]? with
  | none => rfl
  | some c =>
    simp only [Res.ok_bind]
    congr 1
    · split
      · exact parseExplicit_same h _ _
      · rfl
    · funext p
      congr 1
      · split
        · exact parseAutomatic_same h _ _
        · rfl
      · funext p
        split
        · rename_i hl
          exact parseLineMode_same h _ (hne ⟨b2, c, h2, hc, by simpa using hl⟩)
        · rfl

/-- The third line of a KPOINTS text starts with `l` or `L`. -/
def IsLineMode (t : Str) : Prop := ∃ l c, (splitlines t)[2]? = some l ∧ (strip l)[0]? = some c ∧ lowerC c = 'l'

theorem kpoints_init_string (t : Str) :
    Kpoints.init { string := some t } = (Kpoints.parse (splitlines t) >>= fun p => Kpoints.validate p.toEntries >>= fun _ => .ok p.toEntries) := by
  show (Kpoints.fromList (splitlines t) >>= fun d => _) = _
  unfold Kpoints.fromList
  cases Kpoints.parse (splitlines t) <;> rfl

theorem kpoints_init_file (t : Str) :
    Kpoints.init { path := some (some t) } = (Kpoints.parse (readlines t) >>= fun p => Kpoints.validate p.toEntries >>= fun _ => .ok p.toEntries) := by
  show ((Kpoints.fromList (readlines t) >>= fun d => Res.ok d) >>= fun d => _) = _
  unfold Kpoints.fromList
  cases Kpoints.parse (readlines t) <;> rfl

/-- C115 for KPOINTS: a text whose line breaks are newlines and which, in line mode, has no empty line behind the fourth gives the same from a
string, a file and a handler, whether it is accepted or not. Missing: line mode with empty lines, for which the claim is false
(`C115_violation`), and other line breaks (`C115_violation_breaks`). -/
theorem C115_kpoints_partial (t : Str) (h : Plain t) (hl : IsLineMode t → [] ∉ (splitlines t).drop 4) :
    Kpoints.init { string := some t } = Kpoints.init { path := some (some t) } ∧
    Kpoints.init { string := some t } = Kpoints.init { handler := some t } := by
  have e : Kpoints.init { string := some t } = Kpoints.init { path := some (some t) } := by
    rw [kpoints_init_string, kpoints_init_file, parse_same (Incar.readlines_splitlines t h) hl]
  exact ⟨e, e.trans (C69_kpoints.same t)⟩

/-- The hypotheses are met by a list of points, a mesh and a path. -/
example : (∀ t ∈ [c!"pts\n2\nDirect\n0 0 0 1\n0.5 0 0 1\n", c!"mesh\n0\nGamma\n4 4 4\n0 0 0", c!"path\n20\nLine\nrec\n0 0 0\n0.5 0 0\n"],
      Plain t ∧ (IsLineMode t → [] ∉ (splitlines t).drop 4) ∧ (Kpoints.init { string := some t }).isOk = true) ∧
    IsLineMode c!"path\n20\nLine\nrec\n0 0 0\n0.5 0 0\n" := by
  refine ⟨?_, ⟨c!"Line", 'L', by decide +kernel, by decide +kernel, by decide +kernel⟩⟩
  intro t ht
  simp only [List.mem_cons, List.not_mem_nil, or_false] at ht
  rcases ht with rfl | rfl | rfl
  · refine ⟨by unfold Plain; decide +kernel, ?_, by decide +kernel⟩
    rintro ⟨l, c, h1, h2, h3⟩
    rw [show (splitlines c!"pts\n2\nDirect\n0 0 0 1\n0.5 0 0 1\n")[2]? = some c!"Direct" by decide +kernel] at h1
    cases h1
    rw [show (strip c!"Direct")[0]? = some 'D' by decide +kernel] at h2
    cases h2
    revert h3; decide
  · exact ⟨by unfold Plain; decide +kernel, fun _ => by decide +kernel, by decide +kernel⟩
  · exact ⟨by unfold Plain; decide +kernel, fun _ => by decide +kernel, by decide +kernel⟩

/-- The empty lines are points without coordinates in a string and nothing in a file. -/
theorem linePoints_more {r s : List Str} (h : List.Forall₂ SameLine r s) (hr : ([] : Str) ∉ r) {ps : List (List Kpoints.Kpoint)}
    (hp : Res.mapM' Kpoints.parseLinePoint r = .ok ps) :
    ∃ qs, Res.mapM' Kpoints.parseLinePoint s = .ok qs ∧ qs.flatten.length = ps.flatten.length + s.count [] ∧
      ([] ∈ s → (⟨[], some 1, true⟩ : Kpoints.Kpoint) ∈ qs.flatten) := by
  induction h generalizing ps with
  | nil => cases hp; exact ⟨[], rfl, rfl, by simp⟩
  | cons h1 _ ih =>
    rename_i x y xs ys hxs
    rw [Res.mapM'_eq_ok] at hp
    cases hp with
    | cons h3 h4 =>
      rename_i a as
      obtain ⟨qs, hq, hlen, hmem⟩ := ih (fun hm => hr (by simp [hm])) (Res.mapM'_eq_ok.2 h4)
      have hq' := Res.mapM'_eq_ok.1 hq
      have hy2 : y ≠ ['\n'] := fun hy => h1.1 (by simp [hy])
      by_cases hy : y = []
      · subst hy
        have hx : x = ['\n'] := by
          rcases h1.2 with h2 | h2
          · exact absurd (by simp [h2]) hr
          · simpa using h2
        subst hx
        cases h3
        refine ⟨[⟨[], some 1, true⟩] :: qs, Res.mapM'_eq_ok.2 (.cons rfl hq'), ?_, fun _ => by simp⟩
        simp only [List.flatten_cons, List.length_append, List.length_cons, List.length_nil, List.count_cons_self, hlen]
        omega
      · have : Kpoints.parseLinePoint y = .ok a := by
          rw [← h3]
          unfold Kpoints.parseLinePoint
          rw [h1.words, if_neg hy2, if_neg]
          rcases h1.2 with h2 | h2
          · rw [h2]; exact hy2
          · rw [h2]; intro h3; exact hy (by simpa using h3)
        refine ⟨a :: qs, Res.mapM'_eq_ok.2 (.cons this hq'), ?_, fun hm => ?_⟩
        · rw [List.flatten_cons, List.flatten_cons, List.length_append, List.length_append, hlen, List.count_cons_of_ne hy]
          omega
        · simp only [List.mem_cons] at hm
          rcases hm with hm | hm
          · exact absurd hm.symm hy
          · simp [hmem hm]

theorem parse_line {a b l : Str} {c : Char} (rest : List Str) (h2 : (strip l)[0]? = some c) (h3 : lowerC c = 'l') :
    Kpoints.parse (a :: b :: l :: rest) = (Kpoints.idx (words b) 0 >>= fun w => Kpoints.toInt w >>= fun num =>
      Kpoints.parseLineMode (a :: b :: l :: rest) { comment := strip (a.filter (· != '#')), num := num, mode := c!"line" }) := by
  have e0 : Kpoints.idx (a :: b :: l :: rest) 0 = .ok a := rfl
  have e1 : Kpoints.idx (a :: b :: l :: rest) 1 = .ok b := rfl
  have e2 : Kpoints.idx (a :: b :: l :: rest) 2 = .ok l := rfl
  have e3 : Kpoints.idx (strip l) 0 = .ok c := by unfold Kpoints.idx; rw [h2]
  unfold Kpoints.parse
  rw [e0, Res.ok_bind, e1, Res.ok_bind]
  congr 1; funext w; congr 1; funext num
  rw [e2, Res.ok_bind, e3, Res.ok_bind]
  simp only [h3, decide_true, Bool.not_true, Bool.and_false, Bool.false_eq_true, if_false, if_true, Res.ok_bind]
  split
  · unfold Kpoints.parseAutomatic
    rw [h3]
    simp
  · rfl

theorem parse_take {s : List Str} (hl : ∃ l c, s[2]? = some l ∧ (strip l)[0]? = some c ∧ lowerC c = 'l') :
    Kpoints.parse s = (Kpoints.parse (s.take 4) >>= fun p => Res.mapM' Kpoints.parseLinePoint (s.drop 4) >>= fun pss =>
      .ok { p with points := some pss.flatten }) := by
  obtain ⟨l, c, h1, h2, h3⟩ := hl
  match s, h1 with
  | [a, b, l'], h1 =>
    cases h1
    rw [show List.take 4 [a, b, l] = [a, b, l] from rfl, parse_line _ h2 h3]
    cases Kpoints.idx (words b) 0 with
    | ok w => 
      rw [Res.ok_bind]
      cases Kpoints.toInt w <;> rfl
    | exit => rfl
    | raise => rfl
  | a :: b :: l' :: d :: rest, h1 =>
    cases h1
    rw [show List.take 4 (a :: b :: l :: d :: rest) = [a, b, l, d] from rfl, parse_line _ h2 h3, parse_line _ h2 h3]
    cases Kpoints.idx (words b) 0 with
    | ok w => 
      rw [Res.ok_bind, Res.ok_bind]
      cases Kpoints.toInt w with
      | ok n =>
        rw [Res.ok_bind, Res.ok_bind]
        unfold Kpoints.parseLineMode
        rw [show Kpoints.idx (a :: b :: l :: d :: rest) 3 = .ok d from rfl, show Kpoints.idx [a, b, l, d] 3 = .ok d from rfl, Res.ok_bind, Res.ok_bind]
        cases Kpoints.idx (words d) 0 with
        | ok w2 =>
          rw [Res.ok_bind, Res.ok_bind]
          cases Kpoints.idx w2 0 with
          | ok c2 =>
            rw [Res.ok_bind, Res.ok_bind]
            split
            · rfl
            · rfl
          | exit => rfl
          | raise => rfl
        | exit => rfl
        | raise => rfl
      | exit => rfl
      | raise => rfl
    | exit => rfl
    | raise => rfl

/-- What is known of an object read in line mode. -/
theorem parse_line_ok {s : List Str} (hl : ∃ l c, s[2]? = some l ∧ (strip l)[0]? = some c ∧ lowerC c = 'l') {p : Kpoints.Parsed}
    (hp : Kpoints.parse s = .ok p) : ∃ cm n ps, p = { comment := cm, num := n, mode := c!"line", points := some ps } := by
  obtain ⟨l, c, h1, h2, h3⟩ := hl
  match s, h1 with
  | a :: b :: l' :: rest, h1 =>
    cases h1
    rw [parse_line _ h2 h3] at hp
    obtain ⟨w, hw, hp⟩ := Res.bind_eq_ok.1 hp
    obtain ⟨n, hn, hp⟩ := Res.bind_eq_ok.1 hp
    unfold Kpoints.parseLineMode at hp
    obtain ⟨x, hx, hp⟩ := Res.bind_eq_ok.1 hp
    obtain ⟨x, hx, hp⟩ := Res.bind_eq_ok.1 hp
    obtain ⟨x, hx, hp⟩ := Res.bind_eq_ok.1 hp
    split at hp
    · obtain ⟨ps, hps, hp⟩ := Res.bind_eq_ok.1 hp
      cases hp
      exact ⟨_, _, _, rfl⟩
    · cases hp

/-- C115 is false in line mode: every text (in which the line breaks are newlines) that is accepted from a file and has empty lines between or
behind its points is accepted from a string as well, but each empty line is a further point, without coordinates. -/
theorem C115_violation (t : Str) (h : Plain t) (hl : IsLineMode t) (hb : [] ∈ (splitlines t).drop 4) (e : Kpoints.Entries)
    (hf : Kpoints.init { path := some (some t) } = .ok e) :
    ∃ e' ps qs, Kpoints.init { string := some t } = .ok e' ∧ e.get? c!"points" = some (Kpoints.atomsVal .point ps) ∧
      e'.get? c!"points" = some (Kpoints.atomsVal .point qs) ∧ qs.length = ps.length + ((splitlines t).drop 4).count [] ∧
      (⟨[], some 1, true⟩ : Kpoints.Kpoint) ∈ qs := by
  have hs := Incar.readlines_splitlines t h
  rw [kpoints_init_file] at hf
  rw [kpoints_init_string]
  obtain ⟨p, hp, hf⟩ := Res.bind_eq_ok.1 hf
  obtain ⟨u, hv, hf⟩ := Res.bind_eq_ok.1 hf
  cases hf
  have hs2 : List.Forall₂ SameLine ((readlines t).take 4) ((splitlines t).take 4) := List.forall₂_take 4 hs
  have hs3 : List.Forall₂ SameLine ((readlines t).drop 4) ((splitlines t).drop 4) := List.forall₂_drop 4 hs
  have hlr : ∃ l c, (readlines t)[2]? = some l ∧ (strip l)[0]? = some c ∧ lowerC c = 'l' := by
    obtain ⟨l, c, h1, h2⟩ := hl
    have h3 := List.forall₂_iff_get.1 hs
    obtain ⟨hlt, hg⟩ := List.getElem?_eq_some_iff.1 h1
    have hlt' : 2 < (readlines t).length := by rw [hs.length_eq]; exact hlt
    have h4 : SameLine (readlines t)[2] (splitlines t)[2] := h3.2 2 hlt' hlt
    rw [hg] at h4
    exact ⟨(readlines t)[2], c, List.getElem?_eq_getElem hlt', by rw [h4.strip]; exact h2.1, h2.2⟩
  have hp0 := hp
  rw [parse_take hlr] at hp
  obtain ⟨p4, hp4, hp⟩ := Res.bind_eq_ok.1 hp
  obtain ⟨ps, hps, hp⟩ := Res.bind_eq_ok.1 hp
  obtain ⟨qs, hq, hlen, hmem⟩ := linePoints_more hs3 (fun hm => Eigenval.readlines_ne_nil (List.mem_of_mem_drop hm) rfl) hps
  have h4 : Kpoints.parse ((splitlines t).take 4) = .ok p4 := by
    rw [← parse_same hs2 (fun _ => by simp)]; exact hp4
  have hq4 : Kpoints.parse (splitlines t) = .ok { p4 with points := some qs.flatten } := by
    rw [parse_take hl, h4, Res.ok_bind, hq]; rfl
  cases hp
  obtain ⟨cm, n, qq, hqq⟩ := parse_line_ok hl hq4
  have hvq : Kpoints.validate (Kpoints.Parsed.toEntries { p4 with points := some qs.flatten }) = .ok () := by
    refine Kpoints.validate_holds (Kpoints.holds_toEntries _) ?_
    rw [hqq]
    exact ⟨.inr (.inl (by simp)), by simp, by simp, .inr (.inr rfl)⟩
  rw [hq4, Res.ok_bind, hvq]
  exact ⟨_, ps.flatten, qs.flatten, rfl, rfl, rfl, hlen, hmem hb⟩

/-- The hypotheses are met by a path as VASP's documentation writes it, with an empty line between two segments. -/
example : let t := c!"path\n20\nLine\nrec\n0 0 0\n0.5 0 0\n\n0.5 0 0\n0.5 0.5 0\n"
    Plain t ∧ IsLineMode t ∧ [] ∈ (splitlines t).drop 4 ∧ (Kpoints.init { path := some (some t) }).isOk = true :=
  ⟨by unfold Plain; decide +kernel, ⟨c!"Line", 'L', by decide +kernel, by decide +kernel, by decide +kernel⟩, by decide +kernel, by decide +kernel⟩

/-- C115 is false for other line breaks: a form feed in the comment is part of the comment in a file and ends the line in a string. -/
theorem C115_violation_breaks :
    (∃ t : Str, (Kpoints.init { path := some (some t) }).isOk = true ∧ (Kpoints.init { string := some t }).isOk = false) ∧
    ∃ t : Str, (Poscar.init { path := some (some t) }).isOk = true ∧ (Poscar.init { string := some t }).isOk = false :=
  ⟨⟨c!"a" ++ [Char.ofNat 12] ++ c!"b\n0\nG\n1 2 3\n", by decide +kernel, by decide +kernel⟩,
   ⟨c!"a" ++ [Char.ofNat 12] ++ c!"b\n1.0\n1 0 0\n0 1 0\n0 0 1\nSi\n1\nDirect\n0 0 0\n", by decide +kernel, by decide +kernel⟩⟩

/-- The hypothesis of `C115_poscar_partial` is met by a POSCAR that is accepted. -/
example : Plain c!"a\n1.0\n1 0 0\n0 1 0\n0 0 1\nSi\n1\nDirect\n0 0 0\n" ∧
    (Poscar.init { string := some c!"a\n1.0\n1 0 0\n0 1 0\n0 0 1\nSi\n1\nDirect\n0 0 0\n" }).isOk = true :=
  ⟨by unfold Plain; decide +kernel, by decide +kernel⟩

end Verif.Sources
