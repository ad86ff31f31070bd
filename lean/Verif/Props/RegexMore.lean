import Verif.Lemmas.RegexSearch
import Verif.Props.Regex
import Verif.Props.Utils
import Verif.Lemmas.Words
import Verif.Lemmas.Incar
import Verif.Model.StreamRegex
/-! # C154: the marks of a POTCAR, the timings of an OUTCAR, and the engine itself -/
set_option autoImplicit false
namespace Verif.Regex
open Verif Verif.Utils
open Verif.Outcar (cut)
open Verif.Incar (splitP_snoc snocLast)
open Verif.Chgcar (FirstAt cut_some cut_none)

/-- C154, the engine: its ways are exactly the decompositions of the text the pieces allow. -/
theorem C154_engine (r : List Piece) (s : Str) (ms : List Str) (t : Str) : (ms, t) ∈ run r s ↔ s = ms.flatten ++ t ∧ FitsAll r ms t := mem_run r s ms t

/-! ### POTCAR: the marks -/

/-- potcar.py:133-137 `(?s)(parameters from PSCTR are:.*?END of PSCTR-controll parameters)`. -/
def regionPattern : List Piece := lits Potcar.startMark ++ .lazy (fun _ => true) :: lits Potcar.endMark

theorem dropPrefix_eq (p s : Str) : dropPrefix? p s = if startsWith p s then some (s.drop p.length) else none := by
  induction p generalizing s with
  | nil => cases s <;> rfl
  | cons a p ih =>
    cases s with
    | nil => rfl
    | cons b s =>
      rw [dropPrefix?, startsWith]
      by_cases h : a = b
      · simp [h, ih]
      · simp [h]

theorem first_lits' (l s : Str) : first (lits l) s = if startsWith l s then some (l.map (fun c => [c]), s.drop l.length) else none := by
  have := first_lits l [] s
  rw [List.append_nil] at this
  rw [this, dropPrefix_eq]
  split
  · simp [first_nil]
  · rfl

theorem first_lazy_cut (p : Str) (hp : p ≠ []) (s : Str) : first (.lazy (fun _ => true) :: lits p) s = match cut p s with
    | (m, some b) => some (m :: p.map (fun c => [c]), b)
    | (_, none) => none := by
  induction s with
  | nil =>
    rw [first_lazy_stop _ (by simp), first_lits', if_neg]; · rfl
    rw [startsWith_iff]; simpa using hp
  | cons c cs ih =>
    rw [first_lazy_take _ _ rfl, ih, first_lits', cut]
    split
    · rfl
    · rcases h : cut p cs with ⟨m, _ | b⟩ <;> rfl

theorem first_region (s : Str) : first regionPattern s = (dropPrefix? Potcar.startMark s).bind fun t => match cut Potcar.endMark t with
    | (m, some b) => some (Potcar.startMark.map (fun c => [c]) ++ m :: Potcar.endMark.map (fun c => [c]), b)
    | (_, none) => none := by
  unfold regionPattern
  rw [first_lits]
  congr 1
  funext t
  rw [first_lazy_cut _ (by decide)]
  rcases h : cut Potcar.endMark t with ⟨m, _ | b⟩ <;> rfl

/-- Without the second mark behind the first, there is no match further on. -/
theorem search_region_none {r s : Str} (hs : ¬ Potcar.endMark <:+: r) (h : ∀ a t, s = a ++ (Potcar.startMark ++ t) → t <:+ r) : search regionPattern s = none := by
  rw [← Option.not_isSome_iff_eq_none, search_isSome]
  rintro ⟨a, b, rfl, hb⟩
  rw [first_region, dropPrefix_eq] at hb
  split at hb
  · rename_i hp
    rw [startsWith_iff] at hp
    obtain ⟨t, rfl⟩ := hp
    simp only [Option.bind_some, List.drop_left] at hb
    rcases hc : cut Potcar.endMark t with ⟨m, _ | x⟩
    · rw [hc] at hb; cases hb
    · have hf := ((cut_some (by decide)).1 hc).1
      apply hs
      exact List.IsInfix.trans ⟨m, x, hf.symm⟩ (h a t rfl).isInfix
  · cases hb

theorem region_search (s : Str) : Potcar.region s = match search regionPattern s with
    | some y => .ok y.2.1.flatten
    | none => .raise .attributeError := by
  have hreg : ∀ s : Str, Potcar.region s = match cut Potcar.startMark s with
      | (_, some r) => (match cut Potcar.endMark r with
        | (m, some _) => .ok (Potcar.startMark ++ m ++ Potcar.endMark)
        | (_, none) => .raise .attributeError)
      | (_, none) => .raise .attributeError := by
    intro s
    unfold Potcar.region
    rcases h1 : cut Potcar.startMark s with ⟨a, _ | r⟩
    · rw [show cut c!"parameters from PSCTR are:" s = (a, none) from h1]
    · rw [show cut c!"parameters from PSCTR are:" s = (a, some r) from h1]
      dsimp only
      rcases h2 : cut Potcar.endMark r with ⟨m, _ | b⟩
      · rw [show cut c!"END of PSCTR-controll parameters" r = (m, none) from h2]
      · rw [show cut c!"END of PSCTR-controll parameters" r = (m, some b) from h2]; rfl
  induction s with
  | nil => rfl
  | cons c cs ih =>
    rw [hreg, search, first_region, dropPrefix_eq, cut]
    by_cases hp : startsWith Potcar.startMark (c :: cs) = true
    · simp only [hp, if_true, Option.bind_some]
      rcases h2 : cut Potcar.endMark ((c :: cs).drop Potcar.startMark.length) with ⟨m, _ | b⟩
      · have hn := ((cut_none (by decide)).1 h2).2
        have : search regionPattern cs = none := by
          refine search_region_none hn fun a t e => ?_
          rw [e]
          have : (c :: (a ++ (Potcar.startMark ++ t))) = (c :: a ++ Potcar.startMark) ++ t := by simp
          rw [this, List.drop_append]
          have hl : Potcar.startMark.length - (c :: a ++ Potcar.startMark).length = 0 := by simp; omega
          rw [hl, List.drop_zero]
          exact ⟨_, rfl⟩
        rw [this]
        rfl
      · simp [flatten_singles]
    · have hp' : startsWith Potcar.startMark (c :: cs) = false := by simpa using hp
      simp only [hp', Bool.false_eq_true, if_false, Option.bind_none]
      rw [hreg] at ih
      rcases h1 : cut Potcar.startMark cs with ⟨a, _ | r⟩
      · rw [h1] at ih
        dsimp only at ih ⊢
        rw [ih]
        cases search regionPattern cs <;> rfl
      · rw [h1] at ih
        dsimp only at ih ⊢
        rw [ih]
        cases search regionPattern cs <;> rfl

/-- C154, the part of a POTCAR that is read: the leftmost match, `None.group` if there is none. -/
theorem C154_region (s : Str) : Potcar.region s = match search regionPattern s with
    | some y => .ok y.2.1.flatten
    | none => .raise .attributeError := region_search s

/-! ### OUTCAR: the timings -/

theorem search_lits (p s : Str) : (search (lits p) s).isSome = contains p s := by
  induction s with
  | nil =>
    rw [search, Option.isSome_map, first_lits', contains]
    cases startsWith p [] <;> rfl
  | cons c cs ih =>
    rw [search, first_lits', contains]
    cases h : startsWith p (c :: cs) with
    | true => simp
    | false => simp [ih]

/-- C154, lines with a time or a size: a match of `\((sec|kb)\)`, that is of one of its two alternatives. -/
theorem C154_time_line (s : Str) : Outcar.isTimeLine s = ((search (lits c!"(sec)") s).isSome || (search (lits c!"(kb)") s).isSome) := by
  rw [search_lits, search_lits]; rfl

/-- `$` without `MULTILINE`. -/
def dollar (s : Str) : Bool := s == [] || s == ['\n']

/-- outcar.py:408 `:.*kBytes$`. -/
def memPattern : List Piece := .one (· == ':') :: .star dot :: (lits c!"kBytes" ++ [.ahead dollar])

/-- C154, lines with a size in kBytes, for a line of a text: no newline but at its end. -/
theorem C154_mem_line (l nl : Str) (hl : '\n' ∉ l) (hn : nl = [] ∨ nl = ['\n']) : Outcar.isMemLine (l ++ nl) = (search memPattern (l ++ nl)).isSome := by
  have hch : Outcar.chomp (l ++ nl) = l := by
    unfold Outcar.chomp
    rcases hn with rfl | rfl
    · rw [List.append_nil, if_neg]
      intro h; exact hl (List.mem_of_getLast? h)
    · simp
  rw [Bool.eq_iff_iff, search_isSome]
  unfold Outcar.isMemLine
  rw [hch]
  simp only [Bool.and_eq_true, startsWith_iff, List.reverse_prefix, List.contains_iff_mem]
  constructor
  · rintro ⟨⟨u, hu⟩, hc⟩
    have hlen : l.length = u.length + 6 := by rw [← hu]; simp
    have ht : l.take (l.length - 6) = u := by
      rw [hlen, ← hu]; simp
    rw [ht] at hc
    obtain ⟨a, b, hab⟩ := List.append_of_mem hc
    refine ⟨a, ':' :: (b ++ c!"kBytes" ++ nl), by rw [← hu, hab]; simp, ?_⟩
    rw [first_isSome]
    refine ⟨[':'] :: b :: (c!"kBytes".map (fun c => [c]) ++ [[]]), nl, by simp [flatten_singles], ?_⟩
    refine ⟨[':'], _, rfl, ⟨':', rfl, by simp⟩, b, _, rfl, ?_, ?_⟩
    · intro c hc
      unfold dot
      have : c ∈ l := by rw [← hu, hab]; simp [hc]
      simp only [bne_iff_ne, ne_eq]
      rintro rfl; exact hl this
    · rw [fitsAll_lits]
      refine ⟨[[]], rfl, [], [], rfl, ⟨rfl, ?_⟩, rfl⟩
      rcases hn with rfl | rfl <;> rfl
  · rintro ⟨a, b, hab, hb⟩
    obtain ⟨ms, t, rfl, h⟩ := first_isSome.1 hb
    obtain ⟨m, ms, rfl, ⟨c, rfl, hc⟩, b, ms, rfl, hd, h⟩ := h
    obtain ⟨ms, rfl, m, ms', rfl, ⟨rfl, hq⟩, hms⟩ := (fitsAll_lits _ _ _ _).1 h
    cases hms
    simp only [beq_iff_eq] at hc
    subst hc
    simp only [List.flatten_cons, List.flatten_append, flatten_singles, List.flatten_nil, List.append_nil, List.nil_append] at hab hq
    have e : l ++ nl = (a ++ ':' :: b ++ c!"kBytes") ++ t := by rw [hab]; simp
    have ht : t = nl ∧ l = a ++ ':' :: b ++ c!"kBytes" := by
      unfold dollar at hq
      simp only [Bool.or_eq_true, beq_iff_eq] at hq
      rcases hn with rfl | rfl <;> rcases hq with rfl | rfl
      · exact ⟨rfl, by simpa using e⟩
      · exfalso; apply hl; rw [List.append_nil] at e; rw [e]; simp
      · exfalso
        have e' : l ++ ['\n'] = (a ++ ':' :: b ++ c!"kByte") ++ ['s'] := by rw [e]; simp
        have := (List.append_inj' e' rfl).2
        exact absurd (List.cons.inj this).1 (by decide)
      · exact ⟨rfl, (List.append_inj' e rfl).1⟩
    refine ⟨⟨a ++ ':' :: b, ht.2.symm⟩, ?_⟩
    have : l.take (l.length - 6) = a ++ ':' :: b := by
      rw [ht.2]
      have : (a ++ ':' :: b ++ c!"kBytes").length - 6 = (a ++ ':' :: b).length := by rw [List.length_append]; rfl
      rw [this, List.take_left]
    rw [this]; simp

/-! ### splitting at runs -/

/-- `[: ]`. -/
def sep (c : Char) : Bool := c == ':' || c == ' '

/-- What follows the first piece. -/
def behind : List Str → List Str
  | [] => []
  | b :: r => (b :: r).dropLast.filter (fun w => !w.isEmpty) ++ [(b :: r).getLast (by simp)]

/-- The pieces of a text between the runs of characters of a class. -/
def runsOf (p : Char → Bool) (s : Str) : List Str := match splitP p s with
    | [] => []
    | a :: r => a :: behind r

theorem runs_eq (s : Str) : Outcar.splitRuns s = runsOf sep s := by
  unfold Outcar.splitRuns runsOf
  show (match splitP sep s with
    | [] => []
    | [a] => [a]
    | a :: b :: r => a :: ((b :: r).dropLast.filter (fun w : Str => !w.isEmpty) ++ [(b :: r).getLast (by simp)])) = _
  match splitP sep s with
  | [] => rfl
  | [a] => rfl
  | a :: b :: r => rfl

variable {p : Char → Bool}

theorem runs_take {c : Char} (cs : Str) (h : p c = false) : runsOf p (c :: cs) = consHead c (runsOf p cs) := by
  unfold runsOf
  rw [splitP, h]
  simp only [Bool.false_eq_true, if_false]
  have := splitP_ne_nil p cs
  generalize splitP p cs = l at this
  match l with
  | [] => exact absurd rfl this
  | a :: r => rfl

theorem behind_cons_nil (l : List Str) (h : l ≠ []) : behind ([] :: l) = behind l := by
  match l with
  | [] => exact absurd rfl h
  | b :: r => simp [behind, List.dropLast, List.getLast]

theorem behind_cons (a : Str) (l : List Str) (h : a ≠ []) : behind (a :: l) = a :: behind l := by
  match l with
  | [] => rfl
  | b :: r =>
    have : a.isEmpty = false := by cases a <;> simp_all
    simp [behind, List.dropLast, List.getLast, this]

theorem behind_runs (cs : Str) : behind (splitP p cs) = runsOf p (cs.dropWhile p) := by
  induction cs with
  | nil => rfl
  | cons d ds ih =>
    by_cases hd : p d = true
    · rw [List.dropWhile_cons_of_pos hd, ← ih, splitP, if_pos hd]
      exact behind_cons_nil _ (splitP_ne_nil p ds)
    · rw [List.dropWhile_cons_of_neg hd]
      unfold runsOf
      rw [splitP, if_neg hd]
      have hne := splitP_ne_nil p ds
      generalize splitP p ds = l at hne
      match l with
      | [] => exact absurd rfl hne
      | a :: r => exact behind_cons _ _ (by simp)

theorem runs_sep {c : Char} (cs : Str) (h : p c = true) : runsOf p (c :: cs) = [] :: runsOf p (cs.dropWhile p) := by
  rw [← behind_runs cs]
  conv_lhs => unfold runsOf
  rw [splitP, if_pos h]

theorem spanP_snd (p : Char → Bool) (s : Str) : (spanP p s).2 = s.dropWhile p := by
  induction s with
  | nil => rfl
  | cons c cs ih =>
    rw [spanP]
    by_cases h : p c = true
    · rw [if_pos h, List.dropWhile_cons_of_pos h]; exact ih
    · rw [if_neg h, List.dropWhile_cons_of_neg h]

theorem split_runs (p : Char → Bool) (s : Str) : Split [.one p, .star p] s (runsOf p s) := by
  have : ∀ n, ∀ s : Str, s.length ≤ n → Split [.one p, .star p] s (runsOf p s) := by
    intro n
    induction n with
    | zero =>
      intro s hs
      have : s = [] := List.length_eq_zero_iff.1 (by omega)
      subst this
      exact .done rfl
    | succ n ih =>
      intro s hs
      cases s with
      | nil => exact .done rfl
      | cons c cs =>
        simp only [List.length_cons] at hs
        by_cases hc : p c = true
        · rw [runs_sep cs hc]
          have hf : first [.one p, .star p] (c :: cs) = some ([[c], (spanP p cs).1], cs.dropWhile p) := by
            rw [first_plus]
            simp only [spanP, hc, if_true, spanP_snd]
          have hlen : (cs.dropWhile p).length ≤ cs.length := (List.dropWhile_suffix _).length_le
          exact .next (pre := []) (by rw [search, hf]) (ih _ (by omega))
        · have hc' : p c = false := by simpa using hc
          rw [runs_take cs hc']
          refine Split.cons ?_ (ih cs (by omega))
          rw [first_one_cons, if_neg hc]
  exact this _ s le_rfl

/-- outcar.py:420 `[: ]+`. -/
def runPattern : List Piece := [.one sep, .star sep]

/-- C154, the pieces of a memory line: the text is split at the matches of `[: ]+`. -/
theorem C154_runs (s : Str) : Split runPattern s (Outcar.splitRuns s) := by
  rw [runs_eq]; exact split_runs sep s

/-- potcar.py:131 `\s+`. -/
def spacePattern : List Piece := [.one isSpace, .star isSpace]

theorem runs_words (s : Str) (hs : Stripped s) (hne : s ≠ []) : runsOf isSpace s = words s := by
  unfold runsOf words
  obtain ⟨hh, hl⟩ := hs
  have hlast : ∃ l w, splitP isSpace s = l ++ [w] ∧ w ≠ [] := by
    rcases List.eq_nil_or_concat s with rfl | ⟨u, c, rfl⟩
    · exact absurd rfl hne
    · rw [List.concat_eq_append] at hl ⊢
      rw [splitP_snoc _ _ _ (hl c (by simp))]
      have : ∀ l : List Str, l ≠ [] → ∃ l' w, snocLast c l = l' ++ [w] ∧ w ≠ [] := by
        intro l
        induction l with
        | nil => intro h; exact absurd rfl h
        | cons a l ih =>
          intro _
          cases l with
          | nil => exact ⟨[], a ++ [c], rfl, by simp⟩
          | cons b r =>
            obtain ⟨l', w, h1, h2⟩ := ih (by simp)
            exact ⟨a :: l', w, by rw [snocLast, h1]; rfl, h2⟩
      exact this _ (splitP_ne_nil _ _)
  have hfirst : ∃ a r, splitP isSpace s = a :: r ∧ a ≠ [] := by
    cases s with
    | nil => exact absurd rfl hne
    | cons c cs =>
      have hc := hh c rfl
      rw [splitP, if_neg (by simp [hc])]
      have hn := splitP_ne_nil isSpace cs
      generalize splitP isSpace cs = l at hn
      match l with
      | [] => exact absurd rfl hn
      | a :: r => exact ⟨c :: a, r, rfl, by simp⟩
  obtain ⟨a, r, h1, ha⟩ := hfirst
  obtain ⟨l, w, h2, hw⟩ := hlast
  have hae : a.isEmpty = false := by cases a <;> simp_all
  have hwe : w.isEmpty = false := by cases w <;> simp_all
  rw [h1]
  dsimp only
  rw [List.filter_cons]
  simp only [hae, Bool.not_false, if_true]
  congr 1
  cases r with
  | nil => rfl
  | cons b r =>
    rw [h1] at h2
    have hl : l ≠ [] := by
      rintro rfl
      simp at h2
    obtain ⟨x, l', rfl⟩ := List.exists_cons_of_ne_nil hl
    simp only [List.cons_append, List.cons.injEq] at h2
    rw [h2.2]
    have : behind (l' ++ [w]) = (l' ++ [w]).dropLast.filter (fun w : Str => !w.isEmpty) ++ [(l' ++ [w]).getLast (by simp)] := by
      cases l' <;> rfl
    rw [this]
    simp [hwe]

/-- C154, the numbers of `STEP` in a POTCAR: the pieces of `re.split(r'\s+', val.strip())` are the words of the value, unless it is blank (then there is one empty piece). -/
theorem C154_words (v : Str) : (words v ≠ [] → Split spacePattern (strip v) (words v)) ∧ (words v = [] → Split spacePattern (strip v) [[]]) := by
  constructor
  · intro h
    have hne : strip v ≠ [] := by
      intro h'; rw [← words_strip, h'] at h; exact h rfl
    rw [← words_strip v, ← runs_words _ (strip_stripped v) hne]
    exact split_runs isSpace _
  · intro h
    have : strip v = [] := by
      rw [strip_eq_nil_iff]; exact h
    rw [this]
    exact .done rfl

/-! ### stream.yml -/

/-- The pattern of ordinary characters and dots. -/
def dotPattern (ps : List Char) : List Piece := ps.map fun c => if c = '.' then .one dot else .one (· == c)

theorem first_dots (ps : List Char) (s : Str) : (first (dotPattern ps) s).isSome = Stream.fitsHere ps s := by
  induction ps generalizing s with
  | nil => cases s <;> rfl
  | cons p ps ih =>
    have e : dotPattern (p :: ps) = .one (if p = '.' then dot else (· == p)) :: dotPattern ps := by
      unfold dotPattern
      rw [List.map_cons]
      congr 1
      split <;> rfl
    rw [e]
    cases s with
    | nil => rw [first_one_nil]; rfl
    | cons c cs =>
      rw [first_one_cons, Stream.fitsHere, ← ih]
      have : (if p = '.' then dot else (· == p)) c = Stream.charFits p c := by
        unfold Stream.charFits dot
        by_cases hp : p = '.'
        · simp only [hp, if_true]
          by_cases hc : c = '\n' <;> simp [hc]
        · simp only [hp, if_false]
          by_cases hc : c = p
          · subst hc; simp
          · have : p ≠ c := fun h => hc h.symm
            simp [hc, this]
      rw [this]
      cases Stream.charFits p c with
      | false => rfl
      | true => simp

/-- C154, the triggers of stream.yml: `search` finds a match exactly if the engine does. -/
theorem C154_triggers (ps : List Char) (s : Str) : Stream.fits ps s = (search (dotPattern ps) s).isSome := by
  induction s with
  | nil => rw [Stream.fits, search, Option.isSome_map, first_dots]
  | cons c cs ih =>
    rw [Stream.fits, search, ih, ← first_dots]
    cases h : first (dotPattern ps) (c :: cs) with
    | some y => simp
    | none => simp

/-! ### examples -/

example : (first (paramPattern c!"NKPTS") c!"   NKPTS =  -12 a").map (lastGroup 2) = some c!"-12" := by decide +kernel
example : (search iterPattern c!" -- Iteration   2(  13) --").map (fun y => iterGroups y.2) = some (2, 13) := by decide +kernel
/-- The key may contain an equality sign: the last one of the word counts. -/
example : (first entryPattern c!"A=B=C D;").map (fun y => entryGroups y.1) = some (c!"A=B", c!"C D") := by decide +kernel
/-- A value behind nothing but white space is taken from the next line. -/
example : (first entryPattern c!"A =\n B = 3\n").map (fun y => entryGroups y.1) = some (c!"A", c!"B = 3") := by decide +kernel

end Verif.Regex
