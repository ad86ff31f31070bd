import Verif.Model.Vasprun
import Verif.Props.Eigenval
import Verif.Props.IncarWrite
import Verif.Lemmas.Exits
import Verif.Props.Potcar
import Verif.Props.PoscarHeader
/-! # vasprun.xml: truncation, parsing mode, sources, version, status (C51, C52, C56, C59, C71) -/
set_option autoImplicit false
namespace Verif.Vasprun
open Verif Verif.Utils Verif.Xml
open Verif.Eigenval (flatten_readlines)

/-! ### specification -/

/-- The closing tag of the file. -/
def closing : Str := c!"</modeling>"

/-- `l` is the last line of `s` (with its line end, if it has one). -/
def LastLine (s l : Str) : Prop := l ≠ [] ∧ '\n' ∉ l.dropLast ∧ ∃ a, s = a ++ l ∧ (a = [] ∨ a.getLast? = some '\n')

/-- The last `n` characters. -/
def lastChars (n : Nat) (s : Str) : Str := s.drop (s.length - n)

/-! ### last lines -/

theorem LastLine.unique {s l l' : Str} (h : LastLine s l) (h' : LastLine s l') : l = l' := by
  have key : ∀ {s l l' : Str}, LastLine s l → LastLine s l' → l.length ≤ l'.length → l = l' := by
    rintro s l l' ⟨hl, _, a, rfl, ha⟩ ⟨hl', hn', a', e, ha'⟩ hlen
    obtain ⟨m, rfl⟩ : ∃ m, l' = m ++ l := List.suffix_of_suffix_length_le (l₃ := a ++ l) ⟨a, rfl⟩ ⟨a', e.symm⟩ hlen |>.imp fun _ h => h.symm
    rw [← List.append_assoc] at e
    have e := List.append_cancel_right e
    cases hm : m.getLast? with
    | none => rw [List.getLast?_eq_none_iff.1 hm]; rfl
    | some c =>
      have hc : c = '\n' := by
        rw [e, List.getLast?_append, hm] at ha
        rcases ha with ha | ha
        · simp at ha; rw [ha.2] at hm; cases hm
        · simpa using ha
      exfalso; apply hn'
      rw [List.dropLast_append_of_ne_nil hl]
      exact List.mem_append_left _ (List.mem_of_getLast? (hc ▸ hm))
  rcases Nat.le_total l.length l'.length with hle | hle
  · exact key h h' hle
  · exact (key h' h hle).symm

theorem LastLine.of_readlines {s l : Str} (h : (readlines s).getLast? = some l) : LastLine s l := by
  induction hn : s.length using Nat.strong_induction_on generalizing s with
  | _ n ih =>
    by_cases hm : '\n' ∈ s
    · obtain ⟨a, b, rfl, ha⟩ := List.eq_append_cons_of_mem hm
      rw [readlines_line_append b ha] at h
      cases hb : readlines b with
      | nil =>
        rw [hb] at h
        have hb : b = [] := by rw [← flatten_readlines b, hb]; rfl
        subst hb
        simp at h; subst h
        exact ⟨by simp, by simpa using ha, [], by simp, .inl rfl⟩
      | cons y ys =>
        rw [hb, List.getLast?_cons_cons, ← hb] at h
        obtain ⟨h1, h2, a', e, h3⟩ := ih b.length (by subst hn; simp; omega) h rfl
        refine ⟨h1, h2, a ++ '\n' :: a', by rw [e]; simp, .inr ?_⟩
        rcases h3 with h3 | h3
        · subst h3; simp
        · simp [List.getLast?_append, List.getLast?_cons, h3]
    · cases s with
      | nil => simp [readlines] at h
      | cons x xs =>
        rw [readlines_noeol hm (by simp)] at h
        simp at h; subst h
        exact ⟨by simp, fun hh => hm (List.mem_of_mem_dropLast hh), [], rfl, .inl rfl⟩

theorem readlines_ne {s : Str} (h : s ≠ []) : readlines s ≠ [] := fun e => h (by rw [← flatten_readlines s, e]; rfl)

theorem readlines_last {s l : Str} : (readlines s).getLast? = some l ↔ LastLine s l := by
  refine ⟨.of_readlines, fun h => ?_⟩
  have hs : s ≠ [] := by obtain ⟨h1, _, a, rfl, _⟩ := h; simp [h1]
  cases hr : (readlines s).getLast? with
  | none => exact absurd (List.getLast?_eq_none_iff.1 hr) (readlines_ne hs)
  | some l' => rw [(LastLine.of_readlines hr).unique h]

theorem getLast?_drop_lt {α : Type} {l : List α} {n : Nat} (h : n < l.length) : (l.drop n).getLast? = l.getLast? := by
  rw [List.getLast?_drop]; simp; omega

/-- The last line of the last `n` characters. -/
theorem LastLine.lastChars {s l : Str} (h : LastLine s l) {n : Nat} (hn : 0 < n) : LastLine (lastChars n s) (lastChars n l) := by
  obtain ⟨h1, h2, a, rfl, h3⟩ := h
  have hl := List.length_pos_iff.2 h1
  unfold Verif.Vasprun.lastChars
  rw [List.length_append]
  by_cases hc : l.length ≤ n
  · have e : l.length - n = 0 := by omega
    rw [e, List.drop_zero]
    refine ⟨h1, h2, a.drop (a.length + l.length - n), by rw [List.drop_append_of_le_length (by omega)], ?_⟩
    by_cases hh : a.length + l.length - n < a.length
    · rcases h3 with rfl | h3
      · simp
      · exact .inr (by rw [getLast?_drop_lt hh, h3])
    · exact .inl (List.drop_eq_nil_iff.2 (by omega))
  · have e : (a ++ l).drop (a.length + l.length - n) = l.drop (l.length - n) := by
      rw [List.drop_append, List.drop_eq_nil_of_le (by omega)]
      simp; congr 1; omega
    rw [e]
    refine ⟨?_, ?_, [], rfl, .inl rfl⟩
    · intro hh; rw [List.drop_eq_nil_iff] at hh; omega
    · intro hh
      apply h2
      rw [List.dropLast_eq_take, List.take_drop] at hh
      have := List.mem_of_mem_drop hh
      have e2 : l.length - n + (l.length - (l.length - n) - 1) = l.length - 1 := by omega
      rw [List.length_drop, e2] at this
      rwa [List.dropLast_eq_take]

theorem drop_lastChars (n : Nat) (s : Str) : s.drop (s.length - n) = lastChars n s := rfl

theorem exists_lastLine {s : Str} (h : s ≠ []) : ∃ l, LastLine s l := by
  cases hr : (readlines s).getLast? with
  | none => exact absurd (List.getLast?_eq_none_iff.1 hr) (readlines_ne h)
  | some l => exact ⟨l, readlines_last.1 hr⟩

/-! ### C51 -/

/-- **C51**, for every file: it is taken as complete exactly if it has more than 1024 bytes and the closing tag stands in its last line, within the
last 1024 bytes of that line. -/
theorem C51_truncated (file : Str) :
    truncated file = false ↔ 1024 < file.length ∧ ∃ l, LastLine file l ∧ closing <:+: lastChars 1024 l := by
  unfold truncated
  by_cases h : file.length > 1024
  · rw [if_pos h]
    obtain ⟨l, hl⟩ := exists_lastLine (s := file) (by intro e; rw [e] at h; simp at h)
    have h1 : (readlines (file.drop (file.length - 1024))).getLast? = some (lastChars 1024 l) :=
      by rw [drop_lastChars]; exact readlines_last.2 (hl.lastChars (Nat.succ_pos 1023))
    rw [h1]
    simp only [Bool.not_eq_false', contains_iff]
    constructor
    · intro hc; exact ⟨h, l, hl, hc⟩
    · rintro ⟨_, l', hl', hc⟩; rw [hl.unique hl']; exact hc
  · rw [if_neg h]
    simp; omega

/-- C51, whatever the file is cut from and wherever: without closing tag it is reported as truncated. -/
theorem C51_cut (whole file : Str) (_ : file <+: whole) (h : ¬ closing <:+: file) : truncated file = true := by
  rw [← Bool.not_eq_false, C51_truncated]
  rintro ⟨_, l, ⟨_, _, a, rfl, _⟩, hc⟩
  exact h (hc.trans ((List.drop_suffix _ _).isInfix.trans (List.suffix_append a l).isInfix))

/-- C51, a run that is killed: cutting a file that ends with its only closing tag anywhere before the end of that tag is noticed. -/
theorem C51_crash (body tail : Str) (h1 : ∀ k < closing.length, ¬ closing <:+: body ++ closing.take k) (n : Nat) (hn : n < body.length + closing.length) :
    truncated ((body ++ closing ++ tail).take n) = true := by
  refine C51_cut (body ++ closing ++ tail) _ (List.take_prefix _ _) fun hc => ?_
  have e : (body ++ closing ++ tail).take n <+: body ++ closing.take (closing.length - 1) := by
    rw [List.append_assoc, List.take_append, List.take_append_of_le_length (by omega)]
    by_cases hb : n ≤ body.length
    · have : n - body.length = 0 := by omega
      rw [this]; simp
      exact (List.take_prefix _ _).trans (List.prefix_append _ _)
    · rw [List.take_of_length_le (by omega)]
      rw [List.prefix_append_right_inj]
      exact (List.take_prefix_take_left (by omega))
  exact h1 (closing.length - 1) (by decide) (hc.trans e.isInfix)

/-- C51, the other direction: a finished file, which ends with a line with the closing tag, is complete if it has more than 1024 bytes. -/
theorem C51_complete (body : Str) (hb : body = [] ∨ body.getLast? = some '\n') (hlen : 1024 < (body ++ closing ++ ['\n']).length) :
    truncated (body ++ closing ++ ['\n']) = false := by
  rw [C51_truncated]
  refine ⟨hlen, closing ++ ['\n'], ⟨by decide, by decide, body, by simp, hb⟩, ?_⟩
  exact ⟨[], ['\n'], by decide⟩

/-- C51: a complete file of at most 1024 bytes is reported as truncated all the same. -/
theorem C51_short (file : Str) (h : file.length ≤ 1024) : truncated file = true := by
  rw [← Bool.not_eq_false, C51_truncated]; omega

/-- The hypotheses of `C51_crash` and `C51_complete` are met by files with one closing tag. -/
example : truncated (List.replicate 1100 'a' ++ c!"\n</modeling>\n") = false ∧ truncated (List.replicate 1100 'a' ++ c!"\n</modeling") = true := by
  decide +kernel

/-! ### C52 -/

/-- **C52** for a path or a binary handler: the event driven parser is used exactly if it is asked for, or if the file has at least 500 MiB
and is complete. -/
theorem C52_mode (file : Str) (event : Bool) :
    ∃ tr reg, begin (some (.file file)) none event = .ok (file, tr, reg) ∧ begin none (some (.binary file)) event = .ok (file, tr, reg) ∧
      (reg = false ↔ event = true ∨ 500 * 1024 * 1024 ≤ file.length ∧ tr = false) ∧
      (tr = false ↔ 1024 < file.length ∧ ∃ l, LastLine file l ∧ closing <:+: lastChars 1024 l) := by
  refine ⟨truncated file, regular file.length (truncated file) event, rfl, rfl, ?_, C51_truncated file⟩
  unfold regular
  cases event <;> cases truncated file <;> simp

/-- C52: what decides is the size in bytes compared with 524288000. -/
theorem C52_size (size : Nat) (tr event : Bool) : regular size tr event = true ↔ event = false ∧ (size < 524288000 ∨ tr = true) := by
  unfold regular
  cases event <;> cases tr <;> simp

/-! ### C71 -/

/-- **C71** for the cases in which the sources are treated as the documentation says: without source exit 510, an empty path exit 16, a file and a
binary handler with the same content are read alike, and the handler is preferred. Missing: a missing file and a text handler, for which the claim is false (`C71_violation`). -/
theorem C71_sources_partial (event : Bool) :
    begin none none event = .exit 510 ∧ begin (some .empty) none event = .exit 16 ∧
    (∀ f, begin (some (.file f)) none event = begin none (some (.binary f)) event) ∧
    (∀ p h, begin p (some h) event = begin none (some h) event) ∧
    (∀ f, f.length ≤ 1024 → begin none (some (.text f)) event = begin none (some (.binary f)) event) := by
  refine ⟨rfl, rfl, fun f => rfl, fun p h => by cases h <;> rfl, fun f h => ?_⟩
  simp only [begin]
  rw [if_neg (by omega), C51_short f h]

/-- C71 is false: a missing file is an `AttributeError` (no exit code), and so is every larger file behind a text handler a `TypeError`. -/
theorem C71_violation (event : Bool) : begin (some .missing) none event = .raise .attributeError ∧
    ∀ f : Str, 1024 < f.length → begin none (some (.text f)) event = .raise .typeError :=
  ⟨rfl, fun f h => by simp only [begin]; rw [if_pos h]⟩

/-! ### C56 -/

/-- The three words for ionic steps. -/
def known : List Str := [c!"initial", c!"last", c!"all"]

/-- **C56** for the four quantities of ionic steps, if there is data: exit 507 exactly for the unknown words. Missing: objects without data, for which unknown words are not refused (`C56_violation`). -/
theorem C56_steps_partial (d : Steps) (status : Str) : getSteps (some d) status = .exit 507 ↔ status ∉ known := by
  simp only [getSteps, checkStatus]
  by_cases h : status ∈ [c!"initial", c!"last", c!"all"]
  · rw [if_pos h]
    simp only [Res.ok_bind]
    refine iff_of_false ?_ (not_not_intro h)
    have e1 : ∀ k, item d k ≠ .exit 507 := by
      intro k; unfold item; split <;> simp
    have e2 : maxKey d ≠ .exit 507 := by
      unfold maxKey; split <;> simp
    split_ifs with h1 h2
    · cases hi : item d 1 with
      | ok v => simp
      | exit c => intro hh; simp only [Res.exit_bind] at hh; injection hh with hh; exact e1 1 (hh ▸ hi)
      | raise e => simp
    · cases hm : maxKey d with
      | ok k =>
        simp only [Res.ok_bind]
        cases hi : item d k with
        | ok v => simp
        | exit c => intro hh; simp only [Res.exit_bind] at hh; injection hh with hh; exact e1 k (hh ▸ hi)
        | raise e => simp
      | exit c => intro hh; simp only [Res.exit_bind] at hh; injection hh with hh; exact e2 (hh ▸ hm)
      | raise e => simp
    · simp
  · rw [if_neg h]
    simp [known, h]

/-- C56 for the energies, if there are any: exit 507 only for unknown words; for these nothing but the check of the energy types comes before. Missing: objects without energies, for which unknown words are not refused (`C56_violation`). -/
theorem C56_energies_partial (d : Dict Nat Energies) (status : Str) (etype : Option (List Str)) (nosc : Bool) :
    (getEnergies (some d) status etype nosc = .exit 507 → status ∉ known) ∧
    (status ∉ known → getEnergies (some d) status etype nosc = .exit 507 ∨
      getEnergies (some d) status etype nosc = .raise .valueError ∧
      ∃ s ∈ etype.getD [c!"energy_extrapolated"], s ∉ [c!"energy_extrapolated", c!"energy_free", c!"energy_no_entropy"]) := by
  unfold getEnergies
  generalize etype.getD [c!"energy_extrapolated"] = names
  constructor
  · intro h hk
    have e1 : ∀ s, ExitsIn (fun _ => False) (eTypeOf s) := by intro s; unfold eTypeOf; exits
    have e2 : ∀ k, ExitsIn (fun _ => False) (item d k) := by intro k; unfold item; exits
    have e2' : ∀ (s : Energies) k, ExitsIn (fun _ => False) (item s.final k) := by intro s k; unfold item; exits
    have e2'' : ∀ (s : Energies) k, ExitsIn (fun _ => False) (item s.sc k) := by intro s k; unfold item; exits
    have e3 : ExitsIn (fun _ => False) (maxKey d) := by unfold maxKey; exits
    have e4 : ∀ e c s, ExitsIn (fun _ => False) (appendStep e nosc c s) := by
      intro e c s; unfold appendStep
      refine .bind (e2' s e) fun _ => .bind (e2'' s e) fun _ => ?_
      exits
    have e5 : ∀ e (l : List (Nat × Energies)) c, ExitsIn (fun _ => False) (Res.foldlM' (fun c s => appendStep e nosc c s.2) c l) := by
      intro e l
      induction l with
      | nil => intro c; exact .ok _
      | cons x xs ih => intro c; exact .bind (e4 _ _ _) fun _ => ih _
    have e6 : ∀ e, ExitsIn (fun _ => False) (energyColumn d status nosc e) := by
      intro e; unfold energyColumn
      have := e5 e
      split_ifs
      · exact .bind (e2 _) fun _ => e4 _ _ _
      · exact .bind e3 fun _ => .bind (e2 _) fun _ => e4 _ _ _
      · exact this _ _
      · exact .ok _
    have e7 : ∀ es acc st, ExitsIn (fun _ => False) (energyTable d status nosc es acc st) := by
      intro es
      induction es with
      | nil => intro acc st; cases st <;> unfold energyTable <;> exits
      | cons e es ih => intro acc st; unfold energyTable; exact .bind (e6 _) fun _ => ih _ _
    have e8 : ExitsIn (fun _ => False) (checkStatus status) := by
      unfold checkStatus; rw [if_pos (by exact hk)]; exact .ok _
    exact (ExitsIn.bind (ExitsIn.mapM' e1 names) fun _ => ExitsIn.bind e8 fun _ => ExitsIn.bind (e7 _ _ _) fun _ => ExitsIn.ok _).of _ h
  · intro hs
    by_cases hn : ∃ s ∈ names, s ∉ [c!"energy_extrapolated", c!"energy_free", c!"energy_no_entropy"]
    · right
      refine ⟨?_, hn⟩
      have : Res.mapM' eTypeOf names = .raise .valueError := by
        induction names with
        | nil => obtain ⟨s, hs, _⟩ := hn; cases hs
        | cons x xs ih =>
          have hx : (∃ e, eTypeOf x = .ok e) ∨ eTypeOf x = .raise .valueError := by
            unfold eTypeOf; split_ifs <;> simp
          rw [Res.mapM']
          rcases hx with ⟨e, hx⟩ | hx
          · rw [hx, ih]
            obtain ⟨s, hm, h⟩ := hn
            rcases List.mem_cons.1 hm with rfl | hm
            · exfalso
              simp only [List.mem_cons, List.not_mem_nil, or_false, not_or] at h
              unfold eTypeOf at hx
              rw [if_neg h.1, if_neg h.2.1, if_neg h.2.2] at hx; cases hx
            · exact ⟨s, hm, h⟩
          · rw [hx]
      rw [this, Res.raise_bind]
    · left
      push Not at hn
      have : ∃ es, Res.mapM' eTypeOf names = .ok es := by
        induction names with
        | nil => exact ⟨[], rfl⟩
        | cons x xs ih =>
          obtain ⟨es, he⟩ := ih fun s h => hn s (List.mem_cons_of_mem _ h)
          have hx := hn x (List.mem_cons_self ..)
          have hx : ∃ e, eTypeOf x = .ok e := by
            simp only [List.mem_cons, List.not_mem_nil, or_false] at hx
            rcases hx with rfl | rfl | rfl <;> exact ⟨_, rfl⟩
          obtain ⟨e, hx⟩ := hx
          exact ⟨e :: es, by rw [Res.mapM', hx, he]⟩
      obtain ⟨es, he⟩ := this
      rw [he, Res.ok_bind]
      simp only [checkStatus]
      rw [if_neg (by exact hs), Res.exit_bind]

/-- C56 is false if the file has no such data: an unknown word is not noticed. -/
theorem C56_violation (status : Str) : getSteps none status = .ok .nothing ∧ getEnergies none status none false = .ok none := ⟨rfl, rfl⟩

/-- What an unsupported word is: there are data and words of both kinds. -/
example : getSteps (some [(1, none), (2, some [[1]])]) c!"last" = .ok (.one (some [[1]])) ∧ getEnergies (some []) c!"final" none false = .exit 507 := by
  decide +kernel

/-- The word 'final' of the documentation is not known. -/
example : getSteps (some [(1, none)]) c!"final" = .exit 507 := by decide +kernel

/-! ### C59 -/

/-- Three runs of digits joined by dots. -/
def IsVersion (r : Str) : Prop := ∃ a b c : Str, a ≠ [] ∧ b ≠ [] ∧ c ≠ [] ∧ (∀ x ∈ a, isDigit x = true) ∧ (∀ x ∈ b, isDigit x = true) ∧
  (∀ x ∈ c, isDigit x = true) ∧ r = a ++ '.' :: (b ++ '.' :: c)

/-- `r` is the first version in `v`, with all its digits: none begins before it and no digit follows. -/
def FirstVersion (v r : Str) : Prop := IsVersion r ∧ ∃ a b, v = a ++ r ++ b ∧ (∀ x, b.head? = some x → isDigit x = false) ∧
  ∀ i < a.length, ∀ r', IsVersion r' → ¬ r' <+: v.drop i

theorem dot_not_digit : isDigit '.' = false := by decide

theorem span_digits {a b : Str} (ha : ∀ x ∈ a, isDigit x = true) (hb : ∀ x, b.head? = some x → isDigit x = false) : spanP isDigit (a ++ b) = (a, b) :=
  Verif.Potcar.spanP_append ha hb

theorem digitsAt_some {s a b : Str} : digitsAt s = some (a, b) ↔ a ≠ [] ∧ s = a ++ b ∧ (∀ x ∈ a, isDigit x = true) ∧
    ∀ x, b.head? = some x → isDigit x = false := by
  unfold digitsAt
  have h := Verif.Potcar.spanP_split isDigit s
  constructor
  · intro hh
    simp only at hh
    split at hh
    · cases hh
    · rename_i hne
      injection hh with hh
      rw [hh] at h hne
      exact ⟨hne, h.1, h.2.1, h.2.2⟩
  · rintro ⟨h1, rfl, h3, h4⟩
    simp only [span_digits h3 h4]
    rw [if_neg h1]

theorem dotAt_some {s r : Str} : dotAt s = some r ↔ s = '.' :: r := by
  cases s with
  | nil => simp [dotAt]
  | cons c cs =>
    rw [dotAt]
    split
    · rename_i h; simp [h]
    · rename_i h; simp [h]

theorem versionAt_some {s r : Str} : versionAt s = some r ↔ IsVersion r ∧ ∃ b, s = r ++ b ∧ ∀ x, b.head? = some x → isDigit x = false := by
  unfold versionAt
  simp only [Option.bind_eq_some_iff, Prod.exists, digitsAt_some, dotAt_some, Option.some.injEq]
  constructor
  · rintro ⟨a, s1, ⟨ha, rfl, ha', _⟩, s2, rfl, b, s3, ⟨hb, rfl, hb', _⟩, s4, rfl, c, s5, ⟨hc, rfl, hc', h5⟩, rfl⟩
    exact ⟨⟨a, b, c, ha, hb, hc, ha', hb', hc', by simp⟩, s5, by simp, h5⟩
  · rintro ⟨⟨a, b, c, ha, hb, hc, ha', hb', hc', rfl⟩, e, rfl, he⟩
    refine ⟨a, '.' :: (b ++ '.' :: c ++ e), ⟨ha, by simp, ha', by simp [dot_not_digit]⟩, _, rfl, b, '.' :: (c ++ e),
      ⟨hb, by simp, hb', by simp [dot_not_digit]⟩, _, rfl, c, e, ⟨hc, rfl, hc', he⟩, by simp⟩

theorem exists_digits {s c : Str} (hs : s = c ++ s.drop c.length) (hc : c ≠ []) (hd : ∀ x ∈ c, isDigit x = true) :
    ∃ c' e, s = c' ++ e ∧ c' ≠ [] ∧ (∀ x ∈ c', isDigit x = true) ∧ ∀ x, e.head? = some x → isDigit x = false := by
  have h := Verif.Potcar.spanP_split isDigit s
  refine ⟨_, _, h.1, ?_, h.2.1, h.2.2⟩
  intro h0
  rw [h0, List.nil_append] at h
  cases c with
  | nil => exact hc rfl
  | cons x xs =>
    have := h.2.2 x (by rw [← h.1, hs]; rfl)
    rw [hd x (List.mem_cons_self ..)] at this; cases this

theorem versionAt_none {s : Str} : versionAt s = none ↔ ∀ r, IsVersion r → ¬ r <+: s := by
  constructor
  · rintro h r ⟨a, b, c, ha, hb, hc, ha', hb', hc', rfl⟩ ⟨e, rfl⟩
    obtain ⟨c', e', h1, h2, h3, h4⟩ := exists_digits (s := c ++ e) (c := c) (by simp) hc hc'
    have : versionAt (a ++ '.' :: (b ++ '.' :: c) ++ e) = some (a ++ '.' :: (b ++ '.' :: c')) :=
      versionAt_some.2 ⟨⟨a, b, c', ha, hb, h2, ha', hb', h3, rfl⟩, e', by simp [h1], h4⟩
    rw [h] at this; cases this
  · intro h
    cases hv : versionAt s with
    | none => rfl
    | some r =>
      obtain ⟨h1, b, rfl, _⟩ := versionAt_some.1 hv
      exact absurd (List.prefix_append r b) (h r h1)

theorem IsVersion.ne_nil {r : Str} (h : IsVersion r) : r ≠ [] := by
  obtain ⟨a, b, c, ha, _, _, _, _, _, rfl⟩ := h; simp

theorem versionIn_ok {v r : Str} : versionIn v = .ok r ↔ FirstVersion v r := by
  induction v with
  | nil =>
    constructor
    · intro h; cases h
    · rintro ⟨h, a, b, e, _⟩
      exact absurd (by simpa using e.symm : a = [] ∧ r = [] ∧ b = []).2.1 h.ne_nil
  | cons c cs ih =>
    rw [versionIn]
    cases hv : versionAt (c :: cs) with
    | some r' =>
      obtain ⟨h1, b, e, hb⟩ := versionAt_some.1 hv
      constructor
      · intro h
        injection h with h; subst h
        exact ⟨h1, [], b, by simpa using e, hb, by simp⟩
      · rintro ⟨h1', a, b', e', hb', h'⟩
        cases a with
        | nil =>
          have : versionAt (c :: cs) = some r := versionAt_some.2 ⟨h1', b', by simpa using e', hb'⟩
          rw [hv] at this; injection this with this; rw [this]
        | cons x xs => exact absurd ⟨b, e.symm⟩ (h' 0 (by simp) r' h1)
    | none =>
      simp only
      rw [ih]
      have hn := versionAt_none.1 hv
      constructor
      · rintro ⟨h1, a, b, e, hb, h⟩
        refine ⟨h1, c :: a, b, by rw [e]; simp, hb, fun i hi r' hr' => ?_⟩
        cases i with
        | zero => exact hn r' hr'
        | succ i => exact h i (by simpa using hi) r' hr'
      · rintro ⟨h1, a, b, e, hb, h⟩
        cases a with
        | nil => exact absurd ⟨b, by simpa using e.symm⟩ (hn r h1)
        | cons x xs =>
          simp only [List.cons_append, List.cons.injEq] at e
          exact ⟨h1, xs, b, e.2, hb, fun i hi r' hr' => h (i + 1) (by simpa using hi) r' hr'⟩

theorem versionIn_fails {v : Str} : (∀ r, versionIn v ≠ .ok r) ↔ versionIn v = .raise .attributeError := by
  induction v with
  | nil => simp [versionIn]
  | cons c cs ih =>
    rw [versionIn]
    cases versionAt (c :: cs) with
    | some r => simp
    | none => exact ih

theorem no_version {v : Str} : (∀ r, ¬ FirstVersion v r) ↔ ∀ r, IsVersion r → ¬ r <:+: v := by
  constructor
  · intro h
    replace h : ∀ r, versionIn v ≠ .ok r := fun r hr => h r (versionIn_ok.1 hr)
    induction v with
    | nil =>
      rintro r hr ⟨a, b, e⟩
      exact hr.ne_nil (by simpa using e : a = [] ∧ r = [] ∧ b = []).2.1
    | cons c cs ih =>
      rw [versionIn] at h
      cases hv : versionAt (c :: cs) with
      | some r => rw [hv] at h; exact absurd rfl (h r)
      | none =>
        rw [hv] at h
        intro r hr hi
        rw [List.infix_cons_iff] at hi
        rcases hi with hi | hi
        · exact versionAt_none.1 hv r hr hi
        · exact ih h r hr hi
  · rintro h r ⟨h1, a, b, rfl, _⟩
    exact h r h1 ⟨a, b, rfl⟩

theorem lstrip_pad (s : Str) : ∃ a, s = a ++ lstrip s ∧ ∀ c ∈ a, isSpace c = true := by
  refine ⟨s.takeWhile isSpace, by unfold lstrip; rw [List.takeWhile_append_dropWhile], fun c hc => List.mem_takeWhile_imp hc⟩

theorem rstrip_pad (s : Str) : ∃ b, s = rstrip s ++ b ∧ ∀ c ∈ b, isSpace c = true := by
  obtain ⟨a, h, ha⟩ := lstrip_pad s.reverse
  refine ⟨a.reverse, ?_, by simpa using ha⟩
  have := congrArg List.reverse h
  simpa [rstrip, lstrip] using this

theorem strip_split (s : Str) : ∃ a b, s = a ++ strip s ++ b ∧ (∀ c ∈ a, isSpace c = true) ∧ ∀ c ∈ b, isSpace c = true := by
  obtain ⟨a, h1, ha⟩ := lstrip_pad s
  obtain ⟨b, h2, hb⟩ := rstrip_pad (lstrip s)
  exact ⟨a, b, by rw [h1]; conv_lhs => rw [h2]
                  simp [strip, ← h1], ha, hb⟩

theorem IsVersion.no_space {r : Str} (h : IsVersion r) : ∀ c ∈ r, isSpace c = false := by
  have key : ∀ c, isDigit c = true → isSpace c = false := by
    intro c hc
    simp only [isDigit, decide_eq_true_eq, Bool.and_eq_true] at hc
    have h1 : 48 ≤ c.toNat := hc.1
    have h2 : c.toNat ≤ 57 := hc.2
    simp [isSpace]; omega
  obtain ⟨a, b, c, _, _, _, ha, hb, hc, rfl⟩ := h
  intro x hx
  simp only [List.mem_append, List.mem_cons] at hx
  rcases hx with hx | rfl | hx | rfl | hx
  · exact key x (ha x hx)
  · decide
  · exact key x (hb x hx)
  · decide
  · exact key x (hc x hx)

theorem prefix_of_no_space {r s b : Str} (hr : ∀ c ∈ r, isSpace c = false) (hb : ∀ c ∈ b, isSpace c = true) (h : r <+: s ++ b) : r <+: s := by
  by_cases hl : r.length ≤ s.length
  · exact List.prefix_of_prefix_length_le h (List.prefix_append s b) hl
  · obtain ⟨m, hm⟩ := List.prefix_of_prefix_length_le (List.prefix_append s b) h (by omega)
    subst hm
    rw [List.prefix_append_right_inj] at h
    cases m with
    | nil => simp
    | cons x xs =>
      have h1 := hr x (by simp)
      rw [hb x (h.subset (by simp))] at h1; cases h1

theorem FirstVersion.pad {a s b r : Str} (ha : ∀ c ∈ a, isSpace c = true) (hb : ∀ c ∈ b, isSpace c = true) (h : FirstVersion s r) :
    FirstVersion (a ++ s ++ b) r := by
  obtain ⟨h1, p, q, rfl, hq, hf⟩ := h
  refine ⟨h1, a ++ p, q ++ b, by simp, ?_, ?_⟩
  · intro x hx
    cases q with
    | nil =>
      cases b with
      | nil => cases hx
      | cons y ys =>
        simp only [List.nil_append, List.head?_cons, Option.some.injEq] at hx; subst hx
        have := hb y (by simp)
        by_contra hd
        have hd : isDigit y = true := by simpa using hd
        have := IsVersion.no_space (r := [y] ++ '.' :: ([y] ++ '.' :: [y])) ⟨[y], [y], [y], by simp, by simp, by simp, by simpa, by simpa, by simpa, rfl⟩ y (by simp)
        simp_all
    | cons y ys => exact hq x hx
  · intro i hi r' hr' hp
    by_cases hia : i < a.length
    · cases r' with
      | nil => exact hr'.ne_nil rfl
      | cons x xs =>
        rw [List.append_assoc, List.drop_append_of_le_length (by omega)] at hp
        have : (a.drop i).head? = some x := by
          obtain ⟨t, ht⟩ := hp
          cases hd : a.drop i with
          | nil => rw [List.drop_eq_nil_iff] at hd; omega
          | cons z zs => rw [hd] at ht; simp only [List.cons_append, List.cons.injEq] at ht; rw [ht.1]; rfl
        have hx := ha x (List.mem_of_mem_drop (List.mem_of_head? this))
        rw [hr'.no_space x (by simp)] at hx; cases hx
    · have e : (a ++ (p ++ r ++ q) ++ b).drop i = (p ++ r ++ q).drop (i - a.length) ++ b := by
        simp only [List.length_append] at hi
        rw [List.append_assoc, List.drop_append, List.drop_eq_nil_of_le (by omega), List.nil_append,
          List.drop_append_of_le_length (by simp; omega)]
      rw [e] at hp
      exact hf (i - a.length) (by simp at hi; omega) r' hr' (prefix_of_no_space hr'.no_space hb hp)

/-- **C59**, for every text of the version element: the result is its first version; `AttributeError` exactly if there is none or the element is
missing. -/
theorem C59_version (v : Str) :
    (∀ r, getVersion (some v) = .ok r ↔ FirstVersion v r) ∧
    (getVersion (some v) = .raise .attributeError ↔ ∀ r, IsVersion r → ¬ r <:+: v) ∧
    getVersion none = .raise .attributeError := by
  obtain ⟨a, b, e, ha, hb⟩ := strip_split v
  have key : ∀ r, FirstVersion v r ↔ FirstVersion (strip v) r := by
    intro r
    constructor
    · intro h
      by_contra hn
      cases hv : versionIn (strip v) with
      | ok r' =>
        have h' := (versionIn_ok.1 hv).pad ha hb
        rw [← e] at h'
        have := (versionIn_ok.2 h).symm.trans (versionIn_ok.2 h')
        injection this with this
        exact hn (this ▸ versionIn_ok.1 hv)
      | exit k =>
        have := versionIn_fails (v := strip v) |>.1 (by simp [hv]); rw [hv] at this; cases this
      | raise x =>
        have hno := no_version.1 (fun r' h' => (by rw [← versionIn_ok, hv] at h'; cases h') : ∀ r', ¬ FirstVersion (strip v) r')
        obtain ⟨h1, p, q, e', _⟩ := h
        apply hno r h1
        have hst : Stripped r := by
          constructor
          · intro c hc; exact h1.no_space c (List.mem_of_head? hc)
          · intro c hc; exact h1.no_space c (List.mem_of_getLast? hc)
        exact Verif.Poscar.strip_infix hst h1.ne_nil ⟨p, q, e'.symm⟩
    · intro h
      have h' := h.pad ha hb
      rwa [← e] at h'
  refine ⟨fun r => by rw [getVersion, versionIn_ok, key], ?_, rfl⟩
  rw [getVersion, ← versionIn_fails, ← no_version]
  constructor
  · intro h r hr; exact h r (versionIn_ok.2 ((key r).1 hr))
  · intro h r hr; exact h r ((key r).2 (versionIn_ok.1 hr))

example : getVersion (some c!" 5.4.4.18Apr17-6-g9f103f2a35  ") = .ok c!"5.4.4" ∧ FirstVersion c!"VASP.5.4.4" c!"5.4.4" ∧
    getVersion (some c!"5.4") = .raise .attributeError := by
  refine ⟨by decide +kernel, (C59_version _).1 _ |>.1 (by decide +kernel), by decide +kernel⟩

end Verif.Vasprun
