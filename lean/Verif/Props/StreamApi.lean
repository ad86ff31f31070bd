import Verif.Model.StreamRegex
import Verif.Props.Stream
/-! # C83, C84: counting the streams; the shipped configuration -/
set_option autoImplicit false
namespace Verif.Stream
open Verif

variable {Rx : Type}

/-- A configured stream is detected in the text: it is found in some line, or, if it is an inverse one, in none. -/
def Detected (E : Engine Rx) (text : Str) (t : Trigger Rx) : Prop :=
  if t.inverse then ∀ l ∈ readlines text, ¬ Hits E t l else ∃ l ∈ readlines text, Hits E t l

theorem trigger_unique (E : Engine Rx) (dflt : Config Rx) (user : Option (Config Rx)) (hist : Bool) (path : Option (Option Str))
    (handler : Option Str) (o : Object Rx) (hd : dflt.keys.Nodup) (h : init E dflt user hist path handler = .ok o) :
    ∀ t ∈ o.triggers, ∀ u ∈ o.triggers, t.shortname = u.shortname → t = u := by
  obtain ⟨text, kinds, tt, st, ht, h1, h2, h3, rfl⟩ := init_ok h
  exact (build_prepared (effective_nodup dflt user hd) h1 h2).unique

/-- The streams reported are exactly the detected ones. -/
theorem mem_entries (E : Engine Rx) (dflt : Config Rx) (user : Option (Config Rx)) (hist : Bool) (path : Option (Option Str))
    (handler : Option Str) (o : Object Rx) (hd : dflt.keys.Nodup) (hu : ∀ u, user = some u → u.keys.Nodup)
    (h : init E dflt user hist path handler = .ok o) :
    ∃ text, textOf path handler = some text ∧ ∀ t, t ∈ o.entries ↔ t ∈ o.triggers ∧ Detected E text t := by
  have hsub := (C36_configuration E dflt user hist path handler o hd hu h).2.1
  have hnorm : ∃ text, textOf path handler = some text ∧
      ∀ t, t.inverse = false → (t ∈ o.entries ↔ t ∈ o.triggers ∧ ∃ l ∈ readlines text, Hits E t l) := by
    cases hist with
    | false =>
      obtain ⟨text, ht, h1, -, -⟩ := C33_once E dflt user path handler o hd h
      refine ⟨text, ht, fun t hi => ?_⟩
      have := h1 t
      simpa [hi] using this
    | true =>
      obtain ⟨text, ht, h1⟩ := C34_history E dflt user path handler o hd h
      refine ⟨text, ht, fun t hi => ?_⟩
      have h2 : t ∈ o.entries ↔ t ∈ o.entries.filter fun t => !t.inverse := by simp [List.mem_filter, hi]
      rw [h2, h1]
      simp only [List.mem_flatMap, List.mem_filter, decide_eq_true_eq, hi, true_and]
      constructor
      · rintro ⟨l, hl, h3, h4⟩; exact ⟨h3, l, hl, h4⟩
      · rintro ⟨h3, l, hl, h4⟩; exact ⟨l, hl, h3, h4⟩
  obtain ⟨text, ht, hn⟩ := hnorm
  refine ⟨text, ht, fun t => ?_⟩
  cases hi : t.inverse with
  | false =>
    rw [hn t hi]
    simp [Detected, hi]
  | true =>
    simp only [Detected, hi, if_true]
    constructor
    · intro hm
      have htt := hsub t hm
      obtain ⟨text', ht', -, h2⟩ := C35_inverse E dflt user hist path handler o hd h t htt hi
      rw [ht] at ht'
      cases Option.some.inj ht'
      refine ⟨htt, fun l hl hh => ?_⟩
      exact h2 ⟨l, hl, hh⟩ t hm rfl
    · rintro ⟨htt, hno⟩
      obtain ⟨text', ht', h1, -⟩ := C35_inverse E dflt user hist path handler o hd h t htt hi
      rw [ht] at ht'
      cases Option.some.inj ht'
      have := h1 hno
      have : t ∈ o.entries.filter fun u => decide (u.shortname = t.shortname) := by rw [this]; simp
      exact (List.mem_filter.1 this).1

/-- C83: `has_entries` is true exactly if some configured stream is detected, with and without history. -/
theorem C83_has_entries (E : Engine Rx) (dflt : Config Rx) (user : Option (Config Rx)) (hist : Bool) (path : Option (Option Str))
    (handler : Option Str) (o : Object Rx) (hd : dflt.keys.Nodup) (hu : ∀ u, user = some u → u.keys.Nodup)
    (h : init E dflt user hist path handler = .ok o) :
    ∃ text, textOf path handler = some text ∧ (hasEntries o = true ↔ ∃ t ∈ o.triggers, Detected E text t) := by
  obtain ⟨text, ht, hm⟩ := mem_entries E dflt user hist path handler o hd hu h
  refine ⟨text, ht, ?_⟩
  have : hasEntries o = true ↔ ∃ t, t ∈ o.entries := by
    unfold hasEntries
    cases o.entries with
    | nil => simp
    | cons a l => simp
  rw [this]
  simp only [hm]

/-- C83, partial: without history, `number_of_entries` is the number of different streams detected: the length of every list that names each
detected stream once.  Missing: with history, where the claim is false (`C83_violation_history`). -/
theorem C83_number_partial (E : Engine Rx) (dflt : Config Rx) (user : Option (Config Rx)) (path : Option (Option Str))
    (handler : Option Str) (o : Object Rx) (hd : dflt.keys.Nodup) (hu : ∀ u, user = some u → u.keys.Nodup)
    (h : init E dflt user false path handler = .ok o) :
    ∃ text, textOf path handler = some text ∧
      ∀ names : List Str, names.Nodup → (∀ s, s ∈ names ↔ ∃ t ∈ o.triggers, t.shortname = s ∧ Detected E text t) →
        numberOfEntries o = names.length := by
  obtain ⟨text, ht, hm⟩ := mem_entries E dflt user false path handler o hd hu h
  refine ⟨text, ht, fun names hn hs => ?_⟩
  have hnodup : (o.entries.map Trigger.shortname).Nodup := by
    obtain ⟨text', ht', -, hnn, -⟩ := C33_once E dflt user path handler o hd h
    obtain ⟨text2, kinds, tt, st, ht2, h1, h2, h3, rfl⟩ := init_ok h
    have P := build_prepared (effective_nodup dflt user hd) h1 h2
    have hids := flat_ids _ P.keys
    have hsn := P.normalNames
    rw [← flat_snd] at hsn
    obtain ⟨a1, a2, a3⟩ := scan_once hids hsn h3
    show (List.map Trigger.shortname (st.streams ++ undetected tt.2 st.inverse)).Nodup
    rw [List.map_append, List.nodup_append]
    refine ⟨a2, (List.filter_sublist.map _).nodup P.inverseNames, ?_⟩
    intro a ha b hb hab
    obtain ⟨t, htm, rfl⟩ := List.mem_map.1 ha
    obtain ⟨u, hum, rfl⟩ := List.mem_map.1 hb
    have htt := (a1 t).1 htm
    rw [flat_snd] at htt
    have huu := (P.inverseMem u).1 (List.mem_filter.1 hum).1
    have := P.unique t htt.1 u huu.1 hab
    subst this
    rw [huu.2] at htt
    exact absurd htt.2.1 (by simp)
  have hperm : (o.entries.map Trigger.shortname).Perm names := by
    rw [List.perm_ext_iff_of_nodup hnodup hn]
    intro s
    rw [hs, List.mem_map]
    constructor
    · rintro ⟨t, htm, rfl⟩
      exact ⟨t, ((hm t).1 htm).1, rfl, ((hm t).1 htm).2⟩
    · rintro ⟨t, htt, rfl, hdt⟩
      exact ⟨t, (hm t).2 ⟨htt, hdt⟩, rfl⟩
  have := hperm.length_eq
  simpa [numberOfEntries] using this

/-- C83 is false with history: one stream, found in two lines, counts twice, and `str()` calls this two unique ones. -/
theorem C83_violation_history : ∃ o, init plain [(c!"brmix", [(c!"kind", .str c!"ERROR"), (c!"regex", .str c!"BRMIX"), (c!"message", .str c!"mixing")])]
      none true none (some c!"BRMIX\nBRMIX\n") = .ok o ∧ o.triggers.length = 1 ∧ numberOfEntries o = 2 ∧
      reportStr o = c!"We detected 2 unique ERROR's" :=
  ⟨_, rfl, by decide +kernel, by decide +kernel, by decide +kernel⟩

/-- Non-vacuity: three streams detected. -/
example : ∃ o, init plain exampleDefault (some exampleUser) false none (some c!"my\nBRMIX\nmy BRMIX\n") = .ok o ∧ numberOfEntries o = 3 ∧
    hasEntries o = true := ⟨_, rfl, by decide +kernel, by decide +kernel⟩

/-! ### the shipped configuration -/

/-- Specification: the phrase occurs in the line; a dot in it stands for any character but a line feed. -/
def Occurs (phrase line : Str) : Prop :=
  ∃ before here after, line = before ++ here ++ after ∧
    List.Forall₂ (fun p c => p = '.' ∧ c ≠ '\n' ∨ p ≠ '.' ∧ p = c) phrase here

/-- What the documentation of stream.yml promises: the short names and the phrases VASP prints (all but `nostart`). -/
def shipped : List (Str × Str) :=
  [(c!"ibzkpt", c!"internal error in subroutine IBZKPT"),
   (c!"brmix", c!"BRMIX: very serious problems"),
   (c!"cnormn", c!"WARNING: CNORMN"),
   (c!"denmp", c!"WARNING: DENMP: can't reach specified precision"),
   (c!"dentet", c!"WARNING: DENTET"),
   (c!"edddav_zhegv", c!"Error EDDDAV: Call to ZHEGV failed"),
   (c!"eddrmm_zhegv", c!"WARNING in EDDRMM: call to ZHEGV failed"),
   (c!"edwav", c!"EDWAV: internal error"),
   (c!"fexcp", c!"ERROR FEXCP: supplied Exchange"),
   (c!"fock_acc", c!"internal error in FOCK_ACC"),
   (c!"invgrp", c!"internal error in subroutine INVGRP"),
   (c!"kpoints_trans", c!"internal error in GENERATE_KPOINTS_TRANS"),
   (c!"non_collinear", c!"ERROR: non collinear calculations require"),
   (c!"not_hermitian", c!"not Hermitian in DAV"),
   (c!"psmaxn", c!"PSMAXN for non-local potential too small"),
   (c!"pssyevx", c!"Error in subspace rotation PSSYEVX"),
   (c!"pzstein", c!"PZSTEIN parameter number had an illegal value"),
   (c!"real_optlay", c!"REAL_OPTLAY: internal error"),
   (c!"rhosyg", c!"RHOSYG: internal error"),
   (c!"rspher", c!"Internal ERROR RSPHER."),
   (c!"set_indpw_full", c!"internal error in SET_INDPW_FULL: insufficient"),
   (c!"sgrcon", c!"internal error in subroutine SGRCON"),
   (c!"zbrent", c!"ZBRENT: fatal error in bracketing"),
   (c!"no_potim", c!"Fatal error! IBRION=0, but no entry for POTIM on file INCAR. MUST be specified!!"),
   (c!"magmom", c!"Error reading item 'MAGMOM' from file INCAR"),
   (c!"bandocc", c!"TOO FEW BANDS")]

theorem fitsHere_iff (ps : List Char) (l : Str) :
    fitsHere ps l = true ↔ ∃ here after, l = here ++ after ∧ List.Forall₂ (fun p c => p = '.' ∧ c ≠ '\n' ∨ p ≠ '.' ∧ p = c) ps here := by
  induction ps generalizing l with
  | nil => simp only [fitsHere, true_iff]; exact ⟨[], l, rfl, .nil⟩
  | cons p ps ih =>
    cases l with
    | nil =>
      simp only [fitsHere]
      constructor
      · intro h; cases h
      · rintro ⟨here, after, h1, h2⟩
        cases h2 with
        | cons => cases h1
    | cons c cs =>
      simp only [fitsHere, Bool.and_eq_true, ih]
      have hc : charFits p c = true ↔ (p = '.' ∧ c ≠ '\n' ∨ p ≠ '.' ∧ p = c) := by
        unfold charFits
        by_cases hp : p = '.'
        · simp [hp]
        · simp [hp]
      rw [hc]
      constructor
      · rintro ⟨h1, here, after, rfl, h2⟩
        exact ⟨c :: here, after, rfl, .cons h1 h2⟩
      · rintro ⟨here, after, h1, h2⟩
        cases h2 with
        | cons h3 h4 =>
          cases h1
          exact ⟨h3, _, _, rfl, h4⟩

theorem fits_iff (ps : List Char) (l : Str) : fits ps l = true ↔ Occurs ps l := by
  induction l with
  | nil =>
    simp only [fits, fitsHere_iff]
    constructor
    · rintro ⟨h, a, h1, h2⟩; exact ⟨[], h, a, h1, h2⟩
    · rintro ⟨b, h, a, h1, h2⟩
      have : b = [] := by cases b with | nil => rfl | cons => cases h1
      subst this
      exact ⟨h, a, h1, h2⟩
  | cons c cs ih =>
    simp only [fits, Bool.or_eq_true, fitsHere_iff, ih]
    constructor
    · rintro (⟨h, a, h1, h2⟩ | ⟨b, h, a, h1, h2⟩)
      · exact ⟨[], h, a, h1, h2⟩
      · exact ⟨c :: b, h, a, by rw [h1]; rfl, h2⟩
    · rintro ⟨b, h, a, h1, h2⟩
      cases b with
      | nil => exact Or.inl ⟨h, a, h1, h2⟩
      | cons x b =>
        simp only [List.cons_append, List.cons.injEq] at h1
        exact Or.inr ⟨b, h, a, h1.2, h2⟩

theorem scan_total {E : Engine Rx} {hist : Bool} {fl : List ((Str × Nat) × Trigger Rx)} (hfl : ∀ p ∈ fl, p.2.regex.isSome = true)
    (st : State Rx) (lines : List Str) : ∃ st', scan E hist fl st lines = .ok st' := by
  have hone : ∀ (line : Str) (l : List ((Str × Nat) × Trigger Rx)), (∀ p ∈ l, p.2.regex.isSome = true) → ∀ st : State Rx,
      ∃ st', Res.foldlM' (checkOne E hist line) st l = .ok st' := by
    intro line l hl
    induction l with
    | nil => intro st; exact ⟨st, rfl⟩
    | cons p ps ih =>
      intro st
      have : ∃ s1, checkOne E hist line st p = .ok s1 := by
        unfold checkOne
        split
        · exact ⟨_, rfl⟩
        · have := hl p (by simp)
          obtain ⟨r, hr⟩ := Option.isSome_iff_exists.1 this
          simp only [checkLine, hr, Res.ok_bind]
          split <;> exact ⟨_, rfl⟩
      obtain ⟨s1, hs1⟩ := this
      obtain ⟨s2, hs2⟩ := ih (fun q hq => hl q (by simp [hq])) s1
      exact ⟨s2, by simp only [Res.foldlM', hs1, hs2]⟩
  unfold scan
  induction lines generalizing st with
  | nil => exact ⟨st, rfl⟩
  | cons l ls ih =>
    obtain ⟨s1, h1⟩ := hone l fl hfl st
    obtain ⟨s2, h2⟩ := ih s1
    exact ⟨s2, by simp only [Res.foldlM', h1, h2]⟩

/-- What is looked for: short name, pattern, inverse or not. -/
def shown (t : Trigger (List Char)) : Str × Option (List Char) × Bool := (t.shortname, t.regex, t.inverse)

theorem shipped_build : ∃ tt, build dotEngine [c!"ERROR"] (streamYml (List Char)) = .ok tt ∧
    ((extend [c!"ERROR"] tt.1 tt.2).flatMap Prod.snd).map shown =
      shipped.map (fun p => (p.1, some p.2, false)) ++ [(c!"nostart", some c!"vasp.", true)] := by
  have h : (match build dotEngine [c!"ERROR"] (streamYml (List Char)) with
      | .ok tt => decide (((extend [c!"ERROR"] tt.1 tt.2).flatMap Prod.snd).map shown =
          shipped.map (fun p => (p.1, some p.2, false)) ++ [(c!"nostart", some c!"vasp.", true)])
      | _ => false) = true := by decide +kernel
  split at h
  · rename_i tt htt
    exact ⟨tt, htt, of_decide_eq_true h⟩
  · cases h

/-- The construction with the shipped configuration and the triggers it has. -/
theorem shipped_init (hist : Bool) (text : Str) : ∃ o, init dotEngine (streamYml (List Char)) none hist none (some text) = .ok o ∧
    o.triggers.map shown = shipped.map (fun p => (p.1, some p.2, false)) ++ [(c!"nostart", some c!"vasp.", true)] := by
  have h1 : setStreams [] (streamYml (List Char)) = .ok [c!"ERROR"] := by decide +kernel
  obtain ⟨tt, h2, h3⟩ := shipped_build
  have hrx : ∀ p ∈ flat (extend [c!"ERROR"] tt.1 tt.2), p.2.regex.isSome = true := by
    intro p hp
    have hm : p.2 ∈ (extend [c!"ERROR"] tt.1 tt.2).flatMap Prod.snd := by
      rw [← flat_snd]; exact List.mem_map.2 ⟨p, hp, rfl⟩
    have : shown p.2 ∈ shipped.map (fun p => (p.1, some p.2, false)) ++ [(c!"nostart", some c!"vasp.", true)] := by
      rw [← h3]; exact List.mem_map.2 ⟨_, hm, rfl⟩
    rcases List.mem_append.1 this with h | h
    · obtain ⟨q, _, hq⟩ := List.mem_map.1 h
      have : p.2.regex = some q.2 := (congrArg (fun x => x.2.1) hq).symm
      rw [this]; rfl
    · have : p.2.regex = some c!"vasp." := congrArg (fun x => x.2.1) (List.mem_singleton.1 h)
      rw [this]; rfl
  obtain ⟨st, hst⟩ := scan_total (E := dotEngine) (hist := hist) hrx {} (readlines text)
  refine ⟨⟨extend [c!"ERROR"] tt.1 tt.2, [c!"ERROR"], st.streams ++ undetected tt.2 st.inverse⟩, ?_, h3⟩
  simp only [init, Option.isNone_some, Bool.false_eq_true, and_false, if_false, h1, h2, Res.ok_bind, hst]

theorem streamYml_nodup : (streamYml (List Char)).keys.Nodup := by decide +kernel

/-- C84: with the shipped configuration every text is accepted, with and without history; each of the documented errors is reported
exactly if its phrase occurs in some line, and `nostart` exactly if no line has `vasp` followed by a further character. -/
theorem C84_shipped (hist : Bool) (text : Str) : ∃ o, init dotEngine (streamYml (List Char)) none hist none (some text) = .ok o ∧
    ∀ name, (∃ t ∈ o.entries, t.shortname = name) ↔
      (∃ phrase, (name, phrase) ∈ shipped ∧ ∃ l ∈ readlines text, Occurs phrase l) ∨
      (name = c!"nostart" ∧ ∀ l ∈ readlines text, ¬ Occurs c!"vasp." l) := by
  obtain ⟨o, ho, htr⟩ := shipped_init hist text
  refine ⟨o, ho, fun name => ?_⟩
  obtain ⟨text', ht', hm⟩ := mem_entries dotEngine (streamYml (List Char)) none hist none (some text) o streamYml_nodup (by simp) ho
  cases Option.some.inj ht'
  have hits : ∀ (t : Trigger (List Char)) (p : Str), t.regex = some p → ∀ l, Hits dotEngine t l ↔ Occurs p l := by
    intro t p hp l
    rw [← fits_iff]
    unfold Hits
    rw [hp]
    constructor
    · rintro ⟨r, hr, h⟩; cases Option.some.inj hr; exact h
    · intro h; exact ⟨p, rfl, h⟩
  constructor
  · rintro ⟨t, ht, rfl⟩
    obtain ⟨h1, h2⟩ := (hm t).1 ht
    have : shown t ∈ shipped.map (fun p => (p.1, some p.2, false)) ++ [(c!"nostart", some c!"vasp.", true)] := by
      rw [← htr]; exact List.mem_map.2 ⟨_, h1, rfl⟩
    rcases List.mem_append.1 this with h | h
    · obtain ⟨q, hq, he⟩ := List.mem_map.1 h
      have e1 : t.shortname = q.1 := (congrArg (fun x => x.1) he).symm
      have e2 : t.regex = some q.2 := (congrArg (fun x => x.2.1) he).symm
      have e3 : t.inverse = false := (congrArg (fun x => x.2.2) he).symm
      simp only [Detected, e3, Bool.false_eq_true, if_false] at h2
      obtain ⟨l, hl, hh⟩ := h2
      exact Or.inl ⟨q.2, by rw [e1]; exact hq, l, hl, (hits t _ e2 l).1 hh⟩
    · have he := List.mem_singleton.1 h
      have e1 : t.shortname = c!"nostart" := congrArg (fun x => x.1) he
      have e2 : t.regex = some c!"vasp." := congrArg (fun x => x.2.1) he
      have e3 : t.inverse = true := congrArg (fun x => x.2.2) he
      simp only [Detected, e3, if_true] at h2
      exact Or.inr ⟨e1, fun l hl hh => h2 l hl ((hits t _ e2 l).2 hh)⟩
  · rintro (⟨phrase, hp, l, hl, hh⟩ | ⟨rfl, hno⟩)
    · have : (name, some phrase, false) ∈ o.triggers.map shown := by
        rw [htr]; exact List.mem_append_left _ (List.mem_map.2 ⟨_, hp, rfl⟩)
      obtain ⟨t, ht, he⟩ := List.mem_map.1 this
      have e1 : t.shortname = name := congrArg (fun x => x.1) he
      have e2 : t.regex = some phrase := congrArg (fun x => x.2.1) he
      have e3 : t.inverse = false := congrArg (fun x => x.2.2) he
      refine ⟨t, (hm t).2 ⟨ht, ?_⟩, e1⟩
      simp only [Detected, e3, Bool.false_eq_true, if_false]
      exact ⟨l, hl, (hits t _ e2 l).2 hh⟩
    · have : (c!"nostart", some c!"vasp.", true) ∈ o.triggers.map shown := by
        rw [htr]; exact List.mem_append_right _ (by simp)
      obtain ⟨t, ht, he⟩ := List.mem_map.1 this
      have e1 : t.shortname = c!"nostart" := congrArg (fun x => x.1) he
      have e2 : t.regex = some c!"vasp." := congrArg (fun x => x.2.1) he
      have e3 : t.inverse = true := congrArg (fun x => x.2.2) he
      refine ⟨t, (hm t).2 ⟨ht, ?_⟩, e1⟩
      simp only [Detected, e3, if_true]
      exact fun l hl hh => hno l hl ((hits t _ e2 l).1 hh)

/-- Non-vacuity: a started run with a BRMIX error, and an empty stream. -/
example : (∃ o, init dotEngine (streamYml (List Char)) none false none
      (some c!" running on 4 cores\n vasp.6.2.0\n BRMIX: very serious problems\n BRMIX: very serious problems\n") = .ok o ∧
      o.entries.map entryStr = [c!"(ERROR) brmix: Error in BRMIX."]) ∧
    ∃ o, init dotEngine (streamYml (List Char)) none false none (some []) = .ok o ∧
      o.entries.map entryStr = [c!"(ERROR) nostart: VASP has not been started."] :=
  ⟨⟨_, rfl, by decide +kernel⟩, ⟨_, rfl, by decide +kernel⟩⟩

end Verif.Stream
