import Verif.Model.Handler
import Verif.Props.StreamApi
import Verif.Props.Sources
import Verif.Lemmas.Cut
/-! # C108: what a file handler delivers -/
set_option autoImplicit false
namespace Verif.Handlers
open Verif
variable {Rx : Type}

/-- Does the call use handler `i`? -/
def Uses (i : Nat) : Call Rx → Prop
  | .make _ j => j = i
  | .seek j _ => j = i

/-- Is the call a `seek` on handler `i`? -/
def Seeks (i : Nat) : Call Rx → Prop
  | .seek j _ => j = i
  | _ => False

theorem handler_eq_path (c : Class Rx) (t : Str) : fromHandler c t = fromPath c (some t) := by
  cases c with
  | stream E d u h => simp only [fromHandler, fromPath, (Verif.Sources.C69_stream E d u h).2.2.1 t]
  | _ => rfl

theorem step_text (w : World Rx) (c : Call Rx) (i : Nat) : ((w.step c).handlers[i]?).map Handler.text = (w.handlers[i]?).map Handler.text := by
  cases c with
  | make c j =>
    simp only [World.step]
    cases hj : w.handlers[j]? with
    | none => rfl
    | some h =>
      simp only [List.getElem?_set]
      by_cases hij : j = i
      · subst hij
        have hlt : j < w.handlers.length := (List.getElem?_eq_some_iff.1 hj).1
        rw [if_pos rfl, if_pos hlt, hj]
        simp only [Option.map_some, make]
        split <;> rfl
      · rw [if_neg hij]
  | seek j n =>
    simp only [World.step, List.getElem?_modify]
    cases w.handlers[i]? with
    | none => rfl
    | some h => by_cases hij : j = i <;> simp [hij, Handler.seek]

theorem run_text (l : List (Call Rx)) (w : World Rx) (i : Nat) : ((w.run l).handlers[i]?).map Handler.text = (w.handlers[i]?).map Handler.text := by
  induction l generalizing w with
  | nil => rfl
  | cons c l ih => exact (ih (w.step c)).trans (step_text w c i)

theorem step_other (w : World Rx) (c : Call Rx) (i : Nat) (h : ¬ Uses i c) : (w.step c).handlers[i]? = w.handlers[i]? := by
  cases c with
  | make c j =>
    simp only [World.step]
    cases hj : w.handlers[j]? with
    | none => rfl
    | some x => simp only [List.getElem?_set, if_neg (show ¬ j = i from h)]
  | seek j n =>
    simp only [World.step, List.getElem?_modify, if_neg (show ¬ j = i from h)]
    cases w.handlers[i]? <;> rfl

/-- C108: a handler is not changed by calls that do not use it; no call ever changes its text. -/
theorem C108_untouched (w : World Rx) (l : List (Call Rx)) (i : Nat) :
    ((∀ c ∈ l, ¬ Uses i c) → (w.run l).handlers[i]? = w.handlers[i]?) ∧
    ((w.run l).handlers[i]?).map Handler.text = (w.handlers[i]?).map Handler.text := by
  refine ⟨?_, run_text l w i⟩
  induction l generalizing w with
  | nil => intro _; rfl
  | cons c l ih => intro h; exact (ih (w.step c) fun d hd => h d (by simp [hd])).trans (step_other w c i (h c (by simp)))

theorem run_append (w : World Rx) (l m : List (Call Rx)) : w.run (l ++ m) = (w.run l).run m := List.foldl_append

theorem made_of (w : World Rx) (c : Class Rx) (i : Nat) (h : Handler) (hh : w.handlers[i]? = some h) :
    (w.run [.make c i]).made = w.made ++ [fromPath c (some h.rest)] := by
  show (w.step (.make c i)).made = _
  simp only [World.step, hh, make, handler_eq_path]

/-- C108: after `seek(n)`, whatever happened before and is done with other handlers since, an object made from the handler is the one made from a
file that holds the text from character `n` on. With `n = 0` it is the object made from the whole file. Missing: handlers that are not moved, which go on where the last reader stopped (`C108_violation_*`). -/
theorem C108_from_position_partial (w : World Rx) (pre post : List (Call Rx)) (i n : Nat) (h : Handler) (hh : w.handlers[i]? = some h)
    (hp : ∀ c ∈ post, ¬ Uses i c) (c : Class Rx) :
    ∃ made, (w.run (pre ++ .seek i n :: post ++ [.make c i])).made = made ++ [fromPath c (some (h.text.drop n))] := by
  have e : pre ++ Call.seek i n :: post ++ [Call.make c i] = ((pre ++ [.seek i n]) ++ post) ++ [.make c i] := by simp
  rw [e, run_append, run_append]
  have h1 : ((w.run (pre ++ [.seek i n])).run post).handlers[i]? = some ⟨h.text, n⟩ := by
    rw [(C108_untouched _ post i).1 hp, run_append]
    have ht := run_text pre w i
    rw [hh] at ht
    cases hg : (w.run pre).handlers[i]? with
    | none => rw [hg] at ht; cases ht
    | some g =>
      rw [hg] at ht
      show ((w.run pre).step (.seek i n)).handlers[i]? = _
      simp only [World.step, List.getElem?_modify, if_true, hg]
      simp only [Option.map_some, Option.some.injEq] at ht
      simp [Handler.seek, ht]
  exact ⟨_, made_of _ c i _ h1⟩

/-- C108: a new handler, at the beginning of its text, delivers the whole file. -/
theorem C108_fresh (w : World Rx) (post : List (Call Rx)) (i : Nat) (t : Str) (hh : w.handlers[i]? = some ⟨t, 0⟩)
    (hp : ∀ c ∈ post, ¬ Uses i c) (c : Class Rx) :
    ∃ made, (w.run (post ++ [.make c i])).made = made ++ [fromPath c (some t)] := by
  rw [run_append]
  exact ⟨_, made_of _ c i _ (((C108_untouched w post i).1 hp).trans hh)⟩

/-- The handler is at the end of its text, or behind it. -/
def UsedUp (w : World Rx) (i : Nat) : Prop := ∃ h, w.handlers[i]? = some h ∧ h.text.length ≤ h.pos

theorem usedUp_step {w : World Rx} {i : Nat} (h : UsedUp w i) (c : Call Rx) (hc : ¬ Seeks i c) : UsedUp (w.step c) i := by
  obtain ⟨g, hg, hl⟩ := h
  by_cases hu : Uses i c
  · cases c with
    | seek j n => exact absurd hu hc
    | make c j =>
      cases (show j = i from hu)
      have hlt : i < w.handlers.length := (List.getElem?_eq_some_iff.1 hg).1
      refine ⟨(make c g).1, ?_, ?_⟩
      · simp only [World.step, hg, List.getElem?_set, if_true, hlt]
      · simp only [make]
        split
        · exact Nat.le_trans hl (Nat.le_max_left _ _)
        · exact hl
  · exact ⟨g, (step_other w c i hu).trans hg, hl⟩

/-- A class that reads its handler: every class, the stream scanner if its configuration is good enough to make an object of some file. -/
def Works : Class Rx → Prop
  | .stream E d u hist => ∃ t o, fromPath (.stream E d u hist) (some t) = .ok o
  | _ => True

theorem reads_of_works {c : Class Rx} (h : Works c) : reads c = true := by
  cases c with
  | stream E d u hist =>
    obtain ⟨t, o, h⟩ := h
    obtain ⟨x, h1, _⟩ := Res.bind_eq_ok.1 (show (Stream.init E d u hist (some (some t)) none >>= fun x => .ok (Object.stream x)) = .ok o from h)
    unfold Stream.init at h1
    rw [if_neg (by simp)] at h1
    obtain ⟨kinds, hk, h2⟩ := Res.bind_eq_ok.1 h1
    obtain ⟨tt, hb, _⟩ := Res.bind_eq_ok.1 h2
    cases u with
    | none => exact congrArg Res.isOk (Res.bind_eq_ok.2 ⟨kinds, hk, hb⟩ : (Stream.setStreams [] d >>= fun kinds => Stream.build E kinds d) = .ok tt)
    | some u =>
      exact congrArg Res.isOk (Res.bind_eq_ok.2 ⟨kinds, hk, hb⟩ :
        (Stream.setStreams [] (Stream.update d u) >>= fun kinds => Stream.build E kinds (Stream.update d u)) = .ok tt)
  | _ => rfl

/-- C108 fails for a handler that has been read: without a `seek` in between, a second object is the one made from an empty file, whatever the text is and
whatever else has been done. -/
theorem C108_violation_used_up (w : World Rx) (pre post : List (Call Rx)) (i : Nat) (h : Handler) (hh : w.handlers[i]? = some h)
    (c' : Class Rx) (hr : Works c') (hp : ∀ c ∈ post, ¬ Seeks i c) (c : Class Rx) :
    ∃ made, (w.run (pre ++ .make c' i :: post ++ [.make c i])).made = made ++ [fromPath c (some [])] := by
  have e : pre ++ Call.make c' i :: post ++ [Call.make c i] = ((pre ++ [.make c' i]) ++ post) ++ [.make c i] := by simp
  rw [e, run_append, run_append]
  have h0 : UsedUp (w.run (pre ++ [.make c' i])) i := by
    rw [run_append]
    have ht := run_text pre w i
    rw [hh] at ht
    cases hg : (w.run pre).handlers[i]? with
    | none => rw [hg] at ht; cases ht
    | some g =>
      have hlt : i < (w.run pre).handlers.length := (List.getElem?_eq_some_iff.1 hg).1
      refine ⟨(make c' g).1, ?_, ?_⟩
      · show ((w.run pre).step (.make c' i)).handlers[i]? = _
        simp only [World.step, hg, List.getElem?_set, if_true, hlt]
      · simp only [make, reads_of_works hr, if_true]
        exact Nat.le_max_right _ _
  have h1 : ∀ (l : List (Call Rx)) (w : World Rx), UsedUp w i → (∀ c ∈ l, ¬ Seeks i c) → UsedUp (w.run l) i := by
    intro l
    induction l with
    | nil => intro w hw _; exact hw
    | cons c l ih => intro w hw hl; exact ih _ (usedUp_step hw c (hl c (by simp))) fun d hd => hl d (by simp [hd])
  obtain ⟨g, hg, hl⟩ := h1 post _ h0 hp
  have := made_of _ c i g hg
  rw [Handler.rest, List.drop_eq_nil_of_le hl] at this
  exact ⟨_, this⟩

/-- What the classes make of an empty file: INCAR an object without tags (nothing is reported), the scanner with the shipped configuration one that
reports `nostart` and no error or warning of the text; the others fail. -/
theorem C108_violation_empty (F : FloatEnv) (allowed : List Str) (validateTags n hist : Bool) :
    fromPath (Rx := List Char) (.incar F allowed validateTags) (some []) = .ok (.incar []) ∧
    (∃ o, fromPath (.stream Stream.dotEngine (Stream.streamYml (List Char)) none hist) (some []) = .ok (.stream o) ∧
      ∀ name, (∃ t ∈ o.entries, t.shortname = name) ↔ name = c!"nostart") ∧
    fromPath (Rx := List Char) .kpoints (some []) = .raise .indexError ∧ fromPath (Rx := List Char) .poscar (some []) = .raise .indexError ∧
    fromPath (Rx := List Char) .potcar (some []) = .raise .attributeError ∧ fromPath (Rx := List Char) .chgcar (some []) = .raise .indexError ∧
    fromPath (Rx := List Char) (.doscar n) (some []) = .raise .indexError ∧ fromPath (Rx := List Char) .eigenval (some []) = .raise .indexError ∧
    fromPath (Rx := List Char) .outcar (some []) = .exit 600 := by
  refine ⟨by cases validateTags <;> rfl, ?_, rfl, rfl, rfl, rfl, rfl, rfl, rfl⟩
  obtain ⟨o, ho, hn⟩ := Stream.C84_shipped hist []
  refine ⟨o, ?_, fun name => ?_⟩
  · rw [← handler_eq_path]
    show (Stream.init _ _ _ _ none (some []) >>= _) = _
    rw [ho]; rfl
  · rw [hn name]
    have : readlines ([] : Str) = [] := rfl
    simp [this]

/-- C108 for vasprun.xml: the position of a binary handler does not matter, it is always the whole text that is looked at and parsed, and the handler
stands at the beginning again when it is handed to lxml. -/
theorem C108_xml (h : Handler) (event : Bool) :
    beginXml h event = Vasprun.begin none (some (.binary h.text)) event ∧
    (setTruncated (setFileSize h).1 (setFileSize h).2).1 = ⟨h.text, 0⟩ := by
  have hs : setFileSize h = (⟨h.text, 0⟩, h.text.length) := rfl
  have hne : h.text.length > 1024 → ∃ l, (readlines (h.text.drop (h.text.length - 1024))).getLast? = some l := by
    intro hl
    have : h.text.drop (h.text.length - 1024) ≠ [] := by
      intro he
      have := congrArg List.length he
      simp at this; omega
    cases hr : (readlines (h.text.drop (h.text.length - 1024))).getLast? with
    | some l => exact ⟨l, rfl⟩
    | none =>
      have h0 := List.getLast?_eq_none_iff.1 hr
      have := readlines_flatten (h.text.drop (h.text.length - 1024))
      rw [h0] at this
      exact absurd this.symm ‹_›
  have ht : setTruncated ⟨h.text, 0⟩ h.text.length = (⟨h.text, 0⟩, .ok (Vasprun.truncated h.text)) := by
    unfold setTruncated Vasprun.truncated
    by_cases hl : h.text.length > 1024
    · obtain ⟨l, hl'⟩ := hne hl
      simp only [if_pos hl, Handler.seek, Handler.rest, hl', Handler.afterRead]
    · simp only [if_neg hl]
  constructor
  · unfold beginXml
    simp only [hs, ht]
    rfl
  · rw [hs, ht]

/-- Non-vacuity: an INCAR read twice from a handler, with and without `seek(0)`; a KPOINTS behind it. -/
example :
    let w : World Str := { handlers := [⟨c!"ISMEAR = 0\n", 0⟩, ⟨c!"x\n", 1⟩] }
    ((w.run [.seek 1 0, .make .kpoints 1, .make .kpoints 0]).handlers.map Handler.pos = [11, 2]) ∧
    (w.run [.make .outcar 0, .make .outcar 0]).handlers.map Handler.text = w.handlers.map Handler.text := by
  constructor <;> rfl

end Verif.Handlers
