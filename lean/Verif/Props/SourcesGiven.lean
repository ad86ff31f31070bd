import Verif.Props.PoscarEdit
import Verif.Props.KpointsEdit
import Verif.Props.IncarMap
/-! # Which of several sources a constructor uses (C129) -/
set_option autoImplicit false

namespace Verif.Given

/-- The four sources of a constructor. -/
inductive Source
  | string
  | dict
  | path
  | handler
  deriving DecidableEq

/-- Specification: the calls that are refused. Nothing is given; or the string with the dictionary or with a path; or dictionary, path
and handler all at once. -/
def Refused (given : Source → Prop) : Prop :=
  (∀ x, ¬ given x) ∨ given .string ∧ (given .dict ∨ given .path) ∨ given .dict ∧ given .path ∧ given .handler

end Verif.Given

open Verif.Given

/-! ### INCAR -/

namespace Verif.Incar
open Verif Verif.Utils

/-- Is the source given? -/
def Sources.Has (s : Sources) : Source → Prop
  | .string => s.string.isSome
  | .dict => s.dict.isSome
  | .path => s.path.isSome
  | .handler => s.handler.isSome

/-- The call with this source alone. -/
def Sources.only (s : Sources) : Source → Sources
  | .string => { string := s.string }
  | .dict => { dict := s.dict }
  | .path => { path := s.path }
  | .handler => { handler := s.handler }

theorem guards_iff (s : Sources) : (tooMany s.string.isSome s.dict.isSome s.path.isSome s.handler.isSome ||
    noneGiven s.string.isSome s.dict.isSome s.path.isSome s.handler.isSome) = true ↔ Refused s.Has := by
  have : Refused s.Has ↔ (¬ s.string.isSome ∧ ¬ s.dict.isSome ∧ ¬ s.path.isSome ∧ ¬ s.handler.isSome) ∨
      s.string.isSome ∧ (s.dict.isSome ∨ s.path.isSome) ∨ s.dict.isSome ∧ s.path.isSome ∧ s.handler.isSome := by
    unfold Refused
    refine or_congr ⟨fun h => ⟨h .string, h .dict, h .path, h .handler⟩, fun h x => ?_⟩ Iff.rfl
    cases x
    · exact h.1
    · exact h.2.1
    · exact h.2.2.1
    · exact h.2.2.2
  rw [this]
  generalize s.string.isSome = a
  generalize s.dict.isSome = b
  generalize s.path.isSome = c
  generalize s.handler.isSome = d
  revert a b c d
  decide

/-- C129, INCAR: the calls refused with exit 10 are exactly those of the specification, whatever the sources hold. -/
theorem C129_incar_refused (F : FloatEnv) (allowed : List Str) (vt : Bool) (s : Sources) :
    init F allowed vt s = .exit 10 ↔ Refused s.Has := by
  rw [← guards_iff, Bool.or_eq_true]
  constructor
  · intro h
    by_contra hg
    rw [not_or] at hg
    unfold init at h
    rw [if_neg hg.1, if_neg hg.2] at h
    cases hl : loadEntries F s with
    | ok d =>
      rw [hl] at h
      have h' : (validate vt allowed d >>= fun _ => Res.ok d) = .exit 10 := h
      cases hv : validate vt allowed d with
      | ok u => rw [hv] at h'; cases h'
      | raise => rw [hv] at h'; cases h'
      | exit k =>
        rw [hv] at h'; cases h'
        unfold validate at hv
        split at hv
        · cases hv
        · split at hv <;> cases hv
    | raise => rw [hl] at h; cases h
    | exit k => rw [hl] at h; cases h; exact loadEntries_exit F s hl
  · intro h
    unfold init
    by_cases h1 : tooMany s.string.isSome s.dict.isSome s.path.isSome s.handler.isSome = true
    · rw [if_pos h1]
    · rw [if_neg h1, if_pos (h.resolve_left h1)]

/-- C129, INCAR: with several sources that are not refused,
* the dictionary is used rather than any other source, but a path given with it must exist: a missing file exits 14,
* the string rather than the handler,
* the handler rather than the path. -/
theorem C129_incar_used (F : FloatEnv) (allowed : List Str) (vt : Bool) (s : Sources) (h : ¬ Refused s.Has) :
    (s.Has .dict → s.path ≠ some none → init F allowed vt s = init F allowed vt (s.only .dict)) ∧
    (s.Has .dict → s.path = some none → init F allowed vt s = .exit 14) ∧
    (s.Has .string → init F allowed vt s = init F allowed vt (s.only .string)) ∧
    (s.Has .handler → ¬ s.Has .dict → ¬ s.Has .string → init F allowed vt s = init F allowed vt (s.only .handler)) ∧
    ((∀ x, s.Has x → x = .path) → init F allowed vt s = init F allowed vt (s.only .path)) := by
  have hg : (tooMany s.string.isSome s.dict.isSome s.path.isSome s.handler.isSome ||
      noneGiven s.string.isSome s.dict.isSome s.path.isSome s.handler.isSome) = false := by
    rw [← guards_iff] at h; simpa using h
  obtain ⟨a, b, c, d⟩ := s
  rcases a with _ | t <;> rcases b with _ | i <;> rcases c with _ | _ | p <;> rcases d with _ | u <;> simp only [tooMany, noneGiven] at hg <;> first | (cases hg; done) | skip
  all_goals
    refine ⟨fun h1 h2 => ?_, fun h1 h2 => ?_, fun h1 => ?_, fun h1 h2 h3 => ?_, fun h1 => ?_⟩
  all_goals first
    | (cases h1; done)
    | exact absurd rfl h2
    | exact absurd rfl h3
    | rfl
    | (cases h1 .dict rfl; done)
    | (cases h1 .handler rfl; done)
    | (cases h1 .string rfl; done)
    | (cases h2; rfl)
    | (simp at h2; done)

/-- Non-vacuity: string and handler; dictionary and a path to a missing file. -/
example (t u : Str) (d : List (Str × Value)) : ¬ Refused (Sources.Has { string := some t, handler := some u }) ∧
    ¬ Refused (Sources.Has { dict := some d, path := some none }) := by
  rw [← guards_iff, ← guards_iff]; exact ⟨by simp [tooMany, noneGiven], by simp [tooMany, noneGiven]⟩

end Verif.Incar

/-! ### KPOINTS -/

namespace Verif.Kpoints
open Verif Verif.Utils

/-- Is the source given? -/
def Sources.Has (s : Sources) : Source → Prop
  | .string => s.string.isSome
  | .dict => s.dict.isSome
  | .path => s.path.isSome
  | .handler => s.handler.isSome

/-- The call with this source alone. -/
def Sources.only (s : Sources) : Source → Sources
  | .string => { string := s.string }
  | .dict => { dict := s.dict }
  | .path => { path := s.path }
  | .handler => { handler := s.handler }

theorem guards_iff (s : Sources) : guards s = true ↔ Refused s.Has := by
  have : Refused s.Has ↔ (¬ s.string.isSome ∧ ¬ s.dict.isSome ∧ ¬ s.path.isSome ∧ ¬ s.handler.isSome) ∨
      s.string.isSome ∧ (s.dict.isSome ∨ s.path.isSome) ∨ s.dict.isSome ∧ s.path.isSome ∧ s.handler.isSome := by
    unfold Refused
    refine or_congr ⟨fun h => ⟨h .string, h .dict, h .path, h .handler⟩, fun h x => ?_⟩ Iff.rfl
    cases x
    · exact h.1
    · exact h.2.1
    · exact h.2.2.1
    · exact h.2.2.2
  rw [this]
  unfold guards
  generalize s.string.isSome = a
  generalize s.dict.isSome = b
  generalize s.path.isSome = c
  generalize s.handler.isSome = d
  revert a b c d
  decide

theorem fromList_ne (l : List Str) : ExitsIn (fun k => k ≠ 10) (fromList l) := by
  have := parse_exits l; unfold fromList; exits

theorem init_ne {s : Sources} (hg : guards s = false) : ExitsIn (fun k => k ≠ 10) (init s) := by
  have hf := fromList_ne
  have hv := validate_exits
  unfold init
  rw [hg, if_neg (by decide)]
  clear hg
  unfold load fromFile
  exits

/-- C129, KPOINTS: the calls refused with exit 10 are exactly those of the specification, whatever the sources hold. -/
theorem C129_kpoints_refused (s : Sources) : init s = .exit 10 ↔ Refused s.Has := by
  rw [← guards_iff]
  constructor
  · intro h
    by_contra hg
    exact (init_ne (by simpa using hg)).of 10 h rfl
  · intro h
    unfold init
    rw [h]; rfl

/-- C129, KPOINTS: with several sources that are not refused,
* the handler is used rather than the path or the dictionary,
* the path rather than the dictionary,
* and the string rather than the handler, but the file behind the handler is parsed first: if it cannot be read, neither can the pair. -/
theorem C129_kpoints_used (s : Sources) (h : ¬ Refused s.Has) :
    (s.Has .handler → ¬ s.Has .string → init s = init (s.only .handler)) ∧
    (s.Has .path → ¬ s.Has .handler → init s = init (s.only .path)) ∧
    (s.Has .string → ¬ s.Has .handler → init s = init (s.only .string)) ∧
    (s.Has .string → s.Has .handler → (init (s.only .handler)).isOk → init s = init (s.only .string)) ∧
    (s.Has .string → s.Has .handler → init s = init (s.only .string) ∨ init s = init (s.only .handler)) ∧
    ((∀ x, s.Has x → x = .dict) → init s = init (s.only .dict)) := by
  have hg : guards s = false := by
    rw [← guards_iff] at h; simpa using h
  obtain ⟨a, b, c, d⟩ := s
  have key : ∀ (f : Res Entries) (g : Res Entries) (k : Entries → Res Entries), (((f >>= fun d => Res.ok d) >>= k).isOk → (f >>= fun _ => g) >>= k = g >>= k) ∧
      ((f >>= fun _ => g) >>= k = g >>= k ∨ (f >>= fun _ => g) >>= k = (f >>= fun d => Res.ok d) >>= k) := by
    intro f g k
    cases f with
    | ok x => exact ⟨fun _ => rfl, .inl rfl⟩
    | raise x => exact ⟨fun h => (by cases h), .inr rfl⟩
    | exit x => exact ⟨fun h => (by cases h), .inr rfl⟩
  rcases a with _ | t <;> rcases b with _ | i <;> rcases c with _ | p <;> rcases d with _ | u <;> simp only [guards] at hg <;> first | (cases hg; done) | skip
  all_goals
    refine ⟨fun h1 h2 => ?_, fun h1 h2 => ?_, fun h1 h2 => ?_, fun h1 h2 => ?_, fun h1 h2 => ?_, fun h1 => ?_⟩
  case some.none.none.some.refine_4 => exact (key (fromList (readlines u)) (fromList (splitlines t)) (fun e => validate e >>= fun _ => Res.ok e)).1
  case some.none.none.some.refine_5 => exact (key (fromList (readlines u)) (fromList (splitlines t)) (fun e => validate e >>= fun _ => Res.ok e)).2
  all_goals first
    | (cases h1; done)
    | (cases h2; done)
    | exact absurd rfl h2
    | rfl
    | (cases h1 .path rfl; done)
    | (cases h1 .handler rfl; done)
    | (cases h1 .string rfl; done)

/-- Non-vacuity: string and handler; dictionary and path. -/
example (t u : Str) (d : Entries) (p : Option Str) : ¬ Refused (Sources.Has { string := some t, handler := some u }) ∧
    ¬ Refused (Sources.Has { dict := some d, path := some p }) := by
  rw [← guards_iff, ← guards_iff]; exact ⟨by simp [guards], by simp [guards]⟩

end Verif.Kpoints

/-! ### POSCAR -/

namespace Verif.Poscar
open Verif Verif.Utils

/-- Is the source given? -/
def Sources.Has (s : Sources) : Source → Prop
  | .string => s.string.isSome
  | .dict => s.dict.isSome
  | .path => s.path.isSome
  | .handler => s.handler.isSome

/-- The call with this source alone. -/
def Sources.only (s : Sources) : Source → Sources
  | .string => { string := s.string }
  | .dict => { dict := s.dict }
  | .path => { path := s.path }
  | .handler => { handler := s.handler }

theorem guards_iff (s : Sources) : guards s = true ↔ Refused s.Has := by
  have : Refused s.Has ↔ (¬ s.string.isSome ∧ ¬ s.dict.isSome ∧ ¬ s.path.isSome ∧ ¬ s.handler.isSome) ∨
      s.string.isSome ∧ (s.dict.isSome ∨ s.path.isSome) ∨ s.dict.isSome ∧ s.path.isSome ∧ s.handler.isSome := by
    unfold Refused
    refine or_congr ⟨fun h => ⟨h .string, h .dict, h .path, h .handler⟩, fun h x => ?_⟩ Iff.rfl
    cases x
    · exact h.1
    · exact h.2.1
    · exact h.2.2.1
    · exact h.2.2.2
  rw [this]
  unfold guards
  generalize s.string.isSome = a
  generalize s.dict.isSome = b
  generalize s.path.isSome = c
  generalize s.handler.isSome = d
  revert a b c d
  decide

theorem init_ne {s : Sources} (hg : guards s = false) : ExitsIn (fun k => k ≠ 10) (init s) := by
  have h1 := fromList_exits
  have h2 := finish_exits
  unfold init
  rw [hg, if_neg (by decide)]
  clear hg
  unfold load fromFile
  refine ExitsIn.bind ?_ h2
  exits

/-- C129, POSCAR: the calls refused with exit 10 are exactly those of the specification, whatever the sources hold. -/
theorem C129_poscar_refused (s : Sources) : init s = .exit 10 ↔ Refused s.Has := by
  rw [← guards_iff]
  constructor
  · intro h
    by_contra hg
    exact (init_ne (by simpa using hg)).of 10 h rfl
  · intro h
    unfold init
    rw [h]; rfl

/-- C129, POSCAR: with several sources that are not refused,
* the handler is used rather than the path or the dictionary,
* the path rather than the dictionary,
* and the string rather than the handler, but the file behind the handler is parsed first: if it cannot be read, neither can the pair. -/
theorem C129_poscar_used (s : Sources) (h : ¬ Refused s.Has) :
    (s.Has .handler → ¬ s.Has .string → init s = init (s.only .handler)) ∧
    (s.Has .path → ¬ s.Has .handler → init s = init (s.only .path)) ∧
    (s.Has .string → ¬ s.Has .handler → init s = init (s.only .string)) ∧
    (s.Has .string → s.Has .handler → (init (s.only .handler)).isOk → init s = init (s.only .string)) ∧
    (s.Has .string → s.Has .handler → init s = init (s.only .string) ∨ init s = init (s.only .handler)) ∧
    ((∀ x, s.Has x → x = .dict) → init s = init (s.only .dict)) := by
  have hg : guards s = false := by
    rw [← guards_iff] at h; simpa using h
  obtain ⟨a, b, c, d⟩ := s
  have key : ∀ (f : Res Entries) (g : Res Entries) (k : Entries → Res Entries), (((f >>= fun d => Res.ok d) >>= k).isOk → (f >>= fun _ => g) >>= k = g >>= k) ∧
      ((f >>= fun _ => g) >>= k = g >>= k ∨ (f >>= fun _ => g) >>= k = (f >>= fun d => Res.ok d) >>= k) := by
    intro f g k
    cases f with
    | ok x => exact ⟨fun _ => rfl, .inl rfl⟩
    | raise x => exact ⟨fun h => (by cases h), .inr rfl⟩
    | exit x => exact ⟨fun h => (by cases h), .inr rfl⟩
  rcases a with _ | t <;> rcases b with _ | i <;> rcases c with _ | p <;> rcases d with _ | u <;> simp only [guards] at hg <;> first | (cases hg; done) | skip
  all_goals
    refine ⟨fun h1 h2 => ?_, fun h1 h2 => ?_, fun h1 h2 => ?_, fun h1 h2 => ?_, fun h1 h2 => ?_, fun h1 => ?_⟩
  case some.none.none.some.refine_4 => exact (key (fromList (readlines u)) (fromList (splitlinesKeep t)) (fun d => fromDict d >>= fun e => validate e >>= fun _ => Res.ok e)).1
  case some.none.none.some.refine_5 => exact (key (fromList (readlines u)) (fromList (splitlinesKeep t)) (fun d => fromDict d >>= fun e => validate e >>= fun _ => Res.ok e)).2
  all_goals first
    | (cases h1; done)
    | (cases h2; done)
    | exact absurd rfl h2
    | rfl
    | (cases h1 .path rfl; done)
    | (cases h1 .handler rfl; done)
    | (cases h1 .string rfl; done)

/-- Non-vacuity: string and handler; dictionary and path. -/
example (t u : Str) (d : Entries) (p : Option Str) : ¬ Refused (Sources.Has { string := some t, handler := some u }) ∧
    ¬ Refused (Sources.Has { dict := some d, path := some p }) := by
  rw [← guards_iff, ← guards_iff]; exact ⟨by simp [guards], by simp [guards]⟩

end Verif.Poscar
