import Verif.Model.IndexArg
import Verif.Props.KpointsEdit
import Verif.Props.PoscarEdit
/-! # Index arguments that are not integers (C145) -/
set_option autoImplicit false
namespace Verif
open Verif Verif.Utils

/-- Specification: what an index argument stands for in a list; nothing if it is no integer. `True` is 1 and `False` is 0. -/
inductive StandsFor : IndexArg → Int → Prop
  | int (n : Int) : StandsFor (.int n) n
  | yes : StandsFor (.bool true) 1
  | no : StandsFor (.bool false) 0

theorem standsFor_iff (i : IndexArg) (n : Int) : StandsFor i n ↔ i.number = some n := by
  constructor
  · rintro (_ | _ | _) <;> rfl
  · cases i with
    | int k => intro h; injection h with h; subst h; exact .int k
    | bool b => cases b <;> (intro h; injection h with h; subst h; constructor)
    | other => intro h; cases h

theorem number_none {i : IndexArg} (h : ∀ n, ¬ StandsFor i n) : i.number = none := by
  cases h' : i.number with
  | none => rfl
  | some n => exact absurd ((standsFor_iff i n).2 h') (h n)

/-- Specification: the second list is the first without some of its elements that have the property. -/
inductive Dropped {α : Type} (P : α → Prop) : List α → List α → Prop
  | nil : Dropped P [] []
  | drop (a : α) {l m : List α} (h : P a) (hl : Dropped P l m) : Dropped P (a :: l) m
  | keep (a : α) {l m : List α} (hl : Dropped P l m) : Dropped P (a :: l) (a :: m)

namespace Kpoints

/-- **C145**, KPOINTS: with an argument standing for the number `n` the calls do the same as with `n` itself. -/
theorem C145_kpoints_number (e : Entries) (entry : Str) (v : Val) (i : IndexArg) (n : Int) (h : StandsFor i n) :
    modifyAny e entry v (some i) = modify e entry v (some n) ∧ deleteAny e i = deletePoint e n := by
  have hn := (standsFor_iff i n).1 h
  have hc : ∀ (f : Int → Res Entries), (checkPointIndex e i >>= f) = (checkPointNumber e n >>= fun _ => f n) := by
    intro f
    unfold checkPointIndex
    rw [hn]
    simp only
    cases checkPointNumber e n <;> rfl
  constructor
  · unfold modifyAny modify
    simp only [hc]
    rfl
  · unfold deleteAny deletePoint
    simp only [hc]
    rfl

/-- The documented names, and those containing one of them, are let through by `modify`. -/
def LetThrough (entry : Str) : Prop :=
  ∃ k ∈ [c!"comment", c!"points", c!"tetra", c!"tetra_volume", c!"divisions", c!"mode", c!"num_kpoints", c!"shifts", c!"centering"], k <:+: entry

theorem checkAllowed_cases (entry : Str) : (LetThrough entry → checkAllowed entry = .ok ()) ∧ (¬ LetThrough entry → checkAllowed entry = .exit 207) := by
  have key : LetThrough entry ↔ ([c!"comment", c!"points", c!"tetra", c!"tetra_volume", c!"divisions", c!"mode", c!"num_kpoints", c!"shifts",
      c!"centering"].any (fun k => contains k entry)) = true := by
    rw [List.any_eq_true]
    constructor
    · rintro ⟨k, hk, h⟩; exact ⟨k, hk, (Verif.Utils.contains_iff k entry).2 h⟩
    · rintro ⟨k, hk, h⟩; exact ⟨k, hk, (Verif.Utils.contains_iff k entry).1 h⟩
  unfold checkAllowed
  constructor
  · intro h; rw [if_pos (key.1 h)]
  · intro h; rw [if_neg (fun h' => h (key.2 h'))]

/-- **C145**, KPOINTS: on a valid object with a list of points, every call with an argument standing for no number exits: `modify` with 207 for a name that
is not let through, with 210 if the value is neither a `Kpoint` nor `None` (`None` passes if all stored points are `Kpoint` objects), and otherwise with 13;
`delete_point` with 13. -/
theorem C145_kpoints_other (e : Entries) (he : validate e = .ok ()) (l : List Elem) (hp : e.get? c!"points" = some (.list l)) (hl : ∀ x ∈ l, isPoint x = true)
    (entry : Str) (v : Val) (i : IndexArg) (h : ∀ n, ¬ StandsFor i n) :
    (¬ LetThrough entry → modifyAny e entry v (some i) = .exit 207) ∧
    (LetThrough entry → (v = .none ∨ ∃ p, v = .atom (.point p)) → modifyAny e entry v (some i) = .exit 13) ∧
    (LetThrough entry → v ≠ .none → (¬ ∃ p, v = .atom (.point p)) → modifyAny e entry v (some i) = .exit 210) ∧
    deleteAny e i = .exit 13 := by
  have hd := ((validate_ok_iff e).1 he).1
  have hpts := ((validate_ok_iff e).1 he).2.2.1
  have hc : checkPointIndex e i = .exit 13 := by
    unfold checkPointIndex; rw [number_none h]
  have hlk : lookup e c!"points" = .ok (.list l) := by unfold lookup; rw [hp]
  refine ⟨fun h1 => ?_, fun h1 h2 => ?_, fun h1 h2 h3 => ?_, ?_⟩
  · unfold modifyAny; rw [(checkAllowed_cases entry).2 h1]; rfl
  · have : checkPoint e v = .ok () := by
      rcases h2 with rfl | ⟨p, rfl⟩
      · show checkPoint e (.atom .none) = _
        have ha : argOr e c!"points" .none = .ok (.list l) := by
          unfold argOr
          rw [if_pos rfl, hp]
        have : l.all isPoint = true := List.all_eq_true.2 hl
        unfold checkPoint
        simp only [ha, Res.ok_bind, this, if_true]
      · rfl
    unfold modifyAny
    simp only [(checkAllowed_cases entry).1 h1, hd, this, hc]; rfl
  · have : checkPoint e v = .exit 210 := by
      unfold checkPoint
      split
      · exact absurd rfl h2
      · rename_i p; exact absurd ⟨p, rfl⟩ h3
      · rfl
    unfold modifyAny
    rw [(checkAllowed_cases entry).1 h1, hd, this]; rfl
  · unfold deleteAny; rw [hpts, hc]; rfl

/-- A call with an index. -/
inductive IndexCall
  | modify (entry : Str) (v : Val) (i : Option IndexArg)
  | delete (i : IndexArg)

/-- One call; the outcome. -/
def IndexCall.run (e : Entries) : IndexCall → Res Entries
  | .modify entry v i => modifyAny e entry v i
  | .delete i => deleteAny e i

/-- Has the call no index, or one that stands for a number? -/
def IndexCall.numbered : IndexCall → Prop
  | .modify _ _ none => True
  | .modify _ _ (some i) => ∃ n, StandsFor i n
  | .delete i => ∃ n, StandsFor i n

/-- The object after a list of calls whose failures are caught: a call that fails leaves it as it is. -/
def afterCalls (e : Entries) : List IndexCall → Entries
  | [] => e
  | c :: cs => match c.run e with
    | .ok e' => afterCalls e' cs
    | _ => afterCalls e cs

theorem unnumbered_fails (e : Entries) (c : IndexCall) (h : ¬ c.numbered) : ∀ e', c.run e ≠ .ok e' := by
  intro e' hr
  cases c with
  | modify entry v i =>
    cases i with
    | none => exact h trivial
    | some i =>
      have hn := number_none (i := i) (fun n hn => h ⟨n, hn⟩)
      simp only [IndexCall.run, modifyAny, Res.bind_eq_ok] at hr
      obtain ⟨_, _, _, _, _, _, _, hx, _⟩ := hr
      unfold checkPointIndex at hx; rw [hn] at hx; cases hx
  | delete i =>
    have hn := number_none (i := i) (fun n hn => h ⟨n, hn⟩)
    simp only [IndexCall.run, deleteAny, Res.bind_eq_ok] at hr
    obtain ⟨_, _, _, hx, _⟩ := hr
    unfold checkPointIndex at hx; rw [hn] at hx; cases hx

/-- **C145**, KPOINTS, histories: calls whose index stands for no number might as well not have been made, on any object. -/
theorem C145_kpoints_history (e : Entries) (cs ds : List IndexCall) (h : Dropped (fun c => ¬ c.numbered) cs ds) : afterCalls e cs = afterCalls e ds := by
  induction h generalizing e with
  | nil => rfl
  | drop c hc _ ih =>
    have := unnumbered_fails e c hc
    rw [← ih e]
    rw [afterCalls.eq_2]
    split
    · rename_i e' he; exact absurd he (this e')
    · rfl
  | keep c _ ih =>
    simp only [afterCalls]
    split <;> exact ih _

/-- A valid object with one point, and the four kinds of calls. -/
def onePoint : Entries := ({ comment := c!"x", num := 1, mode := c!"explicit", points := some [⟨[0, 0, 0], some 1, true⟩] } : Parsed).toEntries

example : validate onePoint = .ok () ∧ onePoint.get? c!"points" = some (.list [.atom (.point ⟨[0, 0, 0], some 1, true⟩)]) ∧
    modifyAny onePoint c!"points" (.atom (.point ⟨[1], none, true⟩)) (some .other) = .exit 13 ∧
    modifyAny onePoint c!"points" (.list []) (some .other) = .exit 210 ∧ modifyAny onePoint c!"foo" .none (some .other) = .exit 207 ∧
    deleteAny onePoint .other = .exit 13 ∧ deleteAny onePoint (.bool true) = .exit 211 ∧ (∃ e, deleteAny onePoint (.bool false) = .ok e) :=
  ⟨by decide +kernel, by decide +kernel, by decide +kernel, by decide +kernel, by decide +kernel, by decide +kernel, by decide +kernel, ⟨_, rfl⟩⟩

end Kpoints

namespace Poscar
open Verif.Kpoints (pyIndex)

/-- **C145**, POSCAR: with an argument standing for the number `n` the calls do the same as with `n` itself. -/
theorem C145_poscar_number (e : Entries) (entry : Str) (v : Option Elem) (i : IndexArg) (n : Int) (h : StandsFor i n) :
    modifySiteAny e entry v i = modifySite e entry v n ∧ deleteSiteAny e i = deleteSite e n := by
  have hn := (standsFor_iff i n).1 h
  have hc : ∀ (f : Int → Res Entries), (checkSiteIndex e i >>= f) = (checkSiteNumber e n >>= fun _ => f n) := by
    intro f
    unfold checkSiteIndex
    rw [hn]
    simp only
    cases checkSiteNumber e n <;> rfl
  constructor
  · unfold modifySiteAny modifySite
    simp only [hc]
    rfl
  · unfold deleteSiteAny deleteSite
    simp only [hc]
    rfl

/-- The documented names, and those containing one of them, are let through by `modify`. -/
def LetThrough (entry : Str) : Prop := ∃ k ∈ [c!"comment", c!"unitcell", c!"sites"], k <:+: entry

theorem checkAllowed_cases (entry : Str) : (LetThrough entry → checkAllowed entry = .ok ()) ∧ (¬ LetThrough entry → checkAllowed entry = .exit 305) := by
  have key : LetThrough entry ↔ ([c!"comment", c!"unitcell", c!"sites"].any (fun k => contains k entry)) = true := by
    rw [List.any_eq_true]
    constructor
    · rintro ⟨k, hk, h⟩; exact ⟨k, hk, (Verif.Utils.contains_iff k entry).2 h⟩
    · rintro ⟨k, hk, h⟩; exact ⟨k, hk, (Verif.Utils.contains_iff k entry).1 h⟩
  unfold checkAllowed
  constructor
  · intro h; rw [if_pos (key.1 h)]
  · intro h; rw [if_neg (fun h' => h (key.2 h'))]

/-- **C145**, POSCAR: on an object with a list of sites, every call with an argument standing for no number exits: `modify` with 305 for a name that is not
let through and otherwise with 13, whatever the value; `delete_site` with 13. -/
theorem C145_poscar_other (e : Entries) (l : List Elem) (hp : e.get? c!"sites" = some (.sites l))
    (entry : Str) (v : Option Elem) (i : IndexArg) (h : ∀ n, ¬ StandsFor i n) :
    (¬ LetThrough entry → modifySiteAny e entry v i = .exit 305) ∧ (LetThrough entry → modifySiteAny e entry v i = .exit 13) ∧
    deleteSiteAny e i = .exit 13 := by
  have hc : checkSiteIndex e i = .exit 13 := by
    unfold checkSiteIndex; rw [number_none h]
  have hlk : lookup e c!"sites" = .ok (.sites l) := by unfold lookup; rw [hp]
  refine ⟨fun h1 => ?_, fun h1 => ?_, ?_⟩
  · unfold modifySiteAny; rw [(checkAllowed_cases entry).2 h1]; rfl
  · have : checkSite e v = .ok () ∨ checkSite e v = .exit 13 := by
      cases v with
      | none =>
        unfold checkSite
        simp only [hlk, Res.ok_bind]
        split <;> simp
      | some x =>
        unfold checkSite
        simp only
        split <;> simp
    unfold modifySiteAny
    rw [(checkAllowed_cases entry).1 h1]
    rcases this with h2 | h2 <;> rw [h2]
    · rw [hc]; rfl
    · rfl
  · have : checkSites e .none = .ok () := by
      unfold checkSites argOr
      simp [hlk]
    unfold deleteSiteAny; rw [this, hc]; rfl

/-- A call of the POSCAR class: `modify` without an index, `modify` with one, or `delete_site`. -/
inductive IndexCall
  | whole (entry : Str) (v : Val)
  | site (entry : Str) (v : Option Elem) (i : IndexArg)
  | delete (i : IndexArg)

/-- One call; the outcome. -/
def IndexCall.run (e : Entries) : IndexCall → Res Entries
  | .whole entry v => modify e entry v
  | .site entry v i => modifySiteAny e entry v i
  | .delete i => deleteSiteAny e i

/-- Has the call no index, or one that stands for a number? -/
def IndexCall.numbered : IndexCall → Prop
  | .whole _ _ => True
  | .site _ _ i => ∃ n, StandsFor i n
  | .delete i => ∃ n, StandsFor i n

/-- The object after a list of calls whose failures are caught: a call that fails leaves it as it is. -/
def afterCalls (e : Entries) : List IndexCall → Entries
  | [] => e
  | c :: cs => match c.run e with
    | .ok e' => afterCalls e' cs
    | _ => afterCalls e cs

theorem unnumbered_fails (e : Entries) (c : IndexCall) (h : ¬ c.numbered) : ∀ e', c.run e ≠ .ok e' := by
  intro e' hr
  cases c with
  | whole entry v => exact h trivial
  | site entry v i =>
    have hn := number_none (i := i) (fun n hn => h ⟨n, hn⟩)
    simp only [IndexCall.run, modifySiteAny, Res.bind_eq_ok] at hr
    obtain ⟨_, _, _, _, _, hx, _⟩ := hr
    unfold checkSiteIndex at hx; rw [hn] at hx; cases hx
  | delete i =>
    have hn := number_none (i := i) (fun n hn => h ⟨n, hn⟩)
    simp only [IndexCall.run, deleteSiteAny, Res.bind_eq_ok] at hr
    obtain ⟨_, _, _, hx, _⟩ := hr
    unfold checkSiteIndex at hx; rw [hn] at hx; cases hx

/-- **C145**, POSCAR, histories: calls whose index stands for no number might as well not have been made, on any object. -/
theorem C145_poscar_history (e : Entries) (cs ds : List IndexCall) (h : Dropped (fun c => ¬ c.numbered) cs ds) : afterCalls e cs = afterCalls e ds := by
  induction h generalizing e with
  | nil => rfl
  | drop c hc _ ih =>
    have := unnumbered_fails e c hc
    rw [← ih e]
    rw [afterCalls.eq_2]
    split
    · rename_i e' he; exact absurd he (this e')
    · rfl
  | keep c _ ih =>
    simp only [afterCalls]
    split <;> exact ih _

/-- An object with one site and the kinds of calls. -/
example : let e : Entries := [(c!"comment", .none), (c!"sites", .sites [.site (Site.new c!"Si" ⟨0, 0, 0⟩ (true, true, true) none none true)])]
    modifySiteAny e c!"sites" none .other = .exit 13 ∧ modifySiteAny e c!"x" none .other = .exit 305 ∧ deleteSiteAny e .other = .exit 13 ∧
    deleteSiteAny e (.bool true) = .exit 304 ∧ ∃ e', deleteSiteAny e (.bool false) = .ok e' :=
  ⟨by decide +kernel, by decide +kernel, by decide +kernel, by decide +kernel, ⟨_, rfl⟩⟩

end Poscar
end Verif
