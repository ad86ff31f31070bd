import Verif.Props.PoscarTyped
import Verif.Props.KpointsEdit
/-! # Which element an edit by position reaches (C128)

`delete_site`, `modify(.., site_number)`, `delete_point` and `modify(.., point_number)` take any integer. -/
set_option autoImplicit false

/-! ### Specification -/

namespace Verif.Positions

/-- An edit of a list by position. -/
inductive Edit (α : Type)
  | delete (p : Int)
  | replace (p : Int) (a : α)

/-- Its position. -/
def Edit.pos {α : Type} : Edit α → Int
  | .delete p => p
  | .replace p _ => p

/-- In a list of `n` elements the position `p` is that of element `i`, counted from the front, or from the back with `-1` the last. -/
def Names (n : Nat) (p : Int) (i : Nat) : Prop := i < n ∧ (p = i ∨ p + n = i)

/-- What one edit does to a list: the element named goes, or is replaced, and all others stay, in order. -/
inductive Does {α : Type} : List α → Edit α → List α → Prop
  | delete (a b : List α) (x : α) (p : Int) (h : Names (a ++ x :: b).length p a.length) : Does (a ++ x :: b) (.delete p) (a ++ b)
  | replace (a b : List α) (x y : α) (p : Int) (h : Names (a ++ x :: b).length p a.length) :
      Does (a ++ x :: b) (.replace p y) (a ++ y :: b)

/-- What becomes of a history of edits. -/
inductive Fate (α : Type)
  /-- All edits are made. -/
  | done (l : List α)
  /-- An edit is refused because its position is at or after the length of the list at that time. -/
  | after
  /-- An edit fails because its position is before the first element even when counted from the back. -/
  | before

/-- The histories of edits and their fates. -/
inductive History {α : Type} : List α → List (Edit α) → Fate α → Prop
  | nil (l : List α) : History l [] (.done l)
  | cons {l l' : List α} {x : Edit α} {xs : List (Edit α)} {f : Fate α} (h : Does l x l') (hs : History l' xs f) : History l (x :: xs) f
  | after {l : List α} {x : Edit α} (xs : List (Edit α)) (h : (l.length : Int) ≤ x.pos) : History l (x :: xs) .after
  | before {l : List α} {x : Edit α} (xs : List (Edit α)) (h : x.pos < -(l.length : Int)) : History l (x :: xs) .before

theorem names_or (n : Nat) (p : Int) : (∃ i, Names n p i) ∨ (n : Int) ≤ p ∨ p < -(n : Int) := by
  by_cases h1 : (n : Int) ≤ p
  · exact .inr (.inl h1)
  by_cases h2 : p < -(n : Int)
  · exact .inr (.inr h2)
  by_cases h3 : 0 ≤ p
  · exact .inl ⟨p.toNat, by omega, .inl (by omega)⟩
  · exact .inl ⟨(p + n).toNat, by omega, .inr (by omega)⟩

theorem names_in {n : Nat} {p : Int} {i : Nat} (h : Names n p i) : p < n ∧ -(n : Int) ≤ p := by
  obtain ⟨h1, h2⟩ := h; omega

theorem names_unique {n : Nat} {p : Int} {i j : Nat} (h : Names n p i) (h' : Names n p j) : i = j := by
  obtain ⟨h1, h2⟩ := h; obtain ⟨h3, h4⟩ := h'; omega

theorem split_at {α : Type} (l : List α) (i : Nat) (h : i < l.length) : ∃ a x b, l = a ++ x :: b ∧ a.length = i :=
  ⟨l.take i, l[i], l.drop (i + 1), by simp, by simp; omega⟩

theorem does_pos {α : Type} {l l' : List α} {x : Edit α} (h : Does l x l') : ∃ i, Names l.length x.pos i := by
  cases h with
  | delete a b x p h => exact ⟨_, h⟩
  | replace a b x y p h => exact ⟨_, h⟩

theorem does_unique {α : Type} {l l' l'' : List α} {x : Edit α} (h : Does l x l') (h' : Does l x l'') : l' = l'' := by
  cases h with
  | delete a b x p h =>
    generalize hl : a ++ x :: b = l at h h'
    cases h' with
    | delete a' b' x' p' h' =>
      have := names_unique h h'
      obtain ⟨rfl, h3⟩ := List.append_inj hl this
      cases h3; rfl
  | replace a b x y p h =>
    generalize hl : a ++ x :: b = l at h h'
    cases h' with
    | replace a' b' x' y' p' h' =>
      have := names_unique h h'
      obtain ⟨rfl, h3⟩ := List.append_inj hl this
      cases h3; rfl

/-- Every history has exactly one fate. -/
theorem C128_fate {α : Type} (l : List α) (xs : List (Edit α)) : ∃ f, History l xs f ∧ ∀ g, History l xs g → g = f := by
  induction xs generalizing l with
  | nil => exact ⟨_, .nil l, fun g hg => by cases hg; rfl⟩
  | cons x xs ih =>
    rcases names_or l.length x.pos with ⟨i, hi⟩ | h | h
    · have hd : ∃ l', Does l x l' := by
        obtain ⟨a, y, b, rfl, rfl⟩ := split_at l i hi.1
        cases x with
        | delete p => exact ⟨_, .delete a b y p hi⟩
        | replace p z => exact ⟨_, .replace a b y z p hi⟩
      obtain ⟨l', hl'⟩ := hd
      obtain ⟨f, h1, h2⟩ := ih l'
      have hin := names_in hi
      refine ⟨f, .cons hl' h1, fun g hg => ?_⟩
      cases hg with
      | cons h3 h4 => exact h2 g (does_unique hl' h3 ▸ h4)
      | after _ h3 => omega
      | before _ h3 => omega
    · refine ⟨.after, .after xs h, fun g hg => ?_⟩
      cases hg with
      | cons h3 h4 => obtain ⟨i, hi⟩ := does_pos h3; have := names_in hi; omega
      | after _ h3 => rfl
      | before _ h3 => omega
    · refine ⟨.before, .before xs h, fun g hg => ?_⟩
      cases hg with
      | cons h3 h4 => obtain ⟨i, hi⟩ := does_pos h3; have := names_in hi; omega
      | after _ h3 => omega
      | before _ h3 => rfl

open Verif.Kpoints (pyIndex) in
theorem pyIndex_names {n i : Nat} {p : Int} (h : Names n p i) : pyIndex p n = some i := by
  obtain ⟨h1, h2⟩ := h
  unfold pyIndex
  split
  · have : p.toNat = i := by omega
    rw [this, if_pos h1]
  · rw [if_pos (by omega)]; congr 1; omega

open Verif.Kpoints (pyIndex) in
theorem pyIndex_before {n : Nat} {p : Int} (h : p < -(n : Int)) : pyIndex p n = none := by
  unfold pyIndex; rw [if_neg (by omega), if_neg (by omega)]

end Verif.Positions

/-! ### POSCAR -/

namespace Verif.Poscar
open Verif Verif.Utils Verif.Positions
open Verif.Kpoints (pyIndex)

/-- An edit of the sites: the name is that of the entry given to `modify`. -/
structure Named where
  entry : Str
  edit : Positions.Edit Site

/-- The name contains one of the three entry names, which is all that `modify` asks of it. -/
def Named.Allowed (c : Named) : Prop := ∃ k ∈ [c!"comment", c!"unitcell", c!"sites"], k <:+: c.entry

/-- poscar.py:358-417 the call that makes the edit. -/
def Named.run (e : Entries) (c : Named) : Res Entries :=
  match c.edit with
  | .delete p => deleteSite e p
  | .replace p s => modifySite e c.entry (some (.site s)) p

/-- The calls, one after the other, up to the first that fails. -/
def runNamed (e : Entries) : List Named → Res Entries
  | [] => .ok e
  | c :: cs => c.run e >>= fun e' => runNamed e' cs

theorem checkAllowed_of {c : Named} (h : c.Allowed) : checkAllowed c.entry = .ok () := by
  obtain ⟨k, hk, hi⟩ := h
  unfold checkAllowed
  rw [if_pos]
  rw [List.any_eq_true]
  exact ⟨k, hk, (contains_iff k c.entry).2 hi⟩

/-- One call. -/
theorem named_run {e : Entries} {l : List Elem} (h : e.get? c!"sites" = some (.sites l)) (c : Named) (hc : c.Allowed) :
    (∀ i, Names l.length c.edit.pos i → c.run e = .ok (e.set c!"sites" (.sites (match c.edit with
      | .delete _ => l.eraseIdx i
      | .replace _ s => l.set i (.site s))))) ∧
    ((l.length : Int) ≤ c.edit.pos → c.run e = .exit 304) ∧ (c.edit.pos < -(l.length : Int) → c.run e = .raise .indexError) := by
  have hal := checkAllowed_of hc
  obtain ⟨entry, ed⟩ := c
  cases ed with
  | delete p =>
    have hr : Named.run e ⟨entry, .delete p⟩ = (if p > (l.length : Int) - 1 then .exit 304 else .ok ()) >>= fun _ : Unit =>
        match pyIndex p l.length with
        | some i => .ok (e.set c!"sites" (.sites (l.eraseIdx i)))
        | Option.none => .raise .indexError := by
      unfold Named.run deleteSite checkSites checkSiteNumber argOr lookup
      simp only [if_true, h, Res.ok_bind]
      rfl
    rw [hr]
    refine ⟨fun i hi => ?_, fun h1 => ?_, fun h1 => ?_⟩
    · have := names_in hi
      simp only [Edit.pos] at this hi
      rw [if_neg (by omega), Res.ok_bind, pyIndex_names hi]
    · simp only [Edit.pos] at h1; rw [if_pos (by omega)]; rfl
    · simp only [Edit.pos] at h1; rw [if_neg (by omega), Res.ok_bind, pyIndex_before h1]
  | replace p s =>
    have hr : Named.run e ⟨entry, .replace p s⟩ = (if p > (l.length : Int) - 1 then .exit 304 else .ok ()) >>= fun _ : Unit =>
        match pyIndex p l.length with
        | some i => .ok (e.set c!"sites" (.sites (l.set i (.site s))))
        | Option.none => .raise .indexError := by
      unfold Named.run modifySite checkSite checkSiteNumber lookup
      simp only [hal, if_true, h, Res.ok_bind, isSite, Option.getD]
      rfl
    rw [hr]
    refine ⟨fun i hi => ?_, fun h1 => ?_, fun h1 => ?_⟩
    · have := names_in hi
      simp only [Edit.pos] at this hi
      rw [if_neg (by omega), Res.ok_bind, pyIndex_names hi]
    · simp only [Edit.pos] at h1; rw [if_pos (by omega)]; rfl
    · simp only [Edit.pos] at h1; rw [if_neg (by omega), Res.ok_bind, pyIndex_before h1]

/-- C128, POSCAR: from every object that holds a list of sites, every history of `delete_site(p)` and `modify(name, site, p)` has the
fate of the history of edits of the list: the sites named are deleted or replaced, all other entries stay; at the first position at or
after the end the call exits with 304, at the first before the first site, counted from the back, it raises `IndexError`. -/
theorem C128_poscar (e : Entries) (l : List Site) (h : e.get? c!"sites" = some (.sites (l.map .site))) (cs : List Named)
    (hc : ∀ c ∈ cs, c.Allowed) (f : Fate Site) (hf : History l (cs.map (·.edit)) f) :
    match (generalizing := false) f with
    | .done l' => ∃ e', runNamed e cs = .ok e' ∧ e'.get? c!"sites" = some (.sites (l'.map .site)) ∧ ∀ k, k ≠ c!"sites" → e'.get? k = e.get? k
    | .after => runNamed e cs = .exit 304
    | .before => runNamed e cs = .raise .indexError := by
  generalize hx : cs.map (·.edit) = xs at hf
  induction hf generalizing e cs with
  | nil l =>
    cases cs with
    | nil => exact ⟨e, rfl, h, fun _ _ => rfl⟩
    | cons c cs => cases hx
  | @cons l l' x xs f hd _ ih =>
    cases cs with
    | nil => cases hx
    | cons c cs =>
      obtain ⟨hx1, hx2⟩ := List.cons.inj hx
      have h1 := (named_run h c (hc c (by simp))).1
      have key : ∃ e', c.run e = .ok e' ∧ e'.get? c!"sites" = some (.sites (l'.map .site)) ∧ ∀ k, k ≠ c!"sites" → e'.get? k = e.get? k := by
        cases hd with
        | delete a b y p hn =>
          have h2 := h1 a.length (by rw [show c.edit = _ from hx1]; simpa [Edit.pos] using hn)
          rw [show c.edit = _ from hx1] at h2
          refine ⟨_, h2, ?_, fun k hk => ?_⟩
          · rw [Dict.get?_set, if_pos rfl]
            simp [List.eraseIdx_append_of_length_le]
          · rw [Dict.get?_set, if_neg (Ne.symm hk)]
        | replace a b y z p hn =>
          have h2 := h1 a.length (by rw [show c.edit = _ from hx1]; simpa [Edit.pos] using hn)
          rw [show c.edit = _ from hx1] at h2
          refine ⟨_, h2, ?_, fun k hk => ?_⟩
          · rw [Dict.get?_set, if_pos rfl]
            simp [List.set_append_right]
          · rw [Dict.get?_set, if_neg (Ne.symm hk)]
      obtain ⟨e', h2, h3, h4⟩ := key
      have h5 := ih e' h3 cs (fun c hc' => hc c (by simp [hc'])) hx2
      have hr : runNamed e (c :: cs) = runNamed e' cs := by
        show (c.run e >>= fun e' => runNamed e' cs) = _
        rw [h2]; rfl
      rw [hr]
      cases f with
      | done l'' =>
        obtain ⟨e'', h6, h7, h8⟩ := h5
        exact ⟨e'', h6, h7, fun k hk => (h8 k hk).trans (h4 k hk)⟩
      | after => exact h5
      | before => exact h5
  | after xs hp =>
    cases cs with
    | nil => cases hx
    | cons c cs =>
      obtain ⟨hx1, _⟩ := List.cons.inj hx
      have := (named_run h c (hc c (by simp))).2.1 (by rw [show c.edit = _ from hx1]; simpa using hp)
      show (c.run e >>= fun e' => runNamed e' cs) = _
      rw [this]; rfl
  | before xs hp =>
    cases cs with
    | nil => cases hx
    | cons c cs =>
      obtain ⟨hx1, _⟩ := List.cons.inj hx
      have := (named_run h c (hc c (by simp))).2.2 (by rw [show c.edit = _ from hx1]; simpa using hp)
      show (c.run e >>= fun e' => runNamed e' cs) = _
      rw [this]; rfl

/-- Non-vacuity: three sites; delete the last by `-1`, replace the first by `-2`, then position 2 is beyond the two left. -/
example (x y z s : Site) : History [x, y, z] [.delete (-1), .replace (-2) s, .delete 2] .after :=
  .cons (.delete [x, y] [] z _ ⟨by simp, by simp⟩) (.cons (.replace [] [y] x s _ ⟨by simp, by simp⟩) (.after _ (by simp [Edit.pos])))

end Verif.Poscar

/-! ### KPOINTS -/

namespace Verif.Kpoints
open Verif Verif.Utils Verif.Positions

/-- An edit of the points: the name is that of the entry given to `modify`. -/
structure Named where
  entry : Str
  edit : Positions.Edit Kpoint

/-- The name contains one of the entry names, which is all that `modify` asks of it. -/
def Named.Allowed (c : Named) : Prop :=
  ∃ k ∈ [c!"comment", c!"points", c!"tetra", c!"tetra_volume", c!"divisions", c!"mode", c!"num_kpoints", c!"shifts", c!"centering"],
    k <:+: c.entry

/-- kpoints.py:296-364 the call that makes the edit. -/
def Named.run (e : Entries) (c : Named) : Res Entries :=
  match c.edit with
  | .delete p => deletePoint e p
  | .replace p s => modify e c.entry (.atom (.point s)) (some p)

/-- The calls, one after the other, up to the first that fails. -/
def runNamed (e : Entries) : List Named → Res Entries
  | [] => .ok e
  | c :: cs => c.run e >>= fun e' => runNamed e' cs

theorem checkAllowed_of {c : Named} (h : c.Allowed) : checkAllowed c.entry = .ok () := by
  obtain ⟨k, hk, hi⟩ := h
  unfold checkAllowed
  rw [if_pos]
  rw [List.any_eq_true]
  exact ⟨k, hk, (contains_iff k c.entry).2 hi⟩

/-- One call. -/
theorem named_run {e : Entries} {l : List Elem} (h : e.get? c!"points" = some (.list l)) (hd : ∃ d, e.get? c!"divisions" = some d)
    (c : Named) (hc : c.Allowed) :
    (∀ i, Names l.length c.edit.pos i → c.run e = .ok (e.set c!"points" (.list (match c.edit with
      | .delete _ => l.eraseIdx i
      | .replace _ s => l.set i (.atom (.point s)))))) ∧
    ((l.length : Int) ≤ c.edit.pos → c.run e = .exit 211) ∧ (c.edit.pos < -(l.length : Int) → c.run e = .raise .indexError) := by
  have hal := checkAllowed_of hc
  have hdict : checkDict e = .ok () := by
    obtain ⟨d, hd⟩ := hd
    unfold checkDict lookup
    simp only [h, hd, Res.ok_bind]
    split <;> rfl
  obtain ⟨entry, ed⟩ := c
  cases ed with
  | delete p =>
    have hr : Named.run e ⟨entry, .delete p⟩ = (if p > (l.length : Int) - 1 then .exit 211 else .ok ()) >>= fun _ : Unit =>
        match pyIndex p l.length with
        | some i => .ok (e.set c!"points" (.list (l.eraseIdx i)))
        | Option.none => .raise .indexError := by
      unfold Named.run deletePoint checkPoints checkPointNumber argOr lookup
      simp only [if_true, h, Res.ok_bind]
      rfl
    rw [hr]
    refine ⟨fun i hi => ?_, fun h1 => ?_, fun h1 => ?_⟩
    · have := names_in hi
      simp only [Edit.pos] at this hi
      rw [if_neg (by omega), Res.ok_bind, pyIndex_names hi]
    · simp only [Edit.pos] at h1; rw [if_pos (by omega)]; rfl
    · simp only [Edit.pos] at h1; rw [if_neg (by omega), Res.ok_bind, pyIndex_before h1]
  | replace p s =>
    have hr : Named.run e ⟨entry, .replace p s⟩ = (if p > (l.length : Int) - 1 then .exit 211 else .ok ()) >>= fun _ : Unit =>
        match pyIndex p l.length with
        | some i => .ok (e.set c!"points" (.list (l.set i (.atom (.point s)))))
        | Option.none => .raise .indexError := by
      unfold Named.run modify checkPoint checkPointNumber lookup
      simp only [hal, hdict, h, Res.ok_bind, elemOf]
      rfl
    rw [hr]
    refine ⟨fun i hi => ?_, fun h1 => ?_, fun h1 => ?_⟩
    · have := names_in hi
      simp only [Edit.pos] at this hi
      rw [if_neg (by omega), Res.ok_bind, pyIndex_names hi]
    · simp only [Edit.pos] at h1; rw [if_pos (by omega)]; rfl
    · simp only [Edit.pos] at h1; rw [if_neg (by omega), Res.ok_bind, pyIndex_before h1]

/-- C128, KPOINTS: from every object that holds a list of points, every history of `delete_point(p)` and `modify(name, point, p)` has
the fate of the history of edits of the list: the points named are deleted or replaced, all other entries stay; at the first position
at or after the end the call exits with 211, at the first before the first point, counted from the back, it raises `IndexError`. -/
theorem C128_kpoints (e : Entries) (l : List Kpoint) (h : e.get? c!"points" = some (atomsVal .point l))
    (hd : ∃ d, e.get? c!"divisions" = some d) (cs : List Named)
    (hc : ∀ c ∈ cs, c.Allowed) (f : Fate Kpoint) (hf : History l (cs.map (·.edit)) f) :
    match (generalizing := false) f with
    | .done l' => ∃ e', runNamed e cs = .ok e' ∧ e'.get? c!"points" = some (atomsVal .point l') ∧ ∀ k, k ≠ c!"points" → e'.get? k = e.get? k
    | .after => runNamed e cs = .exit 211
    | .before => runNamed e cs = .raise .indexError := by
  generalize hx : cs.map (·.edit) = xs at hf
  induction hf generalizing e cs with
  | nil l =>
    cases cs with
    | nil => exact ⟨e, rfl, h, fun _ _ => rfl⟩
    | cons c cs => cases hx
  | @cons l l' x xs f hdo _ ih =>
    cases cs with
    | nil => cases hx
    | cons c cs =>
      obtain ⟨hx1, hx2⟩ := List.cons.inj hx
      have h1 := (named_run h hd c (hc c (by simp))).1
      have key : ∃ e', c.run e = .ok e' ∧ e'.get? c!"points" = some (atomsVal .point l') ∧ ∀ k, k ≠ c!"points" → e'.get? k = e.get? k := by
        cases hdo with
        | delete a b y p hn =>
          have h2 := h1 a.length (by rw [show c.edit = _ from hx1]; simpa [Edit.pos] using hn)
          rw [show c.edit = _ from hx1] at h2
          refine ⟨_, h2, ?_, fun k hk => ?_⟩
          · rw [Dict.get?_set, if_pos rfl]
            simp [atomsVal, List.eraseIdx_append_of_length_le]
          · rw [Dict.get?_set, if_neg (Ne.symm hk)]
        | replace a b y z p hn =>
          have h2 := h1 a.length (by rw [show c.edit = _ from hx1]; simpa [Edit.pos] using hn)
          rw [show c.edit = _ from hx1] at h2
          refine ⟨_, h2, ?_, fun k hk => ?_⟩
          · rw [Dict.get?_set, if_pos rfl]
            simp [atomsVal, List.set_append_right]
          · rw [Dict.get?_set, if_neg (Ne.symm hk)]
      obtain ⟨e', h2, h3, h4⟩ := key
      obtain ⟨d, hd⟩ := hd
      have h5 := ih e' h3 ⟨d, (h4 _ (by decide)).trans hd⟩ cs (fun c hc' => hc c (by simp [hc'])) hx2
      have hr : runNamed e (c :: cs) = runNamed e' cs := by
        show (c.run e >>= fun e' => runNamed e' cs) = _
        rw [h2]; rfl
      rw [hr]
      cases f with
      | done l'' =>
        obtain ⟨e'', h6, h7, h8⟩ := h5
        exact ⟨e'', h6, h7, fun k hk => (h8 k hk).trans (h4 k hk)⟩
      | after => exact h5
      | before => exact h5
  | after xs hp =>
    cases cs with
    | nil => cases hx
    | cons c cs =>
      obtain ⟨hx1, _⟩ := List.cons.inj hx
      have := (named_run h hd c (hc c (by simp))).2.1 (by rw [show c.edit = _ from hx1]; simpa using hp)
      show (c.run e >>= fun e' => runNamed e' cs) = _
      rw [this]; rfl
  | before xs hp =>
    cases cs with
    | nil => cases hx
    | cons c cs =>
      obtain ⟨hx1, _⟩ := List.cons.inj hx
      have := (named_run h hd c (hc c (by simp))).2.2 (by rw [show c.edit = _ from hx1]; simpa using hp)
      show (c.run e >>= fun e' => runNamed e' cs) = _
      rw [this]; rfl

/-- C128, KPOINTS: without a list of points (every automatic or line-free grid holds `None`) every such call fails with `TypeError`. -/
theorem C128_kpoints_none (e : Entries) (h : e.get? c!"points" = some .none) (d : Val) (hd : e.get? c!"divisions" = some d) (hn : d ≠ .none)
    (c : Named) (hc : c.Allowed) : c.run e = .raise .typeError := by
  have hal := checkAllowed_of hc
  have hdict : checkDict e = .ok () := by
    unfold checkDict lookup
    simp only [hd, Res.ok_bind, if_neg hn]
  obtain ⟨entry, ed⟩ := c
  cases ed with
  | delete p =>
    unfold Named.run deletePoint checkPoints checkPointNumber argOr lookup
    simp only [if_true, h, Res.ok_bind]; rfl
  | replace p s =>
    unfold Named.run modify checkPoint checkPointNumber lookup
    simp only [hal, hdict, h, Res.ok_bind]
    rfl

/-- Non-vacuity: a parsed explicit file holds a list of points and the entry `divisions`. -/
example : ∃ (e : Entries) (l : List Kpoint), init { string := some c!"x\n2\nReciprocal\n0 0 0 1\n.5 0 0 1\n" } = .ok e ∧
    e.get? c!"points" = some (atomsVal .point l) ∧ (∃ d, e.get? c!"divisions" = some d) ∧
    History l [.delete (-1), .delete 0] (.done []) :=
  ⟨Parsed.toEntries { comment := c!"x", num := 2, mode := c!"explicit"
                      points := some [⟨[0, 0, 0], some 1, true⟩, ⟨[1/2, 0, 0], some 1, true⟩] },
    [⟨[0, 0, 0], some 1, true⟩, ⟨[1/2, 0, 0], some 1, true⟩], by decide +kernel, by decide +kernel, ⟨.none, by decide +kernel⟩,
    .cons (.delete [_] [] _ _ ⟨by simp, by simp⟩) (.cons (.delete [] [] _ _ ⟨by simp, by simp⟩) (.nil _))⟩

end Verif.Kpoints
