import Verif.Props.PoscarEdit
import Verif.Props.Utils
/-! # POSCAR: the entries keep their types (C114) -/
set_option autoImplicit false
namespace Verif.Poscar.Typing
open Verif Verif.Utils Verif.Lattice Verif.Poscar
open Verif.Kpoints (idx toFloat toInt pyIndex)

/-- Specification: the comment is a string or `None`, the unit cell is a 3x3 array and the sites are a list. -/
structure Typed (e : Entries) : Prop where
  comment : e.get? c!"comment" = some .none ∨ ∃ s, e.get? c!"comment" = some (.str s)
  unitcell : ∃ c, e.get? c!"unitcell" = some (.cell (some c))
  sites : ∃ l, e.get? c!"sites" = some (.sites l)

/-- C114: the validation of the constructor lets an object through exactly if its entries are there and have the right types. -/
theorem C114_validation (e : Entries) : validate e = .ok () ↔ Typed e := by
  unfold validate checkComment checkCell checkSites argOr lookup
  simp only [if_true]
  constructor
  · intro h
    cases h1 : e.get? c!"comment" with
    | none => rw [h1] at h; cases h
    | some w =>
      rw [h1] at h
      simp only [Res.ok_bind] at h
      have hw : w = .none ∨ ∃ s, w = .str s := by
        cases w with
        | none => exact .inl rfl
        | str s => exact .inr ⟨s, rfl⟩
        | _ => exact absurd h (by simp [Res.bind_eq_ok])
      have h' : ((match e.get? c!"unitcell" with | some v => Res.ok v | Option.none => .raise .keyError) >>= fun w =>
          match w with | .cell (some _) => .ok () | _ => .exit 13) = Res.ok () ∧
          ((match e.get? c!"sites" with | some v => Res.ok v | Option.none => .raise .keyError) >>= fun w =>
          match w with | .sites _ => .ok () | _ => .exit 13) = Res.ok () := by
        rcases hw with rfl | ⟨s, rfl⟩
        · simp only [if_true, Res.ok_bind] at h
          obtain ⟨u, hu, hs⟩ := Res.bind_eq_ok.1 h
          exact ⟨hu, hs⟩
        · simp only [reduceCtorEq, if_false, Res.ok_bind] at h
          obtain ⟨u, hu, hs⟩ := Res.bind_eq_ok.1 h
          exact ⟨hu, hs⟩
      refine ⟨?_, ?_, ?_⟩
      · rcases hw with rfl | ⟨s, rfl⟩
        · exact .inl h1
        · exact .inr ⟨s, h1⟩
      · have h2 := h'.1
        cases hc : e.get? c!"unitcell" with
        | none => rw [hc] at h2; cases h2
        | some w =>
          rw [hc] at h2
          cases w with
          | cell c => cases c with
            | none => cases h2
            | some c => exact ⟨c, rfl⟩
          | _ => cases h2
      · have h2 := h'.2
        cases hc : e.get? c!"sites" with
        | none => rw [hc] at h2; cases h2
        | some w =>
          rw [hc] at h2
          cases w with
          | sites l => exact ⟨l, rfl⟩
          | _ => cases h2
  · rintro ⟨h1, ⟨c, h2⟩, ⟨l, h3⟩⟩
    rw [h2, h3]
    rcases h1 with h1 | ⟨s, h1⟩ <;> rw [h1] <;> rfl

/-- Specification: a value that fits the entry. -/
def Fits (entry : Str) (v : Val) : Prop :=
  (entry = c!"comment" ∧ ∃ s, v = .str s) ∨ (entry = c!"unitcell" ∧ ∃ c, v = .cell (some c)) ∨ (entry = c!"sites" ∧ ∃ l, v = .sites l)

/-- The names of the entries. -/
def Name (entry : Str) : Prop := entry = c!"comment" ∨ entry = c!"unitcell" ∨ entry = c!"sites"

theorem checkAllowed_name {entry : Str} (h : Name entry) : checkAllowed entry = .ok () := by
  rcases h with rfl | rfl | rfl <;> decide

/-- C114: a value that fits is stored under its name and nothing else changes. -/
theorem C114_accepts (e : Entries) (he : Typed e) (entry : Str) (v : Val) (hv : Fits entry v) :
    ∃ e', modify e entry v = .ok e' ∧ e'.get? entry = some v ∧ (∀ k, k ≠ entry → e'.get? k = e.get? k) ∧ Typed e' := by
  have hset : ∀ k, (e.set entry v).get? k = if entry = k then some v else e.get? k := fun k => Dict.get?_set e entry k v
  refine ⟨e.set entry v, ?_, by rw [hset, if_pos rfl], fun k hk => by rw [hset, if_neg (Ne.symm hk)], ?_⟩
  · unfold modify
    rcases hv with ⟨rfl, s, rfl⟩ | ⟨rfl, c, rfl⟩ | ⟨rfl, l, rfl⟩
    · rw [checkAllowed_name (.inl rfl)]
      obtain ⟨w, hw⟩ : ∃ w, e.get? c!"comment" = some w := by
        rcases he.comment with h | ⟨s, h⟩ <;> exact ⟨_, h⟩
      have : checkEntry e c!"comment" (.str s) = .ok () := by
        unfold checkEntry checkComment argOr lookup
        rw [if_neg (by decide), if_pos rfl, hw]
        simp only [reduceCtorEq, if_false, Res.ok_bind]
        split <;> rfl
      rw [Res.ok_bind, this, Res.ok_bind]
    · rfl
    · rfl
  · rcases hv with ⟨rfl, s, rfl⟩ | ⟨rfl, c, rfl⟩ | ⟨rfl, l, rfl⟩
    · refine ⟨.inr ⟨s, by rw [hset, if_pos rfl]⟩, ?_, ?_⟩
      · rw [hset, if_neg (by decide)]; exact he.unitcell
      · rw [hset, if_neg (by decide)]; exact he.sites
    · refine ⟨?_, ⟨c, by rw [hset, if_pos rfl]⟩, ?_⟩
      · rw [hset, if_neg (by decide)]; exact he.comment
      · rw [hset, if_neg (by decide)]; exact he.sites
    · refine ⟨?_, ?_, ⟨l, by rw [hset, if_pos rfl]⟩⟩
      · rw [hset, if_neg (by decide)]; exact he.comment
      · rw [hset, if_neg (by decide)]; exact he.unitcell

/-- C114: any other value but `None` is refused with 13 under each of the names, except for a comment if the comment is `None`. -/
theorem C114_refused (e : Entries) (he : Typed e) (entry : Str) (hn : Name entry) (v : Val) (hv : ¬ Fits entry v) (hne : v ≠ .none)
    (hc : entry = c!"comment" → e.get? c!"comment" ≠ some .none) : modify e entry v = .exit 13 := by
  unfold modify
  rw [checkAllowed_name hn, Res.ok_bind]
  suffices h : checkEntry e entry v = .exit 13 by rw [h]; rfl
  unfold checkEntry
  rcases hn with rfl | rfl | rfl
  · rw [if_neg (by decide), if_pos rfl]
    rcases he.comment with h | ⟨s, h⟩
    · exact absurd h (hc rfl)
    · unfold checkComment argOr lookup
      rw [if_neg hne, h]
      simp only [Res.ok_bind, reduceCtorEq, if_false]
      cases v with
      | str s => exact absurd (.inl ⟨rfl, s, rfl⟩) hv
      | _ => rfl
  · rw [if_neg (by decide), if_neg (by decide), if_pos rfl]
    unfold checkCell argOr
    rw [if_neg hne, Res.ok_bind]
    cases v with
    | cell c => cases c with
      | some c => exact absurd (.inr (.inl ⟨rfl, c, rfl⟩)) hv
      | none => rfl
    | _ => rfl
  · rw [if_pos rfl]
    unfold checkSites argOr
    rw [if_neg hne, Res.ok_bind]
    cases v with
    | sites l => exact absurd (.inr (.inr ⟨rfl, l, rfl⟩)) hv
    | _ => rfl

/-- C114: a single site is replaced by `Site` objects only; dictionaries and everything else are refused with 13. -/
theorem C114_site_refused (e : Entries) (entry : Str) (hn : Name entry) (x : Elem) (hx : ∀ s, x ≠ .site s) (n : Int) :
    modifySite e entry (some x) n = .exit 13 := by
  unfold modifySite
  rw [checkAllowed_name hn, Res.ok_bind]
  cases x with
  | site s => exact absurd rfl (hx s)
  | dict d => rfl
  | other => rfl

/-- C114: a name that contains none of the three names is refused with 305, whatever the value. -/
theorem C114_name (e : Entries) (entry : Str)
    (h : ¬ c!"comment" <:+: entry ∧ ¬ c!"unitcell" <:+: entry ∧ ¬ c!"sites" <:+: entry) (v : Val) (x : Option Elem) (n : Int) :
    modify e entry v = .exit 305 ∧ modifySite e entry x n = .exit 305 := by
  have : checkAllowed entry = .exit 305 := by
    unfold checkAllowed
    rw [if_neg]
    simp only [List.any_cons, List.any_nil, Bool.or_false, Bool.or_eq_true, not_or, contains_iff]
    exact h
  unfold modify modifySite
  rw [this]
  exact ⟨rfl, rfl⟩

/-! ### histories -/

/-- The editing calls. -/
inductive Call
  | modify (entry : Str) (v : Val)
  | site (entry : Str) (x : Option Elem) (n : Int)
  | delete (n : Int)

/-- The method that is called. -/
def Call.run (e : Entries) : Call → Res Entries
  | .modify entry v => Poscar.modify e entry v
  | .site entry x n => modifySite e entry x n
  | .delete n => deleteSite e n

/-- Calls of which those that end with an exit or exception change nothing (`self.entries` is assigned last). -/
def runAll (e : Entries) (cs : List Call) : Entries :=
  cs.foldl (fun e c => match c.run e with | .ok e' => e' | _ => e) e

/-- Specification: no value is `None` and the names are those of the entries. -/
def Call.Proper : Call → Prop
  | .modify entry v => Name entry ∧ v ≠ .none
  | .site _ x _ => x ≠ none
  | .delete _ => True

/-- Specification: the elements of a list given for `sites` are `Site` objects. -/
def Call.Sites : Call → Prop
  | .modify _ (.sites l) => ∀ x ∈ l, ∃ s, x = .site s
  | _ => True

/-- The stored sites are `Site` objects. -/
def AllSites (e : Entries) : Prop := ∀ l, e.get? c!"sites" = some (.sites l) → ∀ x ∈ l, ∃ s, x = .site s

theorem typed_set_sites {e : Entries} (he : Typed e) (l : List Elem) : Typed (e.set c!"sites" (.sites l)) := by
  refine ⟨?_, ?_, ⟨l, by rw [Dict.get?_set, if_pos rfl]⟩⟩
  · rw [Dict.get?_set, if_neg (by decide)]; exact he.comment
  · rw [Dict.get?_set, if_neg (by decide)]; exact he.unitcell

theorem run_typed {e e' : Entries} (he : Typed e) (hc : e.get? c!"comment" ≠ some .none) (c : Call) (hp : c.Proper) (h : c.run e = .ok e') :
    Typed e' ∧ e'.get? c!"comment" ≠ some .none ∧ (c.Sites → AllSites e → AllSites e') := by
  cases c with
  | modify entry v =>
    obtain ⟨hn, hv⟩ := hp
    have hf : Fits entry v := by
      by_contra hf
      have := C114_refused e he entry hn v hf hv (fun _ => hc)
      rw [show (Call.modify entry v).run e = Poscar.modify e entry v from rfl, this] at h
      cases h
    obtain ⟨e2, h2, h3, h4, h5⟩ := C114_accepts e he entry v hf
    rw [show (Call.modify entry v).run e = Poscar.modify e entry v from rfl, h2] at h
    cases h
    refine ⟨h5, ?_, ?_⟩
    · by_cases hk : entry = c!"comment"
      · subst hk
        rw [h3]
        rintro ⟨⟩
        exact hv rfl
      · rw [h4 _ (Ne.symm hk)]; exact hc
    · intro hs ha l hl
      by_cases hk : entry = c!"sites"
      · subst hk
        rw [h3] at hl
        cases hl
        exact hs
      · rw [h4 _ (Ne.symm hk)] at hl
        exact ha l hl
  | site entry x n =>
    obtain ⟨l, hl⟩ := he.sites
    cases x with
    | none => exact absurd rfl hp
    | some x =>
    unfold Call.run modifySite at h
    obtain ⟨_, _, h⟩ := Res.bind_eq_ok.1 h
    obtain ⟨_, hx, h⟩ := Res.bind_eq_ok.1 h
    obtain ⟨_, _, h⟩ := Res.bind_eq_ok.1 h
    obtain ⟨w, hw, h⟩ := Res.bind_eq_ok.1 h
    unfold lookup at hw
    rw [hl] at hw
    cases hw
    dsimp only at h
    split at h
    · cases h
      refine ⟨typed_set_sites he _, by rw [Dict.get?_set, if_neg (by decide)]; exact hc, ?_⟩
      intro _ ha l' hl'
      rw [Dict.get?_set, if_pos rfl] at hl'
      cases hl'
      intro y hy
      rcases List.mem_or_eq_of_mem_set hy with hy | hy
      · exact ha l hl y hy
      · subst hy
        cases y with
        | site s => exact ⟨s, rfl⟩
        | dict d => cases hx
        | other => cases hx
    · cases h
  | delete n =>
    obtain ⟨l, hl⟩ := he.sites
    unfold Call.run deleteSite at h
    obtain ⟨_, _, h⟩ := Res.bind_eq_ok.1 h
    obtain ⟨_, _, h⟩ := Res.bind_eq_ok.1 h
    obtain ⟨w, hw, h⟩ := Res.bind_eq_ok.1 h
    unfold lookup at hw
    rw [hl] at hw
    cases hw
    dsimp only at h
    split at h
    · cases h
      refine ⟨typed_set_sites he _, by rw [Dict.get?_set, if_neg (by decide)]; exact hc, ?_⟩
      intro _ ha l' hl'
      rw [Dict.get?_set, if_pos rfl] at hl'
      cases hl'
      intro y hy
      exact ha l hl y (List.mem_of_mem_eraseIdx hy)
    · cases h

/-- C114, histories: as long as no value is `None` and the names are those of the entries, an object with a comment keeps its types through
every history of edits, whatever the other arguments and whether or not calls are refused; and if lists given for `sites` hold `Site`
objects, so do the stored ones. Missing: `None`, other names and lists of other things, for which it is false (`C114_violation_*`). -/
theorem C114_history_partial (e : Entries) (he : Typed e) (hc : e.get? c!"comment" ≠ some .none) (cs : List Call) (hp : ∀ c ∈ cs, c.Proper) :
    Typed (runAll e cs) ∧ validate (runAll e cs) = .ok () ∧ ((∀ c ∈ cs, c.Sites) → AllSites e → AllSites (runAll e cs)) := by
  suffices h : Typed (runAll e cs) ∧ ((∀ c ∈ cs, c.Sites) → AllSites e → AllSites (runAll e cs)) from
    ⟨h.1, (C114_validation _).2 h.1, h.2⟩
  induction cs generalizing e with
  | nil => exact ⟨he, fun _ h => h⟩
  | cons c cs ih =>
    have hp' : ∀ c ∈ cs, c.Proper := fun c hc => hp c (by simp [hc])
    show Typed (runAll (match c.run e with | .ok e' => e' | _ => e) cs) ∧
      (_ → _ → AllSites (runAll (match c.run e with | .ok e' => e' | _ => e) cs))
    cases hr : c.run e with
    | ok e' =>
      obtain ⟨h1, h2, h3⟩ := run_typed he hc c (hp c (by simp)) hr
      obtain ⟨h4, h5⟩ := ih e' h1 h2 hp'
      exact ⟨h4, fun hs ha => h5 (fun c hc => hs c (by simp [hc])) (h3 (hs c (by simp)) ha)⟩
    | exit k =>
      obtain ⟨h4, h5⟩ := ih e he hc hp'
      exact ⟨h4, fun hs ha => h5 (fun c hc => hs c (by simp [hc])) ha⟩
    | raise k =>
      obtain ⟨h4, h5⟩ := ih e he hc hp'
      exact ⟨h4, fun hs ha => h5 (fun c hc => hs c (by simp [hc])) ha⟩

/-! ### where it is false -/

/-- C114 is false for `None`: `modify('unitcell', None)` and `modify('sites', None)` are accepted by every well typed object and leave one
that is not (the check looks at the stored value instead). -/
theorem C114_violation_none (e : Entries) (he : Typed e) (entry : Str) (h : entry = c!"unitcell" ∨ entry = c!"sites") :
    ∃ e', modify e entry .none = .ok e' ∧ e'.get? entry = some .none ∧ ¬ Typed e' := by
  obtain ⟨c, hc⟩ := he.unitcell
  obtain ⟨l, hl⟩ := he.sites
  refine ⟨e.set entry .none, ?_, by rw [Dict.get?_set, if_pos rfl], ?_⟩
  · rcases h with rfl | rfl
    · unfold modify
      rw [checkAllowed_name (.inr (.inl rfl)), Res.ok_bind]
      unfold checkEntry checkCell argOr lookup
      rw [if_neg (by decide), if_neg (by decide), if_pos rfl, if_pos rfl, hc]; rfl
    · unfold modify
      rw [checkAllowed_name (.inr (.inr rfl)), Res.ok_bind]
      unfold checkEntry checkSites argOr lookup
      rw [if_pos rfl, if_pos rfl, hl]; rfl
  · rintro ⟨_, ⟨c', h2⟩, ⟨l', h3⟩⟩
    rcases h with rfl | rfl
    · rw [Dict.get?_set, if_pos rfl] at h2; cases h2
    · rw [Dict.get?_set, if_pos rfl] at h3; cases h3

/-- C114 is false for a single site: `modify('sites', None, i)` stores `None` as site `i` whenever all sites are `Site` objects. -/
theorem C114_violation_site (e : Entries) (a b : List Site) (s : Site)
    (h : e.get? c!"sites" = some (.sites ((a ++ s :: b).map .site))) :
    ∃ e', modifySite e c!"sites" none a.length = .ok e' ∧
      e'.get? c!"sites" = some (.sites (a.map .site ++ .other :: b.map .site)) := by
  have hp : pyIndex (a.length : Int) ((a ++ s :: b).map Elem.site).length = some a.length := by
    unfold pyIndex
    rw [if_pos (by omega), if_pos (by simp)]; simp
  have hn : ¬ (a.length : Int) > (((a ++ s :: b).map Elem.site).length : Int) - 1 := by simp; omega
  have hall : ((a ++ s :: b).map Elem.site).all isSite = true := by
    rw [List.all_eq_true]
    intro x hx
    obtain ⟨y, _, rfl⟩ := List.mem_map.1 hx
    rfl
  refine ⟨e.set c!"sites" (.sites (a.map .site ++ .other :: b.map .site)), ?_, by rw [Dict.get?_set, if_pos rfl]⟩
  unfold modifySite
  rw [checkAllowed_name (.inr (.inr rfl)), Res.ok_bind]
  unfold checkSite checkSiteNumber lookup
  simp only [h, Res.ok_bind, hall, if_true, if_neg hn, hp]
  congr 3
  rw [List.map_append, List.set_append_right _ _ (by simp)]
  simp

/-- C114 is false for lists: `modify('sites', list)` accepts a list of anything. -/
theorem C114_violation_elements (e : Entries) (he : Typed e) (l : List Elem) :
    ∃ e', modify e c!"sites" (.sites l) = .ok e' ∧ e'.get? c!"sites" = some (.sites l) :=
  let ⟨e', h1, h2, _⟩ := C114_accepts e he c!"sites" (.sites l) (.inr (.inr ⟨rfl, l, rfl⟩))
  ⟨e', h1, h2⟩

/-- C114 is false for names: any value is stored under any name that merely contains the name of an entry. -/
theorem C114_violation_name (e : Entries) (a b : Str) (v : Val) (k : Str) (hk : Name k)
    (hn : ¬ Name (a ++ k ++ b)) :
    ∃ e', modify e (a ++ k ++ b) v = .ok e' ∧ e'.get? (a ++ k ++ b) = some v := by
  refine ⟨e.set (a ++ k ++ b) v, ?_, by rw [Dict.get?_set, if_pos rfl]⟩
  have hi : k <:+: a ++ k ++ b := ⟨a, b, rfl⟩
  have ha : checkAllowed (a ++ k ++ b) = .ok () := by
    unfold checkAllowed
    rw [if_pos]
    simp only [List.any_cons, List.any_nil, Bool.or_false, Bool.or_eq_true, contains_iff]
    rcases hk with rfl | rfl | rfl
    · exact .inl hi
    · exact .inr (.inl hi)
    · exact .inr (.inr hi)
  unfold modify
  rw [ha, Res.ok_bind]
  unfold checkEntry
  rw [if_neg (fun h => hn (.inr (.inr h))), if_neg (fun h => hn (.inl h)), if_neg (fun h => hn (.inr (.inl h)))]
  rfl

/-- C114 is false for the comment: once it is `None`, which is allowed, anything is accepted. -/
theorem C114_violation_comment (e : Entries) (he : Typed e) (v : Val) :
    ∃ e' e'', modify e c!"comment" .none = .ok e' ∧ Typed e' ∧ modify e' c!"comment" v = .ok e'' ∧ e''.get? c!"comment" = some v := by
  have h1 : modify e c!"comment" .none = .ok (e.set c!"comment" .none) := by
    unfold modify
    rw [checkAllowed_name (.inl rfl), Res.ok_bind]
    unfold checkEntry checkComment argOr lookup
    rw [if_neg (by decide), if_pos rfl, if_pos rfl]
    rcases he.comment with h | ⟨s, h⟩ <;> rw [h] <;> rfl
  have h2 : (e.set c!"comment" .none).get? c!"comment" = some .none := by rw [Dict.get?_set, if_pos rfl]
  refine ⟨_, (e.set c!"comment" .none).set c!"comment" v, h1, ⟨.inl h2, ?_, ?_⟩, ?_, by rw [Dict.get?_set, if_pos rfl]⟩
  · rw [Dict.get?_set, if_neg (by decide)]; exact he.unitcell
  · rw [Dict.get?_set, if_neg (by decide)]; exact he.sites
  · unfold modify
    rw [checkAllowed_name (.inl rfl), Res.ok_bind]
    unfold checkEntry checkComment argOr lookup
    rw [if_neg (by decide), if_pos rfl, h2]
    split <;> rfl

/-! ### the hypotheses are met -/

/-- Non-vacuity: every object that comes from a text that is accepted is well typed and has a comment. -/
theorem typed_of_init {t : Str} {e : Entries} (h : init { handler := some t } = .ok e) : Typed e := by
  unfold init at h
  split at h
  · cases h
  · obtain ⟨d, _, h⟩ := Res.bind_eq_ok.1 h
    obtain ⟨e', _, h⟩ := Res.bind_eq_ok.1 h
    obtain ⟨_, hv, h⟩ := Res.bind_eq_ok.1 h
    cases h
    exact (C114_validation _).1 hv

/-- Non-vacuity: such an object, and a history with calls that are accepted and calls that are refused. -/
example : ∃ e, init { handler := some c!"a\n1.0\n1 0 0\n0 1 0\n0 0 1\nSi\n2\nDirect\n0 0 0\n0.5 0 0\n" } = .ok e ∧ Typed e ∧
    e.get? c!"comment" ≠ some .none ∧
    (∀ c ∈ [Call.modify c!"comment" (.str c!"new"), .modify c!"unitcell" .other, .site c!"sites" (some .other) 0, .delete 1, .delete 7], c.Proper ∧ c.Sites) ∧
    (Call.modify c!"unitcell" .other).run e = .exit 13 := by
  have h : (init { handler := some c!"a\n1.0\n1 0 0\n0 1 0\n0 0 1\nSi\n2\nDirect\n0 0 0\n0.5 0 0\n" }).isOk = true := by decide +kernel
  cases hi : init { handler := some c!"a\n1.0\n1 0 0\n0 1 0\n0 0 1\nSi\n2\nDirect\n0 0 0\n0.5 0 0\n" } with
  | ok e =>
    have ht := typed_of_init hi
    refine ⟨e, rfl, ht, ?_, ?_, C114_refused e ht c!"unitcell" (.inr (.inl rfl)) .other ?_ (by simp) (fun h => absurd h (by decide))⟩
    · have hc : (match init { handler := some c!"a\n1.0\n1 0 0\n0 1 0\n0 0 1\nSi\n2\nDirect\n0 0 0\n0.5 0 0\n" } with
          | .ok e => decide (e.get? c!"comment" ≠ some .none) | _ => false) = true := by decide +kernel
      rw [hi] at hc
      simpa using hc
    · intro c hc
      simp only [List.mem_cons, List.not_mem_nil, or_false] at hc
      rcases hc with rfl | rfl | rfl | rfl | rfl <;> simp [Call.Proper, Call.Sites, Name]
    · rintro (⟨h, _⟩ | ⟨_, c, h⟩ | ⟨h, _⟩)
      · exact absurd h (by decide)
      · cases h
      · exact absurd h (by decide)
  | exit k => rw [hi] at h; cases h
  | raise k => rw [hi] at h; cases h

end Verif.Poscar.Typing
