import Verif.Props.PoscarTyped
/-! # Exactly which edits keep a POSCAR object well typed (C142, the exact form of C114) -/
set_option autoImplicit false
namespace Verif.Poscar.Typing
open Verif Verif.Poscar
open Verif.Kpoints (pyIndex)

/-- Specification: a text or `None` as comment, a 3x3 array as unit cell, a list of `Site` objects as sites. -/
def Intact (e : Entries) : Prop :=
  (e.get? c!"comment" = some .none ∨ ∃ s, e.get? c!"comment" = some (.str s)) ∧ (∃ c, e.get? c!"unitcell" = some (.cell (some c))) ∧
    ∃ l : List Site, e.get? c!"sites" = some (.sites (l.map .site))

/-- Specification: the calls that keep an object so. The others set the comment to something that is neither a text nor `None`, the unit cell, the
sites or a single site to `None`, or the sites to a list of other things. -/
def Call.Keeps : Call → Prop
  | .modify entry v => (entry = c!"comment" → v = .none ∨ ∃ s, v = .str s) ∧ (entry = c!"unitcell" → v ≠ .none) ∧
      (entry = c!"sites" → ∃ l : List Site, v = .sites (l.map .site))
  | .site _ x _ => x ≠ none
  | .delete _ => True

theorem sites_list {l : List Elem} (h : ∀ x ∈ l, ∃ s, x = Elem.site s) : ∃ ss : List Site, l = ss.map .site := by
  induction l with
  | nil => exact ⟨[], rfl⟩
  | cons x xs ih =>
    obtain ⟨s, rfl⟩ := h x (by simp)
    obtain ⟨ss, rfl⟩ := ih fun y hy => h y (by simp [hy])
    exact ⟨s :: ss, rfl⟩

theorem Intact.typed {e : Entries} (h : Intact e) : Typed e := ⟨h.1, h.2.1, let ⟨l, hl⟩ := h.2.2; ⟨_, hl⟩⟩

theorem intact_iff (e : Entries) : Intact e ↔ Typed e ∧ AllSites e := by
  constructor
  · intro h
    refine ⟨h.typed, ?_⟩
    obtain ⟨l, hl⟩ := h.2.2
    intro l' hl' x hx
    rw [hl] at hl'
    cases hl'
    obtain ⟨s, _, rfl⟩ := List.mem_map.1 hx
    exact ⟨s, rfl⟩
  · rintro ⟨h1, h2⟩
    obtain ⟨l, hl⟩ := h1.sites
    obtain ⟨ss, rfl⟩ := sites_list (h2 l hl)
    exact ⟨h1.comment, h1.unitcell, ss, hl⟩

theorem intact_set_sites {e : Entries} (h : Intact e) (l : List Site) : Intact (e.set c!"sites" (.sites (l.map .site))) := by
  refine ⟨?_, ?_, l, by rw [Dict.get?_set, if_pos rfl]⟩
  · rw [Dict.get?_set, if_neg (by decide)]; exact h.1
  · rw [Dict.get?_set, if_neg (by decide)]; exact h.2.1

/-- C142. On a well typed object of `Site` objects, a call that returns normally leaves such an object exactly if it is one of those that keep it. -/
theorem C142_call {e e' : Entries} {c : Call} (h : Intact e) (hr : c.run e = .ok e') : Intact e' ↔ c.Keeps := by
  cases c with
  | modify entry v =>
    unfold Call.run Poscar.modify at hr
    obtain ⟨_, _, hr⟩ := Res.bind_eq_ok.1 hr
    obtain ⟨_, hce, hr⟩ := Res.bind_eq_ok.1 hr
    cases hr
    constructor
    · rintro ⟨h1, ⟨c, h2⟩, l, h3⟩
      refine ⟨?_, ?_, ?_⟩
      · rintro rfl
        rw [Dict.get?_set, if_pos rfl] at h1
        rcases h1 with h1 | ⟨s, h1⟩
        · exact .inl (Option.some.inj h1)
        · exact .inr ⟨s, Option.some.inj h1⟩
      · rintro rfl rfl
        rw [Dict.get?_set, if_pos rfl] at h2
        cases h2
      · rintro rfl
        rw [Dict.get?_set, if_pos rfl] at h3
        exact ⟨l, Option.some.inj h3⟩
    · rintro ⟨k1, k2, k3⟩
      by_cases hc : entry = c!"comment"
      · subst hc
        refine ⟨?_, ?_, ?_⟩
        · rw [Dict.get?_set, if_pos rfl]
          rcases k1 rfl with rfl | ⟨s, rfl⟩
          · exact .inl rfl
          · exact .inr ⟨s, rfl⟩
        · rw [Dict.get?_set, if_neg (by decide)]; exact h.2.1
        · rw [Dict.get?_set, if_neg (by decide)]; exact h.2.2
      · by_cases hu : entry = c!"unitcell"
        · subst hu
          refine ⟨?_, ?_, ?_⟩
          · rw [Dict.get?_set, if_neg (by decide)]; exact h.1
          · rw [Dict.get?_set, if_pos rfl]
            unfold checkEntry checkCell argOr at hce
            rw [if_neg (by decide), if_neg (by decide), if_pos rfl, if_neg (k2 rfl), Res.ok_bind] at hce
            split at hce
            · exact ⟨_, rfl⟩
            · cases hce
          · rw [Dict.get?_set, if_neg (by decide)]; exact h.2.2
        · by_cases hs : entry = c!"sites"
          · subst hs
            obtain ⟨l, rfl⟩ := k3 rfl
            exact intact_set_sites h l
          · refine ⟨?_, ?_, ?_⟩
            · rw [Dict.get?_set, if_neg hc]; exact h.1
            · rw [Dict.get?_set, if_neg hu]; exact h.2.1
            · rw [Dict.get?_set, if_neg hs]; exact h.2.2
  | site entry x n =>
    obtain ⟨l, hl⟩ := h.2.2
    unfold Call.run modifySite at hr
    obtain ⟨_, _, hr⟩ := Res.bind_eq_ok.1 hr
    obtain ⟨_, hx, hr⟩ := Res.bind_eq_ok.1 hr
    obtain ⟨_, _, hr⟩ := Res.bind_eq_ok.1 hr
    obtain ⟨w, hw, hr⟩ := Res.bind_eq_ok.1 hr
    unfold lookup at hw
    rw [hl] at hw
    cases hw
    dsimp only at hr
    split at hr
    · rename_i i hi
      have hil : i < (l.map Elem.site).length := by
        unfold pyIndex at hi
        split at hi
        · split at hi
          · cases hi; omega
          · cases hi
        · split at hi
          · cases hi; omega
          · cases hi
      cases hr
      cases x with
      | none =>
        refine iff_of_false ?_ (fun h => h rfl)
        rintro ⟨_, _, l', hl'⟩
        rw [Dict.get?_set, if_pos rfl] at hl'
        have hm : Elem.other ∈ (l.map Elem.site).set i Elem.other := List.mem_set hil _
        have he : (l.map Elem.site).set i Elem.other = l'.map Elem.site := by simpa using hl'
        rw [he] at hm
        obtain ⟨s, _, hs⟩ := List.mem_map.1 hm
        cases hs
      | some x =>
        refine iff_of_true ?_ (by simp [Call.Keeps])
        cases x with
        | site s =>
          have := intact_set_sites h (l.set i s)
          rwa [List.map_set] at this
        | dict d => cases hx
        | other => cases hx
    · cases hr
  | delete n =>
    obtain ⟨l, hl⟩ := h.2.2
    unfold Call.run deleteSite at hr
    obtain ⟨_, _, hr⟩ := Res.bind_eq_ok.1 hr
    obtain ⟨_, _, hr⟩ := Res.bind_eq_ok.1 hr
    obtain ⟨w, hw, hr⟩ := Res.bind_eq_ok.1 hr
    unfold lookup at hw
    rw [hl] at hw
    cases hw
    dsimp only at hr
    split at hr
    · cases hr
      refine iff_of_true ?_ trivial
      have := intact_set_sites h (l.eraseIdx (by assumption))
      rwa [← List.eraseIdx_map] at this
    · cases hr

/-- Specification: what a history of calls, of which some may fail, does: the objects it passes through. -/
inductive Passes (P : Entries → Prop) : Entries → List Call → Prop
  | nil {e} : P e → Passes P e []
  | done {e e'} {c cs} : P e → c.run e = .ok e' → Passes P e' cs → Passes P e (c :: cs)
  | failed {e} {c cs} : P e → (∀ e', c.run e ≠ .ok e') → Passes P e cs → Passes P e (c :: cs)

/-- Specification: every call of a history that returns normally is one that keeps the object well typed. -/
inductive KeepsAll : Entries → List Call → Prop
  | nil (e) : KeepsAll e []
  | done {e e'} {c cs} : c.run e = .ok e' → c.Keeps → KeepsAll e' cs → KeepsAll e (c :: cs)
  | failed {e} {c cs} : (∀ e', c.run e ≠ .ok e') → KeepsAll e cs → KeepsAll e (c :: cs)

/-- C142, histories: an object is well typed all along a history of calls exactly if every call that was not refused is one of those that keep it. -/
theorem C142_history (cs : List Call) : ∀ (e : Entries), Intact e → (Passes Intact e cs ↔ KeepsAll e cs) := by
  induction cs with
  | nil => exact fun e h => ⟨fun _ => .nil e, fun _ => .nil h⟩
  | cons c cs ih =>
    intro e h
    constructor
    · intro hp
      cases hp with
      | @done _ e' _ _ _ h1 h2 =>
        have hi : Intact e' := by cases h2 <;> assumption
        exact .done h1 ((C142_call h h1).1 hi) ((ih e' hi).1 h2)
      | failed _ h1 h2 => exact .failed h1 ((ih e h).1 h2)
    · intro hp
      cases hp with
      | @done _ e' _ _ h1 hk h2 =>
        have hi : Intact e' := (C142_call h h1).2 hk
        exact .done h h1 ((ih e' hi).2 h2)
      | failed h1 h2 => exact .failed h h1 ((ih e h).2 h2)

/-- C142: the object the history ends with, if every call keeps it: it passes the class's own validation. -/
theorem C142_end (cs : List Call) (e : Entries) (h : Intact e) (hk : ∀ c ∈ cs, c.Keeps) : Intact (runAll e cs) ∧ validate (runAll e cs) = .ok () := by
  suffices hi : Intact (runAll e cs) from ⟨hi, (C114_validation _).2 hi.typed⟩
  induction cs generalizing e with
  | nil => exact h
  | cons c cs ih =>
    show Intact (runAll (match c.run e with | .ok e' => e' | _ => e) cs)
    have hk' : ∀ c ∈ cs, c.Keeps := fun c hc => hk c (by simp [hc])
    cases hr : c.run e with
    | ok e' => exact ih e' ((C142_call h hr).2 (hk c (by simp))) hk'
    | exit k => exact ih e h hk'
    | raise k => exact ih e h hk'

/-- Non-vacuity: an object, calls that keep it (one of them refused), and one that does not. -/
def sampleIntact (s : Site) : Entries :=
  [(c!"comment", .none), (c!"unitcell", .cell (some ⟨⟨1, 0, 0⟩, ⟨0, 1, 0⟩, ⟨0, 0, 1⟩⟩)), (c!"sites", .sites [.site s, .site s])]

example (s : Site) : Intact (sampleIntact s) ∧ (∀ c ∈ [Call.modify c!"comment" (.str c!"x"), .delete 0, .delete 7, .site c!"sites" (some (.site s)) 0], c.Keeps) ∧
    ¬ (Call.modify c!"unitcell" .none).Keeps ∧ ∃ e', (Call.modify c!"unitcell" .none).run (sampleIntact s) = .ok e' := by
  refine ⟨⟨.inl rfl, ⟨_, rfl⟩, [s, s], rfl⟩, ?_, fun h => h.2.1 rfl rfl, _, rfl⟩
  intro c hc
  simp only [List.mem_cons, List.not_mem_nil, or_false] at hc
  rcases hc with rfl | rfl | rfl | rfl
  · exact ⟨fun _ => .inr ⟨_, rfl⟩, fun h => absurd h (by decide), fun h => absurd h (by decide)⟩
  · trivial
  · trivial
  · exact (by simp [Call.Keeps])

end Verif.Poscar.Typing
