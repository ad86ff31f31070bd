import Verif.Props.KpointsEdit
/-! # Exactly which edits keep a KPOINTS object well typed (C141, the exact form of C24) -/
set_option autoImplicit false
namespace Verif.Kpoints
open Verif

/-- Specification: the call on the object `e` keeps it well typed. Only three kinds of calls do not: `None` as number of points, a comment that is
neither a text nor `None`, and `None` for the divisions of an object with neither points nor generating vectors. -/
def Proper (e : Entries) : Op → Prop
  | .modify entry v none => (entry = c!"num_kpoints" → v ≠ .none) ∧ (entry = c!"comment" → v = .none ∨ ∃ s, v = .str s) ∧
      (entry = c!"divisions" → v = .none → ∃ k ∈ [c!"points", c!"generating_vectors"], ∃ w, e.get? k = some w ∧ w ≠ .none)
  | _ => True

theorem valid_unset_divisions {e : Entries} (h : ValidEntries e)
    (hs : ∃ k ∈ [c!"points", c!"generating_vectors"], ∃ w, e.get? k = some w ∧ w ≠ .none) : ValidEntries (e.set c!"divisions" .none) := by
  have hf : ∀ k : Str, k ≠ c!"divisions" → (e.set c!"divisions" .none).get? k = e.get? k := by
    intro k hk; rw [Dict.get?_set, if_neg (Ne.symm hk)]
  obtain ⟨k, hk, w, hw, hn⟩ := hs
  refine ⟨⟨k, List.mem_cons_of_mem _ hk, w, ?_, hn⟩, .inl (by rw [Dict.get?_set, if_pos rfl]), ?_, ?_, ?_, ?_, ?_, ?_, ?_, ?_, ?_⟩
  · rw [hf]
    · exact hw
    · simp only [List.mem_cons, List.not_mem_nil, or_false] at hk
      rcases hk with rfl | rfl <;> decide
  · rw [hf _ (by decide)]; exact h.comment
  · rw [hf _ (by decide)]; exact h.points
  · rw [hf _ (by decide)]; exact h.centering
  · rw [hf _ (by decide)]; exact h.vectors
  · rw [hf _ (by decide)]; exact h.shifts
  · rw [hf _ (by decide)]; exact h.mode
  · rw [hf _ (by decide)]; exact h.num
  · rw [hf _ (by decide)]; exact h.tetra
  · rw [hf _ (by decide)]; exact h.volume

/-- A call that returned with a value for an entry stored it. -/
theorem modify_stores {e e' : Entries} {entry : Str} {v : Val} (hr : Kpoints.modify e entry v none = .ok e') : e' = e.set entry v := by
  unfold Kpoints.modify at hr
  simp only [Res.bind_eq_ok] at hr
  obtain ⟨_, _, _, _, _, _, hr⟩ := hr
  cases hr; rfl

/-- C141. On a well typed object, a call that returns normally leaves a well typed object exactly if it is proper. -/
theorem C141_call {e e' : Entries} {op : Op} (h : ValidEntries e) (hr : op.run e = .ok e') : ValidEntries e' ↔ Proper e op := by
  constructor
  · intro h'
    cases op with
    | delete n => trivial
    | modify entry v n =>
      cases n with
      | some n => trivial
      | none =>
        have he : e' = e.set entry v := modify_stores hr
        subst he
        refine ⟨?_, ?_, ?_⟩
        · rintro rfl rfl
          obtain ⟨n, hn⟩ := h'.num
          rw [Dict.get?_set, if_pos rfl] at hn
          cases hn
        · rintro rfl
          rcases h'.comment with hc | ⟨s, hc⟩
          · rw [Dict.get?_set, if_pos rfl] at hc; left; exact Option.some.inj hc
          · rw [Dict.get?_set, if_pos rfl] at hc; right; exact ⟨s, Option.some.inj hc⟩
        · rintro rfl rfl
          obtain ⟨k, hk, w, hw, hn⟩ := h'.something
          simp only [List.mem_cons, List.not_mem_nil, or_false] at hk
          rcases hk with rfl | rfl | rfl
          · rw [Dict.get?_set, if_pos rfl] at hw; exact absurd (Option.some.inj hw).symm hn
          · rw [Dict.get?_set, if_neg (by decide)] at hw; exact ⟨_, by simp, w, hw, hn⟩
          · rw [Dict.get?_set, if_neg (by decide)] at hw; exact ⟨_, by simp, w, hw, hn⟩
  · intro hp
    by_cases hd : ∃ entry v, op = .modify entry v none ∧ entry = c!"divisions" ∧ v = .none
    · obtain ⟨entry, v, rfl, rfl, rfl⟩ := hd
      have he : e' = e.set c!"divisions" .none := modify_stores hr
      subst he
      exact valid_unset_divisions h (hp.2.2 rfl rfl)
    · rw [← C24_validation] at h ⊢
      refine validate_step h hr ?_
      cases op with
      | delete n => trivial
      | modify entry v n =>
        cases n with
        | some n => trivial
        | none => exact ⟨hp.1, fun h1 h2 => hd ⟨entry, v, rfl, h1, h2⟩, hp.2.1⟩

/-- Specification: every object a history of calls passes through, the last included, has the property. -/
inductive Along (P : Entries → Prop) : Entries → List Op → Entries → Prop
  | nil {e} : P e → Along P e [] e
  | cons {e e' e''} {op ops} : P e → op.run e = .ok e' → Along P e' ops e'' → Along P e (op :: ops) e''

/-- Specification: every call of a history is proper for the object it is made on. -/
inductive AllProper : Entries → List Op → Entries → Prop
  | nil (e) : AllProper e [] e
  | cons {e e' e''} {op ops} : Proper e op → op.run e = .ok e' → AllProper e' ops e'' → AllProper e (op :: ops) e''

/-- C141, histories: an object stays well typed all along a history exactly if every call in it is proper. -/
theorem C141_history {e e' : Entries} {ops : List Op} (h : ValidEntries e) (hr : Runs e ops e') :
    Along ValidEntries e ops e' ↔ AllProper e ops e' := by
  induction hr with
  | nil e => exact ⟨fun _ => .nil e, fun _ => .nil h⟩
  | @cons e e1 e2 op ops h1 h2 ih =>
    constructor
    · intro ha
      cases ha with
      | cons _ g1 g2 =>
        rw [h1] at g1; cases g1
        have hv : ValidEntries e1 := by cases g2 <;> assumption
        exact .cons ((C141_call h h1).1 hv) h1 ((ih hv).1 g2)
    · intro ha
      cases ha with
      | cons g0 g1 g2 =>
        rw [h1] at g1; cases g1
        have hv : ValidEntries e1 := (C141_call h h1).2 g0
        exact .cons h h1 ((ih hv).2 g2)

/-- C141, the exit codes: validating the object an improper call leaves exits 13 (number of points, comment) or 206 (divisions). -/
theorem C141_refused {e e' : Entries} {op : Op} (h : ValidEntries e) (hr : op.run e = .ok e') (hp : ¬ Proper e op) :
    validate e' = .exit 13 ∨ validate e' = .exit 206 := by
  cases op with
  | delete n => exact absurd trivial hp
  | modify entry v n =>
    cases n with
    | some n => exact absurd trivial hp
    | none =>
      have he : e' = e.set entry v := modify_stores hr
      subst he
      have h0 := (validate_ok_iff e).1 ((C24_validation e).2 h)
      obtain ⟨h1, h2, h3, h4, h5, h6, h7, h8, h9, h10, h11⟩ := h0
      by_cases hn : entry = c!"num_kpoints"
      · subst hn
        have hv : v = .none := by
          by_contra hc
          exact hp ⟨fun _ => hc, fun h => absurd h (by decide), fun h => absurd h (by decide)⟩
        subst hv
        left
        unfold validate
        rw [checkDict_frame e _ _ (by decide) (by decide) (by decide), h1, Res.ok_bind, checkComment_frame e _ _ (by decide), h2, Res.ok_bind]
        unfold checkPoints at h3 ⊢; rw [argOr_frame e _ (by decide), h3, Res.ok_bind]
        unfold checkCentering at h4 ⊢; rw [argOr_frame e _ (by decide), h4, Res.ok_bind]
        unfold checkDivisions at h5 ⊢; rw [argOr_frame e _ (by decide), h5, Res.ok_bind]
        unfold checkVectors at h6 ⊢; rw [argOr_frame e _ (by decide), h6, Res.ok_bind]
        unfold checkShifts at h7 ⊢; rw [argOr_frame e _ (by decide), h7, Res.ok_bind]
        unfold checkMode at h8 ⊢; rw [argOr_frame e _ (by decide), h8, Res.ok_bind]
        unfold checkNum; rw [argOr_hit]; rfl
      · by_cases hc : entry = c!"comment"
        · subst hc
          have hv : ¬ (v = .none ∨ ∃ s, v = .str s) := by
            intro hc
            exact hp ⟨fun h => absurd h (by decide), fun _ => hc, fun h => absurd h (by decide)⟩
          left
          unfold validate
          rw [checkDict_frame e _ _ (by decide) (by decide) (by decide), h1, Res.ok_bind]
          unfold checkComment
          rw [argOr_hit, lookup_hit, Res.ok_bind, Res.ok_bind, if_neg fun h => hv (.inl h)]
          match v, hv with
          | .atom (.str s), hv => exact absurd (.inr ⟨s, rfl⟩) hv
          | .atom .none, hv => exact absurd (.inl rfl) hv
          | .atom (.int _), _ => rfl
          | .atom (.float _), _ => rfl
          | .atom (.point _), _ => rfl
          | .atom .other, _ => rfl
          | .list _, _ => rfl
        · by_cases hd : entry = c!"divisions" ∧ v = .none
          · obtain ⟨rfl, rfl⟩ := hd
            have hs : ¬ ∃ k ∈ [c!"points", c!"generating_vectors"], ∃ w, e.get? k = some w ∧ w ≠ .none := by
              intro hs
              exact hp ⟨fun h => absurd h (by decide), fun h => absurd h (by decide), fun _ _ => hs⟩
            have hpn : e.get? c!"points" = some .none := by
              rcases h.points with h | ⟨l, h⟩
              · exact h
              · exact absurd ⟨_, by simp, _, h, by simp⟩ hs
            have hvn : e.get? c!"generating_vectors" = some .none := by
              rcases h.vectors with h | ⟨l, h⟩
              · exact h
              · exact absurd ⟨_, by simp, _, h, by simp⟩ hs
            right
            unfold validate checkDict
            rw [lookup_hit, lookup_frame e _ (by decide), lookup_frame e _ (by decide)]
            unfold lookup
            rw [hpn, hvn]
            rfl
          · exact absurd ⟨fun h => absurd h hn, fun h => absurd h hc, fun h1 h2 => absurd ⟨h1, h2⟩ hd⟩ hp

/-- Non-vacuity: a proper history (divisions unset on an object with points), and an improper call. -/
example : ∃ e', Runs exampleExplicit.toEntries [.modify c!"divisions" .none none, .modify c!"comment" .none none, .modify c!"comment" (.int 5) none] e' ∧
    validate exampleExplicit.toEntries = .ok () ∧ validate e' = .exit 13 :=
  ⟨_, .cons rfl (.cons rfl (.cons rfl (.nil _))), by decide +kernel, by decide +kernel⟩

example : ¬ Proper exampleExplicit.toEntries (.modify c!"num_kpoints" .none none) ∧ Proper exampleExplicit.toEntries (.modify c!"divisions" .none none) := by
  refine ⟨fun h => h.1 rfl rfl, fun h => absurd h (by decide), fun h => absurd h (by decide), fun _ _ => ?_⟩
  exact ⟨c!"points", by simp, _, rfl, by decide +kernel⟩

end Verif.Kpoints
