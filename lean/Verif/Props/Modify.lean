import Verif.Props.PoscarTyped
import Verif.Props.KpointsEdit
/-! # Exactly which `modify(entry, value)` calls are accepted (C130) -/
set_option autoImplicit false

/-! ### POSCAR -/

namespace Verif.Poscar.Typing
open Verif Verif.Utils Verif.Lattice Verif.Poscar

/-- Specification: the calls `modify(entry, value)` that a `Poscar` accepts. A value that fits its entry; `None` for each entry; any
value for the comment while the comment is `None`; any value under another name in which one of the three names occurs. -/
def Accepts (e : Entries) (entry : Str) (v : Val) : Prop :=
  Fits entry v ∨ Name entry ∧ v = .none ∨ entry = c!"comment" ∧ e.get? c!"comment" = some .none ∨
    ¬ Name entry ∧ (c!"comment" <:+: entry ∨ c!"unitcell" <:+: entry ∨ c!"sites" <:+: entry)

/-- C130, POSCAR: on every well typed object, `modify` returns normally exactly for the calls of the specification, and then it has
stored the value under the name and changed nothing else. -/
theorem C130_poscar (e : Entries) (he : Typed e) (entry : Str) (v : Val) (e' : Entries) :
    modify e entry v = .ok e' ↔ Accepts e entry v ∧ e' = e.set entry v := by
  by_cases hn : Name entry
  · have hal := checkAllowed_name hn
    have hm : modify e entry v = checkEntry e entry v >>= fun _ => .ok (e.set entry v) := by
      unfold modify; rw [hal]; rfl
    by_cases hf : Fits entry v ∨ v = .none ∨ entry = c!"comment" ∧ e.get? c!"comment" = some .none
    · have hc : checkEntry e entry v = .ok () := by
        rcases hf with hf | rfl | ⟨rfl, h0⟩
        · obtain ⟨e1, h1, _⟩ := C114_accepts e he entry v hf
          rw [hm, Res.bind_eq_ok] at h1
          obtain ⟨_, h1, _⟩ := h1
          exact h1
        · obtain ⟨h1, ⟨c, h2⟩, ⟨l, h3⟩⟩ := he
          unfold checkEntry checkComment checkCell checkSites argOr lookup
          rcases hn with rfl | rfl | rfl
          · rcases h1 with h1 | ⟨s, h1⟩ <;> simp [h1]
          · simp [h2]
          · simp [h3]
        · unfold checkEntry checkComment argOr lookup
          rw [if_neg (by decide), if_pos rfl]
          simp only [h0]
          split <;> simp
      rw [hm, hc, Res.ok_bind]
      have ha : Accepts e entry v := by
        rcases hf with hf | hf | hf
        · exact .inl hf
        · exact .inr (.inl ⟨hn, hf⟩)
        · exact .inr (.inr (.inl hf))
      exact ⟨fun h => ⟨ha, by cases h; rfl⟩, fun h => by rw [h.2]⟩
    · rw [not_or, not_or] at hf
      have := C114_refused e he entry hn v hf.1 hf.2.1 (fun h h' => hf.2.2 ⟨h, h'⟩)
      rw [this]
      refine ⟨fun h => (by cases h), fun h => ?_⟩
      rcases h.1 with h | h | h | h
      · exact absurd h hf.1
      · exact absurd h.2 hf.2.1
      · exact absurd h hf.2.2
      · exact absurd hn h.1
  · have hentry : checkEntry e entry v = .ok () := by
      unfold checkEntry
      rw [if_neg fun h => hn (.inr (.inr h)), if_neg fun h => hn (.inl h), if_neg fun h => hn (.inr (.inl h))]
    by_cases hi : c!"comment" <:+: entry ∨ c!"unitcell" <:+: entry ∨ c!"sites" <:+: entry
    · have hal : checkAllowed entry = .ok () := by
        unfold checkAllowed
        rw [if_pos]
        simp only [List.any_cons, List.any_nil, Bool.or_false, Bool.or_eq_true, contains_iff]
        exact hi
      unfold modify
      rw [hal, Res.ok_bind, hentry, Res.ok_bind]
      exact ⟨fun h => ⟨.inr (.inr (.inr ⟨hn, hi⟩)), by cases h; rfl⟩, fun h => by rw [h.2]⟩
    · rw [not_or, not_or] at hi
      rw [(C114_name e entry hi v none 0).1]
      refine ⟨fun h => (by cases h), fun h => ?_⟩
      rcases h.1 with h | h | h | h
      · rcases h with h | h | h
        · exact absurd (.inl h.1) hn
        · exact absurd (.inr (.inl h.1)) hn
        · exact absurd (.inr (.inr h.1)) hn
      · exact absurd h.1 hn
      · exact absurd (.inl h.1) hn
      · rcases h.2 with h | h | h
        · exact absurd h hi.1
        · exact absurd h hi.2.1
        · exact absurd h hi.2.2

/-- Non-vacuity: a list of sites is accepted, a string as unit cell is not. -/
example (e : Entries) (l : List Elem) (s : Str) : Accepts e c!"sites" (.sites l) ∧ ¬ Accepts e c!"unitcell" (.str s) := by
  refine ⟨.inl (.inr (.inr ⟨rfl, l, rfl⟩)), fun h => ?_⟩
  rcases h with h | h | h | h
  · rcases h with h | ⟨_, c, h⟩ | h
    · exact absurd h.1 (by decide)
    · cases h
    · exact absurd h.1 (by decide)
  · cases h.2
  · exact absurd h.1 (by decide)
  · exact h.1 (.inr (.inl rfl))

end Verif.Poscar.Typing

/-! ### KPOINTS -/

namespace Verif.Kpoints
open Verif Verif.Utils

/-- The names `modify` asks for. -/
def names : List Str :=
  [c!"comment", c!"points", c!"tetra", c!"tetra_volume", c!"divisions", c!"mode", c!"num_kpoints", c!"shifts", c!"centering"]

/-- Specification: the calls `modify(entry, value)` that a `Kpoints` accepts. A well typed value; `None` for each entry but the
points; any value for the comment while the comment is `None`; any value under another name in which one of the nine names occurs. -/
def Accepts (e : Entries) (entry : Str) (v : Val) : Prop :=
  WellTyped entry v ∨ entry ∈ names ∧ entry ≠ c!"points" ∧ v = .none ∨ entry = c!"comment" ∧ e.get? c!"comment" = some .none ∨
    entry ∉ names ∧ ∃ k ∈ names, k <:+: entry

theorem hints (l : List Elem) : l.all isInt = true ↔ ∃ ns : List Int, l = ns.map fun n => .atom (.int n) := by
  refine all_map _ _ ?_ l
  intro b
  unfold isInt
  split
  · simp
  · rename_i h; simp; intro x hx; exact h x hx

theorem hfloats (l : List Elem) : l.all isFloat = true ↔ ∃ ns : List Rat, l = ns.map fun n => .atom (.float n) := by
  refine all_map _ _ ?_ l
  intro b
  unfold isFloat
  split
  · simp
  · rename_i h; simp; intro x hx; exact h x hx

theorem htetra (l : List Elem) : (Res.mapM' checkTetraElem l >>= fun _ => Res.ok ()) = .ok () ↔
    ∃ rs : List (List Int), (∀ r ∈ rs, r.length = 5) ∧ l = rs.map fun r => .list (r.map .int) := by
  have hatomi : ∀ l : List Atom, l.all (fun | .int _ => true | _ => false) = true ↔ ∃ ns : List Int, l = ns.map .int := by
    intro l
    refine all_map _ _ ?_ l
    intro b
    cases b <;> simp
  rw [mapM'_unit_ok]
  constructor
  · intro h
    induction l with
    | nil => exact ⟨[], by simp, rfl⟩
    | cons b bs ih =>
      obtain ⟨rs, h1, h2⟩ := ih fun x hx => h x (by simp [hx])
      have hb := h b (by simp)
      unfold checkTetraElem at hb
      split at hb
      · rename_i r
        split at hb
        · cases hb
        · rename_i hlen
          split at hb
          · rename_i hall
            obtain ⟨ns, rfl⟩ := (hatomi r).1 hall
            refine ⟨ns :: rs, ?_, by rw [h2]; rfl⟩
            intro x hx
            rcases List.mem_cons.1 hx with rfl | hx
            · simpa using hlen
            · exact h1 x hx
          · cases hb
      · cases hb
  · rintro ⟨rs, h1, rfl⟩ b hb
    obtain ⟨r, hr, rfl⟩ := List.mem_map.1 hb
    unfold checkTetraElem
    simp only [List.length_map, h1 r hr, ne_eq, not_true_eq_false, if_false]
    exact if_pos ((hatomi _).2 ⟨r, rfl⟩)

theorem argOr_some {e : Entries} {k : Str} {v : Val} (h : v ≠ .none) : argOr e k v = .ok v := by
  unfold argOr; rw [if_neg h]

/-- A value other than `None` passes the check of its entry only if it is well typed (or, for the comment, the comment is `None`). -/
theorem wellTyped_of_check {e : Entries} {entry : Str} {v : Val} (hn : entry ∈ names) (hv : v ≠ .none)
    (h : checkEntry e entry v = .ok ()) : WellTyped entry v ∨ entry = c!"comment" ∧ e.get? c!"comment" = some .none := by
  simp only [names, List.mem_cons, List.not_mem_nil, or_false] at hn
  rcases hn with rfl | rfl | rfl | rfl | rfl | rfl | rfl | rfl | rfl
  · replace h : checkComment e v = .ok () := h
    unfold checkComment lookup at h
    rw [argOr_some hv, Res.ok_bind] at h
    cases hc : e.get? c!"comment" with
    | none => rw [hc] at h; cases h
    | some w =>
      rw [hc] at h
      simp only [Res.ok_bind] at h
      split at h
      · rename_i hw; exact .inr ⟨rfl, by rw [hw]⟩
      · split at h
        · exact .inl (.comment _)
        · cases h
  · left
    replace h : (checkPoints e v >>= fun _ => checkDirect v) = .ok () := h
    obtain ⟨_, h1, h2⟩ := Res.bind_eq_ok.1 h
    unfold checkPoints at h1
    rw [argOr_some hv, Res.ok_bind] at h1
    split at h1
    · exact absurd rfl hv
    · rename_i l
      unfold checkDirect at h2
      dsimp only at h2
      rw [mapM'_unit_ok] at h2
      have : ∃ ps : List Kpoint, (∀ p ∈ ps, p.direct = true) ∧ l = ps.map fun p => .atom (.point p) := by
        clear hv h h1
        induction l with
        | nil => exact ⟨[], by simp, rfl⟩
        | cons b bs ih =>
          obtain ⟨ps, h3, h4⟩ := ih fun x hx => h2 x (by simp [hx])
          have hb := h2 b (by simp)
          split at hb
          · rename_i p
            split at hb
            · rename_i hd
              exact ⟨p :: ps, by simpa using ⟨hd, h3⟩, by rw [h4]; rfl⟩
            · cases hb
          · cases hb
      obtain ⟨ps, h3, rfl⟩ := this
      exact .points ps h3
    · cases h1
  · left
    replace h : checkTetra e v = .ok () := h
    unfold checkTetra at h
    rw [argOr_some hv, Res.ok_bind] at h
    split at h
    · exact absurd rfl hv
    · obtain ⟨rs, h1, rfl⟩ := (htetra _).1 h
      exact .tetra rs h1
    · cases h
  · left
    replace h : checkTetraVolume e v = .ok () := h
    unfold checkTetraVolume at h
    rw [argOr_some hv, Res.ok_bind] at h
    split at h
    · exact absurd rfl hv
    · exact .volume _
    · cases h
  · left
    replace h : checkDivisions e v = .ok () := h
    unfold checkDivisions at h
    rw [argOr_some hv, Res.ok_bind] at h
    split at h
    · exact absurd rfl hv
    · split at h
      · rename_i hl
        obtain ⟨ns, rfl⟩ := (hints _).1 hl
        exact .divisions ns
      · cases h
    · cases h
  · left
    replace h : checkMode e v = .ok () := h
    unfold checkMode at h
    rw [argOr_some hv, Res.ok_bind] at h
    split at h
    · exact absurd rfl hv
    · split at h
      · rename_i hs
        exact .mode _ (by simpa using hs)
      · cases h
    · cases h
  · left
    replace h : checkNum e v = .ok () := h
    unfold checkNum at h
    rw [argOr_some hv, Res.ok_bind] at h
    split at h
    · exact .num _
    · cases h
  · left
    replace h : checkShifts e v = .ok () := h
    unfold checkShifts at h
    rw [argOr_some hv, Res.ok_bind] at h
    split at h
    · exact absurd rfl hv
    · split at h
      · rename_i hl
        obtain ⟨ns, rfl⟩ := (hfloats _).1 hl
        exact .shifts ns
      · cases h
    · cases h
  · left
    replace h : checkCentering e v = .ok () := h
    unfold checkCentering at h
    rw [argOr_some hv, Res.ok_bind] at h
    split at h
    · exact absurd rfl hv
    · split at h
      · rename_i hs
        exact .centering _ (by simpa using hs)
      · cases h
    · cases h

theorem wellTyped_name {entry : Str} {v : Val} (h : WellTyped entry v) : entry ∈ names := by
  cases h <;> decide

theorem checkAllowed_iff (entry : Str) : checkAllowed entry = .ok () ↔ ∃ k ∈ names, k <:+: entry := by
  unfold checkAllowed
  have : (names.any fun k => contains k entry) = true ↔ ∃ k ∈ names, k <:+: entry := by
    simp only [List.any_eq_true, contains_iff]
  unfold names at *
  rw [← this]
  split
  · rename_i h; exact ⟨fun _ => h, fun _ => rfl⟩
  · rename_i h; exact ⟨fun h' => (by cases h'), fun h' => absurd h' h⟩

/-- C130, KPOINTS: on every valid object, `modify` returns normally exactly for the calls of the specification, and then it has
stored the value under the name and changed nothing else. -/
theorem C130_kpoints (e : Entries) (he : ValidEntries e) (entry : Str) (v : Val) (e' : Entries) :
    modify e entry v none = .ok e' ↔ Accepts e entry v ∧ e' = e.set entry v := by
  have hval := (C24_validation e).2 he
  obtain ⟨hd, v2, v3, v4, v5, v6, v7, v8, v9, v10, v11⟩ := (validate_ok_iff e).1 hval
  have hm : modify e entry v none = .ok e' ↔ (∃ k ∈ names, k <:+: entry) ∧ checkEntry e entry v = .ok () ∧ e' = e.set entry v := by
    rw [← checkAllowed_iff]
    unfold modify
    rw [Res.bind_eq_ok, hd]
    simp only [Res.ok_bind, Res.bind_eq_ok]
    constructor
    · rintro ⟨_, h1, _, h2, h3⟩
      exact ⟨h1, h2, by cases h3; rfl⟩
    · rintro ⟨h1, h2, h3⟩
      exact ⟨(), h1, (), h2, by rw [h3]⟩
  rw [hm]
  by_cases hn : entry ∈ names
  · have hi : ∃ k ∈ names, k <:+: entry := ⟨entry, hn, List.infix_refl _⟩
    have key : checkEntry e entry v = .ok () ↔ Accepts e entry v := by
      constructor
      · intro h
        by_cases hv : v = .none
        · subst hv
          by_cases hp : entry = c!"points"
          · subst hp
            replace h : (checkPoints e .none >>= fun _ => checkDirect .none) = .ok () := h
            rw [v3] at h; cases h
          · exact .inr (.inl ⟨hn, hp, rfl⟩)
        · rcases wellTyped_of_check hn hv h with h | h
          · exact .inl h
          · exact .inr (.inr (.inl h))
      · rintro (h | ⟨_, hp, rfl⟩ | ⟨rfl, h⟩ | h)
        · obtain ⟨e1, h1, _⟩ := C25_modify_partial hval h
          unfold modify at h1
          obtain ⟨_, _, h1⟩ := Res.bind_eq_ok.1 h1
          obtain ⟨_, _, h1⟩ := Res.bind_eq_ok.1 h1
          obtain ⟨_, h1, _⟩ := Res.bind_eq_ok.1 h1
          exact h1
        · simp only [names, List.mem_cons, List.not_mem_nil, or_false] at hn
          rcases hn with rfl | rfl | rfl | rfl | rfl | rfl | rfl | rfl | rfl
          · exact v2
          · exact absurd rfl hp
          · exact v10
          · exact v11
          · exact v5
          · exact v8
          · exact v9
          · exact v7
          · exact v4
        · show checkComment e v = .ok ()
          unfold checkComment argOr lookup
          simp only [h]
          split <;> simp
        · exact absurd hn h.1
    rw [key]
    exact ⟨fun h => h.2, fun h => ⟨hi, h⟩⟩
  · constructor
    · rintro ⟨h1, h2, h3⟩
      exact ⟨.inr (.inr (.inr ⟨hn, h1⟩)), h3⟩
    · rintro ⟨h | h | h | h, h3⟩
      · exact absurd (wellTyped_name h) hn
      · exact absurd h.1 hn
      · exact absurd (show entry ∈ names by rw [h.1]; decide) hn
      · refine ⟨h.2, ?_, h3⟩
        have hne : ∀ k ∈ names, entry ≠ k := fun k hk h' => hn (h' ▸ hk)
        have hg : entry ≠ c!"generating_vectors" := by
          rintro rfl
          have := (checkAllowed_iff c!"generating_vectors").2 h.2
          exact absurd this (by decide)
        unfold checkEntry
        rw [if_neg (hne _ (by decide)), if_neg (hne _ (by decide)), if_neg (hne _ (by decide)), if_neg hg, if_neg (hne _ (by decide)),
          if_neg (hne _ (by decide)), if_neg (hne _ (by decide)), if_neg (hne _ (by decide)), if_neg (hne _ (by decide)),
          if_neg (hne _ (by decide))]

/-- Non-vacuity: divisions are accepted, `None` as points is not, on any object. -/
example (e : Entries) (ns : List Int) : Accepts e c!"divisions" (atomsVal .int ns) ∧ ¬ Accepts e c!"points" .none := by
  refine ⟨.inl (.divisions ns), ?_⟩
  rintro (h | h | h | h)
  · generalize hv : Val.none = v at h
    generalize hk : c!"points" = k at h
    cases h <;> first | (cases hv; done) | (exact absurd hk (by decide))
  · exact h.2.1 rfl
  · exact absurd h.1 (by decide)
  · exact h.1 (by decide)

end Verif.Kpoints
