import Verif.Props.PoscarHeader
/-! # What becomes of the comment of a POSCAR (C132) -/
set_option autoImplicit false
namespace Verif.Poscar
open Verif Verif.Utils

/-! ### Specification -/

/-- The formula in the header: the species with their numbers, a 1 left out. -/
def formula (species : List Str) (nums : List Nat) : Str :=
  c!"Compound: " ++ ((species.zip nums).flatMap fun p => p.1 ++ if p.2 = 1 then [] else natStr p.2) ++ c!"."

/-- The header, behind `# `, of the first text written. -/
inductive First (comp : Str) : Option Str → Str → Prop
  /-- No comment: the formula alone. -/
  | none : First comp Option.none comp
  /-- The comment has the formula somewhere in it: the comment alone. -/
  | kept {s : Str} (h : comp <:+: s) : First comp (some s) s
  /-- Any other comment is put behind the formula. -/
  | old {s : Str} (h : ¬ comp <:+: s) : First comp (some s) (comp ++ c!" Old comment: " ++ s)

/-- The comments whose first header is the final one. -/
inductive Final (comp : Str) : Option Str → Prop
  | none : Final comp Option.none
  | kept {s : Str} (h : comp <:+: s) (hash : '#' ∉ s) (blank : Stripped s) : Final comp (some s)
  | old {s : Str} (h : ¬ comp <:+: s) (hash : '#' ∉ s) (ne : s ≠ []) (blank : ∀ c, s.getLast? = some c → isSpace c = false) : Final comp (some s)

/-- The comment an object holds. -/
def heldComment (e : Entries) : Option Str :=
  match e.get? c!"comment" with
  | some (.str s) => some s
  | _ => Option.none

/-! ### Proofs -/

theorem first_body (comp : Str) (cm : Option Str) : First comp cm (body comp cm) := by
  cases cm with
  | none => exact .none
  | some s =>
    simp only [body]
    split
    · exact .kept ((contains_iff _ _).1 ‹_›)
    · exact .old fun h => ‹¬ contains comp s = true› ((contains_iff _ _).2 h)

theorem unchanged_iff (x : Str) : strip (x.filter (· != '#')) = x ↔ '#' ∉ x ∧ Stripped x := by
  constructor
  · intro h
    constructor
    · intro hm; rw [← h] at hm; have := mem_of_mem_strip hm; simp at this
    · rw [← h]; exact strip_stripped _
  · rintro ⟨h1, h2⟩; rw [filter_no_hash h1, strip_eq_self h2]

theorem final_iff {comp : Str} (hs : Stripped comp) (hne : comp ≠ []) (hh : '#' ∉ comp) (cm : Option Str) :
    ('#' ∉ body comp cm ∧ Stripped (body comp cm)) ↔ Final comp cm := by
  cases cm with
  | none => exact ⟨fun _ => .none, fun _ => ⟨hh, hs⟩⟩
  | some s =>
    by_cases hc : comp <:+: s
    · have hb : body comp (some s) = s   := by simp only [body]; rw [if_pos ((contains_iff _ _).2 hc)]
      rw [hb]
      refine ⟨fun ⟨h1, h2⟩ => .kept hc h1 h2, fun h => ?_⟩
      cases h with
      | kept _ h1 h2 => exact ⟨h1, h2⟩
      | old h => exact absurd hc h
    · have hb : body comp (some s) = comp ++ c!" Old comment: " ++ s := by
        simp only [body]; rw [if_neg fun h => hc ((contains_iff _ _).1 h)]
      rw [hb]
      have hhead : ∀ x, (comp ++ c!" Old comment: " ++ s).head? = some x → isSpace x = false := by
        intro x hx
        apply hs.1 x
        obtain ⟨y, ys, rfl⟩ := List.exists_cons_of_ne_nil hne
        simpa using hx
      constructor
      · rintro ⟨h1, h2⟩
        simp only [List.mem_append, not_or] at h1
        have hn : s ≠ [] := by
          rintro rfl
          have := h2.2 ' ' (by simp [List.getLast?_append])
          revert this; decide
        refine .old hc h1.2 hn fun x hx => h2.2 x ?_
        rw [List.getLast?_append, hx]; rfl
      · intro h
        cases h with
        | kept h => exact absurd h hc
        | old _ h1 h2 h3 =>
          refine ⟨?_, hhead, ?_⟩
          · simp only [List.mem_append, not_or]
            exact ⟨⟨hh, by decide⟩, h1⟩
          · intro x hx
            apply h3 x
            rw [List.getLast?_append] at hx
            obtain ⟨z, hz⟩ := Option.isSome_iff_exists.1 (List.getLast?_isSome.2 h2)
            rw [hz] at hx ⊢
            simpa using hx

theorem compound_formula {conserve : Bool} {sites : List Site} (h : ∀ s ∈ sites, s.direct = true) :
    compound (group conserve sites).species (group conserve sites).nums = formula (group conserve sites).species (group conserve sites).nums := by
  obtain ⟨hg, _⟩ := wellGrouped_group h conserve
  unfold compound formula
  congr 2
  rw [List.flatMap_def, List.flatMap_def]
  congr 1
  apply List.map_congr_left
  rintro ⟨k, n⟩ hk
  obtain ⟨s, _, rfl⟩ := species_mem hg (List.of_mem_zip hk).1
  simp only [capitalize_getSpecie]

/-- C132: the header of the first text is the formula, the comment if the formula occurs in it, or the formula with the comment behind.
However often the text is then read and written again, the comment read is what the first header has behind its `#` without any other
`#` and without blanks around, the header written is that comment, and this is the first header exactly for the comments in `Final`. -/
theorem C132_comment (prec : Nat) (conserve direct : Bool) (e : Entries) (cm : Option Str) (c : Cell) (sites : List Site)
    (h : Given prec direct e cm c sites) (t0 : Str) (w0 : write prec conserve direct e = .ok t0) :
    ∃ g b, sortAndGroup conserve e = .ok g ∧ First (formula g.species g.nums) cm b ∧ header t0 = some (c!"# " ++ b ++ c!"\n") ∧
      ∀ n en, Rewritten prec conserve direct (n + 1) e en →
        heldComment en = some (strip (b.filter (· != '#'))) ∧
        ∀ tn, write prec conserve direct en = .ok tn →
          header tn = some (c!"# " ++ strip (b.filter (· != '#')) ++ c!"\n") ∧
          (header tn = header t0 ↔ Final (formula g.species g.nums) cm) := by
  refine ⟨_, body (compound (group conserve sites).species (group conserve sites).nums) cm, sortAndGroup_stores h.holds.stores conserve, ?_, ?_, ?_⟩
  · rw [← compound_formula h.holds.direct]; exact first_body _ _
  · rw [settled_header (h.settled conserve) w0, headline_body]
  intro n en hn
  have hset := settled_rewritten hn (h.settled conserve)
  rw [← compound_formula h.holds.direct]
  have hs := compound_stripped (group conserve sites).species (group conserve sites).nums
  have hne := compound_ne (group conserve sites).species (group conserve sites).nums
  have hh := h.compound_ok conserve
  rw [commentAfter_fix hs hne hh] at hset
  have h0 := settled_header (h.settled conserve) w0
  constructor
  · obtain ⟨c', sites', hH, _⟩ := hset.holds
    unfold heldComment
    rw [hH.comment, headline_body, readBack_hash]; rfl
  intro tn wn
  have h1 := settled_header hset wn
  generalize compound (group conserve sites).species (group conserve sites).nums = comp at *
  obtain ⟨r1, r2, r3⟩ := readBack_spec hs hne hh cm
  rw [(headline_fix r1 r2 r3).1, headline_body, readBack_hash] at h1
  refine ⟨h1, ?_⟩
  rw [h0, h1, ← final_iff hs hne hh, ← unchanged_iff, headline_body]
  constructor
  · intro hx
    simpa using hx
  · intro hx; rw [hx]

/-- Non-vacuity: a comment behind a `#` is not final, the same without is. -/
example : Final c!"Compound: H." (some c!"run 2") ∧ ¬ Final c!"Compound: H." (some c!"run #2") := by
  constructor
  · exact .old (by decide) (by decide) (by decide) (by decide)
  · intro h; cases h with
    | kept h h1 => revert h1; decide
    | old h h1 => revert h1; decide

end Verif.Poscar
