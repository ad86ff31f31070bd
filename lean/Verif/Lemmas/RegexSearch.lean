import Verif.Lemmas.Regex
/-! # Matches and decompositions of the text -/
set_option autoImplicit false
namespace Verif.Regex
open Verif Verif.Utils

/-- A piece can take `m` in front of `t`. -/
def Fits : Piece → Str → Str → Prop
  | .one p, m, _ => ∃ c, m = [c] ∧ p c = true
  | .opt p, m, _ => m = [] ∨ ∃ c, m = [c] ∧ p c = true
  | .star p, m, _ => ∀ c ∈ m, p c = true
  | .lazy p, m, _ => ∀ c ∈ m, p c = true
  | .ahead q, m, t => m = [] ∧ q t = true

/-- The pieces can take `ms` in front of `t`. -/
def FitsAll : List Piece → List Str → Str → Prop
  | [], ms, _ => ms = []
  | x :: r, ms, t => ∃ m ms', ms = m :: ms' ∧ Fits x m (ms'.flatten ++ t) ∧ FitsAll r ms' t

theorem mem_starWays (p : Char → Bool) (s m t : Str) : (m, t) ∈ starWays p s ↔ s = m ++ t ∧ ∀ c ∈ m, p c = true := by
  induction s generalizing m with
  | nil =>
    simp only [starWays, List.mem_singleton, Prod.mk.injEq]
    constructor
    · rintro ⟨rfl, rfl⟩; simp
    · rintro ⟨h, -⟩
      have := List.append_eq_nil_iff.1 h.symm
      exact this
  | cons c cs ih =>
    rw [starWays]
    split
    · rename_i hc
      simp only [List.mem_append, List.mem_map, List.mem_singleton, Prod.mk.injEq, Prod.exists]
      constructor
      · rintro (⟨m', t', h, rfl, rfl⟩ | ⟨rfl, rfl⟩)
        · obtain ⟨h1, h2⟩ := (ih m').1 h
          exact ⟨by rw [h1]; rfl, by simpa [hc] using h2⟩
        · simp
      · rintro ⟨h1, h2⟩
        cases m with
        | nil => exact .inr ⟨rfl, h1.symm⟩
        | cons d m =>
          simp only [List.cons_append, List.cons.injEq] at h1
          obtain ⟨rfl, h1⟩ := h1
          exact .inl ⟨m, t, (ih m).2 ⟨h1, fun x hx => h2 x (by simp [hx])⟩, rfl, rfl⟩
    · rename_i hc
      simp only [List.mem_singleton, Prod.mk.injEq]
      constructor
      · rintro ⟨rfl, rfl⟩; simp
      · rintro ⟨h1, h2⟩
        cases m with
        | nil => exact ⟨rfl, h1.symm⟩
        | cons d m =>
          simp only [List.cons_append, List.cons.injEq] at h1
          exact absurd (h1.1 ▸ h2 d (by simp)) hc

theorem mem_oneWay (p : Char → Bool) (s m t : Str) : (m, t) ∈ oneWay p s ↔ s = m ++ t ∧ ∃ c, m = [c] ∧ p c = true := by
  cases s with
  | nil =>
    simp only [oneWay, List.not_mem_nil, false_iff]
    rintro ⟨h, c, rfl, -⟩; cases h
  | cons c cs =>
    rw [oneWay]
    split
    · rename_i hc
      simp only [List.mem_singleton, Prod.mk.injEq]
      constructor
      · rintro ⟨rfl, rfl⟩; exact ⟨rfl, c, rfl, hc⟩
      · rintro ⟨h, d, rfl, -⟩; cases h; exact ⟨rfl, rfl⟩
    · rename_i hc
      simp only [List.not_mem_nil, false_iff]
      rintro ⟨h, d, rfl, hd⟩; cases h; exact hc hd

theorem mem_ways (x : Piece) (s m t : Str) : (m, t) ∈ ways x s ↔ s = m ++ t ∧ Fits x m t := by
  cases x with
  | one p => exact mem_oneWay p s m t
  | opt p =>
    simp only [ways, List.mem_append, mem_oneWay, List.mem_singleton, Prod.mk.injEq, Fits]
    constructor
    · rintro (⟨h1, h2⟩ | ⟨rfl, rfl⟩)
      · exact ⟨h1, .inr h2⟩
      · exact ⟨rfl, .inl rfl⟩
    · rintro ⟨h1, rfl | h2⟩
      · exact .inr ⟨rfl, h1.symm⟩
      · exact .inl ⟨h1, h2⟩
  | star p => exact mem_starWays p s m t
  | «lazy» p => simp only [ways, List.mem_reverse]; exact mem_starWays p s m t
  | ahead q =>
    simp only [ways, Fits]
    split
    · rename_i hq
      simp only [List.mem_singleton, Prod.mk.injEq]
      constructor
      · rintro ⟨rfl, rfl⟩; exact ⟨rfl, rfl, hq⟩
      · rintro ⟨h1, rfl, -⟩; exact ⟨rfl, h1.symm⟩
    · rename_i hq
      simp only [List.not_mem_nil, false_iff]
      rintro ⟨h1, rfl, h⟩
      exact hq (by rw [h1]; exact h)

/-- The engine tries exactly the decompositions of the text the pieces allow. -/
theorem mem_run (r : List Piece) (s : Str) (ms : List Str) (t : Str) : (ms, t) ∈ run r s ↔ s = ms.flatten ++ t ∧ FitsAll r ms t := by
  induction r generalizing s ms with
  | nil =>
    simp only [run, List.mem_singleton, Prod.mk.injEq, FitsAll]
    constructor
    · rintro ⟨rfl, rfl⟩; simp
    · rintro ⟨h, rfl⟩; exact ⟨rfl, by simpa using h.symm⟩
  | cons x r ih =>
    simp only [run, List.mem_flatMap, List.mem_map, Prod.mk.injEq, Prod.exists, FitsAll]
    constructor
    · rintro ⟨m, u, hm, ms', t', h, rfl, rfl⟩
      obtain ⟨h1, h2⟩ := (ih u ms').1 h
      obtain ⟨h3, h4⟩ := (mem_ways x s m u).1 hm
      exact ⟨by rw [h3, h1]; simp, m, ms', rfl, by rw [← h1]; exact h4, h2⟩
    · rintro ⟨h1, m, ms', rfl, h2, h3⟩
      refine ⟨m, ms'.flatten ++ t, (mem_ways x s m _).2 ⟨by rw [h1]; simp, h2⟩, ms', t, (ih _ ms').2 ⟨rfl, h3⟩, rfl, rfl⟩

theorem first_mem {r : List Piece} {s : Str} {y : List Str × Str} (h : first r s = some y) : s = y.1.flatten ++ y.2 ∧ FitsAll r y.1 y.2 :=
  (mem_run r s y.1 y.2).1 (List.mem_of_mem_head? h)

theorem first_isSome {r : List Piece} {s : Str} : (first r s).isSome = true ↔ ∃ ms t, s = ms.flatten ++ t ∧ FitsAll r ms t := by
  constructor
  · intro h
    obtain ⟨y, hy⟩ := Option.isSome_iff_exists.1 h
    exact ⟨y.1, y.2, first_mem hy⟩
  · rintro ⟨ms, t, h⟩
    have := (mem_run r s ms t).2 h
    unfold first
    cases hr : run r s with
    | nil => rw [hr] at this; cases this
    | cons a l => rfl

theorem search_isSome {r : List Piece} {s : Str} : (search r s).isSome = true ↔ ∃ a b, s = a ++ b ∧ (first r b).isSome = true := by
  induction s with
  | nil =>
    rw [search, Option.isSome_map]
    constructor
    · intro h; exact ⟨[], [], rfl, h⟩
    · rintro ⟨a, b, h, hb⟩
      obtain ⟨rfl, rfl⟩ := List.append_eq_nil_iff.1 h.symm
      exact hb
  | cons c cs ih =>
    rw [search]
    cases hf : first r (c :: cs) with
    | some y =>
      simp only [Option.isSome_some, true_iff]
      exact ⟨[], c :: cs, rfl, by rw [hf]; rfl⟩
    | none =>
      simp only [Option.isSome_map]
      rw [ih]
      constructor
      · rintro ⟨a, b, rfl, hb⟩; exact ⟨c :: a, b, rfl, hb⟩
      · rintro ⟨a, b, h, hb⟩
        cases a with
        | nil =>
          simp only [List.nil_append] at h
          rw [← h, hf] at hb; cases hb
        | cons d a =>
          simp only [List.cons_append, List.cons.injEq] at h
          exact ⟨a, b, h.2, hb⟩

/-- A match of the search is a decomposition of the text. -/
theorem search_mem {r : List Piece} {s a t : Str} {ms : List Str} (h : search r s = some (a, ms, t)) : s = a ++ (ms.flatten ++ t) ∧ FitsAll r ms t := by
  induction s generalizing a with
  | nil =>
    rw [search] at h
    cases hf : first r [] with
    | none => rw [hf] at h; cases h
    | some y => rw [hf] at h; cases h; exact first_mem hf
  | cons c cs ih =>
    rw [search] at h
    cases hf : first r (c :: cs) with
    | some y => rw [hf] at h; cases h; exact first_mem hf
    | none =>
      rw [hf] at h
      cases hs : search r cs with
      | none => rw [hs] at h; cases h
      | some z =>
        obtain ⟨a', ms', t'⟩ := z
        rw [hs] at h
        cases h
        obtain ⟨h1, h2⟩ := ih hs
        exact ⟨by rw [h1]; rfl, h2⟩

theorem fitsAll_lits (l : Str) (r : List Piece) (ms : List Str) (t : Str) :
    FitsAll (lits l ++ r) ms t ↔ ∃ ms', ms = l.map (fun c => [c]) ++ ms' ∧ FitsAll r ms' t := by
  induction l generalizing ms with
  | nil => simp [lits]
  | cons a l ih =>
    show FitsAll (.one (· == a) :: (lits l ++ r)) ms t ↔ _
    simp only [FitsAll, Fits, ih]
    constructor
    · rintro ⟨m, ms', rfl, ⟨c, rfl, hc⟩, ms'', rfl, h⟩
      simp only [beq_iff_eq] at hc
      subst hc
      exact ⟨ms'', rfl, h⟩
    · rintro ⟨ms', rfl, h⟩
      exact ⟨[a], _, rfl, ⟨a, rfl, by simp⟩, ms', rfl, h⟩

theorem flatten_singles (l : Str) : (l.map fun c => [c]).flatten = l := by
  induction l with
  | nil => rfl
  | cons a l ih => simp only [List.map_cons, List.flatten_cons, ih]; rfl

end Verif.Regex
