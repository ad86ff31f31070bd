import Verif.Props.KpointsRound
/-! # Line-mode KPOINTS read from a string (C138) -/
set_option autoImplicit false
namespace Verif.Kpoints
open Verif Verif.Utils

theorem interPairs_length {α : Type} (x : α) (l : List α) : (interPairs x l).length = l.length + (l.length - 1) / 2 := by
  fun_induction interPairs x l with
  | case1 a b c r ih => simp only [List.length_cons] at ih ⊢; omega
  | case2 l h =>
    match l, h with
    | [], _ => simp
    | [_], _ => simp
    | [_, _], _ => simp
    | a :: b :: c :: r, h => exact absurd rfl (h a b c r)

theorem interPairs_get {α : Type} (x : α) (l : List α) (i : Nat) (hi : i < (interPairs x l).length) :
    (interPairs x l)[i]? = if i % 3 = 2 then some x else l[i - i / 3]? := by
  fun_induction interPairs x l generalizing i with
  | case1 a b c r ih =>
    match i with
    | 0 => rfl
    | 1 => rfl
    | 2 => rfl
    | i + 3 =>
      simp only [List.length_cons] at hi
      have := ih i (by omega)
      simp only [List.getElem?_cons_succ]
      rw [this, show (i + 3) % 3 = i % 3 by omega, show i + 3 - (i + 3) / 3 = (i - i / 3) + 2 by omega]
      simp only [List.getElem?_cons_succ]
  | case2 l h =>
    match l, h with
    | [], _ => simp at hi
    | [_], _ => simp at hi; subst hi; rfl
    | [_, _], _ =>
      simp at hi
      match i, hi with
      | 0, _ => rfl
      | 1, _ => rfl
    | a :: b :: c :: r, h => exact absurd rfl (h a b c r)

/-- C138: what a line-mode KPOINTS with the points `pts`, written and read back from a string, holds: the comment, the number and the mode as
written, and a list in which a point without coordinates follows every second point but the last. Point `j` is at place `j + j / 2`, rounded to
the decimals printed. -/
theorem C138_string (prec : Nat) (e : Entries) (cm : Option Str) (p : Parsed) (pts : List Kpoint)
    (hh : Holds e cm p) (hs : Sound p) (hm : p.mode = c!"line") (hp : p.points = some pts)
    (hpts : ∀ p ∈ pts, p.coord.length = 3) (hcm : OkComment cm) :
    ∃ text e' q, write prec e = .ok text ∧ init { string := some text } = .ok e' ∧
      Holds e' (some (shownComment cm)) { comment := shownComment cm, num := p.num, mode := c!"line", points := some q } ∧
      q.length = pts.length + (pts.length - 1) / 2 ∧
      (∀ j k, pts[j]? = some k → q[j + j / 2]? = some (⟨k.coord.map (roundDec prec), some 1, true⟩ : Kpoint)) ∧
      (∀ i, i < q.length → i % 3 = 2 → q[i]? = some (⟨[], some 1, true⟩ : Kpoint)) ∧
      (q = pts.map (fun k => (⟨k.coord.map (roundDec prec), some 1, true⟩ : Kpoint)) ↔ pts.length ≤ 2) := by
  obtain ⟨text, hw, h1, h2⟩ := path_read prec e cm p _ hh hs hm hp hpts hcm
  have sound : Sound (pathParsed cm p.num (interPairs ⟨[], some 1, true⟩ (pts.map (Kpoint.onPath prec)))) :=
    ⟨.inr (.inl (by simp [pathParsed])), by simp [pathParsed], by simp [pathParsed], .inr (.inr rfl)⟩
  have hv := validate_holds (holds_toEntries _) sound
  have e3 : fromList (splitlines text) = .ok (Parsed.toEntries (pathParsed cm p.num (interPairs ⟨[], some 1, true⟩ (pts.map (Kpoint.onPath prec))))) := by
    unfold fromList; rw [h2]; rfl
  have hlen := interPairs_length (⟨[], some 1, true⟩ : Kpoint) (pts.map (Kpoint.onPath prec))
  rw [List.length_map] at hlen
  refine ⟨text, _, _, hw, ?_, holds_toEntries (pathParsed cm p.num _), hlen, ?_, ?_, ?_⟩
  · unfold init
    rw [if_neg (by simp [guards])]
    have hl : load { string := some text } = fromList (splitlines text) := rfl
    rw [hl, e3]
    simp only [Res.ok_bind]
    rw [hv]
    rfl
  · intro j k hj
    have hjl := (List.getElem?_eq_some_iff.1 hj).1
    rw [interPairs_get _ _ _ (by rw [hlen]; omega), if_neg (by omega), show j + j / 2 - (j + j / 2) / 3 = j by omega, List.getElem?_map, hj]
    rfl
  · intro i hi h3
    rw [interPairs_get _ _ _ hi, if_pos h3]
  · constructor
    · intro h
      have := congrArg List.length h
      rw [hlen, List.length_map] at this
      omega
    · intro hl
      match pts, hl with
      | [], _ => rfl
      | [_], _ => rfl
      | [_, _], _ => rfl

/-- Non-vacuity: five points at places 0, 1, 3, 4 and 6. -/
example : interPairs 0 [1, 2, 3, 4, 5] = [1, 2, 0, 3, 4, 0, 5] := rfl

end Verif.Kpoints
