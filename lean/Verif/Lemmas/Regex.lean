import Verif.Spec.Regex
import Verif.Model.Utils
import Verif.Lemmas.Str
/-! # Matching one piece after the other -/
set_option autoImplicit false
namespace Verif.Regex
open Verif Verif.Utils

/-- Another piece in front. -/
def push (m : Str) (y : List Str × Str) : List Str × Str := (m :: y.1, y.2)
/-- Another character at the front of the first piece. -/
def grow (c : Char) (y : List Str × Str) : List Str × Str := match y.1 with
  | [] => y
  | m :: ms => ((c :: m) :: ms, y.2)

@[simp] theorem grow_push (c : Char) (m : Str) (y : List Str × Str) : grow c (push m y) = push (c :: m) y := rfl

theorem head_flatMap {α β : Type} (l : List α) (f : α → List β) : (l.flatMap f).head? = l.findSome? fun a => (f a).head? := by
  induction l with
  | nil => rfl
  | cons a l ih =>
    rw [List.flatMap_cons, List.head?_append, ih, List.findSome?_cons]
    cases (f a).head? <;> rfl

theorem first_nil (s : Str) : first [] s = some ([], s) := rfl

theorem first_cons (x : Piece) (r : List Piece) (s : Str) : first (x :: r) s = (ways x s).findSome? fun y => (first r y.2).map (push y.1) := by
  unfold first
  rw [run, head_flatMap]
  congr 1
  funext y
  rw [List.head?_map]; rfl

theorem first_one_nil (p : Char → Bool) (r : List Piece) : first (.one p :: r) [] = none := by rw [first_cons]; rfl

theorem first_one_cons (p : Char → Bool) (r : List Piece) (c : Char) (cs : Str) :
    first (.one p :: r) (c :: cs) = if p c then (first r cs).map (push [c]) else none := by
  rw [first_cons, ways, oneWay]
  split
  · simp only [List.findSome?_cons, List.findSome?_nil]
    cases (first r cs).map (push [c]) <;> rfl
  · rfl

theorem first_ahead (q : Str → Bool) (r : List Piece) (s : Str) : first (.ahead q :: r) s = if q s then (first r s).map (push []) else none := by
  rw [first_cons, ways]
  split
  · simp only [List.findSome?_cons, List.findSome?_nil]
    cases (first r s).map (push []) <;> rfl
  · rfl

theorem findSome_append {α β : Type} (f : α → Option β) (a b : List α) : (a ++ b).findSome? f = (a.findSome? f).or (b.findSome? f) := by
  rw [List.findSome?_append]

theorem findSome_grow (c : Char) (r : List Piece) (l : List (Str × Str)) :
    (l.map fun x => (c :: x.1, x.2)).findSome? (fun y => (first r y.2).map (push y.1)) =
      (l.findSome? fun y => (first r y.2).map (push y.1)).map (grow c) := by
  induction l with
  | nil => rfl
  | cons x l ih =>
    rw [List.map_cons, List.findSome?_cons, List.findSome?_cons, ih]
    cases first r x.2 <;> rfl

theorem first_star_take {p : Char → Bool} (r : List Piece) {c : Char} (cs : Str) (h : p c = true) :
    first (.star p :: r) (c :: cs) = ((first (.star p :: r) cs).map (grow c)).or ((first r (c :: cs)).map (push [])) := by
  rw [first_cons, ways, starWays, if_pos h, findSome_append, findSome_grow, first_cons, ways]
  congr 1
  simp only [List.findSome?_cons, List.findSome?_nil]
  cases (first r (c :: cs)).map (push []) <;> rfl

theorem starWays_stop {p : Char → Bool} {s : Str} (h : ∀ c, s.head? = some c → p c = false) : starWays p s = [([], s)] := by
  cases s with
  | nil => rfl
  | cons c cs => rw [starWays, if_neg (by simp [h c rfl])]

theorem findSome_one (r : List Piece) (s : Str) :
    ([(([] : Str), s)] : List (Str × Str)).findSome? (fun y => (first r y.2).map (push y.1)) = (first r s).map (push []) := by
  simp only [List.findSome?_cons, List.findSome?_nil]
  cases (first r s).map (push []) <;> rfl

theorem first_star_stop {p : Char → Bool} (r : List Piece) {s : Str} (h : ∀ c, s.head? = some c → p c = false) :
    first (.star p :: r) s = (first r s).map (push []) := by
  rw [first_cons, ways, starWays_stop h, findSome_one]

theorem first_lazy_take {p : Char → Bool} (r : List Piece) {c : Char} (cs : Str) (h : p c = true) :
    first (.lazy p :: r) (c :: cs) = ((first r (c :: cs)).map (push [])).or ((first (.lazy p :: r) cs).map (grow c)) := by
  rw [first_cons, ways, starWays, if_pos h, List.reverse_append, List.reverse_singleton, findSome_append, ← List.map_reverse, findSome_grow, findSome_one,
    first_cons, ways]

theorem first_lazy_stop {p : Char → Bool} (r : List Piece) {s : Str} (h : ∀ c, s.head? = some c → p c = false) :
    first (.lazy p :: r) s = (first r s).map (push []) := by
  rw [first_cons, ways, starWays_stop h, List.reverse_singleton, findSome_one]

theorem first_opt (p : Char → Bool) (r : List Piece) (s : Str) : first (.opt p :: r) s = (first (.one p :: r) s).or ((first r s).map (push [])) := by
  rw [first_cons, ways, findSome_append, findSome_one, first_cons, ways]

/-- If what follows matches behind all characters of the class, that is the match. -/
theorem first_star_longest {p : Char → Bool} {r : List Piece} (s : Str) {y : List Str × Str} (h : first r (spanP p s).2 = some y) :
    first (.star p :: r) s = some (push (spanP p s).1 y) := by
  induction s with
  | nil => rw [first_star_stop _ (by simp)]; rw [show (spanP p []) = ([], []) from rfl] at *; rw [h]; rfl
  | cons c cs ih =>
    by_cases hc : p c = true
    · simp only [spanP, hc, if_true] at h ⊢
      rw [first_star_take _ _ hc, ih h]; rfl
    · have hc : p c = false := by simpa using hc
      simp only [spanP, hc, Bool.false_eq_true, if_false] at h ⊢
      rw [first_star_stop _ (by intro d hd; cases hd; exact hc), h]; rfl

/-- If what follows cannot begin with a character of the class, all characters of the class are taken. -/
theorem first_star_only {p : Char → Bool} {r : List Piece} (hr : ∀ c t, p c = true → first r (c :: t) = none) (s : Str) :
    first (.star p :: r) s = (first r (spanP p s).2).map (push (spanP p s).1) := by
  induction s with
  | nil => rw [first_star_stop _ (by simp)]; rfl
  | cons c cs ih =>
    by_cases hc : p c = true
    · simp only [spanP, hc, if_true]
      rw [first_star_take _ _ hc, ih, hr c cs hc]
      cases first r (spanP p cs).2 <;> rfl
    · have hc : p c = false := by simpa using hc
      simp only [spanP, hc, Bool.false_eq_true, if_false]
      exact first_star_stop _ (by intro d hd; cases hd; exact hc)

theorem first_lits (l : Str) (r : List Piece) (s : Str) :
    first (lits l ++ r) s = (dropPrefix? l s).bind fun t => (first r t).map fun y => (l.map (fun c => [c]) ++ y.1, y.2) := by
  induction l generalizing s with
  | nil =>
    show first r s = _
    simp only [dropPrefix?, Option.bind_some, List.map_nil, List.nil_append]
    cases first r s <;> rfl
  | cons a l ih =>
    show first (.one (· == a) :: (lits l ++ r)) s = _
    cases s with
    | nil => rw [first_one_nil]; rfl
    | cons b s =>
      rw [first_one_cons, dropPrefix?]
      by_cases hab : a = b
      · subst hab
        simp only [beq_self_eq_true, if_true]
        rw [ih]
        cases dropPrefix? l s with
        | none => rfl
        | some t => cases hf : first r t <;> simp [hf, push]
      · have : (b == a) = false := by simpa using fun h => hab h.symm
        simp only [this, Bool.false_eq_true, if_false, hab]; rfl

end Verif.Regex
