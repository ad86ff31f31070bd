import Mathlib.Data.List.Forall2

/-!
# Outcomes of Python code: normal return, `sys.exit(code)`, uncaught exception

Vocabulary only (no file of /repo is modelled here).  `Res.exit n` is `SystemExit` with code `n` raised by
`sys.exit(n)`; `Res.raise e` is an uncaught exception of kind `e`.
-/
set_option autoImplicit false
namespace Verif

/-- Kinds of uncaught Python exceptions met in parsevasp. `outOfModel` marks inputs the model does not describe
(documented where used); no theorem claims anything positive about such an outcome. -/
inductive Exc
  | valueError | typeError | indexError | keyError | attributeError | notImplementedError | unboundLocalError
  | zeroDivisionError | linAlgError | reError | overflowError | outOfModel
  deriving DecidableEq, Repr

/-- Outcome of a call. -/
inductive Res (α : Type _)
  | ok (a : α)
  | exit (code : Nat)
  | raise (e : Exc)
  deriving DecidableEq, Repr

namespace Res

/-- Sequencing: the first abnormal outcome wins. -/
def bind {α β} (x : Res α) (f : α → Res β) : Res β :=
  match x with
  | ok a => f a
  | exit c => exit c
  | raise e => raise e

instance : Monad Res where
  pure := Res.ok
  bind := Res.bind

@[simp] theorem ok_bind {α β} (a : α) (f : α → Res β) : (Res.ok a >>= f) = f a := rfl
@[simp] theorem exit_bind {α β} (c : Nat) (f : α → Res β) : ((Res.exit c : Res α) >>= f) = Res.exit c := rfl
@[simp] theorem raise_bind {α β} (e : Exc) (f : α → Res β) : ((Res.raise e : Res α) >>= f) = Res.raise e := rfl
@[simp] theorem pure_eq {α} (a : α) : (pure a : Res α) = Res.ok a := rfl
@[simp] theorem map_ok {α β} (a : α) (f : α → β) : (f <$> (Res.ok a)) = Res.ok (f a) := rfl
@[simp] theorem map_exit {α β} (c : Nat) (f : α → β) : (f <$> (Res.exit c : Res α)) = Res.exit c := rfl
@[simp] theorem map_raise {α β} (e : Exc) (f : α → β) : (f <$> (Res.raise e : Res α)) = Res.raise e := rfl

instance : LawfulMonad Res := LawfulMonad.mk'
  (id_map := by intro α x; cases x <;> rfl)
  (pure_bind := by intros; rfl)
  (bind_assoc := by intro α β γ x f g; cases x <;> rfl)

/-- The value of a normal return. -/
def toOption {α} : Res α → Option α
  | ok a => some a
  | _ => none

/-- Did the call return normally? -/
def isOk {α} : Res α → Bool
  | ok _ => true
  | _ => false

theorem bind_eq_ok {α β} {x : Res α} {f : α → Res β} {b : β} :
    (x >>= f) = Res.ok b ↔ ∃ a, x = Res.ok a ∧ f a = Res.ok b := by
  cases x <;> simp

/-- Evaluate a list of calls from left to right (a Python list comprehension / for loop that appends). -/
def mapM' {α β} (f : α → Res β) : List α → Res (List β)
  | [] => .ok []
  | a :: as => match f a with
    | .ok b => match mapM' f as with
      | .ok bs => .ok (b :: bs)
      | .exit c => .exit c
      | .raise e => .raise e
    | .exit c => .exit c
    | .raise e => .raise e

/-- Loop with an accumulator, stopping at the first abnormal outcome. -/
def foldlM' {α σ} (f : σ → α → Res σ) : σ → List α → Res σ
  | s, [] => .ok s
  | s, a :: as => match f s a with
    | .ok s' => foldlM' f s' as
    | .exit c => .exit c
    | .raise e => .raise e

theorem mapM'_ok_of_forall {α β} {f : α → Res β} {g : α → β} (l : List α) (h : ∀ a ∈ l, f a = .ok (g a)) :
    mapM' f l = .ok (l.map g) := by
  induction l with
  | nil => rfl
  | cons a as ih =>
    have h1 := h a (by simp)
    have h2 := ih (fun b hb => h b (by simp [hb]))
    simp [mapM', h1, h2]

theorem mapM'_eq_ok {α β} {f : α → Res β} {l : List α} {r : List β} :
    mapM' f l = .ok r ↔ List.Forall₂ (fun a b => f a = .ok b) l r := by
  induction l generalizing r with
  | nil => cases r <;> simp [mapM']
  | cons a as ih =>
    cases hfa : f a with
    | ok b =>
      cases hm : mapM' f as with
      | ok bs =>
        simp only [mapM', hfa, hm, ok.injEq]
        constructor
        · rintro rfl; exact .cons hfa (ih.1 hm)
        · intro h; cases h with
          | cons h1 h2 => rw [hfa] at h1; cases h1; rw [← ih, hm] at h2; cases h2; rfl
      | exit c => simp only [mapM', hfa, hm]; constructor
                  · intro h; cases h
                  · intro h; cases h with | cons h1 h2 => rw [← ih, hm] at h2; cases h2
      | raise e => simp only [mapM', hfa, hm]; constructor
                   · intro h; cases h
                   · intro h; cases h with | cons h1 h2 => rw [← ih, hm] at h2; cases h2
    | exit c => simp only [mapM', hfa]; constructor
                · intro h; cases h
                · intro h; cases h with | cons h1 h2 => rw [hfa] at h1; cases h1
    | raise e => simp only [mapM', hfa]; constructor
                 · intro h; cases h
                 · intro h; cases h with | cons h1 h2 => rw [hfa] at h1; cases h1

theorem foldlM'_append {α σ} (f : σ → α → Res σ) (s : σ) (l₁ l₂ : List α) :
    foldlM' f s (l₁ ++ l₂) = (foldlM' f s l₁ >>= fun s' => foldlM' f s' l₂) := by
  induction l₁ generalizing s with
  | nil => rfl
  | cons a as ih =>
    simp only [List.cons_append, foldlM']
    cases f s a <;> simp [ih]

end Res
end Verif
