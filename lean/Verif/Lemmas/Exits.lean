import Verif.Py.Res
/-! # Which exit codes a call can produce -/
set_option autoImplicit false
namespace Verif

/-- Every exit code of `r` satisfies `S`. -/
structure ExitsIn {α} (S : Nat → Prop) (r : Res α) : Prop where
  of : ∀ k, r = .exit k → S k

namespace ExitsIn
variable {S : Nat → Prop} {α β : Type _}

theorem ok (a : α) : ExitsIn S (.ok a) := ⟨by intro k h; cases h⟩
theorem raise (e : Exc) : ExitsIn S (.raise e : Res α) := ⟨by intro k h; cases h⟩
theorem exit {k : Nat} (h : S k) : ExitsIn S (.exit k : Res α) := ⟨by intro j hj; cases hj; exact h⟩

theorem bind {r : Res α} {f : α → Res β} (h : ExitsIn S r) (hf : ∀ a, ExitsIn S (f a)) : ExitsIn S (r >>= f) := by
  refine ⟨fun k hk => ?_⟩
  cases r with
  | ok a => exact (hf a).of k hk
  | exit c => cases hk; exact h.of k rfl
  | raise e => cases hk

theorem mapM' {f : α → Res β} (hf : ∀ a, ExitsIn S (f a)) (l : List α) : ExitsIn S (Res.mapM' f l) := by
  induction l with
  | nil => exact ok _
  | cons a as ih =>
    refine ⟨fun k hk => ?_⟩
    unfold Res.mapM' at hk
    cases h : f a with
    | ok b =>
      rw [h] at hk
      cases h' : Res.mapM' f as with
      | ok bs => rw [h'] at hk; cases hk
      | exit c => rw [h'] at hk; cases hk; exact ih.of k h'
      | raise e => rw [h'] at hk; cases hk
    | exit c => rw [h] at hk; cases hk; exact (hf a).of k h
    | raise e => rw [h] at hk; cases hk

theorem ite {c : Prop} [Decidable c] {a b : Res α} (ha : ExitsIn S a) (hb : ExitsIn S b) : ExitsIn S (if c then a else b) := by
  split
  · exact ha
  · exact hb

theorem mono {T : Nat → Prop} {r : Res α} (h : ExitsIn S r) (hi : ∀ k, S k → T k) : ExitsIn T r := ⟨fun k hk => hi k (h.of k hk)⟩

end ExitsIn

/-- Decompose a goal `ExitsIn S (...)`. -/
macro "exits" : tactic => `(tactic|
  repeat' first
    | with_reducible exact ExitsIn.ok _
    | with_reducible exact ExitsIn.raise _
    | (with_reducible refine ExitsIn.exit ?_; decide)
    | with_reducible assumption
    | with_reducible apply_assumption
    | with_reducible refine ExitsIn.bind ?_ (fun _ => ?_)
    | with_reducible refine ExitsIn.mapM' (fun _ => ?_) _
    | with_reducible refine ExitsIn.ite ?_ ?_
    | split)

end Verif
