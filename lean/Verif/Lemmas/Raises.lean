import Verif.Py.Res
/-! # Which exceptions can escape from a call -/
set_option autoImplicit false
namespace Verif

/-- Every exception of `r` satisfies `S`. -/
structure RaisesIn {α} (S : Exc → Prop) (r : Res α) : Prop where
  of : ∀ e, r = .raise e → S e

namespace RaisesIn
variable {S : Exc → Prop} {α β : Type _}

theorem ok (a : α) : RaisesIn S (.ok a) := ⟨by intro k h; cases h⟩
theorem exit (k : Nat) : RaisesIn S (.exit k : Res α) := ⟨by intro e h; cases h⟩
theorem raise {e : Exc} (h : S e) : RaisesIn S (.raise e : Res α) := ⟨by intro j hj; cases hj; exact h⟩

theorem bind {r : Res α} {f : α → Res β} (h : RaisesIn S r) (hf : ∀ a, RaisesIn S (f a)) : RaisesIn S (r >>= f) := by
  refine ⟨fun k hk => ?_⟩
  cases r with
  | ok a => exact (hf a).of k hk
  | raise c => cases hk; exact h.of k rfl
  | exit e => cases hk

/-- With what is known about the value in the middle. -/
theorem bind' {r : Res α} {f : α → Res β} (h : RaisesIn S r) (hf : ∀ a, r = .ok a → RaisesIn S (f a)) : RaisesIn S (r >>= f) := by
  refine ⟨fun k hk => ?_⟩
  cases r with
  | ok a => exact (hf a rfl).of k hk
  | raise c => cases hk; exact h.of k rfl
  | exit e => cases hk

theorem mapM' {f : α → Res β} (hf : ∀ a, RaisesIn S (f a)) (l : List α) : RaisesIn S (Res.mapM' f l) := by
  induction l with
  | nil => exact ok _
  | cons a as ih =>
    refine ⟨fun k hk => ?_⟩
    unfold Res.mapM' at hk
    cases h : f a with
    | ok b =>
      rw [h] at hk
      cases h' : Res.mapM' f as with
      | ok bs => rw [h'] at hk; cases hk
      | raise c => rw [h'] at hk; cases hk; exact ih.of k h'
      | exit e => rw [h'] at hk; cases hk
    | raise c => rw [h] at hk; cases hk; exact (hf a).of k h
    | exit e => rw [h] at hk; cases hk

theorem foldlM' {f : β → α → Res β} (hf : ∀ b a, RaisesIn S (f b a)) (l : List α) (b : β) : RaisesIn S (Res.foldlM' f b l) := by
  induction l generalizing b with
  | nil => exact ok _
  | cons a as ih =>
    refine ⟨fun k hk => ?_⟩
    unfold Res.foldlM' at hk
    cases h : f b a with
    | ok c => rw [h] at hk; exact (ih c).of k hk
    | raise c => rw [h] at hk; cases hk; exact (hf b a).of k h
    | exit e => rw [h] at hk; cases hk

theorem ite {c : Prop} [Decidable c] {a b : Res α} (ha : RaisesIn S a) (hb : RaisesIn S b) : RaisesIn S (if c then a else b) := by
  split
  · exact ha
  · exact hb

/-- With what is known in each branch. -/
theorem ite' {c : Prop} [Decidable c] {a b : Res α} (ha : c → RaisesIn S a) (hb : ¬c → RaisesIn S b) : RaisesIn S (if c then a else b) := by
  split
  · exact ha ‹_›
  · exact hb ‹_›

theorem mono {T : Exc → Prop} {r : Res α} (h : RaisesIn S r) (hi : ∀ k, S k → T k) : RaisesIn T r := ⟨fun k hk => hi k (h.of k hk)⟩

end RaisesIn

/-- Decompose a goal `RaisesIn S (...)`. -/
macro "raises" : tactic => `(tactic|
  repeat' first
    | with_reducible exact RaisesIn.ok _
    | with_reducible exact RaisesIn.exit _
    | (with_reducible refine RaisesIn.raise ?_; decide)
    | with_reducible assumption
    | with_reducible apply_assumption
    | with_reducible refine RaisesIn.bind ?_ (fun _ => ?_)
    | with_reducible refine RaisesIn.mapM' (fun _ => ?_) _
    | with_reducible refine RaisesIn.foldlM' (fun _ _ => ?_) _ _
    | with_reducible refine RaisesIn.ite ?_ ?_
    | split)

end Verif
