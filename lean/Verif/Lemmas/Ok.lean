import Verif.Model.Kpoints
/-! # When a computation succeeds -/
set_option autoImplicit false
namespace Verif
open Verif.Kpoints (idx toInt)

/-- The word is an integer. -/
def IsInt (w : Str) : Prop := ∃ n, pyInt w = some n
/-- The value is there. -/
def Ok {α : Type} (r : Res α) : Prop := ∃ a, r = .ok a

theorem ok_bind {α β : Type} {r : Res α} {f : α → Res β} : Ok (r >>= f) ↔ ∃ a, r = .ok a ∧ Ok (f a) := by
  constructor
  · rintro ⟨b, h⟩
    obtain ⟨a, h1, h2⟩ := Res.bind_eq_ok.1 h
    exact ⟨a, h1, b, h2⟩
  · rintro ⟨a, h1, b, h2⟩
    exact ⟨b, Res.bind_eq_ok.2 ⟨a, h1, h2⟩⟩

theorem ok_ok {α : Type} (a : α) : Ok (Res.ok a) := ⟨a, rfl⟩

/-- For a continuation whose success does not depend on the value. -/
theorem ok_bind_const {α β : Type} {r : Res α} {f : α → Res β} {P : Prop} (h : ∀ a, r = .ok a → (Ok (f a) ↔ P)) : Ok (r >>= f) ↔ Ok r ∧ P := by
  rw [ok_bind]
  constructor
  · rintro ⟨a, h1, h2⟩; exact ⟨⟨a, h1⟩, (h a h1).1 h2⟩
  · rintro ⟨⟨a, h1⟩, h2⟩; exact ⟨a, h1, (h a h1).2 h2⟩

theorem ok_mapM' {α β : Type} {f : α → Res β} {l : List α} : Ok (Res.mapM' f l) ↔ ∀ x ∈ l, Ok (f x) := by
  induction l with
  | nil => simp [Res.mapM', Ok]
  | cons x xs ih =>
    simp only [List.mem_cons, forall_eq_or_imp]
    rw [← ih]
    rw [Res.mapM']
    cases f x with
    | ok a => cases Res.mapM' f xs <;> simp [Ok]
    | exit c => simp [Ok]
    | raise e => simp [Ok]

theorem ok_toInt (w : Str) : Ok (toInt w) ↔ IsInt w := by
  unfold Ok IsInt toInt
  cases pyInt w <;> simp

theorem idx_eq {α : Type} {l : List α} {i : Nat} {a : α} : idx l i = .ok a ↔ l[i]? = some a := by
  unfold idx
  cases l[i]? <;> simp

theorem ok_idx {α : Type} {l : List α} {i : Nat} : Ok (idx l i) ↔ i < l.length := by
  unfold Ok
  simp only [idx_eq]
  constructor
  · rintro ⟨a, h⟩; exact (List.getElem?_eq_some_iff.1 h).1
  · intro h; exact ⟨_, List.getElem?_eq_getElem h⟩

theorem ok_foldlM' {α β : Type} {f : β → α → Res β} {P : α → Prop} {I : β → Prop} (l : List α)
    (hI : ∀ b a b', I b → a ∈ l → f b a = .ok b' → I b') (h : ∀ b a, I b → a ∈ l → (Ok (f b a) ↔ P a)) (b : β) (hb : I b) :
    Ok (Res.foldlM' f b l) ↔ ∀ x ∈ l, P x := by
  induction l generalizing b with
  | nil => simp [Res.foldlM', Ok]
  | cons x xs ih =>
    simp only [List.mem_cons, forall_eq_or_imp, Res.foldlM']
    rw [← h b x hb (by simp)]
    cases hx : f b x with
    | ok b' =>
      have := ih (fun b a b' i m => hI b a b' i (List.mem_cons_of_mem _ m)) (fun b a i m => h b a i (List.mem_cons_of_mem _ m)) b'
        (hI b x b' hb (by simp) hx)
      simpa [ok_ok] using this
    | exit c => simp [Ok]
    | raise e => simp [Ok]

end Verif
