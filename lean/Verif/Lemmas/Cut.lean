import Verif.Lemmas.Str
import Verif.Py.Res
/-! # Texts cut off at some character: their lines -/
set_option autoImplicit false
namespace Verif
open Verif

/-- A text that is empty or ends with a newline: cut at the end of a line. -/
def LineEnd (p : Str) : Prop := p = [] ∨ p.getLast? = some '\n'

theorem readlines_append_aux (q : Str) : ∀ n (p : Str), p.length ≤ n →
    (LineEnd p ∧ readlines (p ++ q) = readlines p ++ readlines q) ∨
    ∃ A l r B, l ≠ [] ∧ '\n' ∉ l ∧ readlines p = A ++ [l] ∧ readlines (p ++ q) = A ++ (l ++ r) :: B
  | n, p, hn => by
    by_cases hm : '\n' ∈ p
    · obtain ⟨a, b, rfl, ha⟩ := List.eq_append_cons_of_mem hm
      match n, hn with
      | 0, hn => simp at hn
      | n + 1, hn =>
        rw [List.append_assoc, List.cons_append, readlines_line_append _ ha, readlines_line_append _ ha]
        rcases readlines_append_aux q n b (by simp at hn; omega) with ⟨h1, h2⟩ | ⟨A, l, r, B, h0, h1, h2, h3⟩
        · left
          refine ⟨.inr ?_, by rw [h2]; rfl⟩
          rcases h1 with rfl | h1
          · simp
          · cases b with
            | nil => cases h1
            | cons y ys => simpa using h1
        · right
          exact ⟨(a ++ ['\n']) :: A, l, r, B, h0, h1, by rw [h2]; rfl, by rw [h3]; rfl⟩
    · cases p with
      | nil => exact .inl ⟨.inl rfl, rfl⟩
      | cons x xs =>
        right
        rw [readlines_noeol hm (by simp)]
        by_cases hq : '\n' ∈ q
        · obtain ⟨a, b, rfl, ha⟩ := List.eq_append_cons_of_mem hq
          refine ⟨[], x :: xs, a ++ ['\n'], readlines b, by simp, hm, rfl, ?_⟩
          rw [← List.append_assoc, readlines_line_append _ (by simp only [List.mem_append]; exact fun h => h.elim hm ha)]
          simp
        · refine ⟨[], x :: xs, q, [], by simp, hm, rfl, ?_⟩
          rw [readlines_noeol (by simp only [List.mem_append]; exact fun h => h.elim hm hq) (by simp)]
          rfl

/-- The lines of a text and of a text cut off: cut at the end of a line they are the first lines, else the last line is cut too. -/
theorem readlines_append (p q : Str) :
    (LineEnd p ∧ readlines (p ++ q) = readlines p ++ readlines q) ∨
    ∃ A l r B, l ≠ [] ∧ '\n' ∉ l ∧ readlines p = A ++ [l] ∧ readlines (p ++ q) = A ++ (l ++ r) :: B :=
  readlines_append_aux q _ p (Nat.le_refl _)

theorem readlines_flatten (p : Str) : (readlines p).flatten = p := by
  induction p with
  | nil => rfl
  | cons x xs ih =>
    rw [readlines]
    split
    · rename_i hx
      simp only [List.flatten_cons, ih, eq_of_beq hx]; rfl
    · cases hr : readlines xs with
      | nil => rw [hr] at ih; simp [consHead, ← ih]
      | cons w ws => rw [hr] at ih; simp only [consHead, List.flatten_cons, List.cons_append] at ih ⊢; rw [ih]

theorem readlines_lineEnd {p : Str} (h : LineEnd p) (q : Str) : readlines (p ++ q) = readlines p ++ readlines q := by
  rcases readlines_append p q with ⟨_, h'⟩ | ⟨A, l, r, B, h0, h1, h2, _⟩
  · exact h'
  · exfalso
    have hf := readlines_flatten p
    rw [h2] at hf
    simp only [List.flatten_append, List.flatten_cons, List.flatten_nil, List.append_nil] at hf
    rcases h with rfl | h
    · simp only [List.append_eq_nil_iff] at hf; exact h0 hf.2
    · rw [← hf, List.getLast?_append_of_ne_nil _ h0] at h
      exact h1 (List.mem_of_getLast? h)

theorem infix_of_mem_readlines {p l : Str} (h : l ∈ readlines p) : l <:+: p := by
  induction p generalizing l with
  | nil => cases h
  | cons x xs ih =>
    rw [readlines] at h
    split at h
    · rename_i hx
      rcases List.mem_cons.1 h with rfl | h
      · exact ⟨[], xs, by simp [eq_of_beq hx]⟩
      · exact (ih h).trans (List.infix_cons_iff.2 (.inr (List.infix_refl _)))
    · have key : ∀ (w : Str) ws, readlines xs = w :: ws → w <+: xs := by
        intro w ws hr
        clear ih h
        induction xs generalizing w ws with
        | nil => cases hr
        | cons y ys ih2 =>
          rw [readlines] at hr
          split at hr
          · rename_i hy; cases hr; exact ⟨ys, by simp [eq_of_beq hy]⟩
          · cases hr2 : readlines ys with
            | nil => rw [hr2] at hr; simp only [consHead, List.cons.injEq] at hr; rw [← hr.1]; exact ⟨ys, rfl⟩
            | cons v vs =>
              rw [hr2] at hr; simp only [consHead, List.cons.injEq] at hr
              rw [← hr.1]
              obtain ⟨t, ht⟩ := ih2 v vs hr2
              exact ⟨t, by rw [← ht]; rfl⟩
      cases hr : readlines xs with
      | nil => rw [hr] at h; simp only [consHead, List.mem_singleton] at h; subst h; exact ⟨[], xs, rfl⟩
      | cons w ws =>
        rw [hr] at h
        simp only [consHead, List.mem_cons] at h
        rcases h with rfl | h
        · obtain ⟨t, ht⟩ := key w ws hr
          exact ⟨[], t, by rw [← ht]; rfl⟩
        · exact (ih (by rw [hr]; simp [h])).trans (List.infix_cons_iff.2 (.inr (List.infix_refl _)))

theorem idx_prefix_ok {α : Type} {l : List α} {i : Nat} {a : α} (m : List α) (h : l[i]? = some a) : (l ++ m)[i]? = some a := by
  rw [List.getElem?_append_left (by by_contra hc; rw [List.getElem?_eq_none (by omega)] at h; cases h)]
  exact h

end Verif
