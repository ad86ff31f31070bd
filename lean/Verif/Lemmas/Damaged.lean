import Verif.Lemmas.Words
/-! Helper lemmas: number fields that Fortran could not print properly are no numbers for `float()`. -/
set_option autoImplicit false
namespace Verif

/-- Specification: a number field that Fortran could not print properly: it overflowed (`******`), or it runs into the next field or lost the
letter of its exponent (`-1.25-3.50`, `0.10-100`), that is: it has a sign that is neither its first character nor that of an exponent. -/
def Damaged (w : Str) : Prop :=
  '*' ∈ w ∨ ∃ (a b : Str) (c d : Char), w = a ++ c :: d :: b ∧ (d = '-' ∨ d = '+') ∧ c ≠ 'e' ∧ c ≠ 'E'

/-- Signs only behind an `e`, no stars; the first argument is the character in front. -/
def fine : Char → Str → Bool
  | _, [] => true
  | p, c :: cs => decide (c ≠ '*') && (decide (c ≠ '-' ∧ c ≠ '+') || decide (p = 'e' ∨ p = 'E')) && fine c cs

theorem fine_append : ∀ (a b : Str) (p : Char), fine p (a ++ b) = true ↔ fine p a = true ∧ fine ((p :: a).getLast (by simp)) b = true
  | [], b, p => by simp [fine]
  | c :: cs, b, p => by
    simp only [List.cons_append, fine, Bool.and_eq_true, fine_append cs b c, List.getLast_cons_cons]
    tauto

theorem fine_plain {a : Str} (h : ∀ c ∈ a, c ≠ '*' ∧ c ≠ '-' ∧ c ≠ '+') : ∀ p, fine p a = true := by
  induction a with
  | nil => intro p; rfl
  | cons c cs ih =>
    intro p
    obtain ⟨h1, h2, h3⟩ := h c (by simp)
    simp [fine, h1, h2, h3, ih (fun x hx => h x (by simp [hx]))]

theorem fine_not_damaged {w : Str} (h : fine 'e' w = true) : ¬ Damaged w := by
  rintro (hs | ⟨a, b, c, d, rfl, hd, h1, h2⟩)
  · obtain ⟨a, b, rfl⟩ := List.append_of_mem hs
    rw [fine_append] at h
    have := h.2
    simp [fine] at this
  · rw [fine_append] at h
    have := h.2
    simp only [fine, Bool.and_eq_true, Bool.or_eq_true, decide_eq_true_eq] at this
    obtain ⟨_, ⟨_, h3⟩, _⟩ := this
    rcases h3 with h3 | h3
    · rcases hd with rfl | rfl
      · exact h3.1 rfl
      · exact h3.2 rfl
    · rcases h3 with rfl | rfl
      · exact h1 rfl
      · exact h2 rfl

theorem digit_plain {c : Char} (h : isDigit c = true ∨ c = '_') : c ≠ '*' ∧ c ≠ '-' ∧ c ≠ '+' := by
  refine ⟨?_, ?_, ?_⟩ <;> rintro rfl <;> revert h <;> decide

theorem spanDigits_fine {b : Bool} {s : Str} (h : ∀ p, fine p (spanDigits b s).2 = true) : ∀ p, fine p s = true := by
  intro p
  obtain ⟨a, h1, h2⟩ := spanDigits_split b s
  rw [h1, fine_append]
  exact ⟨fine_plain (fun c hc => digit_plain (h2 c hc)) p, h _⟩

theorem parseExp_fine {s : Str} {e : Int} (h : parseExp s = some e) : ∀ p, fine p s = true := by
  intro p
  cases s with
  | nil => rfl
  | cons c cs =>
    simp only [parseExp] at h
    split at h
    · rename_i hc
      simp only [Bool.or_eq_true, beq_iff_eq] at hc
      have ht : ∀ q, fine q (takeSign cs).2 = true := by
        apply spanDigits_fine (b := false)
        split at h
        · rename_i he; rw [he]; intro _; rfl
        · cases h
      have hcs : fine c cs = true := by
        rw [takeSign.eq_def] at ht
        split at ht
        · simp [fine, hc, ht]
        · simp [fine, hc, ht]
        · exact ht c
      have h1 : c ≠ '*' ∧ c ≠ '-' ∧ c ≠ '+' := by rcases hc with rfl | rfl <;> decide
      simp [fine, h1, hcs]
    · cases h

theorem parseDec_fine {b : Bool} {s : Str} {d : Dec} (h : parseDec b s = some d) : ∀ p, fine p s = true := by
  unfold parseDec at h
  apply spanDigits_fine (b := false)
  split at h
  · rename_i ip rest he
    rw [he]
    dsimp only at h
    split at h
    · cases h
    · simp only [Option.map_eq_some_iff] at h
      obtain ⟨e, h, _⟩ := h
      intro p
      have := spanDigits_fine (parseExp_fine h)
      simp [fine, this]
  · rename_i he
    rw [he]
    split at h
    · cases h
    · simp only [Option.map_eq_some_iff] at h
      obtain ⟨e, h, _⟩ := h
      exact parseExp_fine h

theorem pyFloat_fine {w : Str} (h : (pyFloat w).isSome = true) : fine 'e' (strip w) = true := by
  have key : ∀ p, fine p (takeSign (strip w)).2 = true := by
    unfold pyFloat at h
    dsimp only at h
    have low : ∀ (t : Str), lower (takeSign (strip w)).2 = t → (∀ c ∈ t, c ≠ '*' ∧ c ≠ '-' ∧ c ≠ '+') → ∀ p, fine p (takeSign (strip w)).2 = true := by
      intro t ht hf
      apply fine_plain
      intro c hc
      have hcc := hf _ (by rw [← ht]; exact List.mem_map_of_mem hc)
      refine ⟨?_, ?_, ?_⟩ <;> rintro rfl <;> revert hcc <;> decide
    split at h
    · rename_i hl
      rcases hl with hl | hl
      · exact low _ hl (by decide)
      · exact low _ hl (by decide)
    split at h
    · rename_i hl
      exact low _ hl (by decide)
    · rw [Option.isSome_map] at h
      obtain ⟨d, hd⟩ := Option.isSome_iff_exists.1 h
      exact parseDec_fine hd
  rw [takeSign.eq_def] at key
  split at key
  · rename_i cs hs
    rw [hs]
    simp [fine, key]
  · rename_i cs hs
    rw [hs]
    simp [fine, key]
  · exact key _

/-- A damaged word is no number. -/
theorem pyFloat_damaged {w : Str} (hd : Damaged w) (hw : Free isSpace w) : pyFloat w = none := by
  cases h : pyFloat w with
  | none => rfl
  | some f =>
    have := fine_not_damaged (pyFloat_fine (by rw [h]; rfl))
    rw [strip_eq_self ⟨fun c hc => hw c (List.mem_of_mem_head? hc), fun c hc => hw c (List.mem_of_getLast? hc)⟩] at this
    exact absurd hd this

theorem not_damaged_of_float {s w : Str} (hw : w ∈ words s) {f : PyFloat} (h : pyFloat w = some f) : ¬ Damaged w := by
  intro hd
  rw [pyFloat_damaged hd (words_mem hw).2] at h
  cases h

end Verif
