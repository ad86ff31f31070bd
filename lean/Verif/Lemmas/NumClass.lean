import Verif.Lemmas.Num
import Verif.Model.Utils
/-! Helper lemmas: which strings `int()` and `float()` accept. -/
set_option autoImplicit false
namespace Verif
open Verif.Utils

theorem takeSign_suffix (s : Str) : ∃ p, s = p ++ (takeSign s).2 ∧ (∀ c ∈ p, c = '-' ∨ c = '+') := by
  rw [takeSign.eq_def]; split
  · exact ⟨['-'], rfl, by simp⟩
  · exact ⟨['+'], rfl, by simp⟩
  · exact ⟨[], rfl, by simp⟩

theorem spanDigits_split (prev : Bool) (s : Str) :
    ∃ p, s = p ++ (spanDigits prev s).2 ∧ (∀ c ∈ p, isDigit c = true ∨ c = '_') := by
  induction s generalizing prev with
  | nil => exact ⟨[], rfl, by simp⟩
  | cons x xs ih =>
    rw [spanDigits]
    split
    · rename_i h
      obtain ⟨p, h1, h2⟩ := ih true
      exact ⟨x :: p, by simp [← h1], by simp only [List.mem_cons, forall_eq_or_imp]; exact ⟨.inl h, h2⟩⟩
    · split
      · rename_i h
        simp only [Bool.and_eq_true, beq_iff_eq] at h
        obtain ⟨p, h1, h2⟩ := ih false
        exact ⟨x :: p, by simp [← h1], by simp only [List.mem_cons, forall_eq_or_imp]; exact ⟨.inr h.1.1, h2⟩⟩
      · exact ⟨[], rfl, by simp⟩

theorem spanDigits_head {s : Str} {d : Nat} {ds : List Nat} {r : Str} (h : spanDigits false s = (d :: ds, r)) :
    ∃ c cs, s = c :: cs ∧ isDigit c = true := by
  cases s with
  | nil => simp [spanDigits] at h
  | cons c cs =>
    refine ⟨c, cs, rfl, ?_⟩
    rw [spanDigits] at h
    by_contra hc
    simp [hc] at h

theorem mem_dropWhile_or {p : Char → Bool} {s : Str} {c : Char} (h : c ∈ s) : c ∈ s.dropWhile p ∨ p c = true := by
  induction s with
  | nil => cases h
  | cons x xs ih =>
    by_cases hx : p x = true
    · rw [List.dropWhile_cons_of_pos hx]
      rcases List.mem_cons.1 h with rfl | h
      · exact .inr hx
      · exact ih h
    · rw [List.dropWhile_cons_of_neg hx]; exact .inl h

theorem mem_strip_or {s : Str} {c : Char} (h : c ∈ s) : c ∈ strip s ∨ isSpace c = true := by
  rcases mem_dropWhile_or (p := isSpace) h with h | h
  · have h' : c ∈ (lstrip s).reverse := by simpa [lstrip] using h
    rcases mem_dropWhile_or (p := isSpace) h' with h | h
    · left; simpa [strip, rstrip] using h
    · exact .inr h
  · exact .inr h

theorem mem_of_mem_strip {s : Str} {c : Char} (h : c ∈ strip s) : c ∈ s := by
  have h1 : c ∈ lstrip s := (rstrip_prefix (lstrip s)).mem h
  exact (List.dropWhile_suffix isSpace).mem h1

/-- What `int()` accepts: after stripping, an optional sign and a digit group. -/
theorem pyInt_some_iff (s : Str) : (pyInt s).isSome = true ↔
    ∃ d ds, spanDigits false (takeSign (strip s)).2 = (d :: ds, []) := by
  unfold pyInt
  dsimp only
  constructor
  · intro h
    split at h
    · rename_i d ds he; exact ⟨_, _, he⟩
    · simp at h
  · rintro ⟨d, ds, he⟩; rw [he]; simp

theorem pyInt_chars {s : Str} (h : (pyInt s).isSome = true) {c : Char} (hc : c ∈ s) :
    isSpace c = true ∨ isDigit c = true ∨ c = '_' ∨ c = '-' ∨ c = '+' := by
  obtain ⟨d, ds, he⟩ := (pyInt_some_iff s).1 h
  rcases mem_strip_or hc with hc | hc
  · obtain ⟨p, h1, h2⟩ := takeSign_suffix (strip s)
    obtain ⟨q, h3, h4⟩ := spanDigits_split false (takeSign (strip s)).2
    rw [he] at h3
    rw [h1, List.mem_append] at hc
    rcases hc with hc | hc
    · exact .inr (.inr (.inr (h2 c hc)))
    · simp only [List.append_nil] at h3
      rw [h3] at hc
      rcases h4 c hc with h | h
      · exact .inr (.inl h)
      · exact .inr (.inr (.inl h))
  · exact .inl hc

theorem pyInt_no_point {s : Str} (h : (pyInt s).isSome = true) : '.' ∉ s ∧ 'e' ∉ s ∧ 'E' ∉ s := by
  refine ⟨?_, ?_, ?_⟩ <;> intro hc <;> have := pyInt_chars h hc <;> revert this <;> decide

/-- An integer literal is a float literal with the same value. -/
theorem pyFloat_of_pyInt {s : Str} {i : Int} (h : pyInt s = some i) :
    ∃ d : Dec, pyFloat s = some (.fin d) ∧ d.exp = 0 ∧ (if d.neg then -(d.mant : Int) else d.mant) = i := by
  obtain ⟨d, ds, he⟩ := (pyInt_some_iff s).1 (by simp [h])
  obtain ⟨c, cs, hs, hc⟩ := spanDigits_head he
  have hi : i = if (takeSign (strip s)).1 then - (ofDigits (d :: ds) : Int) else (ofDigits (d :: ds) : Int) := by
    unfold pyInt at h; dsimp only at h; rw [he] at h; simp at h; exact h.symm
  refine ⟨⟨(takeSign (strip s)).1, ofDigits (d :: ds), 0⟩, ?_, rfl, ?_⟩
  · unfold pyFloat
    dsimp only
    rw [if_neg, if_neg]
    · unfold parseDec; rw [he]; simp [parseExp]
    · rw [hs]; exact lower_ne_special hc (.inr (.inr rfl))
    · rw [hs]; rintro (h | h)
      · exact lower_ne_special hc (.inl rfl) h
      · exact lower_ne_special hc (.inr (.inl rfl)) h
  · rw [hi]

/-- A finite float literal without point and exponent is an integer literal. -/
theorem pyInt_of_pyFloat {s : Str} {d : Dec} (h : pyFloat s = some (.fin d)) (h1 : '.' ∉ s) (h2 : 'e' ∉ s) (h3 : 'E' ∉ s) :
    (pyInt s).isSome = true := by
  obtain ⟨p, hp, _⟩ := takeSign_suffix (strip s)
  obtain ⟨q, hq, _⟩ := spanDigits_split false (takeSign (strip s)).2
  have hsub : ∀ c, c ∈ (spanDigits false (takeSign (strip s)).2).2 → c ∈ s := by
    intro c hc
    apply mem_of_mem_strip; rw [hp]; apply List.mem_append_right; rw [hq]; exact List.mem_append_right _ hc
  unfold pyFloat at h
  dsimp only at h
  split at h
  · simp at h
  split at h
  · simp at h
  simp only [Option.map_eq_some_iff, PyFloat.fin.injEq, exists_eq_right] at h
  rw [pyInt_some_iff]
  unfold parseDec at h
  split at h
  · rename_i ip rest heq
    exact absurd (hsub '.' (by rw [heq]; simp)) h1
  · rename_i ip rest hne heq
    split at h
    · simp at h
    · rename_i hip
      simp only [Option.map_eq_some_iff] at h
      obtain ⟨e, he, _⟩ := h
      cases ip with
      | nil => simp at hip
      | cons x xs =>
        refine ⟨x, xs, ?_⟩
        rw [heq]
        congr 1
        cases rest with
        | nil => rfl
        | cons c cs =>
          exfalso
          simp only [parseExp] at he
          split at he
          · rename_i hc
            simp only [Bool.or_eq_true, beq_iff_eq] at hc
            rcases hc with rfl | rfl
            · exact h2 (hsub 'e' (by rw [heq]; simp))
            · exact h3 (hsub 'E' (by rw [heq]; simp))
          · simp at he

theorem testStringContent_string (s : Str) : testStringContent s = .string ↔ pyFloat s = none := by
  unfold testStringContent
  cases pyFloat s with
  | none => simp
  | some f => simp only [reduceCtorEq, iff_false]; split <;> simp

theorem noPoint_iff (s : Str) : ((s.count '.' == 0) && !(s.contains 'e') && !(s.contains 'E')) = true ↔
    '.' ∉ s ∧ 'e' ∉ s ∧ 'E' ∉ s := by
  simp [List.count_eq_zero, and_assoc]

theorem testStringContent_of_int {s : Str} {i : Int} (h : pyInt s = some i) : testStringContent s = .int := by
  obtain ⟨d, hd, _⟩ := pyFloat_of_pyInt h
  have := pyInt_no_point (s := s) (by simp [h])
  unfold testStringContent
  rw [hd]; dsimp only; rw [if_pos ((noPoint_iff s).2 this)]

theorem testStringContent_of_float {s : Str} {d : Dec} (h : pyFloat s = some (.fin d)) (hi : pyInt s = none) :
    testStringContent s = .float := by
  unfold testStringContent
  rw [h]; dsimp only; rw [if_neg]
  intro hc
  have := (noPoint_iff s).1 hc
  have := pyInt_of_pyFloat h this.1 this.2.1 this.2.2
  rw [hi] at this; simp at this

/-- A literal of an infinity or of nan contains neither point nor exponent letter, so it is classified as `int`. -/
theorem special_no_point {s : Str} (h : (∃ b, pyFloat s = some (.inf b)) ∨ pyFloat s = some .nan) :
    '.' ∉ s ∧ 'e' ∉ s ∧ 'E' ∉ s := by
  obtain ⟨p, hp, hps⟩ := takeSign_suffix (strip s)
  have hl : lower (takeSign (strip s)).2 = c!"inf" ∨ lower (takeSign (strip s)).2 = c!"infinity" ∨
      lower (takeSign (strip s)).2 = c!"nan" := by
    unfold pyFloat at h
    dsimp only at h
    by_cases h1 : lower (takeSign (strip s)).2 = c!"inf" ∨ lower (takeSign (strip s)).2 = c!"infinity"
    · rcases h1 with h1 | h1
      · exact .inl h1
      · exact .inr (.inl h1)
    · rw [if_neg h1] at h
      by_cases h2 : lower (takeSign (strip s)).2 = c!"nan"
      · exact .inr (.inr h2)
      · rw [if_neg h2] at h
        rcases h with ⟨b, h⟩ | h <;> (cases hpd : parseDec (takeSign (strip s)).1 (takeSign (strip s)).2 <;> simp [hpd] at h)
  have key : ∀ c : Char, (c = '.' ∨ c = 'e' ∨ c = 'E') → c ∉ s := by
    intro c hc hm
    rcases mem_strip_or hm with hm | hm
    · rw [hp, List.mem_append] at hm
      rcases hm with hm | hm
      · have := hps c hm
        rcases hc with rfl | rfl | rfl <;> revert this <;> decide
      · have : lowerC c ∈ lower (takeSign (strip s)).2 := List.mem_map.2 ⟨c, hm, rfl⟩
        rcases hl with hl | hl | hl <;> rw [hl] at this <;> rcases hc with rfl | rfl | rfl <;> revert this <;> decide
    · rcases hc with rfl | rfl | rfl <;> revert hm <;> decide
  exact ⟨key _ (.inl rfl), key _ (.inr (.inl rfl)), key _ (.inr (.inr rfl))⟩

theorem testStringContent_of_special {s : Str} (h : (∃ b, pyFloat s = some (.inf b)) ∨ pyFloat s = some .nan) :
    testStringContent s = .int := by
  have hn := special_no_point h
  unfold testStringContent
  rcases h with ⟨b, h⟩ | h <;> rw [h] <;> dsimp only <;> rw [if_pos ((noPoint_iff s).2 hn)]

theorem pyInt_special {s : Str} (h : (∃ b, pyFloat s = some (.inf b)) ∨ pyFloat s = some .nan) : pyInt s = none := by
  cases hi : pyInt s with
  | none => rfl
  | some i =>
    obtain ⟨d, hd, _⟩ := pyFloat_of_pyInt hi
    rcases h with ⟨b, h⟩ | h <;> rw [h] at hd <;> simp at hd

end Verif
