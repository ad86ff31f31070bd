import Verif.Props.VasprunOther
/-! # Rows of numbers in vasprun.xml, overflow or not (C136) -/
set_option autoImplicit false
namespace Verif.Vasprun
open Verif Verif.Utils Verif.Xml
open Verif.Kpoints (idx toFloat toInt)

/-! ### Specification -/

/-- A plain number literal and its value. -/
def PlainNumber (w : Str) (x : Rat) : Prop := pyFloatRat w = some x ∧ '_' ∉ w

/-- The element prints the numbers `xs`; then its text ends, or a word begins with `*` (what Fortran prints for a number that does not fit) and
anything may follow. -/
def PrintsUpTo (e : Node) (xs : List Rat) : Prop :=
  ∃ s good bad, e.text = some s ∧ words s = good ++ bad ∧ List.Forall₂ PlainNumber good xs ∧ ∀ w ∈ bad.head?, w.head? = some '*'

/-- What is stored in a row of `dim` places for the numbers `xs`. -/
inductive RowStored (dim : Nat) : List Rat → List Rat → Prop
  /-- As many numbers as places: these numbers. -/
  | full (xs : List Rat) (h : xs.length = dim) : RowStored dim xs xs
  /-- One number: that number in every place. -/
  | spread (x : Rat) (h : dim ≠ 1) : RowStored dim [x] (List.replicate dim x)
  /-- Any other number of numbers: zeros. -/
  | zeros (xs : List Rat) (h1 : xs.length ≠ 1) (h : xs.length ≠ dim) : RowStored dim xs (List.replicate dim 0)

/-! ### Proofs -/

theorem startsWith_star {w : Str} : startsWith ['*'] w = true ↔ w.head? = some '*' := by
  cases w with
  | nil => simp [startsWith]
  | cons c w => simp [startsWith]; exact eq_comm

theorem fromWords_upTo {good bad : List Str} {xs : List Rat} (h : List.Forall₂ PlainNumber good xs) (hb : ∀ w ∈ bad.head?, w.head? = some '*') :
    fromWords (good ++ bad) = .ok xs := by
  induction h with
  | nil =>
    cases bad with
    | nil => rfl
    | cons w ws => rw [List.nil_append, fromWords, if_pos (startsWith_star.2 (hb w (by simp)))]
  | @cons w x ws xs h _ ih =>
    rw [List.cons_append, fromWords, if_neg (by rw [star_not_number h.1]; simp), h.1]
    simp only [if_neg h.2, ih, Res.ok_bind]

theorem PrintsUpTo.fromText {e : Node} {xs : List Rat} (h : PrintsUpTo e xs) : fromText e = .ok xs := by
  obtain ⟨s, good, bad, h1, h2, h3, h4⟩ := h
  unfold Vasprun.fromText
  rw [h1]
  simp only [h2]
  exact fromWords_upTo h3 h4

theorem fitRow_stored (dim : Nat) (xs row : List Rat) : fitRow dim xs = row ↔ RowStored dim xs row := by
  have key : RowStored dim xs (fitRow dim xs) := by
    unfold fitRow
    by_cases h : xs.length = dim
    · rw [if_pos h]; exact .full xs h
    · rw [if_neg h]
      match xs with
      | [] => exact .zeros [] (by simp) h
      | [x] => exact .spread x fun h1 => h (by simp [h1])
      | x :: y :: l => exact .zeros _ (by simp) h
  constructor
  · rintro rfl; exact key
  · intro h
    generalize hr : fitRow dim xs = r at key
    cases h with
    | full _ h => cases key with
      | full _ _ => rfl
      | spread x h1 => exact absurd (by simpa using h.symm) h1
      | zeros _ _ h2 => exact absurd h h2
    | spread x h => cases key with
      | full _ h1 => exact absurd (by simpa using h1.symm) h
      | spread _ _ => rfl
      | zeros _ h1 _ => simp at h1
    | zeros _ h1 h => cases key with
      | full _ h2 => exact absurd h2 h
      | spread x _ => simp at h1
      | zeros _ _ _ => rfl

/-- C136: tables (k-points, cells, forces, eigenvalues, densities of states, projections ..): whatever the rows print, overflow or not, the
table has a row for each element and as many places in each as asked for; the numbers are those printed up to the overflow if they fill the row,
one number alone goes to every place, and otherwise the row is zero. -/
theorem C136_rows (es : List Node) (dim : Nat) (nums : List (List Rat)) (h : List.Forall₂ PrintsUpTo es nums) :
    ∃ rows, convert2D es dim = .ok rows ∧ List.Forall₂ (RowStored dim) nums rows ∧ rows.length = es.length ∧ ∀ r ∈ rows, r.length = dim := by
  have key : ∃ rows, convert2D es dim = .ok rows ∧ List.Forall₂ (RowStored dim) nums rows := by
    unfold convert2D
    induction h with
    | nil => exact ⟨[], rfl, .nil⟩
    | @cons e xs es nums h _ ih =>
      obtain ⟨rows, h1, h2⟩ := ih
      refine ⟨fitRow dim xs :: rows, ?_, .cons ((fitRow_stored _ _ _).1 rfl) h2⟩
      rw [Res.mapM', h.fromText]
      simp only [Res.ok_bind, h1]
  obtain ⟨rows, h1, h2⟩ := key
  refine ⟨rows, h1, h2, by rw [← h2.length_eq, h.length_eq], ?_⟩
  intro r hr
  obtain ⟨i, hi⟩ := List.getElem?_of_mem hr
  clear h1 h
  induction h2 generalizing i with
  | nil => cases hr
  | @cons xs row nums rows hs _ ih =>
    rcases List.mem_cons.1 hr with rfl | hr
    · cases hs with
      | full _ h => exact h
      | spread x h => simp
      | zeros _ _ _ => simp
    · obtain ⟨j, hj⟩ := List.getElem?_of_mem hr
      exact ih hr j hj

/-- C136: lists of single numbers (weights, energies): if every element prints one number before its text ends or overflows, these are the
numbers; otherwise reading exits with 509. -/
theorem C136_singles (es : List Node) (nums : List (List Rat)) (h : List.Forall₂ PrintsUpTo es nums) :
    (∀ xs : List Rat, nums = xs.map (fun x => [x]) → convert1D es = .ok xs) ∧
    ((∃ n ∈ nums, n.length ≠ 1) → convert1D es = .exit 509) := by
  unfold convert1D
  induction h with
  | nil =>
    refine ⟨fun xs hx => ?_, fun ⟨n, hn, _⟩ => by cases hn⟩
    cases xs with
    | nil => rfl
    | cons _ _ => cases hx
  | @cons e ns es nums h _ ih =>
    constructor
    · intro xs hx
      cases xs with
      | nil => cases hx
      | cons x xs =>
        obtain ⟨h1, h2⟩ := List.cons.inj hx
        have hs : single e = .ok x := by unfold single; rw [h.fromText, h1]; rfl
        rw [Res.mapM', hs, ih.1 xs h2]
    · rintro ⟨n, hn, hl⟩
      rw [Res.mapM']
      by_cases h1 : ns.length = 1
      · obtain ⟨x, rfl⟩ := List.length_eq_one_iff.1 h1
        have hs : single e = .ok x := by unfold single; rw [h.fromText]; rfl
        rw [hs, ih.2]
        rcases List.mem_cons.1 hn with rfl | hn
        · exact absurd h1 hl
        · exact ⟨n, hn, hl⟩
      · have hs : single e = .exit 509 := by
          unfold single
          rw [h.fromText]
          simp only [Res.ok_bind]
          match ns, h1 with
          | [], _ => rfl
          | [x], h1 => exact absurd rfl h1
          | x :: y :: l, _ => rfl
        rw [hs]

/-- C136: a row stores the numbers it prints exactly if nothing is missing: for rows that print `dim` numbers or overflow before. -/
theorem C136_faithful (e : Node) (dim : Nat) (xs : List Rat) (h : PrintsUpTo e xs) :
    convert2D [e] dim = .ok [xs] ↔ xs.length = dim := by
  have hc : convert2D [e] dim = .ok [fitRow dim xs] := by
    unfold convert2D
    rw [Res.mapM', h.fromText]; rfl
  rw [hc]
  constructor
  · intro h1
    have h2 : fitRow dim xs = xs := by simpa using h1
    have key : ∀ row, RowStored dim xs row → row = xs → xs.length = dim := by
      intro row hs hr
      rw [← hr]
      cases hs with
      | full _ h => exact h
      | spread x h => simp
      | zeros _ h1 h2 => simp
    exact key _ ((fitRow_stored dim xs _).1 rfl) h2
  · intro h1
    rw [(fitRow_stored dim xs xs).2 (.full xs h1)]

/-- Non-vacuity: the second number of three overflows. -/
example : ∃ e : Node, e.text = some c!" 1.5 **** 2.0 " ∧ PrintsUpTo e [3 / 2] ∧ convert2D [e] 3 = .ok [[3 / 2, 3 / 2, 3 / 2]] := by
  refine ⟨⟨c!"v", [], some c!" 1.5 **** 2.0 ", []⟩, rfl, ⟨_, [c!"1.5"], [c!"****", c!"2.0"], rfl, by decide +kernel, .cons ⟨by decide +kernel, by decide⟩ .nil, by simp⟩, by decide +kernel⟩

end Verif.Vasprun
