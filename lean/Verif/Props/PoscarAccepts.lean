import Verif.Props.CountsPoscar
import Verif.Props.PoscarCounts
import Verif.Props.Exceptions
import Verif.Props.ExitCodesRead
import Verif.Props.Eigenval
import Verif.Lemmas.Ok
/-! # C151: which POSCAR files are accepted -/
set_option autoImplicit false
namespace Verif.Poscar.Accepts
open Verif Verif.Utils Verif.Lattice
open Verif.Kpoints (idx toInt toFloat)
open Verif.Eigenval (readlines_ne_nil)

/-! ### specification -/

/-- The word prints the (finite) number. -/
def Prints (w : Str) (x : Rat) : Prop := ∃ d, pyFloat w = some (.fin d) ∧ d.toRat = x

/-- The word is a (finite) number. -/
def IsNum (w : Str) : Prop := ∃ x, Prints w x

/-- Line `i`; a negative `i` counts from the end of the file. -/
def LineAt (L : List Str) (i : Int) (l : Str) : Prop :=
  (0 ≤ i ∧ L[i.toNat]? = some l) ∨ (i < 0 ∧ 0 ≤ i + L.length ∧ L[(i + L.length).toNat]? = some l)

/-- The line begins with the letter, in lower or upper case. -/
def Begins (l : Str) (c : Char) : Prop := ∃ d r, l = d :: r ∧ lowerC d = c

/-- The line begins with three numbers. -/
def ThreeNumbers (l : Str) : Prop := ∃ a b c r, words l = a :: b :: c :: r ∧ IsNum a ∧ IsNum b ∧ IsNum c

/-- The line consists of the three components of the vector. -/
def PrintsVector (l : Str) (v : Vec) : Prop := ∃ a b c, words l = [a, b, c] ∧ Prints a v.x ∧ Prints b v.y ∧ Prints c v.z

/-- There are `n` lines from line `p` on that begin with three numbers. -/
def VectorLines (L : List Str) (p : Int) (n : Nat) : Prop := ∀ k < n, ∃ l, L[(p + k).toNat]? = some l ∧ ThreeNumbers l

/-- The header: a scale that is not negative, the three vectors of the lattice, a line that does not consist of numbers separated by single blanks, the
counts, and the line or lines that say whether there are flags (`sel`) and whether the positions are direct (`dir`). -/
def Heads (L : List Str) (names : List Str) (counts : List Int) (cell : Cell) (sel dir : Bool) : Prop :=
  ∃ l1 l2 l3 l4 l5 l6 l7 w rest s a b c, L[1]? = some l1 ∧ L[2]? = some l2 ∧ L[3]? = some l3 ∧ L[4]? = some l4 ∧ L[5]? = some l5 ∧ L[6]? = some l6 ∧
    L[7]? = some l7 ∧ words l1 = w :: rest ∧ Prints w s ∧ 0 ≤ s ∧ PrintsVector l2 a ∧ PrintsVector l3 b ∧ PrintsVector l4 c ∧
    cell = M3.scale s ⟨a, b, c⟩ ∧ (∃ v ∈ splitOn ' ' l5, pyFloat v = none) ∧ names = words l5 ∧ List.Forall₂ (fun w n => pyInt w = some n) (words l6) counts ∧
    (sel = true ∧ Begins l7 's' ∧ (∃ l8, L[8]? = some l8 ∧ (dir = true ↔ Begins l8 'd')) ∨ sel = false ∧ ¬ Begins l7 's' ∧ (dir = true ↔ Begins l7 'd'))

/-- The lines of positions, from line `k` on: a name for each, three numbers, three more words if there are flags, and an invertible lattice if the
positions are not direct. -/
def Positions (L : List Str) (names : List Str) (counts : List Int) (cell : Cell) (sel dir : Bool) (k : Nat) : Prop :=
  counts.sum.toNat ≤ (expand names (taken counts)).length ∧
  ∀ i < counts.sum.toNat, ∃ l, L[i + k]? = some l ∧ ThreeNumbers l ∧ (sel = true → 6 ≤ (words l).length) ∧ (dir = false → cell.det ≠ 0)

/-- Behind the positions there are velocities: line `p` begins with the letter d or c. -/
def Velocities (L : List Str) (p : Int) : Prop := p < L.length ∧ ∃ l, LineAt L p l ∧ (Begins l 'd' ∨ Begins l 'c')

/-- Nothing but blanks (no tabs) before the line break. -/
def BlankLine (l : Str) : Prop := (l.filter (· != ' ') == ['\n']) = true

/-- What follows the `n` positions, on line `p` and behind it. -/
structure Rest (L : List Str) (n p : Int) (cell : Cell) (dir : Bool) : Prop where
  /-- line `p`, if the file goes on, is there (it is not if its number counts from the end and is beyond the first line) -/
  there : 0 ≤ p + L.length
  /-- the line behind it begins with a number -/
  number : p + 1 < L.length → ∃ l w r, LineAt L (p + 1) l ∧ words l = w :: r ∧ pyFloat w ≠ none
  /-- velocities, converted if they or the positions are not direct -/
  velocities : Velocities L p → VectorLines L (p + 1) n.toNat ∧
    (0 < n → (dir = false ∨ ∃ l, LineAt L p l ∧ Begins l 'c') → cell.det ≠ 0)
  /-- behind the velocities, a blank line has another one behind it, and if that begins with a number, these are predictors -/
  behind : Velocities L p → p + 1 + n < L.length → ∃ l, LineAt L (p + 1 + n) l ∧ (BlankLine l →
    ∃ l' w r, LineAt L (p + 2 + n) l' ∧ words l' = w :: r ∧ (pyFloat w ≠ none → VectorLines L (p + 2 + n) n.toNat))
  /-- predictors behind the positions -/
  predictors : ¬ Velocities L p → p + 1 < L.length → (∃ l, LineAt L p l ∧ BlankLine l) → VectorLines L (p + 1) n.toNat

/-- All of it. -/
def Acceptable (L : List Str) : Prop :=
  ∃ names counts cell sel dir, Heads L names counts cell sel dir ∧ Positions L names counts cell sel dir (if sel then 9 else 8) ∧
    Rest L counts.sum (counts.sum + if sel then 9 else 8) cell dir

/-! ### words and vectors -/

theorem toFloat_iff (w : Str) (x : Rat) : toFloat w = .ok x ↔ Prints w x := by
  unfold toFloat Prints
  cases pyFloat w with
  | none => simp
  | some p => cases p <;> simp

theorem ok_toFloat (w : Str) : Ok (toFloat w) ↔ IsNum w := by
  unfold Ok IsNum
  simp only [toFloat_iff]

theorem isNumber_iff (w : Str) : isNumber w = true ↔ pyFloat w ≠ none := by
  unfold isNumber
  rw [Option.isSome_iff_ne_none]

theorem ok_readVec (l : Str) : Ok (readVec l) ↔ ThreeNumbers l := by
  unfold readVec ThreeNumbers
  match words l with
  | [] => simp [idx, Ok, Res.bind]
  | [a] => cases h : toFloat a <;> simp [idx, Ok, Res.bind, h]
  | [a, b] => cases h : toFloat a <;> cases h' : toFloat b <;> simp [idx, Ok, Res.bind, h, h']
  | a :: b :: c :: r =>
    have i0 : idx (a :: b :: c :: r) 0 = .ok a := rfl
    have i1 : idx (a :: b :: c :: r) 1 = .ok b := rfl
    have i2 : idx (a :: b :: c :: r) 2 = .ok c := rfl
    simp only [i0, i1, i2, Res.ok_bind]
    rw [ok_bind_const (P := IsNum b ∧ IsNum c), ok_toFloat]
    · constructor
      · rintro ⟨h1, h2, h3⟩; exact ⟨a, b, c, r, rfl, h1, h2, h3⟩
      · rintro ⟨_, _, _, _, h, h1, h2, h3⟩; cases h; exact ⟨h1, h2, h3⟩
    · intro x _
      rw [ok_bind_const (P := IsNum c), ok_toFloat]
      intro y _
      rw [ok_bind_const (P := True) (fun _ _ => by simp [ok_ok]), ok_toFloat, and_true]

theorem ok_toDirect (v : Vec) (m : Cell) : Ok (toDirect v (some m)) ↔ m.det ≠ 0 := by
  unfold toDirect cartToDir M3.inv
  by_cases h : m.det = 0 <;> simp [h, Ok]

theorem ok_readFlags (l : Str) (sel : Bool) : Ok (readFlags l sel) ↔ (sel = true → 6 ≤ (words l).length) := by
  have one : ∀ i, Ok (readFlag l i) ↔ i < (words l).length := by
    intro i
    unfold readFlag
    rw [ok_bind_const (P := True) (fun _ _ => by simp [ok_ok]), ok_idx, and_true]
  unfold readFlags
  cases sel with
  | false => simp [ok_ok]
  | true =>
    simp only [if_true, forall_const]
    rw [ok_bind_const (P := 4 < (words l).length ∧ 5 < (words l).length), one]
    · omega
    · intro _ _
      rw [ok_bind_const (P := 5 < (words l).length), one]
      intro _ _
      rw [ok_bind_const (P := True) (fun _ _ => by simp [ok_ok]), one, and_true]

/-! ### positions -/

theorem expand_length_cons (s : Str) (ss : List Str) (n : Nat) (ns : List Nat) : (expand (s :: ss) (n :: ns)).length = n + (expand ss ns).length := by
  rw [expand_cons]; simp

theorem expand_nil (ns : List Nat) : expand [] ns = [] := rfl

/-- What is asked of a line of a position. -/
def SiteLine (l : Str) (m : Cell) (sel dir : Bool) : Prop := ThreeNumbers l ∧ (sel = true → 6 ≤ (words l).length) ∧ (dir = false → m.det ≠ 0)

theorem ok_readPos (h : Header) (m : Cell) (hm : h.cell = some m) (l : Str) :
    Ok (readPos h l) ↔ ThreeNumbers l ∧ (h.direct = false → m.det ≠ 0) := by
  unfold readPos
  rw [ok_bind_const (P := h.direct = false → m.det ≠ 0), ok_readVec]
  intro v _
  rw [hm]
  cases h.direct with
  | true => simp [ok_ok]
  | false => simp [ok_toDirect]

theorem ok_site (h : Header) (m : Cell) (hm : h.cell = some m) (lines : List Str) (j : Nat) (s : Str) (r : Res (List Raw)) :
    Ok (idx lines j >>= fun line => readPos h line >>= fun v => readFlags line h.selective >>= fun f => r >>= fun rest => .ok ((⟨s, v, f⟩ : Raw) :: rest)) ↔
    (∃ l, lines[j]? = some l ∧ SiteLine l m h.selective h.direct) ∧ Ok r := by
  have step : ∀ line, Ok (readPos h line >>= fun v => readFlags line h.selective >>= fun f => r >>= fun rest => .ok ((⟨s, v, f⟩ : Raw) :: rest)) ↔
      SiteLine line m h.selective h.direct ∧ Ok r := by
    intro line
    rw [ok_bind_const (P := (h.selective = true → 6 ≤ (words line).length) ∧ Ok r), ok_readPos h m hm]
    · unfold SiteLine; tauto
    · intro v _
      rw [ok_bind_const (P := Ok r), ok_readFlags]
      intro f _
      rw [ok_bind_const (P := True) (fun _ _ => by simp [ok_ok]), and_true]
  rw [ok_bind]
  simp only [step, idx_eq]
  constructor
  · rintro ⟨l, h1, h2, h3⟩; exact ⟨⟨l, h1, h2⟩, h3⟩
  · rintro ⟨⟨l, h1, h2⟩, h3⟩; exact ⟨l, h1, h2, h3⟩

theorem ok_readSites (h : Header) (m : Cell) (hm : h.cell = some m) (lines : List Str) (n i slot : Nat) (index a : Int) (rest : List Int)
    (hd : h.atoms.drop slot = a :: rest) (hn : n ≤ (a - index + 1).toNat + (rest.map fun d => max 1 d.toNat).sum) :
    Ok (readSites h lines n i slot index) ↔
      n ≤ (expand (h.spec.drop slot) ((a - index + 1).toNat :: rest.map fun d => max 1 d.toNat)).length ∧
      ∀ j < n, ∃ l, lines[i + j + h.loopmax]? = some l ∧ SiteLine l m h.selective h.direct := by
  induction n generalizing i slot index a rest with
  | zero => unfold readSites; simp [ok_ok]
  | succ n ih =>
    have ha : idx h.atoms slot = .ok a := by
      have h3 : (h.atoms.drop slot)[0]? = some a := by rw [hd]; rfl
      rw [List.getElem?_drop] at h3
      exact idx_ok.2 (by simpa using h3)
    have split : (∀ j < n + 1, ∃ l, lines[i + j + h.loopmax]? = some l ∧ SiteLine l m h.selective h.direct) ↔
        (∃ l, lines[i + h.loopmax]? = some l ∧ SiteLine l m h.selective h.direct) ∧
        ∀ j < n, ∃ l, lines[i + 1 + j + h.loopmax]? = some l ∧ SiteLine l m h.selective h.direct := by
      constructor
      · intro q
        refine ⟨by simpa using q 0 (by omega), fun j hj => ?_⟩
        have := q (j + 1) (by omega)
        rwa [show i + (j + 1) + h.loopmax = i + 1 + j + h.loopmax by omega] at this
      · rintro ⟨q0, q⟩ j hj
        cases j with
        | zero => simpa using q0
        | succ j =>
          have := q j (by omega)
          rwa [show i + 1 + j + h.loopmax = i + (j + 1) + h.loopmax by omega] at this
    rw [split]
    unfold readSites
    rw [ha, Res.ok_bind]
    dsimp only
    by_cases hgt : index > a
    · rw [if_pos hgt, if_pos hgt]
      have ha0 : (a - index + 1).toNat = 0 := by omega
      rw [ha0] at hn ⊢
      cases rest with
      | nil => simp at hn
      | cons b bs =>
        have hd' : h.atoms.drop (slot + 1) = b :: bs := by rw [← List.tail_drop, hd]; rfl
        simp only [List.map_cons, List.sum_cons] at hn
        have hb : max 1 b.toNat = (b - (1 + 1) + 1).toNat + 1 := by omega
        have hrec := ih (i + 1) (slot + 1) (1 + 1) b bs hd' (by omega)
        have hlen : (expand (h.spec.drop slot) (0 :: (b :: bs).map fun d => max 1 d.toNat)).length =
            (expand (h.spec.drop (slot + 1)) ((b :: bs).map fun d => max 1 d.toNat)).length := by
          cases hdr : h.spec.drop slot with
          | nil =>
            have : h.spec.drop (slot + 1) = [] := by rw [← List.tail_drop, hdr]; rfl
            rw [this]; rfl
          | cons t ts =>
            have : h.spec.drop (slot + 1) = ts := by rw [← List.tail_drop, hdr]; rfl
            rw [this, expand_length_cons, Nat.zero_add]
        rw [hlen]
        cases hs : idx h.spec (slot + 1) with
        | ok s =>
          rw [Res.ok_bind, ok_site h m hm, hrec, drop_of_idx (idx_ok.1 hs), List.map_cons, expand_length_cons, expand_length_cons, hb]
          constructor
          · rintro ⟨q1, q2, q3⟩; exact ⟨by omega, q1, q3⟩
          · rintro ⟨q2, q1, q3⟩; exact ⟨q1, by omega, q3⟩
        | exit c => unfold idx at hs; split at hs <;> cases hs
        | raise e =>
          have : h.spec.drop (slot + 1) = [] := by
            rw [List.drop_eq_nil_iff]
            unfold idx at hs
            split at hs
            · cases hs
            · rename_i hq; exact List.getElem?_eq_none_iff.1 hq
          rw [this, expand_nil]
          simp [Ok, Res.bind]
    · rw [if_neg hgt, if_neg hgt]
      have ha1 : (a - index + 1).toNat = (a - (index + 1) + 1).toNat + 1 := by omega
      have hrec := ih (i + 1) slot (index + 1) a rest hd (by omega)
      cases hs : idx h.spec slot with
      | ok s =>
        rw [Res.ok_bind, ok_site h m hm, hrec, drop_of_idx (idx_ok.1 hs), expand_length_cons, expand_length_cons, ha1]
        constructor
        · rintro ⟨q1, q2, q3⟩; exact ⟨by omega, q1, q3⟩
        · rintro ⟨q2, q1, q3⟩; exact ⟨q1, by omega, q3⟩
      | exit c => unfold idx at hs; split at hs <;> cases hs
      | raise e =>
        have : h.spec.drop slot = [] := by
          rw [List.drop_eq_nil_iff]
          unfold idx at hs
          split at hs
          · cases hs
          · rename_i hq; exact List.getElem?_eq_none_iff.1 hq
        rw [this, expand_nil]
        simp [Ok, Res.bind]

theorem ok_sites (h : Header) (m : Cell) (hm : h.cell = some m) (lines : List Str) :
    Ok (readSites h lines h.atoms.sum.toNat 0 0 1) ↔ Positions lines h.spec h.atoms m h.selective h.direct h.loopmax := by
  unfold Positions
  cases hcs : h.atoms with
  | nil => simp [readSites, ok_ok]
  | cons a rest =>
    rw [ok_readSites h m hm lines _ 0 0 1 a rest (by rw [List.drop_zero, hcs])
      (by
        have := sum_le_taken rest
        simp only [List.sum_cons]
        omega), List.drop_zero, taken, show a - 1 + 1 = a by omega]
    simp only [Nat.zero_add, SiteLine]

/-! ### the header -/

theorem readRow_iff (l : Str) (xs : List Rat) : readRow l = .ok xs ↔ List.Forall₂ Prints (words l) xs := by
  unfold readRow
  rw [Res.mapM'_eq_ok]
  constructor
  · intro h; exact h.imp fun _ _ q => (toFloat_iff _ _).1 q
  · intro h; exact h.imp fun _ _ q => (toFloat_iff _ _).2 q

theorem row_three (l : Str) (v : Vec) : readRow l = .ok [v.x, v.y, v.z] ↔ PrintsVector l v := by
  rw [readRow_iff]
  unfold PrintsVector
  constructor
  · intro h
    match hw : words l, h with
    | [a, b, c], .cons h1 (.cons h2 (.cons h3 .nil)) => exact ⟨a, b, c, rfl, h1, h2, h3⟩
  · rintro ⟨a, b, c, h, h1, h2, h3⟩
    rw [h]
    exact .cons h1 (.cons h2 (.cons h3 .nil))

theorem makeCell_some {s : Rat} {a b c : List Rat} {m : Cell} (h : makeCell s a b c = .ok (some m)) :
    ∃ x y z : Vec, a = [x.x, x.y, x.z] ∧ b = [y.x, y.y, y.z] ∧ c = [z.x, z.y, z.z] ∧ m = M3.scale s ⟨x, y, z⟩ := by
  unfold makeCell at h
  split at h
  · rename_i ax ay az bx b_y bz cx cy cz
    injection h with h
    injection h with h
    exact ⟨⟨ax, ay, az⟩, ⟨bx, b_y, bz⟩, ⟨cx, cy, cz⟩, rfl, rfl, rfl, h.symm⟩
  · split at h
    · injection h with h; cases h
    · cases h

theorem isNumbers_iff (l : Str) : ¬ isNumbers l = true ↔ ∃ v ∈ splitOn ' ' l, pyFloat v = none := by
  unfold isNumbers
  rw [List.all_eq_true]
  simp only [isNumber_iff, not_forall, not_not, exists_prop]

theorem begins_iff {l : Str} {d : Char} (h : idx l 0 = .ok d) (c : Char) : Begins l c ↔ lowerC d = c := by
  have := idx_ok.1 h
  cases l with
  | nil => cases this
  | cons x xs =>
    simp only [List.getElem?_cons_zero, Option.some.injEq] at this
    subst this
    constructor
    · rintro ⟨_, _, h1, h2⟩; cases h1; exact h2
    · intro h2; exact ⟨x, xs, rfl, h2⟩

theorem idx_head {l : Str} (h : l ≠ []) : ∃ d, idx l 0 = .ok d := by
  cases l with
  | nil => exact absurd rfl h
  | cons x xs => exact ⟨x, rfl⟩

theorem header_heads {L : List Str} {hd : Header} {m : Cell} (h : readHeader L = .ok hd) (hm : hd.cell = some m) :
    Heads L hd.spec hd.atoms m hd.selective hd.direct ∧ hd.loopmax = if hd.selective then 9 else 8 := by
  unfold readHeader at h
  obtain ⟨l0, h0, h⟩ := Res.bind_eq_ok.1 h
  obtain ⟨l5, h5, h⟩ := Res.bind_eq_ok.1 h
  obtain ⟨l1, h1, h⟩ := Res.bind_eq_ok.1 h
  obtain ⟨w, hw, h⟩ := Res.bind_eq_ok.1 h
  obtain ⟨sc, hsc, h⟩ := Res.bind_eq_ok.1 h
  split at h
  · cases h
  rename_i hpos
  split at h
  · cases h
  rename_i hnum
  obtain ⟨l2, h2, h⟩ := Res.bind_eq_ok.1 h
  obtain ⟨a, ha, h⟩ := Res.bind_eq_ok.1 h
  obtain ⟨l3, h3, h⟩ := Res.bind_eq_ok.1 h
  obtain ⟨b, hb, h⟩ := Res.bind_eq_ok.1 h
  obtain ⟨l4, h4, h⟩ := Res.bind_eq_ok.1 h
  obtain ⟨c, hc, h⟩ := Res.bind_eq_ok.1 h
  obtain ⟨cell, hcell, h⟩ := Res.bind_eq_ok.1 h
  obtain ⟨l6, h6, h⟩ := Res.bind_eq_ok.1 h
  obtain ⟨atoms, hatoms, h⟩ := Res.bind_eq_ok.1 h
  obtain ⟨l7, h7, h⟩ := Res.bind_eq_ok.1 h
  obtain ⟨c7, hc7, h⟩ := Res.bind_eq_ok.1 h
  dsimp only at h
  have hw' := idx_ok.1 hw
  obtain ⟨rest, hrest⟩ : ∃ r, words l1 = w :: r := by
    cases hq : words l1 with
    | nil => rw [hq] at hw'; cases hw'
    | cons x xs => rw [hq] at hw'; cases hw'; exact ⟨xs, rfl⟩
  have hcm : cell = some m := by
    split at h
    · obtain ⟨l8, h8, h⟩ := Res.bind_eq_ok.1 h
      obtain ⟨c8, hc8, h⟩ := Res.bind_eq_ok.1 h
      cases h; exact hm
    · cases h; exact hm
  rw [hcm] at hcell
  obtain ⟨x, y, z, ea, eb, ec, hm'⟩ := makeCell_some hcell
  rw [ea] at ha
  rw [eb] at hb
  rw [ec] at hc
  have rows : PrintsVector l2 x ∧ PrintsVector l3 y ∧ PrintsVector l4 z := ⟨(row_three _ _).1 ha, (row_three _ _).1 hb, (row_three _ _).1 hc⟩
  have ints := (Chgcar.ints_iff _ _).1 hatoms
  have base : ∀ (sel dir : Bool), (sel = true ∧ Begins l7 's' ∧ (∃ l8, L[8]? = some l8 ∧ (dir = true ↔ Begins l8 'd')) ∨
      sel = false ∧ ¬ Begins l7 's' ∧ (dir = true ↔ Begins l7 'd')) → Heads L (words l5) atoms m sel dir := fun sel dir q =>
    ⟨l1, l2, l3, l4, l5, l6, l7, w, rest, sc, x, y, z, idx_ok.1 h1, idx_ok.1 h2, idx_ok.1 h3, idx_ok.1 h4, idx_ok.1 h5, idx_ok.1 h6, idx_ok.1 h7, hrest,
      (toFloat_iff _ _).1 hsc, not_lt.1 hpos, rows.1, rows.2.1, rows.2.2, hm', (isNumbers_iff _).1 hnum, rfl, ints, q⟩
  split at h
  · rename_i hs
    obtain ⟨l8, h8, h⟩ := Res.bind_eq_ok.1 h
    obtain ⟨c8, hc8, h⟩ := Res.bind_eq_ok.1 h
    cases h
    exact ⟨base _ _ (.inl ⟨rfl, (begins_iff hc7 _).2 hs, l8, idx_ok.1 h8, by rw [begins_iff hc8]; simp⟩), rfl⟩
  · rename_i hs
    cases h
    exact ⟨base _ _ (.inr ⟨rfl, by rw [begins_iff hc7]; exact hs, by rw [begins_iff hc7]; simp⟩), rfl⟩

theorem heads_header {L : List Str} (hne : ∀ l ∈ L, l ≠ []) {names : List Str} {counts : List Int} {m : Cell} {sel dir : Bool}
    (h : Heads L names counts m sel dir) :
    ∃ hd, readHeader L = .ok hd ∧ hd.spec = names ∧ hd.atoms = counts ∧ hd.cell = some m ∧ hd.selective = sel ∧ hd.direct = dir ∧
      hd.loopmax = if sel then 9 else 8 := by
  obtain ⟨l1, l2, l3, l4, l5, l6, l7, w, rest, s, a, b, c, h1, h2, h3, h4, h5, h6, h7, hw, hs, hpos, ra, rb, rc, hm, hnum, hnames, hints, hq⟩ := h
  obtain ⟨l0, h0⟩ : ∃ l0, L[0]? = some l0 := by
    cases L with
    | nil => cases h1
    | cons x xs => exact ⟨x, rfl⟩
  obtain ⟨c7, hc7⟩ := idx_head (hne l7 (List.mem_of_getElem? h7))
  have hcell : makeCell s [a.x, a.y, a.z] [b.x, b.y, b.z] [c.x, c.y, c.z] = .ok (some m) := by rw [hm]; rfl
  have hwi : idx (words l1) 0 = .ok w := by rw [hw]; rfl
  unfold readHeader
  rw [idx_ok.2 h0, Res.ok_bind, idx_ok.2 h5, Res.ok_bind, idx_ok.2 h1, Res.ok_bind, hwi, Res.ok_bind, (toFloat_iff _ _).2 hs, Res.ok_bind,
    if_neg (not_lt.2 hpos), if_neg ((isNumbers_iff _).2 hnum), idx_ok.2 h2, Res.ok_bind, (row_three _ _).2 ra, Res.ok_bind, idx_ok.2 h3, Res.ok_bind,
    (row_three _ _).2 rb, Res.ok_bind, idx_ok.2 h4, Res.ok_bind, (row_three _ _).2 rc, Res.ok_bind, hcell, Res.ok_bind, idx_ok.2 h6, Res.ok_bind,
    (Chgcar.ints_iff _ _).2 hints, Res.ok_bind, idx_ok.2 h7, Res.ok_bind, hc7, Res.ok_bind]
  dsimp only
  rcases hq with ⟨rfl, hb, l8, h8, hd⟩ | ⟨rfl, hb, hd⟩
  · obtain ⟨c8, hc8⟩ := idx_head (hne l8 (List.mem_of_getElem? h8))
    rw [if_pos ((begins_iff hc7 _).1 hb), idx_ok.2 h8, Res.ok_bind, hc8, Res.ok_bind]
    refine ⟨_, rfl, hnames.symm, rfl, rfl, rfl, ?_, rfl⟩
    rw [begins_iff hc8] at hd
    exact Bool.eq_iff_iff.2 (by simp [hd])
  · rw [if_neg (fun q => hb ((begins_iff hc7 _).2 q))]
    refine ⟨_, rfl, hnames.symm, rfl, rfl, rfl, ?_, rfl⟩
    rw [begins_iff hc7] at hd
    exact Bool.eq_iff_iff.2 (by simp [hd])

/-! ### what follows the positions -/

theorem lineAt_iff (L : List Str) (i : Int) (l : Str) : idxZ L i = .ok l ↔ LineAt L i l := by
  unfold idxZ Kpoints.pyIndex LineAt
  by_cases h0 : 0 ≤ i
  · rw [if_pos h0]
    by_cases hl : i.toNat < L.length
    · rw [if_pos hl]
      simp only [idx_ok]
      constructor
      · intro h; exact .inl ⟨h0, h⟩
      · rintro (⟨_, h⟩ | ⟨h, _⟩)
        · exact h
        · omega
    · rw [if_neg hl]
      constructor
      · intro h; cases h
      · rintro (⟨_, h⟩ | ⟨h, _⟩)
        · have := (List.getElem?_eq_some_iff.1 h).1; omega
        · omega
  · rw [if_neg h0]
    by_cases hl : 0 ≤ i + L.length
    · rw [if_pos hl]
      simp only [idx_ok]
      constructor
      · intro h; exact .inr ⟨by omega, hl, h⟩
      · rintro (⟨h, _⟩ | ⟨_, _, h⟩)
        · omega
        · exact h
    · rw [if_neg hl]
      constructor
      · intro h; cases h
      · rintro (⟨h, _⟩ | ⟨_, h, _⟩) <;> omega

theorem lineAt_unique {L : List Str} {i : Int} {l l' : Str} (h : LineAt L i l) (h' : LineAt L i l') : l = l' := by
  have h1 := (lineAt_iff _ _ _).2 h
  rw [(lineAt_iff _ _ _).2 h'] at h1
  exact (Res.ok.inj h1).symm

theorem lineAt_exists {L : List Str} {i : Int} (h : 0 ≤ i + L.length) (h' : i < L.length) : ∃ l, LineAt L i l := by
  by_cases h0 : 0 ≤ i
  · exact ⟨L[i.toNat]'(by omega), .inl ⟨h0, List.getElem?_eq_getElem _⟩⟩
  · exact ⟨L[(i + L.length).toNat]'(by omega), .inr ⟨by omega, h, List.getElem?_eq_getElem _⟩⟩

theorem lineAt_mem {L : List Str} {i : Int} {l : Str} (h : LineAt L i l) : l ∈ L ∧ 0 ≤ i + L.length ∧ i < L.length := by
  rcases h with ⟨h0, h⟩ | ⟨h0, h1, h⟩
  · have := (List.getElem?_eq_some_iff.1 h).1
    exact ⟨List.mem_of_getElem? h, by omega, by omega⟩
  · have := (List.getElem?_eq_some_iff.1 h).1
    exact ⟨List.mem_of_getElem? h, by omega, by omega⟩

/-- The first word of the line is a number. -/
def NumberFirst (L : List Str) (i : Int) : Prop := ∃ l w r, LineAt L i l ∧ words l = w :: r ∧ pyFloat w ≠ none
/-- The line is blank. -/
def BlankAt (L : List Str) (i : Int) : Prop := ∃ l, LineAt L i l ∧ isBlank l = true
/-- Velocities in cartesian coordinates. -/
def Cartesian (L : List Str) (p : Int) : Prop := ∃ l, LineAt L p l ∧ Begins l 'c'

theorem tail_iff {L : List Str} (hne : ∀ l ∈ L, l ≠ []) (p : Int) (t : Bool × Bool × Bool) :
    readTailZ L p = .ok t ↔ (p < L.length → 0 ≤ p + L.length) ∧ (p + 1 < L.length → NumberFirst L (p + 1)) ∧
      (t.1 = true ↔ Velocities L p) ∧ (t.2.1 = true ↔ p < L.length ∧ Cartesian L p) ∧
      (t.2.2 = true ↔ ¬ Velocities L p ∧ p + 1 < L.length ∧ BlankAt L p) := by
  have first : ∀ s : Bool × Bool × Bool, (if p + 1 < L.length then
      idxZ L (p + 1) >>= fun l => idx (words l) 0 >>= fun w => if isNumber w then Res.ok s else .exit 302
      else .ok (s.1, s.2.1, false)) = .ok t ↔
      (p + 1 < L.length → NumberFirst L (p + 1)) ∧ t = (s.1, s.2.1, s.2.2 && decide (p + 1 < L.length)) := by
    intro s
    by_cases hp : p + 1 < L.length
    · rw [if_pos hp]
      simp only [hp, forall_const, decide_true, Bool.and_true]
      constructor
      · intro h
        obtain ⟨l, hl, h⟩ := Res.bind_eq_ok.1 h
        obtain ⟨w, hw, h⟩ := Res.bind_eq_ok.1 h
        split at h
        · rename_i hn
          cases h
          refine ⟨⟨l, w, (words l).tail, (lineAt_iff _ _ _).1 hl, ?_, (isNumber_iff _).1 hn⟩, rfl⟩
          have := idx_ok.1 hw
          cases hq : words l with
          | nil => rw [hq] at this; cases this
          | cons x xs => rw [hq] at this; cases this; rfl
        · cases h
      · rintro ⟨⟨l, w, r, hl, hw, hn⟩, rfl⟩
        have hwi : idx (words l) 0 = .ok w := by rw [hw]; rfl
        rw [(lineAt_iff _ _ _).2 hl, Res.ok_bind, hwi, Res.ok_bind, if_pos ((isNumber_iff _).2 hn)]
    · rw [if_neg hp]
      simp only [hp, false_imp_iff, decide_false, Bool.and_false, true_and]
      constructor
      · intro h; exact (Res.ok.inj h).symm
      · intro h; rw [h]
  obtain ⟨t1, t2, t3⟩ := t
  unfold readTailZ
  by_cases hp : p < L.length
  · rw [if_pos hp]
    by_cases hz : 0 ≤ p + L.length
    · obtain ⟨l, hl⟩ := lineAt_exists hz hp
      obtain ⟨c, hc⟩ := idx_head (hne l (lineAt_mem hl).1)
      have hv : Velocities L p ↔ lowerC c = 'd' ∨ lowerC c = 'c' := by
        unfold Velocities
        simp only [hp, true_and]
        constructor
        · rintro ⟨l', hl', h⟩
          rw [lineAt_unique hl' hl, begins_iff hc, begins_iff hc] at h
          exact h
        · intro h; exact ⟨l, hl, by rw [begins_iff hc, begins_iff hc]; exact h⟩
      have hcc : Cartesian L p ↔ lowerC c = 'c' := by
        unfold Cartesian
        constructor
        · rintro ⟨l', hl', h⟩
          rwa [lineAt_unique hl' hl, begins_iff hc] at h
        · intro h; exact ⟨l, hl, by rwa [begins_iff hc]⟩
      have hb : BlankAt L p ↔ isBlank l = true := by
        unfold BlankAt
        constructor
        · rintro ⟨l', hl', h⟩; rwa [lineAt_unique hl' hl] at h
        · intro h; exact ⟨l, hl, h⟩
      rw [(lineAt_iff _ _ _).2 hl, Res.ok_bind, hc, Res.ok_bind, hv, hcc, hb]
      by_cases hd : lowerC c = 'd' ∨ lowerC c = 'c'
      · rw [if_pos hd, Res.ok_bind, first]
        simp only [hz, hp, hd, implies_true, true_and, not_true, false_and, Prod.mk.injEq, iff_true, iff_false, Bool.false_and, Bool.not_eq_true]
        constructor
        · rintro ⟨q1, q2, q3, q4⟩; exact ⟨q1, q2, by rw [q3]; simp, q4⟩
        · rintro ⟨q1, q2, q3, q4⟩
          refine ⟨q1, q2, ?_, q4⟩
          rw [Bool.eq_iff_iff, q3]; simp
      · rw [if_neg hd, Res.ok_bind, first]
        simp only [hz, hp, hd, implies_true, true_and, not_false_iff, Prod.mk.injEq, iff_false, Bool.not_eq_true]
        have hnc : ¬ lowerC c = 'c' := fun q => hd (.inr q)
        simp only [hnc, iff_false, Bool.not_eq_true]
        constructor
        · rintro ⟨q1, q2, q3, q4⟩; exact ⟨q1, q2, q3, by rw [q4]; simp [and_comm]⟩
        · rintro ⟨q1, q2, q3, q4⟩
          refine ⟨q1, q2, q3, ?_⟩
          rw [Bool.eq_iff_iff, q4]; simp [and_comm]
    · have : idxZ L p = .raise .indexError := by
        unfold idxZ Kpoints.pyIndex
        rw [if_neg (by omega), if_neg hz]
      rw [this]
      simp only [hp, hz, forall_const, false_and, iff_false]
      intro h; cases h
  · rw [if_neg hp, Res.ok_bind, first]
    have hv : ¬ Velocities L p := fun q => hp q.1
    have hp1 : ¬ p + 1 < L.length := by omega
    simp only [hp, hp1, hv, false_imp_iff, true_and, false_and, and_false, iff_false, Bool.not_eq_true, Prod.mk.injEq, Bool.false_and]

theorem ok_vecs (L : List Str) (p : Nat) (P : Int) (hP : P = p) (n : Nat) (conv : Vec → Res Vec) (C : Prop) (hc : ∀ v, Ok (conv v) ↔ C) :
    Ok (readVecs L p n conv) ↔ VectorLines L P n ∧ (0 < n → C) := by
  subst hP
  unfold readVecs VectorLines
  rw [ok_mapM']
  have one : ∀ i, Ok (idx L (i + p) >>= fun l => readVec l >>= conv) ↔ (∃ l, L[i + p]? = some l ∧ ThreeNumbers l) ∧ C := by
    intro i
    have step : ∀ l, Ok (readVec l >>= conv) ↔ ThreeNumbers l ∧ C := by
      intro l
      rw [ok_bind_const (P := C) (fun v _ => hc v), ok_readVec]
    rw [ok_bind]
    simp only [step, idx_eq]
    constructor
    · rintro ⟨l, h1, h2, h3⟩; exact ⟨⟨l, h1, h2⟩, h3⟩
    · rintro ⟨⟨l, h1, h2⟩, h3⟩; exact ⟨l, h1, h2, h3⟩
  simp only [one, List.mem_range]
  have e : ∀ k : Nat, ((p : Int) + k).toNat = k + p := by intro k; omega
  simp only [e]
  constructor
  · intro h; exact ⟨fun k hk => (h k hk).1, fun hn => (h 0 hn).2⟩
  · rintro ⟨h1, h2⟩ k hk; exact ⟨h1 k hk, h2 (by omega)⟩

/-- What is asked of the line behind the velocities. -/
def BehindOk (L : List Str) (p : Int) (n : Nat) : Prop := p < L.length → ∃ l, LineAt L p l ∧ (isBlank l = true →
  ∃ l' w r, LineAt L (p + 1) l' ∧ words l' = w :: r ∧ (pyFloat w ≠ none → VectorLines L (p + 1) n))

theorem ok_behindZ {α : Type} (L : List Str) (p : Int) (n : Nat) (f : Str → Res α) (a : α) (hf : ∀ w, Ok (f w) ↔ (pyFloat w ≠ none → VectorLines L (p + 1) n)) :
    Ok (if p < L.length then idxZ L p >>= fun l =>
      if isBlank l then idxZ L (p + 1) >>= fun l' => idx (words l') 0 >>= f else Res.ok a else Res.ok a) ↔ BehindOk L p n := by
  unfold BehindOk
  by_cases hp : p < L.length
  · rw [if_pos hp]
    simp only [hp, forall_const]
    rw [ok_bind]
    simp only [lineAt_iff]
    have inner : ∀ l, Ok (if isBlank l then idxZ L (p + 1) >>= fun l' => idx (words l') 0 >>= f else Res.ok a) ↔
        (isBlank l = true → ∃ l' w r, LineAt L (p + 1) l' ∧ words l' = w :: r ∧ (pyFloat w ≠ none → VectorLines L (p + 1) n)) := by
      intro l
      by_cases hb : isBlank l = true
      · rw [if_pos hb]
        simp only [hb, forall_const]
        constructor
        · intro h
          obtain ⟨l', h1, h⟩ := ok_bind.1 h
          obtain ⟨w, h2, h⟩ := ok_bind.1 h
          refine ⟨l', w, (words l').tail, (lineAt_iff _ _ _).1 h1, ?_, (hf w).1 h⟩
          have := idx_ok.1 h2
          cases hq : words l' with
          | nil => rw [hq] at this; cases this
          | cons x xs => rw [hq] at this; cases this; rfl
        · rintro ⟨l', w, r, h1, h2, h3⟩
          exact ok_bind.2 ⟨l', (lineAt_iff _ _ _).2 h1, ok_bind.2 ⟨w, by rw [h2]; rfl, (hf w).2 h3⟩⟩
      · rw [if_neg hb]
        simp [hb, ok_ok]
    simp only [inner]
  · rw [if_neg hp]
    simp [hp, ok_ok]

theorem vectorLines_zero (L : List Str) (p : Int) : VectorLines L p 0 := fun k hk => absurd hk (by omega)

theorem ok_checkPredZ (L : List Str) (p : Int) : Ok (checkPredZ L p) ↔ BehindOk L p 0 := by
  unfold checkPredZ
  exact ok_behindZ L p 0 (fun _ => .ok ()) () fun w => by simp [ok_ok, vectorLines_zero]

theorem idxZ_nat (L : List Str) (p : Nat) : idxZ L (p : Int) = idx L p := by
  unfold idxZ Kpoints.pyIndex
  rw [if_pos (by omega)]
  by_cases h : (p : Int).toNat < L.length
  · rw [if_pos h]; simp
  · rw [if_neg h]
    unfold idx
    rw [List.getElem?_eq_none (by omega)]

theorem ok_predAfter (L : List Str) (p n : Nat) (P : Int) (hP : P = p) : Ok (readPredAfter L p n) ↔ BehindOk L P n := by
  subst hP
  rw [← ok_behindZ (α := Option (List Vec)) L p n
    (fun w => if isNumber w then readVecs L (p + 1) n .ok >>= fun vs => .ok (some vs) else .ok none) none]
  · unfold readPredAfter
    have e1 : idxZ L ((p : Int) + 1) = idx L (p + 1) := by rw [← idxZ_nat]; rfl
    rw [idxZ_nat, e1]
    simp only [Nat.cast_lt]
  · intro w
    by_cases hw : isNumber w = true
    · rw [if_pos hw]
      have := (isNumber_iff w).1 hw
      rw [ok_bind_const (P := True) (fun _ _ => by simp [ok_ok]), and_true,
        ok_vecs L (p + 1) ((p : Int) + 1) rfl n .ok True (fun _ => by simp [ok_ok])]
      simp [this]
    · rw [if_neg hw]
      have : pyFloat w = none := by
        by_contra q; exact hw ((isNumber_iff w).2 q)
      simp [this, ok_ok]

theorem readTail_nat (L : List Str) (p : Nat) : readTail L p = readTailZ L (p : Int) := by
  unfold readTail readTailZ
  have e1 : idxZ L ((p : Int) + 1) = idx L (p + 1) := by rw [← idxZ_nat]; rfl
  rw [idxZ_nat, e1]
  have e2 : ((p : Int) + 1 < L.length) ↔ p + 1 < L.length := by omega
  simp only [Nat.cast_lt, e2]

/-- The flags of the tail as the specification has them. -/
theorem ok_tail {α : Type} {L : List Str} (hne : ∀ l ∈ L, l ≠ []) (p : Int) (f : Bool × Bool × Bool → Res α) (Q : Prop)
    (hQ : ∀ t : Bool × Bool × Bool, (t.1 = true ↔ Velocities L p) → (t.2.1 = true ↔ p < L.length ∧ Cartesian L p) →
      (t.2.2 = true ↔ ¬ Velocities L p ∧ p + 1 < L.length ∧ BlankAt L p) → (Ok (f t) ↔ Q)) :
    Ok (readTailZ L p >>= f) ↔ (p < L.length → 0 ≤ p + L.length) ∧ (p + 1 < L.length → NumberFirst L (p + 1)) ∧ Q := by
  classical
  rw [ok_bind]
  constructor
  · rintro ⟨t, h1, h2⟩
    obtain ⟨q1, q2, q3, q4, q5⟩ := (tail_iff hne p t).1 h1
    exact ⟨q1, q2, (hQ t q3 q4 q5).1 h2⟩
  · rintro ⟨q1, q2, q⟩
    let t : Bool × Bool × Bool :=
      (decide (Velocities L p), decide (p < L.length ∧ Cartesian L p), decide (¬ Velocities L p ∧ p + 1 < L.length ∧ BlankAt L p))
    have f1 : t.1 = true ↔ Velocities L p := decide_eq_true_iff
    have f2 : t.2.1 = true ↔ p < L.length ∧ Cartesian L p := decide_eq_true_iff
    have f3 : t.2.2 = true ↔ ¬ Velocities L p ∧ p + 1 < L.length ∧ BlankAt L p := decide_eq_true_iff
    exact ⟨t, (tail_iff hne p t).2 ⟨q1, q2, f1, f2, f3⟩, (hQ t f1 f2 f3).2 q⟩

theorem there_iff (L : List Str) (p : Int) : (p < L.length → 0 ≤ p + L.length) ↔ 0 ≤ p + L.length := by
  constructor
  · intro h
    by_cases hp : p < L.length
    · exact h hp
    · omega
  · intro h _; exact h

/-- What `Rest` says, apart from the first two fields. -/
def RestBody (L : List Str) (n p : Int) (cell : Cell) (dir : Bool) : Prop :=
  (Velocities L p → (VectorLines L (p + 1) n.toNat ∧ (0 < n → (dir = false ∨ Cartesian L p) → cell.det ≠ 0)) ∧ BehindOk L (p + 1 + n) n.toNat) ∧
  (¬ Velocities L p → p + 1 < L.length → BlankAt L p → VectorLines L (p + 1) n.toNat)

theorem rest_iff (L : List Str) (n p : Int) (cell : Cell) (dir : Bool) :
    Rest L n p cell dir ↔ (p < L.length → 0 ≤ p + L.length) ∧ (p + 1 < L.length → NumberFirst L (p + 1)) ∧ RestBody L n p cell dir := by
  rw [there_iff]
  have e : p + 1 + n + 1 = p + 2 + n := by omega
  unfold RestBody BehindOk
  rw [e]
  constructor
  · rintro ⟨h1, h2, h3, h4, h5⟩
    exact ⟨h1, h2, fun v => ⟨h3 v, h4 v⟩, h5⟩
  · rintro ⟨h1, h2, h3, h5⟩
    exact ⟨h1, h2, fun v => (h3 v).1, fun v => (h3 v).2, h5⟩

theorem ok_rest_neg {L : List Str} (hne : ∀ l ∈ L, l ≠ []) (n : Int) (hn : n < 0) (k : Nat) (cell : Cell) (dir : Bool) (P : Parsed) :
    Ok (readTailZ L (n + k) >>= fun t => if t.1 then checkPredZ L (n + (n + k + 1)) >>= fun _ => .ok P else .ok P) ↔
      Rest L n (n + k) cell dir := by
  rw [rest_iff, ok_tail hne]
  intro t h1 h2 h3
  have h0 : n.toNat = 0 := by omega
  have e : n + (n + (k : Int) + 1) = n + k + 1 + n := by omega
  unfold RestBody
  rw [h0, e]
  by_cases hv : Velocities L (n + k)
  · rw [if_pos (h1.2 hv), ok_bind_const (P := True) (fun _ _ => by simp [ok_ok]), ok_checkPredZ]
    have : ¬ 0 < n := by omega
    simp [hv, this, vectorLines_zero]
  · rw [if_neg (fun q => hv (h1.1 q))]
    simp [hv, ok_ok, vectorLines_zero]

theorem ok_rest_pos {L : List Str} (hne : ∀ l ∈ L, l ≠ []) (n k : Nat) (cell : Cell) (dir : Bool) (f : Option (List Vec) → Option (List Vec) → Parsed) :
    Ok (readTail L (n + k) >>= fun t =>
      if t.1 then
        readVecs L (n + k + 1) n (fun v => if dir && !t.2.1 then .ok v else toDirect v (some cell)) >>= fun vels =>
        readPredAfter L (n + (n + k + 1)) n >>= fun preds => .ok (f (some vels) preds)
      else if t.2.2 then readVecs L (n + k + 1) n .ok >>= fun preds => .ok (f none (some preds))
      else .ok (f none none)) ↔ Rest L n (n + k) cell dir := by
  rw [rest_iff, readTail_nat, show ((n + k : Nat) : Int) = (n : Int) + k by push_cast; rfl, ok_tail hne]
  intro t h1 h2 h3
  unfold RestBody
  rw [Int.toNat_natCast]
  by_cases hv : Velocities L (n + k)
  · rw [if_pos (h1.2 hv)]
    rw [ok_bind_const (P := BehindOk L ((n : Int) + k + 1 + n) n)]
    · rw [ok_vecs L (n + k + 1) ((n : Int) + k + 1) (by push_cast; rfl) n _ ((dir = false ∨ Cartesian L (n + k)) → cell.det ≠ 0)]
      · simp only [hv, forall_const, not_true, false_imp_iff, and_true]
        rw [Int.natCast_pos]
      · intro v
        have hc : t.2.1 = true ↔ Cartesian L (n + k) := by rw [h2]; exact ⟨fun q => q.2, fun q => ⟨hv.1, q⟩⟩
        cases hd : dir with
        | false => simp [ok_toDirect]
        | true =>
          rw [← hc]
          cases t.2.1 <;> simp [ok_toDirect, ok_ok]
    · intro vels _
      rw [ok_bind_const (P := True) (fun _ _ => by simp [ok_ok]), and_true, ok_predAfter L _ n ((n : Int) + k + 1 + n) (by push_cast; omega)]
  · rw [if_neg (fun q => hv (h1.1 q))]
    simp only [hv, false_imp_iff, true_and, not_false_iff, forall_const]
    have h3' : t.2.2 = true ↔ (n : Int) + k + 1 < L.length ∧ BlankAt L (n + k) := by rw [h3]; simp [hv]
    by_cases hp : t.2.2 = true
    · rw [if_pos hp, ok_bind_const (P := True) (fun _ _ => by simp [ok_ok]), and_true,
        ok_vecs L (n + k + 1) ((n : Int) + k + 1) (by push_cast; rfl) n .ok True (fun _ => by simp [ok_ok])]
      have := h3'.1 hp
      simp [this.1, this.2]
    · rw [if_neg hp]
      simp only [ok_ok, true_iff]
      intro q1 q2
      exact absurd (h3'.2 ⟨q1, q2⟩) hp

/-! ### everything -/

theorem ok_parseZ {L : List Str} (hne : ∀ l ∈ L, l ≠ []) : (∃ P c, parseZ L = .ok P ∧ P.cell = some c) ↔ Acceptable L := by
  have body : ∀ (hd : Header) (m : Cell), readHeader L = .ok hd → hd.cell = some m → hd.loopmax = (if hd.selective then 9 else 8) →
      ((∃ P c, parseZ L = .ok P ∧ P.cell = some c) ↔ Positions L hd.spec hd.atoms m hd.selective hd.direct (if hd.selective then 9 else 8) ∧
        Rest L hd.atoms.sum (hd.atoms.sum + if hd.selective then 9 else 8) m hd.direct) := by
    intro hd m hh hm hk
    have hk' : (hd.atoms.sum + if hd.selective then 9 else 8 : Int) = hd.atoms.sum + (hd.loopmax : Nat) := by
      rw [hk]; cases hd.selective <;> rfl
    rw [hk', ← hk]
    have cell : ∀ P, parseZ L = .ok P → P.cell = some m := by
      intro P hP
      by_cases hn : hd.atoms.sum < 0
      · rw [parseZ_neg hh hn hP]; exact hm
      · unfold parseZ at hP
        rw [hh, Res.ok_bind] at hP
        dsimp only at hP
        rw [if_neg hn] at hP
        obtain ⟨hd', raws, v, q, hhd, -, -, rfl⟩ := parse_ok hP
        rw [hh] at hhd
        cases hhd
        exact hm
    have h1 : (∃ P c, parseZ L = .ok P ∧ P.cell = some c) ↔ Ok (parseZ L) := by
      constructor
      · rintro ⟨P, _, h, _⟩; exact ⟨P, h⟩
      · rintro ⟨P, h⟩; exact ⟨P, m, h, cell P h⟩
    rw [h1]
    unfold parseZ
    rw [hh, Res.ok_bind]
    dsimp only
    by_cases hn : hd.atoms.sum < 0
    · rw [if_pos hn, ok_rest_neg hne _ hn hd.loopmax m hd.direct]
      have h0 : hd.atoms.sum.toNat = 0 := by omega
      unfold Positions
      rw [h0]
      simp
    · rw [if_neg hn]
      unfold parse
      rw [hh, Res.ok_bind]
      dsimp only
      rw [if_neg hn, hm]
      obtain ⟨n, hsum⟩ : ∃ n : Nat, hd.atoms.sum = n := ⟨hd.atoms.sum.toNat, by omega⟩
      have hs := ok_sites hd m hm L
      rw [hsum] at hs ⊢
      rw [Int.toNat_natCast] at hs ⊢
      rw [ok_bind_const (P := Rest L n (n + hd.loopmax) m hd.direct), hs]
      intro raws _
      exact ok_rest_pos hne n hd.loopmax m hd.direct fun v q => ⟨hd.comment, some m, assemble raws v q⟩
  constructor
  · rintro ⟨P, c, h, hc⟩
    have h' := h
    unfold parseZ at h
    obtain ⟨hd, hh, h⟩ := Res.bind_eq_ok.1 h
    have hm : hd.cell = some c := by
      dsimp only at h
      by_cases hn : hd.atoms.sum < 0
      · rw [parseZ_neg hh hn h'] at hc; exact hc
      · rw [if_neg hn] at h
        obtain ⟨hd', raws, v, q, hhd, -, -, rfl⟩ := parse_ok h
        rw [hh] at hhd
        cases hhd
        exact hc
    obtain ⟨q1, q2⟩ := header_heads hh hm
    exact ⟨hd.spec, hd.atoms, c, hd.selective, hd.direct, q1, (body hd c hh hm q2).1 ⟨P, c, h', hc⟩⟩
  · rintro ⟨names, counts, cell, sel, dir, hH, hrest⟩
    obtain ⟨hd, hh, rfl, rfl, hm, rfl, rfl, hk⟩ := heads_header hne hH
    exact (body hd cell hh hm hk).2 hrest

theorem finish_ok (P : Parsed) (hs : ∀ s ∈ P.sites, s.direct = true) :
    Ok (fromDict P.toEntries >>= fun e => validate e >>= fun _ => Res.ok e) ↔ ∃ c, P.cell = some c := by
  unfold Ok
  simp only [finish_iff P hs]
  constructor
  · rintro ⟨_, c, h, _⟩; exact ⟨c, h⟩
  · rintro ⟨c, h⟩; exact ⟨_, c, h, rfl⟩

theorem sites_direct {L : List Str} {P : Parsed} (h : parseZ L = .ok P) : ∀ s ∈ P.sites, s.direct = true := by
  have h' := h
  unfold parseZ at h
  obtain ⟨hd, hh, h⟩ := Res.bind_eq_ok.1 h
  dsimp only at h
  by_cases hn : hd.atoms.sum < 0
  · rw [parseZ_neg hh hn h']; simp
  · rw [if_neg hn] at h
    obtain ⟨hd', raws, v, q, -, -, -, rfl⟩ := parse_ok h
    intro s hs
    simp only [assemble, List.mem_map] at hs
    obtain ⟨_, _, rfl⟩ := hs
    rfl

/-- C151: exactly the acceptable texts give an object. -/
theorem C151_accepted (text : Str) : (∃ e, initZ text = .ok e) ↔ Acceptable (readlines text) := by
  rw [← ok_parseZ fun l hl => readlines_ne_nil hl]
  show Ok (initZ text) ↔ _
  unfold initZ
  rw [ok_bind]
  constructor
  · rintro ⟨P, h, hf⟩
    obtain ⟨c, hc⟩ := (finish_ok P (sites_direct h)).1 hf
    exact ⟨P, c, h, hc⟩
  · rintro ⟨P, c, h, hc⟩
    exact ⟨P, h, (finish_ok P (sites_direct h)).2 ⟨c, hc⟩⟩

theorem parseZ_exits (L : List Str) : ExitsIn (· ∈ [301, 302, 307]) (parseZ L) := by
  have hf := ExitCodes.poscar_fromList L
  have i0 : ∀ (l : List Str) i, ExitsIn (· ∈ [301, 302, 307]) (idxZ l i) := by
    intro l i; unfold idxZ Kpoints.idx; exits
  have i1 : ∀ {α} (l : List α) i, ExitsIn (· ∈ [301, 302, 307]) (idx l i) := fun l i => Poscar.idx_exits l i
  have i2 : ∀ p, ExitsIn (· ∈ [301, 302, 307]) (readTailZ L p) := by
    clear hf; intro p; unfold readTailZ; exits
  have i3 : ∀ p, ExitsIn (· ∈ [301, 302, 307]) (checkPredZ L p) := by
    clear hf; intro p; unfold checkPredZ; exits
  have hp : ExitsIn (· ∈ [301, 302, 307]) (parse L) := by
    refine ⟨fun c h => hf.of c ?_⟩
    unfold fromList; rw [h]; rfl
  refine ⟨fun c h => ?_⟩
  unfold parseZ at h
  cases hh : readHeader L with
  | ok hd =>
    rw [hh, Res.ok_bind] at h
    dsimp only at h
    split at h
    · cases ht : readTailZ L (hd.atoms.sum + hd.loopmax) with
      | ok t =>
        rw [ht, Res.ok_bind] at h
        split at h
        · cases hq : checkPredZ L (hd.atoms.sum + (hd.atoms.sum + hd.loopmax + 1)) with
          | ok _ => rw [hq] at h; cases h
          | exit c' => rw [hq] at h; cases h; exact (i3 _).of _ hq
          | raise e => rw [hq] at h; cases h
        · cases h
      | exit c' => rw [ht] at h; cases h; exact (i2 _).of _ ht
      | raise e => rw [ht] at h; cases h
    · exact hp.of c h
  | exit c' =>
    rw [hh] at h
    cases h
    refine hp.of c ?_
    unfold parse; rw [hh]; rfl
  | raise e => rw [hh] at h; cases h

/-- C151: for other texts the call ends with one of four exit codes or one of three exceptions (or the text has an infinite number or NaN, which the
model does not describe). -/
theorem C151_refused (text : Str) :
    ¬ Acceptable (readlines text) ↔ (∃ c ∈ [301, 302, 307, 13], initZ text = .exit c) ∨
      ∃ e ∈ [Exc.outOfModel, .indexError, .valueError, .linAlgError], initZ text = .raise e := by
  rw [← C151_accepted]
  constructor
  · intro h
    cases hr : initZ text with
    | ok e => exact absurd ⟨e, hr⟩ h
    | exit c =>
      left
      refine ⟨c, ?_, rfl⟩
      unfold initZ at hr
      cases hp : parseZ (readlines text) with
      | ok P =>
        rw [hp, Res.ok_bind, fromDict_direct ⟨rfl, sites_direct hp⟩ rfl, Res.ok_bind] at hr
        cases hc : P.cell with
        | none =>
          have : validate P.toEntries = .exit 13 := by
            unfold Parsed.toEntries; rw [hc]; rfl
          rw [this] at hr
          cases hr; decide
        | some m => exact absurd ⟨_, by unfold initZ; rw [hp, Res.ok_bind]; exact (finish_iff P (sites_direct hp) _).2 ⟨m, hc, rfl⟩⟩ h
      | exit c' =>
        rw [hp] at hr
        cases hr
        have := (parseZ_exits (readlines text)).of c hp
        simp only [List.mem_cons, List.not_mem_nil, or_false] at this ⊢
        tauto
      | raise e => rw [hp] at hr; cases hr
    | raise e =>
      right
      refine ⟨e, ?_, rfl⟩
      by_cases h0 : e = .outOfModel
      · rw [h0]; decide
      · exact List.mem_cons_of_mem _ (Exceptions.C127_poscar.only text e hr h0)
  · rintro (⟨c, _, h⟩ | ⟨e, _, h⟩) ⟨d, hd⟩
    · rw [h] at hd; cases hd
    · rw [h] at hd; cases hd

/-- C151: a string is read as a file with that text (its line breaks all of the form the file has), a path as the file, for every text whose counts do
not add up to less than zero. -/
theorem C151_sources (text : Str) : Agree id (init { handler := some text }) (initZ text) ∧
    init { path := some (some text) } = init { handler := some text } := ⟨initZ_agree text, rfl⟩

/-! ### the hypotheses are met -/

/-- Cartesian positions with flags, velocities, predictors; counts with a zero in the first place. -/
def full : Str := c!"c\n2.0\n1 0 0\n0 1 0\n0 0 1\nH He\n0 1\nSelective\nCart\n1 1 1 T F T\nDirect\n0 0 1 x\n  \n1 2 3\n"

/-- Accepted: this, a file that ends behind the positions, one with a negative number of ions, one with a scale of zero and direct positions. -/
example : ∀ t ∈ [full, c!"c\n1\n1 0 0\n0 1 0\n0 0 1\nH\n1\nDirect\n0 0 0", c!"c\n1\n1 0 0\n0 1 0\n0 0 1\nH\n-1\nDirect\n0.5 -0.5 0\n",
    c!"\n0 x\n1 0 0\n0 1 0\n0 0 1\n1  H\n1\nDirect\n0 0 0\n\n"], Acceptable (readlines t) := by
  have key : ∀ t : Str, (initZ t).isOk = true → Acceptable (readlines t) := by
    intro t h
    refine (C151_accepted t).1 ?_
    cases hr : initZ t with
    | ok e => exact ⟨e, rfl⟩
    | exit c => rw [hr] at h; cases h
    | raise e => rw [hr] at h; cases h
  intro t ht
  simp only [List.mem_cons, List.not_mem_nil, or_false] at ht
  rcases ht with rfl | rfl | rfl | rfl <;> exact key _ (by decide +kernel)

/-- Refused: a line too few, a lattice that is not invertible with cartesian positions, a name too few, a word behind the positions, a vector with two
components, a flag too few. -/
example : ∀ t ∈ [c!"c\n1\n1 0 0\n0 1 0\n0 0 1\nH\n2\nDirect\n0 0 0", c!"c\n0\n1 0 0\n0 1 0\n0 0 1\nH\n1\nCart\n0 0 0",
    c!"c\n1\n1 0 0\n0 1 0\n0 0 1\nH\n1 1\nDirect\n0 0 0\n0 0 0\n", c!"c\n1\n1 0 0\n0 1 0\n0 0 1\nH\n1\nDirect\n0 0 0\n\nend\n",
    c!"c\n1\n1 0\n0 1\n0 0\nH\n1\nDirect\n0 0 0\n", c!"c\n1\n1 0 0\n0 1 0\n0 0 1\nH\n1\nSel\nDirect\n0 0 0 T T\n"], ¬ Acceptable (readlines t) := by
  intro t ht
  simp only [List.mem_cons, List.not_mem_nil, or_false] at ht
  rcases ht with rfl | rfl | rfl | rfl | rfl | rfl
  · exact (C151_refused _).2 (.inr ⟨.indexError, by decide, by decide +kernel⟩)
  · exact (C151_refused _).2 (.inr ⟨.linAlgError, by decide, by decide +kernel⟩)
  · exact (C151_refused _).2 (.inr ⟨.indexError, by decide, by decide +kernel⟩)
  · exact (C151_refused _).2 (.inl ⟨302, by decide, by decide +kernel⟩)
  · exact (C151_refused _).2 (.inl ⟨13, by decide, by decide +kernel⟩)
  · exact (C151_refused _).2 (.inr ⟨.indexError, by decide, by decide +kernel⟩)

end Verif.Poscar.Accepts
