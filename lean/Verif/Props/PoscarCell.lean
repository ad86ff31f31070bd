import Verif.Props.CutPoscar
import Verif.Props.PoscarEdit
/-! # The unit cell and the scaling factor of a POSCAR file (C121) -/
set_option autoImplicit false
namespace Verif.Poscar
open Verif Verif.Utils Verif.Lattice
open Verif.Kpoints (idx toFloat toInt pyIndex)

/-! ### specification -/

/-- Specification: a line consists of exactly three words, the numbers `x`, `y` and `z`. -/
def ThreeNumbers (line : Str) (x y z : Rat) : Prop := (words line).length = 3 ∧ WordIs line 0 x ∧ WordIs line 1 y ∧ WordIs line 2 z

/-- Specification: the second line of a POSCAR text starts with the number `s`. -/
def ScalingIs (lines : List Str) (s : Rat) : Prop := ∃ line, lines[1]? = some line ∧ WordIs line 0 s

/-- Specification: `v` is `s` times the vector printed on line `i`. -/
def RowIs (lines : List Str) (i : Nat) (s : Rat) (v : Vec) : Prop :=
  ∃ line x y z, lines[i]? = some line ∧ ThreeNumbers line x y z ∧ v = ⟨s * x, s * y, s * z⟩

/-- Specification: `s` times the vector printed on line `i` of the first text is `s'` times that of the second. -/
def SameRow (A B : List Str) (i : Nat) (s s' : Rat) : Prop :=
  ∃ a b x y z x' y' z', A[i]? = some a ∧ B[i]? = some b ∧ ThreeNumbers a x y z ∧ ThreeNumbers b x' y' z' ∧
    s * x = s' * x' ∧ s * y = s' * y' ∧ s * z = s' * z'

/-- Specification: two position lines start with vectors that agree up to the factors `s` and `s'`; the words that follow are the same. -/
def SamePosition (a b : Str) (s s' : Rat) : Prop :=
  ∃ x y z x' y' z', WordIs a 0 x ∧ WordIs a 1 y ∧ WordIs a 2 z ∧ WordIs b 0 x' ∧ WordIs b 1 y' ∧ WordIs b 2 z' ∧
    s * x = s' * x' ∧ s * y = s' * y' ∧ s * z = s' * z' ∧ (words a).drop 3 = (words b).drop 3

/-- Specification: two texts describe the same structure of `n` sites with different scaling factors: the cell vectors, and the positions
if they are cartesian, agree once multiplied with the factor; everything else is the same. -/
structure Rescaled (A B : List Str) (sel dir : Bool) (n : Nat) : Prop where
  layout : Layout A sel dir
  length : A.length = B.length
  factors : ∃ s s' : Rat, ScalingIs A s ∧ ScalingIs B s' ∧ 0 ≤ s' ∧ (∀ i, 2 ≤ i → i ≤ 4 → SameRow A B i s s') ∧
    ∀ (i : Nat) (a b : Str), (if sel then 9 else 8) ≤ i → i < (if sel then 9 else 8) + n → A[i]? = some a → B[i]? = some b →
      if dir then SamePosition a b 1 1 else SamePosition a b s s'
  other : ∀ i, i < 1 ∨ (5 ≤ i ∧ i < (if sel then 9 else 8)) ∨ (if sel then 9 else 8) + n ≤ i → A[i]? = B[i]?

/-! ### lemmas -/

theorem toFloat_of {w : Str} {d : Dec} (h : pyFloat w = some (.fin d)) : toFloat w = .ok d.toRat := by
  unfold toFloat; rw [h]

theorem wordIs_iff {line : Str} {i : Nat} {q : Rat} : WordIs line i q ↔ ∃ w, idx (words line) i = .ok w ∧ toFloat w = .ok q := by
  constructor
  · rintro ⟨w, d, h1, h2, rfl⟩
    exact ⟨w, idx_ok.2 h1, toFloat_of h2⟩
  · rintro ⟨w, h1, h2⟩
    exact wordIs h1 h2

theorem wordIs_unique {line : Str} {i : Nat} {q r : Rat} (h : WordIs line i q) (h' : WordIs line i r) : q = r := by
  obtain ⟨w, a1, a2⟩ := wordIs_iff.1 h
  obtain ⟨w', b1, b2⟩ := wordIs_iff.1 h'
  rw [a1] at b1; cases b1
  rw [a2] at b2; cases b2
  rfl

theorem readVec_ok {line : Str} {v : Vec} : readVec line = .ok v ↔ WordIs line 0 v.x ∧ WordIs line 1 v.y ∧ WordIs line 2 v.z := by
  unfold readVec
  simp only [Res.bind_eq_ok, wordIs_iff]
  constructor
  · rintro ⟨a, ha, x, hx, b, hb, y, hy, c, hc, z, hz, h⟩
    cases h
    exact ⟨⟨a, ha, hx⟩, ⟨b, hb, hy⟩, ⟨c, hc, hz⟩⟩
  · rintro ⟨⟨a, ha, hx⟩, ⟨b, hb, hy⟩, ⟨c, hc, hz⟩⟩
    exact ⟨a, ha, _, hx, b, hb, _, hy, c, hc, _, hz, rfl⟩

theorem readRow_three {line : Str} {x y z : Rat} : readRow line = .ok [x, y, z] ↔ ThreeNumbers line x y z := by
  unfold readRow ThreeNumbers
  rw [Res.mapM'_eq_ok]
  simp only [wordIs_iff, idx_ok]
  constructor
  · intro h
    match hw : words line, h with
    | [a, b, c], .cons h1 (.cons h2 (.cons h3 .nil)) => exact ⟨rfl, ⟨a, rfl, h1⟩, ⟨b, rfl, h2⟩, ⟨c, rfl, h3⟩⟩
  · rintro ⟨h, ⟨a, ha, h1⟩, ⟨b, hb, h2⟩, ⟨c, hc, h3⟩⟩
    match hw : words line, h with
    | [a', b', c'], _ =>
      rw [hw] at ha hb hc
      cases ha; cases hb; cases hc
      exact .cons h1 (.cons h2 (.cons h3 .nil))

theorem makeCell_some {s : Rat} {a b c : List Rat} {m : Cell} (h : makeCell s a b c = .ok (some m)) :
    ∃ ax ay az bx b_y bz cx cy cz, a = [ax, ay, az] ∧ b = [bx, b_y, bz] ∧ c = [cx, cy, cz] ∧
      m = ⟨⟨s * ax, s * ay, s * az⟩, ⟨s * bx, s * b_y, s * bz⟩, ⟨s * cx, s * cy, s * cz⟩⟩ := by
  unfold makeCell at h
  split at h
  · cases h
    exact ⟨_, _, _, _, _, _, _, _, _, rfl, rfl, rfl, rfl⟩
  · split at h <;> cases h

/-- All that the header needs. -/
theorem readHeader_parts {lines : List Str} {hd : Header} (h : readHeader lines = .ok hd) :
    ∃ l0 l5 l1 w l2 a l3 b l4 c l6 l7 c7, idx lines 0 = .ok l0 ∧ idx lines 5 = .ok l5 ∧ idx lines 1 = .ok l1 ∧ idx (words l1) 0 = .ok w ∧
      toFloat w = .ok hd.scaling ∧ ¬ hd.scaling < 0 ∧ ¬ isNumbers l5 = true ∧ idx lines 2 = .ok l2 ∧ readRow l2 = .ok a ∧
      idx lines 3 = .ok l3 ∧ readRow l3 = .ok b ∧ idx lines 4 = .ok l4 ∧ readRow l4 = .ok c ∧ makeCell hd.scaling a b c = .ok hd.cell ∧
      idx lines 6 = .ok l6 ∧ Res.mapM' toInt (words l6) = .ok hd.atoms ∧ idx lines 7 = .ok l7 ∧ idx l7 0 = .ok c7 ∧
      hd.spec = words l5 ∧ hd.comment = strip (l0.filter (· != '#')) ∧
      ((lowerC c7 = 's' ∧ hd.selective = true ∧ hd.loopmax = 9 ∧ ∃ l8 c8, idx lines 8 = .ok l8 ∧ idx l8 0 = .ok c8 ∧ hd.direct = decide (lowerC c8 = 'd')) ∨
        (¬ lowerC c7 = 's' ∧ hd.selective = false ∧ hd.loopmax = 8 ∧ hd.direct = decide (lowerC c7 = 'd'))) := by
  unfold readHeader at h
  obtain ⟨l0, h0, h⟩ := Res.bind_eq_ok.1 h
  obtain ⟨l5, h5, h⟩ := Res.bind_eq_ok.1 h
  obtain ⟨l1, h1, h⟩ := Res.bind_eq_ok.1 h
  obtain ⟨w, hw, h⟩ := Res.bind_eq_ok.1 h
  obtain ⟨sc, hsc, h⟩ := Res.bind_eq_ok.1 h
  split at h
  · cases h
  rename_i n1
  split at h
  · cases h
  rename_i n2
  obtain ⟨l2, h2, h⟩ := Res.bind_eq_ok.1 h
  obtain ⟨a, ha, h⟩ := Res.bind_eq_ok.1 h
  obtain ⟨l3, h3, h⟩ := Res.bind_eq_ok.1 h
  obtain ⟨b, hb, h⟩ := Res.bind_eq_ok.1 h
  obtain ⟨l4, h4, h⟩ := Res.bind_eq_ok.1 h
  obtain ⟨c, hc, h⟩ := Res.bind_eq_ok.1 h
  obtain ⟨cell, hcell, h⟩ := Res.bind_eq_ok.1 h
  obtain ⟨l6, h6, h⟩ := Res.bind_eq_ok.1 h
  obtain ⟨atoms, hatoms, h⟩ := Res.bind_eq_ok.1 h
  obtain ⟨l7, h7, h⟩ := Res.bind_eq_ok.1 h
  obtain ⟨c7, hc7, h⟩ := Res.bind_eq_ok.1 h
  dsimp only at h
  split at h
  · rename_i hs
    obtain ⟨l8, h8, h⟩ := Res.bind_eq_ok.1 h
    obtain ⟨c8, hc8, h⟩ := Res.bind_eq_ok.1 h
    cases h
    exact ⟨l0, l5, l1, w, l2, a, l3, b, l4, c, l6, l7, c7, h0, h5, h1, hw, hsc, n1, n2, h2, ha, h3, hb, h4, hc, hcell, h6, hatoms, h7, hc7,
      rfl, rfl, .inl ⟨hs, rfl, rfl, l8, c8, h8, hc8, rfl⟩⟩
  · rename_i hs
    cases h
    exact ⟨l0, l5, l1, w, l2, a, l3, b, l4, c, l6, l7, c7, h0, h5, h1, hw, hsc, n1, n2, h2, ha, h3, hb, h4, hc, hcell, h6, hatoms, h7, hc7,
      rfl, rfl, .inr ⟨hs, rfl, rfl, rfl⟩⟩

/-! ### theorems -/

/-- C121: the cell of an accepted POSCAR file consists of the three vectors printed on lines three to five (each exactly three numbers),
times the scaling factor the second line starts with, which is not negative. Missing: that factors which are zero or one per axis are refused, which is false (`C121_violation_zero`, `C121_violation_factors`). -/
theorem C121_cell_partial (t : Str) (e : Entries) (h : init { handler := some t } = .ok e) :
    ∃ (cell : Cell) (s : Rat), e.get? c!"unitcell" = some (.cell (some cell)) ∧ ScalingIs (readlines t) s ∧ 0 ≤ s ∧
      RowIs (readlines t) 2 s cell.a ∧ RowIs (readlines t) 3 s cell.b ∧ RowIs (readlines t) 4 s cell.c := by
  obtain ⟨P, m, hP, hm, rfl⟩ := (init_handler _ _).1 h
  obtain ⟨hd, raws, v, q, hhd, _, _, rfl⟩ := parse_ok hP
  obtain ⟨l0, l5, l1, w, l2, a, l3, b, l4, c, l6, l7, c7, h0, h5, h1, hw, hsc, n1, n2, h2, ha, h3, hb, h4, hc, hcell, -⟩ := readHeader_parts hhd
  have hm' : hd.cell = some m := hm
  rw [hm'] at hcell
  obtain ⟨ax, ay, az, bx, b_y, bz, cx, cy, cz, rfl, rfl, rfl, rfl⟩ := makeCell_some hcell
  exact ⟨_, hd.scaling, rfl, ⟨l1, idx_ok.1 h1, wordIs hw hsc⟩, not_lt.1 n1,
    ⟨l2, ax, ay, az, idx_ok.1 h2, readRow_three.1 ha, rfl⟩, ⟨l3, bx, b_y, bz, idx_ok.1 h3, readRow_three.1 hb, rfl⟩,
    ⟨l4, cx, cy, cz, idx_ok.1 h4, readRow_three.1 hc, rfl⟩⟩

/-- C121: every text of at least six lines with a negative scaling factor is refused, with exit code 307, through every source. -/
theorem C121_negative (t : Str) (s : Rat) (hs : s < 0) :
    (6 ≤ (readlines t).length → ScalingIs (readlines t) s →
      init { handler := some t } = .exit 307 ∧ init { path := some (some t) } = .exit 307) ∧
    (6 ≤ (splitlinesKeep t).length → ScalingIs (splitlinesKeep t) s → init { string := some t } = .exit 307) := by
  have key : ∀ lines : List Str, 6 ≤ lines.length → ScalingIs lines s → fromList lines = .exit 307 := by
    rintro lines hl ⟨l1, h1, hw⟩
    obtain ⟨w, hw1, hw2⟩ := wordIs_iff.1 hw
    unfold fromList parse readHeader
    rw [idx_ok.2 (List.getElem?_eq_getElem (show 0 < lines.length by omega)), Res.ok_bind,
      idx_ok.2 (List.getElem?_eq_getElem (show 5 < lines.length by omega)), Res.ok_bind, idx_ok.2 h1, Res.ok_bind, hw1, Res.ok_bind, hw2,
      Res.ok_bind, if_pos hs]
    rfl
  refine ⟨fun h1 h2 => ?_, fun h1 h2 => ?_⟩
  · have := key _ h1 h2
    unfold init load fromFile
    simp only [guards, this]
    exact ⟨rfl, rfl⟩
  · have := key _ h1 h2
    unfold init load
    simp only [guards, this]
    rfl

theorem readFlags_drop {a b : Str} (h : (words a).drop 3 = (words b).drop 3) (sel : Bool) : readFlags a sel = readFlags b sel := by
  have key : ∀ i, 3 ≤ i → readFlag a i = readFlag b i := by
    intro i hi
    obtain ⟨j, rfl⟩ : ∃ j, i = 3 + j := ⟨i - 3, by omega⟩
    unfold readFlag idx
    have := congrArg (fun l : List Str => l[j]?) h
    simp only [List.getElem?_drop] at this
    rw [this]
  unfold readFlags
  rw [key 3 (by omega), key 4 (by omega), key 5 (by omega)]

theorem readSites_rescaled {A B : List Str} {hd : Header} {s' : Rat}
    (hlen : A.length = B.length) {N : Nat}
    (hpos : ∀ (i : Nat) (a b : Str), hd.loopmax ≤ i → i < hd.loopmax + N → A[i]? = some a → B[i]? = some b →
      if hd.direct then SamePosition a b 1 1 else SamePosition a b hd.scaling s') :
    ∀ (n i slot : Nat) (index : Int) (raws : List Raw), i + n ≤ N →
    readSites hd A n i slot index = .ok raws → readSites { hd with scaling := s' } B n i slot index = .ok raws
  | 0, _, _, _, raws, _, h => by
    cases Res.ok.inj h
    rfl
  | n + 1, i, slot, index, raws, hin, h => by
    simp only [readSites] at h ⊢
    obtain ⟨a, ha, h⟩ := Res.bind_eq_ok.1 h
    obtain ⟨sp, hsp, h⟩ := Res.bind_eq_ok.1 h
    obtain ⟨l, hl, h⟩ := Res.bind_eq_ok.1 h
    obtain ⟨v, hv, h⟩ := Res.bind_eq_ok.1 h
    obtain ⟨f, hf, h⟩ := Res.bind_eq_ok.1 h
    obtain ⟨rest, hr, h⟩ := Res.bind_eq_ok.1 h
    cases Res.ok.inj h
    have hi : i + hd.loopmax < B.length := by
      have := idx_ok.1 hl
      rw [← hlen]
      exact (List.getElem?_eq_some_iff.1 this).1
    have hb := List.getElem?_eq_getElem hi
    have hp := hpos _ _ _ (by omega) (by omega) (idx_ok.1 hl) hb
    have hv' : readPos { hd with scaling := s' } B[i + hd.loopmax] = .ok v := by
      unfold readPos at hv ⊢
      obtain ⟨u, hu, hv⟩ := Res.bind_eq_ok.1 hv
      obtain ⟨u1, u2, u3⟩ := readVec_ok.1 hu
      cases hdir : hd.direct with
      | true =>
        rw [hdir] at hv hp
        obtain ⟨x, y, z, x', y', z', k1, k2, k3, k4, k5, k6, e1, e2, e3, _⟩ := hp
        rw [if_pos rfl] at hv
        cases Res.ok.inj hv
        have : readVec B[i + hd.loopmax] = .ok v := readVec_ok.2 (by
          rw [wordIs_unique u1 k1, wordIs_unique u2 k2, wordIs_unique u3 k3]
          rw [one_mul, one_mul] at e1 e2 e3
          rw [e1, e2, e3]
          exact ⟨k4, k5, k6⟩)
        rw [this, Res.ok_bind]
        rfl
      | false =>
        rw [hdir] at hv hp
        obtain ⟨x, y, z, x', y', z', k1, k2, k3, k4, k5, k6, e1, e2, e3, _⟩ := hp
        rw [(readVec_ok (v := ⟨x', y', z'⟩)).2 ⟨k4, k5, k6⟩, Res.ok_bind]
        simp only [Bool.false_eq_true, if_false] at hv ⊢
        rw [← hv]
        congr 1
        simp only [V3.map]
        rw [wordIs_unique u1 k1, wordIs_unique u2 k2, wordIs_unique u3 k3, mul_comm x, mul_comm y, mul_comm z, mul_comm x', mul_comm y',
          mul_comm z', e1, e2, e3]
    have hf' : readFlags B[i + hd.loopmax] hd.selective = .ok f := by
      rw [← hf]
      refine (readFlags_drop ?_ _).symm
      split at hp
      all_goals
        obtain ⟨_, _, _, _, _, _, _, _, _, _, _, _, _, _, _, hdr⟩ := hp
        exact hdr
    rw [ha, Res.ok_bind, hsp, Res.ok_bind, idx_ok.2 hb, Res.ok_bind, hv', Res.ok_bind, hf', Res.ok_bind,
      readSites_rescaled hlen hpos n _ _ _ _ (by omega) hr, Res.ok_bind]

theorem idx_congr {α : Type} {A B : List α} {i : Nat} (h : A[i]? = B[i]?) : idx A i = idx B i := by
  unfold idx; rw [h]

theorem readTail_congr {A B : List Str} (hlen : A.length = B.length) {p : Nat} (h : ∀ i, p ≤ i → A[i]? = B[i]?) : readTail A p = readTail B p := by
  unfold readTail
  rw [hlen, idx_congr (h p (by omega)), idx_congr (h (p + 1) (by omega))]

theorem readVecs_congr {A B : List Str} {p : Nat} (h : ∀ i, p ≤ i → A[i]? = B[i]?) (n : Nat) (conv : Vec → Res Vec) :
    readVecs A p n conv = readVecs B p n conv := by
  unfold readVecs
  congr 1
  funext i
  rw [idx_congr (h (i + p) (by omega))]

theorem readPredAfter_congr {A B : List Str} (hlen : A.length = B.length) {p : Nat} (h : ∀ i, p ≤ i → A[i]? = B[i]?) (n : Nat) :
    readPredAfter A p n = readPredAfter B p n := by
  unfold readPredAfter
  rw [hlen, idx_congr (h p (by omega)), idx_congr (h (p + 1) (by omega)), readVecs_congr (fun i hi => h i (by omega))]

theorem layout_unique {A : List Str} {sel dir sel' dir' : Bool} (h : Layout A sel dir) (h' : Layout A sel' dir') : sel = sel' ∧ dir = dir' := by
  obtain ⟨l, c, h1, h2, h3⟩ := h.selective
  obtain ⟨l', c', g1, g2, g3⟩ := h'.selective
  rw [h1] at g1; cases g1
  rw [h2] at g2; cases g2
  have hs : sel = sel' := Bool.eq_iff_iff.2 (h3.trans g3.symm)
  subst hs
  obtain ⟨l, c, h1, h2, h3⟩ := h.direct
  obtain ⟨l', c', g1, g2, g3⟩ := h'.direct
  rw [h1] at g1; cases g1
  rw [h2] at g2; cases g2
  exact ⟨rfl, Bool.eq_iff_iff.2 (h3.trans g3.symm)⟩

/-- The rows of a cell, rescaled. -/
theorem readHeader_rescaled {A B : List Str} {hd : Header} {s' : Rat} (hhd : readHeader A = .ok hd)
    (hs : ScalingIs B s') (hs' : 0 ≤ s') (hrow : ∀ i, 2 ≤ i → i ≤ 4 → SameRow A B i hd.scaling s')
    (hother : ∀ i, i < 1 ∨ (5 ≤ i ∧ i < hd.loopmax) → A[i]? = B[i]?) :
    readHeader B = .ok { hd with scaling := s' } := by
  obtain ⟨l0, l5, l1, w, l2, a, l3, b, l4, c, l6, l7, c7, h0, h5, h1, hw, hsc, n1, n2, h2, ha, h3, hb, h4, hc, hcell, h6, hat, h7, hc7, hspec, hcom, hend⟩ :=
    readHeader_parts hhd
  obtain ⟨l1', g1, hw'⟩ := hs
  obtain ⟨w', hw1, hw2⟩ := wordIs_iff.1 hw'
  have row : ∀ i, 2 ≤ i → i ≤ 4 → ∀ (la : Str) (ra : List Rat), idx A i = .ok la → readRow la = .ok ra →
      ∃ lb x y z x' y' z', ra = [x, y, z] ∧ idx B i = .ok lb ∧ readRow lb = .ok [x', y', z'] ∧
        hd.scaling * x = s' * x' ∧ hd.scaling * y = s' * y' ∧ hd.scaling * z = s' * z' := by
    intro i i2 i4 la ra hla hra
    obtain ⟨a, b, x, y, z, x', y', z', k1, k2, k3, k4, e1, e2, e3⟩ := hrow i i2 i4
    rw [idx_ok.1 hla] at k1; cases k1
    rw [readRow_three.2 k3] at hra
    cases Res.ok.inj hra
    exact ⟨b, x, y, z, x', y', z', rfl, idx_ok.2 k2, readRow_three.2 k4, e1, e2, e3⟩
  obtain ⟨m2, ax, ay, az, ax', ay', az', rfl, b2, r2, e21, e22, e23⟩ := row 2 (by omega) (by omega) _ _ h2 ha
  obtain ⟨m3, bx, b_y, bz, bx', by', bz', rfl, b3, r3, e31, e32, e33⟩ := row 3 (by omega) (by omega) _ _ h3 hb
  obtain ⟨m4, cx, cy, cz, cx', cy', cz', rfl, b4, r4, e41, e42, e43⟩ := row 4 (by omega) (by omega) _ _ h4 hc
  have hcell' : makeCell s' [ax', ay', az'] [bx', by', bz'] [cx', cy', cz'] = .ok hd.cell := by
    rw [← hcell]
    simp only [makeCell, M3.scale, M3.map, V3.map, e21, e22, e23, e31, e32, e33, e41, e42, e43]
  have hmax : 8 ≤ hd.loopmax := by
    rcases hend with ⟨_, _, h, _⟩ | ⟨_, _, h, _⟩ <;> omega
  unfold readHeader
  rw [← idx_congr (hother 0 (by omega)), h0, Res.ok_bind, ← idx_congr (hother 5 (by omega)), h5, Res.ok_bind, idx_ok.2 g1, Res.ok_bind,
    hw1, Res.ok_bind, hw2, Res.ok_bind, if_neg (not_lt.2 hs'), if_neg n2, b2, Res.ok_bind, r2, Res.ok_bind, b3, Res.ok_bind, r3, Res.ok_bind,
    b4, Res.ok_bind, r4, Res.ok_bind, hcell', Res.ok_bind, ← idx_congr (hother 6 (by omega)), h6, Res.ok_bind, hat, Res.ok_bind,
    ← idx_congr (hother 7 (by omega)), h7, Res.ok_bind, hc7, Res.ok_bind]
  dsimp only
  rcases hend with ⟨e1, e2, e3, l8, c8, e4, e5, e6⟩ | ⟨e1, e2, e3, e4⟩
  · rw [if_pos e1, ← idx_congr (hother 8 (by omega)), e4, Res.ok_bind, e5, Res.ok_bind, ← hspec, ← hcom, ← e6, ← e2, ← e3]
  · rw [if_neg e1, ← hspec, ← hcom, ← e4, ← e2, ← e3]

theorem assemble_length (raws : List Raw) (v q : Option (List Vec)) : (assemble raws v q).length = raws.length := by
  unfold assemble; simp

theorem parse_rescaled {A B : List Str} {p : Parsed} {sel dir : Bool} (hp : parse A = .ok p) (hR : Rescaled A B sel dir p.sites.length) :
    parse B = .ok p := by
  obtain ⟨hd, raws, t, v, q, a1, a2, a3, a4, rfl, a5⟩ := parse_parts hp
  obtain ⟨hlay, hmax, l1, hl1, hsc⟩ := readHeader_layout a1
  obtain ⟨rfl, rfl⟩ := layout_unique hlay hR.layout
  have hn : (assemble raws v q).length = hd.atoms.sum.toNat := by
    rw [assemble_length, readSites_length _ _ _ _ _ _ _ a3]
  obtain ⟨s, s', hs, hs', hge, hrow, hpos⟩ := hR.factors
  have hother := hR.other
  have hlen := hR.length
  dsimp only at hpos hother
  rw [hn] at hpos hother
  rw [← hmax] at hpos hother
  have : s = hd.scaling := by
    obtain ⟨l, h1, h2⟩ := hs
    rw [hl1] at h1; cases h1
    exact wordIs_unique h2 hsc
  subst this
  have b1 := readHeader_rescaled a1 hs' hge hrow (fun i hi => hother i (by omega))
  have b3 := readSites_rescaled (s' := s') hlen hpos _ _ _ _ _ (by omega) a3
  have b4 : readTail B (hd.atoms.sum.toNat + hd.loopmax) = .ok t := by
    rw [← a4]
    exact (readTail_congr hlen (fun i hi => hother i (by omega))).symm
  unfold parse
  rw [b1, Res.ok_bind]
  dsimp only
  rw [if_neg (by omega), b3, Res.ok_bind, b4, Res.ok_bind]
  rcases a5 with ⟨c1, ⟨vs, rfl, c2⟩, c3⟩ | ⟨c1, c2, rfl, qs, rfl, c3⟩ | ⟨c1, c2, rfl, rfl⟩
  · rw [if_pos c1, ← readVecs_congr (A := A) (fun i hi => hother i (by omega)), c2, Res.ok_bind,
      ← readPredAfter_congr (A := A) hlen (fun i hi => hother i (by omega)), c3, Res.ok_bind]
  · rw [if_neg (by simp [c1]), if_pos c2, ← readVecs_congr (A := A) (fun i hi => hother i (by omega)), c3, Res.ok_bind]
  · rw [if_neg (by simp [c1]), if_neg (by simp [c2])]

/-- The number of sites of an object. -/
def siteCount (e : Entries) : Nat :=
  match e.get? c!"sites" with
  | some (.sites l) => l.length
  | _ => 0

/-- C121: how the scale is split between the scaling factor and the vectors does not matter: if an accepted text is rewritten with another
factor such that the scaled cell vectors (and the scaled cartesian positions) stay the same, it gives the same object, with velocities and
predictors unchanged. -/
theorem C121_rescaled (t u : Str) (e : Entries) (sel dir : Bool) (h : init { handler := some t } = .ok e)
    (hR : Rescaled (readlines t) (readlines u) sel dir (siteCount e)) : init { handler := some u } = .ok e := by
  obtain ⟨P, m, hP, hm, rfl⟩ := (init_handler _ _).1 h
  have hn : siteCount (fileEntries P.comment m P.sites) = P.sites.length := by
    show (P.sites.map Elem.site).length = _
    rw [List.length_map]
  rw [hn] at hR
  exact (init_handler _ _).2 ⟨P, m, parse_rescaled hP hR, hm, rfl⟩

theorem wordIs_of {line : Str} {i : Nat} {q : Rat} (h : (idx (words line) i >>= toFloat) = .ok q) : WordIs line i q := by
  obtain ⟨w, h1, h2⟩ := Res.bind_eq_ok.1 h
  exact wordIs h1 h2

/-- A cartesian file with scaling factor 2 and velocities. -/
def scaledTwo : Str := c!"c\n2.0\n1 0 0\n0 1 0\n0 0.5 1\nH He\n1 1\nCartesian\n0.5 0 0\n0 0 0.25\nCartesian\n1 0 0\n0 1 0\n"
/-- The same with scaling factor 1. -/
def scaledOne : Str := c!"c\n1.0\n2 0 0\n0 2 0\n0 1 2\nH He\n1 1\nCartesian\n1 0 0\n0 0 0.5\nCartesian\n1 0 0\n0 1 0\n"

/-- Non-vacuity: the first text is accepted, and the second is the first one rescaled. -/
example : (∃ e, init { handler := some scaledTwo } = .ok e ∧ siteCount e = 2) ∧ Rescaled (readlines scaledTwo) (readlines scaledOne) false false 2 := by
  constructor
  · have h : (init { handler := some scaledTwo } >>= fun e => .ok (siteCount e)) = .ok 2 := by decide +kernel
    obtain ⟨e, h1, h2⟩ := Res.bind_eq_ok.1 h
    exact ⟨e, h1, Res.ok.inj h2⟩
  · refine ⟨⟨⟨c!"Cartesian\n", 'C', by decide +kernel, by decide +kernel, by decide⟩, ⟨c!"Cartesian\n", 'C', by decide +kernel, by decide +kernel, by decide⟩⟩,
      by decide +kernel, ⟨2, 1, ⟨c!"2.0\n", by decide +kernel, wordIs_of (by decide +kernel)⟩, ⟨c!"1.0\n", by decide +kernel, wordIs_of (by decide +kernel)⟩,
        by decide +kernel, ?_, ?_⟩, ?_⟩
    · intro i h2 h4
      obtain rfl | rfl | rfl : i = 2 ∨ i = 3 ∨ i = 4 := by omega
      · exact ⟨c!"1 0 0\n", c!"2 0 0\n", 1, 0, 0, 2, 0, 0, by decide +kernel, by decide +kernel,
          ⟨by decide +kernel, wordIs_of (by decide +kernel), wordIs_of (by decide +kernel), wordIs_of (by decide +kernel)⟩,
          ⟨by decide +kernel, wordIs_of (by decide +kernel), wordIs_of (by decide +kernel), wordIs_of (by decide +kernel)⟩,
          by norm_num, by norm_num, by norm_num⟩
      · exact ⟨c!"0 1 0\n", c!"0 2 0\n", 0, 1, 0, 0, 2, 0, by decide +kernel, by decide +kernel,
          ⟨by decide +kernel, wordIs_of (by decide +kernel), wordIs_of (by decide +kernel), wordIs_of (by decide +kernel)⟩,
          ⟨by decide +kernel, wordIs_of (by decide +kernel), wordIs_of (by decide +kernel), wordIs_of (by decide +kernel)⟩,
          by norm_num, by norm_num, by norm_num⟩
      · exact ⟨c!"0 0.5 1\n", c!"0 1 2\n", 0, 1 / 2, 1, 0, 1, 2, by decide +kernel, by decide +kernel,
          ⟨by decide +kernel, wordIs_of (by decide +kernel), wordIs_of (by decide +kernel), wordIs_of (by decide +kernel)⟩,
          ⟨by decide +kernel, wordIs_of (by decide +kernel), wordIs_of (by decide +kernel), wordIs_of (by decide +kernel)⟩,
          by norm_num, by norm_num, by norm_num⟩
    · intro i a b h1 h2 ha hb
      simp only [Bool.false_eq_true, if_false] at h1 h2 ⊢
      obtain rfl | rfl : i = 8 ∨ i = 9 := by omega
      · cases ha.symm.trans (show (readlines scaledTwo)[8]? = some c!"0.5 0 0\n" by decide +kernel)
        cases hb.symm.trans (show (readlines scaledOne)[8]? = some c!"1 0 0\n" by decide +kernel)
        exact ⟨1 / 2, 0, 0, 1, 0, 0, wordIs_of (by decide +kernel), wordIs_of (by decide +kernel), wordIs_of (by decide +kernel),
          wordIs_of (by decide +kernel), wordIs_of (by decide +kernel), wordIs_of (by decide +kernel), by norm_num, by norm_num, by norm_num, by decide +kernel⟩
      · cases ha.symm.trans (show (readlines scaledTwo)[9]? = some c!"0 0 0.25\n" by decide +kernel)
        cases hb.symm.trans (show (readlines scaledOne)[9]? = some c!"0 0 0.5\n" by decide +kernel)
        exact ⟨0, 0, 1 / 4, 0, 0, 1 / 2, wordIs_of (by decide +kernel), wordIs_of (by decide +kernel), wordIs_of (by decide +kernel),
          wordIs_of (by decide +kernel), wordIs_of (by decide +kernel), wordIs_of (by decide +kernel), by norm_num, by norm_num, by norm_num, by decide +kernel⟩
    · intro i hi
      simp only [Bool.false_eq_true, if_false] at hi
      have hdrop : (readlines scaledTwo).drop 10 = (readlines scaledOne).drop 10 := by decide +kernel
      rcases hi with h | ⟨h1, h2⟩ | h
      · obtain rfl : i = 0 := by omega
        decide +kernel
      · obtain rfl | rfl | rfl : i = 5 ∨ i = 6 ∨ i = 7 := by omega
        all_goals decide +kernel
      · obtain ⟨j, rfl⟩ : ∃ j, i = 10 + j := ⟨i - 10, by omega⟩
        have := congrArg (fun l : List Str => l[j]?) hdrop
        simpa only [List.getElem?_drop] using this

/-- Non-vacuity of `C121_negative`. -/
example : (-1 : Rat) < 0 ∧ 6 ≤ (readlines c!"c\n-1\n1 0 0\n0 1 0\n0 0 1\nH\n").length ∧ ScalingIs (readlines c!"c\n-1\n1 0 0\n0 1 0\n0 0 1\nH\n") (-1) :=
  ⟨by decide +kernel, by decide +kernel, c!"-1\n", by decide +kernel, wordIs_of (by decide +kernel)⟩

/-- C121 is false for the three scaling factors (one per axis) VASP accepts on the second line: all but the first are ignored without a
complaint. Whatever follows the first word of that line has no effect. -/
theorem C121_violation_factors (A : List Str) (l l' w : Str) (h : A[1]? = some l) (hw : (words l)[0]? = some w) (hw' : (words l')[0]? = some w) :
    fromList (A.set 1 l') = fromList A := by
  have hne : ∀ i, i ≠ 1 → (A.set 1 l')[i]? = A[i]? := fun i hi => List.getElem?_set_ne (Ne.symm hi)
  have hlen : (A.set 1 l').length = A.length := List.length_set
  have h1 : (A.set 1 l')[1]? = some l' := by
    rw [List.getElem?_set_self]
    exact (List.getElem?_eq_some_iff.1 h).1
  have hh : readHeader (A.set 1 l') = readHeader A := by
    unfold readHeader
    rw [idx_congr (hne 0 (by omega)), idx_congr (hne 2 (by omega)), idx_congr (hne 3 (by omega)), idx_congr (hne 4 (by omega)),
      idx_congr (hne 5 (by omega)), idx_congr (hne 6 (by omega)), idx_congr (hne 7 (by omega)), idx_congr (hne 8 (by omega)),
      idx_ok.2 h1, idx_ok.2 h]
    simp only [Res.ok_bind, idx_ok.2 hw, idx_ok.2 hw']
  have hs : ∀ (hd : Header), 8 ≤ hd.loopmax → ∀ (n i slot : Nat) (index : Int),
      readSites hd (A.set 1 l') n i slot index = readSites hd A n i slot index := by
    intro hd hm n
    induction n with
    | zero => intros; rfl
    | succ n ih =>
      intro i slot index
      simp only [readSites]
      rw [idx_congr (hne (i + hd.loopmax) (by omega))]
      simp only [ih]
  unfold fromList parse
  rw [hh]
  cases hhd : readHeader A with
  | exit => rfl
  | raise => rfl
  | ok hd =>
    have hm : 8 ≤ hd.loopmax := by
      have := (readHeader_layout hhd).2.1
      split at this <;> omega
    simp only [Res.ok_bind]
    rw [hs hd hm, readTail_congr hlen (p := hd.atoms.sum.toNat + hd.loopmax) (fun i hi => hne i (by omega)),
      readPredAfter_congr hlen (p := hd.atoms.sum.toNat + (hd.atoms.sum.toNat + hd.loopmax + 1)) (fun i hi => hne i (by omega))]
    have hv : ∀ conv : Vec → Res Vec, readVecs (A.set 1 l') (hd.atoms.sum.toNat + hd.loopmax + 1) hd.atoms.sum.toNat conv =
        readVecs A (hd.atoms.sum.toNat + hd.loopmax + 1) hd.atoms.sum.toNat conv := fun conv =>
      readVecs_congr (fun i hi => hne i (by omega)) _ conv
    simp only [hv]

/-- Three scaling factors are accepted, and the second and third are ignored: the cell is the unit cell, not the one of lengths 1, 2, 3. -/
example : (words c!"1.0 2.0 3.0\n")[0]? = (words c!"1.0\n")[0]? ∧
    (init { handler := some c!"c\n1.0 2.0 3.0\n1 0 0\n0 1 0\n0 0 1\nH\n1\nDirect\n0 0 0\n" } >>= fun e => .ok (e.get? c!"unitcell")) =
      .ok (some (.cell (some ⟨⟨1, 0, 0⟩, ⟨0, 1, 0⟩, ⟨0, 0, 1⟩⟩))) := by decide +kernel

/-- C121 is false for a scaling factor of zero, which VASP refuses: texts with it are accepted (see below), and the object then has a zero
cell whatever the three vectors are. -/
theorem C121_violation_zero (t : Str) (e : Entries) (h : init { handler := some t } = .ok e) (hz : ScalingIs (readlines t) 0) :
    e.get? c!"unitcell" = some (.cell (some ⟨⟨0, 0, 0⟩, ⟨0, 0, 0⟩, ⟨0, 0, 0⟩⟩)) := by
  obtain ⟨cell, s, h1, h2, h3, ⟨_, x, y, z, _, _, ha⟩, ⟨_, x', y', z', _, _, hb⟩, ⟨_, x'', y'', z'', _, _, hc⟩⟩ := C121_cell_partial t e h
  have : s = 0 := by
    obtain ⟨l, k1, k2⟩ := h2
    obtain ⟨l', k3, k4⟩ := hz
    rw [k1] at k3; cases k3
    exact wordIs_unique k2 k4
  subst this
  rw [h1]
  obtain ⟨a, b, c⟩ := cell
  simp only [zero_mul] at ha hb hc
  rw [ha, hb, hc]

/-- Such a text is accepted. -/
example : (init { handler := some c!"c\n0.0\n1 0 0\n0 1 0\n0 0 1\nH\n1\nDirect\n0 0 0\n" } >>= fun e => .ok (siteCount e)) = .ok 1 ∧
    ScalingIs (readlines c!"c\n0.0\n1 0 0\n0 1 0\n0 0 1\nH\n1\nDirect\n0 0 0\n") 0 :=
  ⟨by decide +kernel, c!"0.0\n", by decide +kernel, wordIs_of (by decide +kernel)⟩

end Verif.Poscar
