import Verif.Lemmas.Agree
import Verif.Props.Doscar
import Mathlib.Data.List.Forall2
/-! C124, C125 for DOSCAR: impossible numbers of energies; numbers printed as infinite or not a number. -/
set_option autoImplicit false

namespace Verif
/-- Specification: the word is read by Python as this float. -/
inductive Shows (w : Str) : Num → Prop
  | fin (d : Dec) : pyFloat w = some (.fin d) → Shows w (.fin d.toRat)
  | inf (neg : Bool) : pyFloat w = some (.inf neg) → Shows w (.inf neg)
  | nan : pyFloat w = some .nan → Shows w .nan

theorem toNum_iff (w : Str) (x : Num) : toNum w = .ok x ↔ Shows w x := by
  unfold toNum
  constructor
  · intro h
    cases hp : pyFloat w with
    | none => rw [hp] at h; cases h
    | some f =>
      rw [hp] at h
      cases f <;> cases h
      · exact .fin _ hp
      · exact .inf _ hp
      · exact .nan hp
  · intro h
    cases h with
    | fin d h => rw [h]
    | inf n h => rw [h]
    | nan h => rw [h]

theorem forall2_toNum {l : List Str} {r : List Num} : List.Forall₂ (fun w x => toNum w = .ok x) l r ↔ List.Forall₂ Shows l r := by
  simp only [toNum_iff]
end Verif

namespace Verif.DoscarFull
open Verif Verif.Utils
open Verif.Kpoints (idx toInt)
open Verif.Doscar (Dtype dtypesDos getNumSpin getDtypePdos unpack truncInt cartesianOf)

/-- Specification: line `6 + i` of the file (the `i`-th behind the header) prints these numbers. -/
def Row (lines : List Str) (i : Nat) (row : List Num) : Prop := ∃ line, lines[6 + i]? = some line ∧ List.Forall₂ Shows (words line) row

/-- Specification: the fifth line behind the first prints the energies, the number of energies, the Fermi level and the weight. -/
def Header (lines : List Str) (row : List Num) : Prop := ∃ line, lines[5]? = some line ∧ List.Forall₂ Shows (words line) row

/-- A converted line. -/
def wrap : List Num → OneOrMany Num
  | [a] => .one a
  | as => .many as

theorem wrap_many {r s : List Num} (h : wrap r = .many s) : r = s := by
  unfold wrap at h
  split at h
  · cases h
  · cases h; rfl

theorem line_ok {line : Str} {v : OneOrMany Num} : lineToType toNum line = .ok v ↔ ∃ r, List.Forall₂ Shows (words line) r ∧ v = wrap r := by
  simp only [← forall2_toNum, ← Res.mapM'_eq_ok]
  unfold lineToType
  cases h : Res.mapM' toNum (words line) with
  | ok l =>
    match l with
    | [] => simp [wrap, eq_comm]
    | [a] => simp [wrap, eq_comm]
    | a :: b :: t => simp [wrap, eq_comm]
  | exit c => simp
  | raise e => simp

theorem forall2_get {α β : Type} {R : α → β → Prop} {l : List α} {m : List β} (h : List.Forall₂ R l m) (i : Nat) :
    (∃ a b, l[i]? = some a ∧ m[i]? = some b ∧ R a b) ∨ l[i]? = none ∧ m[i]? = none := by
  induction h generalizing i with
  | nil => simp
  | cons hr _ ih =>
    cases i with
    | zero => exact .inl ⟨_, _, rfl, rfl, hr⟩
    | succ i => simpa using ih i

theorem data_row {lines : List Str} {data : List (OneOrMany Num)} (h : Res.mapM' (lineToType toNum) (lines.drop 6) = .ok data) {i : Nat}
    {v : OneOrMany Num} (hv : data[i]? = some v) : ∃ r, Row lines i r ∧ v = wrap r := by
  rcases forall2_get (Res.mapM'_eq_ok.1 h) i with ⟨a, b, h1, h2, h3⟩ | ⟨_, h2⟩
  · rw [h2] at hv; cases hv
    obtain ⟨r, hr, he⟩ := line_ok.1 h3
    rw [List.getElem?_drop] at h1
    exact ⟨r, ⟨a, h1, hr⟩, he⟩
  · rw [h2] at hv; cases hv

/-- What is known of an accepted file. -/
structure Accepted (nc : Bool) (lines : List Str) (d : Data) where
  numIons : Int
  nd : Rat
  data : List (OneOrMany Num)
  header : Header lines [d.metadata.emax, d.metadata.emin, .fin nd, d.metadata.efermi, d.metadata.weight]
  hdata : Res.mapM' (lineToType toNum) (lines.drop 6) = .ok data
  hn : d.metadata.nDos = truncInt nd
  hi : d.metadata.nIons = numIons
  total : totalDos data d.metadata.nDos = .ok d.dos
  part : partialDos nc [d.metadata.emax, d.metadata.emin, .fin nd, d.metadata.efermi, d.metadata.weight] data d.metadata.nDos numIons = .ok d.pdos

theorem idx_ok' {α : Type} {l : List α} {i : Nat} {a : α} (h : idx l i = .ok a) : l[i]? = some a := by
  unfold idx at h
  split at h
  · cases h; assumption
  · cases h

theorem unpack_ok {α} {n : Nat} {v : OneOrMany α} {l : List α} (h : unpack n v = .ok l) : v = .many l ∧ l.length = n := by
  unfold unpack at h
  split at h
  · split at h
    · cases h; exact ⟨rfl, by assumption⟩
    · cases h
  · cases h

theorem fromList_ok {nc : Bool} {lines : List Str} {d : Data} (h : fromList nc lines = .ok d) : Nonempty (Accepted nc lines d) := by
  unfold fromList at h
  obtain ⟨l0, e0, h⟩ := Res.bind_eq_ok.1 h
  obtain ⟨v0, f0, h⟩ := Res.bind_eq_ok.1 h
  obtain ⟨h0, g0, h⟩ := Res.bind_eq_ok.1 h
  obtain ⟨l3, e3, h⟩ := Res.bind_eq_ok.1 h
  obtain ⟨coord, f3, h⟩ := Res.bind_eq_ok.1 h
  obtain ⟨l4, e4, h⟩ := Res.bind_eq_ok.1 h
  obtain ⟨l5, e5, h⟩ := Res.bind_eq_ok.1 h
  obtain ⟨v5, f5, h⟩ := Res.bind_eq_ok.1 h
  obtain ⟨h5, g5, h⟩ := Res.bind_eq_ok.1 h
  rw [(unpack_ok g5).1] at f5
  have k0 := (unpack_ok g0).2
  have k5 := (unpack_ok g5).2
  match h0, k0, h5, k5, f5, h with
  | [numIons, numAtoms, a, b], _, [emax, emin, nd, efermi, weight], _, f5, h =>
    simp only at h
    obtain ⟨ndos, hnd, h⟩ := Res.bind_eq_ok.1 h
    obtain ⟨data, hd, h⟩ := Res.bind_eq_ok.1 h
    obtain ⟨dos, hdos, h⟩ := Res.bind_eq_ok.1 h
    obtain ⟨pdos, hpdos, h⟩ := Res.bind_eq_ok.1 h
    obtain ⟨cart, hcart, h⟩ := Res.bind_eq_ok.1 h
    cases h
    obtain ⟨r, hn, he⟩ := line_ok.1 f5
    have := wrap_many he.symm
    subst this
    unfold truncNum at hnd
    split at hnd
    · cases hnd
      exact ⟨⟨numIons, _, data, ⟨l5, idx_ok' e5, hn⟩, hd, rfl, rfl, hdos, hpdos⟩⟩
    · cases hnd
    · cases hnd

theorem asRows_ok {c : Nat} {l : List (OneOrMany Num)} {rs : List (List Num)} (h : asRows c l = .ok rs) :
    l = rs.map .many ∧ ∀ r ∈ rs, r.length = c := by
  induction l generalizing rs with
  | nil => cases h; simp
  | cons a as ih =>
    cases a with
    | one x => cases h
    | many r =>
      unfold asRows at h
      split at h
      · obtain ⟨t, ht, h⟩ := Res.bind_eq_ok.1 h
        cases h
        obtain ⟨h1, h2⟩ := ih ht
        refine ⟨by rw [h1]; rfl, ?_⟩
        intro s hs
        rcases List.mem_cons.1 hs with rfl | hs
        · assumption
        · exact h2 s hs
      · cases h

/-- The rows of the total density of states. -/
theorem total_ok {data : List (OneOrMany Num)} {n : Int} {dos : List Record} (h : totalDos data n = .ok dos) :
    ∃ (rows : List (List Num)) (count : Nat) (d : Dtype), slice data 0 n = rows.map .many ∧ rows ≠ [] ∧ (∀ r ∈ rows, r.length = count) ∧
      dtypesDos.get? count = some d ∧ (∃ x, idxZ data (n - 1) = .ok x) ∧
      dos = rows.map (record (if count = 5 then 2 else 1) (d.tail.map Prod.fst)) := by
  unfold totalDos at h
  obtain ⟨last, hl, h⟩ := Res.bind_eq_ok.1 h
  obtain ⟨count, hc, h⟩ := Res.bind_eq_ok.1 h
  obtain ⟨rows, hr, h⟩ := Res.bind_eq_ok.1 h
  split at h
  · rename_i d hd
    split at h
    · cases h
    · rename_i hne
      cases h
      obtain ⟨h1, h2⟩ := asRows_ok hr
      exact ⟨rows, count, d, h1, hne, h2, hd, ⟨last, hl⟩, rfl⟩
  · cases h

theorem idxZ_range {α : Type} {l : List α} {i : Int} {x : α} (h : idxZ l i = .ok x) : -(l.length : Int) ≤ i ∧ i < l.length := by
  unfold idxZ Kpoints.pyIndex at h
  split at h
  · rename_i k hk
    split at hk
    · split at hk
      · omega
      · cases hk
    · split at hk
      · omega
      · cases hk
  · cases h

theorem slice_zero {α : Type} (l : List α) (n : Int) : slice l 0 n = l.take (if n < 0 then l.length - n.natAbs else n.toNat) := by
  unfold slice bound
  rw [if_neg (by omega)]
  simp only [Int.toNat_zero, Nat.zero_min, List.drop_zero]
  split
  · congr 1; omega
  · rw [List.take_eq_take_iff]; omega

/-- C124, DOSCAR: a file that announces no energies is refused; an accepted one that announces `n > 0` energies has `n` in its total density of
states. Missing: that a negative number is refused, which is false (`C124_violation_doscar`): such a number leaves out that many lines at the end. -/
theorem C124_doscar_partial (nc : Bool) (text : Str) (d : Data) (h : init none (some text) nc = .ok d) :
    (0 < d.metadata.nDos ∧ (d.dos.length : Int) = d.metadata.nDos) ∨
    (d.metadata.nDos < 0 ∧ (d.dos.length : Int) + 6 = (readlines text).length + d.metadata.nDos) := by
  obtain ⟨A⟩ := fromList_ok (show fromList nc (readlines text) = .ok d from h)
  obtain ⟨rows, count, dt, h1, h2, h3, h4, ⟨x, h5⟩, h6⟩ := total_ok A.total
  have hlen : A.data.length = (readlines text).length - 6 := by
    have := (Res.mapM'_eq_ok.1 A.hdata).length_eq
    rw [List.length_drop] at this; omega
  have hr := idxZ_range h5
  have hrows : rows.length = (slice A.data 0 d.metadata.nDos).length := by rw [h1, List.length_map]
  have hpos : 0 < rows.length := List.length_pos_of_ne_nil h2
  rw [slice_zero, List.length_take] at hrows
  rw [h6, List.length_map]
  split at hrows
  · right; omega
  · left; omega

theorem sameRow_eq {x y : List Num} (h : sameRow x y = true) : x = y := by
  induction x generalizing y with
  | nil => cases y with
    | nil => rfl
    | cons b bs => simp [sameRow] at h
  | cons a as ih => cases y with
    | nil => simp [sameRow] at h
    | cons b bs =>
      simp only [sameRow, Bool.and_eq_true] at h
      rw [ih h.2]
      congr 1
      cases a <;> cases b <;> simp_all [Num.same]

theorem sameRow_nan {x y : List Num} (h : sameRow x y = true) : Num.nan ∉ y := by
  induction x generalizing y with
  | nil => cases y with
    | nil => simp
    | cons b bs => simp [sameRow] at h
  | cons a as ih => cases y with
    | nil => simp [sameRow] at h
    | cons b bs =>
      simp only [sameRow, Bool.and_eq_true] at h
      intro hm
      rcases List.mem_cons.1 hm with rfl | hm
      · cases a <;> simp [Num.same] at h
      · exact ih h.2 hm

theorem indexOf_none {x : List Num} {data : List (OneOrMany Num)} (h : ∀ y, OneOrMany.many y ∈ data → sameRow y x = false) : indexOf x data = none := by
  induction data with
  | nil => rfl
  | cons d ds ih =>
    unfold indexOf
    rw [ih fun y hy => h y (by simp [hy])]
    cases d with
    | one _ => rfl
    | many y => simp only [h y (by simp)]; rfl

theorem asRows_many {c : Nat} {rs : List (List Num)} (h : ∀ r ∈ rs, r.length = c) : asRows c (rs.map .many) = .ok rs := by
  induction rs with
  | nil => rfl
  | cons r rs ih =>
    show (if r.length = c then _ else _) = _
    rw [if_pos (h r (by simp)), ih fun s hs => h s (by simp [hs])]
    rfl

theorem forall2_det {α β : Type} {R : α → β → Prop} (hR : ∀ a b c, R a b → R a c → b = c) {l : List α} {m k : List β} (h : List.Forall₂ R l m)
    (h' : List.Forall₂ R l k) : m = k := by
  induction h generalizing k with
  | nil => cases h'; rfl
  | cons hr _ ih => cases h' with
    | cons hr' h' => rw [hR _ _ _ hr hr', ih h']

theorem shows_det (w : Str) (x y : Num) (h : Shows w x) (h' : Shows w y) : x = y := by
  rw [← toNum_iff] at h h'
  rw [h] at h'; cases h'; rfl

/-- C124 is false of DOSCAR files with a negative number of energies: take any accepted file without anything behind its `n` energies, and print a
number `-m` above `-n` in place of `n`. The file is accepted, and the last `m` energies are left out. -/
theorem C124_violation_doscar (nc : Bool) (lines : List Str) (d : Data) (h : fromList nc lines = .ok d) (hlen : (lines.length : Int) = 6 + d.metadata.nDos)
    (m : Nat) (hm : 0 < m) (hmn : (m : Int) < d.metadata.nDos) (l5 : Str) (emax emin efermi weight : Num)
    (hl5 : List.Forall₂ Shows (words l5) [emax, emin, .fin (-(m : Rat)), efermi, weight])
    (hfree : ∀ i, ¬ Row lines i [emax, emin, .fin (-(m : Rat)), efermi, weight]) :
    ∃ d', fromList nc (lines.set 5 l5) = .ok d' ∧ d'.metadata.nDos = -(m : Int) ∧ d'.pdos = [] ∧ d'.dos = d.dos.take (d.dos.length - m) := by
  have h' := h
  unfold fromList at h
  obtain ⟨l0, e0, h⟩ := Res.bind_eq_ok.1 h
  obtain ⟨v0, f0, h⟩ := Res.bind_eq_ok.1 h
  obtain ⟨h0, g0, h⟩ := Res.bind_eq_ok.1 h
  obtain ⟨l3, e3, h⟩ := Res.bind_eq_ok.1 h
  obtain ⟨coord, f3, h⟩ := Res.bind_eq_ok.1 h
  obtain ⟨l4, e4, h⟩ := Res.bind_eq_ok.1 h
  obtain ⟨l5', e5, h⟩ := Res.bind_eq_ok.1 h
  obtain ⟨v5, f5, h⟩ := Res.bind_eq_ok.1 h
  obtain ⟨h5, g5, h⟩ := Res.bind_eq_ok.1 h
  have k0 := (unpack_ok g0).2
  have k5 := (unpack_ok g5).2
  match h0, k0, h5, k5, g0, h with
  | [numIons, numAtoms, a, b], _, [emax', emin', nd', efermi', weight'], _, g0, h =>
    simp only at h
    obtain ⟨ndos, hnd, h⟩ := Res.bind_eq_ok.1 h
    obtain ⟨data, hd, h⟩ := Res.bind_eq_ok.1 h
    obtain ⟨dos, hdos, h⟩ := Res.bind_eq_ok.1 h
    obtain ⟨pdos, hpdos, h⟩ := Res.bind_eq_ok.1 h
    obtain ⟨cart, hcart, h⟩ := Res.bind_eq_ok.1 h
    cases h
    dsimp only at hlen hmn
    have hlt : 5 < lines.length := by omega
    have hdl : data.length = lines.length - 6 := by
      have := (Res.mapM'_eq_ok.1 hd).length_eq
      rw [List.length_drop] at this; omega
    obtain ⟨rows, count, dt, r1, r2, r3, r4, -, r6⟩ := total_ok hdos
    have hall : slice data 0 ndos = data := by
      rw [slice_zero, if_neg (by omega), List.take_of_length_le (by omega)]
    rw [hall] at r1
    have hrl : rows.length = data.length := by rw [r1, List.length_map]
    have ei : ∀ i, i ≠ 5 → idx (lines.set 5 l5) i = idx lines i := by
      intro i hi
      unfold idx
      rw [List.getElem?_set_ne (by omega)]
    have e5' : idx (lines.set 5 l5) 5 = .ok l5 := by unfold idx; rw [List.getElem?_set_self hlt]
    have hv5 : lineToType toNum l5 = .ok (.many [emax, emin, .fin (-(m : Rat)), efermi, weight]) := line_ok.2 ⟨_, hl5, rfl⟩
    have htr : truncInt (-(m : Rat)) = -(m : Int) := by
      unfold truncInt
      have : (0 : Rat) < (m : Rat) := by exact_mod_cast hm
      rw [if_pos (by linarith), neg_neg, show ((m : Rat)) = ((m : Int) : Rat) by norm_cast, Rat.floor_intCast]
    have hdrop : (lines.set 5 l5).drop 6 = lines.drop 6 := by
      rw [List.drop_set_of_lt (by omega)]
    have hslice : slice data 0 (-(m : Int)) = (rows.take (rows.length - m)).map .many := by
      rw [slice_zero, if_pos (by omega), r1, List.length_map, List.map_take, Int.natAbs_neg, Int.natAbs_natCast]
    have hlast : ∃ r, idxZ data (-(m : Int) - 1) = .ok (.many r) ∧ r.length = count := by
      have hk : rows.length - m - 1 < rows.length := by omega
      refine ⟨rows[rows.length - m - 1], ?_, r3 _ (List.getElem_mem hk)⟩
      unfold idxZ Kpoints.pyIndex
      rw [if_neg (by omega), if_pos (by omega)]
      show idx data _ = _
      unfold idx
      rw [r1, List.length_map, show (-(m : Int) - 1 + (rows.length : Int)).toNat = rows.length - m - 1 by omega, List.getElem?_map,
        List.getElem?_eq_getElem hk]
      rfl
    obtain ⟨last, hl1, hl2⟩ := hlast
    have htot : totalDos data (-(m : Int)) = .ok ((rows.take (rows.length - m)).map (record (if count = 5 then 2 else 1) (dt.tail.map Prod.fst))) := by
      unfold totalDos
      rw [hl1, Res.ok_bind, hslice]
      show (Res.ok last.length >>= _) = _
      rw [Res.ok_bind, hl2, asRows_many fun r hr => r3 r (List.mem_of_mem_take hr), Res.ok_bind, r4]
      simp only
      rw [if_neg]
      intro he
      have := congrArg List.length he
      rw [List.length_take, List.length_nil] at this
      omega
    have hpart : partialDos nc [emax, emin, .fin (-(m : Rat)), efermi, weight] data (-(m : Int)) numIons = .ok [] := by
      unfold partialDos
      rw [indexOf_none]
      intro y hy
      by_contra hc
      simp only [Bool.not_eq_false] at hc
      have := sameRow_eq hc
      subst this
      obtain ⟨i, hi⟩ := List.mem_iff_getElem?.1 hy
      obtain ⟨r, hr, he⟩ := data_row hd hi
      rw [wrap_many he.symm] at hr
      exact hfree i hr
    refine ⟨⟨⟨numIons, numAtoms, cart, lineToTypeNoSplit l4, emax, emin, -(m : Int), efermi, weight⟩,
      (rows.take (rows.length - m)).map (record (if count = 5 then 2 else 1) (dt.tail.map Prod.fst)), []⟩, ?_, rfl, rfl, ?_⟩
    · unfold fromList
      rw [ei 0 (by omega), e0, Res.ok_bind, f0, Res.ok_bind, g0, Res.ok_bind, ei 3 (by omega), e3, Res.ok_bind, f3, Res.ok_bind, ei 4 (by omega),
        e4, Res.ok_bind, e5', Res.ok_bind, hv5, Res.ok_bind]
      show (Res.ok _ >>= _) = _
      rw [Res.ok_bind]
      simp only
      show (Res.ok _ >>= _) = _
      rw [Res.ok_bind, hdrop, hd, Res.ok_bind, htr, htot, Res.ok_bind, hpart, Res.ok_bind, hcart, Res.ok_bind]
    · dsimp only
      rw [r6, List.length_map, List.map_take]

/-- Non-vacuity: three energies announced, and `-1` in their place. -/
example : (∃ d, fromList false (readlines c!"1 1 1 0\n0\n0\nCAR\nname\n 2 -1 3 5 1\n 1 2 3\n 2 3 4\n 4 5 6\n") = .ok d ∧ d.metadata.nDos = 3 ∧ d.dos.length = 3) ∧
    (∃ d, fromList false (readlines c!"1 1 1 0\n0\n0\nCAR\nname\n 2 -1 -1 5 1\n 1 2 3\n 2 3 4\n 4 5 6\n") = .ok d ∧ d.dos.length = 2) := by
  have key : ∀ (r : Res Data) (P : Data → Bool), (match r with | .ok d => P d | _ => false) = true → ∃ d, r = .ok d ∧ P d = true := by
    intro r P h
    cases r with
    | ok d => exact ⟨d, rfl, h⟩
    | exit c => cases h
    | raise e => cases h
  obtain ⟨d, h1, h2⟩ := key (fromList false (readlines c!"1 1 1 0\n0\n0\nCAR\nname\n 2 -1 3 5 1\n 1 2 3\n 2 3 4\n 4 5 6\n"))
    (fun d => d.metadata.nDos == 3 && d.dos.length == 3) (by decide +kernel)
  obtain ⟨d', h1', h2'⟩ := key (fromList false (readlines c!"1 1 1 0\n0\n0\nCAR\nname\n 2 -1 -1 5 1\n 1 2 3\n 2 3 4\n 4 5 6\n"))
    (fun d => d.dos.length == 2) (by decide +kernel)
  simp only [Bool.and_eq_true, beq_iff_eq] at h2 h2'
  exact ⟨⟨d, h1, h2⟩, d', h1', h2'⟩

/-! ### C125: infinite numbers and numbers that are not numbers -/

/-- C125, DOSCAR: number `k` of the energies shows the numbers of its line in its fields, also those printed as infinite or not a number: the
first is the energy, and field number `j` behind it begins with the number `j + 1` (one number, or two with five columns). -/
theorem C125_doscar (nc : Bool) (text : Str) (d : Data) (h : init none (some text) nc = .ok d) (k : Nat) (r : Record) (hr : d.dos[k]? = some r) :
    ∃ row, Row (readlines text) k row ∧
      ((row.length = 3 ∧ ∃ e t i, row = [e, t, i] ∧ r = [(c!"energy", [e]), (c!"total", [t]), (c!"integrated", [i])]) ∨
       (row.length = 5 ∧ ∃ e t u i j, row = [e, t, u, i, j] ∧ r = [(c!"energy", [e]), (c!"total", [t, u]), (c!"integrated", [u, i])])) := by
  obtain ⟨A⟩ := fromList_ok (show fromList nc (readlines text) = .ok d from h)
  obtain ⟨rows, count, dt, h1, h2, h3, h4, -, h6⟩ := total_ok A.total
  rw [h6, List.getElem?_map] at hr
  obtain ⟨row, hrow, rfl⟩ := Option.map_eq_some_iff.1 hr
  have hd : A.data[k]? = some (.many row) := by
    have : (slice A.data 0 d.metadata.nDos)[k]? = some (.many row) := by rw [h1, List.getElem?_map, hrow]; rfl
    rw [slice_zero, List.getElem?_take] at this
    split at this <;> split at this <;> first | exact this | cases this
  obtain ⟨r', hr', he⟩ := data_row A.hdata hd
  rw [wrap_many he.symm] at hr'
  refine ⟨row, hr', ?_⟩
  have hlen := h3 row (List.mem_of_getElem? hrow)
  rcases Doscar.dtypesDos_get h4 with ⟨rfl, rfl⟩ | ⟨rfl, rfl⟩
  · match row, hlen with
    | [e, t, i], _ => exact .inl ⟨rfl, e, t, i, rfl, rfl⟩
  · match row, hlen with
    | [e, t, u, i, j], _ => exact .inr ⟨rfl, e, t, u, i, j, rfl, rfl⟩

/-- The same outcome, with the value translated by `f`. -/
def Mirror {α β : Type} (f : α → β) (r : Res α) (s : Res β) : Prop :=
  match r with
  | .ok a => s = .ok (f a)
  | .exit c => s = .exit c
  | .raise e => s = .raise e

namespace Mirror
variable {α β γ δ : Type}

theorem bind {f : α → β} {g : γ → δ} {r : Res α} {s : Res β} {k : α → Res γ} {l : β → Res δ} (h : Mirror f r s)
    (hk : ∀ a, r = .ok a → Mirror g (k a) (l (f a))) : Mirror g (r >>= k) (s >>= l) := by
  cases r with
  | ok a => cases (show s = _ from h); exact hk a rfl
  | exit c => cases (show s = _ from h); exact rfl
  | raise e => cases (show s = _ from h); exact rfl

theorem same {g : γ → δ} {r : Res α} {k : α → Res γ} {l : α → Res δ} (hk : ∀ a, r = .ok a → Mirror g (k a) (l a)) : Mirror g (r >>= k) (r >>= l) := by
  cases r with
  | ok a => exact hk a rfl
  | exit c => exact rfl
  | raise e => exact rfl

theorem of_ok {f : α → β} {r : Res α} {s : Res β} (h : Mirror f r s) {a : α} (hr : r = .ok a) : s = .ok (f a) := by
  rw [hr] at h; exact h

theorem to_ok {f : α → β} {r : Res α} {s : Res β} (h : Mirror f r s) {b : β} (hs : s = .ok b) : ∃ a, r = .ok a ∧ f a = b := by
  cases r with
  | ok a => cases (show s = _ from h); cases hs; exact ⟨a, rfl, rfl⟩
  | exit c => cases (show s = _ from h); cases hs
  | raise e => cases (show s = _ from h); cases hs
end Mirror

theorem idx_mirror {α β : Type} (f : α → β) (l : List α) (i : Nat) : Mirror f (idx l i) (idx (l.map f) i) := by
  unfold idx
  rw [List.getElem?_map]
  cases l[i]? with
  | none => exact rfl
  | some a => exact rfl

/-- Every number replaced by zero. -/
def blank (v : OneOrMany Num) : OneOrMany Num := v.map fun _ => .fin 0
/-- A record with every number replaced by zero. -/
def blankRecord (r : Record) : Record := r.map fun p => (p.1, p.2.map fun _ => .fin 0)

theorem record_blank (s : Nat) (names : List Str) (row : List Num) : record s names (row.map fun _ => .fin 0) = blankRecord (record s names row) := by
  unfold record blankRecord
  have hc : ∀ a b, cols (row.map fun _ => Num.fin 0) a b = (cols row a b).map fun _ => Num.fin 0 := by
    intro a b; unfold cols; rw [List.map_take, List.map_drop]
  simp only [hc, List.map_cons, List.map_map]
  rfl

theorem asRows_blank (c : Nat) (l : List (OneOrMany Num)) : Mirror (List.map (List.map fun _ => Num.fin 0)) (asRows c l) (asRows c (l.map blank)) := by
  induction l with
  | nil => exact rfl
  | cons a as ih =>
    cases a with
    | one x => exact rfl
    | many r =>
      show Mirror _ (if r.length = c then _ else _) (if (r.map fun _ => Num.fin 0).length = c then _ else _)
      rw [List.length_map]
      split
      · exact ih.bind fun t _ => rfl
      · exact rfl

theorem lenOf_blank (v : OneOrMany Num) : lenOf (blank v) = lenOf v := by
  cases v with
  | one _ => rfl
  | many r => show Res.ok _ = Res.ok _; rw [List.length_map]

theorem idxZ_map {α β : Type} (f : α → β) (l : List α) (i : Int) : Mirror f (idxZ l i) (idxZ (l.map f) i) := by
  unfold idxZ
  rw [List.length_map]
  cases Kpoints.pyIndex i l.length with
  | none => exact rfl
  | some k => exact idx_mirror f l k

theorem totalDos_blank (data : List (OneOrMany Num)) (n : Int) : Mirror (List.map blankRecord) (totalDos data n) (totalDos (data.map blank) n) := by
  unfold totalDos
  rw [slice_map]
  refine (idxZ_map blank data _).bind fun last _ => ?_
  rw [lenOf_blank]
  refine Mirror.same fun count _ => (asRows_blank count _).bind fun rows _ => ?_
  cases dtypesDos.get? count with
  | none => exact rfl
  | some d =>
    simp only [List.map_eq_nil_iff]
    split
    · exact rfl
    · show Res.ok _ = Res.ok _
      rw [List.map_map, List.map_map]
      exact congrArg Res.ok (List.map_congr_left fun row _ => record_blank _ _ row)

theorem blocks_blank (data : List (OneOrMany Num)) (n s : Int) (k : Nat) : blocks (data.map blank) n s k = (blocks data n s k).map (List.map blank) := by
  induction k generalizing s with
  | zero => rfl
  | succ k ih => unfold blocks; rw [List.map_cons, slice_map, ih]

theorem asBlocks_blank (c m : Nat) (items : List (List (OneOrMany Num))) :
    Mirror (List.map (List.map (List.map fun _ => Num.fin 0))) (asBlocks c m items) (asBlocks c m (items.map (List.map blank))) := by
  induction items with
  | nil => exact rfl
  | cons b bs ih =>
    show Mirror _ (if b.length = m then _ else _) (if (b.map blank).length = m then _ else _)
    rw [List.length_map]
    split
    · exact (asRows_blank c b).bind fun r _ => ih.bind fun t _ => rfl
    · exact rfl

/-- The blocks of the ions behind line `p`, with the checks of their shape. -/
def ionBlocks (nc : Bool) (data : List (OneOrMany Num)) (n k : Int) (p : Nat) : Res (List (List Record)) :=
  match (blocks data n (p + 1) k.toNat).getLast? with
  | none => .raise .indexError
  | some lastBlock => match lastBlock.getLast? with
    | none => .raise .indexError
    | some lastRow =>
      lenOf lastRow >>= fun count =>
      asBlocks count lastBlock.length (blocks data n (p + 1) k.toNat) >>= fun bs =>
      getNumSpin count nc >>= fun s =>
      getDtypePdos count nc >>= fun d =>
      .ok (bs.map fun b => b.map (record s (d.tail.map Prod.fst)))

theorem ionBlocks_blank (nc : Bool) (data : List (OneOrMany Num)) (n k : Int) (p : Nat) :
    Mirror (List.map (List.map blankRecord)) (ionBlocks nc data n k p) (ionBlocks nc (data.map blank) n k p) := by
  unfold ionBlocks
  rw [blocks_blank, List.getLast?_map]
  cases (blocks data n (p + 1) k.toNat).getLast? with
  | none => exact rfl
  | some b =>
    simp only [Option.map_some]
    rw [List.getLast?_map, List.length_map]
    cases b.getLast? with
    | none => exact rfl
    | some row =>
      simp only [Option.map_some]
      rw [lenOf_blank]
      refine Mirror.same fun count _ => (asBlocks_blank count _ _).bind fun bs _ => Mirror.same fun s _ => Mirror.same fun d _ => ?_
      show Res.ok _ = Res.ok _
      simp only [List.map_map]
      refine congrArg Res.ok (List.map_congr_left fun b _ => ?_)
      simp only [Function.comp, List.map_map]
      exact List.map_congr_left fun row _ => record_blank _ _ row


theorem partialDos_eq (nc : Bool) (header : List Num) (data : List (OneOrMany Num)) (n k : Int) :
    partialDos nc header data n k = match indexOf header data with | none => .ok [] | some p => ionBlocks nc data n k p := rfl

/-- Specification: line `6 + i` prints the numbers of the header once more. -/
def Repeats (lines : List Str) (i : Nat) : Prop := ∃ r h, Row lines i r ∧ Header lines h ∧ sameRow r h = true

theorem indexOf_congr {h : List Num} {data data' : List (OneOrMany Num)} (hl : data.length = data'.length)
    (hs : ∀ (i : Nat), (∃ y, data[i]? = some (.many y) ∧ sameRow y h = true) ↔ (∃ y, data'[i]? = some (.many y) ∧ sameRow y h = true)) :
    indexOf h data = indexOf h data' := by
  induction data generalizing data' with
  | nil => cases data' with
    | nil => rfl
    | cons _ _ => cases hl
  | cons d ds ih => cases data' with
    | nil => cases hl
    | cons d' ds' =>
      unfold indexOf
      rw [ih (Nat.succ.inj hl) fun i => by simpa using hs (i + 1)]
      have h0 := hs 0
      simp only [List.getElem?_cons_zero, Option.some.injEq] at h0
      cases d with
      | one _ => cases d' with
        | one _ => rfl
        | many y' =>
          have : sameRow y' h = false := by
            cases hc : sameRow y' h with
            | false => rfl
            | true => obtain ⟨_, h1, _⟩ := h0.2 ⟨y', rfl, hc⟩; cases h1
          simp [this]
      | many y => cases d' with
        | one _ =>
          have : sameRow y h = false := by
            cases hc : sameRow y h with
            | false => rfl
            | true => obtain ⟨_, h1, _⟩ := h0.1 ⟨y, rfl, hc⟩; cases h1
          simp [this]
        | many y' =>
          have : sameRow y h = sameRow y' h := by
            simp only [OneOrMany.many.injEq, exists_eq_left'] at h0
            exact Bool.eq_iff_iff.2 h0
          simp only [this]

theorem blank_wrap {r s : List Num} (h : r.length = s.length) : blank (wrap r) = blank (wrap s) := by
  have e : ∀ l : List Num, l.map (fun _ => Num.fin 0) = List.replicate l.length (.fin 0) := fun l => by simp
  match r, s, h with
  | [], [], _ => rfl
  | [a], [b], _ => rfl
  | a :: b :: t, c :: d :: u, h =>
    show OneOrMany.many _ = OneOrMany.many _
    rw [e, e, h]

/-- C125, DOSCAR: numbers printed as infinite or not a number are not refused and move nothing: if the tables of a second file have numbers (of any
kind) at the same places as those of an accepted file, and the header is repeated at the same places, the second file is accepted, with the same
metadata and tables of the same shape. -/
theorem C125_doscar_accepted (nc : Bool) (lines lines' : List Str) (d : Data) (h : fromList nc lines = .ok d) (hlen : lines.length = lines'.length)
    (hhead : ∀ i, i < 6 → lines[i]? = lines'[i]?)
    (hwords : ∀ (i : Nat) (l l' : Str), 6 ≤ i → lines[i]? = some l → lines'[i]? = some l' → (words l').length = (words l).length ∧ ∀ w ∈ words l', ∃ x, Shows w x)
    (hrep : ∀ i, Repeats lines i ↔ Repeats lines' i) :
    ∃ d', fromList nc lines' = .ok d' ∧ d'.metadata = d.metadata ∧ d'.dos.map blankRecord = d.dos.map blankRecord ∧
      d'.pdos.map (List.map blankRecord) = d.pdos.map (List.map blankRecord) := by
  obtain ⟨A⟩ := fromList_ok h
  unfold fromList at h
  obtain ⟨l0, e0, h⟩ := Res.bind_eq_ok.1 h
  obtain ⟨v0, f0, h⟩ := Res.bind_eq_ok.1 h
  obtain ⟨h0, g0, h⟩ := Res.bind_eq_ok.1 h
  obtain ⟨l3, e3, h⟩ := Res.bind_eq_ok.1 h
  obtain ⟨coord, f3, h⟩ := Res.bind_eq_ok.1 h
  obtain ⟨l4, e4, h⟩ := Res.bind_eq_ok.1 h
  obtain ⟨l5, e5, h⟩ := Res.bind_eq_ok.1 h
  obtain ⟨v5, f5, h⟩ := Res.bind_eq_ok.1 h
  obtain ⟨h5, g5, h⟩ := Res.bind_eq_ok.1 h
  have k0 := (unpack_ok g0).2
  have k5 := (unpack_ok g5).2
  have v5' := (unpack_ok g5).1
  match h0, k0, h5, k5, g0, g5, v5', h with
  | [numIons, numAtoms, a, b], _, [emax, emin, nd, efermi, weight], _, g0, g5, v5', h =>
    subst v5'
    simp only at h
    obtain ⟨ndos, hnd, h⟩ := Res.bind_eq_ok.1 h
    obtain ⟨data, hd, h⟩ := Res.bind_eq_ok.1 h
    obtain ⟨dos, hdos, h⟩ := Res.bind_eq_ok.1 h
    obtain ⟨pdos, hpdos, h⟩ := Res.bind_eq_ok.1 h
    obtain ⟨cart, hcart, h⟩ := Res.bind_eq_ok.1 h
    cases h
    obtain ⟨hr, hhr, hhe⟩ := line_ok.1 f5
    have := wrap_many hhe.symm
    subst this
    have hH : Header lines [emax, emin, nd, efermi, weight] := ⟨l5, idx_ok' e5, hhr⟩
    have hH' : Header lines' [emax, emin, nd, efermi, weight] := ⟨l5, by rw [← hhead 5 (by omega)]; exact idx_ok' e5, hhr⟩
    have ei : ∀ i, i < 6 → idx lines' i = idx lines i := by
      intro i hi
      unfold idx
      rw [hhead i hi]
    -- the second table
    have hd2 : ∃ data', Res.mapM' (lineToType toNum) (lines'.drop 6) = .ok data' := by
      have : ∀ ls : List Str, (∀ l ∈ ls, ∀ w ∈ words l, ∃ x, Shows w x) → ∃ data', Res.mapM' (lineToType toNum) ls = .ok data' := by
        intro ls
        induction ls with
        | nil => exact fun _ => ⟨[], rfl⟩
        | cons l ls ih =>
          intro hl
          obtain ⟨t, ht⟩ := ih fun l' hl' => hl l' (by simp [hl'])
          have : ∀ ws : List Str, (∀ w ∈ ws, ∃ x, Shows w x) → ∃ r, List.Forall₂ Shows ws r := by
            intro ws
            induction ws with
            | nil => exact fun _ => ⟨[], .nil⟩
            | cons w ws ih2 =>
              intro hw
              obtain ⟨x, hx⟩ := hw w (by simp)
              obtain ⟨r, hr⟩ := ih2 fun w' hw' => hw w' (by simp [hw'])
              exact ⟨x :: r, .cons hx hr⟩
          obtain ⟨r, hr⟩ := this _ (hl l (by simp))
          exact ⟨wrap r :: t, Res.mapM'_eq_ok.2 (.cons (line_ok.2 ⟨r, hr, rfl⟩) (Res.mapM'_eq_ok.1 ht))⟩
      apply this
      intro l' hl' w hw
      obtain ⟨i, hi⟩ := List.mem_iff_getElem?.1 hl'
      rw [List.getElem?_drop] at hi
      have hlt : 6 + i < lines.length := by
        rw [hlen]
        by_contra hc
        rw [List.getElem?_eq_none (by omega)] at hi; cases hi
      exact (hwords (6 + i) _ l' (by omega) (List.getElem?_eq_getElem hlt) hi).2 w hw
    obtain ⟨data', hd'⟩ := hd2
    have F := Res.mapM'_eq_ok.1 hd
    have F' := Res.mapM'_eq_ok.1 hd'
    have hdl : data.length = data'.length := by
      rw [← F.length_eq, ← F'.length_eq, List.length_drop, List.length_drop, hlen]
    have hblank : data'.map blank = data.map blank := by
      apply List.ext_getElem?
      intro i
      rw [List.getElem?_map, List.getElem?_map]
      rcases forall2_get F i with ⟨l, v, a1, a2, a3⟩ | ⟨a1, a2⟩
      · rcases forall2_get F' i with ⟨l', v', b1, b2, b3⟩ | ⟨b1, b2⟩
        · rw [a2, b2]
          obtain ⟨r, hr, rfl⟩ := line_ok.1 a3
          obtain ⟨r', hr', rfl⟩ := line_ok.1 b3
          rw [List.getElem?_drop] at a1 b1
          have := (hwords (6 + i) l l' (by omega) a1 b1).1
          rw [hr.length_eq, hr'.length_eq] at this
          simp only [Option.map_some]
          rw [blank_wrap this]
        · have h1 := List.getElem?_eq_none_iff.1 b2
          rw [List.getElem?_eq_none (by omega)] at a2; cases a2
      · have h1 := List.getElem?_eq_none_iff.1 a2
        rw [a2, List.getElem?_eq_none (by omega)]
    have hidx : indexOf [emax, emin, nd, efermi, weight] data = indexOf [emax, emin, nd, efermi, weight] data' := by
      have key : ∀ (ls : List Str) (dt : List (OneOrMany Num)), Res.mapM' (lineToType toNum) (ls.drop 6) = .ok dt → Header ls [emax, emin, nd, efermi, weight] →
          ∀ i, (∃ y, dt[i]? = some (.many y) ∧ sameRow y [emax, emin, nd, efermi, weight] = true) ↔ Repeats ls i := by
        intro ls dt hdt hls i
        constructor
        · rintro ⟨y, hy, hs⟩
          obtain ⟨r, hr, he⟩ := data_row hdt hy
          rw [wrap_many he.symm] at hr
          exact ⟨y, _, hr, hls, hs⟩
        · rintro ⟨r, hh, ⟨line, hl, hr⟩, ⟨l5, g1, g2⟩, hs⟩
          obtain ⟨l5', g1', g2'⟩ := hls
          rw [g1'] at g1; cases g1
          have := forall2_det shows_det g2' g2
          subst this
          have hrl := sameRow_eq hs
          subst hrl
          rcases forall2_get (Res.mapM'_eq_ok.1 hdt) i with ⟨l, v, a1, a2, a3⟩ | ⟨a1, a2⟩
          · rw [List.getElem?_drop, hl] at a1
            cases a1
            obtain ⟨r', hr', rfl⟩ := line_ok.1 a3
            have := forall2_det shows_det hr hr'
            subst this
            exact ⟨_, a2, hs⟩
          · rw [List.getElem?_drop, hl] at a1; cases a1
      exact indexOf_congr hdl fun i => by rw [key _ _ hd hH, key _ _ hd' hH', hrep i]
    have htot := (totalDos_blank data ndos).of_ok hdos
    rw [← hblank] at htot
    obtain ⟨dos', hdos', hde⟩ := (totalDos_blank data' ndos).to_ok htot
    have hpart : ∃ pdos', partialDos nc [emax, emin, nd, efermi, weight] data' ndos numIons = .ok pdos' ∧
        pdos'.map (List.map blankRecord) = pdos.map (List.map blankRecord) := by
      rw [partialDos_eq] at hpdos ⊢
      rw [← hidx]
      cases hx : indexOf [emax, emin, nd, efermi, weight] data with
      | none =>
        rw [hx] at hpdos
        cases hpdos
        exact ⟨[], rfl, rfl⟩
      | some p =>
        rw [hx] at hpdos
        simp only at hpdos ⊢
        have h1 := (ionBlocks_blank nc data ndos numIons p).of_ok hpdos
        rw [← hblank] at h1
        obtain ⟨x, hx, he⟩ := (ionBlocks_blank nc data' ndos numIons p).to_ok h1
        exact ⟨x, hx, he⟩
    obtain ⟨pdos', hp', hpe⟩ := hpart
    refine ⟨⟨⟨numIons, numAtoms, cart, lineToTypeNoSplit l4, emax, emin, ndos, efermi, weight⟩, dos', pdos'⟩, ?_, rfl, hde, hpe⟩
    unfold fromList
    rw [ei 0 (by omega), e0, Res.ok_bind, f0, Res.ok_bind, g0, Res.ok_bind, ei 3 (by omega), e3, Res.ok_bind, f3, Res.ok_bind, ei 4 (by omega),
      e4, Res.ok_bind, ei 5 (by omega), e5, Res.ok_bind, f5, Res.ok_bind, g5, Res.ok_bind]
    simp only
    rw [hnd, Res.ok_bind, hd', Res.ok_bind, hdos', Res.ok_bind, hp', Res.ok_bind, hcart, Res.ok_bind]

/-- C125 is false of the partial density of states: if a number of the header (such as the Fermi level) is not a number, the header is not
recognised where it is repeated in front of the ions (not a number is not equal to itself), and the partial density of states is lost, whatever the
file holds. -/
theorem C125_violation_doscar (nc : Bool) (text : Str) (d : Data) (h : init none (some text) nc = .ok d)
    (hnan : d.metadata.emax = .nan ∨ d.metadata.emin = .nan ∨ d.metadata.efermi = .nan ∨ d.metadata.weight = .nan) : d.pdos = [] := by
  obtain ⟨A⟩ := fromList_ok (show fromList nc (readlines text) = .ok d from h)
  have hp := A.part
  unfold partialDos at hp
  rw [indexOf_none] at hp
  · exact (Res.ok.inj hp).symm
  · intro y _
    by_contra hc
    simp only [Bool.not_eq_false] at hc
    apply sameRow_nan hc
    rcases hnan with h | h | h | h <;> simp [h]

end Verif.DoscarFull

namespace Verif.DoscarFull
open Verif Verif.Utils

/-- The outcome of a call passes a test. -/
theorem passes {α : Type} {r : Res α} {P : α → Bool} (h : (match r with | .ok d => P d | _ => false) = true) : ∃ d, r = .ok d ∧ P d = true := by
  cases r with
  | ok d => exact ⟨d, rfl, h⟩
  | exit c => cases h
  | raise e => cases h

/-- Non-vacuity: an infinite and an undefined number in the tables are returned; with an undefined Fermi level the partial density is lost. -/
example : (∃ d, init none (some c!"1 1 1 0\n0\n0\nCAR\nname\n 2 -1 2 5 1\n 1 NaN 3\n 2 -Infinity 4\n 2 -1 2 5 1\n 1 1 NaN 2\n 2 3 4 5\n") false = .ok d ∧
      d.dos = [[(c!"energy", [.fin 1]), (c!"total", [.nan]), (c!"integrated", [.fin 3])],
        [(c!"energy", [.fin 2]), (c!"total", [.inf true]), (c!"integrated", [.fin 4])]] ∧ d.pdos.length = 1) ∧
    (∃ d, init none (some c!"1 1 1 0\n0\n0\nCAR\nname\n 2 -1 2 NaN 1\n 1 2 3\n 2 3 4\n 2 -1 2 NaN 1\n 1 1 1 2\n 2 3 4 5\n") false = .ok d ∧
      d.metadata.efermi = .nan ∧ d.pdos = []) := by
  obtain ⟨d, h1, h2⟩ := passes (r := init none (some c!"1 1 1 0\n0\n0\nCAR\nname\n 2 -1 2 5 1\n 1 NaN 3\n 2 -Infinity 4\n 2 -1 2 5 1\n 1 1 NaN 2\n 2 3 4 5\n") false)
    (P := fun d => decide (d.dos = [[(c!"energy", [.fin 1]), (c!"total", [.nan]), (c!"integrated", [.fin 3])],
        [(c!"energy", [.fin 2]), (c!"total", [.inf true]), (c!"integrated", [.fin 4])]] ∧ d.pdos.length = 1)) (by decide +kernel)
  obtain ⟨d', h1', h2'⟩ := passes (r := init none (some c!"1 1 1 0\n0\n0\nCAR\nname\n 2 -1 2 NaN 1\n 1 2 3\n 2 3 4\n 2 -1 2 NaN 1\n 1 1 1 2\n 2 3 4 5\n") false)
    (P := fun d => decide (d.metadata.efermi = .nan ∧ d.pdos = [])) (by decide +kernel)
  exact ⟨⟨d, h1, of_decide_eq_true h2⟩, d', h1', of_decide_eq_true h2'⟩

end Verif.DoscarFull
