import Verif.Model.Doscar
import Verif.Lemmas.Dict
import Mathlib.Data.List.Forall2
import Mathlib.Data.List.Basic
import Mathlib.Tactic.Linarith
import Mathlib.Tactic.Ring
import Mathlib.Data.Rat.Floor
/-! # DOSCAR: columns, tables, blocks, metadata (C37, C38, C39, C67, C68) -/
set_option autoImplicit false
namespace Verif.Doscar
open Verif Verif.Utils
open Verif.Kpoints (idx toFloat toInt)

/-! ### specification -/

/-- The line prints these numbers. -/
def Numbers (line : Str) (row : List Rat) : Prop := List.Forall₂ (fun w x => pyFloatRat w = some x) (words line) row

/-- Line `6 + i` of the file (the `i`-th behind the header) prints these numbers. -/
def Row (lines : List Str) (i : Nat) (row : List Rat) : Prop := ∃ line, lines[6 + i]? = some line ∧ Numbers line row

/-- The columns of a row dealt out to the fields: each field takes as many as its width. -/
def ownColumns : Dtype → List Rat → Record
  | [], _ => []
  | (name, w) :: ds, row => (name, row.take w) :: ownColumns ds (row.drop w)

/-- How many columns a dtype describes. -/
def width (d : Dtype) : Nat := (d.map Prod.snd).sum

/-- The first line behind the header that prints the numbers of the header (its line 5) again. -/
def FirstRepeat (lines : List Str) (p : Nat) : Prop :=
  ∃ h l5, lines[5]? = some l5 ∧ Numbers l5 h ∧ Row lines p h ∧ ∀ q < p, ¬ Row lines q h

/-! ### rows -/

theorem toFloat_iff (w : Str) (x : Rat) : toFloat w = .ok x ↔ pyFloatRat w = some x := by
  unfold toFloat pyFloatRat
  cases pyFloat w with
  | none => simp
  | some f => cases f <;> simp

theorem numbers_iff (line : Str) (row : List Rat) : Numbers line row ↔ Res.mapM' toFloat (words line) = .ok row := by
  unfold Numbers
  rw [Res.mapM'_eq_ok]
  simp only [toFloat_iff]

/-- A converted line as `line_to_type` returns it. -/
def wrap : List Rat → OneOrMany Rat
  | [a] => .one a
  | as => .many as

theorem wrap_inj {a b : List Rat} (h : wrap a = wrap b) : a = b := by
  match a, b with
  | [], [] => rfl
  | [x], [y] => simp only [wrap, OneOrMany.one.injEq] at h; rw [h]
  | [], [y] => cases h
  | [x], [] => cases h
  | [x], y :: z :: t => cases h
  | x :: z :: t, [y] => cases h
  | [], y :: z :: t => cases h
  | x :: z :: t, [] => cases h
  | x :: z :: t, y :: z' :: t' => simpa [wrap] using h

theorem wrap_many {r s : List Rat} (h : wrap r = .many s) : r = s := by
  match r with
  | [] => simpa [wrap] using h
  | [x] => cases h
  | x :: y :: t => simpa [wrap] using h

theorem lineToType_ok {line : Str} {v : OneOrMany Rat} : lineToType toFloat line = .ok v ↔ ∃ r, Numbers line r ∧ v = wrap r := by
  unfold lineToType
  simp only [numbers_iff]
  cases Res.mapM' toFloat (words line) with
  | ok as =>
    match as with
    | [] => simp [wrap, eq_comm]
    | [_] => simp [wrap, eq_comm]
    | _ :: _ :: _ => simp [wrap, eq_comm]
  | exit c => simp
  | raise e => simp

theorem Numbers.unique {line : Str} {r s : List Rat} (h1 : Numbers line r) (h2 : Numbers line s) : r = s := by
  rw [numbers_iff] at h1 h2
  rw [h1] at h2
  cases h2; rfl

theorem Row.unique {lines : List Str} {i : Nat} {r s : List Rat} (h1 : Row lines i r) (h2 : Row lines i s) : r = s := by
  obtain ⟨l, hl, n1⟩ := h1
  obtain ⟨l', hl', n2⟩ := h2
  rw [hl] at hl'; cases hl'
  exact n1.unique n2

theorem data_get {ls : List Str} {data : List (OneOrMany Rat)} (h : Res.mapM' (lineToType toFloat) ls = .ok data) (i : Nat) :
    (∃ l, ls[i]? = some l) ↔ ∃ v, data[i]? = some v := by
  have hl := (Res.mapM'_eq_ok.1 h).length_eq
  constructor
  · rintro ⟨l, hi⟩
    have := (List.getElem?_eq_some_iff.1 hi).1
    exact ⟨_, List.getElem?_eq_getElem (by omega)⟩
  · rintro ⟨l, hi⟩
    have := (List.getElem?_eq_some_iff.1 hi).1
    exact ⟨_, List.getElem?_eq_getElem (by omega)⟩

theorem data_row {lines : List Str} {data : List (OneOrMany Rat)} (h : Res.mapM' (lineToType toFloat) (lines.drop 6) = .ok data)
    (i : Nat) (r : List Rat) : Row lines i r ↔ data[i]? = some (wrap r) := by
  have hf := Res.mapM'_eq_ok.1 h
  have key : ∀ l v, lines[6 + i]? = some l → data[i]? = some v → lineToType toFloat l = .ok v := by
    intro l v hl hv
    rw [← List.getElem?_drop] at hl
    obtain ⟨h1, h2⟩ := List.getElem?_eq_some_iff.1 hl
    obtain ⟨h3, h4⟩ := List.getElem?_eq_some_iff.1 hv
    have := List.forall₂_iff_get.1 hf |>.2 i h1 h3
    simp only [List.get_eq_getElem] at this
    rwa [h2, h4] at this
  constructor
  · rintro ⟨l, hl, hn⟩
    obtain ⟨v, hv⟩ := (data_get h i).1 ⟨l, by rw [List.getElem?_drop]; exact hl⟩
    obtain ⟨r', hn', rfl⟩ := lineToType_ok.1 (key l v hl hv)
    rw [hn.unique hn']; exact hv
  · intro hv
    obtain ⟨l, hl⟩ := (data_get h i).2 ⟨_, hv⟩
    rw [List.getElem?_drop] at hl
    obtain ⟨r', hn', he⟩ := lineToType_ok.1 (key l _ hl hv)
    exact ⟨l, hl, by rw [wrap_inj he]; exact hn'⟩

theorem data_many {lines : List Str} {data : List (OneOrMany Rat)} (h : Res.mapM' (lineToType toFloat) (lines.drop 6) = .ok data)
    {i : Nat} {r : List Rat} (hv : data[i]? = some (.many r)) : Row lines i r := by
  have hf := Res.mapM'_eq_ok.1 h
  obtain ⟨l, hl⟩ := (data_get h i).2 ⟨_, hv⟩
  obtain ⟨h1, h2⟩ := List.getElem?_eq_some_iff.1 hl
  obtain ⟨h3, h4⟩ := List.getElem?_eq_some_iff.1 hv
  have := List.forall₂_iff_get.1 hf |>.2 i h1 h3
  simp only [List.get_eq_getElem] at this
  rw [h2, h4] at this
  obtain ⟨r', hn, he⟩ := lineToType_ok.1 this
  rw [List.getElem?_drop] at hl
  exact ⟨l, hl, by rw [← wrap_many he.symm]; exact hn⟩

theorem asRows_ok {c : Nat} {l : List (OneOrMany Rat)} {rs : List (List Rat)} (h : asRows c l = .ok rs) :
    l = rs.map .many ∧ ∀ r ∈ rs, r.length = c := by
  induction l generalizing rs with
  | nil => cases h; simp
  | cons x xs ih =>
    match x with
    | .one a => cases h
    | .many r =>
      unfold asRows at h
      split at h
      · rename_i hr
        obtain ⟨t, ht, h⟩ := Res.bind_eq_ok.1 h
        cases h
        obtain ⟨i1, i2⟩ := ih ht
        refine ⟨by rw [i1]; rfl, ?_⟩
        intro s hs
        rcases List.mem_cons.1 hs with rfl | hs
        · exact hr
        · exact i2 s hs
      · cases h

/-! ### columns -/

theorem record_eq (s : Nat) (names : List Str) (row : List Rat) :
    record s names row = (c!"energy", row.take 1) :: names.mapIdx fun k n => (n, (row.drop (k + 1)).take s) := by
  unfold record cols
  rw [List.mapIdx_eq_zipIdx_map]
  simp [Nat.add_sub_cancel_left]

theorem own_of_zip (names : List Str) (row : List Rat) (k : Nat) :
    ((names.zipIdx k).map fun p => (p.1, (row.drop (p.2 + 1)).take 1)) = ownColumns (names.map fun n => (n, 1)) (row.drop (k + 1)) := by
  induction names generalizing k with
  | nil => rfl
  | cons n ns ih =>
    simp only [List.zipIdx_cons, List.map_cons, ownColumns, List.drop_drop]
    rw [ih]

theorem record_one (names : List Str) (row : List Rat) : record 1 names row = ownColumns (fields 1 names) row := by
  rw [record_eq, List.mapIdx_eq_zipIdx_map]
  unfold fields
  rw [ownColumns, ← own_of_zip names row 0]

/-! ### total -/

theorem idx_ok' {α} {l : List α} {i : Nat} {a : α} (h : idx l i = .ok a) : l[i]? = some a := by
  unfold idx at h
  split at h
  · cases h; assumption
  · cases h

/-- What an accepted file looks like. -/
structure Accepted (nc : Bool) (lines : List Str) (d : Data) where
  numIons : Int
  numAtoms : Int
  p : Int
  q : Int
  coord : OneOrMany Str
  header : List Rat
  nd : Rat
  data : List (OneOrMany Rat)
  l0 : Str
  l3 : Str
  l4 : Str
  l5 : Str
  e0 : lines[0]? = some l0
  e3 : lines[3]? = some l3
  e4 : lines[4]? = some l4
  e5 : lines[5]? = some l5
  ints : lineToType toInt l0 = .ok (.many [numIons, numAtoms, p, q])
  hcoord : lineToType Res.ok l3 = .ok coord
  numbers : Numbers l5 header
  hheader : header = [d.metadata.emax, d.metadata.emin, nd, d.metadata.efermi, d.metadata.weight]
  hdata : Res.mapM' (lineToType toFloat) (lines.drop 6) = .ok data
  pos : 0 < truncInt nd
  hn : d.metadata.nDos = truncInt nd
  hi : d.metadata.nIons = numIons
  ha : d.metadata.nAtoms = numAtoms
  hname : d.metadata.name = strip l4
  hcart : cartesianOf coord = .ok d.metadata.cartesian
  total : totalDos data (truncInt nd).toNat = .ok d.dos
  part : partialDos nc header data (truncInt nd).toNat numIons = .ok d.pdos

theorem unpack_ok {α} {n : Nat} {v : OneOrMany α} {l : List α} (h : unpack n v = .ok l) : v = .many l ∧ l.length = n := by
  unfold unpack at h
  split at h
  · split at h
    · cases h; exact ⟨rfl, by assumption⟩
    · cases h
  · cases h

theorem fromList_ok {nc : Bool} {lines : List Str} {d : Data} (h : fromList nc lines = .ok d) : Nonempty (Accepted nc lines d) := by
  unfold fromList at h
  obtain ⟨l0, e0, h⟩ := Res.bind_eq_ok.1 h
  obtain ⟨v0, f0, h⟩ := Res.bind_eq_ok.1 h
  obtain ⟨h0, g0, h⟩ := Res.bind_eq_ok.1 h
  obtain ⟨l3, e3, h⟩ := Res.bind_eq_ok.1 h
  obtain ⟨coord, f3, h⟩ := Res.bind_eq_ok.1 h
  obtain ⟨l4, e4, h⟩ := Res.bind_eq_ok.1 h
  obtain ⟨l5, e5, h⟩ := Res.bind_eq_ok.1 h
  obtain ⟨v5, f5, h⟩ := Res.bind_eq_ok.1 h
  obtain ⟨h5, g5, h⟩ := Res.bind_eq_ok.1 h
  rw [(unpack_ok g0).1] at f0
  rw [(unpack_ok g5).1] at f5
  have k0 := (unpack_ok g0).2
  have k5 := (unpack_ok g5).2
  match h0, k0, h5, k5, f0, f5, h with
  | [numIons, numAtoms, a, b], _, [emax, emin, nd, efermi, weight], _, f0, f5, h =>
    simp only at h
    obtain ⟨data, hd, h⟩ := Res.bind_eq_ok.1 h
    split at h
    · cases h
    · rename_i hpos
      obtain ⟨dos, hdos, h⟩ := Res.bind_eq_ok.1 h
      obtain ⟨pdos, hpdos, h⟩ := Res.bind_eq_ok.1 h
      obtain ⟨cart, hcart, h⟩ := Res.bind_eq_ok.1 h
      cases h
      obtain ⟨r, hn, he⟩ := lineToType_ok.1 f5
      have := wrap_many he.symm
      subst this
      exact ⟨⟨numIons, numAtoms, a, b, coord, _, nd, data, l0, l3, l4, l5, idx_ok' e0, idx_ok' e3, idx_ok' e4, idx_ok' e5, f0, f3, hn,
        rfl, hd, by omega, rfl, rfl, rfl, rfl, hcart, hdos, hpdos⟩⟩

/-- The total density of states of accepted data. -/
theorem total_ok {data : List (OneOrMany Rat)} {n : Nat} (hn : 0 < n) {dos : List Record} (h : totalDos data n = .ok dos) :
    ∃ (c : Nat) (dt : Dtype) (rows : List (List Rat)), dtypesDos.get? c = some dt ∧ data.take n = rows.map .many ∧ rows.length = n ∧ (∀ r ∈ rows, r.length = c) ∧
      dos = rows.map (record (if c = 5 then 2 else 1) (dt.tail.map Prod.fst)) := by
  unfold totalDos at h
  obtain ⟨last, h1, h⟩ := Res.bind_eq_ok.1 h
  obtain ⟨c, h2, h⟩ := Res.bind_eq_ok.1 h
  obtain ⟨rows, h3, h⟩ := Res.bind_eq_ok.1 h
  obtain ⟨a1, a2⟩ := asRows_ok h3
  split at h
  · rename_i dt hdt
    cases h
    refine ⟨c, dt, rows, hdt, a1, ?_, a2, rfl⟩
    have hlt := (List.getElem?_eq_some_iff.1 (idx_ok' h1)).1
    have := congrArg List.length a1
    simp only [List.length_take, List.length_map] at this
    omega
  · cases h

/-- Dtypes of the total density of states. -/
theorem dtypesDos_get {c : Nat} {dt : Dtype} (h : dtypesDos.get? c = some dt) :
    c = 3 ∧ dt = [(c!"energy", 1), (c!"total", 1), (c!"integrated", 1)] ∨ c = 5 ∧ dt = [(c!"energy", 1), (c!"total", 2), (c!"integrated", 2)] := by
  have := Dict.mem_of_get? _ h
  simp only [dtypesDos, List.mem_cons, Prod.mk.injEq, List.not_mem_nil, or_false] at this
  exact this

/-- C37 for the total density of states, every accepted file: there is one record per energy; with three columns each field holds
exactly its own column; with five columns (spin) the energy and the total do, but the integrated field holds the columns 2 and 3
instead of its own 3 and 4. Missing: the integrated field with spin, for which the claim is false (`C37_violation`). -/
theorem C37_total_partial (nc : Bool) (lines : List Str) (d : Data) (h : fromList nc lines = .ok d) :
    (d.dos.length : Int) = d.metadata.nDos ∧ ∃ c, (c = 3 ∨ c = 5) ∧
    ∀ i r, d.dos[i]? = some r → ∃ row, Row lines i row ∧ row.length = c ∧
      (c = 3 → r = ownColumns [(c!"energy", 1), (c!"total", 1), (c!"integrated", 1)] row) ∧
      (c = 5 → ∃ e a b x y, row = [e, a, b, x, y] ∧ r = [(c!"energy", [e]), (c!"total", [a, b]), (c!"integrated", [b, x])]) := by
  obtain ⟨A⟩ := fromList_ok h
  have hpos := A.pos
  obtain ⟨c, dt, rows, hdt, hrows, hlen, hall, hdos⟩ := total_ok (by omega) A.total
  have hc := dtypesDos_get hdt
  refine ⟨?_, c, by rcases hc with ⟨rfl, _⟩ | ⟨rfl, _⟩ <;> simp, ?_⟩
  · rw [hdos, List.length_map, hlen, A.hn]
    omega
  · intro i r hr
    rw [hdos, List.getElem?_map, Option.map_eq_some_iff] at hr
    obtain ⟨row, hrow, rfl⟩ := hr
    have hlt : i < rows.length := (List.getElem?_eq_some_iff.1 hrow).1
    have hd : A.data[i]? = some (.many row) := by
      have := congrArg (fun l => l[i]?) hrows
      simp only [List.getElem?_map, hrow, Option.map_some] at this
      rw [List.getElem?_take] at this
      split at this
      · exact this
      · cases this
    have hl := hall row (List.mem_of_getElem? hrow)
    refine ⟨row, data_many A.hdata hd, hl, ?_, ?_⟩
    · intro h3
      subst h3
      rcases hc with ⟨_, rfl⟩ | ⟨h5, _⟩
      · exact record_one [c!"total", c!"integrated"] row
      · cases h5
    · intro h5
      subst h5
      rcases hc with ⟨h5, _⟩ | ⟨_, rfl⟩
      · cases h5
      · match row, hl with
        | [e, a, b, x, y], _ => exact ⟨e, a, b, x, y, rfl, rfl⟩

/-! ### blocks -/

theorem indexOf_some {x : List Rat} {data : List (OneOrMany Rat)} {p : Nat} (h : indexOf x data = some p) :
    data[p]? = some (.many x) ∧ ∀ q < p, data[q]? ≠ some (.many x) := by
  induction data generalizing p with
  | nil => cases h
  | cons y ys ih =>
    unfold indexOf at h
    split at h
    · rename_i hy
      cases h
      exact ⟨by simp [hy], by omega⟩
    · rename_i hy
      rw [Option.map_eq_some_iff] at h
      obtain ⟨p', hp, rfl⟩ := h
      obtain ⟨i1, i2⟩ := ih hp
      refine ⟨by simpa using i1, ?_⟩
      intro q hq
      cases q with
      | zero => simpa using hy
      | succ q => simpa using i2 q (by omega)

theorem indexOf_none {x : List Rat} {data : List (OneOrMany Rat)} (h : indexOf x data = none) (q : Nat) : data[q]? ≠ some (.many x) := by
  induction data generalizing q with
  | nil => simp
  | cons y ys ih =>
    unfold indexOf at h
    split at h
    · cases h
    · rename_i hy
      rw [Option.map_eq_none_iff] at h
      cases q with
      | zero => simpa using hy
      | succ q => simpa using ih h q

theorem blocks_length (data : List (OneOrMany Rat)) (n s k : Nat) : (blocks data n s k).length = k := by
  induction k generalizing s with
  | zero => rfl
  | succ k ih => simp [blocks, ih]

theorem blocks_get (data : List (OneOrMany Rat)) (n s k i : Nat) (hi : i < k) :
    (blocks data n s k)[i]? = some ((data.drop (s + i * (n + 1))).take n) := by
  induction k generalizing s i with
  | zero => omega
  | succ k ih =>
    unfold blocks
    cases i with
    | zero => simp
    | succ i =>
      rw [List.getElem?_cons_succ, ih _ _ (by omega)]
      congr 3
      ring

theorem asBlocks_ok {c m : Nat} {items : List (List (OneOrMany Rat))} {bs : List (List (List Rat))} (h : asBlocks c m items = .ok bs) :
    items = bs.map (fun b => b.map .many) ∧ ∀ b ∈ bs, b.length = m ∧ ∀ r ∈ b, r.length = c := by
  induction items generalizing bs with
  | nil => cases h; simp
  | cons x xs ih =>
    unfold asBlocks at h
    split at h
    · rename_i hx
      obtain ⟨r, hr, h⟩ := Res.bind_eq_ok.1 h
      obtain ⟨t, ht, h⟩ := Res.bind_eq_ok.1 h
      cases h
      obtain ⟨i1, i2⟩ := ih ht
      obtain ⟨j1, j2⟩ := asRows_ok hr
      refine ⟨by rw [i1, j1]; rfl, ?_⟩
      intro b hb
      rcases List.mem_cons.1 hb with rfl | hb
      · refine ⟨?_, j2⟩
        rw [j1, List.length_map] at hx
        exact hx
      · exact i2 b hb
    · cases h

/-- The partial density of states of accepted data. -/
theorem partial_ok {nc : Bool} {header : List Rat} {data : List (OneOrMany Rat)} {n : Nat} {k : Int} {pdos : List (List Record)}
    (h : partialDos nc header data n k = .ok pdos) :
    ((∀ q : Nat, data[q]? ≠ some (.many header)) ∧ pdos = []) ∨
    ∃ (p c s : Nat) (dt : Dtype) (m : Nat), data[p]? = some (.many header) ∧ (∀ q < p, data[q]? ≠ some (.many header)) ∧ 0 < k ∧
      getNumSpin c nc = .ok s ∧ getDtypePdos c nc = .ok dt ∧ 0 < m ∧ m ≤ n ∧ (m = n ∨ k = 1 ∧ data.length = p + 1 + m) ∧
      (pdos.length : Int) = k ∧ ∀ i b, pdos[i]? = some b → b.length = m ∧ ∀ j r, b[j]? = some r →
        ∃ row, data[p + 1 + i * (n + 1) + j]? = some (.many row) ∧ row.length = c ∧ r = record s (dt.tail.map Prod.fst) row := by
  unfold partialDos at h
  cases hix : indexOf header data with
  | none =>
    rw [hix] at h
    cases h
    exact .inl ⟨indexOf_none hix, rfl⟩
  | some p =>
    rw [hix] at h
    simp only at h
    obtain ⟨hp, hq⟩ := indexOf_some hix
    cases hlast : (blocks data n (p + 1) k.toNat).getLast? with
    | none => rw [hlast] at h; cases h
    | some lb =>
      rw [hlast] at h
      simp only at h
      cases hlr : lb.getLast? with
      | none => rw [hlr] at h; cases h
      | some lr =>
        rw [hlr] at h
        simp only at h
        obtain ⟨c, hc, h⟩ := Res.bind_eq_ok.1 h
        obtain ⟨bs, hbs, h⟩ := Res.bind_eq_ok.1 h
        obtain ⟨s, hs, h⟩ := Res.bind_eq_ok.1 h
        obtain ⟨dt, hdt, h⟩ := Res.bind_eq_ok.1 h
        cases h
        obtain ⟨i1, i2⟩ := asBlocks_ok hbs
        have hk : 0 < k.toNat := by
          rcases Nat.eq_zero_or_pos k.toNat with h0 | h0
          · rw [h0] at hlast; cases hlast
          · exact h0
        have hbl : bs.length = k.toNat := by
          have := congrArg List.length i1
          rw [blocks_length, List.length_map] at this
          exact this.symm
        have hlbm : 0 < lb.length := by
          cases lb with
          | nil => cases hlr
          | cons _ _ => simp
        have hget : ∀ i b, bs[i]? = some b → b.map OneOrMany.many = (data.drop (p + 1 + i * (n + 1))).take n := by
          intro i b hb
          have hi : i < bs.length := (List.getElem?_eq_some_iff.1 hb).1
          have := congrArg (fun l => l[i]?) i1
          simp only [List.getElem?_map, hb, Option.map_some] at this
          rw [blocks_get _ _ _ _ _ (by omega)] at this
          exact (Option.some.inj this).symm
        have hlbe : lb = (data.drop (p + 1 + (k.toNat - 1) * (n + 1))).take n := by
          rw [List.getLast?_eq_getElem?, blocks_length, blocks_get _ _ _ _ _ (by omega)] at hlast
          exact (Option.some.inj hlast).symm
        have hlen := congrArg List.length hlbe
        simp only [List.length_take, List.length_drop] at hlen
        refine .inr ⟨p, c, s, dt, lb.length, hp, hq, by omega, hs, hdt, hlbm, by omega, ?_, ?_, ?_⟩
        · by_cases h1 : k.toNat = 1
          · by_cases hm : lb.length = n
            · exact .inl hm
            · right
              rw [h1] at hlen
              simp only [Nat.sub_self, Nat.zero_mul, Nat.add_zero] at hlen
              exact ⟨by omega, by omega⟩
          · left
            cases hb0 : bs[0]? with
            | none => rw [List.getElem?_eq_none_iff] at hb0; omega
            | some b0 =>
              have e0 := congrArg List.length (hget 0 b0 hb0)
              simp only [List.length_map, List.length_take, List.length_drop, Nat.zero_mul, Nat.add_zero] at e0
              have := (i2 b0 (List.mem_of_getElem? hb0)).1
              have hge : n + 1 ≤ (k.toNat - 1) * (n + 1) := Nat.le_mul_of_pos_left _ (by omega)
              omega
        · rw [List.length_map, hbl]; omega
        · intro i b hb
          rw [List.getElem?_map, Option.map_eq_some_iff] at hb
          obtain ⟨b', hb', rfl⟩ := hb
          obtain ⟨m1, m2⟩ := i2 b' (List.mem_of_getElem? hb')
          refine ⟨by rw [List.length_map]; exact m1, ?_⟩
          intro j r hr
          rw [List.getElem?_map, Option.map_eq_some_iff] at hr
          obtain ⟨row, hrow, rfl⟩ := hr
          refine ⟨row, ?_, m2 row (List.mem_of_getElem? hrow), rfl⟩
          have := congrArg (fun l => l[j]?) (hget i b' hb')
          simp only [List.getElem?_map, hrow, Option.map_some] at this
          rw [List.getElem?_take] at this
          split at this
          · rw [List.getElem?_drop] at this; exact this.symm
          · cases this

/-! ### tables -/

/-- The supported numbers of columns of a partial density of states. -/
def supported (nc : Bool) : List Nat := if nc then [13, 17, 37, 65] else [4, 5, 7, 9, 10, 17, 19, 33]

/-- C38: for a supported number of columns both tables have an entry, they describe exactly that many columns, with one energy
column in front and the announced number of spin components for every other field, whose names differ; for any other number both
raise ValueError. -/
theorem C38_tables (c : Nat) (nc : Bool) :
    (c ∈ supported nc ∧ ∃ s dt, getNumSpin c nc = .ok s ∧ getDtypePdos c nc = .ok dt ∧ width dt = c ∧
      dt.head? = some (c!"energy", 1) ∧ (∀ f ∈ dt.tail, f.2 = s) ∧ (dt.map Prod.fst).Nodup) ∨
    (c ∉ supported nc ∧ getNumSpin c nc = .raise .valueError ∧ getDtypePdos c nc = .raise .valueError) := by
  by_cases h : c ∈ supported nc
  · refine .inl ⟨h, ?_⟩
    cases nc with
    | true =>
      simp only [supported, if_true, List.mem_cons, List.not_mem_nil, or_false] at h
      rcases h with rfl | rfl | rfl | rfl <;> exact ⟨_, _, rfl, rfl, by decide +kernel, by decide +kernel, by decide +kernel, by decide +kernel⟩
    | false =>
      simp only [supported, Bool.false_eq_true, if_false, List.mem_cons, List.not_mem_nil, or_false] at h
      rcases h with rfl | rfl | rfl | rfl | rfl | rfl | rfl | rfl <;>
        exact ⟨_, _, rfl, rfl, by decide +kernel, by decide +kernel, by decide +kernel, by decide +kernel⟩
  · refine .inr ⟨h, ?_, ?_⟩
    · have : (if nc then colspinNoncollinear.get? c else colspinCollinear.get? c) = none := by
        cases nc <;>
        · simp only [supported, Bool.false_eq_true, if_false, if_true, List.mem_cons, List.not_mem_nil, or_false, not_or] at h
          simp only [Bool.false_eq_true, if_false, if_true]
          cases hg : Dict.get? _ c with
          | none => rfl
          | some v =>
            have := Dict.mem_of_get? _ hg
            simp [colspinNoncollinear, colspinCollinear, h] at this
      unfold getNumSpin
      rw [this]
    · have : (if nc then dtypesNoncollinear.get? c else dtypesCollinear.get? c) = none := by
        cases nc <;>
        · simp only [supported, Bool.false_eq_true, if_false, if_true, List.mem_cons, List.not_mem_nil, or_false, not_or] at h
          simp only [Bool.false_eq_true, if_false, if_true]
          cases hg : Dict.get? _ c with
          | none => rfl
          | some v =>
            have := Dict.mem_of_get? _ hg
            simp [dtypesNoncollinear, dtypesCollinear, h] at this
      unfold getDtypePdos
      rw [this]

/-- The orbitals a number of fields stands for. -/
def orbitals (k : Nat) : List Str :=
  if k = 3 then [c!"s", c!"p", c!"d"]
  else if k = 4 then [c!"s", c!"p", c!"d", c!"f"]
  else [c!"s", c!"py", c!"px", c!"pz", c!"dxy", c!"dyz", c!"dz2", c!"dxz", c!"dx2-y2",
      c!"fy(3x2-y2)", c!"fxyz", c!"fyz2", c!"fz3", c!"fxz2", c!"fz(x2-y2)", c!"fx(x2-3y2)"].take k

/-- C67: the field names are the orbitals in order, however spin is treated; all numbers of columns but 37 (see `C67_violation`). Missing: 37 columns. -/
theorem C67_names_partial (c : Nat) (nc : Bool) (dt : Dtype) (h : getDtypePdos c nc = .ok dt) (hc : c ≠ 37) :
    ∃ s, getNumSpin c nc = .ok s ∧ 0 < s ∧ s ∣ c - 1 ∧ dt.map Prod.fst = c!"energy" :: orbitals ((c - 1) / s) := by
  rcases C38_tables c nc with ⟨hs, _⟩ | ⟨_, _, hv⟩
  · cases nc with
    | true =>
      simp only [supported, if_true, List.mem_cons, List.not_mem_nil, or_false] at hs
      rcases hs with rfl | rfl | rfl | rfl
      · cases h; exact ⟨4, rfl, by decide, by decide, by decide +kernel⟩
      · cases h; exact ⟨4, rfl, by decide, by decide, by decide +kernel⟩
      · exact absurd rfl hc
      · cases h; exact ⟨4, rfl, by decide, by decide, by decide +kernel⟩
    | false =>
      simp only [supported, Bool.false_eq_true, if_false, List.mem_cons, List.not_mem_nil, or_false] at hs
      rcases hs with rfl | rfl | rfl | rfl | rfl | rfl | rfl | rfl <;> cases h <;>
        first
        | exact ⟨1, rfl, by decide, by decide, by decide +kernel⟩
        | exact ⟨2, rfl, by decide, by decide, by decide +kernel⟩
  · rw [hv] at h; cases h

/-- C67 is false for 37 columns: the ninth orbital is called `x2-y2` there, everywhere else `dx2-y2`. -/
theorem C67_violation : (∃ dt, getDtypePdos 37 true = .ok dt ∧ (dt.map Prod.fst)[9]? = some c!"x2-y2") ∧
    (∃ dt, getDtypePdos 19 false = .ok dt ∧ (dt.map Prod.fst)[9]? = some c!"dx2-y2") :=
  ⟨⟨_, rfl, by decide +kernel⟩, ⟨_, rfl, by decide +kernel⟩⟩

example : ∃ dt, getDtypePdos 33 false = .ok dt := ⟨_, rfl⟩

/-! ### partial density of states -/

/-- The number of energies as announced. -/
def Data.n (d : Data) : Nat := d.metadata.nDos.toNat

theorem firstRepeat_iff {nc : Bool} {lines : List Str} {d : Data} (A : Accepted nc lines d) (p : Nat) :
    FirstRepeat lines p ↔ A.data[p]? = some (.many A.header) ∧ ∀ q < p, A.data[q]? ≠ some (.many A.header) := by
  have hw : wrap A.header = .many A.header := by rw [A.hheader]; rfl
  rw [← hw, ← data_row A.hdata]
  simp only [← data_row A.hdata, ne_eq]
  constructor
  · rintro ⟨h, l5, e5, hn, hr, hq⟩
    rw [A.e5] at e5; cases e5
    rw [A.numbers.unique hn]
    exact ⟨hr, hq⟩
  · rintro ⟨hr, hq⟩
    exact ⟨_, _, A.e5, A.numbers, hr, hq⟩

/-- C39, every accepted file. If no line behind the header repeats it there is no partial density of states. Else there is one block
per ion; block `i` consists of the rows that follow the first repetition, skipping `i` blocks of `n_dos` rows and their header
lines; a block has `n_dos` rows unless there is a single ion and the file ends early. Missing: that a file which ends early, or one whose data repeat the header, is refused (`C39_violation_*`). -/
theorem C39_blocks_partial (nc : Bool) (lines : List Str) (d : Data) (h : fromList nc lines = .ok d) :
    ((∀ p, ¬ FirstRepeat lines p) → d.pdos = []) ∧
    (∀ p, FirstRepeat lines p → 0 < d.metadata.nIons ∧ (d.pdos.length : Int) = d.metadata.nIons ∧
      ∃ m, 0 < m ∧ (m = d.n ∨ m < d.n ∧ d.metadata.nIons = 1 ∧ lines.length = 6 + p + 1 + m) ∧
      ∀ i b, d.pdos[i]? = some b → b.length = m ∧ ∀ j r, b[j]? = some r →
        ∃ row, Row lines (p + 1 + i * (d.n + 1) + j) row ∧ r.head? = some (c!"energy", row.take 1)) := by
  obtain ⟨A⟩ := fromList_ok h
  have hpos := A.pos
  have hdn : d.n = (truncInt A.nd).toNat := by unfold Data.n; rw [A.hn]
  rcases partial_ok A.part with ⟨h1, h2⟩ | ⟨p, c, s, dt, m, h1, h2, h3, h4, h5, h6, h7, h8, h9, h10⟩
  · refine ⟨fun _ => h2, ?_⟩
    intro p hp
    exact absurd ((firstRepeat_iff A p).1 hp).1 (h1 p)
  · have hp : FirstRepeat lines p := (firstRepeat_iff A p).2 ⟨h1, h2⟩
    refine ⟨fun hno => absurd hp (hno p), ?_⟩
    intro p' hp'
    have hpp : p' = p := by
      have h' := (firstRepeat_iff A p').1 hp'
      rcases Nat.lt_trichotomy p' p with hlt | heq | hgt
      · exact absurd h'.1 (h2 p' hlt)
      · exact heq
      · exact absurd h1 (h'.2 p hgt)
    subst hpp
    rw [hdn, A.hi]
    refine ⟨h3, h9, m, h6, ?_, ?_⟩
    · rcases h8 with rfl | ⟨hk, hl⟩
      · exact .inl rfl
      · have hlen := (Res.mapM'_eq_ok.1 A.hdata).length_eq
        rw [List.length_drop] at hlen
        by_cases hm : m = (truncInt A.nd).toNat
        · exact .inl hm
        · exact .inr ⟨by omega, hk, by omega⟩
    · intro i b hb
      obtain ⟨g1, g2⟩ := h10 i b hb
      refine ⟨g1, ?_⟩
      intro j r hr
      obtain ⟨row, hrow, _, rfl⟩ := g2 j r hr
      exact ⟨row, data_many A.hdata hrow, rfl⟩

/-- With three columns no row of the total density of states can be taken for a header. -/
theorem three_columns (nc : Bool) (lines : List Str) (d : Data) (h : fromList nc lines = .ok d) (r0 : List Rat) (h0 : Row lines 0 r0)
    (h3 : r0.length = 3) (l5 : Str) (header : List Rat) (e5 : lines[5]? = some l5) (hh : Numbers l5 header) :
    ∀ q < d.n, ¬ Row lines q header := by
  intro q hq hr
  obtain ⟨A⟩ := fromList_ok h
  have hpos := A.pos
  obtain ⟨c, dt, rows, hdt, hrows, hlen, hall, hdos⟩ := total_ok (by omega) A.total
  have hdn : d.n = (truncInt A.nd).toNat := by unfold Data.n; rw [A.hn]
  have hrow : ∀ i, i < rows.length → ∃ row, Row lines i row ∧ row.length = c := by
    intro i hi
    refine ⟨rows[i], ?_, hall _ (List.getElem_mem hi)⟩
    have hrow : rows[i]? = some rows[i] := List.getElem?_eq_getElem hi
    have := congrArg (fun l => l[i]?) hrows
    simp only [List.getElem?_map, hrow, Option.map_some] at this
    rw [List.getElem?_take] at this
    split at this
    · exact data_many A.hdata this
    · cases this
  obtain ⟨r0', hr0, hc⟩ := hrow 0 (by omega)
  obtain ⟨rq, hrq, hcq⟩ := hrow q (by omega)
  rw [hr0.unique h0] at hc
  rw [hrq.unique hr] at hcq
  rw [A.e5] at e5; cases e5
  rw [← A.numbers.unique hh, A.hheader] at hcq
  simp only [List.length_cons, List.length_nil] at hcq
  omega

/-- C39: if the header is repeated directly behind the total density of states, and no row of that prints the very same numbers
(always so with three columns), then block `i` of the file is what is returned for ion `i`. Missing: files in which a row of the total density repeats the header, for which the claim is false (`C39_violation_*`). -/
theorem C39_standard_partial (nc : Bool) (lines : List Str) (d : Data) (h : fromList nc lines = .ok d)
    (l5 : Str) (header : List Rat) (e5 : lines[5]? = some l5) (hh : Numbers l5 header) (hb : Row lines d.n header)
    (ht : (∃ r0, Row lines 0 r0 ∧ r0.length = 3) ∨ ∀ q < d.n, ¬ Row lines q header) :
    (d.pdos.length : Int) = d.metadata.nIons ∧ ∀ i b, d.pdos[i]? = some b → ∀ j r, b[j]? = some r →
      ∃ row, Row lines ((i + 1) * (d.n + 1) + j) row ∧ r.head? = some (c!"energy", row.take 1) := by
  have hq : ∀ q < d.n, ¬ Row lines q header := by
    rcases ht with ⟨r0, h0, h3⟩ | ht
    · exact three_columns nc lines d h r0 h0 h3 l5 header e5 hh
    · exact ht
  obtain ⟨_, k2, m, _, _, k5⟩ := (C39_blocks_partial nc lines d h).2 d.n ⟨header, l5, e5, hh, hb, hq⟩
  refine ⟨k2, ?_⟩
  intro i b hbb j r hr
  have : (i + 1) * (d.n + 1) + j = d.n + 1 + i * (d.n + 1) + j := by ring
  rw [this]
  exact (k5 i b hbb).2 j r hr

/-- C37 for the partial density of states, every accepted file: without spin components each field holds exactly its own column.
With `s` components the field number `k` (from zero) holds the columns `k + 1` to `k + s`, which are its own only for `k = 0`. Missing: the other fields with spin components, for which the claim is false (`C37_violation`). -/
theorem C37_pdos_partial (nc : Bool) (lines : List Str) (d : Data) (h : fromList nc lines = .ok d) (p : Nat) (hp : FirstRepeat lines p) :
    ∃ c s dt, getNumSpin c nc = .ok s ∧ getDtypePdos c nc = .ok dt ∧
    ∀ i b, d.pdos[i]? = some b → ∀ j r, b[j]? = some r →
      ∃ row, Row lines (p + 1 + i * (d.n + 1) + j) row ∧ row.length = c ∧ r.map Prod.fst = dt.map Prod.fst ∧
      (s = 1 → r = ownColumns dt row) ∧
      ∀ k name, (dt.map Prod.fst)[k + 1]? = some name → r[k + 1]? = some (name, (row.drop (k + 1)).take s) := by
  obtain ⟨A⟩ := fromList_ok h
  have hdn : d.n = (truncInt A.nd).toNat := by unfold Data.n; rw [A.hn]
  obtain ⟨q1, q2⟩ := (firstRepeat_iff A p).1 hp
  rcases partial_ok A.part with ⟨h1, h2⟩ | ⟨p', c, s, dt, m, h1, h2, h3, h4, h5, h6, h7, h8, h9, h10⟩
  · exact absurd q1 (h1 p)
  · have hpp : p' = p := by
      rcases Nat.lt_trichotomy p' p with hlt | heq | hgt
      · exact absurd h1 (q2 p' hlt)
      · exact heq
      · exact absurd q1 (h2 p hgt)
    subst hpp
    refine ⟨c, s, dt, h4, h5, ?_⟩
    intro i b hb j r hr
    obtain ⟨g1, g2⟩ := h10 i b hb
    obtain ⟨row, hrow, hc, rfl⟩ := g2 j r hr
    rw [hdn]
    have hdt : dt = (c!"energy", 1) :: dt.tail ∧ ∀ f ∈ dt.tail, f.2 = s := by
      rcases C38_tables c nc with ⟨_, s', dt', a1, a2, _, a4, a5, _⟩ | ⟨_, a1, _⟩
      · rw [h4] at a1; cases a1
        rw [h5] at a2; cases a2
        refine ⟨?_, a5⟩
        cases dt with
        | nil => cases a4
        | cons x xs => simp only [List.head?_cons, Option.some.injEq] at a4; rw [a4]; rfl
      · rw [h4] at a1; cases a1
    refine ⟨row, data_many A.hdata hrow, hc, ?_, ?_, ?_⟩
    · rw [record_eq]
      conv_rhs => rw [hdt.1]
      simp only [List.map_cons, List.mapIdx_eq_zipIdx_map, List.map_map]
      congr 1
      have : (Prod.fst ∘ fun x : Str × Nat => (x.1, List.take s (List.drop (x.2 + 1) row))) = Prod.fst := rfl
      exact (congrArg (fun f => List.map f _) this).trans (List.zipIdx_map_fst _ _)
    · intro h1
      subst h1
      rw [record_one]
      congr 1
      conv_rhs => rw [hdt.1]
      unfold fields
      congr 1
      rw [List.map_map]
      conv_rhs => rw [← List.map_id dt.tail]
      refine List.map_congr_left fun f hf => ?_
      have := hdt.2 f hf
      simp only [Function.comp, id]
      rw [← this]
    · intro k name hk
      rw [hdt.1] at hk
      simp only [List.map_cons, List.getElem?_cons_succ] at hk
      rw [record_eq, List.getElem?_cons_succ, List.getElem?_mapIdx, hk]
      rfl

/-! ### metadata -/

/-- C68: the metadata are those of the header lines: four integers on the first line, coordinate type on the fourth, name on the
fifth, and five numbers on the sixth, of which the third is cut to an integer. -/
theorem C68_metadata (nc : Bool) (lines : List Str) (d : Data) (h : fromList nc lines = .ok d) :
    ∃ l0 l3 l4 l5 a b w nd, lines[0]? = some l0 ∧ lines[3]? = some l3 ∧ lines[4]? = some l4 ∧ lines[5]? = some l5 ∧
    List.Forall₂ (fun w x => pyInt w = some x) (words l0) [d.metadata.nIons, d.metadata.nAtoms, a, b] ∧
    words l3 = [w] ∧ (d.metadata.cartesian = true ↔ ∃ t, w = 'c' :: t ∨ w = 'C' :: t) ∧
    d.metadata.name = strip l4 ∧
    Numbers l5 [d.metadata.emax, d.metadata.emin, nd, d.metadata.efermi, d.metadata.weight] ∧
    0 < d.metadata.nDos ∧ (d.metadata.nDos : Rat) ≤ nd ∧ nd < d.metadata.nDos + 1 := by
  obtain ⟨A⟩ := fromList_ok h
  have hcoord := A.hcoord
  have hcart := A.hcart
  have hw : ∀ ws : List Str, Res.mapM' Res.ok ws = .ok ws := fun ws => by
    have := Res.mapM'_ok_of_forall (f := Res.ok) (g := fun x : Str => x) ws (fun _ _ => rfl)
    simpa using this
  unfold lineToType at hcoord
  rw [hw] at hcoord
  have hone : ∃ w, words A.l3 = [w] ∧ A.coord = .one w := by
    match hx : words A.l3 with
    | [] => rw [hx] at hcoord; injection hcoord with hcoord; rw [← hcoord] at hcart; cases hcart
    | [w] => rw [hx] at hcoord; injection hcoord with hcoord; exact ⟨w, rfl, hcoord.symm⟩
    | x :: y :: t => rw [hx] at hcoord; injection hcoord with hcoord; rw [← hcoord] at hcart; cases hcart
  obtain ⟨w, hw1, hw2⟩ := hone
  rw [hw2] at hcart
  refine ⟨A.l0, A.l3, A.l4, A.l5, A.p, A.q, w, A.nd, A.e0, A.e3, A.e4, A.e5, ?_, hw1, ?_, A.hname, ?_, ?_, ?_, ?_⟩
  · have hi := A.ints
    unfold lineToType at hi
    rw [A.hi, A.ha]
    cases hm : Res.mapM' toInt (words A.l0) with
    | ok as =>
      rw [hm] at hi
      have : as = [A.numIons, A.numAtoms, A.p, A.q] := by
        match as, hi with
        | [], hi => cases hi
        | [_], hi => cases hi
        | _ :: _ :: _, hi => cases hi; rfl
      subst this
      refine (Res.mapM'_eq_ok.1 hm).imp ?_
      intro w x hx
      unfold toInt at hx
      split at hx
      · cases hx; assumption
      · cases hx
    | exit c => rw [hm] at hi; cases hi
    | raise e => rw [hm] at hi; cases hi
  · unfold cartesianOf at hcart
    injection hcart with hcart
    rw [← hcart]
    match w with
    | [] => simp [startsWith]
    | x :: t =>
      simp only [startsWith, Bool.and_true, Bool.or_eq_true, List.cons.injEq]
      constructor
      · rintro (hx | hx)
        · exact ⟨t, .inl ⟨(eq_of_beq hx).symm, rfl⟩⟩
        · exact ⟨t, .inr ⟨(eq_of_beq hx).symm, rfl⟩⟩
      · rintro ⟨_, ⟨hx, _⟩ | ⟨hx, _⟩⟩
        · left; simp [hx]
        · right; simp [hx]
  · rw [← A.hheader]; exact A.numbers
  · rw [A.hn]; exact A.pos
  · have := A.pos
    rw [A.hn]
    unfold truncInt at this ⊢
    split
    · rename_i hneg
      rw [if_pos hneg] at this
      have h1 : (0 : Rat) ≤ -A.nd := by linarith
      have h2 : (0 : Int) ≤ (-A.nd).floor := by rw [Rat.le_floor_iff]; simpa using h1
      omega
    · exact_mod_cast Rat.floor_le A.nd
  · have := A.pos
    rw [A.hn]
    unfold truncInt at this ⊢
    split
    · rename_i hneg
      rw [if_pos hneg] at this
      have h1 : (0 : Rat) ≤ -A.nd := by linarith
      have h2 : (0 : Int) ≤ (-A.nd).floor := by rw [Rat.le_floor_iff]; simpa using h1
      omega
    · exact_mod_cast Rat.lt_floor_add_one A.nd

/-! ### violations, non-vacuity -/

/-- Two ions, three energies, no spin. -/
def plainFile : Str :=
  c!"  2  2  1  0\n 0.1 2 3\n 0.1\n  CAR \n name \n 1.0 -1.0 3 0.5 1.0\n -1 1 2\n 0 3 4\n 1 5 6\n" ++
  c!" 1.0 -1.0 3 0.5 1.0\n -1 11 12 13\n 0 14 15 16\n 1 17 18 19\n 1.0 -1.0 3 0.5 1.0\n -1 21 22 23\n 0 24 25 26\n 1 27 28 29\n"

/-- One ion with spin; the numbers of the last row of the total density of states are those of the header. -/
def spinFile : Str :=
  c!"  1  1  1  2\n 0.1 2 3\n 0.1\n  CAR \n name \n 2 -1 2 5 1\n 1 10 11 12 13\n 2 20 21 22 23\n" ++
  c!" 2 -1 2 5 1\n 1 1 2 3 4 5 6\n 2 7 8 9 10 11 12\n"

instance : DecidableEq Record := inferInstanceAs (DecidableEq (List (Str × List Rat)))

/-- The results of a file. -/
def results (r : Res Data) : Option (List Record × List (List Record)) := r.toOption.map fun d => (d.dos, d.pdos)

example : results (init none (some plainFile) false) = some
    ([[(c!"energy", [-1]), (c!"total", [1]), (c!"integrated", [2])], [(c!"energy", [0]), (c!"total", [3]), (c!"integrated", [4])],
      [(c!"energy", [1]), (c!"total", [5]), (c!"integrated", [6])]],
     [[[(c!"energy", [-1]), (c!"s", [11]), (c!"p", [12]), (c!"d", [13])], [(c!"energy", [0]), (c!"s", [14]), (c!"p", [15]), (c!"d", [16])],
       [(c!"energy", [1]), (c!"s", [17]), (c!"p", [18]), (c!"d", [19])]],
      [[(c!"energy", [-1]), (c!"s", [21]), (c!"p", [22]), (c!"d", [23])], [(c!"energy", [0]), (c!"s", [24]), (c!"p", [25]), (c!"d", [26])],
       [(c!"energy", [1]), (c!"s", [27]), (c!"p", [28]), (c!"d", [29])]]]) := by decide +kernel

/-- C37 is false with spin: the integrated density of states (12, 13 in the file) is reported as (11, 12), the `p` part (3, 4) as
(2, 3), the `d` part (5, 6) as (3, 4). -/
theorem C37_violation : results (init none (some spinFile) false) = some
    ([[(c!"energy", [1]), (c!"total", [10, 11]), (c!"integrated", [11, 12])], [(c!"energy", [2]), (c!"total", [20, 21]), (c!"integrated", [21, 22])]],
     [[[(c!"energy", [1]), (c!"s", [1, 2]), (c!"p", [2, 3]), (c!"d", [3, 4])], [(c!"energy", [2]), (c!"s", [7, 8]), (c!"p", [8, 9]), (c!"d", [9, 10])]]]) := by
  decide +kernel

/-- C39 is false for a file with one ion that ends early: it is accepted and fewer rows than announced are returned. -/
theorem C39_violation_short : results (init none (some (c!"1 1 1 0\n0\n0\nCAR\nname\n 2 -1 2 5 1\n 1 2 3\n 2 3 4\n 2 -1 2 5 1\n 1 5 6 7\n")) false) = some
    ([[(c!"energy", [1]), (c!"total", [2]), (c!"integrated", [3])], [(c!"energy", [2]), (c!"total", [3]), (c!"integrated", [4])]],
     [[[(c!"energy", [1]), (c!"s", [5]), (c!"p", [6]), (c!"d", [7])]]]) := by decide +kernel

/-- C39 is false if a row of the total density of states prints the numbers of the header: the rows behind it are taken for the
first block. -/
theorem C39_violation_header : results (init none (some (c!"1 1 1 2\n0\n0\nCAR\nname\n 2 -1 2 5 1\n 2 -1 2 5 1\n 2 3 4 5 6\n 7 8 9 5 6\n 1 5 6 7 8\n 1 5 6 7 8\n")) false) = some
    ([[(c!"energy", [2]), (c!"total", [-1, 2]), (c!"integrated", [2, 5])], [(c!"energy", [2]), (c!"total", [3, 4]), (c!"integrated", [4, 5])]],
     [[[(c!"energy", [2]), (c!"s", [3]), (c!"p", [4]), (c!"d", [5]), (c!"f", [6])], [(c!"energy", [7]), (c!"s", [8]), (c!"p", [9]), (c!"d", [5]), (c!"f", [6])]]]) := by
  decide +kernel

end Verif.Doscar
