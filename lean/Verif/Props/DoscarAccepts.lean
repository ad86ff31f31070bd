import Verif.Props.CountsDoscar
import Verif.Props.EigenvalAccepts
import Verif.Props.Exceptions
import Verif.Props.ExitCodesRead
/-! # C150: which DOSCAR files are accepted -/
set_option autoImplicit false
namespace Verif.DoscarFull
open Verif Verif.Utils
open Verif.Kpoints (idx toInt)
open Verif.Doscar (Dtype dtypesDos getNumSpin getDtypePdos unpack truncInt cartesianOf supported)
open Verif.Eigenval (Ints ints_many)
open Verif.EigenvalFull (IsNumber ok_toNum ok_lineToType)

/-! ### specification -/

/-- The line prints the numbers of the other line once more (NaN is not equal to itself). -/
def RepeatsLine (header l : Str) : Prop := List.Forall₂ (fun w v => ∃ x, x ≠ Num.nan ∧ Shows w x ∧ Shows v x) (words l) (words header)

/-- The line that prints the number of energies `n`: five numbers; the third, which is finite, without its fraction is `n`. -/
def EnergyLine (l : Str) (n : Int) : Prop :=
  ∃ (a b c d e : Str) (x : Rat), words l = [a, b, c, d, e] ∧ (∀ w ∈ words l, IsNumber w) ∧ Shows c (.fin x) ∧ n = truncInt x

/-- The first six lines: four integers, the first of them the number of ions; two lines that are not read; one word; any line; the numbers of energies. -/
def Head (lines : List Str) (ions n : Int) (header : Str) : Prop :=
  (∃ l0 a b c, lines[0]? = some l0 ∧ Ints l0 [ions, a, b, c]) ∧ (∃ l3, lines[3]? = some l3 ∧ (words l3).length = 1) ∧
    lines[5]? = some header ∧ EnergyLine header n

/-- The total density of states: the first `n` lines behind the header (for a negative `n` all but the last ones) are there, at least one, all with three
or all with five numbers. -/
def TotalRows (body : List Str) (n : Int) : Prop :=
  n ≤ body.length ∧ slice body 0 n ≠ [] ∧ ∃ c, (c = 3 ∨ c = 5) ∧ ∀ l ∈ slice body 0 n, (words l).length = c

/-- The lines of ion `k` if line `p` repeats the header: `body[start:start + n]` for `start = p + 1 + k (n + 1)`. -/
def ionLines (body : List Str) (n : Int) (p k : Nat) : List Str :=
  slice body ((p : Int) + 1 + k * (n + 1)) ((p : Int) + 1 + k * (n + 1) + n)

/-- The partial density of states: no line repeats the header; or there are ions, and all of them have the same number of lines, at least one, and
all these lines the same, known number of columns. -/
def PartialRows (nc : Bool) (body : List Str) (ions n : Int) (header : Str) : Prop :=
  (∀ l ∈ body, ¬ RepeatsLine header l) ∨
  ∃ (p : Nat) (l : Str), body[p]? = some l ∧ RepeatsLine header l ∧ (∀ q < p, ∀ l', body[q]? = some l' → ¬ RepeatsLine header l') ∧
    0 < ions ∧ ∃ m c, 0 < m ∧ c ∈ supported nc ∧ ∀ k : Nat, (k : Int) < ions →
      (ionLines body n p k).length = m ∧ ∀ l ∈ ionLines body n p k, (words l).length = c

/-- All of it. -/
def Acceptable (nc : Bool) (lines : List Str) : Prop :=
  ∃ ions n header, Head lines ions n header ∧ (∀ l ∈ lines.drop 6, ∀ w ∈ words l, IsNumber w) ∧ TotalRows (lines.drop 6) n ∧
    PartialRows nc (lines.drop 6) ions n header

/-! ### lines and their numbers -/

/-- The value is that of the line. -/
def Conv (l : Str) (v : OneOrMany Num) : Prop := lineToType toNum l = .ok v

theorem wrap_length {r : List Num} {s : List Num} : wrap r = .many s ↔ r = s ∧ s.length ≠ 1 := by
  constructor
  · intro h
    have := wrap_many h
    subst this
    refine ⟨rfl, fun h1 => ?_⟩
    obtain ⟨a, rfl⟩ := List.length_eq_one_iff.1 h1
    cases h
  · rintro ⟨rfl, h⟩
    match r, h with
    | [], _ => rfl
    | [_], h => simp at h
    | _ :: _ :: _, _ => rfl

theorem conv_len {l : Str} {v : OneOrMany Num} (h : Conv l v) (c : Nat) : lenOf v = .ok c ↔ (words l).length = c ∧ c ≠ 1 := by
  obtain ⟨r, hr, rfl⟩ := line_ok.1 h
  have := hr.length_eq
  rw [this]
  match r with
  | [] => simp [wrap, lenOf]; omega
  | [a] => simp [wrap, lenOf]; omega
  | a :: b :: t => simp [wrap, lenOf]; omega

theorem ok_asRows {ls : List Str} {vs : List (OneOrMany Num)} (h : List.Forall₂ Conv ls vs) {c : Nat} (hc : c ≠ 1) :
    Ok (asRows c vs) ↔ ∀ l ∈ ls, (words l).length = c := by
  induction h with
  | nil => simp [asRows, ok_ok]
  | @cons l v ls vs hl _ ih =>
    simp only [List.mem_cons, forall_eq_or_imp]
    rw [← ih]
    obtain ⟨r, hr, rfl⟩ := line_ok.1 hl
    have hlen := hr.length_eq
    rw [hlen]
    cases hw : wrap r with
    | one a =>
      have : r = [a] := by
        match r, hw with
        | [_], hw => cases hw; rfl
      subst this
      simp only [asRows, Ok]
      constructor
      · rintro ⟨_, h⟩; cases h
      · rintro ⟨h, _⟩; simp at h; omega
    | many s =>
      have := wrap_many hw
      subst this
      simp only [asRows]
      split
      · rename_i hc'
        rw [ok_bind_const (P := True) (fun _ _ => by simp [ok_ok]), and_true]
        simp [hc']
      · rename_i hc'
        simp [Ok, hc']

theorem conv_slice {ls : List Str} {vs : List (OneOrMany Num)} (h : List.Forall₂ Conv ls vs) (a b : Int) :
    List.Forall₂ Conv (slice ls a b) (slice vs a b) := by
  unfold slice
  rw [h.length_eq]
  exact List.forall₂_drop _ (List.forall₂_take _ h)

/-! ### the total density of states -/

theorem idxZ_ok {α : Type} (l : List α) (i : Int) : Ok (idxZ l i) ↔ -(l.length : Int) ≤ i ∧ i < l.length := by
  unfold idxZ Kpoints.pyIndex
  split
  · rename_i k hk
    rw [ok_idx]
    split at hk
    · split at hk <;> cases hk; omega
    · split at hk <;> cases hk; omega
  · rename_i hk
    constructor
    · rintro ⟨_, h⟩; cases h
    · intro h
      split at hk
      · split at hk
        · cases hk
        · omega
      · split at hk
        · cases hk
        · omega

theorem idxZ_mem {ls : List Str} {vs : List (OneOrMany Num)} (h : List.Forall₂ Conv ls vs) {n : Int} {v : OneOrMany Num}
    (hv : idxZ vs (n - 1) = .ok v) (hne : slice ls 0 n ≠ []) : ∃ l ∈ slice ls 0 n, Conv l v := by
  have hlen := h.length_eq
  have hr := idxZ_range hv
  have hs := slice_zero ls n
  have hp : 0 < (slice ls 0 n).length := List.length_pos_of_ne_nil hne
  rw [hs, List.length_take] at hp
  obtain ⟨k, hk, hlt⟩ : ∃ k, vs[k]? = some v ∧ k < (if n < 0 then ls.length - n.natAbs else n.toNat) := by
    unfold idxZ Kpoints.pyIndex at hv
    split at hv
    · rename_i k hk
      refine ⟨k, idx_eq.1 hv, ?_⟩
      split at hk
      · split at hk
        · cases hk
          split
          · omega
          · omega
        · cases hk
      · split at hk
        · cases hk
          split
          · rename_i hn
            rw [if_pos hn] at hp
            omega
          · rename_i hn
            rw [if_neg hn] at hp
            omega
        · cases hk
    · cases hv
  rcases forall2_get h k with ⟨a, b, h1, h2, h3⟩ | ⟨_, h2⟩
  · rw [h2] at hk; cases hk
    refine ⟨a, ?_, h3⟩
    rw [hs]
    exact List.mem_of_getElem? (i := k) (by rw [List.getElem?_take, if_pos hlt]; exact h1)
  · rw [h2] at hk; cases hk

theorem slice_ne_nil {ls : List Str} {vs : List (OneOrMany Num)} (h : List.Forall₂ Conv ls vs) (a b : Int) : slice ls a b = [] ↔ slice vs a b = [] := by
  have := (conv_slice h a b).length_eq
  rw [← List.length_eq_zero_iff, ← List.length_eq_zero_iff, this]

theorem ok_total {ls : List Str} {vs : List (OneOrMany Num)} (h : List.Forall₂ Conv ls vs) (n : Int) : Ok (totalDos vs n) ↔ TotalRows ls n := by
  have hlen := h.length_eq
  constructor
  · rintro ⟨dos, hd⟩
    obtain ⟨rows, count, d, h1, h2, h3, h4, ⟨x, h5⟩, -⟩ := total_ok hd
    have hc : count = 3 ∨ count = 5 := Doscar.dtypesDos_get h4 |>.imp And.left And.left
    have hr := idxZ_range h5
    have hok : Ok (asRows count (slice vs 0 n)) := ⟨rows, by rw [h1]; exact asRows_many h3⟩
    refine ⟨by omega, ?_, count, hc, (ok_asRows (conv_slice h 0 n) (by omega)).1 hok⟩
    rw [Ne, slice_ne_nil h, h1]
    simpa using h2
  · rintro ⟨hn, hne, c, hc, hall⟩
    have hp : 0 < (slice ls 0 n).length := List.length_pos_of_ne_nil hne
    have hs := slice_zero ls n
    rw [hs, List.length_take] at hp
    obtain ⟨v, hv⟩ := (idxZ_ok vs (n - 1)).2 (by split at hp <;> omega)
    obtain ⟨l, hl, hcv⟩ := idxZ_mem h hv hne
    have hlv : lenOf v = .ok c := (conv_len hcv c).2 ⟨hall l hl, by omega⟩
    obtain ⟨rows, hrows⟩ := (ok_asRows (conv_slice h 0 n) (by omega : c ≠ 1)).2 hall
    have hrne : rows ≠ [] := by
      rintro rfl
      have := (asRows_ok hrows).1
      rw [List.map_nil, ← slice_ne_nil h] at this
      exact hne this
    unfold totalDos
    rw [hv, Res.ok_bind, hlv, Res.ok_bind, hrows, Res.ok_bind]
    obtain ⟨d, hd⟩ : ∃ d, dtypesDos.get? c = some d := by rcases hc with rfl | rfl <;> exact ⟨_, rfl⟩
    simp only [hd]
    rw [if_neg hrne]
    exact ok_ok _

/-! ### the partial density of states -/

theorem repeats_iff {header l : Str} {hs r : List Num} (hh : List.Forall₂ Shows (words header) hs) (hr : List.Forall₂ Shows (words l) r) :
    RepeatsLine header l ↔ sameRow r hs = true := by
  unfold RepeatsLine
  generalize words header = a at hh
  generalize words l = b at hr
  induction hr generalizing a hs with
  | nil => cases hh <;> simp [sameRow]
  | @cons w x ws xs hw _ ih =>
    cases hh with
    | nil => simp [sameRow]
    | @cons v y vs ys hv hvs =>
      simp only [List.forall₂_cons, sameRow, Bool.and_eq_true, ih _ hvs]
      have : (∃ z, z ≠ Num.nan ∧ Shows w z ∧ Shows v z) ↔ x.same y = true := by
        constructor
        · rintro ⟨z, h0, h1, h2⟩
          rw [shows_det _ _ _ hw h1, shows_det _ _ _ hv h2]
          cases z <;> simp_all [Num.same]
        · intro h
          have hxy : x = y ∧ x ≠ .nan := by cases x <;> cases y <;> simp_all [Num.same]
          exact ⟨x, hxy.2, hw, hxy.1 ▸ hv⟩
      rw [this]

theorem repeats_conv {header l : Str} {hs : List Num} {v : OneOrMany Num} (hh : List.Forall₂ Shows (words header) hs) (h1 : hs.length ≠ 1) (hv : Conv l v) :
    RepeatsLine header l ↔ (match (generalizing := false) v with | .many y => sameRow y hs | .one _ => false) = true := by
  obtain ⟨r, hr, rfl⟩ := line_ok.1 hv
  rw [repeats_iff hh hr]
  cases hw : wrap r with
  | many s => rw [wrap_many hw]
  | one a =>
    have : r = [a] := by
      match r, hw with
      | [_], hw => cases hw; rfl
    subst this
    simp only [Bool.false_eq_true, iff_false, Bool.not_eq_true]
    match hs, h1 with
    | [], _ => rfl
    | [_], h1 => simp at h1
    | _ :: _ :: _, _ => simp [sameRow]

theorem indexOf_iff {header : Str} {hs : List Num} (hh : List.Forall₂ Shows (words header) hs) (h1 : hs.length ≠ 1) {ls : List Str}
    {vs : List (OneOrMany Num)} (h : List.Forall₂ Conv ls vs) :
    (indexOf hs vs = none ↔ ∀ l ∈ ls, ¬ RepeatsLine header l) ∧ ∀ p, indexOf hs vs = some p ↔
      ∃ l, ls[p]? = some l ∧ RepeatsLine header l ∧ ∀ q < p, ∀ l', ls[q]? = some l' → ¬ RepeatsLine header l' := by
  induction h with
  | nil => simp [indexOf]
  | @cons l v ls vs hl _ ih =>
    have key := repeats_conv hh h1 hl
    have e1 : RepeatsLine header l → indexOf hs (v :: vs) = some 0 := by
      intro h
      have := key.1 h
      cases v with
      | one _ => cases this
      | many y => simp only at this; simp [indexOf, this]
    have e2 : ¬ RepeatsLine header l → indexOf hs (v :: vs) = (indexOf hs vs).map (· + 1) := by
      intro h
      have := fun h' => h (key.2 h')
      cases v with
      | one _ => simp [indexOf]
      | many y => rw [indexOf]; exact if_neg this
    by_cases hR : RepeatsLine header l
    · rw [e1 hR]
      refine ⟨by simp [hR], fun p => ?_⟩
      constructor
      · intro hp; cases hp
        exact ⟨l, rfl, hR, fun q hq => by omega⟩
      · rintro ⟨l', _, _, h3⟩
        cases p with
        | zero => rfl
        | succ p => exact absurd hR (h3 0 (by omega) l rfl)
    · rw [e2 hR]
      refine ⟨by simp [hR, ih.1], fun p => ?_⟩
      rw [Option.map_eq_some_iff]
      constructor
      · rintro ⟨q, hq, rfl⟩
        obtain ⟨l', a1, a2, a3⟩ := (ih.2 q).1 hq
        refine ⟨l', a1, a2, fun j hj l'' hl'' => ?_⟩
        cases j with
        | zero => cases hl''; exact hR
        | succ j => exact a3 j (by omega) l'' hl''
      · rintro ⟨l', a1, a2, a3⟩
        cases p with
        | zero => cases a1; exact absurd a2 hR
        | succ p => exact ⟨p, (ih.2 p).2 ⟨l', a1, a2, fun q hq l'' hl'' => a3 (q + 1) (by omega) l'' hl''⟩, rfl⟩

theorem blocks_length (data : List (OneOrMany Num)) (n s : Int) (k : Nat) : (blocks data n s k).length = k := by
  induction k generalizing s with
  | zero => rfl
  | succ k ih => simp [blocks, ih]

theorem blocks_get (data : List (OneOrMany Num)) (n s : Int) (k i : Nat) (hi : i < k) :
    (blocks data n s k)[i]? = some (slice data (s + i * (n + 1)) (s + i * (n + 1) + n)) := by
  induction k generalizing s i with
  | zero => omega
  | succ k ih =>
    cases i with
    | zero => simp [blocks]
    | succ i =>
      simp only [blocks, List.getElem?_cons_succ]
      rw [ih _ _ (by omega)]
      have : s + (n + 1) + (i : Int) * (n + 1) = s + ((i + 1 : Nat) : Int) * (n + 1) := by push_cast; ring
      rw [this]

theorem ok_asBlocks (c m : Nat) (items : List (List (OneOrMany Num))) :
    Ok (asBlocks c m items) ↔ ∀ b ∈ items, b.length = m ∧ Ok (asRows c b) := by
  induction items with
  | nil => simp [asBlocks, ok_ok]
  | cons b bs ih =>
    simp only [List.mem_cons, forall_eq_or_imp]
    rw [← ih]
    rw [asBlocks]
    split
    · rename_i h
      rw [ok_bind_const (P := Ok (asBlocks c m bs))]
      · simp [h]
      · intro r _
        rw [ok_bind_const (P := True) (fun _ _ => by simp [ok_ok]), and_true]
    · rename_i h
      simp [Ok, h]

theorem ok_tables (c : Nat) (nc : Bool) : (Ok (getNumSpin c nc) ↔ c ∈ supported nc) ∧ (Ok (getDtypePdos c nc) ↔ c ∈ supported nc) := by
  rcases Doscar.C38_tables c nc with ⟨h, s, dt, h1, h2, _⟩ | ⟨h, h1, h2⟩
  · rw [h1, h2]; simp [ok_ok, h]
  · rw [h1, h2]; simp [Ok, h]

theorem one_unsupported (nc : Bool) : 1 ∉ supported nc := by cases nc <;> decide

theorem ok_partial {ls : List Str} {vs : List (OneOrMany Num)} (h : List.Forall₂ Conv ls vs) {header : Str} {hs : List Num}
    (hh : List.Forall₂ Shows (words header) hs) (h1 : hs.length ≠ 1) (nc : Bool) (n ions : Int) :
    Ok (partialDos nc hs vs n ions) ↔ PartialRows nc ls ions n header := by
  obtain ⟨i1, i2⟩ := indexOf_iff hh h1 h
  unfold partialDos PartialRows
  cases hi : indexOf hs vs with
  | none => exact ⟨fun _ => .inl (i1.1 hi), fun _ => ok_ok _⟩
  | some p =>
    obtain ⟨l, hl, hR, hfirst⟩ := (i2 p).1 hi
    have hno : ¬ ∀ l ∈ ls, ¬ RepeatsLine header l := fun hc => hc l (List.mem_of_getElem? hl) hR
    have huniq : ∀ p', (∃ l, ls[p']? = some l ∧ RepeatsLine header l ∧ ∀ q < p', ∀ l', ls[q]? = some l' → ¬ RepeatsLine header l') → p' = p := by
      intro p' hp'
      have := (i2 p').2 hp'
      rw [hi] at this
      exact (Option.some.inj this).symm
    simp only [hno, false_or]
    have hget : ∀ k : Nat, (k : Int) < ions → (blocks vs n (p + 1) ions.toNat)[k]? = some (slice vs ((p : Int) + 1 + k * (n + 1)) ((p : Int) + 1 + k * (n + 1) + n)) :=
      fun k hk => blocks_get vs n _ _ k (by omega)
    have hconv : ∀ k : Nat, List.Forall₂ Conv (ionLines ls n p k) (slice vs ((p : Int) + 1 + k * (n + 1)) ((p : Int) + 1 + k * (n + 1) + n)) :=
      fun k => conv_slice h _ _
    have hblen := blocks_length vs n (p + 1) ions.toNat
    generalize blocks vs n (p + 1) ions.toNat = items at hget hblen
    have hall : ∀ (P : List (OneOrMany Num) → Prop), (∀ b ∈ items, P b) ↔
        ∀ k : Nat, (k : Int) < ions → P (slice vs ((p : Int) + 1 + k * (n + 1)) ((p : Int) + 1 + k * (n + 1) + n)) := by
      intro P
      constructor
      · intro hb k hk
        exact hb _ (List.mem_of_getElem? (hget k hk))
      · intro hb b hm
        obtain ⟨k, hk, rfl⟩ := List.getElem_of_mem hm
        have := hget k (by omega)
        rw [List.getElem?_eq_getElem hk] at this
        rw [Option.some.inj this]
        exact hb k (by omega)
    -- with the position known
    suffices hs' : Ok (match items.getLast? with
        | none => (.raise .indexError : Res (List (List Record)))
        | some lastBlock => match lastBlock.getLast? with
          | none => .raise .indexError
          | some lastRow =>
            lenOf lastRow >>= fun count =>
            asBlocks count lastBlock.length items >>= fun bs =>
            getNumSpin count nc >>= fun s =>
            getDtypePdos count nc >>= fun d =>
            .ok (bs.map fun b => b.map (record s (d.tail.map Prod.fst)))) ↔
        (0 < ions ∧ ∃ m c, 0 < m ∧ c ∈ supported nc ∧ ∀ k : Nat, (k : Int) < ions →
          (ionLines ls n p k).length = m ∧ ∀ l ∈ ionLines ls n p k, (words l).length = c) by
      refine hs'.trans ⟨fun h => ⟨p, l, hl, hR, hfirst, h⟩, ?_⟩
      rintro ⟨p', l', a1, a2, a3, a4⟩
      have := huniq p' ⟨l', a1, a2, a3⟩
      subst this
      exact a4
    cases hlast : items.getLast? with
    | none =>
      rw [List.getLast?_eq_none_iff] at hlast
      subst hlast
      simp only [List.length_nil] at hblen
      constructor
      · rintro ⟨_, h⟩; cases h
      · rintro ⟨h, _⟩; omega
    | some lastBlock =>
      have hpos : 0 < ions := by
        have : 0 < items.length := by
          cases items with
          | nil => cases hlast
          | cons _ _ => simp
        omega
      obtain ⟨k0, hk0, hk0'⟩ : ∃ k0 : Nat, (k0 : Int) < ions ∧ lastBlock = slice vs ((p : Int) + 1 + k0 * (n + 1)) ((p : Int) + 1 + k0 * (n + 1) + n) := by
        obtain ⟨k, hk, he⟩ := List.getElem_of_mem (List.mem_of_getLast? hlast)
        have := hget k (by omega)
        rw [List.getElem?_eq_getElem hk, he] at this
        exact ⟨k, by omega, Option.some.inj this⟩
      have hlb := hconv k0
      rw [← hk0'] at hlb
      simp only
      cases hrow : lastBlock.getLast? with
      | none =>
        rw [List.getLast?_eq_none_iff] at hrow
        constructor
        · rintro ⟨_, h⟩; cases h
        · rintro ⟨_, m, c, hm, _, hk⟩
          have := (hk k0 hk0).1
          rw [hlb.length_eq, hrow] at this
          simp at this; omega
      | some lastRow =>
        simp only
        obtain ⟨lr, hlr, hcr⟩ : ∃ lr ∈ ionLines ls n p k0, Conv lr lastRow := by
          obtain ⟨j, hj, he⟩ := List.getElem_of_mem (List.mem_of_getLast? hrow)
          rcases forall2_get hlb j with ⟨a, b, q1, q2, q3⟩ | ⟨_, q2⟩
          · rw [List.getElem?_eq_getElem hj, he] at q2; cases q2
            exact ⟨a, List.mem_of_getElem? q1, q3⟩
          · rw [List.getElem?_eq_getElem hj] at q2; cases q2
        have hlpos : 0 < lastBlock.length := List.length_pos_of_mem (List.mem_of_getLast? hrow)
        rw [ok_bind]
        constructor
        · rintro ⟨c, hc, hrest⟩
          obtain ⟨bs, hbs, hrest⟩ := ok_bind.1 hrest
          obtain ⟨s, hs, hrest⟩ := ok_bind.1 hrest
          have hsup := (ok_tables c nc).1.1 ⟨s, hs⟩
          refine ⟨hpos, lastBlock.length, c, hlpos, hsup, ?_⟩
          have := (hall _).1 ((ok_asBlocks c lastBlock.length items).1 ⟨bs, hbs⟩)
          intro k hk
          obtain ⟨z1, z2⟩ := this k hk
          rw [(hconv k).length_eq]
          exact ⟨z1, (ok_asRows (hconv k) ((conv_len hcr c).1 hc).2).1 z2⟩
        · rintro ⟨_, m, c, hm, hc, hk⟩
          have hc1 : c ≠ 1 := fun h => one_unsupported nc (h ▸ hc)
          have hm' : lastBlock.length = m := by rw [← hlb.length_eq]; exact (hk k0 hk0).1
          obtain ⟨bs, hbs⟩ := (ok_asBlocks c lastBlock.length items).2 ((hall _).2 fun k hk' => by
            obtain ⟨z1, z2⟩ := hk k hk'
            rw [(hconv k).length_eq] at z1
            exact ⟨by omega, (ok_asRows (hconv k) hc1).2 z2⟩)
          obtain ⟨s, hs⟩ := (ok_tables c nc).1.2 hc
          obtain ⟨d, hd⟩ := (ok_tables c nc).2.2 hc
          refine ⟨c, (conv_len hcr c).2 ⟨(hk k0 hk0).2 lr hlr, hc1⟩, ?_⟩
          rw [hbs, Res.ok_bind, hs, Res.ok_bind, hd, Res.ok_bind]
          exact ok_ok _

/-! ### theorems -/

theorem ok_truncNum (x : Num) (n : Int) : truncNum x = .ok n ↔ ∃ q, x = .fin q ∧ n = truncInt q := by
  cases x with
  | fin q => simp [truncNum, eq_comm]
  | inf b => simp [truncNum]
  | nan => simp [truncNum]

theorem conv_all {ls : List Str} {vs : List (OneOrMany Num)} : Res.mapM' (lineToType toNum) ls = .ok vs ↔ List.Forall₂ Conv ls vs := Res.mapM'_eq_ok

theorem header_nums {l : Str} {xs : List Num} (h2 : xs.length ≠ 1) : lineToType toNum l = .ok (.many xs) ↔ List.Forall₂ Shows (words l) xs := by
  rw [line_ok]
  constructor
  · rintro ⟨r, hr, he⟩
    rw [wrap_many he.symm] at hr
    exact hr
  · intro h
    exact ⟨xs, h, (wrap_length.2 ⟨rfl, h2⟩).symm⟩

theorem number_of_shows {w : Str} {x : Num} (h : Shows w x) : IsNumber w := (ok_toNum w).1 ⟨x, (toNum_iff w x).2 h⟩

/-- C150: a DOSCAR is accepted if and only if its first six lines are a header, all lines behind it print numbers only, and these are a total and, if some
line repeats the header, a partial density of states. -/
theorem C150_accepted (nc : Bool) (lines : List Str) : (∃ d, fromList nc lines = .ok d) ↔ Acceptable nc lines := by
  constructor
  · rintro ⟨d, h⟩
    unfold fromList at h
    obtain ⟨l0, e0, h⟩ := Res.bind_eq_ok.1 h
    obtain ⟨v0, f0, h⟩ := Res.bind_eq_ok.1 h
    obtain ⟨h0, g0, h⟩ := Res.bind_eq_ok.1 h
    obtain ⟨l3, e3, h⟩ := Res.bind_eq_ok.1 h
    obtain ⟨coord, f3, h⟩ := Res.bind_eq_ok.1 h
    obtain ⟨l4, e4, h⟩ := Res.bind_eq_ok.1 h
    obtain ⟨l5, e5, h⟩ := Res.bind_eq_ok.1 h
    obtain ⟨v5, f5, h⟩ := Res.bind_eq_ok.1 h
    obtain ⟨h5, g5, h⟩ := Res.bind_eq_ok.1 h
    rw [(unpack_ok g0).1] at f0
    rw [(unpack_ok g5).1] at f5
    have k0 := (unpack_ok g0).2
    have k5 := (unpack_ok g5).2
    match h0, k0, h5, k5, f0, f5, h with
    | [ions, a, b, c], _, [emax, emin, nd, efermi, weight], _, f0, f5, h =>
      simp only at h
      obtain ⟨n, hn, h⟩ := Res.bind_eq_ok.1 h
      obtain ⟨data, hd, h⟩ := Res.bind_eq_ok.1 h
      obtain ⟨dos, hdos, h⟩ := Res.bind_eq_ok.1 h
      obtain ⟨pdos, hpdos, h⟩ := Res.bind_eq_ok.1 h
      obtain ⟨cart, hcart, h⟩ := Res.bind_eq_ok.1 h
      have hconv := conv_all.1 hd
      have hnums := (header_nums (by simp)).1 f5
      refine ⟨ions, n, l5, ⟨⟨l0, a, b, c, idx_eq.1 e0, ints_many f0⟩, ⟨l3, idx_eq.1 e3, ?_⟩, idx_eq.1 e5, ?_⟩, ?_, (ok_total hconv n).1 ⟨_, hdos⟩,
        (ok_partial hconv hnums (by simp) nc n ions).1 ⟨_, hpdos⟩⟩
      · unfold lineToType at f3
        cases hm : Res.mapM' Res.ok (words l3) with
        | ok as =>
          rw [hm] at f3
          rw [← Kpoints.mapM'_length hm]
          match as with
          | [] => cases f3; cases hcart
          | [_] => rfl
          | _ :: _ :: _ => cases f3; cases hcart
        | exit c => rw [hm] at f3; cases f3
        | raise x => rw [hm] at f3; cases f3
      · obtain ⟨q, hq, rfl⟩ := (ok_truncNum _ _).1 hn
        subst hq
        match hw : words l5, hnums with
        | [a, b, c, d, e], .cons s1 (.cons s2 (.cons s3 (.cons s4 (.cons s5 .nil)))) =>
          refine ⟨a, b, c, d, e, q, hw, ?_, s3, rfl⟩
          rw [hw]
          intro w hw'
          simp only [List.mem_cons, List.not_mem_nil, or_false] at hw'
          rcases hw' with rfl | rfl | rfl | rfl | rfl
          · exact number_of_shows s1
          · exact number_of_shows s2
          · exact number_of_shows s3
          · exact number_of_shows s4
          · exact number_of_shows s5
      · intro l hl
        have := (ok_mapM'.1 ⟨_, hd⟩) l hl
        rw [ok_lineToType] at this
        simpa only [ok_toNum] using this
  · rintro ⟨ions, n, l5, ⟨⟨l0, a, b, c, e0, f0⟩, ⟨l3, e3, f3⟩, e5, x1, x2, x3, x4, x5, q, hw5, hnum5, hq, rfl⟩, hnums, htot, hpart⟩
    have f0' : lineToType toInt l0 = .ok (.many [ions, a, b, c]) := by
      unfold lineToType
      rw [(Chgcar.ints_iff _ _).2 f0]
    obtain ⟨w, hw⟩ := List.length_eq_one_iff.1 f3
    have f3' : lineToType Res.ok l3 = .ok (.one w) := by unfold lineToType; rw [hw]; rfl
    obtain ⟨l4, e4⟩ : ∃ l4, lines[4]? = some l4 := by
      have := (List.getElem?_eq_some_iff.1 e5).1
      exact ⟨lines[4]'(by omega), List.getElem?_eq_getElem (by omega)⟩
    have num : ∀ w ∈ words l5, ∃ x, Shows w x := fun w hw => by
      obtain ⟨x, hx⟩ := (ok_toNum w).2 (hnum5 w hw)
      exact ⟨x, (toNum_iff w x).1 hx⟩
    obtain ⟨y1, s1⟩ := num x1 (by simp [hw5])
    obtain ⟨y2, s2⟩ := num x2 (by simp [hw5])
    obtain ⟨y4, s4⟩ := num x4 (by simp [hw5])
    obtain ⟨y5, s5⟩ := num x5 (by simp [hw5])
    have hsh : List.Forall₂ Shows (words l5) [y1, y2, .fin q, y4, y5] := by
      rw [hw5]
      exact .cons s1 (.cons s2 (.cons hq (.cons s4 (.cons s5 .nil))))
    have f5' := (header_nums (xs := [y1, y2, .fin q, y4, y5]) (by simp)).2 hsh
    obtain ⟨data, hd⟩ := (ok_mapM' (f := lineToType toNum) (l := lines.drop 6)).2 (fun l hl => (ok_lineToType _ l).2 (by
      simpa only [ok_toNum] using hnums l hl))
    have hconv := conv_all.1 hd
    obtain ⟨dos, hdos⟩ := (ok_total hconv _).2 htot
    obtain ⟨pdos, hpdos⟩ := (ok_partial hconv hsh (by simp) nc _ ions).2 hpart
    have u0 : unpack 4 (OneOrMany.many [ions, a, b, c]) = .ok [ions, a, b, c] := rfl
    have u5 : unpack 5 (OneOrMany.many [y1, y2, Num.fin q, y4, y5]) = .ok [y1, y2, .fin q, y4, y5] := rfl
    have hcart : ∃ c, cartesianOf (.one w) = .ok c := ⟨_, rfl⟩
    obtain ⟨cart, hcart⟩ := hcart
    unfold fromList
    rw [idx_eq.2 e0, Res.ok_bind, f0', Res.ok_bind, u0, Res.ok_bind, idx_eq.2 e3, Res.ok_bind, f3', Res.ok_bind, idx_eq.2 e4, Res.ok_bind, idx_eq.2 e5, Res.ok_bind,
      f5', Res.ok_bind, u5, Res.ok_bind]
    have ht : truncNum (.fin q) = .ok (truncInt q) := rfl
    simp only [ht, Res.ok_bind]
    rw [hd, Res.ok_bind, hdos, Res.ok_bind, hpdos, Res.ok_bind, hcart, Res.ok_bind]
    exact ok_ok _

theorem slice_at {α : Type} (l : List α) (a m : Nat) : slice l (a : Int) ((a : Int) + m) = (l.drop a).take m := by
  unfold slice bound
  rw [if_neg (by omega), if_neg (by omega)]
  simp only [Int.toNat_natCast]
  rw [show ((a : Int) + (m : Int)).toNat = a + m by omega, List.drop_take]
  apply List.ext_getElem?
  intro i
  simp only [List.getElem?_take, List.getElem?_drop]
  by_cases h : a + i < l.length
  · have h1 : min a l.length = a := by omega
    rw [h1]
    by_cases hi : i < m
    · rw [if_pos (by omega), if_pos hi]
    · rw [if_neg (by omega), if_neg hi]
  · have h2 : l[a + i]? = none := List.getElem?_eq_none (by omega)
    have h3 : l[min a l.length + i]? = none ∨ ¬ i < min (a + m) l.length - min a l.length := by
      by_cases hi : i < min (a + m) l.length - min a l.length
      · left; exact List.getElem?_eq_none (by omega)
      · exact .inr hi
    rw [h2, ite_self]
    rcases h3 with h3 | h3
    · rw [h3, ite_self]
    · rw [if_neg h3]

/-- C150 in plain words for a positive number of energies, the only ones VASP prints: the total is the first `n` lines, and the block of ion `k` the (at
most) `n` lines from line `p + 1 + k (n + 1)` on. No number of energies is refused. -/
theorem C150_positive (body : List Str) (n : Int) : (TotalRows body n → n ≠ 0) ∧ (0 < n →
    (TotalRows body n ↔ n.toNat ≤ body.length ∧ ∃ c, (c = 3 ∨ c = 5) ∧ ∀ (i : Nat) (l : Str), i < n.toNat → body[i]? = some l → (words l).length = c) ∧
    ∀ p k, ionLines body n p k = (body.drop (p + 1 + k * (n.toNat + 1))).take n.toNat) := by
  refine ⟨?_, fun hn => ⟨?_, fun p k => ?_⟩⟩
  · rintro ⟨_, h, _⟩ rfl
    apply h
    rw [slice_zero]; simp
  · unfold TotalRows
    rw [slice_zero, if_neg (by omega)]
    constructor
    · rintro ⟨h1, -, c, hc, h⟩
      exact ⟨by omega, c, hc, fun i l hi hl => h l (List.mem_of_getElem? (i := i) (by rw [List.getElem?_take, if_pos hi]; exact hl))⟩
    · rintro ⟨h1, c, hc, h⟩
      refine ⟨by omega, fun h0 => ?_, c, hc, fun l hl => ?_⟩
      · have := congrArg List.length h0
        rw [List.length_take, List.length_nil] at this
        omega
      · obtain ⟨i, hi⟩ := List.mem_iff_getElem?.1 hl
        rw [List.getElem?_take] at hi
        split at hi
        · exact h i l ‹_› hi
        · cases hi
  · unfold ionLines
    have := slice_at body (p + 1 + k * (n.toNat + 1)) n.toNat
    rw [← this]
    congr 1 <;> push_cast <;> rw [Int.toNat_of_nonneg (by omega)]

theorem fromList_exits (nc : Bool) (lines : List Str) : ExitsIn (fun _ => False) (fromList nc lines) := by
  have i1 : ∀ (l : List Str) i, ExitsIn (fun _ => False) (Kpoints.idx l i) := ExitCodes.idx'
  have i2 : ∀ (l : List (OneOrMany Num)) i, ExitsIn (fun _ => False) (idxZ l i) := by
    intro l i; unfold idxZ; have := @ExitCodes.idx' (fun _ => False) (OneOrMany Num) l; split <;> first | exact this _ | exact ExitsIn.raise _
  have j1 : ∀ w, ExitsIn (fun _ => False) (toNum w) := by clear i1 i2; intro w; unfold toNum; exits
  have j2 : ∀ w, ExitsIn (fun _ => False) (Kpoints.toInt w) := ExitCodes.toInt'
  have i3 : ∀ l, ExitsIn (fun _ => False) (lineToType toNum l) := ExitCodes.lineToType' j1
  have i4 : ∀ l, ExitsIn (fun _ => False) (lineToType Kpoints.toInt l) := ExitCodes.lineToType' j2
  have i5 : ∀ l, ExitsIn (fun _ => False) (lineToType (α := Str) Res.ok l) := ExitCodes.lineToType' fun _ => ExitsIn.ok _
  have i6 : ∀ n (x : OneOrMany Int), ExitsIn (fun _ => False) (Doscar.unpack n x) := ExitCodes.unpack'
  have i7 : ∀ n (x : OneOrMany Num), ExitsIn (fun _ => False) (Doscar.unpack n x) := ExitCodes.unpack'
  have i8 : ∀ x, ExitsIn (fun _ => False) (Doscar.cartesianOf x) := ExitCodes.cartesian'
  have i9 : ∀ x, ExitsIn (fun _ => False) (truncNum x) := by clear i1 i2 i3 i4 i5 i6 i7 i8 j1 j2; intro x; unfold truncNum; exits
  have k1 : ∀ x, ExitsIn (fun _ => False) (lenOf x) := by clear i1 i2 i3 i4 i5 i6 i7 i8 i9 j1 j2; intro x; unfold lenOf; exits
  have k2 : ∀ n l, ExitsIn (fun _ => False) (asRows n l) := by
    clear i1 i2 i3 i4 i5 i6 i7 i8 i9 j1 j2 k1
    intro n l
    induction l with
    | nil => exact ExitsIn.ok _
    | cons a l ih => cases a <;> unfold asRows <;> exits
  have k3 : ∀ n m l, ExitsIn (fun _ => False) (asBlocks n m l) := by
    clear i1 i2 i3 i4 i5 i6 i7 i8 i9 j1 j2 k1
    intro n m l
    induction l with
    | nil => exact ExitsIn.ok _
    | cons a l ih =>
      have h := k2 n a
      rw [asBlocks]; exits
  have k4 : ∀ n b, ExitsIn (fun _ => False) (getNumSpin n b) := by
    clear i1 i2 i3 i4 i5 i6 i7 i8 i9 j1 j2 k1 k2 k3; intro n b; unfold getNumSpin; exits
  have k5 : ∀ n b, ExitsIn (fun _ => False) (getDtypePdos n b) := by
    clear i1 i2 i3 i4 i5 i6 i7 i8 i9 j1 j2 k1 k2 k3 k4; intro n b; unfold getDtypePdos; exits
  have m1 : ∀ d n, ExitsIn (fun _ => False) (totalDos d n) := by
    clear i1 i3 i4 i5 i6 i7 i8 i9 j1 j2 k3 k4 k5; intro d n; unfold totalDos; exits
  have m2 : ∀ a b c d e, ExitsIn (fun _ => False) (partialDos a b c d e) := by
    clear i1 i2 i3 i4 i5 i6 i7 i8 i9 j1 j2 k2 m1; intro a b c d e; unfold partialDos; dsimp only; exits
  have m3 : ∀ l : List Str, ExitsIn (fun _ => False) (Res.mapM' (lineToType toNum) l) := ExitsIn.mapM' i3
  clear i2 k1 k2 k3 k4 k5 j1 j2
  unfold fromList; exits

/-- C150: every other DOSCAR raises one of six exceptions; there are no exit codes. -/
theorem C150_refused (nc : Bool) (text : Str) :
    (∃ e ∈ [Exc.indexError, .valueError, .typeError, .keyError, .attributeError, .overflowError], init none (some text) nc = .raise e) ↔
    ¬ Acceptable nc (readlines text) := by
  rw [← C150_accepted]
  have hi : init none (some text) nc = fromList nc (readlines text) := rfl
  constructor
  · rintro ⟨e, _, h⟩ ⟨d, h'⟩
    rw [hi, h'] at h; cases h
  · intro h
    cases hr : init none (some text) nc with
    | ok d => exact absurd ⟨d, hi ▸ hr⟩ h
    | exit c => exact absurd hr (ExitCodes.ExitsIn.never (fromList_exits _ _) c)
    | raise e => exact ⟨e, (Exceptions.C127_doscar nc).1.only text e hr (fun h0 => (Exceptions.C127_doscar nc).2 text (h0 ▸ hr)), rfl⟩

/-- C150: from a path and from a handler the same. -/
theorem C150_sources (nc : Bool) (text : Str) (p : Option (Option Str)) :
    init p (some text) nc = fromList nc (readlines text) ∧ init (some (some text)) none nc = fromList nc (readlines text) := ⟨rfl, rfl⟩

/-! ### the hypotheses are met -/

/-- One ion; the second line of its block is missing, which goes unnoticed. -/
def odd : Str := c!"1 1 1 0\n0\n0\nCAR\nname\n 2 -1 2 5 1\n 1 2 inf\n 2 3 4\n 2 -1 2 5 1\n 1 5 6 7\n"

example : Acceptable false (readlines odd) := (C150_accepted false _).1 (by
  obtain ⟨d, hd⟩ : ∃ d, (fromList false (readlines odd) >>= fun d => .ok d.metadata.nDos) = .ok d := ⟨2, by decide +kernel⟩
  obtain ⟨d, h1, _⟩ := Res.bind_eq_ok.1 hd
  exact ⟨d, h1⟩)

/-- Refused: a second ion without lines, a total with four columns, a blank line in the total, not enough lines, no energies, a block with six columns. -/
example : ∀ t ∈ [c!"2 1 1 0\n0\n0\nCAR\nname\n 2 -1 2 5 1\n 1 2 3\n 2 3 4\n 2 -1 2 5 1\n 1 5 6 7\n", c!"1 1 1 0\n0\n0\nCAR\nname\n 2 -1 2 5 1\n 1 2 3 4\n 2 3 4 4\n",
    c!"1 1 1 0\n0\n0\nCAR\nname\n 2 -1 2 5 1\n 1 2 3\n\n 2 3 4\n", c!"1 1 1 0\n0\n0\nCAR\nname\n 2 -1 2 5 1\n 1 2 3\n",
    c!"1 1 1 0\n0\n0\nCAR\nname\n 2 -1 0 5 1\n 1 2 3\n", c!"1 1 1 0\n0\n0\nCAR\nname\n 2 -1 1 5 1\n 1 2 3\n 2 -1 1 5 1\n 1 5 6 7 5 6\n"], ¬ Acceptable false (readlines t) := by
  intro t ht
  simp only [List.mem_cons, List.not_mem_nil, or_false] at ht
  rcases ht with rfl | rfl | rfl | rfl | rfl | rfl
  · exact (C150_refused false _).1 ⟨.indexError, by decide, by decide +kernel⟩
  · exact (C150_refused false _).1 ⟨.keyError, by decide, by decide +kernel⟩
  · exact (C150_refused false _).1 ⟨.valueError, by decide, by decide +kernel⟩
  · exact (C150_refused false _).1 ⟨.indexError, by decide, by decide +kernel⟩
  · exact (C150_refused false _).1 ⟨.indexError, by decide, by decide +kernel⟩
  · exact (C150_refused false _).1 ⟨.valueError, by decide, by decide +kernel⟩

end Verif.DoscarFull
