import Verif.Props.PoscarAccepts
import Verif.Props.CountsKpoints
import Verif.Props.KpointsRound
import Verif.Props.ExitCodes
/-! # C152: which KPOINTS files are accepted -/
set_option autoImplicit false
namespace Verif.Kpoints.Accepts
open Verif
open Verif.Poscar.Accepts (IsNum ThreeNumbers ok_toFloat)

/-! ### specification -/

/-- The first character that is not white space is the letter, in lower or upper case. -/
def FirstLetter (l : Str) (c : Char) : Prop := ∃ d r, strip l = d :: r ∧ lowerC d = c

/-- A line of a point: three numbers, and a fourth word must be a number. -/
def PointLine (l : Str) : Prop := ThreeNumbers l ∧ ∀ w, (words l)[3]? = some w → IsNum w

/-- A line of a tetrahedron: five integers. -/
def TetraLine (l : Str) : Prop := (words l).length = 5 ∧ ∀ w ∈ words l, IsInt w

/-- Behind the points, on line `p`: nothing, a line that is not blank and does not begin with t, or one that begins with t, below which there is nothing, or a
line of an integer and a number and as many lines of tetrahedra. -/
def TetraAt (L : List Str) (p : Nat) : Prop :=
  ∀ l, L[p]? = some l → ∃ c, FirstLetter l c ∧ (c = 't' → ∀ first, L[p + 1]? = some first →
    ∃ w v r n, words first = w :: v :: r ∧ pyInt w = some n ∧ IsNum v ∧ ∀ k : Nat, (k : Int) < n → ∃ t, L[p + 2 + k]? = some t ∧ TetraLine t)

/-- Explicit points. -/
def Explicit (L : List Str) (n : Nat) (c : Char) : Prop :=
  c ≠ 'k' ∧ c ≠ 'c' ∧ (∀ k < n, ∃ l, L[3 + k]? = some l ∧ PointLine l) ∧ TetraAt L (3 + n)

/-- A grid: integers, and if there is exactly one more line, numbers on it; or three vectors and a shift. -/
def Automatic (L : List Str) (c : Char) : Prop :=
  (c = 'g' ∨ c = 'm') ∧ (∃ l, L[3]? = some l ∧ ∀ w ∈ words l, IsInt w) ∧ (L.length = 5 → ∀ l, L[4]? = some l → ∀ w ∈ words l, IsNum w) ∨
  c = 'r' ∧ ∀ k ∈ [3, 4, 5, 6], ∃ l, L[k]? = some l ∧ ∀ w ∈ words l, IsNum w

/-- Lines: the fourth line begins with r or d; the first three words of the lines below are numbers, unless the line is a mere newline. -/
def LineMode (L : List Str) : Prop :=
  ∃ l w r d s, L[3]? = some l ∧ words l = w :: r ∧ w = d :: s ∧ (lowerC d = 'r' ∨ lowerC d = 'd') ∧
    ∀ l ∈ L.drop 4, l = ['\n'] ∨ ∀ w ∈ (words l).take 3, IsNum w

/-- All of it. -/
def Acceptable (L : List Str) : Prop :=
  ∃ l1 w r n l2 c, L[1]? = some l1 ∧ words l1 = w :: r ∧ pyInt w = some n ∧ L[2]? = some l2 ∧ FirstLetter l2 c ∧
    if c = 'l' then LineMode L else if 0 < n then Explicit L n.toNat c else Automatic L c

/-! ### steps -/

theorem idx_cons {α : Type} {l : List α} {a : α} : idx l 0 = .ok a ↔ ∃ r, l = a :: r := by
  rw [idx_eq]
  cases l with
  | nil => simp
  | cons x xs => simp [eq_comm]

theorem toInt_iff (w : Str) (n : Int) : toInt w = .ok n ↔ pyInt w = some n := by
  unfold toInt; cases pyInt w <;> simp

theorem ok_parsePoint (l : Str) : Ok (parsePoint l) ↔ PointLine l := by
  unfold parsePoint PointLine
  constructor
  · intro h
    obtain ⟨a, h0, h⟩ := ok_bind.1 h
    obtain ⟨x, hx, h⟩ := ok_bind.1 h
    obtain ⟨b, h1, h⟩ := ok_bind.1 h
    obtain ⟨y, hy, h⟩ := ok_bind.1 h
    obtain ⟨c, h2, h⟩ := ok_bind.1 h
    obtain ⟨z, hz, h⟩ := ok_bind.1 h
    obtain ⟨r, hr⟩ : ∃ r, words l = a :: b :: c :: r := by
      rw [idx_eq] at h0 h1 h2
      match hw : words l with
      | [] => rw [hw] at h0; cases h0
      | [_] => rw [hw] at h1; cases h1
      | [_, _] => rw [hw] at h2; cases h2
      | _ :: _ :: _ :: r => rw [hw] at h0 h1 h2; cases h0; cases h1; cases h2; exact ⟨r, rfl⟩
    refine ⟨⟨a, b, c, r, hr, (ok_toFloat _).1 ⟨x, hx⟩, (ok_toFloat _).1 ⟨y, hy⟩, (ok_toFloat _).1 ⟨z, hz⟩⟩, fun w hw => ?_⟩
    have hl := (List.getElem?_eq_some_iff.1 hw).1
    rw [if_pos hl] at h
    obtain ⟨d, h3, h⟩ := ok_bind.1 h
    obtain ⟨v, hv, _⟩ := ok_bind.1 h
    rw [idx_eq, hw] at h3
    cases h3
    exact (ok_toFloat _).1 ⟨v, hv⟩
  · rintro ⟨⟨a, b, c, r, hr, ha, hb, hc⟩, h4⟩
    obtain ⟨x, hx⟩ := (ok_toFloat _).2 ha
    obtain ⟨y, hy⟩ := (ok_toFloat _).2 hb
    obtain ⟨z, hz⟩ := (ok_toFloat _).2 hc
    have i0 : idx (words l) 0 = .ok a := by rw [hr]; rfl
    have i1 : idx (words l) 1 = .ok b := by rw [hr]; rfl
    have i2 : idx (words l) 2 = .ok c := by rw [hr]; rfl
    dsimp only
    rw [i0, Res.ok_bind, hx, Res.ok_bind, i1, Res.ok_bind, hy, Res.ok_bind, i2, Res.ok_bind, hz, Res.ok_bind]
    split
    · rename_i hl
      obtain ⟨w, hw⟩ := (ok_toFloat _).2 (h4 _ (List.getElem?_eq_getElem hl))
      rw [idx_eq.2 (List.getElem?_eq_getElem hl), Res.ok_bind, hw, Res.ok_bind]
      exact ok_ok _
    · exact ok_ok _

theorem ok_tetraLine (l : Str) : Ok (parseTetraLine l) ↔ TetraLine l := by
  unfold parseTetraLine TetraLine
  by_cases h : (words l).length = 5
  · rw [if_pos h, ok_mapM']; simp [h, ok_toInt]
  · rw [if_neg h]; simp [h, Ok]

theorem ok_idx_bind {α β : Type} (L : List α) (i : Nat) (f : α → Res β) : Ok (idx L i >>= f) ↔ ∃ l, L[i]? = some l ∧ Ok (f l) := by
  rw [ok_bind]; simp only [idx_eq]

theorem ok_parseTetra (L : List Str) (p : Nat) : Ok (parseTetra L p) ↔ TetraAt L p := by
  unfold parseTetra TetraAt
  by_cases hp : p < L.length
  · rw [if_pos hp, ok_idx_bind]
    have hl := List.getElem?_eq_getElem hp
    simp only [hl, Option.some.injEq, exists_eq_left', forall_eq']
    have first : ∀ c : Char, Ok (if lowerC c = 't' then
        if p + 1 < L.length then
          idx L (p + 1) >>= fun first =>
          idx (words first) 0 >>= fun n => toInt n >>= fun num =>
          idx (words first) 1 >>= fun v => toFloat v >>= fun vol =>
          Res.mapM' (fun t => idx L (t + (p + 2)) >>= parseTetraLine) (List.range num.toNat) >>= fun ts =>
          .ok ((some ts, some vol) : Option (List (List Int)) × Option Rat)
        else .ok (some [], Option.none)
      else .ok (Option.none, Option.none)) ↔
      (lowerC c = 't' → ∀ first, L[p + 1]? = some first →
        ∃ w v r n, words first = w :: v :: r ∧ pyInt w = some n ∧ IsNum v ∧ ∀ k : Nat, (k : Int) < n → ∃ t, L[p + 2 + k]? = some t ∧ TetraLine t) := by
      intro c
      by_cases ht : lowerC c = 't'
      · rw [if_pos ht]
        simp only [ht, forall_const]
        by_cases h1 : p + 1 < L.length
        · rw [if_pos h1, ok_idx_bind]
          have hf := List.getElem?_eq_getElem h1
          simp only [hf, Option.some.injEq, exists_eq_left', forall_eq']
          generalize L[p + 1] = f
          have lines : ∀ num : Int, Ok (Res.mapM' (fun t => idx L (t + (p + 2)) >>= parseTetraLine) (List.range num.toNat)) ↔
              ∀ k : Nat, (k : Int) < num → ∃ t, L[p + 2 + k]? = some t ∧ TetraLine t := by
            intro num
            rw [ok_mapM']
            simp only [ok_idx_bind, ok_tetraLine, List.mem_range]
            constructor
            · intro h k hk
              have := h k (by omega)
              rwa [show k + (p + 2) = p + 2 + k by omega] at this
            · intro h k hk
              rw [show k + (p + 2) = p + 2 + k by omega]
              exact h k (by omega)
          constructor
          · intro h
            obtain ⟨w, hw, h⟩ := ok_bind.1 h
            obtain ⟨num, hn, h⟩ := ok_bind.1 h
            obtain ⟨v, hv, h⟩ := ok_bind.1 h
            obtain ⟨vol, hvol, h⟩ := ok_bind.1 h
            obtain ⟨ts, hts, _⟩ := ok_bind.1 h
            obtain ⟨r, hr⟩ := idx_cons.1 hw
            obtain ⟨r', hr'⟩ : ∃ r', r = v :: r' := by
              rw [idx_eq, hr] at hv
              cases r with
              | nil => cases hv
              | cons x xs => cases hv; exact ⟨xs, rfl⟩
            subst hr'
            exact ⟨w, v, r', num, hr, (toInt_iff _ _).1 hn, (ok_toFloat _).1 ⟨vol, hvol⟩, (lines num).1 ⟨ts, hts⟩⟩
          · rintro ⟨w, v, r, n, hw, hn, hv, hk⟩
            obtain ⟨vol, hvol⟩ := (ok_toFloat _).2 hv
            obtain ⟨ts, hts⟩ := (lines n).2 hk
            refine ok_bind.2 ⟨w, idx_cons.2 ⟨_, hw⟩, ok_bind.2 ⟨n, (toInt_iff _ _).2 hn, ok_bind.2 ⟨v, by rw [hw]; rfl, ok_bind.2 ⟨vol, hvol,
              ok_bind.2 ⟨ts, hts, ok_ok _⟩⟩⟩⟩⟩
        · rw [if_neg h1]
          simp only [ok_ok, true_iff]
          intro f hf
          exact absurd (List.getElem?_eq_some_iff.1 hf).1 h1
      · rw [if_neg ht]
        simp [ht, ok_ok]
    rw [ok_bind]
    simp only [first]
    constructor
    · rintro ⟨c, hc, h⟩
      obtain ⟨r, hr⟩ := idx_cons.1 hc
      exact ⟨lowerC c, ⟨c, r, hr, rfl⟩, h⟩
    · rintro ⟨_, ⟨c, r, hr, rfl⟩, h⟩
      exact ⟨c, idx_cons.2 ⟨r, hr⟩, h⟩
  · rw [if_neg hp]
    simp only [ok_ok, true_iff]
    intro l hl
    exact absurd (List.getElem?_eq_some_iff.1 hl).1 hp

theorem mapM'_mem_out {α β : Type} {f : α → Res β} {l : List α} {r : List β} (h : Res.mapM' f l = .ok r) (b : β) (hb : b ∈ r) : ∃ a ∈ l, f a = .ok b := by
  have := Res.mapM'_eq_ok.1 h
  clear h
  induction this with
  | nil => simp at hb
  | @cons x y _ _ hxy _ ih =>
    rcases List.mem_cons.1 hb with rfl | hb
    · exact ⟨_, by simp, hxy⟩
    · obtain ⟨a, ha, h⟩ := ih hb
      exact ⟨a, by simp [ha], h⟩

theorem tetra_five {L : List Str} {p : Nat} {t : Option (List (List Int)) × Option Rat} (h : parseTetra L p = .ok t) :
    ∀ rows, t.1 = some rows → ∀ r ∈ rows, r.length = 5 := by
  unfold parseTetra at h
  split at h
  · obtain ⟨l, _, h⟩ := Res.bind_eq_ok.1 h
    obtain ⟨c, _, h⟩ := Res.bind_eq_ok.1 h
    split at h
    · split at h
      · obtain ⟨f, _, h⟩ := Res.bind_eq_ok.1 h
        obtain ⟨_, _, h⟩ := Res.bind_eq_ok.1 h
        obtain ⟨_, _, h⟩ := Res.bind_eq_ok.1 h
        obtain ⟨_, _, h⟩ := Res.bind_eq_ok.1 h
        obtain ⟨_, _, h⟩ := Res.bind_eq_ok.1 h
        obtain ⟨ts, hts, h⟩ := Res.bind_eq_ok.1 h
        cases h
        intro rows hr r hm
        cases hr
        obtain ⟨k, _, hk⟩ := mapM'_mem_out hts r hm
        obtain ⟨l, _, hk⟩ := Res.bind_eq_ok.1 hk
        unfold parseTetraLine at hk
        split at hk
        · rename_i h5
          rw [← h5]
          exact Kpoints.mapM'_length hk
        · cases hk
      · cases h
        intro rows hr r hm
        cases hr; cases hm
    · cases h; intro rows hr; cases hr
  · cases h; intro rows hr; cases hr

/-- Reading and checking. -/
def Fine (r : Res Parsed) : Prop := ∃ p, r = .ok p ∧ validate p.toEntries = .ok ()

theorem fine_iff {r : Res Parsed} (h : ∀ p, r = .ok p → Sound p) : Fine r ↔ Ok r := by
  constructor
  · rintro ⟨p, hp, _⟩; exact ⟨p, hp⟩
  · rintro ⟨p, hp⟩; exact ⟨p, hp, validate_holds (holds_toEntries p) (h p hp)⟩

theorem fine_explicit (L : List Str) (p : Parsed) (hm : p.mode = c!"explicit") (hc : p.centering = none) (c : Char) :
    Fine (parseExplicit L p c) ↔ Explicit L p.num.toNat (lowerC c) := by
  rw [fine_iff]
  · unfold parseExplicit Explicit
    by_cases h : lowerC c = 'k' ∨ lowerC c = 'c'
    · rw [if_pos h]
      constructor
      · rintro ⟨_, q⟩; cases q
      · rintro ⟨h1, h2, _⟩; exact absurd h (by tauto)
    · rw [if_neg h, ok_bind_const (P := TetraAt L (3 + p.num.toNat)), ok_mapM']
      · simp only [ok_idx_bind, ok_parsePoint, List.mem_range, Nat.add_comm _ 3]
        tauto
      · intro ps _
        rw [ok_bind_const (P := True) (fun _ _ => by simp [ok_ok]), and_true, ok_parseTetra, Nat.add_comm]
  · intro q hq
    unfold parseExplicit at hq
    split at hq
    · cases hq
    · obtain ⟨ps, _, hq⟩ := Res.bind_eq_ok.1 hq
      obtain ⟨t, ht, hq⟩ := Res.bind_eq_ok.1 hq
      cases hq
      exact ⟨.inr (.inl (by simp)), tetra_five ht, by simp [hc], .inl hm⟩

theorem fine_automatic (L : List Str) (p : Parsed) (hm : p.mode = c!"automatic") (hd : p.divisions = none) (hp : p.points = none) (hv : p.vectors = none)
    (ht : p.tetra = none) (c : Char) : Fine (parseAutomatic L p c) ↔ Automatic L (lowerC c) := by
  unfold parseAutomatic Automatic
  by_cases ha : lowerC c = 'a'
  · rw [if_pos ha, ha]
    constructor
    · rintro ⟨_, q, _⟩; cases q
    · intro q; exact absurd q (by simp)
  rw [if_neg ha]
  by_cases hg : lowerC c = 'g' ∨ lowerC c = 'm'
  · rw [if_pos hg, fine_iff]
    · have hr : lowerC c ≠ 'r' := by rcases hg with h | h <;> rw [h] <;> decide
      simp only [hg, hr, true_and, false_and, or_false]
      have shifts : Ok (if L.length = 5 then idx L 4 >>= fun l4 => Res.mapM' toFloat (words l4) >>= fun s => Res.ok (some s) else .ok p.shifts) ↔
          (L.length = 5 → ∀ l, L[4]? = some l → ∀ w ∈ words l, IsNum w) := by
        by_cases h5 : L.length = 5
        · rw [if_pos h5, ok_idx_bind]
          simp only [h5, forall_const]
          have h4 : L[4]? = some (L[4]'(by omega)) := List.getElem?_eq_getElem _
          simp only [h4, Option.some.injEq, exists_eq_left', forall_eq']
          rw [ok_bind_const (P := True) (fun _ _ => by simp [ok_ok]), and_true, ok_mapM']
          simp only [ok_toFloat]
        · rw [if_neg h5]; simp [h5, ok_ok]
      rw [ok_idx_bind, ← shifts]
      have step : ∀ l3 : Str, Ok (Res.mapM' toInt (words l3) >>= fun div =>
          (if L.length = 5 then idx L 4 >>= fun l4 => Res.mapM' toFloat (words l4) >>= fun s => Res.ok (some s) else .ok p.shifts) >>= fun shifts =>
          .ok { p with centering := some (if lowerC c = 'g' then c!"Gamma" else c!"Monkhorst-Pack"), divisions := some div, shifts := shifts }) ↔
          (∀ w ∈ words l3, IsInt w) ∧
          Ok (if L.length = 5 then idx L 4 >>= fun l4 => Res.mapM' toFloat (words l4) >>= fun s => Res.ok (some s) else .ok p.shifts) := by
        intro l3
        rw [ok_bind_const (P := Ok (if L.length = 5 then idx L 4 >>= fun l4 => Res.mapM' toFloat (words l4) >>= fun s => Res.ok (some s) else .ok p.shifts)),
          ok_mapM']
        · simp only [ok_toInt]
        · intro div _
          rw [ok_bind_const (P := True) (fun _ _ => by simp [ok_ok]), and_true]
      simp only [step]
      constructor
      · rintro ⟨l, h1, h2, h3⟩; exact ⟨⟨l, h1, h2⟩, h3⟩
      · rintro ⟨⟨l, h1, h2⟩, h3⟩; exact ⟨l, h1, h2, h3⟩
    · intro q hq
      obtain ⟨_, _, hq⟩ := Res.bind_eq_ok.1 hq
      obtain ⟨_, _, hq⟩ := Res.bind_eq_ok.1 hq
      obtain ⟨_, _, hq⟩ := Res.bind_eq_ok.1 hq
      cases hq
      refine ⟨.inl (by simp), by simp [ht], ?_, .inr (.inl hm)⟩
      intro x hx
      by_cases h : lowerC c = 'g'
      · simp [h] at hx; exact .inl hx.symm
      · simp [h] at hx; exact .inr (.inl hx.symm)
  rw [if_neg hg]
  simp only [hg, false_and, false_or]
  by_cases hr : lowerC c = 'r'
  · rw [if_pos hr, fine_iff]
    · simp only [hr, true_and]
      have row : ∀ k, Ok (idx L k >>= fun l => Res.mapM' toFloat (words l)) ↔ ∃ l, L[k]? = some l ∧ ∀ w ∈ words l, IsNum w := by
        intro k
        rw [ok_idx_bind]
        simp only [ok_mapM', ok_toFloat]
      rw [ok_bind_const (P := Ok (idx L 6 >>= fun l => Res.mapM' toFloat (words l))), ok_mapM', row]
      · simp only [row]
        simp only [List.mem_cons, List.not_mem_nil, or_false, forall_eq_or_imp, forall_eq]
        tauto
      · intro _ _
        rw [ok_idx_bind, ok_idx_bind]
        have : ∀ (l : Str) (gv : List (List Rat)), Ok (Res.mapM' toFloat (words l) >>= fun s =>
            Res.ok { p with centering := some c!"Reciprocal", vectors := some gv, shifts := some s }) ↔ Ok (Res.mapM' toFloat (words l)) := by
          intro l gv
          rw [ok_bind_const (P := True) (fun _ _ => by simp [ok_ok]), and_true]
        simp only [this]
    · intro q hq
      obtain ⟨_, _, hq⟩ := Res.bind_eq_ok.1 hq
      obtain ⟨_, _, hq⟩ := Res.bind_eq_ok.1 hq
      obtain ⟨_, _, hq⟩ := Res.bind_eq_ok.1 hq
      cases hq
      exact ⟨.inr (.inr (by simp)), by simp [ht], by simp, .inr (.inl hm)⟩
  rw [if_neg hr]
  simp only [hr, false_and, iff_false]
  rintro ⟨q, hq, hval⟩
  split at hq
  · cases hq
  · cases hq
    have : validate p.toEntries = .exit 206 := by
      unfold Parsed.toEntries
      rw [hd, hp, hv]; rfl
    rw [this] at hval
    cases hval

theorem fine_line (L : List Str) (p : Parsed) (hm : p.mode = c!"line") (hc : p.centering = none) (ht : p.tetra = none) :
    Fine (parseLineMode L p) ↔ LineMode L := by
  rw [fine_iff]
  · unfold parseLineMode LineMode
    rw [ok_idx_bind]
    have point : ∀ l, Ok (parseLinePoint l) ↔ l = ['\n'] ∨ ∀ w ∈ (words l).take 3, IsNum w := by
      intro l
      unfold parseLinePoint
      by_cases h : l = ['\n']
      · rw [if_pos h]; simp [h, ok_ok]
      · rw [if_neg h, ok_bind_const (P := True) (fun _ _ => by simp [ok_ok]), and_true, ok_mapM']
        simp only [ok_toFloat, h, false_or]
    have tail : ∀ d : Char, Ok (if lowerC d = 'r' ∨ lowerC d = 'd' then
        Res.mapM' parseLinePoint (L.drop 4) >>= fun pss => Res.ok { p with points := some pss.flatten } else .exit 200) ↔
        (lowerC d = 'r' ∨ lowerC d = 'd') ∧ ∀ l ∈ L.drop 4, l = ['\n'] ∨ ∀ w ∈ (words l).take 3, IsNum w := by
      intro d
      by_cases h : lowerC d = 'r' ∨ lowerC d = 'd'
      · rw [if_pos h, ok_bind_const (P := True) (fun _ _ => by simp [ok_ok]), and_true, ok_mapM']
        simp only [point, h, true_and]
      · rw [if_neg h]; simp [h, Ok]
    constructor
    · rintro ⟨l, h1, h⟩
      obtain ⟨w, h2, h⟩ := ok_bind.1 h
      obtain ⟨d, h3, h⟩ := ok_bind.1 h
      obtain ⟨r, hr⟩ := idx_cons.1 h2
      obtain ⟨s, hs⟩ := idx_cons.1 h3
      obtain ⟨q1, q2⟩ := (tail d).1 h
      exact ⟨l, w, r, d, s, h1, hr, hs, q1, q2⟩
    · rintro ⟨l, w, r, d, s, h1, h2, h3, q1, q2⟩
      exact ⟨l, h1, ok_bind.2 ⟨w, idx_cons.2 ⟨r, h2⟩, ok_bind.2 ⟨d, idx_cons.2 ⟨s, h3⟩, (tail d).2 ⟨q1, q2⟩⟩⟩⟩
  · intro q hq
    unfold parseLineMode at hq
    obtain ⟨_, _, hq⟩ := Res.bind_eq_ok.1 hq
    obtain ⟨_, _, hq⟩ := Res.bind_eq_ok.1 hq
    obtain ⟨_, _, hq⟩ := Res.bind_eq_ok.1 hq
    split at hq
    · obtain ⟨_, _, hq⟩ := Res.bind_eq_ok.1 hq
      cases hq
      exact ⟨.inr (.inl (by simp)), by simp [ht], by simp [hc], .inr (.inr hm)⟩
    · cases hq

/-! ### everything -/

theorem fine_parse (L : List Str) : Fine (parse L) ↔ Acceptable L := by
  have modes : ∀ (cm : Str) (num : Int) (d : Char),
      Fine ((if !decide (num ≤ 0) && !decide (lowerC d = 'l') then parseExplicit L
          { comment := cm, num := num, mode := if decide (lowerC d = 'l') then c!"line" else if decide (num ≤ 0) then c!"automatic" else c!"explicit" } d
          else .ok { comment := cm, num := num, mode := if decide (lowerC d = 'l') then c!"line" else if decide (num ≤ 0) then c!"automatic" else c!"explicit" }) >>= fun p =>
        (if decide (num ≤ 0) then parseAutomatic L p d else .ok p) >>= fun p =>
        if decide (lowerC d = 'l') then parseLineMode L p else .ok p) ↔
      if lowerC d = 'l' then LineMode L else if 0 < num then Explicit L num.toNat (lowerC d) else Automatic L (lowerC d) := by
    intro cm num d
    have ok_id : ∀ r : Res Parsed, (r >>= fun p => Res.ok p) = r := by intro r; cases r <;> rfl
    by_cases hl : lowerC d = 'l'
    · by_cases hn : num ≤ 0
      · simp only [hl, hn, decide_true, Bool.not_true, Bool.and_false, if_true, Res.ok_bind, if_false, Bool.false_eq_true]
        have : ∀ p, parseAutomatic L p d = .ok p := by
          intro p; unfold parseAutomatic; rw [hl]; simp
        rw [this, Res.ok_bind]
        exact fine_line L _ rfl rfl rfl
      · simp only [hl, hn, decide_true, decide_false, Bool.not_true, Bool.and_false, if_true, Res.ok_bind, if_false, Bool.false_eq_true]
        exact fine_line L _ rfl rfl rfl
    · by_cases hn : num ≤ 0
      · simp only [hl, hn, decide_true, decide_false, Bool.not_true, Bool.false_and, if_true, Res.ok_bind, if_false, Bool.false_eq_true, ok_id]
        rw [if_neg (by omega)]
        exact fine_automatic L _ rfl rfl rfl rfl rfl d
      · simp only [hl, hn, decide_false, Bool.not_false, Bool.and_true, if_true, Res.ok_bind, if_false, Bool.false_eq_true, ok_id]
        rw [if_pos (by omega)]
        exact fine_explicit L _ rfl rfl d
  unfold Acceptable
  constructor
  · rintro ⟨p, h, hval⟩
    unfold parse at h
    obtain ⟨l0, _, h⟩ := Res.bind_eq_ok.1 h
    obtain ⟨l1, h1, h⟩ := Res.bind_eq_ok.1 h
    obtain ⟨w, hw, h⟩ := Res.bind_eq_ok.1 h
    obtain ⟨n, hn, h⟩ := Res.bind_eq_ok.1 h
    obtain ⟨l2, h2, h⟩ := Res.bind_eq_ok.1 h
    obtain ⟨d, hd, h⟩ := Res.bind_eq_ok.1 h
    obtain ⟨r, hr⟩ := idx_cons.1 hw
    obtain ⟨s, hs⟩ := idx_cons.1 hd
    exact ⟨l1, w, r, n, l2, lowerC d, idx_eq.1 h1, hr, (toInt_iff _ _).1 hn, idx_eq.1 h2, ⟨d, s, hs, rfl⟩, (modes _ n d).1 ⟨p, h, hval⟩⟩
  · rintro ⟨l1, w, r, n, l2, _, h1, hw, hn, h2, ⟨d, s, hs, rfl⟩, h⟩
    obtain ⟨l0, h0⟩ : ∃ l0, L[0]? = some l0 := by
      cases L with
      | nil => cases h1
      | cons x xs => exact ⟨x, rfl⟩
    obtain ⟨p, hp, hval⟩ := (modes (strip (l0.filter (· != '#'))) n d).2 h
    refine ⟨p, ?_, hval⟩
    unfold parse
    rw [idx_eq.2 h0, Res.ok_bind, idx_eq.2 h1, Res.ok_bind, idx_cons.2 ⟨r, hw⟩, Res.ok_bind, (toInt_iff _ _).2 hn, Res.ok_bind, idx_eq.2 h2, Res.ok_bind,
      idx_cons.2 ⟨s, hs⟩, Res.ok_bind]
    exact hp

/-- C152: exactly the acceptable texts give an object. -/
theorem C152_accepted (text : Str) : (∃ e, init { handler := some text } = .ok e) ↔ Acceptable (readlines text) := by
  rw [← fine_parse]
  simp only [init_text]
  constructor
  · rintro ⟨_, p, h, rfl, hv⟩; exact ⟨p, h, hv⟩
  · rintro ⟨p, h, hv⟩; exact ⟨_, p, h, rfl, hv⟩

/-- `Sound` but for the first field. -/
structure Half (p : Parsed) : Prop where
  tetra : ∀ rows, p.tetra = some rows → ∀ r ∈ rows, r.length = 5
  centering : ∀ c, p.centering = some c → c = c!"Gamma" ∨ c = c!"Monkhorst-Pack" ∨ c = c!"Reciprocal"
  mode : p.mode = c!"explicit" ∨ p.mode = c!"automatic" ∨ p.mode = c!"line"

theorem half_explicit {L : List Str} {p q : Parsed} {c : Char} (hp : Half p) (h : parseExplicit L p c = .ok q) : Half q := by
  unfold parseExplicit at h
  split at h
  · cases h
  · obtain ⟨ps, _, h⟩ := Res.bind_eq_ok.1 h
    obtain ⟨t, ht, h⟩ := Res.bind_eq_ok.1 h
    cases h
    exact ⟨tetra_five ht, hp.centering, hp.mode⟩

theorem half_automatic {L : List Str} {p q : Parsed} {c : Char} (hp : Half p) (h : parseAutomatic L p c = .ok q) : Half q := by
  unfold parseAutomatic at h
  split at h
  · cases h
  split at h
  · rename_i hg
    obtain ⟨_, _, h⟩ := Res.bind_eq_ok.1 h
    obtain ⟨_, _, h⟩ := Res.bind_eq_ok.1 h
    obtain ⟨_, _, h⟩ := Res.bind_eq_ok.1 h
    cases h
    refine ⟨hp.tetra, ?_, hp.mode⟩
    intro x hx
    by_cases h : lowerC c = 'g'
    · simp [h] at hx; exact .inl hx.symm
    · simp [h] at hx; exact .inr (.inl hx.symm)
  split at h
  · obtain ⟨_, _, h⟩ := Res.bind_eq_ok.1 h
    obtain ⟨_, _, h⟩ := Res.bind_eq_ok.1 h
    obtain ⟨_, _, h⟩ := Res.bind_eq_ok.1 h
    cases h
    exact ⟨hp.tetra, by simp, hp.mode⟩
  split at h
  · cases h
  · cases h; exact hp

theorem half_line {L : List Str} {p q : Parsed} (hp : Half p) (h : parseLineMode L p = .ok q) : Half q := by
  unfold parseLineMode at h
  obtain ⟨_, _, h⟩ := Res.bind_eq_ok.1 h
  obtain ⟨_, _, h⟩ := Res.bind_eq_ok.1 h
  obtain ⟨_, _, h⟩ := Res.bind_eq_ok.1 h
  split at h
  · obtain ⟨_, _, h⟩ := Res.bind_eq_ok.1 h
    cases h
    exact ⟨hp.tetra, hp.centering, hp.mode⟩
  · cases h

theorem exit_206 {L : List Str} {p : Parsed} {c : Nat} (h : parse L = .ok p) (hv : validate p.toEntries = .exit c) : c = 206 := by
  have hp : Half p := by
    unfold parse at h
    obtain ⟨l0, _, h⟩ := Res.bind_eq_ok.1 h
    obtain ⟨l1, h1, h⟩ := Res.bind_eq_ok.1 h
    obtain ⟨w, hw, h⟩ := Res.bind_eq_ok.1 h
    obtain ⟨n, hn, h⟩ := Res.bind_eq_ok.1 h
    obtain ⟨l2, h2, h⟩ := Res.bind_eq_ok.1 h
    obtain ⟨d, hd, h⟩ := Res.bind_eq_ok.1 h
    dsimp only at h
    obtain ⟨p1, e1, h⟩ := Res.bind_eq_ok.1 h
    obtain ⟨p2, e2, h⟩ := Res.bind_eq_ok.1 h
    have h0 : ∀ cm, Half { comment := cm, num := n, mode := if decide (lowerC d = 'l') = true then c!"line" else if decide (n ≤ 0) = true then c!"automatic" else c!"explicit" } := by
      intro cm
      refine ⟨by simp, by simp, ?_⟩
      dsimp only
      split
      · exact .inr (.inr rfl)
      · split
        · exact .inr (.inl rfl)
        · exact .inl rfl
    have q1 : Half p1 := by
      split at e1
      · exact half_explicit (h0 _) e1
      · cases e1; exact h0 _
    have q2 : Half p2 := by
      split at e2
      · exact half_automatic q1 e2
      · cases e2; exact q1
    split at h
    · exact half_line q2 h
    · cases h; exact q2
  by_cases hne : p.divisions ≠ none ∨ p.points ≠ none ∨ p.vectors ≠ none
  · rw [validate_holds (holds_toEntries p) ⟨hne, hp.tetra, hp.centering, hp.mode⟩] at hv
    cases hv
  · push Not at hne
    have : validate p.toEntries = .exit 206 := by
      unfold Parsed.toEntries
      rw [hne.1, hne.2.1, hne.2.2]; rfl
    rw [this] at hv
    cases hv; rfl

/-- C152: other texts end with one of five exit codes or one of two exceptions (or have an infinite number or NaN, which the model does not describe). -/
theorem C152_refused (text : Str) :
    ¬ Acceptable (readlines text) ↔ (∃ c ∈ [200, 201, 202, 203, 206], init { handler := some text } = .exit c) ∨
      ∃ e ∈ [Exc.outOfModel, .indexError, .valueError], init { handler := some text } = .raise e := by
  rw [← C152_accepted]
  constructor
  · intro h
    cases hr : init { handler := some text } with
    | ok e => exact absurd ⟨e, hr⟩ h
    | exit c =>
      left
      refine ⟨c, ?_, rfl⟩
      have hi : init { handler := some text } = (parse (readlines text) >>= fun p => validate p.toEntries >>= fun _ => .ok p.toEntries) := by
        show (if false = true then _ else _) = _
        rw [if_neg (by decide)]
        unfold load fromFile fromList
        simp only [Option.isSome, Bool.or_true, if_true]
        cases parse (readlines text) <;> rfl
      rw [hi] at hr
      cases hp : parse (readlines text) with
      | ok p =>
        rw [hp, Res.ok_bind] at hr
        have h206 : validate p.toEntries = .exit c := by
          cases hv : validate p.toEntries with
          | ok _ => rw [hv] at hr; cases hr
          | exit k => rw [hv] at hr; cases hr; rfl
          | raise e => rw [hv] at hr; cases hr
        have : c = 206 := exit_206 hp h206
        subst this; decide
      | exit k =>
        rw [hp] at hr
        cases hr
        have := (ExitCodes.kpoints_parse (readlines text)).of c hp
        simp only [List.mem_cons, List.not_mem_nil, or_false] at this ⊢
        tauto
      | raise e => rw [hp] at hr; cases hr
    | raise e =>
      right
      refine ⟨e, ?_, rfl⟩
      by_cases h0 : e = .outOfModel
      · rw [h0]; decide
      · exact List.mem_cons_of_mem _ (Exceptions.C127_kpoints.only text e hr h0)
  · rintro (⟨c, _, h⟩ | ⟨e, _, h⟩) ⟨d, hd⟩
    · rw [h] at hd; cases hd
    · rw [h] at hd; cases hd

/-! ### the hypotheses are met -/

/-- Accepted: two points of which one has no weight, with tetrahedra; a grid with a shift; vectors; lines with a coordinate missing; no tetrahedra, and a
word behind the points. -/
example : ∀ t ∈ [c!"c\n2\nRec\n0 0 0\n0 0 .5 2 x\n Tet\n1 0.5\n1 1 1 2 2\n", c!"c\n0\nMonk\n2 2\n0 .5 0", c!"\n-1\nrec\n1 0 0\n0 1 0\n0 0 1\n0 0 0\n",
    c!"c\n0\nLine\nrec\n0 0 0\n\n.5\n", c!"c\n1\nx\n0 0 0\nend\n"], Acceptable (readlines t) := by
  have key : ∀ t : Str, (init { handler := some t }).isOk = true → Acceptable (readlines t) := by
    intro t h
    refine (C152_accepted t).1 ?_
    cases hr : init { handler := some t } with
    | ok e => exact ⟨e, rfl⟩
    | exit c => rw [hr] at h; cases h
    | raise e => rw [hr] at h; cases h
  intro t ht
  simp only [List.mem_cons, List.not_mem_nil, or_false] at ht
  rcases ht with rfl | rfl | rfl | rfl | rfl <;> exact key _ (by decide +kernel)

/-- Refused: a point too few, a blank line behind the points, four numbers for a tetrahedron, an unknown letter with zero points, cartesian points. -/
example : ∀ t ∈ [c!"c\n2\nRec\n0 0 0\n", c!"c\n1\nRec\n0 0 0\n\n", c!"c\n1\nRec\n0 0 0\nT\n1 1\n1 1 1 1\n", c!"c\n0\nx\n1 1 1\n", c!"c\n1\nCart\n0 0 0\n"],
    ¬ Acceptable (readlines t) := by
  intro t ht
  simp only [List.mem_cons, List.not_mem_nil, or_false] at ht
  rcases ht with rfl | rfl | rfl | rfl | rfl
  · exact (C152_refused _).2 (.inr ⟨.indexError, by decide, by decide +kernel⟩)
  · exact (C152_refused _).2 (.inr ⟨.indexError, by decide, by decide +kernel⟩)
  · exact (C152_refused _).2 (.inl ⟨201, by decide, by decide +kernel⟩)
  · exact (C152_refused _).2 (.inl ⟨206, by decide, by decide +kernel⟩)
  · exact (C152_refused _).2 (.inl ⟨200, by decide, by decide +kernel⟩)

end Verif.Kpoints.Accepts
