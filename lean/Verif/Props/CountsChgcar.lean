import Verif.Model.ChgcarFull
import Verif.Lemmas.Agree
import Verif.Props.CountsDoscar
import Verif.Props.DamagedText
import Verif.Props.CutChgcar
/-! C124, C125 for CHGCAR: impossible numbers of grid points; numbers printed as infinite or not a number; cells without volume (C41). -/
set_option autoImplicit false

namespace Verif.NpText
open Verif Verif.Utils

/-! ### `np.fromstring` -/

theorem prefix_trans {p q s : Str} (h : startsWith p q = true) (h2 : startsWith q s = true) : startsWith p s = true := by
  rw [startsWith_iff] at h h2 ⊢
  exact h.trans h2

theorem strtodX_plain {s : Str} (h : special s = false) : strtodX s = (strtod s).map fun p => (.fin p.1, p.2) := by
  unfold special at h
  simp only [Bool.or_eq_false_iff] at h
  unfold strtodX
  have h3 : startsWith c!"infinity" (lower (takeSign s).2) = false := by
    cases hb : startsWith c!"infinity" (lower (takeSign s).2) with
    | false => rfl
    | true => rw [prefix_trans (p := c!"inf") (by decide) hb] at h; exact absurd h.2 (by decide)
  dsimp only
  rw [h.1, h.2, h3]
  rfl

/-- Where the first model describes the reading, the second one reads the same. -/
theorem loopX_eq : ∀ (n : Nat) (s : Str) (p : List Rat × Str), loop n s = .ok p → loopX n s = (p.1.map .fin, p.2)
  | 0, s, p, h => by cases h; rfl
  | n + 1, s, p, h => by
    simp only [loop] at h
    split at h
    · cases h
    · rename_i hs
      simp only [loopX]
      rw [strtodX_plain (by simpa using hs)]
      cases hst : strtod (s.dropWhile cSpace) with
      | none => rw [hst] at h; cases h; rfl
      | some q =>
        obtain ⟨x, r⟩ := q
        rw [hst] at h
        cases r with
        | nil => cases h; rfl
        | cons c r =>
          simp only at h
          simp only [Option.map_some]
          split at h
          · rename_i hc
            obtain ⟨q, hq, h⟩ := Res.bind_eq_ok.1 h
            cases h
            rw [if_pos hc, loopX_eq n _ q hq]
            rfl
          · rename_i hc
            cases h
            rw [if_neg hc]
            rfl

theorem fromString_agree (s : Str) : ∀ xs, fromString s = .ok xs → fromStringX s = xs.map .fin := by
  intro xs h
  unfold fromString at h
  obtain ⟨p, hp, h⟩ := Res.bind_eq_ok.1 h
  cases h
  unfold fromStringX
  rw [loopX_eq _ _ _ hp]

theorem lower_append (a b : Str) : lower (a ++ b) = lower a ++ lower b := by simp [lower]

theorem startsWith_self (a b : Str) : startsWith a (a ++ b) = true := by
  rw [startsWith_iff]; exact List.prefix_append _ _

theorem lower_length (a : Str) : (lower a).length = a.length := by simp [lower]

theorem lower_space {c : Char} (h : isSpace c = true) : lowerC c = c := by
  have hl := lowerC_toNat c
  have : ¬ (65 ≤ c.toNat ∧ c.toNat ≤ 90) := by
    simp only [isSpace, Bool.or_eq_true, Bool.and_eq_true, decide_eq_true_eq, beq_iff_eq] at h
    omega
  unfold lowerC
  rw [if_neg]
  simpa using this

/-- A complete word that Python's `float()` reads is read by `np.fromstring` as the same number. -/
theorem strtodX_complete {w r : Str} {x : Num} (hf : Free isSpace w) (hne : w ≠ []) (hu : '_' ∉ w) (h : Shows w x)
    (hr : ∀ c, r.head? = some c → isSpace c = true) : strtodX (w ++ r) = some (x, r) := by
  have hs : strip w = w := strip_eq_self ⟨fun c hc => hf c (List.mem_of_mem_head? hc), fun c hc => hf c (List.mem_of_getLast? hc)⟩
  have hts := takeSign_append (a := w) (r := r) (.inl hne)
  cases h with
  | fin d hd =>
    have hst := (strtod_iff hf hu d.toRat).1 (by unfold pyFloatRat; rw [hd])
    have hc := strtod_complete (stop_rest hr).1 hst
    rw [strtodX_plain (special_false hc), hc]
    rfl
  | inf neg hi =>
    unfold pyFloat at hi
    rw [hs] at hi
    dsimp only at hi
    split at hi
    · rename_i hl
      cases hi
      unfold strtodX
      rw [hts]
      dsimp only
      rw [lower_append]
      rcases hl with hl | hl
      · have hlen : (takeSign w).2.length = 3 := by rw [← lower_length, hl]; rfl
        rw [hl]
        have n1 : startsWith c!"nan" (c!"inf" ++ lower r) = false := rfl
        have n2 : startsWith c!"infinity" (c!"inf" ++ lower r) = false := by
          cases r with
          | nil => rfl
          | cons c cs =>
            have : lowerC c ≠ 'i' := by
              rw [lower_space (hr c rfl)]
              rintro rfl
              exact absurd (hr _ rfl) (by decide)
            simp [startsWith, lower, this.symm]
        have e : ((takeSign w).2 ++ r).drop 3 = r := by
          rw [List.drop_append_of_le_length (by omega), List.drop_eq_nil_of_le (by omega)]; rfl
        rw [n1, n2, startsWith_self, e]
        simp
      · have hlen : (takeSign w).2.length = 8 := by rw [← lower_length, hl]; rfl
        rw [hl]
        have n1 : startsWith c!"nan" (c!"infinity" ++ lower r) = false := rfl
        have e : ((takeSign w).2 ++ r).drop 8 = r := by
          rw [List.drop_append_of_le_length (by omega), List.drop_eq_nil_of_le (by omega)]; rfl
        rw [n1, startsWith_self, e]
        simp
    · split at hi
      · cases hi
      · cases hd : parseDec (takeSign w).1 (takeSign w).2 <;> rw [hd] at hi <;> cases hi
  | nan hn =>
    unfold pyFloat at hn
    rw [hs] at hn
    dsimp only at hn
    split at hn
    · cases hn
    · split at hn
      · rename_i hl
        unfold strtodX
        rw [hts]
        dsimp only
        rw [lower_append]
        have hlen : (takeSign w).2.length = 3 := by rw [← lower_length, hl]; rfl
        rw [hl, startsWith_self, List.drop_append_of_le_length (by omega), List.drop_eq_nil_of_le (by omega)]
        have : skipParen ([] ++ r) = r := by
          cases r with
          | nil => rfl
          | cons c cs =>
            have : c ≠ '(' := by
              rintro rfl
              exact absurd (hr _ rfl) (by decide)
            unfold skipParen
            simp [this]
        rw [this]
        simp
      · cases hd : parseDec (takeSign w).1 (takeSign w).2 <;> rw [hd] at hn <;> cases hn

/-- A text of complete numbers, `nan` and `inf` among them, is read to its end. -/
theorem loopX_words : ∀ (ws : List Str) (s : Str) (n : Nat) (xs : List Num), PlainSpace s → s.length < n → words s = ws →
    List.Forall₂ (fun w x => Shows w x ∧ '_' ∉ w) ws xs → loopX n s = (xs, []) := by
  intro ws
  induction ws with
  | nil =>
    intro s n xs hp hn hw hx
    cases hx
    obtain ⟨m, rfl⟩ : ∃ m, n = m + 1 := ⟨n - 1, by omega⟩
    exact loopX_eq _ _ ([], []) (loop_blank hp hw)
  | cons w ws ih =>
    intro s n xs hp hn hw hx
    obtain ⟨m, rfl⟩ : ∃ m, n = m + 1 := ⟨n - 1, by omega⟩
    cases hx with
    | @cons _ x _ xs hx hxs =>
      obtain ⟨sp, rest, rfl, h2, h3, h4, h5, h6⟩ := words_first hw
      have hc : ∀ c ∈ sp, cSpace c = true := fun c hc => hp c (by simp [hc]) (h2 c hc)
      have hl : 0 < w.length := List.length_pos_iff.2 h5
      have ih := ih rest m xs (fun c hc' => hp c (by simp [hc'])) (by simp at hn; omega) h4 hxs
      simp only [loopX, dropWhile_spaces hc h5 h6, strtodX_complete h6 h5 hx.2 hx.1 h3]
      cases rest with
      | nil =>
        rw [← h4] at hxs
        cases hxs
        rfl
      | cons c cs =>
        have : cSpace c = true := hp c (by simp) (h3 c rfl)
        simp only [this, if_true, ih]

end Verif.NpText

namespace Verif.ChgcarFull
open Verif Verif.Utils Verif.NpText
open Verif.Kpoints (idx toFloat toInt)
open Verif.Outcar (cut)
open Verif.Chgcar (readVector cross second splitStr FirstAt Before Pieces PrintsVector readVector_iff volume_eq ints_iff splitStr_iff cut_some cut_fst
  idx_iff IsRead cut_none)
open Verif.Lattice (V3 M3)

/-! ### specification -/

/-- Specification: a text in the format of CHGCAR, with any integers on its grid line. -/
structure File (text : Str) (volume : Rat) (dims : List Int) (pieces : List Str) : Prop where
  parts : ∃ (header rest grid body l1 l2 l3 l4 : Str) (scale : Rat) (cell : M3 Rat),
    FirstAt c!"\n\n" text header rest ∧ FirstAt c!"\n" rest grid body ∧
    (splitOn '\n' header)[1]? = some l1 ∧ pyFloatRat l1 = some scale ∧
    (splitOn '\n' header)[2]? = some l2 ∧ PrintsVector l2 cell.a ∧
    (splitOn '\n' header)[3]? = some l3 ∧ PrintsVector l3 cell.b ∧
    (splitOn '\n' header)[4]? = some l4 ∧ PrintsVector l4 cell.c ∧
    volume = scale ^ 3 * cell.det ∧ grid ≠ [] ∧
    List.Forall₂ (fun w (x : Int) => pyInt w = some x) (words grid) dims ∧
    Pieces grid body pieces

/-- Specification: an array of this shape can be filled with `n` values, and has the extents announced, those of at least zero at least. -/
structure Fits (dims : List Int) (n : Nat) (shape : List Nat) : Prop where
  extents : List.Forall₂ (fun (d : Int) (k : Nat) => d < 0 ∨ d = k) dims shape
  filled : shape.prod = n

/-- All densities of a file. -/
def Data.arrays (d : Data) : List Arr :=
  d.total :: match d.magnetization with
    | .none => []
    | .collinear g => [g]
    | .components x y z => [x, y, z]

theorem reshape_fits {n : Nat} {dims : List Int} {shape : List Nat} (h : reshape n dims = .ok shape) :
    Fits dims n shape ∧ (dims.filter (· < 0)).length ≤ 1 := by
  unfold reshape at h
  dsimp only at h
  have ext : ∀ (q : Nat) (dims : List Int), List.Forall₂ (fun (d : Int) (k : Nat) => d < 0 ∨ d = k) dims
      (dims.map fun d => if d < 0 then q else d.toNat) := by
    intro q dims
    induction dims with
    | nil => exact .nil
    | cons d ds ih =>
      refine .cons ?_ ih
      by_cases hd : d < 0
      · exact .inl hd
      · right
        show d = ((if d < 0 then q else d.toNat : Nat) : Int)
        rw [if_neg hd]; omega
  have prod : ∀ (q : Nat) (dims : List Int), (dims.map fun d => if d < 0 then q else d.toNat).prod =
      ((dims.filter (0 ≤ ·)).map Int.toNat).prod * q ^ (dims.filter (· < 0)).length := by
    intro q dims
    induction dims with
    | nil => rfl
    | cons d ds ih =>
      by_cases hd : d < 0
      · have h0 : ¬ 0 ≤ d := by omega
        simp only [List.map_cons, List.prod_cons, ih, hd, if_true, List.filter_cons, h0, decide_true, decide_false, List.length_cons, pow_succ]
        simp only [Bool.false_eq_true, if_false]
        ring
      · have h0 : 0 ≤ d := by omega
        simp only [List.map_cons, List.prod_cons, ih, hd, if_false, List.filter_cons, h0, decide_true, decide_false, if_true]
        simp only [Bool.false_eq_true, if_false]
        ring
  split at h
  · rename_i he
    split at h
    · rename_i hk
      cases h
      have e : dims.map Int.toNat = dims.map fun d => if d < 0 then 0 else d.toNat := by
        apply List.map_congr_left
        intro d hd
        have : ¬ d < 0 := fun hn => by
          have : d ∈ dims.filter (· < 0) := List.mem_filter.2 ⟨hd, by simpa using hn⟩
          rw [he] at this
          cases this
        rw [if_neg this]
      refine ⟨⟨by rw [e]; exact ext _ _, ?_⟩, by rw [he]; simp⟩
      rw [e, prod, he, hk]
      simp
    · cases h
  · rename_i d he
    split at h
    · cases h
    · rename_i hk
      cases h
      simp only [not_or, not_not] at hk
      refine ⟨⟨ext _ _, ?_⟩, by rw [he]; simp⟩
      rw [prod, he, List.length_singleton, pow_one, Nat.mul_comm]
      exact Nat.div_mul_cancel (Nat.dvd_of_mod_eq_zero hk.2)
  · cases h

theorem fits_reshape {n : Nat} {dims : List Int} {shape : List Nat} (h : Fits dims n shape) (hn : (dims.filter (· < 0)).length ≤ 1)
    (h0 : 0 < n ∨ dims.filter (· < 0) = []) : reshape n dims = .ok shape := by
  obtain ⟨he, hf⟩ := h
  have key : ∀ (dims : List Int) (shape : List Nat), List.Forall₂ (fun (d : Int) (k : Nat) => d < 0 ∨ d = k) dims shape →
      (dims.filter (· < 0) = [] → dims.map Int.toNat = shape ∧ ((dims.filter (0 ≤ ·)).map Int.toNat).prod = shape.prod) ∧
      (∀ x, dims.filter (· < 0) = [x] → ∃ q, shape = (dims.map fun d => if d < 0 then q else d.toNat) ∧
        shape.prod = q * ((dims.filter (0 ≤ ·)).map Int.toNat).prod) := by
    intro dims shape h
    induction h with
    | nil => exact ⟨fun _ => ⟨rfl, rfl⟩, fun x h => by cases h⟩
    | @cons d k ds ks hr _ ih =>
      by_cases hd : d < 0
      · have h0 : ¬ 0 ≤ d := by omega
        simp only [List.filter_cons, hd, h0, decide_true, decide_false, if_true, Bool.false_eq_true, if_false]
        refine ⟨fun h => (by cases h), fun x hx => ?_⟩
        simp only [List.cons.injEq] at hx
        obtain ⟨i1, i2⟩ := ih.1 hx.2
        refine ⟨k, ?_, ?_⟩
        · rw [List.map_cons, if_pos hd, ← i1]
          congr 1
          apply List.map_congr_left
          intro e he
          have : ¬ e < 0 := fun hn => by
            have : e ∈ ds.filter (· < 0) := List.mem_filter.2 ⟨he, by simpa using hn⟩
            rw [hx.2] at this
            cases this
          rw [if_neg this]
        · rw [List.prod_cons, i2]
      · have h0 : 0 ≤ d := by omega
        have hk : d.toNat = k := by rcases hr with hr | hr; exact absurd hr hd; omega
        simp only [List.filter_cons, hd, h0, decide_true, decide_false, if_true, Bool.false_eq_true, if_false]
        refine ⟨fun h => ?_, fun x hx => ?_⟩
        · obtain ⟨i1, i2⟩ := ih.1 h
          exact ⟨by rw [List.map_cons, i1, hk], by rw [List.map_cons, List.prod_cons, List.prod_cons, i2, hk]⟩
        · obtain ⟨q, i1, i2⟩ := ih.2 x hx
          exact ⟨q, by rw [List.map_cons, if_neg hd, hk, i1], by rw [List.map_cons, List.prod_cons, List.prod_cons, i2, hk]; ring⟩
  obtain ⟨k1, k2⟩ := key dims shape he
  cases hl : dims.filter (· < 0) with
  | nil =>
    obtain ⟨i1, i2⟩ := k1 hl
    unfold reshape
    rw [hl]
    dsimp only
    rw [if_pos (by rw [i2, hf]), i1]
  | cons x xs =>
    rw [hl] at hn
    have : xs = [] := by
      cases xs with
      | nil => rfl
      | cons _ _ => simp at hn
    subst this
    obtain ⟨q, i1, i2⟩ := k2 x hl
    have hpos : 0 < n := by rcases h0 with h0 | h0; exact h0; rw [hl] at h0; cases h0
    rw [hf] at i2
    have hK : 0 < ((dims.filter (0 ≤ ·)).map Int.toNat).prod := by
      rcases Nat.eq_zero_or_pos ((dims.filter (0 ≤ ·)).map Int.toNat).prod with h | h
      · rw [h] at i2; omega
      · exact h
    unfold reshape
    rw [hl]
    dsimp only
    rw [if_neg (by rw [i2, Nat.mul_mod_left]; simp only [ne_eq, not_true, or_false]; omega), i2, Nat.mul_div_cancel _ hK, i1]

theorem density_ok {dims : List Int} {volume : Rat} {piece : Str} {g : Arr} : density dims volume piece = .ok g ↔
    ∃ t, Before c!"augmentation occupancies" piece t ∧ reshape (fromStringX t).length dims = .ok g.shape ∧ g.values = (fromStringX t).map (divide volume) := by
  unfold density
  constructor
  · intro h
    obtain ⟨shape, h1, h⟩ := Res.bind_eq_ok.1 h
    cases h
    exact ⟨_, (cut_fst (by decide)).1 rfl, h1, rfl⟩
  · rintro ⟨t, h1, h2, h3⟩
    rw [(cut_fst (by decide)).2 h1]
    exact Res.bind_eq_ok.2 ⟨_, h2, by rw [← h3]⟩

/-- What an accepted file looks like. -/
theorem fromText_iff {text : Str} {d : Data} : fromText text = .ok d ↔ ∃ (volume : Rat) (dims : List Int) (pieces : List Str) (p : Str),
    File text volume dims pieces ∧ pieces.head? = some p ∧ density dims.reverse volume p = .ok d.total ∧
      magnetization dims.reverse volume pieces = .ok d.magnetization := by
  have hnn : (c!"\n\n" : Str) ≠ [] := by decide
  have hn : (c!"\n" : Str) ≠ [] := by decide
  have sec : ∀ (p : Str) (s r : Str), p ≠ [] → (second (cut p s) = .ok r ↔ FirstAt p s (cut p s).1 r) := by
    intro p s r hp
    unfold second
    constructor
    · intro h
      cases hcut : (cut p s).2 with
      | none => rw [hcut] at h; cases h
      | some q => rw [hcut] at h; cases h; exact (cut_some hp).1 (Prod.ext rfl hcut)
    · intro h
      rw [(cut_some hp).2 h]
  unfold fromText
  constructor
  · intro h
    obtain ⟨rest, hrest, h⟩ := Res.bind_eq_ok.1 h
    obtain ⟨s, hs, h⟩ := Res.bind_eq_ok.1 h
    obtain ⟨t, ht, h⟩ := Res.bind_eq_ok.1 h
    obtain ⟨a, ha, h⟩ := Res.bind_eq_ok.1 h
    obtain ⟨b, hb, h⟩ := Res.bind_eq_ok.1 h
    obtain ⟨c, hc, h⟩ := Res.bind_eq_ok.1 h
    obtain ⟨body, hbody, h⟩ := Res.bind_eq_ok.1 h
    obtain ⟨ngf, hngf, h⟩ := Res.bind_eq_ok.1 h
    have f1 := (sec _ _ _ hnn).1 hrest
    have f2 := (sec _ _ _ hn).1 hbody
    rw [idx_iff] at hs
    rw [Doscar.toFloat_iff] at ht
    rw [readVector_iff] at ha hb hc
    obtain ⟨la, va, ha1, ha2, rfl⟩ := ha
    obtain ⟨lb, vb, hb1, hb2, rfl⟩ := hb
    obtain ⟨lc, vc, hc1, hc2, rfl⟩ := hc
    rw [ints_iff] at hngf
    simp only [volume_eq] at h
    split at h
    · cases h
    · rename_i hg
      obtain ⟨p0, hp0, h⟩ := Res.bind_eq_ok.1 h
      obtain ⟨total, htotal, h⟩ := Res.bind_eq_ok.1 h
      obtain ⟨m, hm, h⟩ := Res.bind_eq_ok.1 h
      cases h
      rw [idx_iff] at hp0
      exact ⟨_, ngf, _, p0, ⟨_, rest, _, body, s, la, lb, lc, t, ⟨va, vb, vc⟩, f1, f2, hs, ht, ha1, ha2, hb1, hb2,
        hc1, hc2, rfl, hg, hngf, (splitStr_iff hg _ _ _ le_rfl).1 rfl⟩, by rw [List.head?_eq_getElem?]; exact hp0, htotal, hm⟩
  · rintro ⟨volume, dims, pieces, p, ⟨header, rest, grid, body, s, la, lb, lc, t, cell, f1, f2, hs, ht, ha1, ha2, hb1, hb2, hc1, hc2, rfl, hg, hngf, hp⟩,
      hp0, htotal, hm⟩
    have c1 : cut c!"\n\n" text = (header, some rest) := (cut_some hnn).2 f1
    have c2 : cut c!"\n" rest = (grid, some body) := (cut_some hn).2 f2
    rw [c1]
    dsimp only
    refine Res.bind_eq_ok.2 ⟨rest, rfl, ?_⟩
    rw [c2]
    refine Res.bind_eq_ok.2 ⟨s, (idx_iff _ _ _).2 hs, Res.bind_eq_ok.2 ⟨t, (Doscar.toFloat_iff _ _).2 ht,
      Res.bind_eq_ok.2 ⟨_, (readVector_iff _ _ _ _).2 ⟨la, _, ha1, ha2, rfl⟩,
      Res.bind_eq_ok.2 ⟨_, (readVector_iff _ _ _ _).2 ⟨lb, _, hb1, hb2, rfl⟩,
      Res.bind_eq_ok.2 ⟨_, (readVector_iff _ _ _ _).2 ⟨lc, _, hc1, hc2, rfl⟩,
      Res.bind_eq_ok.2 ⟨body, rfl, Res.bind_eq_ok.2 ⟨dims, (ints_iff _ _).2 hngf, ?_⟩⟩⟩⟩⟩⟩⟩
    simp only [volume_eq]
    rw [if_neg hg, (splitStr_iff hg _ _ _ le_rfl).2 hp]
    exact Res.bind_eq_ok.2 ⟨p, (idx_iff _ _ _).2 (by rw [← List.head?_eq_getElem?]; exact hp0), Res.bind_eq_ok.2 ⟨_, htotal, Res.bind_eq_ok.2 ⟨_, hm, rfl⟩⟩⟩

theorem arrays_ok {dims : List Int} {volume : Rat} {pieces : List Str} {p : Str} {d : Data} (hp : pieces.head? = some p)
    (h1 : density dims volume p = .ok d.total) (h2 : magnetization dims volume pieces = .ok d.magnetization) :
    ∀ g ∈ d.arrays, ∃ q, IsRead pieces q ∧ density dims volume q = .ok g := by
  intro g hg
  unfold Data.arrays at hg
  rcases List.mem_cons.1 hg with rfl | hg
  · exact ⟨p, .inl hp, h1⟩
  · unfold magnetization at h2
    split at h2
    · obtain ⟨x, hx, h2⟩ := Res.bind_eq_ok.1 h2
      cases h : d.magnetization <;> rw [h] at h2 hg <;> cases h2
      simp only [List.mem_singleton] at hg
      subst hg
      exact ⟨_, .inr ⟨.inl rfl, by simp⟩, hx⟩
    · obtain ⟨x, hx, h2⟩ := Res.bind_eq_ok.1 h2
      obtain ⟨y, hy, h2⟩ := Res.bind_eq_ok.1 h2
      obtain ⟨z, hz, h2⟩ := Res.bind_eq_ok.1 h2
      cases h : d.magnetization <;> rw [h] at h2 hg <;> cases h2
      simp only [List.mem_cons, List.not_mem_nil, or_false] at hg
      rcases hg with rfl | rfl | rfl
      · exact ⟨_, .inr ⟨.inr rfl, by simp⟩, hx⟩
      · exact ⟨_, .inr ⟨.inr rfl, by simp⟩, hy⟩
      · exact ⟨_, .inr ⟨.inr rfl, by simp⟩, hz⟩
    · cases h : d.magnetization <;> rw [h] at h2 hg <;> cases h2
      cases hg

/-! ### both models agree -/

/-- Specification: the array has these extents and holds the values of the grid, the last index running fastest. -/
def Same (nz ny nx : Nat) (g : Chgcar.Grid) (a : Arr) : Prop := a.shape = [nz, ny, nx] ∧ a.values = g.flatten.flatten.map fun x => .num (.fin x)

theorem chunks_flatten {α : Type} (n : Nat) : ∀ (k : Nat) (l : List α), l.length = k * n → (Chgcar.chunks n k l).flatten = l
  | 0, l, h => by
    have : l = [] := by simpa using h
    subst this; rfl
  | k + 1, l, h => by
    have hk := chunks_flatten n k (l.drop n) (by rw [List.length_drop, h]; rw [Nat.add_mul]; omega)
    have e : Chgcar.chunks n (k + 1) l = l.take n :: Chgcar.chunks n k (l.drop n) := by
      unfold Chgcar.chunks
      rw [List.range_succ_eq_map, List.map_cons, List.map_map]
      congr 1
      · simp
      · apply List.map_congr_left
        intro i _
        simp only [Function.comp_apply, List.drop_drop]
        congr 2
        rw [Nat.succ_mul]; omega
    rw [e, List.flatten_cons, hk, List.take_append_drop]

theorem density_agree {nz ny nx : Nat} {volume : Rat} {piece : Str} {g : Chgcar.Grid} (h : Chgcar.densityC nz ny nx volume piece = .ok g) :
    ∃ a, density [(nz : Int), ny, nx] volume piece = .ok a ∧ Same nz ny nx g a := by
  unfold Chgcar.densityC at h
  obtain ⟨xs, hx, h⟩ := Res.bind_eq_ok.1 h
  split at h
  · rename_i hl
    split at h
    · cases h
    · rename_i hv
      cases h
      have hX := fromString_agree _ _ hx
      refine ⟨⟨[nz, ny, nx], (xs.map Num.fin).map (divide volume)⟩, ?_, rfl, ?_⟩
      · unfold density
        rw [hX]
        refine Res.bind_eq_ok.2 ⟨[nz, ny, nx], ?_, rfl⟩
        refine fits_reshape ⟨.cons (.inr rfl) (.cons (.inr rfl) (.cons (.inr rfl) .nil)), ?_⟩ ?_ (.inr ?_)
        · rw [List.length_map, hl]; simp; ring
        · simp
        · simp
      · have h1 : ∀ (m : List (List (List Rat))), (m.map fun plane => plane.map fun row => row.map fun v => v / volume).flatten.flatten =
            m.flatten.flatten.map fun v => v / volume := by
          intro m
          simp only [List.map_flatten, List.map_map]
        have h2 : ((Chgcar.chunks (ny * nx) nz xs).map fun plane => (Chgcar.chunks nx ny plane).map fun row => row.map fun v => v / volume) =
            ((Chgcar.chunks (ny * nx) nz xs).map fun plane => Chgcar.chunks nx ny plane).map fun plane => plane.map fun row => row.map fun v => v / volume := by
          rw [List.map_map]; rfl
        have hl' : xs.length = nz * (ny * nx) := by rw [hl]; ring
        have h3 : ((Chgcar.chunks (ny * nx) nz xs).map fun plane => Chgcar.chunks nx ny plane).flatten.flatten = xs := by
          rw [List.flatten_flatten, List.map_map]
          have : (Chgcar.chunks (ny * nx) nz xs).map (List.flatten ∘ fun plane => Chgcar.chunks nx ny plane) = Chgcar.chunks (ny * nx) nz xs := by
            conv_rhs => rw [← List.map_id (Chgcar.chunks (ny * nx) nz xs)]
            apply List.map_congr_left
            intro c hc
            exact chunks_flatten nx ny c (Chgcar.chunk_elem hl' hc)
          rw [this]
          exact chunks_flatten _ _ _ hl'
        show (xs.map Num.fin).map (divide volume) = _
        rw [h2, h1, h3, List.map_map, List.map_map]
        apply List.map_congr_left
        intro x _
        simp [divide, hv]
  · cases h

/-- Whatever the first model of chgcar.py returns, this one returns, too. -/
theorem init_agree {text : Str} {d : Chgcar.Data} (h : Chgcar.initC none (some text) = .ok d) : ∃ d' nx ny nz, init none (some text) = .ok d' ∧
    Same nz ny nx d.total d'.total ∧ match d.magnetization with
      | .none => d'.magnetization = .none
      | .collinear g => ∃ a, d'.magnetization = .collinear a ∧ Same nz ny nx g a
      | .components x y z => ∃ a b c, d'.magnetization = .components a b c ∧ Same nz ny nx x a ∧ Same nz ny nx y b ∧ Same nz ny nx z c := by
  obtain ⟨scale, cell, nx, ny, nz, pieces, p, ⟨header, rest, grid, body, l1, l2, l3, l4, f1, f2, hs, ht, ha1, ha2, hb1, hb2, hc1, hc2, hn, hp⟩, hp0, htot, hm⟩ :=
    Chgcar.fromTextC_ok h
  have hg : grid ≠ [] := by rintro rfl; cases hn
  have hf : File text (scale ^ 3 * cell.det) [(nx : Int), ny, nz] pieces :=
    ⟨_, rest, _, body, l1, l2, l3, l4, scale, cell, f1, f2, hs, ht, ha1, ha2, hb1, hb2, hc1, hc2, rfl, hg, hn, hp⟩
  obtain ⟨a, hda, sa⟩ := density_agree htot
  unfold Chgcar.magnetizationC at hm
  have fin : ∀ m, magnetization [(nz : Int), ny, nx] (scale ^ 3 * cell.det) pieces = .ok m → init none (some text) = .ok ⟨a, m⟩ :=
    fun m hm => fromText_iff.2 ⟨_, _, _, _, hf, hp0, hda, hm⟩
  split at hm
  · obtain ⟨g, hg, hm⟩ := Res.bind_eq_ok.1 hm
    obtain ⟨b, hb, sb⟩ := density_agree hg
    refine ⟨_, nx, ny, nz, fin (.collinear b) (Res.bind_eq_ok.2 ⟨_, hb, rfl⟩), sa, ?_⟩
    rw [← Res.ok.inj hm]
    exact ⟨b, rfl, sb⟩
  · obtain ⟨g1, hg1, hm⟩ := Res.bind_eq_ok.1 hm
    obtain ⟨g2, hg2, hm⟩ := Res.bind_eq_ok.1 hm
    obtain ⟨g3, hg3, hm⟩ := Res.bind_eq_ok.1 hm
    obtain ⟨b1, hb1, sb1⟩ := density_agree hg1
    obtain ⟨b2, hb2, sb2⟩ := density_agree hg2
    obtain ⟨b3, hb3, sb3⟩ := density_agree hg3
    refine ⟨_, nx, ny, nz, fin (.components b1 b2 b3) (Res.bind_eq_ok.2 ⟨_, hb1, Res.bind_eq_ok.2 ⟨_, hb2, Res.bind_eq_ok.2 ⟨_, hb3, rfl⟩⟩⟩), sa, ?_⟩
    rw [← Res.ok.inj hm]
    exact ⟨b1, b2, b3, rfl, sb1, sb2, sb3⟩
  · rename_i n1 n2
    refine ⟨_, nx, ny, nz, fin .none ?_, sa, ?_⟩
    · unfold magnetization
      split
      · exact absurd rfl (n1 _ _)
      · exact absurd rfl (n2 _ _ _ _)
      · rfl
    · rw [← Res.ok.inj hm]

/-! ### C124 -/

/-- C124 for CHGCAR: an accepted file announces at most one number below zero, the others are the extents of every density it returns, and the
densities are completely filled. Missing in the full claim: one number below zero, and other than three numbers, are not refused, see
`C124_violation_chgcar` and `C124_violation_chgcar_dims`. -/
theorem C124_chgcar_partial {text : Str} {d : Data} (h : init none (some text) = .ok d) : ∃ volume dims pieces, File text volume dims pieces ∧
    (dims.filter (· < 0)).length ≤ 1 ∧ ∀ g ∈ d.arrays, Fits dims.reverse g.values.length g.shape := by
  obtain ⟨volume, dims, pieces, p, hf, hp, h1, h2⟩ := fromText_iff.1 h
  refine ⟨volume, dims, pieces, hf, ?_, ?_⟩
  · obtain ⟨t, _, ht, _⟩ := density_ok.1 h1
    have := (reshape_fits ht).2
    rw [List.filter_reverse, List.length_reverse] at this
    exact this
  · intro g hg
    obtain ⟨q, _, hq⟩ := arrays_ok hp h1 h2 g hg
    obtain ⟨t, _, ht, hv⟩ := density_ok.1 hq
    rw [hv, List.length_map]
    exact (reshape_fits ht).1

/-- Specification: the header, the grid line and what follows it. -/
def HasParts (text header grid body : Str) : Prop := ∃ rest, FirstAt c!"\n\n" text header rest ∧ FirstAt c!"\n" rest grid body

/-- The grid line of a file with a single data set is replaced. -/
theorem regrid {text text' header grid grid' body : Str} {d : Data} {dims' : List Int} {shape : List Nat} (h : init none (some text) = .ok d)
    (ht : HasParts text header grid body) (ht' : HasParts text' header grid' body) (hg : ¬ grid <:+: body) (hg' : ¬ grid' <:+: body)
    (hd : List.Forall₂ (fun w (x : Int) => pyInt w = some x) (words grid') dims') (hn : (dims'.filter (· < 0)).length ≤ 1)
    (hf : Fits dims'.reverse d.total.values.length shape) (hpos : d.total.values ≠ [] ∨ dims'.filter (· < 0) = []) :
    init none (some text') = .ok ⟨⟨shape, d.total.values⟩, .none⟩ := by
  obtain ⟨rest, t1, t2⟩ := ht
  obtain ⟨rest', t1', t2'⟩ := ht'
  obtain ⟨volume, dims, pieces, p, ⟨header2, rest2, grid2, body2, l1, l2, l3, l4, scale, cell, f1, f2, hs, hsc, ha1, ha2, hb1, hb2, hc1, hc2, hv, hgn, hdim, hp⟩,
    hp0, h1, h2⟩ := fromText_iff.1 h
  obtain ⟨rfl, rfl⟩ := Chgcar.FirstAt.unique (by decide) t1 f1
  obtain ⟨rfl, rfl⟩ := Chgcar.FirstAt.unique (by decide) t2 f2
  have := Chgcar.Pieces.unique hgn hp (.last hg)
  subst this
  cases hp0
  obtain ⟨t, hb, hr, hval⟩ := density_ok.1 h1
  have hgn' : grid' ≠ [] := by rintro rfl; exact hg' (List.nil_infix)
  have hlen : d.total.values.length = (fromStringX t).length := by rw [hval, List.length_map]
  refine fromText_iff.2 ⟨volume, dims', [body], body, ⟨header, rest', grid', body, l1, l2, l3, l4, scale, cell, t1', t2', hs, hsc, ha1, ha2, hb1, hb2, hc1, hc2, hv,
    hgn', hd, .last hg'⟩, rfl, density_ok.2 ⟨t, hb, ?_, hval⟩, rfl⟩
  rw [← hlen]
  refine fits_reshape hf (by rw [List.filter_reverse, List.length_reverse]; exact hn) ?_
  rcases hpos with h | h
  · left; exact List.length_pos_iff.2 h
  · right; rw [List.filter_reverse, h]; rfl

/-- C124 violated: if one of the numbers of grid points of a file (with a single data set that is not empty) is replaced by any negative number, the
file is still accepted, with the same density. -/
theorem C124_violation_chgcar {text text' header grid grid' body : Str} {d : Data} {dims : List Int} (i : Nat) (k : Int) (h : init none (some text) = .ok d)
    (ht : HasParts text header grid body) (ht' : HasParts text' header grid' body) (hg : ¬ grid <:+: body) (hg' : ¬ grid' <:+: body)
    (hd : List.Forall₂ (fun w (x : Int) => pyInt w = some x) (words grid) dims) (h0 : ∀ x ∈ dims, 0 < x) (hk : k < 0)
    (hd' : List.Forall₂ (fun w (x : Int) => pyInt w = some x) (words grid') (dims.set i k)) : init none (some text') = .ok d := by
  obtain ⟨rest, t1, t2⟩ := ht
  obtain ⟨volume, dims2, pieces, p, ⟨header2, rest2, grid2, body2, l1, l2, l3, l4, scale, cell, f1, f2, hs, hsc, ha1, ha2, hb1, hb2, hc1, hc2, hv, hgn, hdim, hp⟩,
    hp0, h1, h2⟩ := fromText_iff.1 h
  obtain ⟨rfl, rfl⟩ := Chgcar.FirstAt.unique (by decide) t1 f1
  obtain ⟨rfl, rfl⟩ := Chgcar.FirstAt.unique (by decide) t2 f2
  have hdd : dims2 = dims := by
    have e1 := (ints_iff _ _).2 hd
    rw [(ints_iff _ _).2 hdim] at e1
    exact Res.ok.inj e1
  subst hdd
  have := Chgcar.Pieces.unique hgn hp (.last hg)
  subst this
  cases hp0
  obtain ⟨t, hb, hr, hval⟩ := density_ok.1 h1
  have hm : d.magnetization = .none := by
    unfold magnetization at h2
    exact (Res.ok.inj h2).symm
  have hfit := (reshape_fits hr).1
  have hlen : d.total.values.length = (fromStringX t).length := by rw [hval, List.length_map]
  have hpos : 0 < d.total.shape.prod := by
    have : ∀ (ds : List Int) (ks : List Nat), List.Forall₂ (fun (d : Int) (k : Nat) => d < 0 ∨ d = k) ds ks → (∀ x ∈ ds, 0 < x) → 0 < ks.prod := by
      intro ds ks hf hpos
      induction hf with
      | nil => simp
      | @cons d k _ _ hr _ ih =>
        have hd := hpos d (by simp)
        rw [List.prod_cons]
        exact Nat.mul_pos (by rcases hr with hr | hr <;> omega) (ih fun x hx => hpos x (by simp [hx]))
    exact this _ _ hfit.extents (by simpa using h0)
  have hset : (List.Forall₂ (fun (d : Int) (k : Nat) => d < 0 ∨ d = k) (dims2.set i k).reverse d.total.shape) ∧ ((dims2.set i k).filter (· < 0)).length ≤ 1 := by
    have hnone : ∀ l : List Int, (∀ x ∈ l, 0 < x) → l.filter (· < 0) = [] := by
      intro l hl
      rw [List.filter_eq_nil_iff]
      intro x hx
      have := hl x hx
      simp; omega
    constructor
    · have ext := List.forall₂_reverse_iff.2 hfit.extents
      rw [List.reverse_reverse] at ext
      rw [← List.forall₂_reverse_iff, List.reverse_reverse]
      generalize d.total.shape.reverse = sh at ext ⊢
      clear * - ext hk
      induction ext generalizing i with
      | nil => exact .nil
      | cons hr hrs ih =>
        cases i with
        | zero => exact .cons (.inl hk) hrs
        | succ i => exact .cons hr (ih i)
    · clear * - h0 hnone hk
      induction dims2 generalizing i with
      | nil => simp
      | cons x xs ih =>
        have hx := h0 x (by simp)
        cases i with
        | zero =>
          rw [List.set_cons_zero, List.filter_cons, hnone xs (fun y hy => h0 y (by simp [hy]))]
          split <;> simp
        | succ i =>
          rw [List.set_cons_succ, List.filter_cons, if_neg (by simp; omega)]
          exact ih i (fun y hy => h0 y (by simp [hy]))
  have := regrid (shape := d.total.shape) h ⟨_, t1, t2⟩ ht' hg hg' hd' hset.2 ⟨hset.1, by rw [hfit.filled, hlen]⟩
    (.inl (by
      rw [← List.length_pos_iff, hlen, ← hfit.filled]
      exact hpos))
  rw [this, ← hm]

/-- C124 violated: any numbers on the grid line whose product is the number of values printed are accepted as the extents of the density, also if
they are not three. -/
theorem C124_violation_chgcar_dims {text text' header grid grid' body : Str} {d : Data} {dims' : List Nat} (h : init none (some text) = .ok d)
    (ht : HasParts text header grid body) (ht' : HasParts text' header grid' body) (hg : ¬ grid <:+: body) (hg' : ¬ grid' <:+: body)
    (hd : List.Forall₂ (fun w (x : Nat) => pyInt w = some (x : Int)) (words grid') dims') (hf : dims'.prod = d.total.values.length) :
    init none (some text') = .ok ⟨⟨dims'.reverse, d.total.values⟩, .none⟩ := by
  have hn : (dims'.map ((↑) : Nat → Int)).filter (· < 0) = [] := by
    rw [List.filter_eq_nil_iff]
    intro x hx
    obtain ⟨k, _, rfl⟩ := List.mem_map.1 hx
    simp
  refine regrid (dims' := dims'.map (↑)) h ht ht' hg hg' ?_ (by rw [hn]; simp) ⟨?_, ?_⟩ (.inr hn)
  · rw [List.forall₂_map_right_iff]; exact hd
  · rw [← List.forall₂_reverse_iff, List.reverse_reverse, List.reverse_reverse, List.forall₂_map_left_iff, List.forall₂_same]
    intro x _; exact .inr rfl
  · rw [List.prod_reverse]; exact hf

/-! ### C125 -/

/-- Specification: the quotient of a number and a volume that is not zero. -/
inductive Quotient (volume : Rat) : Num → Value → Prop
  | fin (x : Rat) : Quotient volume (.fin x) (.num (.fin (x / volume)))
  | pos (neg : Bool) : 0 < volume → Quotient volume (.inf neg) (.num (.inf neg))
  | neg (neg : Bool) : volume < 0 → Quotient volume (.inf neg) (.num (.inf !neg))
  | nan : Quotient volume .nan (.num .nan)

/-- Specification: what a data set prints, up to its augmentation occupancies. -/
def Prints (piece : Str) (xs : List Num) : Prop :=
  ∃ t, Before c!"augmentation occupancies" piece t ∧ PlainSpace t ∧ List.Forall₂ (fun w x => Shows w x ∧ '_' ∉ w) (words t) xs

theorem quotient {volume : Rat} (hv : volume ≠ 0) (x : Num) : Quotient volume x (divide volume x) := by
  cases x with
  | fin x => simp only [divide, hv, if_false]; exact .fin x
  | nan => exact .nan
  | inf neg =>
    simp only [divide, hv, if_false]
    rcases lt_or_gt_of_ne hv with h | h
    · rw [if_pos h]; exact .neg neg h
    · rw [if_neg (not_lt.2 (le_of_lt h))]; exact .pos neg h

theorem prints_read {piece : Str} {xs : List Num} (h : Prints piece xs) : fromStringX (cut c!"augmentation occupancies" piece).1 = xs := by
  obtain ⟨t, h1, h2, h3⟩ := h
  rw [(cut_fst (by decide)).2 h1]
  unfold fromStringX
  rw [loopX_words _ t _ xs h2 (by omega) rfl h3]

theorem file_unique {text : Str} {v v' : Rat} {ds ds' : List Int} {ps ps' : List Str} (h : File text v ds ps) (h' : File text v' ds' ps') :
    v = v' ∧ ds = ds' ∧ ps = ps' := by
  obtain ⟨header, rest, grid, body, l1, l2, l3, l4, scale, cell, f1, f2, hs, hsc, ha1, ha2, hb1, hb2, hc1, hc2, hv, hgn, hdim, hp⟩ := h
  obtain ⟨header', rest', grid', body', l1', l2', l3', l4', scale', cell', f1', f2', hs', hsc', ha1', ha2', hb1', hb2', hc1', hc2', hv', hgn', hdim', hp'⟩ := h'
  obtain ⟨rfl, rfl⟩ := Chgcar.FirstAt.unique (by decide) f1 f1'
  obtain ⟨rfl, rfl⟩ := Chgcar.FirstAt.unique (by decide) f2 f2'
  have vec : ∀ {i : Nat} {l l' : Str} {u u' : V3 Rat}, (splitOn '\n' header)[i + 2]? = some l → PrintsVector l u → (splitOn '\n' header)[i + 2]? = some l' →
      PrintsVector l' u' → u = u' := by
    intro i l l' u u' h1 h2 h3 h4
    have e1 := (readVector_iff 1 (splitOn '\n' header) i _).2 ⟨l, u, h1, h2, rfl⟩
    have e2 := (readVector_iff 1 (splitOn '\n' header) i _).2 ⟨l', u', h3, h4, rfl⟩
    rw [e1] at e2
    have := Res.ok.inj e2
    simp only [V3.map, one_mul] at this
    exact this
  have e1 : scale = scale' := by
    rw [hs] at hs'; cases hs'; rw [hsc] at hsc'; exact Option.some.inj hsc'
  have e2 := vec (i := 0) ha1 ha2 ha1' ha2'
  have e3 := vec (i := 1) hb1 hb2 hb1' hb2'
  have e4 := vec (i := 2) hc1 hc2 hc1' hc2'
  have e5 : cell = cell' := by
    cases cell; cases cell'
    simp only at e2 e3 e4
    rw [e2, e3, e4]
  refine ⟨by rw [hv, hv', e1, e5], ?_, Chgcar.Pieces.unique hgn hp hp'⟩
  have := (ints_iff _ _).2 hdim
  rw [(ints_iff _ _).2 hdim'] at this
  exact (Res.ok.inj this).symm

/-- The densities stand in the order of the data sets. -/
theorem arrays_get {dims : List Int} {volume : Rat} {pieces : List Str} {p : Str} {d : Data} (hp : pieces.head? = some p)
    (h1 : density dims volume p = .ok d.total) (h2 : magnetization dims volume pieces = .ok d.magnetization) {k : Nat} {g : Arr} {q : Str}
    (hg : d.arrays[k]? = some g) (hq : pieces[k]? = some q) : density dims volume q = .ok g := by
  cases k with
  | zero =>
    have : q = p := by rw [List.head?_eq_getElem?, hq] at hp; exact Option.some.inj hp
    subst this
    cases hg
    exact h1
  | succ k =>
    unfold Data.arrays at hg
    rw [List.getElem?_cons_succ] at hg
    unfold magnetization at h2
    split at h2
    · obtain ⟨x, hx, h2⟩ := Res.bind_eq_ok.1 h2
      cases h : d.magnetization <;> rw [h] at h2 hg <;> cases h2
      cases k with
      | zero => cases hg; cases hq; exact hx
      | succ k => cases hg
    · obtain ⟨x, hx, h2⟩ := Res.bind_eq_ok.1 h2
      obtain ⟨y, hy, h2⟩ := Res.bind_eq_ok.1 h2
      obtain ⟨z, hz, h2⟩ := Res.bind_eq_ok.1 h2
      cases h : d.magnetization <;> rw [h] at h2 hg <;> cases h2
      match k with
      | 0 => cases hg; cases hq; exact hx
      | 1 => cases hg; cases hq; exact hy
      | 2 => cases hg; cases hq; exact hz
      | k + 3 => cases hg
    · cases h : d.magnetization <;> rw [h] at h2 hg <;> cases h2
      cases hg

/-- C125 for CHGCAR: in an accepted file, every value of every density is the number printed at its place divided by the volume, also if numbers
are printed as infinite or not a number. -/
theorem C125_chgcar {text : Str} {d : Data} {volume : Rat} {dims : List Int} {pieces : List Str} (h : init none (some text) = .ok d)
    (hf : File text volume dims pieces) (hv : volume ≠ 0) {k : Nat} {g : Arr} {piece : Str} {xs : List Num} (hg : d.arrays[k]? = some g)
    (hp : pieces[k]? = some piece) (hx : Prints piece xs) : List.Forall₂ (Quotient volume) xs g.values := by
  obtain ⟨volume', dims', pieces', p, hf', hp0, h1, h2⟩ := fromText_iff.1 h
  obtain ⟨rfl, rfl, rfl⟩ := file_unique hf hf'
  have hd := arrays_get hp0 h1 h2 hg hp
  unfold density at hd
  rw [prints_read hx] at hd
  obtain ⟨shape, _, hd⟩ := Res.bind_eq_ok.1 hd
  cases hd
  show List.Forall₂ _ xs (xs.map (divide volume))
  rw [List.forall₂_map_right_iff, List.forall₂_same]
  exact fun x _ => quotient hv x

/-- C125 for CHGCAR: a file whose data sets print as many numbers as its grid line announces is accepted, whichever of the numbers are infinite or
not a number, with one density per data set if there are one, two or four of them. -/
theorem C125_chgcar_accepted {text : Str} {volume : Rat} {dims : List Nat} {pieces : List Str} (hf : File text volume (dims.map (↑)) pieces)
    (h : ∀ p ∈ pieces, ∃ xs, Prints p xs ∧ xs.length = dims.prod) : ∃ d, init none (some text) = .ok d ∧ (∀ g ∈ d.arrays, g.shape = dims.reverse) ∧
    d.arrays.length = if pieces.length = 2 ∨ pieces.length = 4 then pieces.length else 1 := by
  have hn : (dims.map ((↑) : Nat → Int)).filter (· < 0) = [] := by
    rw [List.filter_eq_nil_iff]
    intro x hx
    obtain ⟨k, _, rfl⟩ := List.mem_map.1 hx
    simp
  have den : ∀ p ∈ pieces, ∃ g, density (dims.map ((↑) : Nat → Int)).reverse volume p = .ok g ∧ g.shape = dims.reverse := by
    intro p hp
    obtain ⟨xs, h1, h2⟩ := h p hp
    refine ⟨⟨dims.reverse, xs.map (divide volume)⟩, ?_, rfl⟩
    unfold density
    rw [prints_read h1]
    refine Res.bind_eq_ok.2 ⟨dims.reverse, fits_reshape ⟨?_, ?_⟩ ?_ (.inr ?_), rfl⟩
    · rw [← List.forall₂_reverse_iff, List.reverse_reverse, List.reverse_reverse, List.forall₂_map_left_iff, List.forall₂_same]
      intro x _; exact .inr rfl
    · rw [List.prod_reverse, h2]
    · rw [List.filter_reverse, hn]; simp
    · rw [List.filter_reverse, hn]; rfl
  obtain ⟨p, hp0⟩ : ∃ p, pieces.head? = some p := by
    obtain ⟨_, _, _, _, _, _, _, _, _, _, _, _, _, _, _, _, _, _, _, _, _, _, _, hp⟩ := hf
    cases hp with
    | last _ => exact ⟨_, rfl⟩
    | cons _ _ => exact ⟨_, rfl⟩
  obtain ⟨g, hg, hs⟩ := den p (List.mem_of_mem_head? hp0)
  have fin : ∀ m, magnetization (dims.map ((↑) : Nat → Int)).reverse volume pieces = .ok m → init none (some text) = .ok ⟨g, m⟩ :=
    fun m hm => fromText_iff.2 ⟨_, _, _, _, hf, hp0, hg, hm⟩
  match pieces, den, fin with
  | [a, b], den, fin =>
    obtain ⟨y, hy, sy⟩ := den b (by simp)
    refine ⟨_, fin (.collinear y) (Res.bind_eq_ok.2 ⟨_, hy, rfl⟩), ?_, rfl⟩
    intro e he
    simp only [Data.arrays, List.mem_cons, List.not_mem_nil, or_false] at he
    rcases he with rfl | rfl <;> assumption
  | [a, b, c, e], den, fin =>
    obtain ⟨x, hx, sx⟩ := den b (by simp)
    obtain ⟨y, hy, sy⟩ := den c (by simp)
    obtain ⟨z, hz, sz⟩ := den e (by simp)
    refine ⟨_, fin (.components x y z) (Res.bind_eq_ok.2 ⟨_, hx, Res.bind_eq_ok.2 ⟨_, hy, Res.bind_eq_ok.2 ⟨_, hz, rfl⟩⟩⟩), ?_, rfl⟩
    intro e he
    simp only [Data.arrays, List.mem_cons, List.not_mem_nil, or_false] at he
    rcases he with rfl | rfl | rfl | rfl <;> assumption
  | [], den, fin => cases hp0
  | [a], den, fin =>
    refine ⟨_, fin .none rfl, ?_, rfl⟩
    intro e he
    simp only [Data.arrays, List.mem_cons, List.not_mem_nil, or_false] at he
    rw [he]; exact hs
  | [a, b, c], den, fin =>
    refine ⟨_, fin .none rfl, ?_, rfl⟩
    intro e he
    simp only [Data.arrays, List.mem_cons, List.not_mem_nil, or_false] at he
    rw [he]; exact hs
  | a :: b :: c :: e :: f :: l, den, fin =>
    refine ⟨_, fin .none rfl, ?_, ?_⟩
    · intro e he
      simp only [Data.arrays, List.mem_cons, List.not_mem_nil, or_false] at he
      rw [he]; exact hs
    · simp [Data.arrays]

/-! ### cells without volume -/

/-- C41 violated: a file whose lattice vectors lie in a plane (or whose scaling factor is zero) is accepted like any other (`C125_chgcar_accepted`), and
no value of its densities is finite. -/
theorem C41_violation_flat {text : Str} {d : Data} {dims : List Int} {pieces : List Str} (h : init none (some text) = .ok d)
    (hf : File text 0 dims pieces) : ∀ g ∈ d.arrays, ∀ v ∈ g.values, v = .num .nan ∨ v = .anyInf := by
  obtain ⟨volume', dims', pieces', p, hf', hp0, h1, h2⟩ := fromText_iff.1 h
  obtain ⟨rfl, rfl, rfl⟩ := file_unique hf hf'
  intro g hg v hv
  obtain ⟨q, _, hq⟩ := arrays_ok hp0 h1 h2 g hg
  obtain ⟨t, _, _, hval⟩ := density_ok.1 hq
  rw [hval] at hv
  obtain ⟨x, _, rfl⟩ := List.mem_map.1 hv
  cases x with
  | fin x =>
    by_cases hx : x = 0
    · left; simp [divide, hx]
    · right; simp [divide, hx]
  | inf n => right; simp [divide]
  | nan => left; rfl

/-! ### non-vacuity -/

/-- A small file with two data sets, one number infinite and one not a number. -/
def sample (grid : Str) : Str := c!"c\n2\n1 0 0\n0 1 0\n0 0 1\nH\n1\nDirect\n0 0 0\n\n" ++ grid ++ c!"\n 8 -Infinity\nNaN 4\naugmentation occupancies 1 1\n0.1\n"

example : init none (some (sample c!" 2 1 2")) = .ok ⟨⟨[2, 1, 2], [.num (.fin 1), .num (.inf true), .num .nan, .num (.fin (1/2))]⟩, .none⟩ ∧
    init none (some (sample c!" 2 -7 2")) = init none (some (sample c!" 2 1 2")) ∧
    init none (some (sample c!"  4")) = .ok ⟨⟨[4], [.num (.fin 1), .num (.inf true), .num .nan, .num (.fin (1/2))]⟩, .none⟩ ∧
    init none (some (sample c!" 2 -1 -2")) = .raise .valueError := by decide +kernel

/-- The hypotheses of `C125_chgcar` and of the violations are met. -/
example : File (sample c!" 2 1 2") 8 [2, 1, 2] [c!" 8 -Infinity\nNaN 4\naugmentation occupancies 1 1\n0.1\n"] ∧
    Prints c!" 8 -Infinity\nNaN 4\naugmentation occupancies 1 1\n0.1\n" [.fin 8, .inf true, .nan, .fin 4] ∧
    HasParts (sample c!" 2 -7 2") c!"c\n2\n1 0 0\n0 1 0\n0 0 1\nH\n1\nDirect\n0 0 0" c!" 2 -7 2" c!" 8 -Infinity\nNaN 4\naugmentation occupancies 1 1\n0.1\n" := by
  have hw : words c!" 8 -Infinity\nNaN 4\n" = [c!"8", c!"-Infinity", c!"NaN", c!"4"] := by decide +kernel
  refine ⟨?_, ⟨c!" 8 -Infinity\nNaN 4\n", (cut_fst (by decide)).1 (by decide +kernel), by unfold PlainSpace; decide, ?_⟩,
    ⟨c!" 2 -7 2\n" ++ c!" 8 -Infinity\nNaN 4\naugmentation occupancies 1 1\n0.1\n", (cut_some (by decide)).1 (by decide +kernel), (cut_some (by decide)).1 (by decide +kernel)⟩⟩
  · refine ⟨c!"c\n2\n1 0 0\n0 1 0\n0 0 1\nH\n1\nDirect\n0 0 0", c!" 2 1 2\n" ++ c!" 8 -Infinity\nNaN 4\naugmentation occupancies 1 1\n0.1\n", c!" 2 1 2", c!" 8 -Infinity\nNaN 4\naugmentation occupancies 1 1\n0.1\n", c!"2", c!"1 0 0", c!"0 1 0", c!"0 0 1", 2,
      ⟨⟨1, 0, 0⟩, ⟨0, 1, 0⟩, ⟨0, 0, 1⟩⟩, (cut_some (by decide)).1 (by decide +kernel), (cut_some (by decide)).1 (by decide +kernel), by decide +kernel, by decide +kernel,
      by decide +kernel, .inl ?_, by decide +kernel, .inl ?_, by decide +kernel, .inl ?_, by decide +kernel, by decide, ?_, ?_⟩
    · exact (Eigenval.numbers_iff _ _).2 (by decide +kernel)
    · exact (Eigenval.numbers_iff _ _).2 (by decide +kernel)
    · exact (Eigenval.numbers_iff _ _).2 (by decide +kernel)
    · exact (ints_iff _ _).1 (by decide +kernel)
    · exact .last ((cut_none (a := c!" 8 -Infinity\nNaN 4\naugmentation occupancies 1 1\n0.1\n") (by decide)).1 (by decide +kernel)).2
  · rw [hw]
    refine .cons ⟨?_, by decide⟩ (.cons ⟨?_, by decide⟩ (.cons ⟨?_, by decide⟩ (.cons ⟨?_, by decide⟩ .nil)))
    · exact (toNum_iff _ _).1 (by decide +kernel)
    · exact (toNum_iff _ _).1 (by decide +kernel)
    · exact (toNum_iff _ _).1 (by decide +kernel)
    · exact (toNum_iff _ _).1 (by decide +kernel)

/-- A file whose lattice vectors lie in a plane. -/
example : init none (some c!"c\n2\n1 0 0\n0 1 0\n1 1 0\nH\n1\nDirect\n0 0 0\n\n1 1 2\n 0 3\n") =
    .ok ⟨⟨[2, 1, 1], [.num .nan, .anyInf]⟩, .none⟩ := by decide +kernel

end Verif.ChgcarFull
