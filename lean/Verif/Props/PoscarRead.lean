import Verif.Props.PoscarGroup
import Verif.Lemmas.Kpoints
import Verif.Lemmas.NumClass
import Verif.Lemmas.Exits
/-! # Reading POSCAR: species assignment (C14), VASP 4 files (C20) -/
set_option autoImplicit false
namespace Verif.Poscar
open Verif Verif.Utils Verif.Lattice
open Verif.Kpoints (idx toFloat toInt)

theorem idx_ok {α} {l : List α} {i : Nat} {a : α} : idx l i = .ok a ↔ l[i]? = some a := by
  unfold idx
  cases l[i]? <;> simp

/-! ### C14 -/

/-- Specification: zero counts occur only in the first place or at the end of the count line; no count is negative. -/
def ZerosOutside (atoms : List Int) : Prop :=
  ∀ a rest, atoms = a :: rest → 0 ≤ a ∧ ∃ (pos : List Int) (m : Nat), rest = pos ++ List.replicate m 0 ∧ ∀ b ∈ pos, 0 < b

theorem expand_cons (s : Str) (ss : List Str) (n : Nat) (ns : List Nat) :
    expand (s :: ss) (n :: ns) = List.replicate n s ++ expand ss ns := by simp [expand]

theorem expand_zeros (ss : List Str) (m : Nat) : expand ss (List.replicate m 0) = [] := by
  induction m generalizing ss with
  | zero => simp [expand]
  | succ m ih =>
    cases ss with
    | nil => simp [expand]
    | cons s ss => rw [List.replicate_succ, expand_cons, ih]; rfl

theorem sum_nonneg_pos {l : List Int} (h : ∀ b ∈ l, 0 < b) : 0 ≤ l.sum := by
  induction l with
  | nil => simp
  | cons a as ih =>
    have h1 := h a (by simp)
    have h2 := ih (fun b hb => h b (by simp [hb]))
    simp only [List.sum_cons]; omega

theorem readSites_length (h : Header) (lines : List Str) (n i slot : Nat) (index : Int) (raws : List Raw)
    (hr : readSites h lines n i slot index = .ok raws) : raws.length = n := by
  induction n generalizing i slot index raws with
  | zero => unfold readSites at hr; cases hr; rfl
  | succ n ih =>
    unfold readSites at hr
    simp only [Res.bind_eq_ok] at hr
    obtain ⟨a, _, s, _, line, _, v, _, f, _, rest, hrest, heq⟩ := hr
    cases heq
    simp [ih _ _ _ _ hrest]

/-- Site by site: the coordinates and flags come from the site's own line. -/
theorem readSites_lines (h : Header) (lines : List Str) (n i slot : Nat) (index : Int) (raws : List Raw)
    (hr : readSites h lines n i slot index = .ok raws) (k : Nat) (r : Raw) (hk : raws[k]? = some r) :
    ∃ line, lines[i + k + h.loopmax]? = some line ∧ readPos h line = .ok r.position ∧ readFlags line h.selective = .ok r.flags := by
  induction n generalizing i slot index raws k with
  | zero => unfold readSites at hr; cases hr; simp at hk
  | succ n ih =>
    unfold readSites at hr
    simp only [Res.bind_eq_ok] at hr
    obtain ⟨a, _, s, _, line, hline, v, hv, f, hf, rest, hrest, heq⟩ := hr
    cases heq
    cases k with
    | zero =>
      simp only [List.getElem?_cons_zero, Option.some.injEq] at hk
      subst hk
      exact ⟨line, idx_ok.1 hline, hv, hf⟩
    | succ k =>
      simp only [List.getElem?_cons_succ] at hk
      obtain ⟨l, h1, h2⟩ := ih _ _ _ _ hrest k hk
      refine ⟨l, ?_, h2⟩
      rw [show i + (k + 1) + h.loopmax = i + 1 + k + h.loopmax by omega]
      exact h1

theorem drop_of_idx {α} {l : List α} {i : Nat} {a : α} (h : l[i]? = some a) : l.drop i = a :: l.drop (i + 1) := by
  obtain ⟨hi, rfl⟩ := List.getElem?_eq_some_iff.1 h
  exact List.drop_eq_getElem_cons hi

theorem readSites_species (h : Header) (lines : List Str) (n i slot : Nat) (index : Int) (raws : List Raw)
    (hr : readSites h lines n i slot index = .ok raws) (a : Int) (pos : List Int) (m : Nat)
    (hd : h.atoms.drop slot = a :: (pos ++ List.replicate m 0)) (hpos : ∀ b ∈ pos, 0 < b)
    (h1 : 1 ≤ index) (h2 : index ≤ a + 1) (hn : (n : Int) = a - index + 1 + pos.sum) :
    raws.map Raw.specie = expand (h.spec.drop slot) ((a - index + 1).toNat :: (pos ++ List.replicate m 0).map Int.toNat) := by
  induction n generalizing i slot index raws a pos with
  | zero =>
    unfold readSites at hr; cases hr
    have hs := sum_nonneg_pos hpos
    have ha : a - index + 1 = 0 := by omega
    have hps : pos = [] := by
      cases pos with
      | nil => rfl
      | cons b bs =>
        have := hpos b (by simp)
        have h3 := sum_nonneg_pos (l := bs) (fun c hc => hpos c (by simp [hc]))
        simp only [List.sum_cons] at hn
        omega
    subst hps
    rw [ha]
    cases h.spec.drop slot with
    | nil => simp [expand]
    | cons s ss => rw [expand_cons]; simp [expand_zeros]
  | succ n ih =>
    unfold readSites at hr
    simp only [Res.bind_eq_ok] at hr
    obtain ⟨a', ha', s, hs, line, hline, v, hv, f, hf, rest, hrest, heq⟩ := hr
    cases heq
    have haa : a' = a := by
      have := idx_ok.1 ha'
      have h3 : (h.atoms.drop slot)[0]? = some a' := by rw [List.getElem?_drop]; simpa using this
      rw [hd] at h3; simpa using h3.symm
    subst haa
    by_cases hgt : index > a'
    · rw [if_pos hgt, if_pos hgt] at hrest
      rw [if_pos hgt] at hs
      have ha0 : a' - index + 1 = 0 := by omega
      cases pos with
      | nil => simp at hn; omega
      | cons b bs =>
        have hb := hpos b (by simp)
        have hd' : h.atoms.drop (slot + 1) = b :: (bs ++ List.replicate m 0) := by
          rw [← List.tail_drop, hd]; rfl
        have hrec := ih (i + 1) (slot + 1) (1 + 1) rest hrest b bs hd' (fun c hc => hpos c (by simp [hc])) (by omega) (by omega)
          (by simp only [List.sum_cons] at hn; omega)
        have hsp := drop_of_idx (idx_ok.1 hs)
        simp only [List.map_cons, hrec, ha0]
        have hb' : b.toNat = (b - (1 + 1) + 1).toNat + 1 := by omega
        cases hdr : h.spec.drop slot with
        | nil =>
          have : h.spec.drop (slot + 1) = [] := by rw [← List.tail_drop, hdr]; rfl
          rw [this] at hsp; cases hsp
        | cons t ts =>
          have : h.spec.drop (slot + 1) = ts := by rw [← List.tail_drop, hdr]; rfl
          rw [this] at hsp
          rw [this, hsp, expand_cons, expand_cons, List.cons_append, List.map_cons, expand_cons, hb']
          simp [List.replicate_succ]
    · rw [if_neg hgt, if_neg hgt] at hrest
      rw [if_neg hgt] at hs
      have hrec := ih (i + 1) slot (index + 1) rest hrest a' pos hd hpos (by omega) (by omega) (by omega)
      have hsp := drop_of_idx (idx_ok.1 hs)
      rw [hsp, expand_cons] at hrec
      rw [hsp, expand_cons, List.map_cons, hrec]
      have : (a' - index + 1).toNat = (a' - (index + 1) + 1).toNat + 1 := by omega
      rw [this]
      simp [List.replicate_succ]

theorem sum_toNat_nonneg {l : List Int} (n : Nat) (h : (n : Int) = l.sum) : l.sum.toNat = n := by omega

theorem assemble_specie (raws : List Raw) (v p : Option (List Vec)) : (assemble raws v p).map Site.specie = raws.map (fun r => lower r.specie) := by
  unfold assemble
  rw [List.map_map]
  have : (Site.specie ∘ fun (x : Raw × Nat) =>
      Site.new x.1.specie x.1.position x.1.flags (v.bind fun l => l[x.2]?) (p.bind fun l => l[x.2]?) true) =
      (fun r : Raw => lower r.specie) ∘ Prod.fst := rfl
  show raws.zipIdx.map (Site.specie ∘ _) = _
  rw [this, ← List.map_map, List.zipIdx_map_fst]

/-- A successful parse has a header and a loop over positions. -/
theorem parse_ok {lines : List Str} {p : Parsed} (h : parse lines = .ok p) :
    ∃ hd raws v q, readHeader lines = .ok hd ∧ 0 ≤ hd.atoms.sum ∧ readSites hd lines hd.atoms.sum.toNat 0 0 1 = .ok raws ∧
      p = ⟨hd.comment, hd.cell, assemble raws v q⟩ := by
  unfold parse at h
  obtain ⟨hd, hhd, h⟩ := Res.bind_eq_ok.1 h
  dsimp only at h
  by_cases hneg : hd.atoms.sum < 0
  · rw [if_pos hneg] at h; cases h
  · rw [if_neg hneg] at h
    obtain ⟨raws, hraws, h⟩ := Res.bind_eq_ok.1 h
    obtain ⟨t, ht, h⟩ := Res.bind_eq_ok.1 h
    split at h
    · obtain ⟨vels, _, h⟩ := Res.bind_eq_ok.1 h
      obtain ⟨preds, _, h⟩ := Res.bind_eq_ok.1 h
      cases h
      exact ⟨hd, raws, _, _, hhd, by omega, hraws, rfl⟩
    · split at h
      · obtain ⟨preds, _, h⟩ := Res.bind_eq_ok.1 h
        cases h
        exact ⟨hd, raws, _, _, hhd, by omega, hraws, rfl⟩
      · cases h
        exact ⟨hd, raws, _, _, hhd, by omega, hraws, rfl⟩

/-- What the header takes from the species and count lines. -/
theorem readHeader_ok {lines : List Str} {hd : Header} (h : readHeader lines = .ok hd) :
    ∃ l5 l6, lines[5]? = some l5 ∧ lines[6]? = some l6 ∧ hd.spec = words l5 ∧ Res.mapM' toInt (words l6) = .ok hd.atoms := by
  unfold readHeader at h
  obtain ⟨l0, h0, h⟩ := Res.bind_eq_ok.1 h
  obtain ⟨l5, h5, h⟩ := Res.bind_eq_ok.1 h
  obtain ⟨l1, h1, h⟩ := Res.bind_eq_ok.1 h
  obtain ⟨w, hw, h⟩ := Res.bind_eq_ok.1 h
  obtain ⟨sc, hsc, h⟩ := Res.bind_eq_ok.1 h
  split at h
  · cases h
  split at h
  · cases h
  obtain ⟨l2, h2, h⟩ := Res.bind_eq_ok.1 h
  obtain ⟨a, ha, h⟩ := Res.bind_eq_ok.1 h
  obtain ⟨l3, h3, h⟩ := Res.bind_eq_ok.1 h
  obtain ⟨b, hb, h⟩ := Res.bind_eq_ok.1 h
  obtain ⟨l4, h4, h⟩ := Res.bind_eq_ok.1 h
  obtain ⟨c, hc, h⟩ := Res.bind_eq_ok.1 h
  obtain ⟨cell, hcell, h⟩ := Res.bind_eq_ok.1 h
  obtain ⟨l6, h6, h⟩ := Res.bind_eq_ok.1 h
  obtain ⟨atoms, hatoms, h⟩ := Res.bind_eq_ok.1 h
  obtain ⟨l7, h7, h⟩ := Res.bind_eq_ok.1 h
  obtain ⟨c7, hc7, h⟩ := Res.bind_eq_ok.1 h
  dsimp only at h
  split at h
  · obtain ⟨l8, h8, h⟩ := Res.bind_eq_ok.1 h
    obtain ⟨c8, hc8, h⟩ := Res.bind_eq_ok.1 h
    cases h
    exact ⟨l5, l6, idx_ok.1 h5, idx_ok.1 h6, rfl, hatoms⟩
  · cases h
    exact ⟨l5, l6, idx_ok.1 h5, idx_ok.1 h6, rfl, hatoms⟩

/-- C14, number of sites: it is the sum of the count line, for every count line. -/
theorem C14_number (lines : List Str) (p : Parsed) (h : parse lines = .ok p) :
    ∃ l6 counts, lines[6]? = some l6 ∧ Res.mapM' toInt (words l6) = .ok counts ∧ (p.sites.length : Int) = counts.sum := by
  obtain ⟨hd, raws, v, q, hhd, hnn, hraws, rfl⟩ := parse_ok h
  obtain ⟨l5, l6, h5, h6, hsp, hat⟩ := readHeader_ok hhd
  refine ⟨l6, hd.atoms, h6, hat, ?_⟩
  have := readSites_length _ _ _ _ _ _ _ hraws
  simp [assemble, this, hnn]

/-- C14, proved part: when zero counts occur only in the first place or at the end of the count line, site `i` has the `i`-th name
of the expansion of the species line by the count line (names are stored in lower case). Missing: other zero counts, for which
the claim is false (`C14_violation`). -/
theorem C14_species_partial (lines : List Str) (p : Parsed) (h : parse lines = .ok p) (l5 l6 : Str) (counts : List Int)
    (h5 : lines[5]? = some l5) (h6 : lines[6]? = some l6) (hc : Res.mapM' toInt (words l6) = .ok counts) (hz : ZerosOutside counts) :
    p.sites.map Site.specie = (expand (words l5) (counts.map Int.toNat)).map lower := by
  obtain ⟨hd, raws, v, q, hhd, hnn, hraws, rfl⟩ := parse_ok h
  obtain ⟨l5', l6', h5', h6', hsp, hat⟩ := readHeader_ok hhd
  rw [h5] at h5'; cases h5'
  rw [h6] at h6'; cases h6'
  rw [hc] at hat; cases hat
  show (assemble raws v q).map Site.specie = _
  have hcomp : raws.map (fun r => lower r.specie) = (raws.map Raw.specie).map lower := by rw [List.map_map]; rfl
  rw [assemble_specie, hcomp]
  congr 1
  rw [← hsp]
  cases hcs : hd.atoms with
  | nil =>
    rw [hcs] at hraws
    simp only [List.sum_nil, Int.toNat_zero] at hraws
    unfold readSites at hraws; cases hraws
    simp [expand]
  | cons a rest =>
    obtain ⟨ha, pos, m, hrest, hpos⟩ := hz a rest hcs
    have := readSites_species hd lines _ 0 0 1 raws hraws a pos m (by rw [List.drop_zero, hcs, hrest]) hpos (by omega) (by omega)
      (by
        rw [Int.toNat_of_nonneg hnn, hcs, hrest]
        simp)
    rw [this, List.drop_zero, hrest]
    congr 2
    omega

/-- A file with the counts `1 0 1`. -/
def zeroCountLines : List Str :=
  [c!"c\n", c!"1.0\n", c!"1 0 0\n", c!"0 1 0\n", c!"0 0 1\n", c!"H He Li\n", c!"1 0 1\n", c!"Direct\n", c!"0 0 0\n", c!"0.5 0 0\n"]

/-- C14 is false: with the counts `1 0 1` for `H He Li` the second site is read as helium instead of lithium. -/
theorem C14_violation : ∃ lines p, parse lines = .ok p ∧ lines[5]? = some c!"H He Li\n" ∧ lines[6]? = some c!"1 0 1\n" ∧
    p.sites.map Site.specie = [c!"h", c!"he"] ∧ expand [c!"h", c!"he", c!"li"] [1, 0, 1] = [c!"h", c!"li"] := by
  refine ⟨zeroCountLines, ⟨c!"c", some ⟨⟨1, 0, 0⟩, ⟨0, 1, 0⟩, ⟨0, 0, 1⟩⟩,
    [Site.new c!"h" ⟨0, 0, 0⟩ (true, true, true) none none true, Site.new c!"he" ⟨1/2, 0, 0⟩ (true, true, true) none none true]⟩, ?_⟩
  decide +kernel

example : ∃ p, parse (zeroCountLines.set 6 c!"0 2 0\n") = .ok p ∧ p.sites.map Site.specie = [c!"he", c!"he"] ∧ ZerosOutside [0, 2, 0] := by
  refine ⟨⟨c!"c", some ⟨⟨1, 0, 0⟩, ⟨0, 1, 0⟩, ⟨0, 0, 1⟩⟩,
    [Site.new c!"he" ⟨0, 0, 0⟩ (true, true, true) none none true, Site.new c!"he" ⟨1/2, 0, 0⟩ (true, true, true) none none true]⟩, by decide +kernel, by decide +kernel, ?_⟩
  intro a rest h
  cases h
  exact ⟨by decide, [2], 1, rfl, by decide⟩

/-! ### C20 -/

theorem idx_exits {α} {S : Nat → Prop} (l : List α) (i : Nat) : ExitsIn S (idx l i) := by
  unfold idx; exits

theorem toFloat_exits {S : Nat → Prop} (w : Str) : ExitsIn S (toFloat w) := by
  unfold toFloat; exits

theorem toInt_exits {S : Nat → Prop} (w : Str) : ExitsIn S (toInt w) := by
  unfold toInt; exits

theorem readRow_exits {S : Nat → Prop} (l : Str) : ExitsIn S (readRow l) := ExitsIn.mapM' toFloat_exits _

theorem makeCell_exits {S : Nat → Prop} (s : Rat) (a b c : List Rat) : ExitsIn S (makeCell s a b c) := by
  unfold makeCell
  split
  · exact ExitsIn.ok _
  · exact ExitsIn.ite (ExitsIn.ok _) (ExitsIn.raise _)

theorem readSites_exits (h : Header) (lines : List Str) (n i slot : Nat) (index : Int) :
    ExitsIn (fun k => k ≠ 301) (readSites h lines n i slot index) := by
  induction n generalizing i slot index with
  | zero => exact ExitsIn.ok _
  | succ n ih =>
    unfold readSites
    unfold readPos readVec readFlags readFlag toDirect idx toFloat
    dsimp only
    exits

theorem readVecs_exits (lines : List Str) (p n : Nat) (conv : Vec → Res Vec) (hc : ∀ v, ExitsIn (fun k => k ≠ 301) (conv v)) :
    ExitsIn (fun k => k ≠ 301) (readVecs lines p n conv) := by
  unfold readVecs readVec idx toFloat
  dsimp only
  exits

theorem readTail_exits (lines : List Str) (p : Nat) : ExitsIn (fun k => k ≠ 301) (readTail lines p) := by
  unfold readTail idx
  exits

theorem readPredAfter_exits (lines : List Str) (p n : Nat) : ExitsIn (fun k => k ≠ 301) (readPredAfter lines p n) := by
  unfold readPredAfter idx
  have h := readVecs_exits lines (p + 1) n .ok (fun v => ExitsIn.ok v)
  exits

/-- C20, exactly: a text is refused with 301 if and only if its scaling factor is a non-negative number and every piece of its
sixth line between single blanks is a number. -/
theorem C20_exact (lines : List Str) :
    parse lines = .exit 301 ↔ ∃ l0 l1 l5 w d, lines[0]? = some l0 ∧ lines[1]? = some l1 ∧ lines[5]? = some l5 ∧
      (words l1)[0]? = some w ∧ pyFloat w = some (.fin d) ∧ 0 ≤ d.toRat ∧ ∀ x ∈ splitOn ' ' l5, (pyFloat x).isSome = true := by
  constructor
  · intro h
    have hh : readHeader lines = .exit 301 := by
      unfold parse at h
      cases hr : readHeader lines with
      | exit c => rw [hr, Res.exit_bind] at h; cases h; rfl
      | raise e => rw [hr] at h; cases h
      | ok hd =>
        rw [hr] at h
        exfalso
        revert h
        have : ExitsIn (fun k => k ≠ 301) (if hd.atoms.sum < 0 then (.raise .outOfModel : Res Parsed)
          else
            let n := hd.atoms.sum.toNat
            readSites hd lines n 0 0 1 >>= fun raws =>
            readTail lines (n + hd.loopmax) >>= fun t =>
            if t.1 then
              readVecs lines (n + hd.loopmax + 1) n (fun v => if hd.direct && !t.2.1 then .ok v else toDirect v hd.cell) >>= fun vels =>
              readPredAfter lines (n + (n + hd.loopmax + 1)) n >>= fun preds =>
              .ok ⟨hd.comment, hd.cell, assemble raws (some vels) preds⟩
            else if t.2.2 then
              readVecs lines (n + hd.loopmax + 1) n .ok >>= fun preds =>
              .ok ⟨hd.comment, hd.cell, assemble raws Option.none (some preds)⟩
            else .ok ⟨hd.comment, hd.cell, assemble raws Option.none Option.none⟩) := by
          have e1 := readSites_exits hd lines
          have e2 := readTail_exits lines
          have e3 := readVecs_exits lines
          have e4 := readPredAfter_exits lines
          refine ExitsIn.ite (ExitsIn.raise _) ?_
          dsimp only
          refine ExitsIn.bind (e1 _ _ _ _) fun raws => ExitsIn.bind (e2 _) fun t => ?_
          refine ExitsIn.ite (ExitsIn.bind (e3 _ _ _ ?_) fun vels => ExitsIn.bind (e4 _ _) fun preds => ExitsIn.ok _) ?_
          · intro v
            unfold toDirect
            exits
          · exact ExitsIn.ite (ExitsIn.bind (e3 _ _ _ fun v => ExitsIn.ok v) fun preds => ExitsIn.ok _) (ExitsIn.ok _)
        intro h
        exact this.of 301 h rfl
    unfold readHeader at hh
    cases h0 : idx lines 0 with
    | exit c => unfold idx at h0; split at h0 <;> cases h0
    | raise e => rw [h0] at hh; cases hh
    | ok l0 =>
    rw [h0, Res.ok_bind] at hh
    cases h5 : idx lines 5 with
    | exit c => unfold idx at h5; split at h5 <;> cases h5
    | raise e => rw [h5] at hh; cases hh
    | ok l5 =>
    rw [h5, Res.ok_bind] at hh
    cases h1 : idx lines 1 with
    | exit c => unfold idx at h1; split at h1 <;> cases h1
    | raise e => rw [h1] at hh; cases hh
    | ok l1 =>
    rw [h1, Res.ok_bind] at hh
    cases hw : idx (words l1) 0 with
    | exit c => unfold idx at hw; split at hw <;> cases hw
    | raise e => rw [hw] at hh; cases hh
    | ok w =>
    rw [hw, Res.ok_bind] at hh
    cases hs : toFloat w with
    | exit c => unfold toFloat at hs; split at hs <;> cases hs
    | raise e => rw [hs] at hh; cases hh
    | ok s =>
    rw [hs, Res.ok_bind] at hh
    split at hh
    · cases hh
    rename_i hneg
    split at hh
    · rename_i hnum
      unfold toFloat at hs
      split at hs
      · rename_i d hd
        cases hs
        refine ⟨l0, l1, l5, w, d, idx_ok.1 h0, idx_ok.1 h1, idx_ok.1 h5, idx_ok.1 hw, hd, not_lt.1 hneg, ?_⟩
        unfold isNumbers at hnum
        rw [List.all_eq_true] at hnum
        exact hnum
      · cases hs
      · cases hs
    · exfalso
      revert hh
      have hrest : ∀ (r : Res Header), ExitsIn (fun k => k ≠ 301) r → r = .exit 301 → False := fun r hr h => hr.of 301 h rfl
      refine hrest _ ?_
      have i1 : ∀ (l : List Str) i, ExitsIn (fun k => k ≠ 301) (idx l i) := fun l i => idx_exits l i
      have i2 : ∀ (l : List Char) i, ExitsIn (fun k => k ≠ 301) (idx l i) := fun l i => idx_exits l i
      refine ExitsIn.bind (i1 _ _) fun l2 => ExitsIn.bind (readRow_exits _) fun a => ?_
      refine ExitsIn.bind (i1 _ _) fun l3 => ExitsIn.bind (readRow_exits _) fun b => ?_
      refine ExitsIn.bind (i1 _ _) fun l4 => ExitsIn.bind (readRow_exits _) fun c => ?_
      refine ExitsIn.bind (makeCell_exits _ _ _ _) fun cell => ?_
      refine ExitsIn.bind (i1 _ _) fun l6 => ExitsIn.bind (ExitsIn.mapM' toInt_exits _) fun atoms => ?_
      refine ExitsIn.bind (i1 _ _) fun l7 => ExitsIn.bind (i2 _ _) fun c7 => ?_
      dsimp only
      refine ExitsIn.ite ?_ (ExitsIn.ok _)
      exact ExitsIn.bind (i1 _ _) fun l8 => ExitsIn.bind (i2 _ _) fun c8 => ExitsIn.ok _
  · rintro ⟨l0, l1, l5, w, d, h0, h1, h5, hw, hd, hnn, hall⟩
    have hf : toFloat w = .ok d.toRat := by unfold toFloat; rw [hd]
    have hnum : isNumbers l5 = true := by unfold isNumbers; rw [List.all_eq_true]; exact hall
    unfold parse readHeader
    rw [idx_ok.2 h0, Res.ok_bind, idx_ok.2 h5, Res.ok_bind, idx_ok.2 h1, Res.ok_bind, idx_ok.2 hw, Res.ok_bind, hf, Res.ok_bind,
      if_neg (not_lt.2 hnn), if_pos hnum]
    rfl

theorem isSpace_of_isNumber_blank {x : Str} (h : ∀ c ∈ x, isSpace c = true) : pyFloat x = none := by
  have hs : strip x = [] := by
    unfold strip lstrip rstrip
    have : x.dropWhile isSpace = [] := by
      have := dropWhile_spaces_append x [] h
      simpa using this
    rw [this]; rfl
  unfold pyFloat
  rw [hs]
  decide

/-- C20 is false for padded count lines: a sixth line that begins with a blank, or has two blanks in a row, or a blank
before its line end, is never recognised, so the text is not refused with 301. -/
theorem C20_violation_padded (lines : List Str) (a b : Str) (h : lines[5]? = some (a ++ ' ' :: b))
    (hpad : a = [] ∨ (∃ a', a = a' ++ [' ']) ∨ ∀ c ∈ b, isSpace c = true ∧ c ≠ ' ') : parse lines ≠ .exit 301 := by
  rw [Ne, C20_exact]
  rintro ⟨l0, l1, l5, w, d, h0, h1, h5, hw, hd, hnn, hall⟩
  rw [h] at h5; cases h5
  rw [splitOn_sep] at hall
  rcases hpad with rfl | ⟨a', rfl⟩ | hb
  · have := hall [] (by simp [splitOn, splitP])
    revert this; decide
  · have : splitOn ' ' (a' ++ ' ' :: []) = splitOn ' ' a' ++ splitOn ' ' [] := splitOn_sep _ _ _
    rw [this] at hall
    have := hall [] (by simp [splitOn, splitP])
    revert this; decide
  · have hb' : splitOn ' ' b = [b] := splitOn_free (fun hm => (hb _ hm).2 rfl)
    have := hall b (by rw [hb']; simp)
    rw [isSpace_of_isNumber_blank (fun c hc => (hb c hc).1)] at this
    cases this

/-- C20, proved part: numbers of ions separated by single blanks are refused with 301, for every scaling factor that is a
non-negative number. Missing: other spacings (false, `C20_violation_padded`) and negative factors, which exit 307. -/
theorem C20_single_spaced_partial (lines : List Str) (l0 l1 : Str) (nums : List Int) (hne : nums ≠ []) (suf : Str) (hsuf : Eol suf)
    (h0 : lines[0]? = some l0) (h1 : lines[1]? = some l1) (h5 : lines[5]? = some (join [' '] (nums.map intStr) ++ suf))
    (w : Str) (d : Dec) (hw : (words l1)[0]? = some w) (hd : pyFloat w = some (.fin d)) (hnn : 0 ≤ d.toRat) :
    parse lines = .exit 301 := by
  rw [C20_exact]
  refine ⟨l0, l1, _, w, d, h0, h1, h5, hw, hd, hnn, ?_⟩
  have hfree : ∀ i : Int, ' ' ∉ intStr i := by
    intro i hm
    have := (NumChars.free (intStr_numChars i)) _ hm
    revert this; decide
  have hnum : ∀ (i : Int) (s : Str), Eol s → (pyFloat (intStr i ++ s)).isSome = true := by
    intro i s hs
    have hstrip : pyFloat (intStr i ++ s) = pyFloat (intStr i) := by unfold pyFloat; rw [hs.strip]
    rw [hstrip]
    rcases pyFloat_of_pyInt (pyInt_intStr i) with h
    obtain ⟨d, hd, _⟩ := h; rw [hd]; rfl
  have hsufb : ' ' ∉ suf := by rcases hsuf with rfl | rfl <;> decide
  clear h5
  induction nums with
  | nil => exact absurd rfl hne
  | cons n ns ih =>
    cases ns with
    | nil =>
      intro x hx
      simp only [List.map_cons, List.map_nil, join] at hx
      rw [splitOn_free (by rw [List.mem_append]; exact fun h => h.elim (hfree n) hsufb)] at hx
      simp only [List.mem_singleton] at hx
      subst hx
      exact hnum n suf hsuf
    | cons m ms =>
      intro x hx
      rw [List.map_cons, join_cons_ne (by simp), List.append_assoc, List.append_assoc, List.singleton_append, splitOn_sep,
        splitOn_free (hfree n), List.mem_append] at hx
      rcases hx with hx | hx
      · simp only [List.mem_singleton] at hx
        subst hx
        have := hnum n [] (.inl rfl)
        simpa using this
      · exact ih (by simp) x hx

/-- A VASP 4 file. -/
def vasp4Lines (counts : Str) : List Str :=
  [c!"c\n", c!"1.0\n", c!"1 0 0\n", c!"0 1 0\n", c!"0 0 1\n", counts, c!"Direct\n", c!"0 0 0\n", c!"0.5 0 0\n"]

example : parse (vasp4Lines c!"1 1\n") = .exit 301 := by decide +kernel
example : parse (vasp4Lines c!" 1 1\n") = .raise .valueError := by decide +kernel

end Verif.Poscar
