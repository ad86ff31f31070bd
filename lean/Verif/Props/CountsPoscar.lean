import Verif.Model.PoscarCounts
import Verif.Lemmas.Agree
import Verif.Props.PoscarMotion
/-! C124 for POSCAR: impossible numbers of ions. -/
set_option autoImplicit false
namespace Verif.Poscar
open Verif Verif.Utils
open Verif.Kpoints (idx toFloat toInt)

/-- Specification: line 6 prints these numbers of ions. -/
def Counts (lines : List Str) (l : List Int) : Prop := ∃ line, lines[6]? = some line ∧ List.Forall₂ (fun w n => pyInt w = some n) (words line) l

theorem toInt_ok (w : Str) (n : Int) : toInt w = .ok n ↔ pyInt w = some n := by
  unfold toInt
  cases pyInt w <;> simp

theorem header_counts {lines : List Str} {hd : Header} (h : readHeader lines = .ok hd) : Counts lines hd.atoms := by
  unfold readHeader at h
  obtain ⟨l0, h0, h⟩ := Res.bind_eq_ok.1 h
  obtain ⟨l5, h5, h⟩ := Res.bind_eq_ok.1 h
  obtain ⟨l1, h1, h⟩ := Res.bind_eq_ok.1 h
  obtain ⟨w, hw, h⟩ := Res.bind_eq_ok.1 h
  obtain ⟨sc, hsc, h⟩ := Res.bind_eq_ok.1 h
  split at h
  · cases h
  split at h
  · cases h
  obtain ⟨l2, h2, h⟩ := Res.bind_eq_ok.1 h
  obtain ⟨a, ha, h⟩ := Res.bind_eq_ok.1 h
  obtain ⟨l3, h3, h⟩ := Res.bind_eq_ok.1 h
  obtain ⟨b, hb, h⟩ := Res.bind_eq_ok.1 h
  obtain ⟨l4, h4, h⟩ := Res.bind_eq_ok.1 h
  obtain ⟨c, hc, h⟩ := Res.bind_eq_ok.1 h
  obtain ⟨cell, hcell, h⟩ := Res.bind_eq_ok.1 h
  obtain ⟨l6, h6, h⟩ := Res.bind_eq_ok.1 h
  obtain ⟨atoms, hat, h⟩ := Res.bind_eq_ok.1 h
  have key : Counts lines atoms := by
    refine ⟨l6, idx_ok.1 h6, ?_⟩
    have := Res.mapM'_eq_ok.1 hat
    simpa only [toInt_ok] using this
  obtain ⟨l7, h7, h⟩ := Res.bind_eq_ok.1 h
  obtain ⟨c7, hc7, h⟩ := Res.bind_eq_ok.1 h
  split at h
  · obtain ⟨l8, h8, h⟩ := Res.bind_eq_ok.1 h
    obtain ⟨c8, hc8, h⟩ := Res.bind_eq_ok.1 h
    cases h; exact key
  · cases h; exact key

theorem idx_set_ne {α : Type} (l : List α) (a : α) (i j : Nat) (h : i ≠ j) : idx (l.set i a) j = idx l j := by
  unfold idx
  rw [List.getElem?_set_ne h]

/-- The header of a file with other numbers of ions. -/
theorem header_set {lines : List Str} {hd : Header} (h : readHeader lines = .ok hd) (l6' : Str) (counts : List Int)
    (hc' : List.Forall₂ (fun w n => pyInt w = some n) (words l6') counts) :
    readHeader (lines.set 6 l6') = .ok { hd with atoms := counts } := by
  have e : ∀ j, j ≠ 6 → idx (lines.set 6 l6') j = idx lines j := fun j hj => idx_set_ne _ _ _ _ (Ne.symm hj)
  have hm : Res.mapM' toInt (words l6') = .ok counts := by rw [Res.mapM'_eq_ok]; simpa only [toInt_ok] using hc'
  unfold readHeader at h ⊢
  rw [e 0 (by omega), e 5 (by omega), e 1 (by omega), e 2 (by omega), e 3 (by omega), e 4 (by omega), e 7 (by omega), e 8 (by omega)]
  obtain ⟨l0, h0, h⟩ := Res.bind_eq_ok.1 h
  obtain ⟨l5, h5, h⟩ := Res.bind_eq_ok.1 h
  obtain ⟨l1, h1, h⟩ := Res.bind_eq_ok.1 h
  obtain ⟨w, hw, h⟩ := Res.bind_eq_ok.1 h
  obtain ⟨sc, hsc, h⟩ := Res.bind_eq_ok.1 h
  rw [h0, Res.ok_bind, h5, Res.ok_bind, h1, Res.ok_bind, hw, Res.ok_bind, hsc, Res.ok_bind]
  split at h
  · cases h
  rename_i n1
  rw [if_neg n1]
  split at h
  · cases h
  rename_i n2
  rw [if_neg n2]
  obtain ⟨l2, h2, h⟩ := Res.bind_eq_ok.1 h
  obtain ⟨a, ha, h⟩ := Res.bind_eq_ok.1 h
  obtain ⟨l3, h3, h⟩ := Res.bind_eq_ok.1 h
  obtain ⟨b, hb, h⟩ := Res.bind_eq_ok.1 h
  obtain ⟨l4, h4, h⟩ := Res.bind_eq_ok.1 h
  obtain ⟨c, hc, h⟩ := Res.bind_eq_ok.1 h
  obtain ⟨cell, hcell, h⟩ := Res.bind_eq_ok.1 h
  obtain ⟨l6, h6, h⟩ := Res.bind_eq_ok.1 h
  obtain ⟨atoms, hat, h⟩ := Res.bind_eq_ok.1 h
  obtain ⟨l7, h7, h⟩ := Res.bind_eq_ok.1 h
  obtain ⟨c7, hc7, h⟩ := Res.bind_eq_ok.1 h
  have hlen : 6 < lines.length := by
    by_contra hcon
    rw [idx_ok, List.getElem?_eq_none (by omega)] at h6; cases h6
  have h6' : idx (lines.set 6 l6') 6 = .ok l6' := by rw [idx_ok]; exact List.getElem?_set_self hlen
  rw [h2, Res.ok_bind, ha, Res.ok_bind, h3, Res.ok_bind, hb, Res.ok_bind, h4, Res.ok_bind, hc, Res.ok_bind, hcell, Res.ok_bind, h6', Res.ok_bind, hm,
    Res.ok_bind, h7, Res.ok_bind, hc7, Res.ok_bind]
  dsimp only at h ⊢
  split at h
  · rename_i hs
    rw [if_pos hs]
    obtain ⟨l8, h8, h⟩ := Res.bind_eq_ok.1 h
    obtain ⟨c8, hc8, h⟩ := Res.bind_eq_ok.1 h
    rw [h8, Res.ok_bind, hc8, Res.ok_bind]
    cases h; rfl
  · rename_i hs
    rw [if_neg hs]
    cases h; rfl

/-- The first lines of a header that is read: line 7 begins with the character that says whether there are flags. -/
theorem header_mode {lines : List Str} {hd : Header} (h : readHeader lines = .ok hd) :
    ∃ l7 c, lines[7]? = some l7 ∧ l7[0]? = some c ∧ (hd.selective = true ↔ lowerC c = 's') ∧ hd.loopmax = (if hd.selective then 9 else 8) := by
  obtain ⟨-, hl, -⟩ := readHeader_layout h
  unfold readHeader at h
  obtain ⟨l0, h0, h⟩ := Res.bind_eq_ok.1 h
  obtain ⟨l5, h5, h⟩ := Res.bind_eq_ok.1 h
  obtain ⟨l1, h1, h⟩ := Res.bind_eq_ok.1 h
  obtain ⟨w, hw, h⟩ := Res.bind_eq_ok.1 h
  obtain ⟨sc, hsc, h⟩ := Res.bind_eq_ok.1 h
  split at h
  · cases h
  split at h
  · cases h
  obtain ⟨l2, h2, h⟩ := Res.bind_eq_ok.1 h
  obtain ⟨a, ha, h⟩ := Res.bind_eq_ok.1 h
  obtain ⟨l3, h3, h⟩ := Res.bind_eq_ok.1 h
  obtain ⟨b, hb, h⟩ := Res.bind_eq_ok.1 h
  obtain ⟨l4, h4, h⟩ := Res.bind_eq_ok.1 h
  obtain ⟨c, hc, h⟩ := Res.bind_eq_ok.1 h
  obtain ⟨cell, hcell, h⟩ := Res.bind_eq_ok.1 h
  obtain ⟨l6, h6, h⟩ := Res.bind_eq_ok.1 h
  obtain ⟨atoms, hat, h⟩ := Res.bind_eq_ok.1 h
  obtain ⟨l7, h7, h⟩ := Res.bind_eq_ok.1 h
  obtain ⟨c7, hc7, h⟩ := Res.bind_eq_ok.1 h
  refine ⟨l7, c7, idx_ok.1 h7, idx_ok.1 hc7, ?_, hl⟩
  dsimp only at h
  split at h
  · rename_i hs
    obtain ⟨l8, h8, h⟩ := Res.bind_eq_ok.1 h
    obtain ⟨c8, hc8, h⟩ := Res.bind_eq_ok.1 h
    cases h; simp [hs]
  · rename_i hs
    cases h; simp [hs]

/-- Both models agree where the first one describes the code. -/
theorem parseZ_agree (lines : List Str) : Agree id (parse lines) (parseZ lines) := by
  unfold parseZ
  cases hh : readHeader lines with
  | exit c => unfold parse; rw [hh]; exact rfl
  | raise e => unfold parse; rw [hh]; exact .inr rfl
  | ok h =>
    rw [Res.ok_bind]
    dsimp only
    split
    · rename_i hn
      unfold parse
      rw [hh, Res.ok_bind]
      dsimp only
      rw [if_pos hn]
      exact .inl rfl
    · exact Agree.refl _

theorem initZ_agree (t : Str) : Agree id (init { handler := some t }) (initZ t) := by
  have hi : init { handler := some t } = (parse (readlines t) >>= fun p => fromDict p.toEntries >>= fun e => validate e >>= fun _ => .ok e) := by
    unfold init load fromFile fromList
    simp only [guards]
    cases parse (readlines t) <;> rfl
  rw [hi]
  unfold initZ
  exact (parseZ_agree _).bind fun p _ => Agree.refl _

/-- What an accepted file with a negative number of ions gives. -/
theorem parseZ_neg {lines : List Str} {P : Parsed} {hd : Header} (hh : readHeader lines = .ok hd) (hn : hd.atoms.sum < 0) (h : parseZ lines = .ok P) :
    P = ⟨hd.comment, hd.cell, []⟩ := by
  unfold parseZ at h
  rw [hh, Res.ok_bind] at h
  dsimp only at h
  rw [if_pos hn] at h
  obtain ⟨t, _, h⟩ := Res.bind_eq_ok.1 h
  split at h
  · obtain ⟨_, _, h⟩ := Res.bind_eq_ok.1 h
    cases h; rfl
  · cases h; rfl

theorem finish_iff (P : Parsed) (hs : ∀ s ∈ P.sites, s.direct = true) (e : Entries) :
    (fromDict P.toEntries >>= fun e => validate e >>= fun _ => Res.ok e) = .ok e ↔ ∃ c, P.cell = some c ∧ e = fileEntries P.comment c P.sites := by
  rw [fromDict_direct ⟨rfl, hs⟩ rfl, Res.ok_bind]
  cases hc : P.cell with
  | none =>
    have : validate P.toEntries = .exit 13 := by
      unfold Parsed.toEntries; rw [hc]; rfl
    rw [this]
    simp
  | some c =>
    have : validate P.toEntries = .ok () := by
      unfold Parsed.toEntries; rw [hc]; rfl
    rw [this, Res.ok_bind]
    have he : P.toEntries = fileEntries P.comment c P.sites := by unfold Parsed.toEntries fileEntries; rw [hc]
    rw [he]
    simp [eq_comm]

/-- C124, POSCAR: in an accepted file the numbers of ions printed add up to the number of sites. Missing: numbers that add up to less than zero,
which should be refused, but may be accepted as a structure without sites (`C124_violation_poscar`). -/
theorem C124_poscar_partial (t : Str) (e : Entries) (h : initZ t = .ok e) :
    ∃ counts, Counts (readlines t) counts ∧ ((0 ≤ counts.sum ∧ (siteCount e : Int) = counts.sum) ∨ (counts.sum < 0 ∧ siteCount e = 0)) := by
  unfold initZ at h
  obtain ⟨P, hP, h⟩ := Res.bind_eq_ok.1 h
  have hP' := hP
  unfold parseZ at hP
  obtain ⟨hd, hh, hP⟩ := Res.bind_eq_ok.1 hP
  refine ⟨hd.atoms, header_counts hh, ?_⟩
  by_cases hn : hd.atoms.sum < 0
  · right
    refine ⟨hn, ?_⟩
    have := parseZ_neg hh hn hP'
    subst this
    obtain ⟨c, _, rfl⟩ := (finish_iff _ (by simp) e).1 h
    rw [siteCount_file]; rfl
  · left
    refine ⟨by omega, ?_⟩
    dsimp only at hP
    rw [if_neg hn] at hP
    have hi : init { handler := some t } = .ok e := by
      have : init { handler := some t } = (parse (readlines t) >>= fun p => fromDict p.toEntries >>= fun e => validate e >>= fun _ => .ok e) := by
        unfold init load fromFile fromList
        simp only [guards]
        cases parse (readlines t) <;> rfl
      rw [this, hP, Res.ok_bind]; exact h
    obtain ⟨P', c, hP2, hc, rfl⟩ := (init_handler _ _).1 hi
    rw [hP2] at hP; cases hP
    rw [siteCount_file]
    obtain ⟨hd', raws, tl, v, q, a1, a2, a3, -, a5, -⟩ := parse_parts hP2
    rw [hh] at a1; cases a1
    rw [a5]
    have : raws.length = hd.atoms.sum.toNat := readSites_length _ _ _ _ _ _ _ a3
    simp only [assemble, List.length_map, List.length_zipIdx]
    omega

/-- C124 is false of POSCAR files whose numbers of ions add up to less than zero: take any accepted file with at least one site and no selective
flags, and print other numbers of ions that add up to -1. The file is accepted as a structure without sites. -/
theorem C124_violation_poscar (t t' : Str) (e : Entries) (h : init { handler := some t } = .ok e) (h1 : 0 < siteCount e)
    (hsel : ∀ l, (readlines t)[7]? = some l → ∀ c, l[0]? = some c → lowerC c ≠ 's') (l6 : Str) (ht : readlines t' = (readlines t).set 6 l6)
    (counts : List Int) (hc : List.Forall₂ (fun w n => pyInt w = some n) (words l6) counts) (hsum : counts.sum = -1) :
    ∃ e', initZ t' = .ok e' ∧ siteCount e' = 0 ∧ e'.get? c!"comment" = e.get? c!"comment" ∧ e'.get? c!"unitcell" = e.get? c!"unitcell" := by
  obtain ⟨P, c, hP, hcell, rfl⟩ := (init_handler _ _).1 h
  obtain ⟨hd, raws, tl, v, q, a1, a2, a3, -, a5, -⟩ := parse_parts hP
  obtain ⟨l7, c7, m1, m2, m3, m4⟩ := header_mode a1
  have hsf : hd.selective = false := by
    cases hs : hd.selective with
    | false => rfl
    | true => exact absurd (m3.1 hs) (hsel l7 m1 c7 m2)
  rw [hsf] at m4
  have hlm : hd.loopmax = 8 := m4
  -- line 8 is the first position
  have h8 : ∃ l8 w, (readlines t)[8]? = some l8 ∧ (words l8)[0]? = some w ∧ isNumber w = true := by
    rw [siteCount_file, a5] at h1
    simp only [assemble, List.length_map, List.length_zipIdx] at h1
    rw [readSites_length _ _ _ _ _ _ _ a3] at h1
    obtain ⟨n, hn⟩ : ∃ n, hd.atoms.sum.toNat = n + 1 := ⟨hd.atoms.sum.toNat - 1, by omega⟩
    rw [hn] at a3
    unfold readSites at a3
    obtain ⟨a, _, a3⟩ := Res.bind_eq_ok.1 a3
    obtain ⟨s, _, a3⟩ := Res.bind_eq_ok.1 a3
    obtain ⟨line, hl, a3⟩ := Res.bind_eq_ok.1 a3
    obtain ⟨vv, hv, a3⟩ := Res.bind_eq_ok.1 a3
    rw [hlm] at hl
    unfold readPos readVec at hv
    obtain ⟨vec, hv, _⟩ := Res.bind_eq_ok.1 hv
    obtain ⟨w, hw, hv⟩ := Res.bind_eq_ok.1 hv
    obtain ⟨x, hx, hv⟩ := Res.bind_eq_ok.1 hv
    refine ⟨line, w, idx_ok.1 hl, idx_ok.1 hw, ?_⟩
    unfold toFloat at hx
    unfold isNumber
    split at hx
    · rename_i d hd'; rw [hd']; rfl
    · cases hx
    · cases hx
  obtain ⟨l8, w, g8, gw, gn⟩ := h8
  have hh' := header_set a1 l6 counts hc
  rw [← ht] at hh'
  have e7 : (readlines t')[7]? = some l7 := by rw [ht, List.getElem?_set_ne (by omega)]; exact m1
  have e8 : (readlines t')[8]? = some l8 := by rw [ht, List.getElem?_set_ne (by omega)]; exact g8
  have hlen : 8 < (readlines t').length := by
    by_contra hcon
    rw [List.getElem?_eq_none (by omega)] at e8; cases e8
  have hz7 : idxZ (readlines t') 7 = .ok l7 := by
    rw [show (7 : Int) = ((7 : Nat) : Int) by rfl, DoscarFull.idxZ_nat, idx_ok]; exact e7
  have hz8 : idxZ (readlines t') 8 = .ok l8 := by
    rw [show (8 : Int) = ((8 : Nat) : Int) by rfl, DoscarFull.idxZ_nat, idx_ok]; exact e8
  have hp : parseZ (readlines t') = .ok ⟨hd.comment, hd.cell, []⟩ := by
    unfold parseZ
    rw [hh', Res.ok_bind]
    dsimp only
    rw [if_pos (by omega), hsum, hlm]
    have htail : ∃ tt, readTailZ (readlines t') (-1 + ((8 : Nat) : Int)) = .ok tt ∧ (tt.1 = true → isBlank l7 = false) := by
      unfold readTailZ
      have tail : ∀ x : Bool × Bool × Bool, (if (7 : Int) + 1 < (readlines t').length then
          idxZ (readlines t') (7 + 1) >>= fun l => idx (words l) 0 >>= fun w => if isNumber w then Res.ok x else .exit 302
        else .ok (x.1, x.2.1, false)) = .ok x := by
        intro x
        rw [if_pos (by omega), show (7 : Int) + 1 = 8 by rfl, hz8, Res.ok_bind, idx_ok.2 gw, Res.ok_bind, if_pos gn]
      rw [show (-1 + ((8 : Nat) : Int)) = 7 by rfl, if_pos (by omega), hz7, Res.ok_bind, idx_ok.2 m2, Res.ok_bind]
      by_cases hdc : lowerC c7 = 'd' ∨ lowerC c7 = 'c'
      · rw [if_pos hdc, Res.ok_bind, tail]
        refine ⟨_, rfl, fun _ => ?_⟩
        have hne : c7 ≠ ' ' ∧ c7 ≠ '\n' := by
          constructor <;> (rintro rfl; revert hdc; decide)
        unfold isBlank
        cases l7 with
        | nil => cases m2
        | cons x xs =>
          simp only [List.getElem?_cons_zero, Option.some.injEq] at m2
          subst m2
          rw [List.filter_cons_of_pos (by simpa using hne.1)]
          cases hb : (x :: xs.filter (· != ' ')) == ['\n'] with
          | false => rfl
          | true =>
            simp only [beq_iff_eq, List.cons.injEq] at hb
            exact absurd hb.1 hne.2
      · rw [if_neg hdc, Res.ok_bind, tail]
        exact ⟨_, rfl, fun hc => by cases hc⟩
    obtain ⟨tt, htt, hbl⟩ := htail
    rw [htt, Res.ok_bind]
    split
    · rename_i hv
      have : checkPredZ (readlines t') (-1 + (-1 + ((8 : Nat) : Int) + 1)) = .ok () := by
        unfold checkPredZ
        rw [show (-1 + (-1 + ((8 : Nat) : Int) + 1)) = 7 by rfl, if_pos (by omega), hz7, Res.ok_bind, hbl hv]
        rfl
      rw [this, Res.ok_bind]
    · rfl
  have hcm : P.comment = hd.comment := by rw [a5]
  have hce : P.cell = hd.cell := by rw [a5]
  refine ⟨fileEntries hd.comment c [], ?_, by rw [siteCount_file]; rfl, by rw [hcm]; rfl, rfl⟩
  unfold initZ
  rw [hp, Res.ok_bind]
  exact (finish_iff _ (by simp) _).2 ⟨c, by rw [← hce]; exact hcell, rfl⟩

/-- Non-vacuity: a file with one hydrogen atom, and the same file with `-1` in place of `1`. -/
example : (∃ e, init { handler := some c!"c\n1\n1 0 0\n0 1 0\n0 0 1\nH\n1\nDirect\n0.5 -0.5 0\n" } = .ok e ∧ siteCount e = 1) ∧
    (∃ e, initZ c!"c\n1\n1 0 0\n0 1 0\n0 0 1\nH\n-1\nDirect\n0.5 -0.5 0\n" = .ok e ∧ siteCount e = 0) ∧
    readlines c!"c\n1\n1 0 0\n0 1 0\n0 0 1\nH\n-1\nDirect\n0.5 -0.5 0\n" =
      (readlines c!"c\n1\n1 0 0\n0 1 0\n0 0 1\nH\n1\nDirect\n0.5 -0.5 0\n").set 6 c!"-1\n" := by
  have h1 : (init { handler := some c!"c\n1\n1 0 0\n0 1 0\n0 0 1\nH\n1\nDirect\n0.5 -0.5 0\n" } >>= fun e => .ok (siteCount e)) = .ok 1 := by decide +kernel
  have h2 : (initZ c!"c\n1\n1 0 0\n0 1 0\n0 0 1\nH\n-1\nDirect\n0.5 -0.5 0\n" >>= fun e => .ok (siteCount e)) = .ok 0 := by decide +kernel
  obtain ⟨e, h1, h1'⟩ := Res.bind_eq_ok.1 h1
  obtain ⟨e', h2, h2'⟩ := Res.bind_eq_ok.1 h2
  exact ⟨⟨e, h1, Res.ok.inj h1'⟩, ⟨e', h2, Res.ok.inj h2'⟩, by decide +kernel⟩

end Verif.Poscar
