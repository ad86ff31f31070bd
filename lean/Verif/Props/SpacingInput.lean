import Verif.Props.Spacing
import Verif.Props.BlankKpoints
import Verif.Props.BlankPoscar
import Verif.Props.Lattice
/-! # C102 for KPOINTS and POSCAR: the constructors, and where blanks do matter -/
set_option autoImplicit false
namespace Verif

theorem splitlines_no_newline {s l : Str} (h : l ∈ splitlines s) : '\n' ∉ l := by
  induction s using splitlines.induct generalizing l with
  | case1 => simp [splitlines] at h
  | case2 xs ih =>
    rw [splitlines] at h
    rcases List.mem_cons.1 h with rfl | h
    · simp
    · exact ih h
  | case3 x xs hx hb ih =>
    rw [splitlines, if_pos hb] at h
    · rcases List.mem_cons.1 h with rfl | h
      · simp
      · exact ih h
    · exact hx
  | case4 x xs hx hb ih =>
    rw [splitlines, if_neg hb] at h
    · have hxn : x ≠ '\n' := by rintro rfl; exact hb (by decide)
      cases hs : splitlines xs with
      | nil => rw [hs] at h; simp [consHead] at h; subst h; simp [Ne.symm hxn]
      | cons w ws =>
        rw [hs] at h
        simp only [consHead, List.mem_cons] at h
        rcases h with rfl | h
        · have := ih (l := w) (by rw [hs]; simp)
          simp [Ne.symm hxn, this]
        · exact ih (by rw [hs]; simp [h])
    · exact hx

namespace Kpoints
open Verif.Spacing

/-- C102 for KPOINTS: two texts with the same first line, the same words on every line and the same empty lines are read alike, from a file as
from a string: the same entries, or the same refusal. Missing: empty lines that become blank ones (`C102_violation_*`). -/
theorem C102_kpoints_partial (t u : Str) :
    (Respaced (readlines t) (readlines u) → (readlines t).head? = (readlines u).head? →
      (∀ (i : Nat) (a b : Str), (readlines t)[i]? = some a → (readlines u)[i]? = some b → (a = ['\n'] ↔ b = ['\n'])) →
      init { handler := some t } = init { handler := some u } ∧ init { path := some (some t) } = init { path := some (some u) }) ∧
    (Respaced (splitlines t) (splitlines u) → (splitlines t).head? = (splitlines u).head? →
      init { string := some t } = init { string := some u }) := by
  refine ⟨fun hw hc hb => ?_, fun hw hc => ?_⟩
  · have := fromList_respaced hw hc hb
    unfold init load fromFile
    simp [guards, this]
  · have := fromList_respaced hw hc (fun i a b ha hb => by
      have key : ∀ (s : Str) (l : Str), l ∈ splitlines s → '\n' ∉ l := by
        intro s l hl hm
        exact splitlines_no_newline hl hm
      constructor
      · rintro rfl; exact absurd (by simp) (key _ _ (List.mem_of_getElem? ha))
      · rintro rfl; exact absurd (by simp) (key _ _ (List.mem_of_getElem? hb)))
    unfold init load fromFile
    simp [guards, this]

/-- C102 is false in line mode: blanks on an empty line add a point without coordinates. -/
theorem C102_violation_kpoints (p q bl : Str) (hp : LineEnd p) (h4 : 4 ≤ (readlines p).length) (hbl : bl ≠ []) (hb : ∀ c ∈ bl, c = ' ' ∨ c = '\t')
    (e : Entries) (h : init { handler := some (p ++ '\n' :: q) } = .ok e) (hm : e.get? c!"mode" = some (.str c!"line")) :
    ∃ (e' : Entries) (ps ps' : List Kpoint), init { handler := some (p ++ (bl ++ '\n' :: q)) } = .ok e' ∧
      e.get? c!"points" = some (atomsVal .point (ps ++ ps')) ∧
      e'.get? c!"points" = some (atomsVal .point (ps ++ ⟨[], some 1, true⟩ :: ps')) := by
  obtain ⟨P, hP, rfl⟩ := init_handler h
  rw [(holds_toEntries P).mode] at hm
  have hm : P.mode = c!"line" := by simpa using hm
  obtain ⟨cm, num, hL⟩ := parse_line hP hm
  have hnb : '\n' ∉ bl := fun hc => absurd (hb _ hc) (by decide)
  have r1 : readlines (p ++ '\n' :: q) = readlines p ++ ['\n'] :: readlines q := by
    rw [readlines_lineEnd hp]
    exact congrArg (readlines p ++ ·) (readlines_line_append (a := []) q (by simp))
  have r2 : readlines (p ++ (bl ++ '\n' :: q)) = readlines p ++ (bl ++ ['\n']) :: readlines q := by
    rw [readlines_lineEnd hp, readlines_line_append q hnb]
  have hidx : ∀ i < 4, idx (readlines (p ++ (bl ++ '\n' :: q))) i = idx (readlines (p ++ '\n' :: q)) i := by
    intro i hi
    rw [r1, r2, idx_down (by omega), idx_down (by omega)]
  have hfull := (hL _ (fun _ _ => rfl)).symm
  have hnew := hL (readlines (p ++ (bl ++ '\n' :: q))) (fun i hi => hidx i (by omega))
  rw [hP] at hfull
  unfold parseLineMode at hfull hnew
  rw [hidx 3 (by omega)] at hnew
  obtain ⟨l3, hl3, hfull⟩ := Res.bind_eq_ok.1 hfull
  rw [hl3, Res.ok_bind] at hnew
  obtain ⟨w, hw, hfull⟩ := Res.bind_eq_ok.1 hfull
  rw [hw, Res.ok_bind] at hnew
  obtain ⟨c, hc, hfull⟩ := Res.bind_eq_ok.1 hfull
  rw [hc, Res.ok_bind] at hnew
  split at hfull
  · rename_i hrd
    rw [if_pos hrd] at hnew
    obtain ⟨ps, hps, hfull⟩ := Res.bind_eq_ok.1 hfull
    have hfull := Res.ok.inj hfull
    rw [r1, List.drop_append_of_le_length h4, Incar.mapM'_append] at hps
    rw [r2, List.drop_append_of_le_length h4, Incar.mapM'_append] at hnew
    obtain ⟨ps1, hps1, hps⟩ := Res.bind_eq_ok.1 hps
    rw [hps1, Res.ok_bind] at hnew
    obtain ⟨ps2, hps2, hps⟩ := Res.bind_eq_ok.1 hps
    cases hps
    have e1 : parseLinePoint ['\n'] = .ok [] := rfl
    have e2 : parseLinePoint (bl ++ ['\n']) = .ok [⟨[], some 1, true⟩] := by
      unfold parseLinePoint
      have hne : bl ++ ['\n'] ≠ ['\n'] := by
        intro hc
        have := congrArg List.length hc
        simp at this; exact hbl this
      rw [if_neg hne, words_append_space bl '\n' (by decide), (Incar.words_eq_nil_iff bl).2 (fun c hc => by rcases hb c hc with rfl | rfl <;> decide)]
      rfl
    rw [Res.mapM', e1] at hps2
    obtain ⟨ps3, hps3, rfl⟩ : ∃ ps3, Res.mapM' parseLinePoint (readlines q) = .ok ps3 ∧ ps2 = [] :: ps3 := by
      cases hq : Res.mapM' parseLinePoint (readlines q) with
      | ok x => rw [hq] at hps2; exact ⟨x, rfl, (Res.ok.inj hps2).symm⟩
      | exit => rw [hq] at hps2; cases hps2
      | raise => rw [hq] at hps2; cases hps2
    rw [Res.mapM', e2, hps3] at hnew
    simp only [Res.ok_bind] at hnew
    refine ⟨Parsed.toEntries { comment := cm, num := num, mode := c!"line", points := some (ps1 ++ [[(⟨[], some 1, true⟩ : Kpoint)]] ++ ps3).flatten },
      ps1.flatten, ps3.flatten, ?_, ?_, ?_⟩
    · rw [init_eq]
      unfold fromList
      rw [r2, hnew]
      simp only [Res.ok_bind]
      rw [show ps1 ++ [(⟨[], some 1, true⟩ : Kpoint)] :: ps3 = ps1 ++ [[⟨[], some 1, true⟩]] ++ ps3 by simp, validate_line, Res.ok_bind]
    · rw [← hfull]
      show some (optVal (atomsVal .point) (some (ps1 ++ [] :: ps3).flatten)) = _
      simp [optVal]
    · show some (optVal (atomsVal .point) (some (ps1 ++ [[(⟨[], some 1, true⟩ : Kpoint)]] ++ ps3).flatten)) = _
      simp [optVal]
  · cases hfull

example : Respaced (readlines c!"b\n20\nLine-mode\nrec\n 0 0 0\n\n 0.5 0 0\n") (readlines c!"b\n  20 \n Line-mode\n\trec\n0   0 0\n\n 0.5\t0 0") ∧
    (readlines c!"b\n20\nLine-mode\nrec\n 0 0 0\n\n 0.5 0 0\n").map (· == ['\n']) =
      (readlines c!"b\n  20 \n Line-mode\n\trec\n0   0 0\n\n 0.5\t0 0").map (· == ['\n']) ∧
    ∃ e, init { handler := some c!"b\n20\nLine-mode\nrec\n 0 0 0\n\n 0.5 0 0\n" } = .ok e :=
  ⟨Respaced.of_map (by decide +kernel), by decide +kernel, _, rfl⟩

end Kpoints

namespace Poscar
open Verif.Spacing
open Verif.Kpoints (idx toFloat toInt)
open Verif.Utils (isNumber isNumbers)
open Verif.Lattice

/-- C102 for POSCAR: texts that differ in blanks only are read alike, from a file as from a string: the same entries, or the same refusal. Missing: blanks in front of keywords (`C102_violation_*`). -/
theorem C102_poscar_partial (t u : Str) :
    (SameButBlanks (readlines t) (readlines u) →
      init { handler := some t } = init { handler := some u } ∧ init { path := some (some t) } = init { path := some (some u) }) ∧
    (SameButBlanks (splitlinesKeep t) (splitlinesKeep u) → init { string := some t } = init { string := some u }) := by
  refine ⟨fun h => ?_, fun h => ?_⟩
  · have := fromList_respaced h
    unfold init load fromFile
    simp [guards, this]
  · have := fromList_respaced h
    unfold init load fromFile
    simp [guards, this]

instance (c : Char) : Decidable (IsLetter c) := inferInstanceAs (Decidable (_ ∨ _))

theorem SameButBlanks.of_check {A B : List Str} (h1 : A.map Verif.words = B.map Verif.words) (h2 : A.head? = B.head?)
    (h3 : ∀ a : Str, A[5]? = some a → ∃ w ∈ Verif.words a, pyFloat w = none)
    (h4 : ∀ x ∈ (A.drop 7).zip (B.drop 7), (Verif.words x.1 = [] → x.1 = x.2) ∧
      (x.1.head? = x.2.head? ∨ ∀ w ∈ (Verif.words x.1).head?, ∀ c ∈ w.head?, ¬ IsLetter c)) : SameButBlanks A B := by
  have key : ∀ (i : Nat) (a b : Str), 7 ≤ i → A[i]? = some a → B[i]? = some b → (a, b) ∈ (A.drop 7).zip (B.drop 7) := by
    intro i a b hi ha hb
    obtain ⟨j, rfl⟩ : ∃ j, i = 7 + j := ⟨i - 7, by omega⟩
    refine List.mem_iff_getElem?.2 ⟨j, ?_⟩
    rw [List.getElem?_zip_eq_some]
    exact ⟨by simpa using ha, by simpa using hb⟩
  refine ⟨Respaced.of_map h1, h2, fun a _ ha _ => .inr (.inr (h3 a ha)), fun i a b hi ha hb hw => (h4 _ (key i a b hi ha hb)).1 hw, fun i a b hi ha hb hk => ?_⟩
  rcases (h4 _ (key i a b hi ha hb)).2 with h | h
  · exact h
  · obtain ⟨c, w, ws, hw, hl⟩ := hk
    exact absurd hl (h (c :: w) (by simp [hw]) c rfl)

/-- Two texts that differ in blanks only, the first of them accepted. -/
example : SameButBlanks (readlines c!"c\n1.0\n2 0 0\n0 2 0\n0 0 2\nH He\n1 1\nDirect\n0.5 0 0\n0 0 0\n\n0 0 0\n0 0 1\n")
      (readlines c!"c\n\t1.0 \n  2 0  0\n0\t2 0\n0 0 2\n   H   He\n 1  1\nDirect  \n   0.5  0 0\n 0 0 0 \n\n 0 0  0\n0 0 1") ∧
    (match init { handler := some c!"c\n1.0\n2 0 0\n0 2 0\n0 0 2\nH He\n1 1\nDirect\n0.5 0 0\n0 0 0\n\n0 0 0\n0 0 1\n" } with
      | .ok e => e.keys.length | _ => 0) = 3 :=
  ⟨.of_check (by decide +kernel) (by decide +kernel)
    (fun a h => ⟨c!"H", by
      have : a = c!"H He\n" := Option.some.inj (h.symm.trans (by decide +kernel))
      subst this; decide +kernel, by decide +kernel⟩) (by decide +kernel), by decide +kernel⟩

theorem toDirect_exists (v : Vec) {m : Cell} (h : m.det ≠ 0) : ∃ w, toDirect v (some m) = .ok w ∧ w.mul m = v := by
  obtain ⟨w, h1, h2, -⟩ := ((C16_inverse m).1 (by rw [det_toMatrix]; exact h) v).2
  refine ⟨w, ?_, h2⟩
  unfold toDirect
  dsimp only
  rw [h1]

theorem readSites_cartesian {A B : List Str} {hd : Header} {m : Cell} (h8 : ∀ i, 8 ≤ i → idx B i = idx A i) (hl : hd.loopmax = 8)
    (hm : hd.cell = some m) (hdet : m.det ≠ 0) (hdir : hd.direct = true) : ∀ (n i slot : Nat) (index : Int) (raws : List Raw),
    readSites hd A n i slot index = .ok raws → ∃ raws', readSites { hd with direct := false } B n i slot index = .ok raws' ∧
      List.Forall₂ (fun r r' : Raw => r'.specie = r.specie ∧ r'.flags = r.flags ∧ r'.position.mul m = r.position.map (· * hd.scaling)) raws raws'
  | 0, _, _, _, raws, h => by
    cases Res.ok.inj h
    exact ⟨[], rfl, .nil⟩
  | n + 1, i, slot, index, raws, h => by
    simp only [readSites] at h ⊢
    obtain ⟨a, ha, h⟩ := Res.bind_eq_ok.1 h
    obtain ⟨s, hs, h⟩ := Res.bind_eq_ok.1 h
    obtain ⟨l, hl', h⟩ := Res.bind_eq_ok.1 h
    obtain ⟨v, hv, h⟩ := Res.bind_eq_ok.1 h
    obtain ⟨f, hf, h⟩ := Res.bind_eq_ok.1 h
    obtain ⟨rest, hr, h⟩ := Res.bind_eq_ok.1 h
    cases Res.ok.inj h
    obtain ⟨rest', hr', hR⟩ := readSites_cartesian h8 hl hm hdet hdir n _ _ _ _ hr
    unfold readPos at hv
    obtain ⟨v', hv', hv⟩ := Res.bind_eq_ok.1 hv
    rw [if_pos hdir] at hv
    cases Res.ok.inj hv
    obtain ⟨w, hw, hw2⟩ := toDirect_exists (v.map (· * hd.scaling)) hdet
    refine ⟨⟨s, w, f⟩ :: rest', ?_, .cons ⟨rfl, rfl, hw2⟩ hR⟩
    rw [ha, Res.ok_bind, hs, Res.ok_bind, h8 _ (by omega), hl', Res.ok_bind]
    unfold readPos
    rw [hv', Res.ok_bind]
    simp only [Bool.false_eq_true, if_false]
    rw [hr']
    rw [hm, hw, Res.ok_bind, hf, Res.ok_bind, Res.ok_bind]

theorem readVecs_cartesian {A B : List Str} {c : Option Cell} {m : Cell} (h8 : ∀ i, 8 ≤ i → idx B i = idx A i) (hm : c = some m) (hdet : m.det ≠ 0)
    (p n : Nat) (hp : 8 ≤ p) {conv : Vec → Res Vec} {vs : List Vec} (h : readVecs A p n conv = .ok vs) :
    ∃ vs', readVecs B p n (fun v => toDirect v c) = .ok vs' := by
  unfold readVecs at h ⊢
  generalize List.range n = R at h ⊢
  induction R generalizing vs with
  | nil => exact ⟨[], rfl⟩
  | cons x xs ih =>
    simp only [Res.mapM'] at h ⊢
    rw [h8 _ (by omega)]
    cases hx : (idx A (x + p) >>= fun l => readVec l >>= conv) with
    | exit => rw [hx] at h; cases h
    | raise => rw [hx] at h; cases h
    | ok y =>
      rw [hx] at h
      simp only at h
      cases hxs : Res.mapM' (fun i => idx A (i + p) >>= fun l => readVec l >>= conv) xs with
      | exit => rw [hxs] at h; cases h
      | raise => rw [hxs] at h; cases h
      | ok ys =>
        obtain ⟨vs', hvs'⟩ := ih hxs
        obtain ⟨l, hl, hx⟩ := Res.bind_eq_ok.1 hx
        obtain ⟨v, hv, hx⟩ := Res.bind_eq_ok.1 hx
        obtain ⟨w, hw, -⟩ := toDirect_exists v hdet
        rw [hl, Res.ok_bind, hv, Res.ok_bind, hm, hw]
        rw [hm] at hvs'
        rw [hvs']
        exact ⟨_, rfl⟩

theorem forall₂_length_pos {α β : Type} {R : α → β → Prop} {A : List α} {B : List β} (h : List.Forall₂ R A B) : A.length = B.length := h.length_eq

/-- C102 is false for POSCAR: a blank before `Direct` on the eighth line makes the reader take the positions for cartesian ones, without any
complaint: the comment, the cell and the species stay, and every position `x` of the file is replaced by the one whose cartesian
coordinates are `scaling * x`. -/
theorem C102_violation_poscar (p r : Str) (c : Char) (hp : LineEnd p) (h7 : (readlines p).length = 7) (hc : lowerC c = 'd') (cm : Str) (cell : Cell)
    (sites : List Site) (hdet : cell.det ≠ 0) (h : init { handler := some (p ++ c :: r) } = .ok (fileEntries cm cell sites)) :
    ∃ (sites' : List Site) (l w : Str) (scaling : Rat), (readlines p)[1]? = some l ∧ (words l)[0]? = some w ∧ toFloat w = .ok scaling ∧
      init { handler := some (p ++ ' ' :: c :: r) } = .ok (fileEntries cm cell sites') ∧
      List.Forall₂ (fun s s' : Site => s'.specie = s.specie ∧ s'.selective = s.selective ∧
        dirToCart s'.position cell = s.position.map (· * scaling)) sites sites' := by
  obtain ⟨P, m, hP, hm, he⟩ := (init_handler _ _).1 h
  obtain ⟨rfl, rfl, rfl⟩ := fileEntries_inj he
  have hne : c ≠ '\n' := by rintro rfl; exact absurd hc (by decide)
  obtain ⟨l7, L, hL⟩ : ∃ l7 L, readlines (c :: r) = (c :: l7) :: L := by
    rw [readlines, if_neg (by simpa using hne)]
    cases readlines r with
    | nil => exact ⟨_, _, rfl⟩
    | cons x xs => exact ⟨_, _, rfl⟩
  have hA : readlines (p ++ c :: r) = readlines p ++ (c :: l7) :: L := by rw [readlines_lineEnd hp, hL]
  have hB : readlines (p ++ ' ' :: c :: r) = readlines p ++ (' ' :: c :: l7) :: L := by
    rw [readlines_lineEnd hp, readlines, if_neg (by decide), hL]; rfl
  rw [hA] at hP
  have hlt : ∀ i, i < 7 → idx (readlines p ++ (' ' :: c :: l7) :: L) i = idx (readlines p ++ (c :: l7) :: L) i := by
    intro i hi
    unfold idx
    rw [List.getElem?_append_left (by omega), List.getElem?_append_left (by omega)]
  have h8 : ∀ i, 8 ≤ i → idx (readlines p ++ (' ' :: c :: l7) :: L) i = idx (readlines p ++ (c :: l7) :: L) i := by
    intro i hi
    unfold idx
    rw [List.getElem?_append_right (by omega), List.getElem?_append_right (by omega), h7]
    obtain ⟨j, rfl⟩ : ∃ j, i = 8 + j := ⟨i - 8, by omega⟩
    rw [show 8 + j - 7 = j + 1 by omega]; rfl
  have e7 : idx (readlines p ++ (c :: l7) :: L) 7 = .ok (c :: l7) := by
    unfold idx
    rw [List.getElem?_append_right (by omega), h7]; rfl
  have e7' : idx (readlines p ++ (' ' :: c :: l7) :: L) 7 = .ok (' ' :: c :: l7) := by
    unfold idx
    rw [List.getElem?_append_right (by omega), h7]; rfl
  have hlen : (readlines p ++ (' ' :: c :: l7) :: L).length = (readlines p ++ (c :: l7) :: L).length := by simp
  obtain ⟨hd, raws, t, v, q, hhd, hnn, hraws, ht, hPe, hcase⟩ := parse_parts hP
  have key : ∃ (l w : Str), idx (readlines p ++ (c :: l7) :: L) 1 = .ok l ∧ idx (words l) 0 = .ok w ∧ toFloat w = .ok hd.scaling ∧ hd.loopmax = 8 ∧
      hd.direct = true ∧ readHeader (readlines p ++ (' ' :: c :: l7) :: L) = .ok { hd with direct := false } := by
    unfold readHeader at hhd ⊢
    simp only [hlt 0 (by omega), hlt 1 (by omega), hlt 2 (by omega), hlt 3 (by omega), hlt 4 (by omega), hlt 5 (by omega), hlt 6 (by omega), e7']
    obtain ⟨l0, g0, hhd⟩ := Res.bind_eq_ok.1 hhd
    rw [g0, Res.ok_bind]
    obtain ⟨l5, g5, hhd⟩ := Res.bind_eq_ok.1 hhd
    rw [g5, Res.ok_bind]
    obtain ⟨l1, g1, hhd⟩ := Res.bind_eq_ok.1 hhd
    rw [g1, Res.ok_bind]
    obtain ⟨w, gw, hhd⟩ := Res.bind_eq_ok.1 hhd
    rw [gw, Res.ok_bind]
    obtain ⟨sc, gs, hhd⟩ := Res.bind_eq_ok.1 hhd
    rw [gs, Res.ok_bind]
    refine ⟨l1, w, rfl, gw, ?_⟩
    split at hhd
    · cases hhd
    split at hhd
    · cases hhd
    rename_i n1 n2
    rw [if_neg n1, if_neg n2]
    obtain ⟨l2, g2, hhd⟩ := Res.bind_eq_ok.1 hhd
    rw [g2, Res.ok_bind]
    obtain ⟨a, ga, hhd⟩ := Res.bind_eq_ok.1 hhd
    rw [ga, Res.ok_bind]
    obtain ⟨l3, g3, hhd⟩ := Res.bind_eq_ok.1 hhd
    rw [g3, Res.ok_bind]
    obtain ⟨b, gb, hhd⟩ := Res.bind_eq_ok.1 hhd
    rw [gb, Res.ok_bind]
    obtain ⟨l4, g4, hhd⟩ := Res.bind_eq_ok.1 hhd
    rw [g4, Res.ok_bind]
    obtain ⟨cc, gc, hhd⟩ := Res.bind_eq_ok.1 hhd
    rw [gc, Res.ok_bind]
    obtain ⟨ce, gce, hhd⟩ := Res.bind_eq_ok.1 hhd
    rw [gce, Res.ok_bind]
    obtain ⟨l6, g6, hhd⟩ := Res.bind_eq_ok.1 hhd
    rw [g6, Res.ok_bind]
    obtain ⟨at_, gat, hhd⟩ := Res.bind_eq_ok.1 hhd
    rw [gat, Res.ok_bind]
    rw [e7, Res.ok_bind, show idx (c :: l7) 0 = .ok c from rfl, Res.ok_bind] at hhd
    rw [Res.ok_bind, show idx (' ' :: c :: l7) 0 = .ok ' ' from rfl, Res.ok_bind]
    dsimp only at hhd ⊢
    rw [if_neg (by rw [hc]; decide)] at hhd
    rw [if_neg (by decide)]
    cases Res.ok.inj hhd
    refine ⟨gs, rfl, by simp [hc], ?_⟩
    have e1 : lowerC ' ' = 'd' ↔ False := by decide
    simp [e1]
  obtain ⟨l, w, k1, k2, k3, k4, k5, k6⟩ := key
  have hcell : hd.cell = some cell := by rw [hPe] at hm; exact hm
  obtain ⟨raws', hraws', hR⟩ := readSites_cartesian h8 k4 hcell hdet k5 _ _ _ _ _ hraws
  have htail : readTail (readlines p ++ (' ' :: c :: l7) :: L) (hd.atoms.sum.toNat + hd.loopmax) = .ok t := by
    rw [← ht]
    unfold readTail
    rw [hlen, h8 _ (by omega), h8 _ (by omega)]
  have hpred : ∀ p' n, 8 ≤ p' → readPredAfter (readlines p ++ (' ' :: c :: l7) :: L) p' n = readPredAfter (readlines p ++ (c :: l7) :: L) p' n := by
    intro p' n hp'
    unfold readPredAfter readVecs
    rw [hlen, h8 _ (by omega), h8 _ (by omega)]
    have : ∀ x : Nat, idx (readlines p ++ (' ' :: c :: l7) :: L) (x + (p' + 1)) = idx (readlines p ++ (c :: l7) :: L) (x + (p' + 1)) :=
      fun x => h8 _ (by omega)
    simp only [this]
  have hvec : ∀ p' n (conv : Vec → Res Vec), 8 ≤ p' → readVecs (readlines p ++ (' ' :: c :: l7) :: L) p' n conv = readVecs (readlines p ++ (c :: l7) :: L) p' n conv := by
    intro p' n conv hp'
    unfold readVecs
    have : ∀ x : Nat, idx (readlines p ++ (' ' :: c :: l7) :: L) (x + p') = idx (readlines p ++ (c :: l7) :: L) (x + p') :=
      fun x => h8 _ (by omega)
    simp only [this]
  have hparse : ∃ v' q', parse (readlines p ++ (' ' :: c :: l7) :: L) = .ok ⟨hd.comment, hd.cell, assemble raws' v' q'⟩ := by
    unfold parse
    rw [k6, Res.ok_bind]
    dsimp only
    rw [if_neg (by omega), hraws', Res.ok_bind, htail, Res.ok_bind]
    rcases hcase with ⟨c1, ⟨vs, rfl, c2⟩, c3⟩ | ⟨c1, c2, rfl, qs, rfl, c3⟩ | ⟨c1, c2, rfl, rfl⟩
    · obtain ⟨vs', hvs'⟩ := readVecs_cartesian h8 hcell hdet _ _ (by omega) c2
      simp only [c1, if_true, Bool.false_and, Bool.false_eq_true, if_false]
      rw [hvs', Res.ok_bind, hpred _ _ (by omega), c3]
      exact ⟨_, _, rfl⟩
    · simp only [c1, c2, if_true, Bool.false_eq_true, if_false]
      rw [hvec _ _ _ (by omega), c3]
      exact ⟨_, _, rfl⟩
    · simp only [c1, c2, Bool.false_eq_true, if_false]
      exact ⟨_, _, rfl⟩
  obtain ⟨v', q', hP'⟩ := hparse
  refine ⟨assemble raws' v' q', l, w, hd.scaling, ?_, Doscar.idx_ok' k2, k3, ?_, ?_⟩
  · have := Doscar.idx_ok' k1
    rwa [List.getElem?_append_left (by omega)] at this
  · refine (init_handler _ _).2 ⟨⟨hd.comment, hd.cell, assemble raws' v' q'⟩, cell, ?_, hcell, ?_⟩
    · rw [hB]; exact hP'
    · rw [hPe]
  · rw [hPe]
    show List.Forall₂ _ (assemble raws v q) (assemble raws' v' q')
    unfold assemble
    rw [List.forall₂_iff_get]
    have hlen' := hR.length_eq
    refine ⟨by simp [hlen'], fun i g1 g2 => ?_⟩
    simp only [List.length_map, List.length_zipIdx] at g1 g2
    have := (List.forall₂_iff_get.1 hR).2 i g1 g2
    simp only [List.get_eq_getElem, List.getElem_map, List.getElem_zipIdx] at this ⊢
    obtain ⟨t1, t2, t3⟩ := this
    refine ⟨?_, t2, t3⟩
    show lower _ = lower _
    rw [t1]

/-- The file of the violation: scaling 1, a cubic cell of length 2, one position that is halved by the blank. -/
example : ∃ p r : Str, LineEnd p ∧ (readlines p).length = 7 ∧
    init { handler := some (p ++ 'D' :: r) } = .ok (fileEntries c!"c" ⟨⟨2, 0, 0⟩, ⟨0, 2, 0⟩, ⟨0, 0, 2⟩⟩
      [Site.new c!"h" ⟨1/2, 0, 0⟩ (true, true, true) none none true]) ∧
    init { handler := some (p ++ ' ' :: 'D' :: r) } = .ok (fileEntries c!"c" ⟨⟨2, 0, 0⟩, ⟨0, 2, 0⟩, ⟨0, 0, 2⟩⟩
      [Site.new c!"h" ⟨1/4, 0, 0⟩ (true, true, true) none none true]) :=
  ⟨c!"c\n1.0\n2 0 0\n0 2 0\n0 0 2\nH\n1\n", c!"irect\n0.5 0 0\n", .inr (by decide +kernel), by decide +kernel, by decide +kernel, by decide +kernel⟩

end Poscar
end Verif
