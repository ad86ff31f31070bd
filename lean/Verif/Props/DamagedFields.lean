import Verif.Props.PoscarMotion
import Verif.Props.Doscar
import Verif.Props.Eigenval
import Verif.Props.OutcarTables
import Verif.Lemmas.Damaged
/-! C123: number fields Fortran could not print (overflowing, run together, without exponent letter) are refused by POSCAR, DOSCAR and EIGENVAL. -/
set_option autoImplicit false

namespace Verif
open Verif.Poscar (WordIs)

/-- Specification: none of the first `n` words of line `i` is damaged. -/
def SoundAt (lines : List Str) (i n : Nat) : Prop :=
  ∀ (line : Str) (j : Nat) (w : Str), lines[i]? = some line → j < n → (words line)[j]? = some w → ¬ Damaged w

/-- Specification: no word of line `i` is damaged. -/
def SoundLine (lines : List Str) (i : Nat) : Prop := ∀ (line w : Str), lines[i]? = some line → w ∈ words line → ¬ Damaged w

theorem word_sound {line w : Str} {i : Nat} {q : Rat} (h : WordIs line i q) (hw : (words line)[i]? = some w) : ¬ Damaged w := by
  obtain ⟨w', d, h1, h2, _⟩ := h
  rw [h1] at hw; cases hw
  exact not_damaged_of_float (List.mem_of_getElem? h1) h2

theorem three_sound {lines : List Str} {i : Nat} {line : Str} {x y z : Rat} (hl : lines[i]? = some line) (hx : WordIs line 0 x)
    (hy : WordIs line 1 y) (hz : WordIs line 2 z) : SoundAt lines i 3 := by
  intro l j w h1 h2 h3
  rw [hl] at h1; cases h1
  match j, h2 with
  | 0, _ => exact word_sound hx h3
  | 1, _ => exact word_sound hy h3
  | 2, _ => exact word_sound hz h3

theorem rat_sound {s w : Str} (hw : w ∈ words s) {x : Rat} (h : pyFloatRat w = some x) : ¬ Damaged w := by
  unfold pyFloatRat at h
  split at h
  · rename_i d hd; exact not_damaged_of_float hw hd
  · cases h

theorem forall2_mem {α β : Type} {R : α → β → Prop} {l : List α} {m : List β} (h : List.Forall₂ R l m) {a : α} (ha : a ∈ l) : ∃ b, R a b := by
  induction h with
  | nil => cases ha
  | cons hr _ ih =>
    rcases List.mem_cons.1 ha with rfl | ha
    · exact ⟨_, hr⟩
    · exact ih ha
end Verif

namespace Verif.Poscar
open Verif Verif.Utils

/-- C123, POSCAR: in an accepted file neither the scaling factor, nor the cell vectors, nor any coordinate of a position, a velocity or a
predictor is a damaged number: a file with such a number is refused. -/
theorem C123_poscar (t : Str) (e : Entries) (h : init { handler := some t } = .ok e) :
    ∃ sel dir, Layout (readlines t) sel dir ∧ SoundAt (readlines t) 1 1 ∧
      SoundLine (readlines t) 2 ∧ SoundLine (readlines t) 3 ∧ SoundLine (readlines t) 4 ∧
      ∀ (k : Nat) (s : Site), HasSite e k s → SoundAt (readlines t) (firstSite sel + k) 3 ∧
        (s.velocities.isSome = true → SoundAt (readlines t) (firstSite sel + siteCount e + 1 + k) 3) ∧
        (s.predictors.isSome = true → s.velocities = none → SoundAt (readlines t) (firstSite sel + siteCount e + 1 + k) 3) ∧
        (s.predictors.isSome = true → s.velocities.isSome = true →
          SoundAt (readlines t) (firstSite sel + siteCount e + 1 + siteCount e + 1 + k) 3) := by
  obtain ⟨cell, s, -, ⟨l1, h1, h1w⟩, -, hr2, hr3, hr4⟩ := C121_cell_partial t e h
  have hrow : ∀ i v, RowIs (readlines t) i s v → SoundLine (readlines t) i := by
    rintro i v ⟨l, x, y, z, g1, ⟨g2, gx, gy, gz⟩, -⟩ line w k1 k2
    rw [g1] at k1; cases k1
    obtain ⟨j, hj, hjw⟩ := List.mem_iff_getElem.1 k2
    exact three_sound g1 gx gy gz l j w g1 (by omega) (by rw [List.getElem?_eq_getElem hj, hjw])
  have h' := h
  obtain ⟨P, m, hP, hm, rfl⟩ := (init_handler _ _).1 h
  obtain ⟨hd, raws, tl, v, q, a1, -⟩ := parse_parts hP
  obtain ⟨hlay, -⟩ := readHeader_layout a1
  refine ⟨hd.selective, hd.direct, hlay, ?_, hrow _ _ hr2, hrow _ _ hr3, hrow _ _ hr4, ?_⟩
  · intro l j w k1 k2 k3
    rw [h1] at k1; cases k1
    obtain rfl : j = 0 := by omega
    exact word_sound h1w k3
  · intro k st hk
    have hk' := hk
    rw [hasSite_file] at hk
    obtain ⟨sel, dir, line, x, y, z, b1, b2, b3, b4, b5, -⟩ := C63_own_line _ _ hP k st hk
    obtain ⟨rfl, rfl⟩ := layout_unique hlay b1
    obtain ⟨sel, dir, c1, -, c2⟩ := C122_velocities_partial t _ h' k st hk'
    obtain ⟨rfl, rfl⟩ := layout_unique hlay c1
    obtain ⟨sel, dir, d1, d2⟩ := C122_predictors t _ h' k st hk'
    obtain ⟨rfl, rfl⟩ := layout_unique hlay d1
    have at_ : ∀ {i : Nat} {v : Vec}, VectorAt (readlines t) i v → SoundAt (readlines t) i 3 := by
      rintro i v ⟨l, g1, g2, g3, g4⟩
      exact three_sound g1 g2 g3 g4
    refine ⟨?_, fun hv => ?_, fun hp hv => ?_, fun hp hv => ?_⟩
    · rw [Nat.add_comm]; exact three_sound b2 b3 b4 b5
    · obtain ⟨v, hv⟩ := Option.isSome_iff_exists.1 hv
      obtain ⟨x, hx, -⟩ := c2 v hv
      exact at_ hx
    · obtain ⟨v, hp⟩ := Option.isSome_iff_exists.1 hp
      rcases d2 v hp with ⟨_, _, g⟩ | ⟨g, _⟩
      · exact at_ g
      · rw [hv] at g; cases g
    · obtain ⟨v, hp⟩ := Option.isSome_iff_exists.1 hp
      rcases d2 v hp with ⟨g, _⟩ | ⟨_, _, g⟩
      · rw [g] at hv; cases hv
      · exact at_ g

/-- Non-vacuity: an accepted file, and the same file with an overflowing velocity, which is refused. -/
example : (∃ e, init { handler := some c!"c\n1\n1 0 0\n0 1 0\n0 0 1\nH\n1\nDirect\n0.5 -0.5 0\nCartesian\n1.5 -2E-01 3\n" } = .ok e) ∧
    ∀ e, init { handler := some c!"c\n1\n1 0 0\n0 1 0\n0 0 1\nH\n1\nDirect\n0.5 -0.5 0\nCartesian\n1.5 ****** 3\n" } ≠ .ok e := by
  refine ⟨?_, fun e => ?_⟩
  · have h : (init { handler := some c!"c\n1\n1 0 0\n0 1 0\n0 0 1\nH\n1\nDirect\n0.5 -0.5 0\nCartesian\n1.5 -2E-01 3\n" } >>= fun e =>
      .ok (siteCount e)) = .ok 1 := by decide +kernel
    obtain ⟨e, h1, _⟩ := Res.bind_eq_ok.1 h
    exact ⟨e, h1⟩
  · have : (match init { handler := some c!"c\n1\n1 0 0\n0 1 0\n0 0 1\nH\n1\nDirect\n0.5 -0.5 0\nCartesian\n1.5 ****** 3\n" } with
      | .ok _ => true | _ => false) = false := by decide +kernel
    intro h; rw [h] at this; cases this
end Verif.Poscar

namespace Verif.Doscar
open Verif Verif.Utils
open Verif.Kpoints (toFloat)

/-- C123, DOSCAR: in an accepted file no number behind the name line is damaged, neither in the header nor in the tables. -/
theorem C123_doscar (nc : Bool) (text : Str) (d : Data) (h : init none (some text) nc = .ok d) :
    ∀ i, 5 ≤ i → SoundLine (readlines text) i := by
  have h : fromList nc (readlines text) = .ok d := h
  obtain ⟨A⟩ := fromList_ok h
  intro i hi line w h1 h2
  rcases Nat.eq_or_lt_of_le hi with rfl | hlt
  · rw [A.e5] at h1; cases h1
    obtain ⟨x, hx⟩ := forall2_mem A.numbers h2
    exact rat_sound h2 hx
  · have hd := Res.mapM'_eq_ok.1 A.hdata
    have hm : line ∈ (readlines text).drop 6 := by
      obtain ⟨j, rfl⟩ : ∃ j, i = 6 + j := ⟨i - 6, by omega⟩
      rw [← List.getElem?_drop] at h1
      exact List.mem_of_getElem? h1
    obtain ⟨v, hv⟩ := forall2_mem hd hm
    unfold lineToType at hv
    have : ∃ xs, Res.mapM' toFloat (words line) = .ok xs := by
      cases hx : Res.mapM' toFloat (words line) with
      | ok xs => exact ⟨xs, rfl⟩
      | exit c => rw [hx] at hv; cases hv
      | raise e => rw [hx] at hv; cases hv
    obtain ⟨xs, hxs⟩ := this
    obtain ⟨x, hx⟩ := forall2_mem (Res.mapM'_eq_ok.1 hxs) h2
    exact rat_sound h2 ((toFloat_iff _ _).1 hx)

end Verif.Doscar

namespace Verif.Eigenval
open Verif Verif.Utils
open Verif.Kpoints (toFloat toInt)

theorem int_sound {s w : Str} (hw : w ∈ words s) {n : Int} (h : pyInt w = some n) : ¬ Damaged w := by
  have hf : Free isSpace w := (words_mem hw).2
  have hs : strip w = w := strip_eq_self ⟨fun c hc => hf c (List.mem_of_mem_head? hc), fun c hc => hf c (List.mem_of_getLast? hc)⟩
  apply fine_not_damaged
  unfold pyInt at h
  rw [hs] at h
  have key : ∀ p, fine p (takeSign w).2 = true := by
    apply spanDigits_fine (b := false)
    dsimp only at h
    split at h
    · rename_i he; rw [he]; intro _; rfl
    · cases h
  rw [takeSign.eq_def] at key
  split at key
  · simp [fine, key]
  · simp [fine, key]
  · exact key _

theorem runs_mem {L : List (List Str)} {b : List (List Str)} {l : List Str} (hb : b ∈ runs L) (hl : l ∈ b) : l ∈ L := by
  induction L generalizing b with
  | nil => simp [runs] at hb
  | cons x xs ih =>
    rw [runs.eq_def] at hb; dsimp only at hb
    split at hb
    · exact List.mem_cons_of_mem _ (ih hb hl)
    · cases xs with
      | nil =>
        dsimp only at hb
        rw [List.mem_singleton] at hb; subst hb; rw [List.mem_singleton] at hl; subst hl; simp
      | cons y ys =>
        dsimp only at hb
        split at hb
        · rcases List.mem_cons.1 hb with rfl | hb
          · rw [List.mem_singleton] at hl; subst hl; simp
          · exact List.mem_cons_of_mem _ (ih hb hl)
        · split at hb
          · rw [List.mem_singleton] at hb; subst hb; rw [List.mem_singleton] at hl; subst hl; simp
          · rename_i r rs he
            rcases List.mem_cons.1 hb with rfl | hb
            · rcases List.mem_cons.1 hl with rfl | hl
              · simp
              · exact List.mem_cons_of_mem _ (ih (by rw [he]; simp) hl)
            · exact List.mem_cons_of_mem _ (ih (by rw [he]; simp [hb]) hl)

theorem readBand_sound {ns nb k : Nat} {e e' : Values} {l : List Str} (h : readBand ns nb k e l = .ok e') (hl : ∃ s, l = words s) :
    ∀ w ∈ l.take (1 + ns), ¬ Damaged w := by
  obtain ⟨s, rfl⟩ := hl
  unfold readBand at h
  obtain ⟨w0, h0, h⟩ := Res.bind_eq_ok.1 h
  obtain ⟨n, hn, h⟩ := Res.bind_eq_ok.1 h
  obtain ⟨b, hb, h⟩ := Res.bind_eq_ok.1 h
  obtain ⟨vs, hv, h⟩ := Res.bind_eq_ok.1 h
  have h0 := Doscar.idx_ok' h0
  cases hws : words s with
  | nil => simp
  | cons x xs =>
    rw [hws] at h0 hv
    obtain rfl : x = w0 := by simpa using h0
    rw [List.drop_one, List.tail_cons] at hv
    intro w hw
    rw [Nat.add_comm, List.take_succ_cons] at hw
    rcases List.mem_cons.1 hw with rfl | hw
    · refine int_sound (s := s) (by rw [hws]; simp) (n := n) ?_
      unfold toInt at hn
      cases hp : pyInt w with
      | none => rw [hp] at hn; cases hn
      | some m => rw [hp] at hn; cases hn; rfl
    · obtain ⟨x', hx⟩ := forall2_mem (Res.mapM'_eq_ok.1 hv) hw
      exact rat_sound (s := s) (by rw [hws]; exact List.mem_cons_of_mem _ (List.mem_of_mem_take hw)) ((Doscar.toFloat_iff _ _).1 hx)

theorem readBands_sound {ns nb k : Nat} (ls : List (List Str)) {e e' : Values} (h : Res.foldlM' (readBand ns nb k) e ls = .ok e')
    (hl : ∀ l ∈ ls, ∃ s, l = words s) : ∀ l ∈ ls, ∀ w ∈ l.take (1 + ns), ¬ Damaged w := by
  induction ls generalizing e with
  | nil => simp
  | cons a ls ih =>
    simp only [Res.foldlM'] at h
    cases hx : readBand ns nb k e a with
    | ok y =>
      rw [hx] at h
      intro l hm
      rcases List.mem_cons.1 hm with rfl | hm
      · exact readBand_sound hx (hl _ (by simp))
      · exact ih h (fun l hl' => hl l (by simp [hl'])) l hm
    | exit c => rw [hx] at h; cases h
    | raise x => rw [hx] at h; cases h

theorem readBlocks_sound {ns nb : Nat} (bs : List (List (List Str))) {k : Nat} {a a' : Arrays}
    (h : Res.foldlM' (readBlock ns nb) a (bs.zipIdx k) = .ok a') (hl : ∀ b ∈ bs, ∀ l ∈ b, ∃ s, l = words s) :
    ∀ first rest, first :: rest ∈ bs → (∀ w ∈ first, ¬ Damaged w) ∧ ∀ l ∈ rest, ∀ w ∈ l.take (1 + ns), ¬ Damaged w := by
  induction bs generalizing k a with
  | nil => simp
  | cons b bs ih =>
    simp only [List.zipIdx_cons, Res.foldlM'] at h
    cases hx : readBlock ns nb a (b, k) with
    | ok y =>
      rw [hx] at h
      intro first rest hm
      rcases List.mem_cons.1 hm with rfl | hm
      · unfold readBlock at hx
        simp only at hx
        obtain ⟨kpi, hkpi, hx⟩ := Res.bind_eq_ok.1 hx
        split at hx
        · obtain ⟨kp, hkp, hx⟩ := Res.bind_eq_ok.1 hx
          obtain ⟨e, he, hx⟩ := Res.bind_eq_ok.1 hx
          refine ⟨fun w hw => ?_, readBands_sound rest he (fun l hl' => hl (first :: rest) List.mem_cons_self l (List.mem_cons_of_mem _ hl'))⟩
          obtain ⟨s, rfl⟩ := hl (first :: rest) List.mem_cons_self first List.mem_cons_self
          obtain ⟨x', hx'⟩ := forall2_mem (Res.mapM'_eq_ok.1 hkpi) hw
          exact rat_sound hw ((Doscar.toFloat_iff _ _).1 hx')
        · cases hx
      · exact ih h (fun b hb => hl b (by simp [hb])) first rest hm
    | exit c => rw [hx] at h; cases h
    | raise x => rw [hx] at h; cases h

/-- C123, EIGENVAL: in an accepted file no number of a k-point line is damaged, and on the band lines neither the band number nor any of the
eigenvalues is (what follows them, such as occupations, is not read). -/
theorem C123_eigenval (text : Str) (d : Data) (hb : ∀ c ∈ text, isLineBreak c = true → c = '\n') (h : init none (some text) = .ok d) :
    ∃ (l0 : Str) (ni na p : Int) (ns : Nat), (readlines text)[0]? = some l0 ∧ Ints l0 [ni, na, p, ns] ∧
      ∀ first rest, first :: rest ∈ pointBlocks text →
        (∀ w ∈ first, ¬ Damaged w) ∧ ∀ line ∈ rest, ∀ w ∈ line.take (1 + ns), ¬ Damaged w := by
  obtain ⟨l0, l1, l2, l3, l4, l5, ni, na, p, sn, nk, ns, nb, coord, e0, _, _, _, _, e5, i0, i5, _, _, _, _, _, _, _, _, _, _, _, _, _, hf⟩ :=
    fromList_ok h
  have hs := solid_of_ok _ hf
  rw [solid_blocks text hb] at hs
  rw [← hs] at hf
  refine ⟨l0, ni, na, p, ns, e0, i0, readBlocks_sound _ hf ?_⟩
  intro b hb l hl
  obtain ⟨s, _, rfl⟩ := List.mem_map.1 (runs_mem hb hl)
  exact ⟨s, rfl⟩

/-- Non-vacuity: an accepted file with a damaged word behind the eigenvalue of a band, and the same with the eigenvalue itself damaged. -/
example : (∃ d, init none (some c!"1 1 1 1\n1\n1\nCAR\nname\n8 1 1\n\n0.0 0.5 0.0 1.0\n1 -6.1 ****\n") = .ok d) := by
  have : (init none (some c!"1 1 1 1\n1\n1\nCAR\nname\n8 1 1\n\n0.0 0.5 0.0 1.0\n1 -6.1 ****\n") >>= fun d => .ok d.arrays.values) =
    .ok [[[-61/10]]] := by decide +kernel
  obtain ⟨d, h, _⟩ := Res.bind_eq_ok.1 this
  exact ⟨d, h⟩

end Verif.Eigenval

namespace Verif.Outcar
open Verif Verif.Utils
open Verif.Kpoints (toFloat)

/-- C123, OUTCAR: in an accepted file no number of the last elastic tensor of each kind is damaged, and none of the last line with the total
magnetization. -/
theorem C123_outcar (lines : List Str) (d : Data) (h : fromList lines = .ok d) :
    (∀ header key, (header, key) ∈ tables → ∀ pre line post, lines = pre ++ line :: post → IsHeader header line → (∀ l ∈ post, ¬ IsHeader header l) →
      ∀ i, i < 6 → ∃ row, post[i + 2]? = some row ∧ ∀ w ∈ (words row).drop 1, ¬ Damaged w) ∧
    (∀ pre line post, lines = pre ++ line :: post → IsHeader c!"number of electron" line → (∀ l ∈ post, ¬ IsHeader c!"number of electron" l) →
      ∀ w ∈ (words line).drop 5, ¬ Damaged w) := by
  have key : ∀ (s : Str) (n : Nat) (xs : List Rat), List.Forall₂ (fun w x => toFloat w = .ok x) ((words s).drop n) xs →
      ∀ w ∈ (words s).drop n, ¬ Damaged w := by
    intro s n xs hx w hw
    obtain ⟨x, hx⟩ := forall2_mem hx hw
    exact rat_sound (List.mem_of_mem_drop hw) ((Doscar.toFloat_iff _ _).1 hx)
  refine ⟨fun header k hk pre line post he hh hn i hi => ?_, fun pre line post he hh hn => ?_⟩
  · obtain ⟨t, -, h6, ht⟩ := (C32_tables_partial lines d h header k hk).1 pre line post he hh hn
    obtain ⟨row, h1, h2⟩ := ht i (by omega)
    exact ⟨row, h1, key row 1 _ h2⟩
  · obtain ⟨v, -, hv⟩ := (scan_fullCell (fromList_scan h)).2 pre line post he hh hn
    exact key line 5 v hv

/-- Non-vacuity: an accepted file with a table; with one of its numbers overflowing it is refused. -/
example : (init none (some exampleElastic) >>= fun d => .ok d.state.elastic.length) = .ok 4 ∧
    (init none (some c!" NELM   =   2;\n Iteration 1(  1)\n TOTAL ELASTIC MODULI (kBar)\n Direction\n ---\n XX 8 *****\n YY 9\n ZZ 8\n XY 5\n YZ 6\n ZX 7\n") >>=
      fun d => .ok d.state.elastic.length) = .raise .valueError := by decide +kernel
end Verif.Outcar
