import Verif.Props.DamagedFields
import Verif.Props.Chgcar
import Verif.Lemmas.NpText
/-! C123: damaged number fields in the texts read with `np.fromstring`: CHGCAR and the tables of vasprun.xml. -/
set_option autoImplicit false

namespace Verif.NpText
open Verif Verif.Utils

/-- Specification: the words print these numbers. -/
def Prints (ws : List Str) (xs : List Rat) : Prop := List.Forall₂ (fun w x => pyFloatRat w = some x ∧ '_' ∉ w) ws xs

theorem prints_strtod {ws : List Str} {xs : List Rat} (hf : ∀ w ∈ ws, Free isSpace w) (h : Prints ws xs) :
    List.Forall₂ (fun w x => strtod w = some (x, [])) ws xs := by
  induction h with
  | nil => exact .nil
  | cons hr _ ih => exact .cons ((strtod_iff (hf _ (by simp)) hr.2 _).1 hr.1) (ih fun w hw => hf w (by simp [hw]))

/-- C123: a text of number literals separated by white space is read completely. -/
theorem C123_text (s : Str) (hp : PlainSpace s) (xs : List Rat) (h : Prints (words s) xs) : fromString s = .ok xs := by
  have := (loop_words (words s) [] s (s.length + 1) xs hp (by omega) (by simp) (prints_strtod (fun w hw => (words_mem hw).2) h)).1 rfl
  unfold fromString
  rw [this]
  rfl

/-- C123: a damaged word ends the reading: at most the number in front of the damage is still read. -/
theorem C123_text_damaged (s : Str) (hp : PlainSpace s) (pre post : List Str) (w : Str) (xs ys : List Rat) (hw : words s = pre ++ w :: post)
    (h : Prints pre xs) (hd : Damaged w) (hy : fromString s = .ok ys) : ys = xs ∨ ∃ y, ys = xs ++ [y] := by
  unfold fromString at hy
  obtain ⟨p, hl, hy⟩ := Res.bind_eq_ok.1 hy
  cases hy
  have hno : ∀ x, strtod w ≠ some (x, []) := fun x hx => strtod_sound hx hd
  rcases (loop_words pre (w :: post) s (s.length + 1) xs hp (by omega) hw
    (prints_strtod (fun w hw' => (words_mem (s := s) (by rw [hw]; simp [hw'])).2) h)).2 w post rfl hno p hl with ⟨g, _⟩ | ⟨y, r, g, _⟩
  · exact .inl g
  · exact .inr ⟨y, g⟩

/-- Non-vacuity. -/
example : PlainSpace c!" 1.5 -2E+01\n .5\t3." ∧ Prints (words c!" 1.5 -2E+01\n .5\t3.") [3/2, -20, 1/2, 3] ∧
    fromString c!" 1.5 -2E+01\n .5\t3." = .ok [3/2, -20, 1/2, 3] ∧ fromString c!"1.5 -2.5-3.5 4" = .ok [3/2, -5/2] ∧
    fromString c!"1.5 **** 4" = .ok [3/2] ∧ fromString c!"1.5 0.25-100 4" = .ok [3/2, 1/4] := by
  refine ⟨by unfold PlainSpace; decide, ?_, by decide +kernel, by decide +kernel, by decide +kernel, by decide +kernel⟩
  have : words c!" 1.5 -2E+01\n .5\t3." = [c!"1.5", c!"-2E+01", c!".5", c!"3."] := by decide +kernel
  rw [this]
  refine .cons ⟨by decide +kernel, by decide⟩ (.cons ⟨by decide +kernel, by decide⟩ (.cons ⟨by decide +kernel, by decide⟩ (.cons ⟨by decide +kernel, by decide⟩ .nil)))
end Verif.NpText

namespace Verif.Chgcar
open Verif Verif.Utils Verif.NpText
open Verif.Kpoints (idx toFloat toInt)
open Verif.Outcar (cut)
open Verif.Lattice (V3 M3)

/-- Specification: the data sets that are read: the first one, and all of two or four. -/
def IsRead (pieces : List Str) (p : Str) : Prop := pieces.head? = some p ∨ (pieces.length = 2 ∨ pieces.length = 4) ∧ p ∈ pieces

/-- What an accepted file looks like, for `np.fromstring` on every text. -/
theorem fromTextC_ok {text : Str} {d : Data} (h : fromTextC text = .ok d) : ∃ (scale : Rat) (cell : M3 Rat) (nx ny nz : Nat) (pieces : List Str)
    (p : Str), File text scale cell nx ny nz pieces ∧ pieces.head? = some p ∧ densityC nz ny nx (scale ^ 3 * cell.det) p = .ok d.total ∧
      magnetizationC nz ny nx (scale ^ 3 * cell.det) pieces = .ok d.magnetization := by
  have hnn : (c!"\n\n" : Str) ≠ [] := by decide
  have hn : (c!"\n" : Str) ≠ [] := by decide
  unfold fromTextC at h
  obtain ⟨rest, hrest, h⟩ := Res.bind_eq_ok.1 h
  obtain ⟨s, hs, h⟩ := Res.bind_eq_ok.1 h
  obtain ⟨t, ht, h⟩ := Res.bind_eq_ok.1 h
  obtain ⟨a, ha, h⟩ := Res.bind_eq_ok.1 h
  obtain ⟨b, hb, h⟩ := Res.bind_eq_ok.1 h
  obtain ⟨c, hc, h⟩ := Res.bind_eq_ok.1 h
  obtain ⟨body, hbody, h⟩ := Res.bind_eq_ok.1 h
  obtain ⟨ngf, hngf, h⟩ := Res.bind_eq_ok.1 h
  have sec : ∀ (p : Str) (s r : Str), p ≠ [] → second (cut p s) = .ok r → FirstAt p s (cut p s).1 r := by
    intro p s r hp h
    unfold second at h
    cases hcut : (cut p s).2 with
    | none => rw [hcut] at h; cases h
    | some q => rw [hcut] at h; cases h; exact (cut_some hp).1 (Prod.ext rfl hcut)
  have f1 := sec _ _ _ hnn hrest
  have f2 := sec _ _ _ hn hbody
  rw [idx_iff] at hs
  rw [Doscar.toFloat_iff] at ht
  rw [readVector_iff] at ha hb hc
  obtain ⟨la, va, ha1, ha2, rfl⟩ := ha
  obtain ⟨lb, vb, hb1, hb2, rfl⟩ := hb
  obtain ⟨lc, vc, hc1, hc2, rfl⟩ := hc
  rw [ints_iff] at hngf
  simp only [volume_eq] at h
  match ngf, hngf, h with
  | [nx, ny, nz], hngf, h =>
    simp only at h
    split at h
    · cases h
    · rename_i hneg
      obtain ⟨p0, hp0, h⟩ := Res.bind_eq_ok.1 h
      obtain ⟨total, htotal, h⟩ := Res.bind_eq_ok.1 h
      obtain ⟨m, hm, h⟩ := Res.bind_eq_ok.1 h
      cases h
      rw [idx_iff] at hp0
      have hg : (cut c!"\n" rest).1 ≠ [] := by
        intro h0
        rw [h0] at hngf
        cases hngf
      refine ⟨t, ⟨va, vb, vc⟩, nx.toNat, ny.toNat, nz.toNat, _, p0, ⟨_, rest, _, body, s, la, lb, lc, f1, f2, hs, ht, ha1, ha2, hb1, hb2,
        hc1, hc2, ?_, (splitStr_iff hg _ _ _ le_rfl).1 rfl⟩, by rw [List.head?_eq_getElem?]; exact hp0, htotal, hm⟩
      have e1 : ((nx.toNat : Nat) : Int) = nx := by omega
      have e2 : ((ny.toNat : Nat) : Int) = ny := by omega
      have e3 : ((nz.toNat : Nat) : Int) = nz := by omega
      rw [e1, e2, e3]
      exact hngf
  | [], _, h => cases h
  | [_], _, h => cases h
  | [_, _], _, h => cases h
  | _ :: _ :: _ :: _ :: _, _, h => cases h

theorem densityC_ok {nz ny nx : Nat} {volume : Rat} {piece t : Str} {g : Grid} (h : densityC nz ny nx volume piece = .ok g)
    (ht : Before c!"augmentation occupancies" piece t) : ∃ xs, fromString t = .ok xs ∧ xs.length = nx * ny * nz := by
  have hp : (c!"augmentation occupancies" : Str) ≠ [] := by decide
  unfold densityC at h
  rw [(cut_fst hp).2 ht] at h
  obtain ⟨xs, hx, h⟩ := Res.bind_eq_ok.1 h
  split at h
  · rename_i hl
    exact ⟨xs, hx, by rw [hl]; ring⟩
  · cases h

theorem before_mem {p s a : Str} (h : Before p s a) {c : Char} (hc : c ∈ a) : c ∈ s := by
  rcases h with ⟨b, rfl, _⟩ | ⟨rfl, _⟩
  · simp [hc]
  · exact hc

theorem pieces_mem {g s : Str} {ps : List Str} (h : Pieces g s ps) {p : Str} (hp : p ∈ ps) {c : Char} (hc : c ∈ p) : c ∈ s := by
  induction h with
  | last _ => rw [List.mem_singleton] at hp; subst hp; exact hc
  | cons h1 _ ih =>
    rcases List.mem_cons.1 hp with rfl | hp
    · rw [h1.1]; simp [hc]
    · rw [h1.1]; simp [ih hp]

theorem file_mem {text : Str} {scale : Rat} {cell : M3 Rat} {nx ny nz : Nat} {pieces : List Str} (h : File text scale cell nx ny nz pieces)
    {p : Str} (hp : p ∈ pieces) {c : Char} (hc : c ∈ p) : c ∈ text := by
  obtain ⟨header, rest, grid, body, l1, l2, l3, l4, h1, h2, -, -, -, -, -, -, -, -, -, h3⟩ := h
  have := pieces_mem h3 hp hc
  rw [h1.1, h2.1]
  simp [this]

theorem isRead_mem {pieces : List Str} {p : Str} (h : IsRead pieces p) : p ∈ pieces := by
  rcases h with h | h
  · exact List.mem_of_mem_head? h
  · exact h.2

/-- C123, CHGCAR: in an accepted file no number of a data set that is read is damaged, except possibly the last one. (The exception is real, see
the violations.) Missing: the last number (`C123_violation_chgcar`). -/
theorem C123_chgcar_partial (text : Str) (d : Data) (hp : PlainSpace text) (h : initC none (some text) = .ok d) :
    ∃ (scale : Rat) (cell : M3 Rat) (nx ny nz : Nat) (pieces : List Str), File text scale cell nx ny nz pieces ∧
      ∀ p t, IsRead pieces p → Before c!"augmentation occupancies" p t → nx * ny * nz ≤ (words t).length ∧
        ∀ (j : Nat) (w : Str), j + 1 < nx * ny * nz → (words t)[j]? = some w → ¬ Damaged w := by
  obtain ⟨scale, cell, nx, ny, nz, pieces, p0, hf, h0, hd, hm⟩ := fromTextC_ok h
  refine ⟨scale, cell, nx, ny, nz, pieces, hf, ?_⟩
  intro p t hr ht
  have hg : ∃ g, densityC nz ny nx (scale ^ 3 * cell.det) p = .ok g := by
    rcases hr with hr | ⟨hl, hmem⟩
    · rw [h0] at hr; cases hr; exact ⟨_, hd⟩
    · match pieces, h0, hm, hl, hmem with
      | [a, b], h0, hm, _, hmem =>
        cases h0
        simp only [magnetizationC] at hm
        obtain ⟨g, hg, -⟩ := Res.bind_eq_ok.1 hm
        simp only [List.mem_cons, List.not_mem_nil, or_false] at hmem
        rcases hmem with rfl | rfl
        · exact ⟨_, hd⟩
        · exact ⟨_, hg⟩
      | [a, b, c, e], h0, hm, _, hmem =>
        cases h0
        simp only [magnetizationC] at hm
        obtain ⟨g, hg, hm⟩ := Res.bind_eq_ok.1 hm
        obtain ⟨g', hg', hm⟩ := Res.bind_eq_ok.1 hm
        obtain ⟨g'', hg'', hm⟩ := Res.bind_eq_ok.1 hm
        simp only [List.mem_cons, List.not_mem_nil, or_false] at hmem
        rcases hmem with rfl | rfl | rfl | rfl
        · exact ⟨_, hd⟩
        · exact ⟨_, hg⟩
        · exact ⟨_, hg'⟩
        · exact ⟨_, hg''⟩
      | [], _, _, hl, _ => simp at hl
      | [_], _, _, hl, _ => simp at hl
      | [_, _, _], _, _, hl, _ => simp at hl
      | _ :: _ :: _ :: _ :: _ :: _, _, _, hl, _ => simp at hl
  obtain ⟨g, hg⟩ := hg
  obtain ⟨xs, hx, hlen⟩ := densityC_ok hg ht
  have hpt : PlainSpace t := fun c hc => hp c (file_mem hf (isRead_mem hr) (before_mem ht hc))
  obtain ⟨k1, k2⟩ := fromString_sound hpt hx
  rw [hlen] at k1 k2
  refine ⟨k1, fun j w hj hw => ?_⟩
  obtain ⟨x, -, hx⟩ := k2 j w hj hw
  exact strtod_sound hx

theorem densityC_agrees {nz ny nx : Nat} {volume : Rat} {piece : Str} {g : Grid} (hp : PlainSpace piece) (hu : '_' ∉ piece)
    (h : density nz ny nx volume piece = .ok g) : densityC nz ny nx volume piece = .ok g := by
  unfold density at h
  obtain ⟨xs, hx, h⟩ := Res.bind_eq_ok.1 h
  have hb := (cut_fst (p := c!"augmentation occupancies") (by decide)).1 (rfl : (cut c!"augmentation occupancies" piece).1 = _)
  unfold densityC
  rw [C123_text _ (fun c hc => hp c (before_mem hb hc)) xs, Res.ok_bind, h]
  have := Res.mapM'_eq_ok.1 hx
  unfold Prints
  have hmem : ∀ w ∈ words (cut c!"augmentation occupancies" piece).1, '_' ∉ w := by
    intro w hw hc
    exact hu (before_mem hb (Eigenval.mem_splitP_sub (List.mem_of_mem_filter hw) hc).1)
  clear hx h hb
  generalize words (cut c!"augmentation occupancies" piece).1 = ws at this hmem
  induction this with
  | nil => exact .nil
  | cons hr _ ih =>
    refine .cons ⟨?_, hmem _ (by simp)⟩ (ih fun w hw => hmem w (by simp [hw]))
    unfold toNumber at hr
    split at hr
    · cases hr; assumption
    · cases hr

/-- C123, CHGCAR: on every accepted text without underscores and exotic white space, the reading word by word (`init`) and the reading of NumPy
(`initC`) give the same object. -/
theorem C123_chgcar_agrees (text : Str) (d : Data) (hp : PlainSpace text) (hu : '_' ∉ text) (h : init none (some text) = .ok d) :
    initC none (some text) = .ok d := by
  obtain ⟨t, ⟨va, vb, vc⟩, nx, ny, nz, pieces, p, hf, hv, hp0, hd, hm⟩ := (C41_grid_partial text d).1 h
  have hag : ∀ q ∈ pieces, ∀ g, density nz ny nx (t ^ 3 * (M3.mk va vb vc).det) q = .ok g → densityC nz ny nx (t ^ 3 * (M3.mk va vb vc).det) q = .ok g :=
    fun q hq g hg => densityC_agrees (fun c hc => hp c (file_mem hf hq hc)) (fun hc => hu (file_mem hf hq hc)) hg
  have hd' := hag p (List.mem_of_mem_head? hp0) _ (density_iff.2 ⟨hv, hd⟩)
  have hm' : magnetizationC nz ny nx (t ^ 3 * (M3.mk va vb vc).det) pieces = .ok d.magnetization := by
    have hm := (magnetization_iff hv).2 hm
    unfold magnetization at hm
    unfold magnetizationC
    split at hm
    · obtain ⟨g, hg, hm⟩ := Res.bind_eq_ok.1 hm
      simp only
      rw [hag _ (by simp) _ hg, Res.ok_bind, hm]
    · obtain ⟨g, hg, hm⟩ := Res.bind_eq_ok.1 hm
      obtain ⟨g', hg', hm⟩ := Res.bind_eq_ok.1 hm
      obtain ⟨g'', hg'', hm⟩ := Res.bind_eq_ok.1 hm
      simp only
      rw [hag _ (by simp) _ hg, Res.ok_bind, hag _ (by simp) _ hg', Res.ok_bind, hag _ (by simp) _ hg'', Res.ok_bind, hm]
    · rename_i n1 n2
      split
      · exact absurd rfl (n1 _ _)
      · exact absurd rfl (n2 _ _ _ _)
      · exact hm
  obtain ⟨header, rest, grid, body, l1, l2, l3, l4, f1, f2, hs, ht, ha1, ha2, hb1, hb2, hc1, hc2, hi, hps⟩ := hf
  have hnn : (c!"\n\n" : Str) ≠ [] := by decide
  have hn : (c!"\n" : Str) ≠ [] := by decide
  show fromTextC text = .ok d
  unfold fromTextC
  rw [(cut_some hnn).2 f1]
  simp only [second, Res.ok_bind]
  rw [(idx_iff _ _ _).2 hs, Res.ok_bind, (Doscar.toFloat_iff _ _).2 ht, Res.ok_bind,
    (readVector_iff _ _ _ _).2 ⟨l2, va, ha1, ha2, rfl⟩, Res.ok_bind, (readVector_iff _ _ _ _).2 ⟨l3, vb, hb1, hb2, rfl⟩, Res.ok_bind,
    (readVector_iff _ _ _ _).2 ⟨l4, vc, hc1, hc2, rfl⟩, Res.ok_bind, (cut_some hn).2 f2]
  simp only [second, Res.ok_bind]
  have hg : grid ≠ [] := by rintro rfl; cases hi
  rw [(ints_iff _ _).2 hi, Res.ok_bind]
  simp only
  rw [if_neg (by omega), volume_eq, (splitStr_iff hg _ _ _ le_rfl).2 hps, (idx_iff _ _ _).2 (by rw [← List.head?_eq_getElem?]; exact hp0),
    Res.ok_bind]
  simp only [Int.toNat_natCast]
  rw [hd', Res.ok_bind, hm', Res.ok_bind]

/-- C123 is false for the last number of a CHGCAR data set: if it runs into junk (`0.25-100` for a tiny number, `1.5****`), the junk and
everything behind it are ignored and the beginning of the field is taken as the number, without a complaint. -/
theorem C123_violation_chgcar (nz ny nx : Nat) (volume : Rat) (p q t u : Str) (pre post : List Str) (v r : Str) (c : Char) (xs : List Rat) (x : Rat)
    (hp : Before c!"augmentation occupancies" p t) (hq : Before c!"augmentation occupancies" q u) (hpt : PlainSpace t) (hpu : PlainSpace u)
    (hc : c = '-' ∨ c = '+' ∨ c = '*') (ht : words t = pre ++ (v ++ c :: r) :: post) (hu : words u = pre ++ [v]) (hx : Prints (pre ++ [v]) (xs ++ [x])) :
    Damaged (v ++ c :: r) ∧ densityC nz ny nx volume p = densityC nz ny nx volume q := by
  have hpp : (c!"augmentation occupancies" : Str) ≠ [] := by decide
  have hst : Stop (c :: r) := by
    intro c' hc'
    cases hc'
    rcases hc with rfl | rfl | rfl <;> decide
  have hfree : ∀ w ∈ pre ++ [v], Free isSpace w := fun w hw => (words_mem (s := u) (by rw [hu]; exact hw)).2
  have hs := prints_strtod hfree hx
  have hlen : pre.length = xs.length := by have := hs.length_eq; simpa using this
  have hpre : List.Forall₂ (fun w x => strtod w = some (x, [])) pre xs ∧ strtod v = some (x, []) := by
    clear ht hu hx hfree
    induction pre generalizing xs with
    | nil =>
      cases xs with
      | nil => cases hs with | cons h _ => exact ⟨.nil, h⟩
      | cons y ys => simp at hlen
    | cons w ws ih =>
      cases xs with
      | nil => simp at hlen
      | cons y ys =>
        cases hs with
        | cons h hs =>
          obtain ⟨i1, i2⟩ := ih ys hs (by simpa using hlen)
          exact ⟨.cons h i1, i2⟩
  refine ⟨damaged_junk hpre.2 hc, ?_⟩
  · unfold densityC
    rw [(cut_fst hpp).2 hp, (cut_fst hpp).2 hq, fromString_junk hpt ht hpre.1 hpre.2 hst (by simp), C123_text u hpu (xs ++ [x]) (by rw [hu]; exact hx)]

/-- Non-vacuity of the theorems above: a file whose only data set ends in `-0.75-100` is accepted, the number being read as -0.75; with the damage
in front of the last number it is refused; `C123_chgcar_agrees` applies to the undamaged file. -/
example : initC none (some c!"c\n1.0\n1 0 0\n0 1 0\n0 0 1\nH\n1\nDirect\n0 0 0\n\n 1 1 2\n 0.5 -0.75-100\n") = .ok ⟨[[[1/2]], [[-3/4]]], .none⟩ ∧
    initC none (some c!"c\n1.0\n1 0 0\n0 1 0\n0 0 1\nH\n1\nDirect\n0 0 0\n\n 1 1 2\n -0.75-100 0.5\n") = .raise .valueError ∧
    init none (some c!"c\n1.0\n1 0 0\n0 1 0\n0 0 1\nH\n1\nDirect\n0 0 0\n\n 1 1 2\n 0.5 -0.75E-100\n") =
      .ok ⟨[[[1/2]], [[-75/10^102]]], .none⟩ ∧
    PlainSpace c!"c\n1.0\n1 0 0\n0 1 0\n0 0 1\nH\n1\nDirect\n0 0 0\n\n 1 1 2\n 0.5 -0.75E-100\n" := by
  refine ⟨by decide +kernel, by decide +kernel, by decide +kernel, by unfold PlainSpace; decide⟩

end Verif.Chgcar

namespace Verif.Vasprun
open Verif Verif.Utils Verif.Xml Verif.NpText

theorem fromTextC_agrees {e : Node} {xs : List Rat} (hp : ∀ s, e.text = some s → PlainSpace s) (h : fromText e = .ok xs) : fromTextC e = .ok xs := by
  unfold fromText at h
  unfold fromTextC
  cases ht : e.text with
  | none => rw [ht] at h; cases h
  | some s =>
    rw [ht] at h
    obtain ⟨r, hr⟩ := loop_fromWords _ s (s.length + 1) xs (hp s ht) (by omega) rfl h
    simp only
    unfold fromString
    rw [hr]
    rfl

/-- C123, vasprun.xml: where the reading word by word is defined, the reading of NumPy gives the same table. -/
theorem C123_vasprun_agrees (es : List Node) (dim : Nat) (T : Table) (hp : ∀ e ∈ es, ∀ s, e.text = some s → PlainSpace s)
    (h : convert2D es dim = .ok T) : convert2DC es dim = .ok T := by
  unfold convert2D at h
  unfold convert2DC
  rw [Res.mapM'_eq_ok] at h ⊢
  induction h with
  | nil => exact .nil
  | cons hr _ ih =>
    refine .cons ?_ (ih fun e he => hp e (by simp [he]))
    obtain ⟨xs, hx, hr⟩ := Res.bind_eq_ok.1 hr
    rw [fromTextC_agrees (hp _ (by simp)) hx, Res.ok_bind, hr]

/-- C123 is false for the last number of every row of vasprun.xml: if it runs into junk (`0.25-100`, `1.5****`), the beginning of the field is
taken as the number, without a complaint. -/
theorem C123_violation_vasprun (e : Node) (s : Str) (pre post : List Str) (v r : Str) (c : Char) (xs : List Rat) (x : Rat) (he : e.text = some s)
    (hp : PlainSpace s) (hc : c = '-' ∨ c = '+' ∨ c = '*') (ht : words s = pre ++ (v ++ c :: r) :: post) (hpre : Prints pre xs)
    (hv : pyFloatRat v = some x) (hu : '_' ∉ v) : Damaged (v ++ c :: r) ∧ convert2DC [e] (xs.length + 1) = .ok [xs ++ [x]] := by
  have hst : Stop (c :: r) := by
    intro c' hc'
    cases hc'
    rcases hc with rfl | rfl | rfl <;> decide
  have hmem : ∀ w, w ∈ words s → Free isSpace w := fun w hw => (words_mem hw).2
  have h1 := prints_strtod (fun w hw => hmem w (by rw [ht]; simp [hw])) hpre
  have hvf : Free isSpace v := fun c' hc' => hmem (v ++ c :: r) (by rw [ht]; simp) c' (List.mem_append_left _ hc')
  have h2 := (strtod_iff hvf hu x).1 hv
  refine ⟨damaged_junk h2 hc, ?_⟩
  unfold convert2DC
  rw [Res.mapM'_eq_ok]
  refine .cons ?_ .nil
  unfold fromTextC
  rw [he]
  simp only
  rw [fromString_junk hp ht h1 h2 hst (by simp), Res.ok_bind]
  unfold fitRow
  rw [if_pos (by simp)]

/-- C123 is false for all other numbers of a row of vasprun.xml: a damaged number makes the whole row zero (or, as the second field, spreads the
first number over the row), without a complaint. -/
theorem C123_violation_row (e : Node) (s : Str) (pre post : List Str) (w : Str) (xs : List Rat) (dim : Nat) (he : e.text = some s)
    (hp : PlainSpace s) (hd : Damaged w) (ht : words s = pre ++ w :: post) (hpre : Prints pre xs) (hdim : xs.length + 1 < dim) (row : List Rat)
    (h : convert2DC [e] dim = .ok [row]) : ∃ y, row = List.replicate dim y ∧ (2 ≤ xs.length → y = 0) := by
  unfold convert2DC at h
  rw [Res.mapM'_eq_ok] at h
  cases h with
  | cons h _ =>
    obtain ⟨ys, hy, h⟩ := Res.bind_eq_ok.1 h
    unfold fromTextC at hy
    rw [he] at hy
    have hl : ys.length ≤ xs.length + 1 ∧ xs.length ≤ ys.length := by
      rcases C123_text_damaged s hp pre post w xs ys ht hpre hd hy with rfl | ⟨y, rfl⟩ <;> simp
    have h := Res.ok.inj h
    subst h
    unfold fitRow
    rw [if_neg (by omega)]
    split
    · exact ⟨_, rfl, fun h2 => by simp at hl; omega⟩
    · exact ⟨0, rfl, fun _ => rfl⟩

/-- Non-vacuity. -/
example : convert2DC [⟨c!"r", [], some c!" 0.5 1.5 0.25-100 ", []⟩] 3 = .ok [[1/2, 3/2, 1/4]] ∧
    convert2DC [⟨c!"r", [], some c!" 0.5 1.5 2.5-100 0.1 ", []⟩] 4 = .ok [[0, 0, 0, 0]] ∧
    convert2DC [⟨c!"r", [], some c!" 0.5 **** 2.5 ", []⟩] 3 = .ok [[1/2, 1/2, 1/2]] := by decide +kernel

end Verif.Vasprun
