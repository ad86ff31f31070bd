import Verif.Props.BlankKpoints
import Verif.Props.Eigenval
/-! # Blank lines at the end of a POSCAR file (C100) -/
set_option autoImplicit false
namespace Verif.Poscar
open Verif Verif.Kpoints

/-- The number of lines before the positions: eight, and one more with selective dynamics, which the eighth line then announces. -/
def linesBefore (t : Str) : Nat := if ((readlines t)[7]?.bind fun l => l.head?.map lowerC) = some 's' then 9 else 8

theorem readHeader_linesBefore {t : Str} {h : Header} (e : readHeader (readlines t) = .ok h) : h.loopmax = linesBefore t := by
  unfold readHeader at e
  obtain ⟨l0, h0, e⟩ := Res.bind_eq_ok.1 e
  obtain ⟨l5, h5, e⟩ := Res.bind_eq_ok.1 e
  obtain ⟨l1, h1, e⟩ := Res.bind_eq_ok.1 e
  obtain ⟨w, hw, e⟩ := Res.bind_eq_ok.1 e
  obtain ⟨sc, hsc, e⟩ := Res.bind_eq_ok.1 e
  split at e
  · cases e
  split at e
  · cases e
  obtain ⟨l2, h2, e⟩ := Res.bind_eq_ok.1 e
  obtain ⟨a, ha, e⟩ := Res.bind_eq_ok.1 e
  obtain ⟨l3, h3, e⟩ := Res.bind_eq_ok.1 e
  obtain ⟨b, hb, e⟩ := Res.bind_eq_ok.1 e
  obtain ⟨l4, h4, e⟩ := Res.bind_eq_ok.1 e
  obtain ⟨c, hc, e⟩ := Res.bind_eq_ok.1 e
  obtain ⟨cell, hcell, e⟩ := Res.bind_eq_ok.1 e
  obtain ⟨l6, h6, e⟩ := Res.bind_eq_ok.1 e
  obtain ⟨atoms, hat, e⟩ := Res.bind_eq_ok.1 e
  obtain ⟨l7, h7, e⟩ := Res.bind_eq_ok.1 e
  obtain ⟨c7, hc7, e⟩ := Res.bind_eq_ok.1 e
  have h7 := idx_ok.1 h7
  have hc7 := idx_ok.1 hc7
  have hh : ((readlines t)[7]?.bind fun l => l.head?.map lowerC) = some (lowerC c7) := by
    rw [h7]
    simp only [Option.bind_some]
    rw [List.head?_eq_getElem?, hc7]
    rfl
  unfold linesBefore
  rw [hh]
  dsimp only at e
  split at e
  · rename_i hs
    obtain ⟨l8, h8, e⟩ := Res.bind_eq_ok.1 e
    obtain ⟨c8, hc8, e⟩ := Res.bind_eq_ok.1 e
    cases e
    rw [if_pos (by rw [hs])]
  · rename_i hs
    cases e
    rw [if_neg (by simpa using hs)]

theorem assemble_length (raws : List Raw) (v q : Option (List Vec)) : (assemble raws v q).length = raws.length := by
  unfold assemble; simp

theorem mem_assemble {raws : List Raw} {v q : Option (List Vec)} {s : Site} (h : s ∈ assemble raws v q) :
    (s.velocities ≠ none → v ≠ none) ∧ (s.predictors ≠ none → q ≠ none) := by
  unfold assemble at h
  obtain ⟨⟨r, i⟩, _, rfl⟩ := List.mem_map.1 h
  constructor
  · rintro hv rfl; exact hv rfl
  · rintro hv rfl; exact hv rfl

theorem fileEntries_inj {c c' : Str} {cell cell' : Cell} {s s' : List Site} (h : fileEntries c cell s = fileEntries c' cell' s') :
    c = c' ∧ cell = cell' ∧ s = s' := by
  unfold fileEntries at h
  simp only [List.cons.injEq, Prod.mk.injEq, true_and, and_true, Val.str.injEq, Val.cell.injEq, Option.some.injEq, Val.sites.injEq] at h
  have hinj : Function.Injective Elem.site := fun a b h => by cases h; rfl
  exact ⟨h.1, h.2.1, List.map_injective_iff.2 hinj h.2.2⟩

theorem init_parse (t : Str) {E : Exc} (h : parse (readlines t) = .raise E) : init { handler := some t } = .raise E := by
  have hi : init { handler := some t } = (fromList (readlines t) >>= fun d => fromDict d >>= fun e => validate e >>= fun _ => .ok e) := by
    unfold init load fromFile
    simp [guards]
  rw [hi]
  unfold fromList
  rw [h]
  rfl

theorem init_congr {t t' : Str} (h : parse (readlines t) = parse (readlines t')) : init { handler := some t } = init { handler := some t' } := by
  have hi : ∀ t, init { handler := some t } = (fromList (readlines t) >>= fun d => fromDict d >>= fun e => validate e >>= fun _ => .ok e) := by
    intro t
    unfold init load fromFile
    simp [guards]
  rw [hi, hi]
  unfold fromList
  rw [h]

theorem blank_line {l : Str} (h : BlankLines l) (hne : l ≠ []) : ∃ c, idx l 0 = .ok c ∧ lowerC c ≠ 'd' ∧ lowerC c ≠ 'c' := by
  cases l with
  | nil => exact absurd rfl hne
  | cons c cs =>
    refine ⟨c, rfl, ?_⟩
    rcases h c (by simp) with rfl | rfl <;> decide

theorem readlines_ne {s l : Str} (h : l ∈ readlines s) : l ≠ [] := Eigenval.readlines_ne_nil h

/-- The first of some blank lines. -/
theorem first_blank {s : Str} (hs : BlankLines s) (hne : s ≠ []) (he : LineEnd s) : ∃ l ls, readlines s = l :: ls ∧ isBlank l = true := by
  rcases he with rfl | he
  · exact absurd rfl hne
  obtain ⟨a, b, rfl, ha⟩ := List.eq_append_cons_of_mem (List.mem_of_getLast? he)
  refine ⟨_, _, readlines_line_append b ha, ?_⟩
  unfold isBlank
  have : a.filter (· != ' ') = [] := by
    rw [List.filter_eq_nil_iff]
    intro c hc
    rcases hs c (by simp [hc]) with rfl | rfl
    · decide
    · exact absurd hc ha
  rw [List.filter_append, this]
  decide

/-- C100 for POSCAR, partial: one blank line behind a file that ends with its positions changes nothing. Missing: more blank lines, and
files with velocities (`C100_violation_positions`, `C100_violation_velocities`). -/
theorem C100_poscar_partial (t s : Str) (ht : LineEnd t) (hs : BlankLines s) (comment : Str) (cell : Cell) (sites : List Site)
    (h : init { handler := some t } = .ok (fileEntries comment cell sites)) (hlen : (readlines t).length = sites.length + linesBefore t)
    (hone : (readlines s).length ≤ 1) : init { handler := some (t ++ s) } = .ok (fileEntries comment cell sites) := by
  obtain ⟨P, c, h1, h2, h3⟩ := (init_handler _ _).1 h
  obtain ⟨rfl, rfl, rfl⟩ := fileEntries_inj h3
  rw [← h]
  refine init_congr ?_
  rw [readlines_lineEnd ht]
  obtain ⟨hd, raws, u, v, w, a1, a2, a3, a4, rfl, a5⟩ := parse_parts h1
  have hn : raws.length = hd.atoms.sum.toNat := readSites_length _ _ _ _ _ _ _ a3
  rw [assemble_length, hn, ← readHeader_linesBefore a1] at hlen
  have e1 : ∀ B : List Str, B.length ≤ 1 → (∀ l ∈ B, BlankLines l ∧ l ≠ []) →
      readTail (readlines t ++ B) (hd.atoms.sum.toNat + hd.loopmax) = .ok (false, false, false) := by
    intro B hB hbl
    unfold readTail
    cases B with
    | nil => rw [List.append_nil, if_neg (by omega), Res.ok_bind, if_neg (by omega)]
    | cons l ls =>
      obtain rfl : ls = [] := List.length_eq_zero_iff.1 (by simpa using hB)
      obtain ⟨c, hc, hd', hc'⟩ := blank_line (hbl l (by simp)).1 (hbl l (by simp)).2
      have hi : idx (readlines t ++ [l]) (hd.atoms.sum.toNat + hd.loopmax) = .ok l := by
        rw [idx_ok, List.getElem?_append_right (by omega), hlen]
        simp
      rw [if_pos (by simp; omega), hi, Res.ok_bind, hc, Res.ok_bind, if_neg (by simp [hd', hc']), Res.ok_bind, if_neg (by simp; omega)]
  have e2 : ∀ B : List Str, B.length ≤ 1 → (∀ l ∈ B, BlankLines l ∧ l ≠ []) →
      parse (readlines t ++ B) = .ok ⟨hd.comment, hd.cell, assemble raws none none⟩ := by
    intro B hB hbl
    unfold parse
    rw [readHeader_mono a1, Res.ok_bind]
    simp only
    rw [if_neg (by omega), readSites_mono a3, Res.ok_bind, e1 B hB hbl, Res.ok_bind]
    rfl
  rw [e2 _ hone fun l hl => ⟨hs.line hl, readlines_ne hl⟩]
  have := e2 [] (by simp) (by simp)
  rw [List.append_nil] at this
  exact this.symm

/-- C100 is false of every POSCAR that ends with its positions: with two blank lines behind them it is refused with an `IndexError`. -/
theorem C100_violation_positions (t s : Str) (ht : LineEnd t) (hs : BlankLines s) (comment : Str) (cell : Cell) (sites : List Site)
    (h : init { handler := some t } = .ok (fileEntries comment cell sites)) (hlen : (readlines t).length = sites.length + linesBefore t)
    (htwo : 2 ≤ (readlines s).length) : init { handler := some (t ++ s) } = .raise .indexError := by
  obtain ⟨P, c, h1, h2, h3⟩ := (init_handler _ _).1 h
  obtain ⟨rfl, rfl, rfl⟩ := fileEntries_inj h3
  refine init_parse _ ?_
  rw [readlines_lineEnd ht]
  obtain ⟨hd, raws, u, v, w, a1, a2, a3, a4, rfl, a5⟩ := parse_parts h1
  have hn : raws.length = hd.atoms.sum.toNat := readSites_length _ _ _ _ _ _ _ a3
  rw [assemble_length, hn, ← readHeader_linesBefore a1] at hlen
  cases hr : readlines s with
  | nil => rw [hr] at htwo; simp at htwo
  | cons l ls =>
    cases ls with
    | nil => rw [hr] at htwo; simp at htwo
    | cons l' ls =>
      have hl : BlankLines l := hs.line (by rw [hr]; simp)
      have hl' : BlankLines l' := hs.line (by rw [hr]; simp)
      obtain ⟨c, hc, hd', hc'⟩ := blank_line hl (readlines_ne (s := s) (by rw [hr]; simp))
      have hi : idx (readlines t ++ l :: l' :: ls) (hd.atoms.sum.toNat + hd.loopmax) = .ok l := by
        rw [idx_ok, List.getElem?_append_right (by omega), hlen]
        simp
      have hi' : idx (readlines t ++ l :: l' :: ls) (hd.atoms.sum.toNat + hd.loopmax + 1) = .ok l' := by
        rw [idx_ok, List.getElem?_append_right (by omega), hlen]
        simp
      have hlen' : hd.atoms.sum.toNat + hd.loopmax + 1 < (readlines t ++ l :: l' :: ls).length := by simp; omega
      have htail : readTail (readlines t ++ l :: l' :: ls) (hd.atoms.sum.toNat + hd.loopmax) = .raise .indexError := by
        unfold readTail
        rw [if_pos (by omega), hi, Res.ok_bind, hc, Res.ok_bind, if_neg (by simp [hd', hc']), Res.ok_bind, if_pos hlen', hi', Res.ok_bind,
          hl'.words]
        rfl
      unfold parse
      rw [readHeader_mono a1, Res.ok_bind]
      simp only
      rw [if_neg (by omega), readSites_mono a3, Res.ok_bind, htail]
      rfl

/-- C100 is false of every POSCAR that ends with velocities: with a blank line behind them it is refused with an `IndexError`. -/
theorem C100_violation_velocities (t s : Str) (ht : LineEnd t) (hs : BlankLines s) (hne : s ≠ []) (hse : LineEnd s) (comment : Str) (cell : Cell)
    (sites : List Site) (h : init { handler := some t } = .ok (fileEntries comment cell sites))
    (hv : ∃ x ∈ sites, x.velocities ≠ none) (hlen : (readlines t).length = sites.length + linesBefore t + 1 + sites.length) :
    init { handler := some (t ++ s) } = .raise .indexError := by
  obtain ⟨P, c, h1, h2, h3⟩ := (init_handler _ _).1 h
  obtain ⟨rfl, rfl, rfl⟩ := fileEntries_inj h3
  refine init_parse _ ?_
  rw [readlines_lineEnd ht]
  obtain ⟨hd, raws, u, v, w, a1, a2, a3, a4, rfl, a5⟩ := parse_parts h1
  have hn : raws.length = hd.atoms.sum.toNat := readSites_length _ _ _ _ _ _ _ a3
  rw [assemble_length, hn, ← readHeader_linesBefore a1] at hlen
  obtain ⟨x, hx, hxv⟩ := hv
  have hvn := (mem_assemble hx).1 hxv
  have hpos : 0 < hd.atoms.sum.toNat := by
    rw [← hn, ← assemble_length raws v w]
    exact List.length_pos_of_mem hx
  rcases a5 with ⟨c1, ⟨vs, rfl, c2⟩, c3⟩ | ⟨_, _, rfl, _⟩ | ⟨_, _, rfl, _⟩
  · obtain ⟨l, ls, hr, hbl⟩ := first_blank hs hne hse
    rw [hr]
    obtain ⟨tt, htt, c1'⟩ : ∃ tt, readTail (readlines t ++ l :: ls) (hd.atoms.sum.toNat + hd.loopmax) = .ok tt ∧ tt = u := by
      refine ⟨u, ?_, rfl⟩
      unfold readTail at a4 ⊢
      have x1 : hd.atoms.sum.toNat + hd.loopmax < (readlines t).length := by omega
      have x2 : hd.atoms.sum.toNat + hd.loopmax + 1 < (readlines t).length := by omega
      have y1 : hd.atoms.sum.toNat + hd.loopmax < (readlines t ++ l :: ls).length := by simp; omega
      have y2 : hd.atoms.sum.toNat + hd.loopmax + 1 < (readlines t ++ l :: ls).length := by simp; omega
      simp only [x1, x2, if_true] at a4
      simp only [y1, y2, if_true, idx_down x1, idx_down x2]
      exact a4
    subst c1'
    have hp : readPredAfter (readlines t ++ l :: ls) (hd.atoms.sum.toNat + (hd.atoms.sum.toNat + hd.loopmax + 1)) hd.atoms.sum.toNat =
        .raise .indexError := by
      unfold readPredAfter
      have hi : idx (readlines t ++ l :: ls) (hd.atoms.sum.toNat + (hd.atoms.sum.toNat + hd.loopmax + 1)) = .ok l := by
        rw [idx_ok, List.getElem?_append_right (by omega), hlen,
          show hd.atoms.sum.toNat + (hd.atoms.sum.toNat + hd.loopmax + 1) - (hd.atoms.sum.toNat + hd.loopmax + 1 + hd.atoms.sum.toNat) = 0 by omega]
        rfl
      rw [if_pos (by simp; omega), hi, Res.ok_bind, if_pos hbl]
      cases ls with
      | nil =>
        have : idx (readlines t ++ [l]) (hd.atoms.sum.toNat + (hd.atoms.sum.toNat + hd.loopmax + 1) + 1) = .raise .indexError := by
          unfold idx
          rw [List.getElem?_eq_none (by simp; omega)]
        rw [this]
        rfl
      | cons l' ls =>
        have hl' : BlankLines l' := hs.line (by rw [hr]; simp)
        have : idx (readlines t ++ l :: l' :: ls) (hd.atoms.sum.toNat + (hd.atoms.sum.toNat + hd.loopmax + 1) + 1) = .ok l' := by
          rw [idx_ok, List.getElem?_append_right (by omega), hlen,
            show hd.atoms.sum.toNat + (hd.atoms.sum.toNat + hd.loopmax + 1) + 1 - (hd.atoms.sum.toNat + hd.loopmax + 1 + hd.atoms.sum.toNat) = 1 by omega]
          rfl
        rw [this, Res.ok_bind, hl'.words]
        rfl
    unfold parse
    rw [readHeader_mono a1, Res.ok_bind]
    simp only
    rw [if_neg (by omega), readSites_mono a3, Res.ok_bind, htt, Res.ok_bind, if_pos c1, readVecs_mono c2, Res.ok_bind, hp]
    rfl
  · exact absurd rfl hvn
  · exact absurd rfl hvn

/-- C100 for POSCAR with predictors: whatever follows them, so blank lines, too, changes nothing. -/
theorem C100_poscar_predictors (t s : Str) (ht : LineEnd t) (comment : Str) (cell : Cell) (sites : List Site)
    (h : init { handler := some t } = .ok (fileEntries comment cell sites)) (hv : ∃ x ∈ sites, x.predictors ≠ none) :
    init { handler := some (t ++ s) } = .ok (fileEntries comment cell sites) := by
  obtain ⟨P, c, h1, h2, h3⟩ := (init_handler _ _).1 h
  obtain ⟨rfl, rfl, rfl⟩ := fileEntries_inj h3
  rw [← h]
  refine init_congr ?_
  rw [readlines_lineEnd ht, h1]
  obtain ⟨hd, raws, u, v, w, a1, a2, a3, a4, rfl, a5⟩ := parse_parts h1
  obtain ⟨x, hx, hxv⟩ := hv
  have hvn := (mem_assemble hx).2 hxv
  have hn : raws.length = hd.atoms.sum.toNat := readSites_length _ _ _ _ _ _ _ a3
  have hpos : 0 < hd.atoms.sum.toNat := by
    rw [← hn, ← assemble_length raws v w]
    exact List.length_pos_of_mem hx
  have hvl : ∀ (p : Nat) (conv : Vec → Res Vec) (vs : List Vec), readVecs (readlines t) p hd.atoms.sum.toNat conv = .ok vs → p < (readlines t).length := by
    intro p conv vs hvs
    unfold readVecs at hvs
    obtain ⟨b, hb⟩ := forall₂_left (Res.mapM'_eq_ok.1 hvs) (a := 0) (by simp; omega)
    obtain ⟨y, hy, _⟩ := Res.bind_eq_ok.1 hb
    have := (List.getElem?_eq_some_iff.1 (idx_ok.1 hy)).1
    omega
  have htail : ∀ (x2 : hd.atoms.sum.toNat + hd.loopmax + 1 < (readlines t).length),
      readTail (readlines t ++ readlines s) (hd.atoms.sum.toNat + hd.loopmax) = .ok u := by
    intro x2
    unfold readTail at a4 ⊢
    have x1 : hd.atoms.sum.toNat + hd.loopmax < (readlines t).length := by omega
    have y1 : hd.atoms.sum.toNat + hd.loopmax < (readlines t ++ readlines s).length := by simp; omega
    have y2 : hd.atoms.sum.toNat + hd.loopmax + 1 < (readlines t ++ readlines s).length := by simp; omega
    simp only [x1, x2, if_true] at a4
    simp only [y1, y2, if_true, idx_down x1, idx_down x2]
    exact a4
  unfold parse
  rw [readHeader_mono a1, Res.ok_bind]
  simp only
  rw [if_neg (by omega), readSites_mono a3, Res.ok_bind]
  rcases a5 with ⟨c1, ⟨vs, rfl, c2⟩, c3⟩ | ⟨c1, c2, rfl, qs, rfl, c3⟩ | ⟨_, _, _, rfl⟩
  · rw [htail (hvl _ _ _ c2), Res.ok_bind, if_pos c1, readVecs_mono c2, Res.ok_bind]
    cases w with
    | none => exact absurd rfl hvn
    | some qs => rw [readPredAfter_mono c3, Res.ok_bind]
  · rw [htail (hvl _ _ _ c3), Res.ok_bind, if_neg (by simp [c1]), if_pos c2, readVecs_mono c3, Res.ok_bind]
  · exact absurd rfl hvn

/-- A POSCAR that ends with its positions. -/
def plainExample : Str := c!"two\n1.0\n 1 0 0\n 0 1 0\n 0 0 1\nH\n1\nDirect\n 0.25 0.5 0.75\n"
/-- A POSCAR with velocities and predictors. -/
def predictorExample : Str := cutExample ++ c!"\n 0.3 0.2 0.1\n"

/-- What is read with and without blank lines. -/
example : LineEnd plainExample ∧ (readlines plainExample).length = 1 + linesBefore plainExample ∧
    shownSites (init { handler := some plainExample }) = some [(⟨1/4, 1/2, 3/4⟩, none)] ∧
    shownSites (init { handler := some (plainExample ++ c!"  \n") }) = some [(⟨1/4, 1/2, 3/4⟩, none)] ∧
    init { handler := some (plainExample ++ c!"\n\n") } = .raise .indexError :=
  ⟨.inr (by decide +kernel), by decide +kernel, by decide +kernel, by decide +kernel, by decide +kernel⟩
example : LineEnd cutExample ∧ (readlines cutExample).length = 1 + linesBefore cutExample + 1 + 1 ∧
    shownSites (init { handler := some cutExample }) = some [(⟨1/4, 1/2, 3/4⟩, some ⟨1/10, 1/5, 3/10⟩)] ∧
    init { handler := some (cutExample ++ c!"\n") } = .raise .indexError :=
  ⟨.inr (by decide +kernel), by decide +kernel, by decide +kernel, by decide +kernel⟩
example : ∃ sites : List Site, init { handler := some predictorExample } = .ok (fileEntries c!"two" ⟨⟨1, 0, 0⟩, ⟨0, 1, 0⟩, ⟨0, 0, 1⟩⟩ sites) ∧
    sites.map (·.predictors) = [some ⟨3/10, 1/5, 1/10⟩] :=
  ⟨[Site.new c!"H" ⟨1/4, 1/2, 3/4⟩ (true, true, true) (some ⟨1/10, 1/5, 3/10⟩) (some ⟨3/10, 1/5, 1/10⟩) true], by decide +kernel, by decide +kernel⟩

end Verif.Poscar
