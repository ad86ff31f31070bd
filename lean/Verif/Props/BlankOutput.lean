import Verif.Props.BlankEnd
import Verif.Props.CutChgcar
import Verif.Props.CutDoscar
import Verif.Props.CutEigenval
import Verif.Props.CutStream
/-! # Blank lines at the end of output files (C100): CHGCAR, DOSCAR, EIGENVAL -/
set_option autoImplicit false
namespace Verif.Chgcar
open Verif Verif.Utils
open Verif.Outcar (cut)
open Verif.Lattice (V3 M3)

/-- Blank lines behind a text with complete lines contain no further occurrence of a word. -/
theorem blank_no_more {g b s : Str} {c : Char} (hc : c ∈ g) (h1 : c ≠ ' ') (h2 : c ≠ '\n') (hn : '\n' ∉ g) (hb : LineEnd b) (hs : BlankLines s)
    (h : ¬ g <:+: b) : ¬ g <:+: b ++ s := by
  have hg : g ≠ [] := by rintro rfl; cases hc
  intro hi
  cases hcut : cut g (b ++ s) with
  | mk x y =>
    cases y with
    | none =>
      have := (cut_none hg).1 hcut
      exact this.2 hi
    | some y =>
      have hf := (cut_some hg).1 hcut
      obtain ⟨r, rfl⟩ := behind hb hn h hf
      have he := hf.1
      rw [List.append_assoc, List.append_assoc] at he
      have he := List.append_cancel_left he
      rcases hs c (by rw [he]; simp [hc]) with h | h
      · exact h1 h
      · exact h2 h

theorem pieces_blank {g b : Str} {ps : List Str} {c : Char} (hc : c ∈ g) (h1 : c ≠ ' ') (h2 : c ≠ '\n') (hn : '\n' ∉ g) (h : Pieces g b ps)
    (hb : LineEnd b) {s : Str} (hs : BlankLines s) : ∃ ini l, ps = ini ++ [l] ∧ LineEnd l ∧ Pieces g (b ++ s) (ini ++ [l ++ s]) := by
  induction h with
  | @last b hno => exact ⟨[], b, rfl, hb, .last (blank_no_more hc h1 h2 hn hb hs hno)⟩
  | @cons b x y ps hf _ ih =>
    have hy : LineEnd y := by rw [hf.1] at hb; exact lineEnd_right hb
    obtain ⟨ini, l, rfl, hl, hp⟩ := ih hy
    exact ⟨x :: ini, l, rfl, hl, .cons (hf.append s) hp⟩

theorem density_blank {nx ny nz : Nat} {volume : Rat} {l s : Str} {g : Grid} (hl : LineEnd l) (hs : BlankLines s)
    (h : IsDensity nx ny nz volume l g) : IsDensity nx ny nz volume (l ++ s) g := by
  obtain ⟨t, xs, ht, hx, rest⟩ := h
  rcases ht with ⟨b, ht⟩ | ⟨rfl, hno⟩
  · exact ⟨t, xs, .inl ⟨_, ht.append s⟩, hx, rest⟩
  · refine ⟨t ++ s, xs, .inr ⟨rfl, blank_no_more (c := 'a') (by decide) (by decide) (by decide) (by decide) hl hs hno⟩, ?_, rest⟩
    rw [words_lineEnd hl, hs.words, List.append_nil]
    exact hx

/-- C100 for CHGCAR: blank lines at the end of a file change nothing. -/
theorem C100_chgcar (t s : Str) (ht : LineEnd t) (hs : BlankLines s) (d : Data) (h : init none (some t) = .ok d) :
    init none (some (t ++ s)) = .ok d := by
  obtain ⟨sc, c, nx, ny, nz, ps, p0, hf, hv, p0h, htot, hm⟩ := (C41_grid_partial t d).1 h
  obtain ⟨header, rest, grid, body, l1, l2, l3, l4, f1, f2, a1, b1, a2, b2, a3, b3, a4, b4, hi, hps⟩ := hf.parts
  have hn : '\n' ∉ grid := by
    intro hm
    obtain ⟨u, v, rfl⟩ := List.append_of_mem hm
    refine f2.2 u.length (by simp) ?_
    rw [f2.1]
    simp
  have hb : LineEnd body := by
    rw [f1.1] at ht
    have := lineEnd_right ht
    rw [f2.1] at this
    exact lineEnd_right this
  obtain ⟨x, hx, hx1⟩ : ∃ x ∈ grid, isSpace x = false := by
    by_contra hc
    have : words grid = [] := (Incar.words_eq_nil_iff grid).2 fun c hc' => by
      cases he : isSpace c with
      | true => rfl
      | false => exact absurd ⟨c, hc', he⟩ hc
    rw [this] at hi
    cases hi
  obtain ⟨ini, l, rfl, hl, hp⟩ := pieces_blank hx (by rintro rfl; revert hx1; decide) (by rintro rfl; revert hx1; decide) hn hps hb hs
  have hf' : File (t ++ s) sc c nx ny nz (ini ++ [l ++ s]) :=
    ⟨header, _, grid, _, l1, l2, l3, l4, f1.append s, f2.append s, a1, b1, a2, b2, a3, b3, a4, b4, hi, hp⟩
  have htot' : ∃ p1, (ini ++ [l ++ s]).head? = some p1 ∧ IsDensity nx ny nz (sc ^ 3 * c.det) p1 d.total := by
    cases ini with
    | nil => cases p0h; exact ⟨_, rfl, density_blank hl hs htot⟩
    | cons y ys => cases p0h; exact ⟨_, rfl, htot⟩
  obtain ⟨p1, hp1, htot'⟩ := htot'
  refine (C41_grid_partial (t ++ s) d).2 ⟨sc, c, nx, ny, nz, _, p1, hf', hv, hp1, htot', ?_⟩
  cases hd : d.magnetization with
  | none =>
    rw [hd] at hm
    unfold IsMagnetization at hm ⊢
    simpa using hm
  | collinear g =>
    rw [hd] at hm
    obtain ⟨a, b, he, hg⟩ := hm
    have he : ini ++ [l] = [a] ++ [b] := he
    obtain ⟨rfl, he⟩ := List.append_inj' he rfl
    cases he
    exact ⟨a, l ++ s, rfl, density_blank hl hs hg⟩
  | components u v w =>
    rw [hd] at hm
    obtain ⟨a, b, e, f, he, hu, hv, hw⟩ := hm
    have he : ini ++ [l] = [a, b, e] ++ [f] := he
    obtain ⟨rfl, he⟩ := List.append_inj' he rfl
    cases he
    exact ⟨a, b, e, l ++ s, rfl, hu, hv, density_blank hl hs hw⟩

end Verif.Chgcar

namespace Verif.Doscar
open Verif Verif.Utils
open Verif.Kpoints (idx toFloat toInt)

theorem indexOf_append {x : List Rat} {data more : List (OneOrMany Rat)} (h : ∀ r ∈ more, r ≠ .many x) : indexOf x (data ++ more) = indexOf x data := by
  induction data with
  | nil =>
    induction more with
    | nil => rfl
    | cons r rs ih =>
      show indexOf x (r :: rs) = none
      unfold indexOf
      have ih := ih fun r' hr => h r' (by simp [hr])
      rw [if_neg (h r (by simp)), show indexOf x rs = none from ih]
      rfl
  | cons r rs ih =>
    rw [List.cons_append]
    unfold indexOf
    rw [ih]

theorem asRows_length {count : Nat} {l : List (OneOrMany Rat)} {r : List (List Rat)} (h : asRows count l = .ok r) : r.length = l.length := by
  induction l generalizing r with
  | nil => cases h; rfl
  | cons x xs ih =>
    cases x with
    | one _ => cases h
    | many y =>
      unfold asRows at h
      split at h
      · obtain ⟨t, ht, h⟩ := Res.bind_eq_ok.1 h
        cases h
        simp [ih ht]
      · cases h

theorem asBlocks_rows {count rows : Nat} {l : List (List (OneOrMany Rat))} {bs : List (List (List Rat))} (h : asBlocks count rows l = .ok bs) :
    (∀ b ∈ l, b.length = rows) ∧ (∀ b ∈ bs, b.length = rows) ∧ bs.length = l.length := by
  induction l generalizing bs with
  | nil => cases h; simp
  | cons x xs ih =>
    unfold asBlocks at h
    split at h
    · rename_i hx
      obtain ⟨r, hr, h⟩ := Res.bind_eq_ok.1 h
      obtain ⟨t, ht, h⟩ := Res.bind_eq_ok.1 h
      cases h
      obtain ⟨h1, h2, h3⟩ := ih ht
      refine ⟨?_, ?_, by simp [h3]⟩
      · intro b hb
        rcases List.mem_cons.1 hb with rfl | hb
        · exact hx
        · exact h1 b hb
      · intro b hb
        rcases List.mem_cons.1 hb with rfl | hb
        · rw [asRows_length hr]; exact hx
        · exact h2 b hb
    · cases h

theorem blocks_append {data : List (OneOrMany Rat)} {n : Nat} (hn : 0 < n) (more : List (OneOrMany Rat)) (k start : Nat)
    (h : ∀ b ∈ blocks data n start k, b.length = n) : blocks (data ++ more) n start k = blocks data n start k := by
  induction k generalizing start with
  | zero => rfl
  | succ k ih =>
    unfold blocks at h ⊢
    rw [ih _ fun b hb => h b (by simp [hb])]
    have h0 := h _ List.mem_cons_self
    rw [List.length_take, List.length_drop] at h0
    rw [List.drop_append_of_le_length (by omega), List.take_append_of_le_length (by rw [List.length_drop]; omega)]

theorem partialDos_append {nc : Bool} {header : List Rat} {data more : List (OneOrMany Rat)} {n : Nat} (hn : 0 < n) {k : Int}
    {pdos : List (List Record)} (h : partialDos nc header data n k = .ok pdos) (hm : ∀ r ∈ more, r ≠ .many header)
    (hfull : ∀ b ∈ pdos, b.length = n) : partialDos nc header (data ++ more) n k = .ok pdos := by
  unfold partialDos at h ⊢
  rw [indexOf_append hm]
  split at h
  · exact h
  · rename_i at_ _
    dsimp only at h ⊢
    split at h
    · cases h
    · rename_i lastBlock hlast
      split at h
      · cases h
      · rename_i lastRow hrow
        obtain ⟨count, hcount, h⟩ := Res.bind_eq_ok.1 h
        obtain ⟨bs, hbs, h⟩ := Res.bind_eq_ok.1 h
        obtain ⟨s, hs, h⟩ := Res.bind_eq_ok.1 h
        obtain ⟨dt, hdt, h⟩ := Res.bind_eq_ok.1 h
        cases h
        obtain ⟨g1, g2, g3⟩ := asBlocks_rows hbs
        have hmem := List.mem_of_getLast? hlast
        have hpos : 0 < bs.length := by rw [g3]; exact List.length_pos_of_mem hmem
        have hrows : lastBlock.length = n := by
          have hb : bs[0] ∈ bs := List.getElem_mem hpos
          have := hfull _ (List.mem_map_of_mem hb)
          rw [List.length_map, g2 _ hb] at this
          exact this
        rw [blocks_append hn more _ _ (fun b hb => (g1 b hb).trans hrows), hlast]
        dsimp only
        rw [hrow]
        dsimp only
        rw [hcount, Res.ok_bind, hbs, Res.ok_bind, hs, Res.ok_bind, hdt, Res.ok_bind]

theorem lineToType_blank {l : Str} (h : BlankLines l) : lineToType toFloat l = .ok (.many []) := by
  refine lineToType_ok.2 ⟨[], ?_, rfl⟩
  unfold Numbers
  rw [h.words]
  exact .nil

/-- C100 for DOSCAR: blank lines at the end of a complete file (the partial density of states, if any, has as many energies as the header
says) change nothing. -/
theorem C100_doscar (nc : Bool) (t s : Str) (ht : LineEnd t) (hs : BlankLines s) (d : Data) (h : init none (some t) nc = .ok d)
    (hfull : ∀ b ∈ d.pdos, (b.length : Int) = d.metadata.nDos) : init none (some (t ++ s)) nc = .ok d := by
  have h : fromList nc (readlines t) = .ok d := h
  show fromList nc (readlines (t ++ s)) = .ok d
  rw [readlines_lineEnd ht]
  obtain ⟨x⟩ := fromList_ok h
  have hpos := x.pos
  have h6 : 6 ≤ (readlines t).length := by
    by_contra hc
    have := x.e5
    rw [List.getElem?_eq_none (by omega)] at this
    cases this
  have hblank : ∀ ls : List Str, (∀ l ∈ ls, BlankLines l) → Res.mapM' (lineToType toFloat) ls = .ok (ls.map fun _ => .many []) := by
    intro ls
    induction ls with
    | nil => intro _; rfl
    | cons l ls ih =>
      intro hl
      unfold Res.mapM'
      rw [lineToType_blank (hl l (by simp)), ih fun l' hl' => hl l' (by simp [hl'])]
      rfl
  refine Accepted.ok ⟨x.numIons, x.numAtoms, x.p, x.q, x.coord, x.header, x.nd, x.data ++ (readlines s).map fun _ => .many [], x.l0, x.l3, x.l4, x.l5,
    idx_prefix_ok _ x.e0, idx_prefix_ok _ x.e3, idx_prefix_ok _ x.e4, idx_prefix_ok _ x.e5, x.ints, x.hcoord, x.numbers, x.hheader, ?_, x.pos, x.hn,
    x.hi, x.ha, x.hname, x.hcart, totalDos_mono (by omega) x.total, partialDos_append (by omega) x.part ?_ ?_⟩
  · rw [List.drop_append_of_le_length h6, Incar.mapM'_append, x.hdata, Res.ok_bind, hblank _ fun l hl => hs.line hl]
    rfl
  · intro r hr he
    obtain ⟨_, _, rfl⟩ := List.mem_map.1 hr
    have := OneOrMany.many.inj he
    rw [x.hheader] at this
    cases this
  · intro b hb
    have := hfull b hb
    rw [x.hn] at this
    omega

/-- Such a file, with a blank line at its end. -/
example : (results (init none (some cutFile) false)).isSome = true ∧ init none (some (cutFile ++ c!"  \n\n")) false = init none (some cutFile) false :=
  ⟨by decide +kernel, by decide +kernel⟩

end Verif.Doscar

namespace Verif.Chgcar
/-- A CHGCAR with magnetization, with blank lines at its end. -/
example : LineEnd exampleText ∧ init none (some (exampleText ++ c!"\n  \n")) =
    .ok ⟨[[[1, 2]], [[3, 4]]], .components [[[1/4, 1/2]], [[3/4, 1]]] [[[5/4, 3/2]], [[7/4, 2]]] [[[9/4, 5/2]], [[11/4, 3]]]⟩ :=
  ⟨.inr (by decide +kernel), by decide +kernel⟩
end Verif.Chgcar

namespace Verif.Eigenval
open Verif Verif.Utils
/-- C100 is false of EIGENVAL: no file with complete lines is accepted with a blank line at its end. -/
theorem C100_violation_eigenval (t : Str) (hlen : 7 ≤ (readlines t).length) (hend : t.getLast? = some '\n') (d : Data) :
    init none (some (t ++ ['\n'])) ≠ .ok d := C40_violation_end t hlen hend d
end Verif.Eigenval

namespace Verif.Stream
open Verif Verif.Utils

theorem occurs_blank {l phrase : Str} (h : BlankLines l) {c : Char} (hc : c ∈ phrase) (h0 : c ≠ '.') (h1 : c ≠ ' ') (h2 : c ≠ '\n') :
    ¬ Occurs phrase l := by
  rintro ⟨a, b, d, rfl, hf⟩
  have : ∀ (p q : Str), List.Forall₂ (fun p c => p = '.' ∧ c ≠ '\n' ∨ p ≠ '.' ∧ p = c) p q → c ∈ p → c ∈ q := by
    intro p q hf
    induction hf with
    | nil => intro h; cases h
    | @cons x y xs ys hxy _ ih =>
      intro hm
      rcases List.mem_cons.1 hm with rfl | hm
      · rcases hxy with ⟨e, _⟩ | ⟨_, rfl⟩
        · exact absurd e h0
        · simp
      · simp [ih hm]
  rcases h c (by simp [this _ _ hf hc]) with e | e
  · exact h1 e
  · exact h2 e

/-- C100 for the standard output, with the shipped configuration: blank lines at the end change no report. -/
theorem C100_stream (hist : Bool) (t s : Str) (ht : LineEnd t) (hs : BlankLines s) : ∃ o o',
    init dotEngine (streamYml (List Char)) none hist none (some t) = .ok o ∧
    init dotEngine (streamYml (List Char)) none hist none (some (t ++ s)) = .ok o' ∧
    ∀ name, (∃ x ∈ o.entries, x.shortname = name) ↔ ∃ x ∈ o'.entries, x.shortname = name := by
  obtain ⟨o, h, hm⟩ := C84_shipped hist t
  obtain ⟨o', h', hm'⟩ := C84_shipped hist (t ++ s)
  refine ⟨o, o', h, h', fun name => ?_⟩
  rw [hm, hm', readlines_lineEnd ht]
  have hv : ∀ l ∈ readlines s, ¬ Occurs c!"vasp." l := fun l hl =>
    occurs_blank (hs.line hl) (c := 'v') (by decide) (by decide) (by decide) (by decide)
  have hl : ∀ x ∈ shipped, ∃ c ∈ x.2, c ≠ '.' ∧ c ≠ ' ' ∧ c ≠ '\n' := by decide +kernel
  constructor
  · rintro (⟨phrase, h1, l, h2, h3⟩ | ⟨h1, h2⟩)
    · exact .inl ⟨phrase, h1, l, List.mem_append_left _ h2, h3⟩
    · refine .inr ⟨h1, fun l hm => ?_⟩
      rcases List.mem_append.1 hm with hm | hm
      · exact h2 l hm
      · exact hv l hm
  · rintro (⟨phrase, h1, l, h2, h3⟩ | ⟨h1, h2⟩)
    · refine .inl ⟨phrase, h1, l, ?_, h3⟩
      rcases List.mem_append.1 h2 with h2 | h2
      · exact h2
      · obtain ⟨c, c1, c2, c3, c4⟩ := hl _ h1
        exact absurd h3 (occurs_blank (hs.line h2) c1 c2 c3 c4)
    · exact .inr ⟨h1, fun l hm => h2 l (List.mem_append_left _ hm)⟩

end Verif.Stream
