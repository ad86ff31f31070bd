import Verif.Props.VasprunDos
import Verif.Props.VasprunProj
/-! # Projections and partial densities of vasprun.xml for every number of columns (C143, the exact form of C48 and C55) -/
set_option autoImplicit false
namespace Verif.Vasprun
open Verif Verif.Utils Verif.Xml
open Verif.Kpoints (idx toFloat toInt)

/-- Specification: what becomes of a printed row in an array with rows of `n` numbers. The row itself if it has `n` numbers; a single number is
repeated; in all other cases zeros. -/
inductive RowShown (n : Nat) : List Rat → List Rat → Prop
  | whole (row : List Rat) : row.length = n → RowShown n row row
  | repeated (x : Rat) : RowShown n [x] (List.replicate n x)
  | zeros (row : List Rat) : row.length ≠ n → row.length ≠ 1 → RowShown n row (List.replicate n 0)

theorem fitRow_shown (n : Nat) (row : List Rat) : RowShown n row (fitRow n row) := by
  unfold fitRow
  split
  · rename_i h; exact .whole row h
  · rename_i h
    split
    · exact .repeated _
    · rename_i h1
      refine .zeros row h ?_
      intro h2
      obtain ⟨x, rfl⟩ := List.length_eq_one_iff.1 h2
      exact h1 x rfl

theorem RowShown.unique {n : Nat} {row x y : List Rat} (h : RowShown n row x) (h' : RowShown n row y) : x = y := by
  cases h with
  | whole _ h1 =>
    cases h' with
    | whole => rfl
    | repeated x => simp at h1; subst h1; rfl
    | zeros _ h2 => exact absurd h1 h2
  | repeated x =>
    cases h' with
    | whole _ h1 => simp at h1; subst h1; rfl
    | repeated => rfl
    | zeros _ _ h2 => exact absurd rfl h2
  | zeros _ h1 h2 =>
    cases h' with
    | whole _ h3 => exact absurd h3 h1
    | repeated => exact absurd rfl h2
    | zeros => rfl

/-- **C143**, projections with any number of columns, the same in all rows: `projectors[a][b][k]` (`[a][k][b]` if wanted) is what becomes of the row printed
for atom `a`, band `b` and k-point `k` in rows of nine numbers. -/
theorem C143_projectors (root : Node) (kbb all : Bool) (d : Data) (h : parsew root kbb all = .ok d) (na nb nk c : Nat) (ha : 0 < na) (hb : 0 < nb)
    (hk : 0 < nk) (h1 : Regular3 (projSets root c!"spin1") na nb nk c)
    (h2 : projSets root c!"spin2" = [] ∨ Regular3 (projSets root c!"spin2") na nb nk c)
    (hn : d.params.nbands = some (nb : Int)) (hks : ∀ ks, d.kpoints = some ks → ks.length = nk) :
    (∃ sp, d.species = some sp ∧ sp.length = na) ∧
    ∃ p, d.projectors = some p ∧ BySpin' (fun spin x => Placed3 kbb na nb nk
      (fun a k b x => ∃ row, AtomRow (projSets root spin) a k b row ∧ row.length = c ∧ RowShown 9 row x) x) (projSets root c!"spin2" = []) p := by
  obtain ⟨g1, p, hp, hs⟩ := projectors_fit root kbb all d h na nb nk c ha hb hk h1 h2 hn hks
  refine ⟨g1, p, hp, ?_⟩
  have key : ∀ (sets : List Node) (x : List (List Table)), Placed3 kbb na nb nk
      (fun a k b x => ∃ row, AtomRow sets a k b row ∧ row.length = c ∧ x = fitRow 9 row) x →
      Placed3 kbb na nb nk (fun a k b x => ∃ row, AtomRow sets a k b row ∧ row.length = c ∧ RowShown 9 row x) x := by
    rintro sets x ⟨g1, g2⟩
    refine ⟨g1, fun a y hy => ⟨(g2 a y hy).1, fun b k hb hk => ?_⟩⟩
    obtain ⟨z, ⟨row, hr, hl, rfl⟩, hz⟩ := (g2 a y hy).2 b k hb hk
    exact ⟨_, ⟨row, hr, hl, fitRow_shown 9 row⟩, hz⟩
  cases p with
  | total x => exact ⟨hs.1, key _ _ hs.2⟩
  | updown x y => exact ⟨hs.1, key _ _ hs.2.1, key _ _ hs.2.2⟩

/-- **C143**, the projections are those printed exactly if there are nine columns (or all is zero anyway, or one number nine times). -/
theorem C143_nine (c : Nat) (row x : List Rat) (hl : row.length = c) (h : RowShown 9 row x) : x = row ↔ c = 9 := by
  cases h with
  | whole _ h => exact ⟨fun _ => by omega, fun _ => rfl⟩
  | repeated y =>
    constructor
    · intro h; have := congrArg List.length h; simp at this
    · intro h; subst h; simp at hl
  | zeros _ h1 h2 =>
    constructor
    · intro h; have := congrArg List.length h; simp at this; omega
    · intro h; omega

/-- The partial densities, with `c` numbers in every row: `[a][e]` is what becomes of row `e` of atom `a` in rows of ten numbers, without the first. -/
def PartShown (sets : List Node) (na ne c : Nat) (p : Option (List Table)) : Prop :=
  (sets = [] ∧ p = none) ∨ ∃ q, p = some q ∧ Shape na ne q ∧ ∀ a e, a < na → e < ne →
    ∃ row x, BandRow sets a e row ∧ row.length = c ∧ RowShown 10 row x ∧ at2 q a e = some (x.drop 1)

/-- The density of states of one spin. -/
def DosShown (root : Node) (dos : Step) (spin : Str) (na ne c : Nat) (p : DosPart) : Prop :=
  Column 1 (totalRows root dos spin) p.total ∧ Column 2 (totalRows root dos spin) p.integrated ∧ PartShown (partSets root dos spin) na ne c p.partials

/-- The densities of states by spin. -/
def DosShownBySpin (root : Node) (dos : Step) (na ne c : Nat) (x : Dos) : Prop :=
  if totalRows root dos c!"spin 2" = [] then x.up = none ∧ x.down = none ∧ ∃ p, x.whole = some p ∧ DosShown root dos c!"spin 1" na ne c p
  else x.whole = none ∧ ∃ p q, x.up = some p ∧ x.down = some q ∧ DosShown root dos c!"spin 1" na ne c p ∧ DosShown root dos c!"spin 2" na ne c q

theorem partialOf_any {sets : List Node} {na ne c : Nat} (h : sets = [] ∨ Regular sets ne na c) (ha : 0 < na) (he : 0 < ne) :
    ∃ p, partialOf na (nonEmpty (sets.flatMap rowsIn)) = .ok p ∧ PartShown sets na ne c p := by
  rcases h with rfl | h
  · exact ⟨none, rfl, .inl ⟨rfl, rfl⟩⟩
  · obtain ⟨q, hq, hs, hv⟩ := partialDos_fit h ha
    have hne := h.rows_ne he ha
    refine ⟨some q, ?_, .inr ⟨q, rfl, hs, fun a e h1 h2 => ?_⟩⟩
    · unfold nonEmpty partialOf
      have : (sets.flatMap rowsIn).isEmpty = false := by simpa using hne
      simp only [this, Bool.false_eq_true, if_false, hq, Res.ok_bind]
    · obtain ⟨row, g1, g2, g3⟩ := hv a e h1 h2
      exact ⟨row, _, g1, g2, fitRow_shown 10 row, g3⟩

theorem oneDos_any {root : Node} {dos : Step} {na ne c : Nat} {r : Option Dos} (h : fetchOneDos root dos (some na) = .ok r) (ha : 0 < na) (he : 0 < ne)
    (hne : totalRows root dos c!"spin 1" ≠ []) (h1 : AllPrint 3 (totalRows root dos c!"spin 1")) (h2 : AllPrint 3 (totalRows root dos c!"spin 2"))
    (p1 : partSets root dos c!"spin 1" = [] ∨ Regular (partSets root dos c!"spin 1") ne na c)
    (p2 : partSets root dos c!"spin 2" = [] ∨ Regular (partSets root dos c!"spin 2") ne na c) :
    ∃ x, r = some x ∧ Column 0 (totalRows root dos c!"spin 1") x.energy ∧
      FirstNumber (findAny root (t c!"calculation") [dos, tn c!"i" c!"efermi"]) x.fermi ∧ DosShownBySpin root dos na ne c x := by
  unfold fetchOneDos at h
  obtain ⟨fermi, hf, h⟩ := Res.bind_eq_ok.1 h
  have hfermi := fetchF_ok hf
  simp only [part_path] at h
  change (match totalRows root dos c!"spin 1" with
    | [] => (Res.ok none : Res (Option Dos))
    | t1 => extractDos t1 (nonEmpty (totalRows root dos c!"spin 2")) (nonEmpty ((partSets root dos c!"spin 1").flatMap rowsIn))
        (nonEmpty ((partSets root dos c!"spin 2").flatMap rowsIn)) fermi na >>= fun x => .ok (some x)) = .ok r at h
  have h : (extractDos (totalRows root dos c!"spin 1") (nonEmpty (totalRows root dos c!"spin 2")) (nonEmpty ((partSets root dos c!"spin 1").flatMap rowsIn))
        (nonEmpty ((partSets root dos c!"spin 2").flatMap rowsIn)) fermi na >>= fun x => .ok (some x)) = .ok r := by
    generalize totalRows root dos c!"spin 1" = l at h hne
    cases l with
    | nil => exact absurd rfl hne
    | cons a as => exact h
  obtain ⟨x, hx, h⟩ := Res.bind_eq_ok.1 h
  injection h with h
  refine ⟨x, h.symm, ?_⟩
  obtain ⟨r1, hr1⟩ := h1.rows
  obtain ⟨r2, hr2⟩ := h2.rows
  obtain ⟨q1, hq1, hp1⟩ := partialOf_any p1 ha he
  obtain ⟨q2, hq2, hp2⟩ := partialOf_any p2 ha he
  unfold extractDos at hx
  unfold DosShownBySpin
  by_cases hs : totalRows root dos c!"spin 2" = []
  · rw [if_pos hs]
    rw [hs] at hx
    simp only [nonEmpty, List.isEmpty_nil, if_true] at hx
    rw [convert2D_rows hr1, Res.ok_bind] at hx
    change (partialOf na (nonEmpty ((partSets root dos c!"spin 1").flatMap rowsIn)) >>= _) = _ at hx
    rw [hq1, Res.ok_bind] at hx
    injection hx with hx
    subst hx
    exact ⟨tableColumn_spec hr1 (by omega), hfermi, rfl, rfl, _, rfl, tableColumn_spec hr1 (by omega), tableColumn_spec hr1 (by omega), hp1⟩
  · rw [if_neg hs]
    have : nonEmpty (totalRows root dos c!"spin 2") = some (totalRows root dos c!"spin 2") := by
      unfold nonEmpty; rw [if_neg (by simpa using hs)]
    rw [this] at hx
    simp only [convert2D_rows hr1, convert2D_rows hr2, Res.ok_bind, hq1, hq2] at hx
    injection hx with hx
    subst hx
    exact ⟨tableColumn_spec hr1 (by omega), hfermi, rfl, _, _, rfl, rfl, ⟨tableColumn_spec hr1 (by omega), tableColumn_spec hr1 (by omega), hp1⟩,
      tableColumn_spec hr2 (by omega), tableColumn_spec hr2 (by omega), hp2⟩

/-- **C143**, the density of states with any number of columns in the partial densities, the same in all rows. -/
theorem C143_dos (root : Node) (kbb all : Bool) (d : Data) (h : parsew root kbb all = .ok d) (sp : List Nat) (hsp : d.species = some sp) (ne c : Nat)
    (ha : 0 < sp.length) (he : 0 < ne) (hne : totalRows root (t c!"dos") c!"spin 1" ≠ [])
    (h1 : AllPrint 3 (totalRows root (t c!"dos") c!"spin 1")) (h2 : AllPrint 3 (totalRows root (t c!"dos") c!"spin 2"))
    (p1 : partSets root (t c!"dos") c!"spin 1" = [] ∨ Regular (partSets root (t c!"dos") c!"spin 1") ne sp.length c)
    (p2 : partSets root (t c!"dos") c!"spin 2" = [] ∨ Regular (partSets root (t c!"dos") c!"spin 2") ne sp.length c) :
    ∃ x, d.dos = some x ∧ Column 0 (totalRows root (t c!"dos") c!"spin 1") x.energy ∧
      FirstNumber (findAny root (t c!"calculation") [t c!"dos", tn c!"i" c!"efermi"]) x.fermi ∧ DosShownBySpin root (t c!"dos") sp.length ne c x := by
  have hd := (parts h).dos
  rw [hsp] at hd
  unfold fetchDos at hd
  obtain ⟨r, hr, hd⟩ := Res.bind_eq_ok.1 hd
  obtain ⟨x, rfl, g⟩ := oneDos_any hr ha he hne h1 h2 p1 p2
  simp only at hd
  obtain ⟨s, _, hd⟩ := Res.bind_eq_ok.1 hd
  injection hd with hd
  injection hd with hd1 hd2
  exact ⟨x, hd1.symm, g⟩

/-- A density of states with one atom whose partial densities have four columns. -/
def fourColumns : Node := box c!"modeling" [atomListOne, box c!"calculation" [box c!"dos" [item' c!"i" c!"efermi" c!" 5.5 ",
  box c!"total" [box c!"array" [box c!"set" [commented c!"set" c!"spin 1" [leaf c!"r" c!" -1.0 0.5 0.25 "]]]],
  box c!"partial" [box c!"array" [box c!"set" [commented c!"set" c!"ion 1" [commented c!"set" c!"spin 1" [leaf c!"r" c!" -1.0 1 2 3 "]]]]]]]]
where
  /-- One atom. -/
  atomListOne : Node := box c!"atominfo" [named c!"array" c!"atoms" [box c!"set" [box c!"rc" [leaf c!"c" c!"Si ", leaf c!"c" c!"   1"]]]]

/-- Non-vacuity: four columns are read as zeros. -/
example : ∃ d x, parsew fourColumns false true = .ok d ∧ d.species = some [14] ∧ d.dos = some x ∧
    (partSets fourColumns (t c!"dos") c!"spin 1").length = 1 ∧ x.whole = some ⟨[1/2], [1/4], some [[[0, 0, 0, 0, 0, 0, 0, 0, 0]]]⟩ := by
  refine ⟨_, _, rfl, by decide +kernel, rfl, rfl, by decide +kernel⟩

example : Regular (partSets fourColumns (t c!"dos") c!"spin 1") 1 1 4 := by
  refine ⟨rfl, fun s hs => ?_⟩
  have : (partSets fourColumns (t c!"dos") c!"spin 1") = [commented c!"set" c!"spin 1" [leaf c!"r" c!" -1.0 1 2 3 "]] := rfl
  rw [this] at hs
  cases List.mem_singleton.1 hs
  exact ⟨rfl, allPrint_of (by decide +kernel)⟩

end Verif.Vasprun
